import re
S=open('/repo/tinynn/converter/schemas/tflite/schema_generated.py').read().split('\n')
adds={}  # func -> (kind, slot, default, line)
for n,l in enumerate(S,1):
    m=re.match(r'def (\w+)\(builder, \w+\): builder\.Prepend(\w+)Slot\((\d+), (.*), ([^,]+)\)$',l)
    if m: adds[m[1]]=(m[2],int(m[3]),m[5],n)
accs={} # (cls,field)->(offset,kind,default,line)
cls=None; enums={}
i=0
while i<len(S):
    l=S[i]
    m=re.match(r'class (\w+)\(object\):',l)
    if m: cls=m[1]
    m=re.match(r'    (\w+) = (-?\d+)$',l)
    if m: enums.setdefault(cls,{})[m[1]]=int(m[2])
    m=re.match(r'    def (\w+)\(self(, j)?\):',l)
    if m:
        body=S[i+1:i+12]
        b=[]
        for x in body:
            if x.strip()=='' : break
            b.append(x)
        bs='\n'.join(b)
        o=re.search(r'_tab\.Offset\((\d+)\)',bs)
        if o:
            ret=b[-1].strip()
            k=re.search(r'number_types\.(\w+)Flags, o|Get\(flatbuffers\.number_types\.(\w+)Flags',bs)
            accs[(cls,m[1])]=(int(o[1]),m[2],ret,i+1,bs)
    i+=1
G=open('/repo/tinynn/converter/operators/tflite/generated_ops.py').read()
lines=G.split('\n')
ops=[]
cur=None
for n,l in enumerate(lines,1):
    m=re.match(r'class (\w+)\((\w+)\):',l)
    if m:
        cur=dict(name=m[1],base=m[2],line=n,adds=[],code=None,opt=None,start=None,attrs=[],opadds=[]); ops.append(cur)
    m=re.search(r'BuiltinOperator\.(\w+)',l)
    if m and cur: cur['code']=m[1]
    m=re.search(r'BuiltinOptions\.(\w+)\)',l)
    if m: cur['opt']=m[1]
    m=re.search(r'tflite\.(\w+)Start\(builder\)',l)
    if m and m[1]!='Operator': cur['start']=m[1]
    m=re.search(r'tflite\.(\w+)\(builder, (.+)\)$',l.strip())
    if m:
        if m[1].startswith('OperatorAdd'): cur['opadds'].append((m[1],m[2]))
        else: cur['adds'].append((m[1],m[2]))
    m=re.match(r'        self\.(\w+) = (\w+)$',l)
    if m: cur['attrs'].append(m[1])
    if cur: cur['end']=n
if __name__=='__main__':
    print(len(adds),len(accs),len(ops))
    for o in ops:
        bad=[]
        if o['start']!=o['opt']: bad.append(('start',o['start'],o['opt']))
        for f,a in o['adds']:
            t=o['start']
            fld=f[len(t)+3:] if f.startswith(t+'Add') else None
            attr=a[5:] if a.startswith('self.') else a
            if fld is None or fld[0].lower()+fld[1:]!=attr: bad.append((f,a))
            if fld and (t,fld) in accs:
                off,_,ret,_,_=accs[(t,fld)]
                if off!=4+2*adds[f][1]: bad.append(('slot',f))
                d=adds[f][2]; r=ret.replace('return ','')
                if r=='bool(0)' or r=='False': r='False'
                print(f,adds[f],r) if str(d)!=r else None
        if len(o['adds'])!=len(o['attrs']): bad.append(('n',o['attrs'],o['adds']))
        exp=['OperatorAddOpcodeIndex','OperatorAddInputs','OperatorAddOutputs','OperatorAddIntermediates','OperatorAddBuiltinOptionsType','OperatorAddBuiltinOptions']
        if [x for x,_ in o['opadds']]!=exp: bad.append(o['opadds'])
        if bad: print(o['name'],o['code'],o['line'],bad)
    for o in ops: print(o['name'],o['code'],o['opt'],[ (f,adds[f][:3]) for f,a in o['adds']][:0])

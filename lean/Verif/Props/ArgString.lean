import Verif.Model.ArgString
import Mathlib.Tactic.Common

/-!
C92: the text the tracer generates for a call is read by Python as a call with the recorded arguments.
-/

namespace Verif.Props
open Verif.Spec.PyExpr Verif.Model.ArgString

/-- The text of an atom: not empty, no blanks, quotes, brackets, commas, colons. -/
def TextOk (t : List Char) : Prop := t ≠ [] ∧ ∀ c ∈ t, isDelim c = false

/-- A tensor's name: an identifier and numeric places. -/
def NameOk (a : Atom) : Prop := TextOk a.text ∧ ∀ d ∈ a.path, d ≠ [] ∧ ∀ c ∈ d, c.isDigit = true

/-- A string that can be quoted as it is. -/
def StrOk (t : List Char) : Prop := ∀ c ∈ t, c ≠ '\'' ∧ c ≠ '\\' ∧ c ≠ '\n'

/-- `nan`, `inf`, `-inf`. -/
def SpecialOk (t : List Char) : Prop := t = ['n', 'a', 'n'] ∨ t = ['i', 'n', 'f'] ∨ t = ['-', 'i', 'n', 'f']

/-- Arguments of the supported kinds, with strings that can be quoted as they are and no slices. -/
inductive ArgOk : Arg → Prop
  | tensor (nm : Atom) : NameOk nm → ArgOk (.tensor nm)
  | atom (t : List Char) : TextOk t → ArgOk (.atom t)
  | special (t : List Char) : SpecialOk t → ArgOk (.special t)
  | str (t : List Char) : StrOk t → ArgOk (.str t)
  | seq (b : Bool) (l : List Arg) : (∀ a ∈ l, ArgOk a) → ArgOk (.seq b l)

def PartOk : Option Part → Prop
  | none => True
  | some (.tensor nm) => NameOk nm
  | some (.atom t) => TextOk t

/-- An item of an index: an argument or a slice. -/
inductive ItemOk : Arg → Prop
  | arg (a : Arg) : ArgOk a → ItemOk a
  | slice (a b c : Option Part) : PartOk a → PartOk b → PartOk c → ItemOk (.slice a b c)

/-- The value recorded for an argument; lists and tuples are not told apart. -/
def val : Arg → Val
  | .tensor nm => .atom nm
  | .atom t => .atom ⟨t, []⟩
  | .special t => .float t
  | .str t => .str t
  | .slice _ _ _ => .list []
  | .seq _ l => .list (vals l)
where
  vals : List Arg → List Val
    | [] => []
    | a :: as => val a :: vals as

def partVal : Option Part → Option Atom
  | none => none
  | some (.tensor nm) => some nm
  | some (.atom t) => some ⟨t, []⟩

/-- The item recorded in an index. -/
def itemVal : Arg → Item
  | .slice a b c => .slice (partVal a) (partVal b) (partVal c)
  | a => .val (val a)

/-- What `x[index]` indexes with: a tuple's items, or the index itself. -/
def indexItems : Arg → List Arg
  | .seq true l => l
  | a => [a]

/-- The argument with the names filled in. -/
def text : Arg → List Char
  | .tensor nm => nameText nm
  | .atom t => t
  | .special t => ['f', 'l', 'o', 'a', 't', '(', '\''] ++ t ++ ['\'', ')']
  | .str t => '\'' :: t ++ ['\'']
  | .slice a b c => sliceText (partText a) (partText b) (partText c)
  | .seq _ l => '[' :: join [',', ' '] (texts l) ++ [']']
where
  partText : Option Part → List Char
    | none => []
    | some (.tensor nm) => nameText nm
    | some (.atom t) => t
  texts : List Arg → List (List Char)
    | [] => []
    | a :: as => text a :: texts as

/-! ### Filling in the names -/

theorem format_cons {c : Char} (h1 : c ≠ '{') (h2 : c ≠ '}') (r : List Char) (ns : List (List Char)) : format (c :: r) ns = (format r ns).map (c :: ·) := by
  conv_lhs => unfold format
  split <;> simp_all

theorem format_plain : ∀ (s t : List Char) (ns : List (List Char)), (∀ c ∈ s, c ≠ '{' ∧ c ≠ '}') → format (s ++ t) ns = (format t ns).map (s ++ ·)
  | [], t, ns, _ => by simp
  | c :: s, t, ns, h => by
    have hc := h c List.mem_cons_self
    rw [List.cons_append, format_cons hc.1 hc.2, format_plain s t ns fun d hd => h d (List.mem_cons_of_mem _ hd), Option.map_map]
    rfl

theorem format_name (t : List Char) (n : List Char) (ns : List (List Char)) : format (['{', '}'] ++ t) (n :: ns) = (format t ns).map (n ++ ·) := by
  show format ('{' :: '}' :: t) (n :: ns) = _
  rw [format]

theorem format_escape : ∀ (s t : List Char) (ns : List (List Char)), format (escape s ++ t) ns = (format t ns).map (s ++ ·)
  | [], t, ns => by simp [escape]
  | c :: s, t, ns => by
    unfold escape
    split_ifs with h
    · rcases h with rfl | rfl
      · show format ('{' :: '{' :: (escape s ++ t)) ns = _
        rw [format, format_escape s t ns, Option.map_map]; rfl
      · show format ('}' :: '}' :: (escape s ++ t)) ns = _
        rw [format, format_escape s t ns, Option.map_map]; rfl
    · simp only [not_or] at h
      rw [List.cons_append, format_cons h.1 h.2, format_escape s t ns, Option.map_map]; rfl

theorem textOk_brace {t : List Char} (h : TextOk t) : ∀ c ∈ t, c ≠ '{' ∧ c ≠ '}' := by
  intro c hc
  have := h.2 c hc
  constructor <;> rintro rfl <;> simp [isDelim] at this

theorem special_brace {t : List Char} (h : SpecialOk t) : ∀ c ∈ t, c ≠ '{' ∧ c ≠ '}' := by
  rcases h with rfl | rfl | rfl <;> decide

/-- Filling in the names of a template part gives the text of the argument. -/
def Fills (tm : List Char) (ns : List (List Char)) (tx : List Char) : Prop :=
  ∀ t ms, format (tm ++ t) (ns ++ ms) = (format t ms).map (tx ++ ·)

theorem Fills.append {a b : List Char} {n m : List (List Char)} {x y : List Char} (h1 : Fills a n x) (h2 : Fills b m y) : Fills (a ++ b) (n ++ m) (x ++ y) := by
  intro t ms
  rw [List.append_assoc, List.append_assoc, h1, h2, Option.map_map]
  congr 1
  funext z
  simp

theorem Fills.plain {s : List Char} (h : ∀ c ∈ s, c ≠ '{' ∧ c ≠ '}') : Fills s [] s := fun t ms => format_plain s t ms h

theorem Fills.name (n : List Char) : Fills ['{', '}'] [n] n := fun t ms => format_name t n ms

theorem Fills.join {sep : List Char} (hs : ∀ c ∈ sep, c ≠ '{' ∧ c ≠ '}') : ∀ (l : List (List Char × List (List Char) × List Char)), (∀ x ∈ l, Fills x.1 x.2.1 x.2.2) →
    Fills (join sep (l.map fun x => x.1)) (l.map fun x => x.2.1).flatten (join sep (l.map fun x => x.2.2))
  | [], _ => by intro t ms; simp [Model.ArgString.join]
  | [x], h => by
    have := h x List.mem_cons_self
    simpa [Model.ArgString.join] using this
  | x :: y :: l, h => by
    have h1 := h x List.mem_cons_self
    have h2 := Fills.join hs (y :: l) fun z hz => h z (List.mem_cons_of_mem _ hz)
    have := (h1.append ((Fills.plain hs).append h2))
    simpa [Model.ArgString.join] using this

theorem sliceText_nil (a b : List Char) : sliceText a b [] = a ++ ':' :: b := by
  have : join [':'] [a, b, []] = (a ++ ':' :: b) ++ [':'] := by simp [join]
  simp only [sliceText, this]
  rw [if_pos (by rw [List.getLast?_append_of_ne_nil _ (by simp)]; rfl), List.dropLast_append_of_ne_nil (by simp)]
  simp

theorem sliceText_some (a b c : List Char) (hc : c ≠ []) (h : ∀ x ∈ c, x ≠ ':') : sliceText a b c = a ++ ':' :: b ++ ':' :: c := by
  have e : join [':'] [a, b, c] = a ++ ':' :: b ++ ':' :: c := by simp [join]
  simp only [sliceText, e]
  rw [if_neg]
  rw [List.getLast?_append_of_ne_nil _ (by simp), List.getLast?_cons, List.getLast?_eq_some_getLast hc]
  simp only [Option.getD_some, Option.some.injEq]
  exact h _ (List.getLast_mem hc)

theorem nameText_mem {a : Atom} (h : NameOk a) : ∀ c ∈ nameText a, isDelim c = false ∨ c.isDigit = true ∨ c = '[' ∨ c = ']' := by
  intro c hc
  simp only [nameText, List.mem_append, List.mem_flatten, List.mem_map] at hc
  rcases hc with hc | ⟨l, ⟨d, hd, rfl⟩, hc⟩
  · exact Or.inl (h.1.2 c hc)
  · simp only [List.cons_append, List.mem_cons, List.mem_append, List.not_mem_nil, or_false] at hc
    rcases hc with hc | hc | hc
    · exact Or.inr (Or.inr (Or.inl hc))
    · exact Or.inr (Or.inl ((h.2 d hd).2 c hc))
    · exact Or.inr (Or.inr (Or.inr hc))

theorem nameText_colon {a : Atom} (h : NameOk a) : ∀ c ∈ nameText a, c ≠ ':' := by
  rintro c hc rfl
  rcases nameText_mem h _ hc with e | e | e | e
  · simp [isDelim] at e
  · simp [Char.isDigit] at e
  · simp at e
  · simp at e

theorem nameText_ne {a : Atom} (h : NameOk a) : nameText a ≠ [] := by
  have := h.1.1
  simp [nameText, this]

theorem textOk_colon {t : List Char} (h : TextOk t) : ∀ c ∈ t, c ≠ ':' := by
  rintro c hc rfl
  have := h.2 _ hc
  simp [isDelim] at this

theorem fills_part {p : Option Part} (h : PartOk p) : Fills (partTmpl p) (partNames p) (text.partText p) := by
  match p, h with
  | none, _ => intro t ms; simp [partTmpl, partNames, text.partText]
  | some (.tensor nm), _ => exact Fills.name _
  | some (.atom t), h => exact Fills.plain (textOk_brace h)

theorem partText_cases {p : Option Part} (h : PartOk p) : (p = none ∧ text.partText p = [] ∧ partTmpl p = []) ∨
    (p ≠ none ∧ text.partText p ≠ [] ∧ partTmpl p ≠ [] ∧ (∀ x ∈ text.partText p, x ≠ ':') ∧ ∀ x ∈ partTmpl p, x ≠ ':') := by
  match p, h with
  | none, _ => exact Or.inl ⟨rfl, rfl, rfl⟩
  | some (.tensor nm), h => exact Or.inr ⟨by simp, nameText_ne h, by simp [partTmpl], nameText_colon h, by simp [partTmpl]⟩
  | some (.atom t), h => exact Or.inr ⟨by simp, h.1, h.1, textOk_colon h, textOk_colon h⟩

theorem fills_slice {a b c : Option Part} (ha : PartOk a) (hb : PartOk b) (hc : PartOk c) : Fills (tmpl (.slice a b c)) (names (.slice a b c)) (text (.slice a b c)) := by
  have hcol : Fills [':'] [] [':'] := Fills.plain (by decide)
  unfold tmpl names text
  rcases partText_cases hc with ⟨e, e1, e2⟩ | ⟨e, e1, e2, e3, e4⟩
  · subst e
    rw [e1, e2, sliceText_nil, sliceText_nil]
    have := (fills_part ha).append (hcol.append (fills_part hb))
    simpa [partNames] using this
  · rw [sliceText_some _ _ _ e1 e3, sliceText_some _ _ _ e2 e4]
    have := ((fills_part ha).append (hcol.append (fills_part hb))).append (hcol.append (fills_part hc))
    simpa using this

theorem fills_arg {a : Arg} (h : ArgOk a) : Fills (tmpl a) (names a) (text a) := by
  induction h with
  | tensor nm _ => exact Fills.name _
  | atom t h => exact Fills.plain (textOk_brace h)
  | special t h =>
    have := ((Fills.plain (s := ['f', 'l', 'o', 'a', 't', '(', '\'']) (by decide)).append (Fills.plain (special_brace h))).append (Fills.plain (s := ['\'', ')']) (by decide))
    simpa [tmpl, names, text] using this
  | str t _ =>
    intro u ms
    show format (escape ('\'' :: t ++ ['\'']) ++ u) ms = _
    rw [format_escape]
    rfl
  | seq b l _ ih =>
    have key : ∀ l : List Arg, (∀ a ∈ l, Fills (tmpl a) (names a) (text a)) → Fills (join [',', ' '] (tmpl.tmpls l)) (names.namesL l) (join [',', ' '] (text.texts l)) := by
      intro l hl
      have := Fills.join (sep := [',', ' ']) (by decide) (l.map fun a => (tmpl a, names a, text a)) (by
        intro x hx
        obtain ⟨a, ha, rfl⟩ := List.mem_map.1 hx
        exact hl a ha)
      simp only [List.map_map, Function.comp_def] at this
      have e1 : ∀ l, tmpl.tmpls l = l.map tmpl := by intro l; induction l <;> simp_all [tmpl.tmpls]
      have e2 : ∀ l, names.namesL l = (l.map names).flatten := by intro l; induction l <;> simp_all [names.namesL]
      have e3 : ∀ l, text.texts l = l.map text := by intro l; induction l <;> simp_all [text.texts]
      rw [e1, e2, e3]
      exact this
    have := ((Fills.plain (s := ['[']) (by decide)).append (key l ih)).append (Fills.plain (s := [']']) (by decide))
    simpa [tmpl, names, text] using this

/-! ### Reading the text -/

/-- The text behind an expression: nothing, or a comma, a closing bracket or parenthesis. -/
def ArgClosed (r : List Char) : Prop := r = [] ∨ ∃ c t, r = c :: t ∧ (c = ',' ∨ c = ']' ∨ c = ')')

theorem ArgClosed.delim {r : List Char} (h : ArgClosed r) : ∀ c t, r = c :: t → isDelim c = true ∧ c ≠ '[' ∧ c ≠ '(' ∧ c ≠ ':' := by
  intro c t e
  rcases h with h | ⟨c', t', h, hc⟩
  · rw [h] at e; cases e
  · rw [h] at e
    cases e
    rcases hc with rfl | rfl | rfl <;> decide

/-- `r` may follow an atom. -/
def AtomEnd (r : List Char) : Prop := ∀ c t, r = c :: t → isDelim c = true ∧ c ≠ '['

theorem takeWhile_stop {p : Char → Bool} : ∀ {t r : List Char}, (∀ c ∈ t, p c = true) → (∀ c u, r = c :: u → p c = false) → (t ++ r).takeWhile p = t ∧ (t ++ r).dropWhile p = r
  | [], r, _, hr => by
    cases r with
    | nil => simp
    | cons c u => have := hr c u rfl; simp [this]
  | c :: t, r, ht, hr => by
    have h0 := ht c List.mem_cons_self
    have := takeWhile_stop (t := t) (fun d hd => ht d (List.mem_cons_of_mem _ hd)) hr
    simp [h0, this.1, this.2]

theorem readPath_text : ∀ (p : List (List Char)) (n : ℕ) (r : List Char), p.length ≤ n → (∀ d ∈ p, d ≠ [] ∧ ∀ c ∈ d, c.isDigit = true) → (∀ c t, r = c :: t → c ≠ '[') →
    readPath n ((p.map fun d => '[' :: d ++ [']']).flatten ++ r) = (p, r)
  | [], n, r, _, _, hr => by
    simp only [List.map_nil, List.flatten_nil, List.nil_append]
    cases r with
    | nil => cases n <;> rfl
    | cons c t =>
      have := hr c t rfl
      cases n with
      | zero => rfl
      | succ n => unfold readPath; split <;> simp_all
  | d :: p, 0, r, hl, _, _ => by simp at hl
  | d :: p, n + 1, r, hl, hd, hr => by
    have h0 := hd d List.mem_cons_self
    have ih := readPath_text p n r (by simpa using hl) (fun e he => hd e (List.mem_cons_of_mem _ he)) hr
    have e : ((d :: p).map fun d => '[' :: d ++ [']']).flatten ++ r = '[' :: (d ++ (']' :: ((p.map fun d => '[' :: d ++ [']']).flatten ++ r))) := by simp
    rw [e]
    have tw := takeWhile_stop (p := Char.isDigit) (t := d) (r := ']' :: ((p.map fun d => '[' :: d ++ [']']).flatten ++ r)) h0.2 (by
      intro c u hc; cases hc; decide)
    simp only [readPath, tw.1, tw.2]
    cases d with
    | nil => exact absurd rfl h0.1
    | cons c d => simp only [ih]

theorem readAtom_text {a : Atom} (h : NameOk a) {r : List Char} (hr : AtomEnd r) : readAtom (nameText a ++ r) = some (a, r) := by
  have htx : ∀ c ∈ a.text, (!isDelim c) = true := fun c hc => by simp [h.1.2 c hc]
  have tw := takeWhile_stop (p := fun c => !isDelim c) (t := a.text) (r := (a.path.map fun d => '[' :: d ++ [']']).flatten ++ r) htx (by
    intro c u hc
    cases hp : a.path with
    | nil =>
      rw [hp] at hc
      simp only [List.map_nil, List.flatten_nil, List.nil_append] at hc
      simp [(hr c u hc).1]
    | cons d p =>
      rw [hp] at hc
      simp only [List.map_cons, List.flatten_cons, List.cons_append] at hc
      cases hc
      decide)
  have e : nameText a ++ r = a.text ++ ((a.path.map fun d => '[' :: d ++ [']']).flatten ++ r) := by simp [nameText]
  unfold readAtom
  rw [e, tw.1, tw.2]
  have hlen : a.path.length ≤ (a.text ++ ((a.path.map fun d => '[' :: d ++ [']']).flatten ++ r)).length := by
    have : ∀ p : List (List Char), p.length ≤ ((p.map fun d => '[' :: d ++ [']']).flatten).length := by
      intro p
      induction p with
      | nil => simp
      | cons d p ih => simp only [List.map_cons, List.flatten_cons, List.length_append, List.length_cons]; omega
    have := this a.path
    simp only [List.length_append]
    omega
  rw [readPath_text a.path _ r hlen h.2 fun c t hc => (hr c t hc).2]
  obtain ⟨c, t, hct⟩ := List.exists_cons_of_ne_nil h.1.1
  obtain ⟨tx, pa⟩ := a
  simp only at hct
  subst hct
  rfl

theorem readStr_text : ∀ (t r : List Char), StrOk t → readStr (t ++ '\'' :: r) = some (t, r)
  | [], r, _ => by simp [readStr]
  | c :: t, r, h => by
    have hc := h c List.mem_cons_self
    have ih := readStr_text t r fun d hd => h d (List.mem_cons_of_mem _ hd)
    rw [List.cons_append]
    unfold readStr
    split
    · simp_all
    · simp_all
    · rename_i heq
      cases heq
      rw [if_neg (by simp [hc.2.1, hc.2.2]), ih]
      rfl

theorem atomEnd_of_closed {r : List Char} (h : ArgClosed r) : AtomEnd r := fun c t e => ⟨(h.delim c t e).1, (h.delim c t e).2.1⟩

theorem atomOk_text {t : List Char} (h : TextOk t) : NameOk ⟨t, []⟩ := ⟨h, by simp⟩

theorem nameText_head {a : Atom} (h : NameOk a) : ∃ c t, nameText a = c :: t ∧ isDelim c = false := by
  obtain ⟨c, t, hct⟩ := List.exists_cons_of_ne_nil h.1.1
  exact ⟨c, t ++ (a.path.map fun d => '[' :: d ++ [']']).flatten, by rw [nameText, hct]; rfl, h.1.2 c (by rw [hct]; simp)⟩

theorem readSimple_atom {a : Atom} (h : NameOk a) {r : List Char} (hr : ArgClosed r) : readSimple (nameText a ++ r) = some (.atom a, r) := by
  unfold readSimple
  rw [readAtom_text h (atomEnd_of_closed hr)]
  split
  · simp_all
  · rename_i heq
    simp only [Option.some.injEq, Prod.mk.injEq] at heq
    exact absurd rfl (hr.delim _ _ heq.2).2.2.1
  · rename_i heq
    simp_all

theorem readSimple_special {t : List Char} (h : SpecialOk t) (r : List Char) : readSimple (['f', 'l', 'o', 'a', 't', '(', '\''] ++ t ++ ['\'', ')'] ++ r) = some (.float t, r) := by
  have ht : StrOk t := by rcases h with rfl | rfl | rfl <;> (unfold StrOk; decide)
  have e : ['f', 'l', 'o', 'a', 't', '(', '\''] ++ t ++ ['\'', ')'] ++ r = nameText ⟨['f', 'l', 'o', 'a', 't'], []⟩ ++ ('(' :: '\'' :: (t ++ '\'' :: ')' :: r)) := by
    simp [nameText]
  have hok : NameOk ⟨['f', 'l', 'o', 'a', 't'], []⟩ := ⟨⟨by decide, by decide⟩, by simp⟩
  rw [e]
  unfold readSimple
  rw [readAtom_text hok (by intro c u hc; cases hc; decide)]
  simp only [true_and, if_true, and_self]
  rw [readStr_text t _ ht]
  rfl

/-- Reading an expression whose first character is neither a bracket nor a quote. -/
theorem readExpr_simple (n : ℕ) {s : List Char} (h : ∀ c t, s = c :: t → c ≠ '[' ∧ c ≠ '\'') : readExpr (n + 1) s = readSimple s := by
  cases s with
  | nil => rfl
  | cons c t =>
    have := h c t rfl
    unfold readExpr
    split
    · simp_all
    · simp_all
    · simp_all
    · rename_i heq1 heq2
      rfl

theorem text_head {a : Arg} (h : ArgOk a) : ∃ c t, text a = c :: t ∧ (isDelim c = false ∨ c = '[' ∨ c = '\'') := by
  cases h with
  | tensor nm h => obtain ⟨c, t, e, hd⟩ := nameText_head h; exact ⟨c, t, e, Or.inl hd⟩
  | atom t h =>
    obtain ⟨c, t', e⟩ := List.exists_cons_of_ne_nil h.1
    exact ⟨c, t', e, Or.inl (h.2 c (by rw [e]; simp))⟩
  | special t h => exact ⟨'f', _, rfl, Or.inl (by decide)⟩
  | str t h => exact ⟨'\'', _, rfl, Or.inr (Or.inr rfl)⟩
  | seq b l h => exact ⟨'[', _, rfl, Or.inr (Or.inl rfl)⟩

/-- Enough fuel reads the text back. -/
def ReadsAs (tx : List Char) (v : Val) : Prop := ∃ n0, ∀ n, n0 ≤ n → ∀ r, ArgClosed r → readExpr n (tx ++ r) = some (v, r)

theorem readItems_expr (n : ℕ) {s : List Char} (h : ∀ c t, s = c :: t → c ≠ ']') : readItems (n + 1) s = match readExpr n s with
    | some (v, ']' :: r) => some ([v], r)
    | some (v, ',' :: ' ' :: r) => (readItems n r).map fun p => (v :: p.1, p.2)
    | _ => none := by
  cases s with
  | nil => rfl
  | cons c t =>
    have := h c t rfl
    conv_lhs => unfold readItems
    split
    · simp_all
    · simp_all
    · rename_i heq1 heq2
      cases heq1
      rfl

theorem closed_bracket (r : List Char) : ArgClosed (']' :: r) := Or.inr ⟨_, _, rfl, by simp⟩
theorem closed_paren (r : List Char) : ArgClosed (')' :: r) := Or.inr ⟨_, _, rfl, by simp⟩
theorem closed_comma (r : List Char) : ArgClosed (',' :: r) := Or.inr ⟨_, _, rfl, by simp⟩

theorem text_start {a : Arg} (h : ArgOk a) (r : List Char) : ∀ c t, text a ++ r = c :: t → c ≠ ']' ∧ c ≠ ')' ∧ c ≠ ':' := by
  intro c t e
  obtain ⟨c', t', e', hc⟩ := text_head h
  rw [e'] at e
  cases e
  rcases hc with hc | rfl | rfl
  · refine ⟨?_, ?_, ?_⟩ <;> rintro rfl <;> simp [isDelim] at hc
  · decide
  · decide

theorem readItems_texts : ∀ (l : List Arg), (∀ a ∈ l, ArgOk a) → (∀ a ∈ l, ReadsAs (text a) (val a)) →
    ∃ n0, ∀ n, n0 ≤ n → ∀ r, readItems n (join [',', ' '] (text.texts l) ++ ']' :: r) = some (val.vals l, r)
  | [], _, _ => ⟨1, fun n hn r => by
      obtain ⟨m, rfl⟩ := Nat.exists_eq_add_of_le' hn
      rfl⟩
  | [a], ho, h => by
    obtain ⟨n0, h0⟩ := h a List.mem_cons_self
    refine ⟨n0 + 1, fun n hn r => ?_⟩
    obtain ⟨m, rfl⟩ := Nat.exists_eq_add_of_le' (show 1 ≤ n by omega)
    show readItems (m + 1) (text a ++ ']' :: r) = _
    rw [readItems_expr m fun c t e => (text_start (ho a List.mem_cons_self) _ c t e).1, h0 m (by omega) _ (closed_bracket r)]
    rfl
  | a :: b :: l, ho, h => by
    obtain ⟨n0, h0⟩ := h a List.mem_cons_self
    obtain ⟨n1, h1⟩ := readItems_texts (b :: l) (fun x hx => ho x (List.mem_cons_of_mem _ hx)) (fun x hx => h x (List.mem_cons_of_mem _ hx))
    refine ⟨n0 + n1 + 1, fun n hn r => ?_⟩
    obtain ⟨m, rfl⟩ := Nat.exists_eq_add_of_le' (show 1 ≤ n by omega)
    have e : join [',', ' '] (text.texts (a :: b :: l)) ++ ']' :: r = text a ++ (',' :: ' ' :: (join [',', ' '] (text.texts (b :: l)) ++ ']' :: r)) := by
      simp [text.texts, join]
    rw [e, readItems_expr m fun c t e => (text_start (ho a List.mem_cons_self) _ c t e).1, h0 m (by omega) _ (closed_comma _)]
    simp only
    rw [h1 m (by omega) r]
    rfl

theorem reads_arg {a : Arg} (h : ArgOk a) : ReadsAs (text a) (val a) := by
  induction h with
  | tensor nm h =>
    refine ⟨1, fun n hn r hr => ?_⟩
    obtain ⟨m, rfl⟩ := Nat.exists_eq_add_of_le' hn
    show readExpr (m + 1) (nameText nm ++ r) = _
    rw [readExpr_simple, readSimple_atom h hr]
    · rfl
    · intro c t e
      obtain ⟨c', t', e', hc⟩ := nameText_head h
      rw [e'] at e
      cases e
      constructor <;> rintro rfl <;> simp [isDelim] at hc
  | atom t h =>
    refine ⟨1, fun n hn r hr => ?_⟩
    obtain ⟨m, rfl⟩ := Nat.exists_eq_add_of_le' hn
    have e : text (.atom t) = nameText ⟨t, []⟩ := by simp [text, nameText]
    rw [e, readExpr_simple, readSimple_atom (atomOk_text h) hr]
    · rfl
    · intro c u e
      obtain ⟨c', t', e', hc⟩ := nameText_head (atomOk_text h)
      rw [e'] at e
      cases e
      constructor <;> rintro rfl <;> simp [isDelim] at hc
  | special t h =>
    refine ⟨1, fun n hn r hr => ?_⟩
    obtain ⟨m, rfl⟩ := Nat.exists_eq_add_of_le' hn
    unfold text
    rw [readExpr_simple, readSimple_special h r]
    · rfl
    · intro c u e
      cases e
      decide
  | str t h =>
    refine ⟨1, fun n hn r hr => ?_⟩
    obtain ⟨m, rfl⟩ := Nat.exists_eq_add_of_le' hn
    have e : text (.str t) ++ r = '\'' :: (t ++ '\'' :: r) := by simp [text]
    rw [e]
    show (readStr (t ++ '\'' :: r)).map _ = _
    rw [readStr_text t r h]
    rfl
  | seq b l ho ih =>
    obtain ⟨n0, h0⟩ := readItems_texts l ho ih
    refine ⟨n0 + 1, fun n hn r hr => ?_⟩
    obtain ⟨m, rfl⟩ := Nat.exists_eq_add_of_le' (show 1 ≤ n by omega)
    have e : text (.seq b l) ++ r = '[' :: (join [',', ' '] (text.texts l) ++ ']' :: r) := by simp [text]
    rw [e]
    show (readItems m (join [',', ' '] (text.texts l) ++ ']' :: r)).map _ = _
    rw [h0 m (by omega) r]
    rfl

/-! ### Calls -/

/-- The text in front of the first character that ends an atom is never followed by `=`. -/
theorem text_noKeyword {a : Arg} (h : ArgOk a) {r : List Char} (hr : ArgClosed r) : ∀ t, (text a ++ r).dropWhile (fun c => !isDelim c) ≠ '=' :: t := by
  have hd : ∀ c u, r = c :: u → (!isDelim c) = false := fun c u e => by simp [(hr.delim c u e).1]
  have hne : ∀ t, r ≠ '=' :: t := by
    intro t e
    rcases hr with h | ⟨c, u, h, hc⟩
    · rw [h] at e; cases e
    · rw [h] at e; cases e; simp at hc
  have hname : ∀ nm : Atom, NameOk nm → ∀ t, (nameText nm ++ r).dropWhile (fun c => !isDelim c) ≠ '=' :: t := by
    intro nm hn t
    have htx : ∀ c ∈ nm.text, (!isDelim c) = true := fun c hc => by simp [hn.1.2 c hc]
    cases hp : nm.path with
    | nil =>
      have e : nameText nm ++ r = nm.text ++ r := by simp [nameText, hp]
      rw [e, (takeWhile_stop htx hd).2]
      exact hne t
    | cons d p =>
      have e : nameText nm ++ r = nm.text ++ ('[' :: (d ++ ']' :: ((p.map fun d => '[' :: d ++ [']']).flatten ++ r))) := by simp [nameText, hp]
      rw [e, (takeWhile_stop htx (by intro c u hc; cases hc; decide)).2]
      simp
  intro t
  cases h with
  | tensor nm h => exact hname nm h t
  | atom tx h =>
    have := hname ⟨tx, []⟩ (atomOk_text h) t
    simpa [text, nameText] using this
  | special tx h =>
    have e : text (.special tx) ++ r = ['f', 'l', 'o', 'a', 't'] ++ ('(' :: '\'' :: (tx ++ ['\'', ')'] ++ r)) := by simp [text]
    rw [e, (takeWhile_stop (by decide) (by intro c u hc; cases hc; decide)).2]
    simp
  | str tx h =>
    have e : text (.str tx) ++ r = '\'' :: (tx ++ '\'' :: r) := by simp [text]
    rw [e]
    simp [isDelim]
  | seq b l h =>
    have e : text (.seq b l) ++ r = '[' :: (join [',', ' '] (text.texts l) ++ ']' :: r) := by simp [text]
    rw [e]
    simp [isDelim]

/-- An argument, with its keyword if it has one. -/
abbrev KwArg := Option (List Char) × Arg

def kwText : KwArg → List Char
  | (none, a) => text a
  | (some k, a) => k ++ '=' :: text a

def KwOk (k : KwArg) : Prop := (∀ t, k.1 = some t → TextOk t) ∧ ArgOk k.2

theorem reads_kw {k : KwArg} (h : KwOk k) : ∃ n0, ∀ n, n0 ≤ n → ∀ r, ArgClosed r → readArg n (kwText k ++ r) = some ((k.1, val k.2), r) := by
  obtain ⟨n0, h0⟩ := reads_arg h.2
  obtain ⟨o, a⟩ := k
  refine ⟨n0, fun n hn r hr => ?_⟩
  have h0' := h0 n hn r hr
  cases o with
  | none =>
    have hk := text_noKeyword h.2 hr
    unfold readArg
    split
    · rename_i heq2
      exact absurd heq2 (hk _)
    · simp only [kwText, h0', Option.map_some]
  | some key =>
    have hkey := h.1 key rfl
    have e : kwText (some key, a) ++ r = key ++ ('=' :: (text a ++ r)) := by simp [kwText]
    have tw := takeWhile_stop (p := fun c => !isDelim c) (t := key) (r := '=' :: (text a ++ r)) (fun c hc => by simp [hkey.2 c hc])
      (by intro c u hc; cases hc; decide)
    unfold readArg
    rw [e, tw.1, tw.2]
    obtain ⟨c, t, rfl⟩ := List.exists_cons_of_ne_nil hkey.1
    simp only [h0', Option.map_some]

theorem kwText_start {k : KwArg} (h : KwOk k) (r : List Char) : ∀ c t, kwText k ++ r = c :: t → c ≠ ')' := by
  obtain ⟨o, a⟩ := k
  intro c t e
  cases o with
  | none => exact (text_start h.2 r c t e).2.1
  | some key =>
    have hkey := h.1 key rfl
    obtain ⟨c', t', rfl⟩ := List.exists_cons_of_ne_nil hkey.1
    cases e
    rintro rfl
    have := hkey.2 ')' List.mem_cons_self
    simp [isDelim] at this

theorem readArgs_expr (n : ℕ) {s : List Char} (h : ∀ c t, s = c :: t → c ≠ ')') : readArgs (n + 1) s = match readArg n s with
    | some (v, ')' :: r) => some ([v], r)
    | some (v, ',' :: ' ' :: r) => (readArgs n r).map fun p => (v :: p.1, p.2)
    | _ => none := by
  cases s with
  | nil => rfl
  | cons c t =>
    have := h c t rfl
    conv_lhs => unfold readArgs
    split
    · simp_all
    · simp_all
    · rename_i heq1 heq2
      cases heq1
      rfl

theorem reads_args : ∀ (l : List KwArg), (∀ k ∈ l, KwOk k) →
    ∃ n0, ∀ n, n0 ≤ n → ∀ r, readArgs n (join [',', ' '] (l.map kwText) ++ ')' :: r) = some (l.map fun k => (k.1, val k.2), r)
  | [], _ => ⟨1, fun n hn r => by
      obtain ⟨m, rfl⟩ := Nat.exists_eq_add_of_le' hn
      rfl⟩
  | [k], h => by
    obtain ⟨n0, h0⟩ := reads_kw (h k List.mem_cons_self)
    refine ⟨n0 + 1, fun n hn r => ?_⟩
    obtain ⟨m, rfl⟩ := Nat.exists_eq_add_of_le' (show 1 ≤ n by omega)
    show readArgs (m + 1) (kwText k ++ ')' :: r) = _
    rw [readArgs_expr m (kwText_start (h k List.mem_cons_self) _), h0 m (by omega) _ (closed_paren r)]
    rfl
  | a :: b :: l, h => by
    obtain ⟨n0, h0⟩ := reads_kw (h a List.mem_cons_self)
    obtain ⟨n1, h1⟩ := reads_args (b :: l) (fun x hx => h x (List.mem_cons_of_mem _ hx))
    refine ⟨n0 + n1 + 1, fun n hn r => ?_⟩
    obtain ⟨m, rfl⟩ := Nat.exists_eq_add_of_le' (show 1 ≤ n by omega)
    have e : join [',', ' '] ((a :: b :: l).map kwText) ++ ')' :: r = kwText a ++ (',' :: ' ' :: (join [',', ' '] ((b :: l).map kwText) ++ ')' :: r)) := by
      simp [join]
    rw [e, readArgs_expr m (kwText_start (h a List.mem_cons_self) _), h0 m (by omega) _ (closed_comma _)]
    simp only
    rw [h1 m (by omega) r]
    rfl

/-- All arguments of a call, with their keywords. -/
def allArgs (args : List Arg) (kw : List (List Char × Arg)) : List KwArg := args.map (fun a => (none, a)) ++ kw.map fun k => (some k.1, k.2)

theorem fills_args (args : List Arg) (kw : List (List Char × Arg)) (ha : ∀ a ∈ args, ArgOk a) (hk : ∀ k ∈ kw, TextOk k.1 ∧ ArgOk k.2) :
    Fills (argsTemplate args kw) (argNames args kw) (join [',', ' '] ((allArgs args kw).map kwText)) := by
  have := Fills.join (sep := [',', ' ']) (by decide) (args.map (fun a => (tmpl a, names a, text a)) ++ kw.map fun k => (kwTmpl k, names k.2, kwText (some k.1, k.2))) (by
    intro x hx
    rcases List.mem_append.1 hx with hx | hx
    · obtain ⟨a, h, rfl⟩ := List.mem_map.1 hx
      exact fills_arg (ha a h)
    · obtain ⟨k, h, rfl⟩ := List.mem_map.1 hx
      have h1 := (Fills.plain (textOk_brace (hk k h).1)).append ((Fills.plain (s := ['=']) (by decide)).append (fills_arg (hk k h).2))
      simpa [kwTmpl, kwText] using h1)
  simp only [List.map_append, List.map_map, Function.comp_def, List.flatten_append] at this
  simpa [argsTemplate, argNames, allArgs, Function.comp_def, kwText] using this

theorem allArgs_ok {args : List Arg} {kw : List (List Char × Arg)} (ha : ∀ a ∈ args, ArgOk a) (hk : ∀ k ∈ kw, TextOk k.1 ∧ ArgOk k.2) : ∀ k ∈ allArgs args kw, KwOk k := by
  intro k h
  rcases List.mem_append.1 h with h | h
  · obtain ⟨a, ha', rfl⟩ := List.mem_map.1 h
    exact ⟨fun t e => by simp at e, ha a ha'⟩
  · obtain ⟨q, hq, rfl⟩ := List.mem_map.1 h
    exact ⟨fun t e => by cases e; exact (hk q hq).1, (hk q hq).2⟩

/-- A traced function with at least one tensor among its arguments: the generated text is the function's name with an argument list that Python reads as the
recorded arguments, in order, with their keywords; tensors are read as the names they have.
Missing from the full statement: strings with quotes, backslashes or line ends, and calls without tensors. -/
theorem C92_call_partial (fullName : List Char) (hf : ∀ c ∈ fullName, c ≠ '{' ∧ c ≠ '}') (args : List Arg) (kw : List (List Char × Arg))
    (ha : ∀ a ∈ args, ArgOk a) (hk : ∀ k ∈ kw, TextOk k.1 ∧ ArgOk k.2) (hn : argNames args kw ≠ []) :
    ∃ body, callExpr fullName args kw = some (fullName ++ '(' :: body) ∧
      ∃ n0, ∀ n, n0 ≤ n → readArgs n body = some (args.map (fun a => (none, val a)) ++ kw.map (fun k => (some k.1, val k.2)), []) := by
  refine ⟨join [',', ' '] ((allArgs args kw).map kwText) ++ [')'], ?_, ?_⟩
  · have h := (Fills.plain hf).append ((Fills.plain (s := ['(']) (by decide)).append ((fills_args args kw ha hk).append (Fills.plain (s := [')']) (by decide))))
    have h' := h [] []
    simp only [List.append_nil, List.nil_append, format, Option.map_some] at h'
    unfold callExpr
    rw [if_neg (by simpa using hn)]
    simpa using h'
  · obtain ⟨n0, h0⟩ := reads_args (allArgs args kw) (allArgs_ok ha hk)
    refine ⟨n0, fun n hn => ?_⟩
    rw [h0 n hn []]
    simp [allArgs, Function.comp_def]

/-- The same for a method of a tensor. -/
theorem C92_method_partial (self : Atom) (func : List Char) (hf : ∀ c ∈ func, c ≠ '{' ∧ c ≠ '}') (args : List Arg)
    (kw : List (List Char × Arg)) (ha : ∀ a ∈ args, ArgOk a) (hk : ∀ k ∈ kw, TextOk k.1 ∧ ArgOk k.2) :
    ∃ body, methodExpr self func args kw = some (nameText self ++ '.' :: func ++ '(' :: body) ∧
      ∃ n0, ∀ n, n0 ≤ n → readArgs n body = some (args.map (fun a => (none, val a)) ++ kw.map (fun k => (some k.1, val k.2)), []) := by
  refine ⟨join [',', ' '] ((allArgs args kw).map kwText) ++ [')'], ?_, ?_⟩
  · have h := ((Fills.name (nameText self)).append ((Fills.plain (s := ['.']) (by decide)).append (Fills.plain hf))).append
      ((Fills.plain (s := ['(']) (by decide)).append ((fills_args args kw ha hk).append (Fills.plain (s := [')']) (by decide))))
    have h' := h [] []
    simp only [List.append_nil, List.nil_append, format, Option.map_some] at h'
    unfold methodExpr
    simpa using h'
  · obtain ⟨n0, h0⟩ := reads_args (allArgs args kw) (allArgs_ok ha hk)
    refine ⟨n0, fun n hn => ?_⟩
    rw [h0 n hn []]
    simp [allArgs, Function.comp_def]

/-! ### Subscripts -/

theorem readAtom_delim {r : List Char} (h : r = [] ∨ ∃ c t, r = c :: t ∧ isDelim c = true) : readAtom r = none := by
  rcases h with rfl | ⟨c, t, rfl, hc⟩
  · rfl
  · simp [readAtom, hc]

theorem readPart_text {p : Option Part} (h : PartOk p) {r : List Char} (hr : AtomEnd r) : readPart (text.partText p ++ r) = (partVal p, r) := by
  match p, h with
  | none, _ =>
    simp only [text.partText, List.nil_append, partVal]
    unfold readPart
    rw [readAtom_delim]
    cases r with
    | nil => exact Or.inl rfl
    | cons c t => exact Or.inr ⟨c, t, rfl, (hr c t rfl).1⟩
  | some (.tensor nm), h =>
    simp only [text.partText, partVal]
    unfold readPart
    rw [readAtom_text h hr]
  | some (.atom t), h =>
    simp only [text.partText, partVal]
    unfold readPart
    have e : t ++ r = nameText ⟨t, []⟩ ++ r := by simp [nameText]
    rw [e, readAtom_text (atomOk_text h) hr]

theorem atomEnd_colon (r : List Char) : AtomEnd (':' :: r) := by intro c t e; cases e; decide

theorem readPart_arg {a : Arg} (h : ArgOk a) {r : List Char} (hr : ArgClosed r) : ∀ x t, readPart (text a ++ r) ≠ (x, ':' :: t) := by
  intro x t
  cases h with
  | tensor nm h =>
    unfold readPart text
    rw [readAtom_text h (atomEnd_of_closed hr)]
    simp only [ne_eq, Prod.mk.injEq, not_and]
    intro _ e
    exact (hr.delim _ _ e).2.2.2 rfl
  | atom tx h =>
    have e : text (.atom tx) ++ r = nameText ⟨tx, []⟩ ++ r := by simp [nameText, text]
    unfold readPart
    rw [e, readAtom_text (atomOk_text h) (atomEnd_of_closed hr)]
    simp only [ne_eq, Prod.mk.injEq, not_and]
    intro _ e
    exact (hr.delim _ _ e).2.2.2 rfl
  | special tx h =>
    have e : text (.special tx) ++ r = nameText ⟨['f', 'l', 'o', 'a', 't'], []⟩ ++ ('(' :: '\'' :: (tx ++ ['\'', ')'] ++ r)) := by simp [text, nameText]
    unfold readPart
    rw [e, readAtom_text ⟨⟨by decide, by decide⟩, by simp⟩ (by intro c u hc; cases hc; decide)]
    simp
  | str tx h =>
    have e : text (.str tx) ++ r = '\'' :: (tx ++ '\'' :: r) := by simp [text]
    unfold readPart
    rw [e, readAtom_delim (Or.inr ⟨_, _, rfl, by decide⟩)]
    simp
  | seq b l h =>
    have e : text (.seq b l) ++ r = '[' :: (join [',', ' '] (text.texts l) ++ ']' :: r) := by simp [text]
    unfold readPart
    rw [e, readAtom_delim (Or.inr ⟨_, _, rfl, by decide⟩)]
    simp

theorem itemVal_arg {a : Arg} (h : ArgOk a) : itemVal a = .val (val a) := by
  cases h <;> rfl

theorem reads_item {a : Arg} (h : ItemOk a) : ∃ n0, ∀ n, n0 ≤ n → ∀ r, ArgClosed r → readItem n (text a ++ r) = some (itemVal a, r) := by
  cases h with
  | arg _ h =>
    obtain ⟨n0, h0⟩ := reads_arg h
    refine ⟨n0, fun n hn r hr => ?_⟩
    unfold readItem
    split
    · rename_i heq
      exact absurd heq (readPart_arg h hr _ _)
    · rw [h0 n hn r hr, itemVal_arg h]; rfl
  | slice x y z hx hy hz =>
    refine ⟨0, fun n _ r hr => ?_⟩
    have hra := atomEnd_of_closed hr
    rcases partText_cases hz with ⟨e, e1, _⟩ | ⟨e, e1, _, e3, _⟩
    · have e' : text (.slice x y z) ++ r = text.partText x ++ (':' :: (text.partText y ++ r)) := by
        unfold text; rw [e1, sliceText_nil]; simp
      unfold readItem
      rw [e', readPart_text hx (atomEnd_colon _)]
      simp only
      rw [readPart_text hy hra]
      subst e
      split
      · rename_i heq
        simp only [Prod.mk.injEq] at heq
        exact absurd rfl (hr.delim _ _ heq.2).2.2.2
      · rename_i heq
        simp only [Prod.mk.injEq] at heq
        rw [← heq.1, ← heq.2]
        rfl
    · have e' : text (.slice x y z) ++ r = text.partText x ++ (':' :: (text.partText y ++ (':' :: (text.partText z ++ r)))) := by
        unfold text; rw [sliceText_some _ _ _ e1 e3]; simp
      unfold readItem
      rw [e', readPart_text hx (atomEnd_colon _)]
      simp only
      rw [readPart_text hy (atomEnd_colon _)]
      simp only
      rw [readPart_text hz hra]
      rfl

theorem reads_index : ∀ (l : List Arg), l ≠ [] → (∀ a ∈ l, ItemOk a) →
    ∃ n0, ∀ n, n0 ≤ n → ∀ r, readIndex n (join [',', ' '] (l.map text) ++ ']' :: r) = some (l.map itemVal, r)
  | [], hne, _ => absurd rfl hne
  | [a], _, h => by
    obtain ⟨n0, h0⟩ := reads_item (h a List.mem_cons_self)
    refine ⟨n0 + 1, fun n hn r => ?_⟩
    obtain ⟨m, rfl⟩ := Nat.exists_eq_add_of_le' (show 1 ≤ n by omega)
    show readIndex (m + 1) (text a ++ ']' :: r) = _
    unfold readIndex
    rw [h0 m (by omega) _ (closed_bracket r)]
    rfl
  | a :: b :: l, _, h => by
    obtain ⟨n0, h0⟩ := reads_item (h a List.mem_cons_self)
    obtain ⟨n1, h1⟩ := reads_index (b :: l) (by simp) (fun x hx => h x (List.mem_cons_of_mem _ hx))
    refine ⟨n0 + n1 + 1, fun n hn r => ?_⟩
    obtain ⟨m, rfl⟩ := Nat.exists_eq_add_of_le' (show 1 ≤ n by omega)
    have e : join [',', ' '] ((a :: b :: l).map text) ++ ']' :: r = text a ++ (',' :: ' ' :: (join [',', ' '] ((b :: l).map text) ++ ']' :: r)) := by
      simp [join]
    rw [e]
    unfold readIndex
    rw [h0 m (by omega) _ (closed_comma _)]
    simp only
    rw [h1 m (by omega) r]
    rfl

theorem fills_item {a : Arg} (h : ItemOk a) : Fills (tmpl a) (names a) (text a) := by
  cases h with
  | arg _ h => exact fills_arg h
  | slice x y z hx hy hz => exact fills_slice hx hy hz

theorem tmpls_map (l : List Arg) : tmpl.tmpls l = l.map tmpl := by induction l <;> simp_all [tmpl.tmpls]
theorem namesL_map (l : List Arg) : names.namesL l = (l.map names).flatten := by induction l <;> simp_all [names.namesL]

/-- No bracket in the template of a part of a slice. -/
theorem partTmpl_bracket {p : Option Part} (h : PartOk p) : ∀ c ∈ partTmpl p, c ≠ '[' ∧ c ≠ ']' := by
  match p, h with
  | none, _ => simp [partTmpl]
  | some (.tensor nm), _ => simp [partTmpl]
  | some (.atom t), h =>
    intro c hc
    have := h.2 c hc
    constructor <;> rintro rfl <;> simp [isDelim] at this

theorem item_bracket {a : Arg} (h : ItemOk a) (hs : ∀ b l, a ≠ .seq b l) : (tmpl a).head? ≠ some '[' ∧ (tmpl a).getLast? ≠ some ']' := by
  have key : ∀ s : List Char, (∀ c ∈ s, c ≠ '[' ∧ c ≠ ']') → s.head? ≠ some '[' ∧ s.getLast? ≠ some ']' := by
    intro s h
    exact ⟨fun e => (h _ (List.mem_of_mem_head? e)).1 rfl, fun e => (h _ (List.mem_of_getLast? e)).2 rfl⟩
  cases h with
  | arg _ h =>
    cases h with
    | tensor nm _ => exact key _ (by simp [tmpl])
    | atom t h =>
      refine key _ fun c hc => ?_
      have := h.2 c hc
      constructor <;> rintro rfl <;> simp [isDelim] at this
    | special t h => rcases h with rfl | rfl | rfl <;> exact ⟨by decide, by decide⟩
    | str t _ =>
      have e : ∀ s u, escape (s ++ u) = escape s ++ escape u := by
        intro s u
        induction s with
        | nil => rfl
        | cons c s ih => simp only [List.cons_append, escape, ih]; split_ifs <;> rfl
      have e2 : tmpl (.str t) = '\'' :: (escape t ++ ['\'']) := by
        have : tmpl (.str t) = escape (['\''] ++ (t ++ ['\''])) := rfl
        rw [this, e, e]
        rfl
      rw [e2]
      refine ⟨by simp, ?_⟩
      rw [← List.cons_append, List.getLast?_append_of_ne_nil _ (by simp)]
      decide
    | seq b l _ => exact absurd rfl (hs b l)
  | slice x y z hx hy hz =>
    refine key _ fun c hc => ?_
    have : c ∈ join [':'] [partTmpl x, partTmpl y, partTmpl z] := by
      unfold tmpl sliceText at hc
      simp only at hc
      split_ifs at hc
      · exact List.dropLast_subset _ hc
      · exact hc
    simp only [join, List.mem_append, List.mem_singleton] at this
    rcases this with (h | h) | (h | h) | h
    · exact partTmpl_bracket hx c h
    · subst h; decide
    · exact partTmpl_bracket hy c h
    · subst h; decide
    · exact partTmpl_bracket hz c h

/-- A subscript that is a tuple with at least one item, or a single item that is not a list: Python reads the generated text as a subscript of the same tensor
with the same items.
Missing from the full statement: subscripts that are lists, and the empty tuple. -/
theorem C92_index_partial (self : Atom) (index : Arg) (hi : ∀ a ∈ indexItems index, ItemOk a) (hl : ∀ l, index ≠ .seq false l) (hne : index ≠ .seq true []) :
    ∃ body, getitemExpr self index = some (nameText self ++ '[' :: body) ∧
      ∃ n0, ∀ n, n0 ≤ n → readIndex n body = some ((indexItems index).map itemVal, []) := by
  refine ⟨join [',', ' '] ((indexItems index).map text) ++ [']'], ?_, ?_⟩
  · have hfill : Fills (join [',', ' '] ((indexItems index).map tmpl)) ((indexItems index).map names).flatten (join [',', ' '] ((indexItems index).map text)) := by
      have := Fills.join (sep := [',', ' ']) (by decide) ((indexItems index).map fun a => (tmpl a, names a, text a)) (by
        intro x hx
        obtain ⟨a, ha, rfl⟩ := List.mem_map.1 hx
        exact fills_item (hi a ha))
      simpa only [List.map_map, Function.comp_def] using this
    have h := (Fills.name (nameText self)).append ((Fills.plain (s := ['[']) (by decide)).append (hfill.append (Fills.plain (s := [']']) (by decide))))
    have h' := h [] []
    simp only [List.append_nil, List.nil_append, format, Option.map_some] at h'
    have main : getitemExpr self index = format (['{', '}'] ++ ('[' :: (join [',', ' '] ((indexItems index).map tmpl) ++ [']']))) (nameText self :: ((indexItems index).map names).flatten) := by
      unfold getitemExpr
      by_cases hs : ∃ b l, index = .seq b l
      · obtain ⟨b, l, rfl⟩ := hs
        cases b with
        | false => exact absurd rfl (hl l)
        | true => simp [tmpl, indexItems, tmpls_map, names, namesL_map]
      · have hs' : ∀ b l, index ≠ .seq b l := fun b l e => hs ⟨b, l, e⟩
        have hit : indexItems index = [index] := by
          cases index with
          | seq b l => exact absurd rfl (hs' b l)
          | _ => rfl
        have hb := item_bracket (hi index (by rw [hit]; simp)) hs'
        rw [hit]
        simp only [List.map_cons, List.map_nil, join, List.flatten_cons, List.flatten_nil, List.append_nil]
        rw [if_pos hb]
        simp
    rw [main]
    simpa using h'
  · obtain ⟨n0, h0⟩ := reads_index (indexItems index) (by
      cases index with
      | seq b l =>
        cases b with
        | false => exact absurd rfl (hl l)
        | true =>
          cases l with
          | nil => exact absurd rfl hne
          | cons a l => simp [indexItems]
      | _ => simp [indexItems]) hi
    exact ⟨n0, fun n hn => h0 n hn []⟩

/-- Arguments and a subscript that meet the hypotheses: `torch.cat([a_0_f[1], x], dim=1)` and `x[:, 0, 2:]`. -/
example : callExpr "torch.cat".toList [.seq true [.tensor ⟨"a_0_f".toList, ["1".toList]⟩, .tensor ⟨"x".toList, []⟩]] [("dim".toList, .atom "1".toList)] =
      some "torch.cat([a_0_f[1], x], dim=1)".toList ∧
    getitemExpr ⟨"x".toList, []⟩ (.seq true [.slice none none none, .atom "0".toList, .slice (some (.atom "2".toList)) none none]) = some "x[:, 0, 2:]".toList ∧
    ArgOk (.seq true [.tensor ⟨"a_0_f".toList, ["1".toList]⟩, .tensor ⟨"x".toList, []⟩]) := by
  refine ⟨by decide +kernel, by decide +kernel, .seq _ _ ?_⟩
  intro a ha
  simp only [List.mem_cons, List.not_mem_nil, or_false] at ha
  rcases ha with rfl | rfl
  · exact .tensor _ ⟨⟨by decide, by decide⟩, by decide⟩
  · exact .tensor _ ⟨⟨by decide, by decide⟩, by decide⟩

/-- `C92_method_partial` and `C92_index_partial` on `x.view(-1, 8)` and `x[..., y:3]`. -/
example : (∃ body, methodExpr ⟨['x'], []⟩ ['v', 'i', 'e', 'w'] [.atom ['-', '1'], .atom ['8']] [] = some (['x', '.', 'v', 'i', 'e', 'w', '('] ++ body)) ∧
    ∃ body, getitemExpr ⟨['x'], []⟩ (.seq true [.atom ['.', '.', '.'], .slice (some (.tensor ⟨['y'], []⟩)) (some (.atom ['3'])) none]) = some (['x', '['] ++ body) := by
  constructor
  · obtain ⟨b, h, _⟩ := C92_method_partial ⟨['x'], []⟩ ['v', 'i', 'e', 'w'] (by decide) [.atom ['-', '1'], .atom ['8']] []
      (by
        intro a ha
        simp only [List.mem_cons, List.not_mem_nil, or_false] at ha
        rcases ha with rfl | rfl <;> exact .atom _ ⟨by decide, by decide⟩)
      (by simp)
    exact ⟨b, h⟩
  · obtain ⟨b, h, _⟩ := C92_index_partial ⟨['x'], []⟩ (.seq true [.atom ['.', '.', '.'], .slice (some (.tensor ⟨['y'], []⟩)) (some (.atom ['3'])) none])
      (by
        intro a ha
        simp only [indexItems, List.mem_cons, List.not_mem_nil, or_false] at ha
        rcases ha with rfl | rfl
        · exact .arg _ (.atom _ ⟨by decide, by decide⟩)
        · exact .slice _ _ _ ⟨⟨by decide, by decide⟩, by decide⟩ ⟨by decide, by decide⟩ trivial)
      (by simp) (by simp)
    exact ⟨b, h⟩

/-- A string with a quote in it is not read back: the generated text is no Python expression. -/
theorem C92_quote_false : ∃ t x : List Char, ∃ body, callExpr ['f'] [.tensor ⟨x, []⟩, .str t] [] = some (['f', '('] ++ body) ∧ ∀ n, readArgs n body = none := by
  refine ⟨['a', '\'', 'b'], ['x'], ['x', ',', ' ', '\'', 'a', '\'', 'b', '\'', ')'], by decide +kernel, ?_⟩
  intro n
  match n with
  | 0 => rfl
  | 1 => rfl
  | 2 => rfl
  | 3 => rfl
  | n + 4 => rfl

/-- Braces in a string stay doubled when the call has no tensor argument. -/
theorem C92_braces_false : ∃ t : List Char, callExpr ['f'] [.str t] [] = some ['f', '(', '\'', '{', '{', '\'', ')'] ∧ t = ['{'] ∧
    ∀ n, readArgs (n + 2) ['\'', '{', '{', '\'', ')'] = some ([(none, .str ['{', '{'])], []) :=
  ⟨['{'], by decide +kernel, rfl, fun _ => rfl⟩

/-- `x[[0, 2]]`, rows 0 and 2, is written as `x[0, 2]`, one element. -/
theorem C92_list_index_false : ∃ (index : Arg) (body : List Char), (∀ a ∈ indexItems index, ItemOk a) ∧ getitemExpr ⟨['x'], []⟩ index = some ('x' :: '[' :: body) ∧
    (∃ v w, (indexItems index).map itemVal = [.val (.list [v, w])]) ∧
    ∀ n, readIndex (n + 3) body = some ([.val (.atom ⟨['0'], []⟩), .val (.atom ⟨['2'], []⟩)], []) := by
  refine ⟨.seq false [.atom ['0'], .atom ['2']], ['0', ',', ' ', '2', ']'], ?_, by decide +kernel, ⟨_, _, rfl⟩, fun _ => rfl⟩
  intro a ha
  simp only [indexItems, List.mem_cons, List.not_mem_nil, or_false] at ha
  subst ha
  refine .arg _ (.seq _ _ ?_)
  intro b hb
  simp only [List.mem_cons, List.not_mem_nil, or_false] at hb
  rcases hb with rfl | rfl
  · exact .atom _ ⟨by decide, by decide⟩
  · exact .atom _ ⟨by decide, by decide⟩

/-- `x[()]` is written as `x[]`, which is no Python expression. -/
theorem C92_empty_index_false : ∃ body, getitemExpr ⟨['x'], []⟩ (.seq true []) = some ('x' :: '[' :: body) ∧ ∀ n, readIndex n body = none := by
  refine ⟨[']'], by decide +kernel, ?_⟩
  intro n
  match n with
  | 0 => rfl
  | 1 => rfl
  | n + 2 => rfl

end Verif.Props

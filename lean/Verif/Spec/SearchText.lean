import Verif.Spec.SelectorGrammar

/-! # Specification: what a search text says

PAGINATE_SPEC.md, "Search": conditions separated by `;` (a semicolon that is meant is written twice), each of them a text to be found in any
index value (`web`), a text to be found in one index value (`name=web`), the whole of an index value (`name="web"`), each of these negated
(`!web`, `name=!web`, `name=!"web"`), or a label selector over the index (`__ckube_as__:name in (a, b)`). -/

namespace Ckube.Spec

/-- The white space characters of Unicode in UTF-8. -/
def whiteSpace : List Str :=
  [[9], [10], [11], [12], [13], [32], [0xC2, 0x85], [0xC2, 0xA0], [0xE1, 0x9A, 0x80],
   [0xE2, 0x80, 0x80], [0xE2, 0x80, 0x81], [0xE2, 0x80, 0x82], [0xE2, 0x80, 0x83], [0xE2, 0x80, 0x84], [0xE2, 0x80, 0x85],
   [0xE2, 0x80, 0x86], [0xE2, 0x80, 0x87], [0xE2, 0x80, 0x88], [0xE2, 0x80, 0x89], [0xE2, 0x80, 0x8A],
   [0xE2, 0x80, 0xA8], [0xE2, 0x80, 0xA9], [0xE2, 0x80, 0xAF], [0xE2, 0x81, 0x9F], [0xE3, 0x80, 0x80]]

/-- Nothing but white space. -/
def Spaces (a : Str) : Prop := ∃ ws : List Str, a = ws.flatten ∧ ∀ w ∈ ws, w ∈ whiteSpace

/-- A text with no white space at its ends. -/
def Solid (x : Str) : Prop := x ≠ [] ∧ ∀ w ∈ whiteSpace, ¬ w <+: x ∧ ¬ w <:+ x

/-- A condition of a search. -/
inductive Cond where
  /-- some index value contains the text (negated: none does) -/
  | text (neg : Bool) (t : Str)
  /-- the index value contains the text (negated: does not) -/
  | part (key : Str) (neg : Bool) (v : Str)
  /-- the index value is the text (negated: is not) -/
  | whole (key : Str) (neg : Bool) (v : Str)
  /-- the index satisfies the requirements -/
  | select (qs : List Req)

/-- `key` satisfies `[\d\w\-_\.]`. -/
def IndexKey (k : Str) : Prop :=
  k ≠ [] ∧ ∀ b ∈ k, b ∈ lit "abcdefghijklmnopqrstuvwxyzABCDEFGHIJKLMNOPQRSTUVWXYZ0123456789-_."

/-- The sign of a negation. -/
def negation (neg : Bool) : Str := if neg then lit "!" else []

/-- A text that is looked for: it has no `"` in it and does not begin with `!`. -/
def Sought (v : Str) : Prop := (34 : UInt8) ∉ v ∧ ∀ r, v ≠ 33 :: r

/-- At most one equality for each index, and no comparison of numbers. -/
def PlainReqs (qs : List Req) : Prop :=
  (qs.Pairwise fun a b => (a.op = .eq ∨ a.op = .deq) → (b.op = .eq ∨ b.op = .deq) → a.key ≠ b.key)
    ∧ ∀ q ∈ qs, q.op ≠ .gt ∧ q.op ≠ .lt

/-- A condition as text, without white space around it. -/
inductive CondSays : Cond → Str → Prop
  | text {neg : Bool} {t : Str} : Sought t → (61 : UInt8) ∉ t → (neg = false → ¬ lit "__ckube_as__:" <+: t) →
      CondSays (.text neg t) (negation neg ++ t)
  | part {k v : Str} {neg : Bool} : IndexKey k → Sought v → CondSays (.part k neg v) (k ++ 61 :: (negation neg ++ v))
  | whole {k v : Str} {neg : Bool} : IndexKey k → (34 : UInt8) ∉ v → CondSays (.whole k neg v) (k ++ 61 :: (negation neg ++ 34 :: (v ++ [34])))
  | select {sel : Str} {qs : List Req} : sel ≠ [] → SelectorSays qs sel → PlainReqs qs → CondSays (.select qs) (lit "__ckube_as__:" ++ sel)

/-- What stands between two separators: a condition with white space around it, or only white space. -/
inductive ChunkSays : List Cond → Str → Prop
  | nothing {a : Str} : Spaces a → a ≠ [] → ChunkSays [] a
  | cond {a x b : Str} {c : Cond} : Spaces a → CondSays c x → Solid x → Spaces b → ChunkSays [c] (a ++ x ++ b)

/-- Semicolons are written twice. -/
def doubled (s : Str) : Str := s.flatMap fun b => if b = 59 then [59, 59] else [b]

/-- A search as text. What follows a separator does not start with a semicolon. -/
def SearchSays (cs : List Cond) (search : Str) : Prop :=
  ∃ chunks : List (List Cond × Str), (∀ e ∈ chunks, ChunkSays e.1 e.2) ∧ (∀ e ∈ chunks.tail, ∀ r, e.2 ≠ 59 :: r)
    ∧ cs = (chunks.map Prod.fst).flatten ∧ search = [59].intercalate (chunks.map fun e => doubled e.2)

/-- The condition names no index that the object does not have. -/
def CondKnown (m : List (Str × Str)) : Cond → Prop
  | .text _ _ => True
  | .part k _ _ => ∃ v, lookup k m = some v
  | .whole k _ _ => ∃ v, lookup k m = some v
  | .select _ => True

/-- The condition holds for an object with this index. -/
def CondHolds (m : List (Str × Str)) : Cond → Prop
  | .text neg t => neg = false ↔ ∃ k v, (k, v) ∈ m ∧ t <:+: v
  | .part k neg t => ∃ v, lookup k m = some v ∧ (neg = false ↔ t <:+: v)
  | .whole k neg t => ∃ v, lookup k m = some v ∧ (neg = false ↔ v = t)
  | .select qs => ∀ q ∈ qs, ReqHolds q m

end Ckube.Spec

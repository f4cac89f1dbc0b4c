import Verif.Spec.Label
import Verif.Spec.Selector
import Verif.Spec.DeleteBody
import Verif.Spec.JsonText

/-! # Specification: what a label selector text says

Kubernetes documentation, "Labels and selectors": requirements separated by commas; `key`, `!key`, `key = value`, `key == value`,
`key != value`, `key > number`, `key < number`, `key in (a, b)` and `key notin (a, b)`, with spaces, tabs and line ends (`Blank`) between the words. -/

namespace Ckube.Spec

/-- Lower case letters and digits. -/
def lowerAlnum : Str := lit "abcdefghijklmnopqrstuvwxyz0123456789"

/-- One part of a domain name. -/
def LegalDomainPart (p : Str) : Prop :=
  (∀ b ∈ p, b ∈ lowerAlnum ∨ b = 45) ∧ (∃ a r, p = a :: r ∧ a ∈ lowerAlnum) ∧ ∃ r z, p = r ++ [z] ∧ z ∈ lowerAlnum

/-- A domain name: parts with dots between them. -/
def LegalDomain (d : Str) : Prop :=
  d.length ≤ 253 ∧ ∃ ps : List Str, ps ≠ [] ∧ d = [46].intercalate ps ∧ ∀ p ∈ ps, LegalDomainPart p

/-- A legal label key: a name, or a domain name, a slash and a name. -/
def LegalLabelKey (k : Str) : Prop :=
  (k ≠ [] ∧ LegalLabelValue k) ∨ ∃ d n, k = d ++ 47 :: n ∧ LegalDomain d ∧ n ≠ [] ∧ LegalLabelValue n

/-- Values separated by commas, with blanks around them. -/
inductive ListSays : List Str → Str → Prop
  | one {a v b : Str} : Blank a → Blank b → ListSays [v] (a ++ v ++ b)
  | more {a v b t : Str} {vs : List Str} : Blank a → Blank b → ListSays vs t → ListSays (v :: vs) (a ++ v ++ b ++ 44 :: t)

/-- The lists of values that can be read: empty values at the end are one or an odd number of them, and with only empty values
there are two or an even number of them. -/
def ReadableList (vs : List Str) : Prop :=
  (∃ e, vs = List.replicate (2 * e + 2) []) ∨ ∃ ws v e, vs = ws ++ v :: List.replicate e [] ∧ v ≠ [] ∧ (e = 0 ∨ e % 2 = 1)

/-- The signs that compare with one value. -/
def signs : List (Op × Str) := [(.eq, lit "="), (.deq, lit "=="), (.neq, lit "!="), (.gt, lit ">"), (.lt, lit "<")]

/-- One requirement as text, without blanks around it. -/
inductive TermSays : Req → Str → Prop
  | exist {k : Str} : LegalLabelKey k → TermSays ⟨k, .exist, []⟩ k
  | absent {a k : Str} : Blank a → LegalLabelKey k → TermSays ⟨k, .notExist, []⟩ (33 :: (a ++ k))
  | compare {k a u b v : Str} {op : Op} : LegalLabelKey k → Blank a → (op, u) ∈ signs → Blank b → LegalLabelValue v →
      (op = .gt ∨ op = .lt → ∃ i, MeansInt64 v i) → TermSays ⟨k, op, [v]⟩ (k ++ a ++ u ++ b ++ v)
  | among {k a w b t : Str} {op : Op} {vs : List Str} : LegalLabelKey k → Blank a → a ≠ [] → (op, w) ∈ [(Op.isIn, lit "in"), (Op.notIn, lit "notin")] →
      Blank b → ListSays vs t → (∀ v ∈ vs, LegalLabelValue v) → ReadableList vs → TermSays ⟨k, op, vs⟩ (k ++ a ++ w ++ b ++ 40 :: t ++ [41])

/-- A selector as text. -/
inductive SelectorSays : List Req → Str → Prop
  | none {a : Str} : Blank a → SelectorSays [] a
  | one {a x b : Str} {q : Req} : Blank a → TermSays q x → Blank b → SelectorSays [q] (a ++ x ++ b)
  | more {a x b t : Str} {q r : Req} {qs : List Req} : Blank a → TermSays q x → Blank b → SelectorSays (r :: qs) t →
      SelectorSays (q :: r :: qs) (a ++ x ++ b ++ 44 :: t)

/-- The same requirement; values given several times or in another order do not matter. -/
def SameReq (q c : Req) : Prop := c.key = q.key ∧ c.op = q.op ∧ ∀ v, v ∈ c.vals ↔ v ∈ q.vals

/-- The requirements `qs` in the order of their keys, those of one key in the order in which they are written. -/
def ByKey (qs out : List Req) : Prop :=
  ∃ cs, List.Forall₂ SameReq qs cs ∧ out.Perm cs ∧ out.Pairwise (fun x y => x.key ≤ y.key) ∧ ∀ k, out.filter (·.key = k) = cs.filter (·.key = k)

end Ckube.Spec

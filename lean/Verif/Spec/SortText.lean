import Verif.Spec.SearchText
import Verif.Spec.Sort
import Verif.Spec.Numeral

/-! # Specification: what a sort text says

PAGINATE_SPEC.md, "Sort": `key[!int|!str][ desc|asc][,key[!int|!str][ desc|asc]...]`. -/

namespace Ckube.Spec

/-- One item of a sort text, without white space around it. -/
inductive ItemSays : SortKey → Str → Prop
  | mk {k typ dir : Str} {num rev : Bool} : IndexKey k →
      (typ, num) ∈ [([], false), (lit "!str", false), (lit "!int", true)] → (dir, rev) ∈ [([], false), (lit " asc", false), (lit " desc", true)] →
      ItemSays ⟨k, num, rev⟩ (k ++ typ ++ dir)

/-- What stands between two commas: an item with white space around it, or only white space. -/
inductive SlotSays : List SortKey → Str → Prop
  | nothing {a : Str} : Spaces a → SlotSays [] a
  | item {a x b : Str} {k : SortKey} : Spaces a → ItemSays k x → Spaces b → SlotSays [k] (a ++ x ++ b)

/-- A sort text. An empty one asks for the order by cluster, namespace and name. -/
def SortSays (ks : List SortKey) (sort : Str) : Prop :=
  (sort = [] ∧ ks = [⟨lit "cluster", false, false⟩, ⟨lit "namespace", false, false⟩, ⟨lit "name", false, false⟩])
    ∨ (sort ≠ [] ∧ ∃ slots : List (List SortKey × Str), (∀ e ∈ slots, SlotSays e.1 e.2)
        ∧ ks = (slots.map Prod.fst).flatten ∧ sort = [44].intercalate (slots.map Prod.snd))

/-- The index value is a whole number, not larger than 2^53. -/
def NumAt (m : List (Str × Str)) (k : Str) (i : ℤ) : Prop := ∃ v, lookup k m = some v ∧ Numeral v i ∧ |i| ≤ 2 ^ 53

/-- The object has the index, as a number if it is to be compared as one. -/
def HasKey (m : List (Str × Str)) (k : SortKey) : Prop := if k.num then ∃ i, NumAt m k.key i else ∃ v, lookup k.key m = some v

/-- Smaller by the key. -/
def SmallerBy (k : SortKey) (a b : List (Str × Str)) : Prop :=
  if k.num then ∃ i j, NumAt a k.key i ∧ NumAt b k.key j ∧ i < j else ∃ v w, lookup k.key a = some v ∧ lookup k.key b = some w ∧ v < w

/-- The same by the key. -/
def SameBy (k : SortKey) (a b : List (Str × Str)) : Prop :=
  if k.num then ∃ i, NumAt a k.key i ∧ NumAt b k.key i else ∃ v, lookup k.key a = some v ∧ lookup k.key b = some v

/-- An object with index `a` may stand before one with index `b`. -/
def MayPrecede : List SortKey → List (Str × Str) → List (Str × Str) → Prop
  | [], _, _ => True
  | k :: ks, a, b => (if k.reverse then SmallerBy k b a else SmallerBy k a b) ∨ (SameBy k a b ∧ MayPrecede ks a b)

end Ckube.Spec

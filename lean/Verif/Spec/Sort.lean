import Verif.Model.Sort
import Mathlib.Data.List.Forall2

/-! # Specification: sort expressions and the order they ask for -/

namespace Ckube.Spec

/-- The item of a sort expression asks for the key, with an optional type `!str` or `!int` and an optional
direction, blanks around it being ignored. -/
def ItemMeans (item : Str) (k : SortKey) : Prop :=
  (32 : UInt8) ∉ k.key ∧ (33 : UInt8) ∉ k.key ∧ ∃ typ dir, trimSpace item = k.key ++ typ ++ dir
    ∧ ((typ = [] ∧ k.num = false) ∨ (typ = lit "!str" ∧ k.num = false) ∨ (typ = lit "!int" ∧ k.num = true))
    ∧ ((dir = [] ∧ k.reverse = false) ∨ (dir = lit " asc" ∧ k.reverse = false)
        ∨ (dir = lit " desc" ∧ k.reverse = true))

/-- The number an index value denotes; `none` when it is not a number. -/
def number (parseFloat : Str → Option GoFloat) (v : Str) : Option Int :=
  match parseFloat v with
  | some (.num k) => some k
  | _ => none

/-- Order of index values as numbers; values that are not numbers come first. -/
def NumLt : Option Int → Option Int → Prop
  | none, some _ => True
  | some a, some b => a < b
  | _, _ => False

/-- The value under the key comes before, in ascending order. -/
def ValueLt (parseFloat : Str → Option GoFloat) (k : SortKey) (a b : SObj) : Prop :=
  if k.num then NumLt (number parseFloat (a.val k.key)) (number parseFloat (b.val k.key))
  else strLt (a.val k.key) (b.val k.key) = true

/-- The values under the key are the same. -/
def ValueEq (parseFloat : Str → Option GoFloat) (k : SortKey) (a b : SObj) : Prop :=
  if k.num then number parseFloat (a.val k.key) = number parseFloat (b.val k.key)
  else a.val k.key = b.val k.key

/-- `a` may stand before `b`: lexicographically by the keys, each in its direction. -/
def LexLe (parseFloat : Str → Option GoFloat) : List SortKey → SObj → SObj → Prop
  | [], _, _ => True
  | k :: ks, a, b =>
    (if k.reverse then ValueLt parseFloat k b a else ValueLt parseFloat k a b)
      ∨ (ValueEq parseFloat k a b ∧ LexLe parseFloat ks a b)

/-- Every value under a numeric key is a number. -/
def Numbers (parseFloat : Str → Option GoFloat) (ks : List SortKey) (objs : List SObj) : Prop :=
  ∀ k ∈ ks, k.num = true → ∀ o ∈ objs, (number parseFloat (o.val k.key)).isSome = true

/-- No value under a numeric key is NaN. -/
def NoNaN (parseFloat : Str → Option GoFloat) (ks : List SortKey) (objs : List SObj) : Prop :=
  ∀ k ∈ ks, k.num = true → ∀ o ∈ objs, parseFloat (o.val k.key) ≠ some .nan

/-- The keys of the default order. -/
def defaultKeys : List SortKey :=
  [⟨lit "cluster", false, false⟩, ⟨lit "namespace", false, false⟩, ⟨lit "name", false, false⟩]

/-- The sort expression asks for these keys: its items, separated by commas and without the blank ones, mean
them one by one; no expression at all asks for the default order. -/
def SortMeans (sort : Str) (ks : List SortKey) : Prop :=
  (sort = [] ∧ ks = defaultKeys)
    ∨ (sort ≠ [] ∧ List.Forall₂ ItemMeans ((splitByte 44 sort).filter fun i => trimSpace i ≠ []) ks)

/-- No item of the sort expression has more than two blank separated parts. -/
def TwoParts (sort : Str) : Prop := ∀ i ∈ splitByte 44 sort, (splitByte 32 (trimSpace i)).length ≤ 2

/-- The expression is one that is passed over: some item has more than two blank separated parts, and those before it (blank ones aside) ask
for keys that are known. -/
def PassedOver (known : Str → Prop) (sort : Str) : Prop :=
  ∃ pre item post ks, splitByte 44 sort = pre ++ item :: post ∧ 2 < (splitByte 32 (trimSpace item)).length
    ∧ List.Forall₂ ItemMeans (pre.filter fun i => trimSpace i ≠ []) ks ∧ ∀ k ∈ ks, known k.key

/-- The keys distinguish any two cached objects: cluster, namespace and name are among them, compared as
text. -/
def TotalKeys (ks : List SortKey) : Prop :=
  ∀ k ∈ [lit "cluster", lit "namespace", lit "name"], ∃ r, ⟨k, false, r⟩ ∈ ks

end Ckube.Spec

import Verif.Spec.JsonText
import Verif.Spec.ConfigFile
import Verif.Spec.Decimal
import Verif.Model.Page

/-! # What the JSON text of a page means -/

namespace Ckube.Spec

/-- `raw` is a whole number in decimal that fits into 64 bits. -/
def Whole64 (raw : Str) (v : ℤ) : Prop :=
  (∃ d, DigitRow d ∧ (raw = d ∧ v = whole d ∨ raw = lit "-" ++ d ∧ v = -(whole d : ℤ))) ∧ -2 ^ 63 ≤ v ∧ v < 2 ^ 63

/-- A whole number; anything else counts as zero. -/
def MeansInt (x : JV) (v : ℤ) : Prop :=
  (∃ raw, x = .num raw ∧ Whole64 raw v) ∨ v = 0 ∧ ∀ raw w, x = .num raw → ¬ Whole64 raw w

/-- A string; anything else counts as the empty one. -/
def MeansText (x : JV) (v : Str) : Prop := x = .str v ∨ v = [] ∧ ∀ s, x ≠ .str s

/-- The page that the members of an object describe. -/
def MeansPage (ms : List (Str × JV)) (p : Paginate) : Prop :=
  Member MeansInt 0 ms "page" p.page ∧ Member MeansInt 0 ms "page_size" p.pageSize ∧ Member MeansInt 0 ms "total" p.total
    ∧ Member MeansText [] ms "sort" p.sort ∧ Member MeansText [] ms "search" p.search

end Ckube.Spec

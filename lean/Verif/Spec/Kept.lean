import Verif.Model.Json

/-! # Specification: a JSON value that went through Go's `interface{}` -/

namespace Ckube.Spec

/-- The value of a member; of repeated members the last counts. -/
def lastOf (k : Str) (ms : List (Str × JV)) : Option JV := lookup k ms.reverse

/-- `w` is the JSON value `v` as far as Go's `interface{}` keeps it: the same, except that numbers are printed as
`float64` prints them (`num`; out of range: null), and that the order of members and overwritten members
are lost. -/
inductive Kept (num : Str → Option Str) : JV → JV → Prop
  | null : Kept num .null .null
  | bool (b : Bool) : Kept num (.bool b) (.bool b)
  | num {r t : Str} (h : num r = some t) : Kept num (.num r) (.num t)
  | range {r : Str} (h : num r = none) : Kept num (.num r) .null
  | str (s : Str) : Kept num (.str s) (.str s)
  | arr {xs ys : List JV} (hl : xs.length = ys.length)
      (h : ∀ (i : Nat) x y, xs[i]? = some x → ys[i]? = some y → Kept num x y) : Kept num (.arr xs) (.arr ys)
  | obj {ms ms' : List (Str × JV)} (hn : ∀ k, lastOf k ms = none ↔ lookup k ms' = none)
      (h : ∀ k v v', lastOf k ms = some v → lookup k ms' = some v' → Kept num v v') :
      Kept num (.obj ms) (.obj ms')

end Ckube.Spec

import Verif.Spec.Kept
import Mathlib.Algebra.Order.Field.Rat
import Mathlib.Algebra.Order.Field.Power

/-! # The value of a JSON number -/

namespace Ckube.Spec

/-- The number that a row of decimal digits means. -/
def whole (s : Str) : ℕ := s.foldl (fun a c => a * 10 + (c.toNat - 48)) 0

/-- The value of the digits after a decimal point. -/
def fraction : Str → ℚ
  | [] => 0
  | c :: r => ((c.toNat - 48 : ℕ) + fraction r) / 10

/-- The value of the digits, with or without sign, after an `e`; nothing means zero. -/
def exponent (s : Str) : ℤ :=
  if s.head? = some 45 then -(whole (s.drop 1) : ℤ) else if s.head? = some 43 then whole (s.drop 1) else whole s

/-- The value of a JSON number without a sign: whole part, fraction, power of ten. -/
def unsignedValue (s : Str) : ℚ :=
  let man := s.takeWhile fun c => c ≠ 101 ∧ c ≠ 69
  let exp := (s.dropWhile fun c => c ≠ 101 ∧ c ≠ 69).drop 1
  (whole (man.takeWhile (· ≠ 46)) + fraction ((man.dropWhile (· ≠ 46)).drop 1)) * 10 ^ exponent exp

/-- The value of a JSON number. -/
def numberValue (s : Str) : ℚ := if s.head? = some 45 then -unsignedValue (s.drop 1) else unsignedValue s

/-- The value can be written with at most `n` digits and a power of ten. -/
def FewDigits (n : ℕ) (v : ℚ) : Prop := ∃ (c : ℕ) (t : ℤ), c < 10 ^ n ∧ |v| = c * 10 ^ t

/-- The value is zero or neither too small nor too large for a normal `float64`. -/
def InReach (v : ℚ) : Prop := v = 0 ∨ (1 / 10 ^ 307 ≤ |v| ∧ |v| ≤ 10 ^ 308)

/-- The number `r` occurs in a document. -/
inductive NumberIn (r : Str) : JV → Prop
  | here : NumberIn r (.num r)
  | arr {xs : List JV} {x : JV} (hx : x ∈ xs) (h : NumberIn r x) : NumberIn r (.arr xs)
  | obj {ms : List (Str × JV)} {k : Str} {v : JV} (hv : lastOf k ms = some v) (h : NumberIn r v) : NumberIn r (.obj ms)

/-- Two documents mean the same: numbers may be written differently, the order of members does not matter, and of several members with one name the last
counts. -/
inductive SameValue : JV → JV → Prop
  | null : SameValue .null .null
  | bool (b : Bool) : SameValue (.bool b) (.bool b)
  | num {r t : Str} (h : numberValue t = numberValue r) : SameValue (.num r) (.num t)
  | str (s : Str) : SameValue (.str s) (.str s)
  | arr {xs ys : List JV} (hl : xs.length = ys.length)
      (h : ∀ (i : Nat) x y, xs[i]? = some x → ys[i]? = some y → SameValue x y) : SameValue (.arr xs) (.arr ys)
  | obj {ms ms' : List (Str × JV)} (hn : ∀ k, lastOf k ms = none ↔ lookup k ms' = none)
      (h : ∀ k v v', lastOf k ms = some v → lookup k ms' = some v' → SameValue v v') :
      SameValue (.obj ms) (.obj ms')

end Ckube.Spec

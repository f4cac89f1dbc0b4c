import Verif.Model.Str
import Mathlib.Algebra.Order.Field.Rat
import Mathlib.Algebra.Order.Field.Power

/-! # Specification: texts that mean numbers, and `float64`

The numerals are those of the Go language: decimal, or hexadecimal with a power of two; underscores may stand between digits. -/

namespace Ckube.Spec

/-- The value of a decimal digit or, if `hex`, of a hexadecimal one. -/
def place (hex : Bool) (c : UInt8) : Option ℕ :=
  if 48 ≤ c ∧ c ≤ 57 then some (c.toNat - 48)
  else if hex = true ∧ 97 ≤ c ∧ c ≤ 102 then some (c.toNat - 87)
  else if hex = true ∧ 65 ≤ c ∧ c ≤ 70 then some (c.toNat - 55)
  else none

/-- Only digits. -/
def Row (hex : Bool) (s : Str) : Prop := ∀ c ∈ s, (place hex c).isSome = true

/-- The base. -/
def radix (hex : Bool) : ℕ := if hex then 16 else 10

/-- The number that a row of digits means. -/
def rowValue (hex : Bool) (s : Str) : ℕ := s.foldl (fun a c => a * radix hex + (place hex c).getD 0) 0

/-- The value of the digits after a point. -/
def pointValue (hex : Bool) : Str → ℚ
  | [] => 0
  | c :: r => ((place hex c).getD 0 + pointValue hex r) / radix hex

/-- Digits, at least one, with or without a point among, before or after them. -/
def Mantissa (hex : Bool) (s : Str) (v : ℚ) : Prop :=
  ∃ ip pt fp, s = ip ++ pt ++ fp ∧ Row hex ip ∧ Row hex fp ∧ (ip ≠ [] ∨ fp ≠ []) ∧ (pt = [46] ∨ (pt = [] ∧ fp = []))
    ∧ v = rowValue hex ip + pointValue hex fp

/-- A letter and a whole number: a power of the base. -/
def Power (base : ℚ) (letters : Str) (s : Str) (v : ℚ) : Prop :=
  ∃ c sg ds, s = c :: sg ++ ds ∧ c ∈ letters ∧ (sg = [] ∨ sg = [43] ∨ sg = [45]) ∧ Row false ds ∧ ds ≠ []
    ∧ v = base ^ (if sg = [45] then -(rowValue false ds : ℤ) else rowValue false ds)

/-- A decimal numeral. -/
def DecimalText (s : Str) (v : ℚ) : Prop :=
  ∃ m x a b, s = m ++ x ∧ Mantissa false m a ∧ ((x = [] ∧ b = 1) ∨ Power 10 (lit "eE") x b) ∧ v = a * b

/-- A hexadecimal numeral: it has to have a power of two. -/
def HexText (s : Str) (v : ℚ) : Prop :=
  ∃ h m x a b, s = 48 :: h :: m ++ x ∧ (h = 120 ∨ h = 88) ∧ Mantissa true m a ∧ Power 2 (lit "pP") x b ∧ v = a * b

/-- The text is a sign, or none, and `r`. -/
def Signed (s : Str) (neg : Bool) (r : Str) : Prop :=
  (s = 45 :: r ∧ neg = true) ∨ (s = 43 :: r ∧ neg = false) ∨ (s = r ∧ neg = false ∧ s.head? ≠ some 45 ∧ s.head? ≠ some 43)

/-- Every underscore stands between two digits; the prefix of a hexadecimal numeral counts as a digit. -/
def Separated (hex : Bool) (r : Str) : Prop :=
  ∀ pre post, r = pre ++ 95 :: post →
    ((∃ p c, pre = p ++ [c] ∧ (place hex c).isSome = true) ∨ (hex = true ∧ pre.length = 2))
      ∧ ∃ c p, post = c :: p ∧ (place hex c).isSome = true

/-- A text that means a number. -/
def Numeral (s : Str) (v : ℚ) : Prop :=
  ∃ neg r w, Signed s neg r ∧ v = (if neg then -w else w)
    ∧ ((Separated false r ∧ DecimalText (r.filter (· ≠ 95)) w) ∨ (Separated true r ∧ HexText (r.filter (· ≠ 95)) w))

/-- Equality up to the case of letters. -/
def SameWord (s : Str) (word : String) : Prop :=
  List.Forall₂ (fun c w => c = w ∨ (97 ≤ w ∧ w ≤ 122 ∧ c = w - 32)) s (lit word)

/-- A text that means an infinity. -/
def InfinityText (neg : Bool) (s : Str) : Prop := ∃ r, Signed s neg r ∧ (SameWord r "inf" ∨ SameWord r "infinity")

/-- `k` times 2^-1074 is a finite `float64`. -/
def Double (k : ℤ) : Prop := ∃ (m : ℕ) (e : ℤ), m < 2 ^ 53 ∧ -1074 ≤ e ∧ e ≤ 971 ∧ (|k| : ℚ) = m * 2 ^ (e + 1074)

/-- The value of the `float64`. -/
def doubleValue (k : ℤ) : ℚ := k / 2 ^ 1074

/-- The last bit of the `float64` is zero: its whole number of smallest steps is even. -/
def EvenDouble (k : ℤ) : Prop :=
  ∃ (m : ℕ) (e : ℤ), m < 2 ^ 53 ∧ -1074 ≤ e ∧ e ≤ 971 ∧ (2 ^ 52 ≤ m ∨ e = -1074) ∧ (|k| : ℚ) = m * 2 ^ (e + 1074) ∧ m % 2 = 0

/-- The `float64` is the nearest to the value; if another is as near, the last bit decides. -/
def Nearest (v : ℚ) (k : ℤ) : Prop :=
  Double k ∧ ∀ j, Double j → j ≠ k → |v - doubleValue k| ≤ |v - doubleValue j| ∧ (|v - doubleValue k| = |v - doubleValue j| → EvenDouble k)

/-- The value is not so large that it would be rounded to 2^1024. -/
def Moderate (v : ℚ) : Prop := |v| < 2 ^ 1024 - 2 ^ 970

end Ckube.Spec

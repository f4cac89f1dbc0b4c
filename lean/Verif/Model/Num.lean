import Verif.Model.Str

/-! # Decimal numbers: `fmt.Sprintf("%d")`, `%04d`, `strconv.ParseInt(s, 10, 64)` -/

namespace Ckube

/-- Decimal digits with a fuel bound on their number. -/
def digitsFuel : Nat → Nat → Str
  | 0, _ => []
  | f + 1, n => if n < 10 then [(48 + n).toUInt8] else digitsFuel f (n / 10) ++ [(48 + n % 10).toUInt8]

/-- `%d` of a natural number. -/
def natDigits (n : Nat) : Str := digitsFuel (n + 1) n

/-- `%d` of an integer. -/
def intDigits (i : Int) : Str :=
  if i < 0 then 45 :: natDigits i.natAbs else natDigits i.natAbs

/-- `%04d` of a natural number (kube/label.go:22,25). -/
def pad4 (n : Nat) : Str :=
  List.replicate (4 - (natDigits n).length) 48 ++ natDigits n

def isDigit (c : UInt8) : Bool := 48 ≤ c && c ≤ 57

/-- Value of a digit string read from the left. -/
def digitsVal (s : Str) : Nat := s.foldl (fun a c => a * 10 + (c.toNat - 48)) 0

/-- The smallest and largest `int64`. -/
def minInt64 : Int := -9223372036854775808
def maxInt64 : Int := 9223372036854775807

/-- `strconv.ParseInt(s, 10, 64)` on JSON number text (optional `-`, digits only). -/
def parseInt64 (s : Str) : Option Int :=
  let (neg, d) := match s with
    | [] => (false, ([] : Str))
    | c :: r => if c = 45 then (true, r) else (false, c :: r)
  if d = [] then none
  else if d.all isDigit then
    let v : Int := if neg then -(digitsVal d : Int) else (digitsVal d : Int)
    if minInt64 ≤ v ∧ v ≤ maxInt64 then some v else none
  else none

/-- Reduction of an integer to the `int64` range, as Go's wrapping arithmetic does. -/
def wrap64 (i : Int) : Int := (i + 9223372036854775808) % 18446744073709551616 - 9223372036854775808

end Ckube

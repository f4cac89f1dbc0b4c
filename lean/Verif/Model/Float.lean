import Verif.Model.Json

/-! # Numbers that go through `float64`

`json.Unmarshal` into `interface{}` (watcher/watcher.go:53-54) reads a number with `strconv.ParseFloat(s, 64)`; `json.Marshal` (watcher/watcher.go:73) prints it with
`strconv.AppendFloat(b, f, 'f' or 'e', -1, 64)`. Both are library functions; this is what they compute: the nearest `float64`, ties to even
(strconv/atof.go), and the shortest decimal that reads as the same `float64` (`roundShortest`, strconv/ftoa.go). Simplification: exponents
of a literal are read without the bound of four digits that `readFloat` has. -/

namespace Ckube

/-- The quotient, rounded to the nearest natural number, ties to even. -/
def divRound (n d : Nat) : Nat :=
  if 2 * (n % d) < d then n / d
  else if d < 2 * (n % d) then n / d + 1
  else if n / d % 2 = 0 then n / d else n / d + 1

/-- Numerator and denominator of `n / (d * 2^e)`. -/
def scaled (n d : Nat) (e : Int) : Nat × Nat :=
  if 0 ≤ e then (n, d * 2 ^ e.toNat) else (n * 2 ^ (-e).toNat, d)

/-- The exponent for which the mantissa of `n / d` has 53 bits, but at least -1074. -/
def floatExp (n d : Nat) : Int :=
  let e : Int := Nat.log2 n - Nat.log2 d - 52
  let s := scaled n d e
  max (if s.1 < 2 ^ 52 * s.2 then e - 1 else e) (-1074)

/-- Mantissa and exponent of the `float64` nearest to `n / d` if exponents were unbounded above. -/
def roundFloat (n d : Nat) : Nat × Int :=
  let e := floatExp n d
  let s := scaled n d e
  let m := divRound s.1 s.2
  if m = 2 ^ 53 then (2 ^ 52, e + 1) else (m, e)

/-- The `float64` nearest to `n / d`: mantissa and exponent; `none` when it is too large. -/
def toFloat (n d : Nat) : Option (Nat × Int) :=
  if n = 0 then some (0, -1074)
  else if 971 < (roundFloat n d).2 then none else some (roundFloat n d)

/-- A literal of a number: sign, digits read as a number, and decimal exponent (`readFloat`, strconv/atof.go). -/
def readDecimal (s : Str) : Bool × Nat × Int :=
  let neg := s.head? = some 45
  let s := if neg then s.drop 1 else s
  let int := s.takeWhile isDigit
  let s := s.dropWhile isDigit
  let frac := if s.head? = some 46 then (s.drop 1).takeWhile isDigit else []
  let s := if s.head? = some 46 then (s.drop 1).dropWhile isDigit else s
  let exp := s.drop 1
  let e : Int := if exp.head? = some 45 then -(digitsVal (exp.drop 1)) else if exp.head? = some 43 then digitsVal (exp.drop 1) else digitsVal exp
  (neg, digitsVal (int ++ frac), e - frac.length)

/-- The absolute value of a literal as a `float64`. -/
def literalFloat (c : Nat) (e : Int) : Option (Nat × Int) :=
  if 0 ≤ e then toFloat (c * 10 ^ e.toNat) 1 else toFloat c (10 ^ (-e).toNat)

/-- The loop of `roundShortest`: `x` is the number, between `lo` and `up`, which belong to the interval if `incl`; it has `p` digits, `l` of which have been
found to be too few. The result is a number and how many digits it lacks. -/
def shortest (x lo up : Nat) (incl : Bool) (p : Nat) : Nat → Nat → Nat × Nat
  | 0, _ => (x, 0)
  | fuel + 1, l =>
    if p ≤ l then (x, 0)
    else
      let u := 10 ^ (p - l)
      let f := x / u
      let down := decide (lo < f * u) || (incl && decide (lo = f * u))
      let over := decide ((f + 1) * u < up) || (incl && decide ((f + 1) * u = up))
      if down && over then (divRound x u, p - l)
      else if down then (f, p - l)
      else if over then (f + 1, p - l)
      else shortest x lo up incl p fuel (l + 1)

/-- The scale of a `float64` with exponent `e`: quarters of `2^e` are multiples of `10^-k`, `w` of them each. -/
def quarterScale (e : Int) : Nat × Nat :=
  if 2 ≤ e then (2 ^ (e - 2).toNat, 0) else (5 ^ (2 - e).toNat, (2 - e).toNat)

/-- The shortest decimal that reads as the `float64` (`m`, `e`) (`roundShortest`, strconv/ftoa.go): a number and its decimal exponent. -/
def shortDecimal (m : Nat) (e : Int) : Nat × Int :=
  let (w, k) := quarterScale e
  let x := 4 * m * w
  let lo := (4 * m - (if m = 2 ^ 52 ∧ -1074 < e then 1 else 2)) * w
  let r := shortest x lo ((4 * m + 2) * w) (m % 2 = 0) (natDigits x).length ((natDigits x).length + 1) 0
  (r.1, r.2 - k)

/-- The digits without zeros at the end. -/
def trailingOff (ds : Str) : Str := (ds.reverse.dropWhile (· = 48)).reverse

/-- `%f` of digits with the decimal point after the first `dp` of them (`fmtF`, strconv/ftoa.go). -/
def fmtFixed (ds : Str) (dp : Int) : Str :=
  let int := if 0 < dp then ds.take dp.toNat ++ List.replicate (dp.toNat - ds.length) 48 else [48]
  let frac := if 0 < dp then ds.drop dp.toNat else List.replicate (-dp).toNat 48 ++ ds
  if frac = [] then int else int ++ [46] ++ frac

/-- `%e` of digits with the decimal point after the first `dp` of them (`fmtE`, strconv/ftoa.go), without a zero before an exponent of one digit, as
`encoding/json` writes it. -/
def fmtExp (ds : Str) (dp : Int) : Str :=
  let e := dp - 1
  let ex := natDigits e.natAbs
  ds.take 1 ++ (if ds.length ≤ 1 then [] else [46] ++ ds.drop 1) ++ [101] ++ (if e < 0 then [45] else [43]) ++ ex

/-- `floatEncoder` (encoding/json/encode.go) of the `float64`; below 10^-6 and from 10^21 on with an exponent. -/
def floatText (m : Nat) (e : Int) : Str :=
  if m = 0 then [48]
  else
    let d := shortDecimal m e
    let all := natDigits d.1
    let ds := trailingOff all
    let dp : Int := all.length + d.2
    if dp - 1 < -6 ∨ 21 ≤ dp - 1 then fmtExp ds dp else fmtFixed ds dp

/-- A number literal, read into `interface{}` and printed again: `none` when it is out of range (the value is nil then). -/
def goNum (s : Str) : Option Str :=
  let (neg, c, e) := readDecimal s
  (literalFloat c e).map fun f => (if neg then [45] else []) ++ floatText f.1 f.2

end Ckube

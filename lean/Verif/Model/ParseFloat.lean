import Verif.Model.Float
import Verif.Model.Sort

/-! # `strconv.ParseFloat(_, 64)`

The comparison of `sortObjs` reads index values under a numeric key with it (store/memory/memory.go:244-251). It is a library function (strconv/atof.go of the
Go standard library); this is what it computes. Simplification: exponents are read without the bound of 10000 that `readFloat` has. -/

namespace Ckube

/-- `lower` (strconv/atoi.go). -/
def floatLower (c : UInt8) : UInt8 := c ||| 32

/-- Equality up to the case of ASCII letters (`commonPrefixLenIgnoreCase`, strconv/atof.go, with the whole text). -/
def sameLetters (s word : Str) : Bool := s.map (fun c => if 65 ≤ c ∧ c ≤ 90 then c + 32 else c) = word

/-- `special` (strconv/atof.go), when the whole text is consumed. -/
def specialFloat (s : Str) : Option GoFloat :=
  let inf (s : Str) : Bool := sameLetters s (lit "inf") || sameLetters s (lit "infinity")
  match s with
  | [] => none
  | c :: r =>
    if c = 43 then (if inf r then some (.num (2 ^ 2098)) else none)
    else if c = 45 then (if inf r then some (.num (-2 ^ 2098)) else none)
    else if inf s then some (.num (2 ^ 2098))
    else if sameLetters s (lit "nan") then some .nan else none

/-- The value of a digit in the loop of `readFloat` (strconv/atof.go). -/
def floatDigit (hex : Bool) (c : UInt8) : Option Nat :=
  if isDigit c then some (c.toNat - 48)
  else if hex && decide (97 ≤ floatLower c ∧ floatLower c ≤ 102) then some ((floatLower c).toNat - 87) else none

/-- The loop of `readFloat` over the digits: the digits, how many of them are after the point, and the rest. -/
def scanMan (hex : Bool) : Bool → Str → List Nat × Nat × Str
  | _, [] => ([], 0, [])
  | dot, c :: r =>
    if c = 95 then scanMan hex dot r
    else if c = 46 then (if dot then ([], 0, c :: r) else scanMan hex true r)
    else match floatDigit hex c with
      | none => ([], 0, c :: r)
      | some d => let t := scanMan hex dot r; (d :: t.1, t.2.1 + (if dot then 1 else 0), t.2.2)

/-- The exponent in `readFloat`, after its letter; it has to go to the end of the text. -/
def scanExp (s : Str) : Option Int :=
  let neg := s.head? = some 45
  let ds := if s.head? = some 43 ∨ s.head? = some 45 then s.drop 1 else s
  match ds with
  | [] => none
  | c :: _ =>
    if isDigit c && ds.all (fun c => isDigit c || c = 95) then
      some (if neg then -(digitsVal (ds.filter (· ≠ 95))) else digitsVal (ds.filter (· ≠ 95)))
    else none

/-- Digits, read as a number. -/
def foldDigits (base : Nat) (ds : List Nat) : Nat := ds.foldl (fun a d => a * base + d) 0

/-- The absolute value of a hexadecimal literal as a `float64` (`atofHex`, strconv/atof.go). -/
def binaryFloat (c : Nat) (e : Int) : Option (Nat × Int) :=
  if 0 ≤ e then toFloat (c * 2 ^ e.toNat) 1 else toFloat c (2 ^ (-e).toNat)

/-- Whether `readFloat` takes the text, without sign, for hexadecimal. -/
def hexPrefix : Str → Bool
  | a :: b :: _ :: _ => decide (a = 48 ∧ floatLower b = 120)
  | _ => false

/-- What `readFloat` does after the digits. -/
def readPower (hex : Bool) : Str → Option Int
  | [] => if hex then none else some 0
  | c :: r => if floatLower c = (if hex then 112 else 101) then scanExp r else none

/-- `readFloat` and the conversion, for a text without sign. -/
def readUnsigned (s : Str) : Option (Nat × Int) :=
  let hex := hexPrefix s
  let t := scanMan hex false (if hex then s.drop 2 else s)
  if t.1 = [] then none
  else (readPower hex t.2.2).bind fun e =>
    if hex then binaryFloat (foldDigits 16 t.1) (e - 4 * t.2.1) else literalFloat (foldDigits 10 t.1) (e - t.2.1)

/-- The loop of `underscoreOK` (strconv/atoi.go): `saw` is the class of the last character. -/
def floatSepLoop (hex : Bool) (saw : UInt8) : Str → Bool
  | [] => decide (saw ≠ 95)
  | c :: r =>
    if (floatDigit hex c).isSome then floatSepLoop hex 48 r
    else if c = 95 then (if saw ≠ 48 then false else floatSepLoop hex 95 r)
    else if saw = 95 then false else floatSepLoop hex 33 r

/-- The text without its sign. -/
def unsigned (s : Str) : Str := if s.head? = some 43 ∨ s.head? = some 45 then s.drop 1 else s

/-- `underscoreOK` (strconv/atoi.go). -/
def floatSepOK (s : Str) : Bool :=
  match unsigned s with
  | a :: b :: r =>
    if a = 48 ∧ (floatLower b = 98 ∨ floatLower b = 111 ∨ floatLower b = 120) then floatSepLoop (floatLower b = 120) 48 r
    else floatSepLoop false 94 (a :: b :: r)
  | r => floatSepLoop false 94 r

/-- The rank of a `float64`: its value in multiples of the smallest positive one, 2^-1074. -/
def floatRank (neg : Bool) (f : Nat × Int) : Int :=
  (if neg then -1 else 1) * (f.1 * 2 ^ (f.2 + 1074).toNat : Nat)

/-- `strconv.ParseFloat(s, 64)`; `none`: an error. -/
def parseFloat64 (s : Str) : Option GoFloat :=
  match specialFloat s with
  | some x => some x
  | none =>
    if (95 : UInt8) ∈ s ∧ floatSepOK s = false then none
    else (readUnsigned (unsigned s)).map fun f => .num (floatRank (s.head? = some 45) f)

end Ckube

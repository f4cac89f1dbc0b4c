import Verif.Model.Str

/-! # UTF-8 decoding, as done by Go's `unicode/utf8` (used by `encoding/json`, `strconv.Quote`) -/

namespace Ckube

/-- One step of decoding a string: an ASCII byte, a valid multi-byte character, or one invalid
byte (Go: `RuneError` with width 1). -/
inductive Chunk where
  | ascii (b : UInt8)
  | multi (rune : Nat) (bytes : Str)
  | bad (b : UInt8)
deriving DecidableEq, Repr

/-- The bytes a chunk was decoded from. -/
def Chunk.bytes : Chunk → Str
  | .ascii b => [b]
  | .multi _ bs => bs
  | .bad b => [b]

def isCont (b : UInt8) : Bool := 0x80 ≤ b && b ≤ 0xBF

def is2 (b0 b1 : UInt8) : Bool := 0xC2 ≤ b0 && b0 ≤ 0xDF && isCont b1

def is3 (b0 b1 b2 : UInt8) : Bool :=
  isCont b2 &&
    ((b0 = 0xE0 && 0xA0 ≤ b1 && b1 ≤ 0xBF)
      || (0xE1 ≤ b0 && b0 ≤ 0xEC && isCont b1)
      || (b0 = 0xED && 0x80 ≤ b1 && b1 ≤ 0x9F)
      || (0xEE ≤ b0 && b0 ≤ 0xEF && isCont b1))

def is4 (b0 b1 b2 b3 : UInt8) : Bool :=
  isCont b2 && isCont b3 &&
    ((b0 = 0xF0 && 0x90 ≤ b1 && b1 ≤ 0xBF)
      || (0xF1 ≤ b0 && b0 ≤ 0xF3 && isCont b1)
      || (b0 = 0xF4 && 0x80 ≤ b1 && b1 ≤ 0x8F))

def rune2 (b0 b1 : UInt8) : Nat := b0.toNat % 32 * 64 + b1.toNat % 64
def rune3 (b0 b1 b2 : UInt8) : Nat :=
  b0.toNat % 16 * 4096 + b1.toNat % 64 * 64 + b2.toNat % 64
def rune4 (b0 b1 b2 b3 : UInt8) : Nat :=
  b0.toNat % 8 * 262144 + b1.toNat % 64 * 4096 + b2.toNat % 64 * 64 + b3.toNat % 64

/-- Decode the first character of a non-empty string (`utf8.DecodeRuneInString`). -/
def chunk1 (b0 : UInt8) (r : Str) : Chunk :=
  if b0 < 0x80 then .ascii b0
  else match r with
    | [] => .bad b0
    | b1 :: r1 =>
      if is2 b0 b1 then .multi (rune2 b0 b1) [b0, b1]
      else match r1 with
        | [] => .bad b0
        | b2 :: r2 =>
          if is3 b0 b1 b2 then .multi (rune3 b0 b1 b2) [b0, b1, b2]
          else match r2 with
            | [] => .bad b0
            | b3 :: _ =>
              if is4 b0 b1 b2 b3 then .multi (rune4 b0 b1 b2 b3) [b0, b1, b2, b3]
              else .bad b0

/-- Decode after skipping some bytes (the rest of the previous character). -/
def chunksFrom : Nat → Str → List Chunk
  | _, [] => []
  | n + 1, _ :: r => chunksFrom n r
  | 0, b :: r => chunk1 b r :: chunksFrom ((chunk1 b r).bytes.length - 1) r

/-- Decode a whole string character by character, as `for _, r := range s` does. -/
def chunks (s : Str) : List Chunk := chunksFrom 0 s

/-- `utf8.ValidString`. -/
def validUtf8 (s : Str) : Bool :=
  (chunks s).all fun c => match c with | .bad _ => false | _ => true

/-- The string with every invalid byte replaced by U+FFFD. -/
def toValidUtf8 (s : Str) : Str :=
  (chunks s).flatMap fun c => match c with | .bad _ => [0xEF, 0xBF, 0xBD] | c => c.bytes

/-- `utf8.EncodeRune` for a code point (surrogates and out-of-range values become U+FFFD). -/
def encodeRune (r : Nat) : Str :=
  if r < 0x80 then [r.toUInt8]
  else if r < 0x800 then [(0xC0 + r / 64).toUInt8, (0x80 + r % 64).toUInt8]
  else if (0xD800 ≤ r ∧ r ≤ 0xDFFF) ∨ 0x10FFFF < r then [0xEF, 0xBF, 0xBD]
  else if r < 0x10000 then
    [(0xE0 + r / 4096).toUInt8, (0x80 + r / 64 % 64).toUInt8, (0x80 + r % 64).toUInt8]
  else
    [(0xF0 + r / 262144).toUInt8, (0x80 + r / 4096 % 64).toUInt8, (0x80 + r / 64 % 64).toUInt8,
      (0x80 + r % 64).toUInt8]

/-- Lower-case hexadecimal digit. -/
def hexDigit (n : Nat) : UInt8 := if n < 10 then (48 + n).toUInt8 else (97 + (n - 10)).toUInt8

/-- `n` lower-case hexadecimal digits of `v`, most significant first. -/
def hexN : Nat → Nat → Str
  | 0, _ => []
  | n + 1, v => hexN n (v / 16) ++ [hexDigit (v % 16)]

/-- Value of a hexadecimal digit (either case). -/
def hexVal (c : UInt8) : Option Nat :=
  let n := c.toNat
  if 48 ≤ n ∧ n ≤ 57 then some (n - 48)
  else if 97 ≤ n ∧ n ≤ 102 then some (n - 87)
  else if 65 ≤ n ∧ n ≤ 70 then some (n - 55)
  else none

end Ckube

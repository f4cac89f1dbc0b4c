import Verif.Model.Str

/-! # `encoding/base64` standard alphabet without padding

Models `base64.StdEncoding.WithPadding(base64.NoPadding)` as used in page/page.go:301 and
api/proxy.go:164 (Go 1.19 standard library). -/

namespace Ckube.Base64

/-- The 64-character alphabet `A-Za-z0-9+/`. -/
def char (n : Nat) : UInt8 :=
  if n < 26 then (65 + n).toUInt8
  else if n < 52 then (97 + (n - 26)).toUInt8
  else if n < 62 then (48 + (n - 52)).toUInt8
  else if n = 62 then 43
  else 47

/-- Inverse of the alphabet. -/
def val (c : UInt8) : Option Nat :=
  let n := c.toNat
  if 65 ≤ n ∧ n ≤ 90 then some (n - 65)
  else if 97 ≤ n ∧ n ≤ 122 then some (n - 97 + 26)
  else if 48 ≤ n ∧ n ≤ 57 then some (n - 48 + 52)
  else if n = 43 then some 62
  else if n = 47 then some 63
  else none

/-- `EncodeToString`. -/
def encode : Str → Str
  | [] => []
  | [a] => [char (a.toNat / 4), char (a.toNat % 4 * 16)]
  | [a, b] => [char (a.toNat / 4), char (a.toNat % 4 * 16 + b.toNat / 16), char (b.toNat % 16 * 4)]
  | a :: b :: c :: r =>
    char (a.toNat / 4) :: char (a.toNat % 4 * 16 + b.toNat / 16)
      :: char (b.toNat % 16 * 4 + c.toNat / 64) :: char (c.toNat % 64) :: encode r

/-- Groups of four 6-bit values to bytes; a single left-over value is a corrupt input; spare
low bits of a short last group are ignored (Go's decoder is not strict). -/
def decodeVals : List Nat → Option Str
  | [] => some []
  | [_] => none
  | [x, y] => some [(x * 4 + y / 16).toUInt8]
  | [x, y, z] => some [(x * 4 + y / 16).toUInt8, (y % 16 * 16 + z / 4).toUInt8]
  | x :: y :: z :: w :: r =>
    (decodeVals r).map fun t =>
      (x * 4 + y / 16).toUInt8 :: (y % 16 * 16 + z / 4).toUInt8 :: (z % 4 * 64 + w).toUInt8 :: t

/-- `DecodeString`: line breaks are skipped, any other foreign byte is an error (`none`). -/
def decode (s : Str) : Option Str :=
  ((s.filter (fun c => c ≠ 10 && c ≠ 13)).mapM val).bind decodeVals

end Ckube.Base64

import Verif.Model.Utf8

/-! # Query strings (Go 1.19 `net/url`)

`r.URL.Query()` and `query.Encode()` (api/proxy.go:104, 176, 198, 406, 420, 427). The source of `net/url` is not
part of /repo; this models `QueryEscape`, `QueryUnescape`, `ParseQuery` and `Values.Encode`. The errors of
`ParseQuery` are ignored by `URL.Query`, so a pair that cannot be read is skipped. -/

namespace Ckube

/-- `url.Values`. -/
abbrev Values := List (Str × List Str)

/-- Bytes that `QueryEscape` writes as they are: letters, digits and `-_.~`. -/
def unreserved (c : UInt8) : Bool :=
  (48 ≤ c && c ≤ 57) || (65 ≤ c && c ≤ 90) || (97 ≤ c && c ≤ 122) || c = 45 || c = 95 || c = 46 || c = 126

/-- Upper-case hexadecimal digit. -/
def upperHex (n : Nat) : UInt8 := if n < 10 then (48 + n).toUInt8 else (55 + n).toUInt8

/-- One byte of `url.QueryEscape`. -/
def escByte (c : UInt8) : Str :=
  if unreserved c then [c] else if c = 32 then [43] else [37, upperHex (c.toNat / 16), upperHex (c.toNat % 16)]

/-- `url.QueryEscape`. -/
def queryEscape (s : Str) : Str := s.flatMap escByte

/-- `url.QueryUnescape`; `none` is an error. -/
def queryUnescape : Str → Option Str
  | [] => some []
  | c :: r =>
    if c = 37 then
      match r with
      | a :: b :: r' =>
        match hexVal a, hexVal b with
        | some x, some y => (queryUnescape r').map ((x * 16 + y).toUInt8 :: ·)
        | _, _ => none
      | _ => none
    else if c = 43 then (queryUnescape r).map (32 :: ·)
    else (queryUnescape r).map (c :: ·)

/-- `strings.Cut(s, "=")`. -/
def cutEq (s : Str) : Str × Str :=
  match indexByte 61 s with
  | none => (s, [])
  | some i => (s.take i, s.drop (i + 1))

/-- `m[key] = append(m[key], value)`. -/
def addValue (k v : Str) (m : Values) : Values := insertKV k ((lookup k m).getD [] ++ [v]) m

/-- One `&`-separated piece of a query string. -/
def addPiece (m : Values) (piece : Str) : Values :=
  if (59 : UInt8) ∈ piece then m
  else if piece = [] then m
  else match queryUnescape (cutEq piece).1, queryUnescape (cutEq piece).2 with
    | some k, some v => addValue k v m
    | _, _ => m

/-- `url.ParseQuery` without its error. -/
def parseQuery (raw : Str) : Values := (splitByte 38 raw).foldl addPiece []

/-- The pieces `Values.Encode` writes for one key. -/
def encPieces (e : Str × List Str) : List Str := e.2.map fun v => queryEscape e.1 ++ [61] ++ queryEscape v

/-- `url.Values.Encode`: sorted by key. -/
def encodeQuery (q : Values) : Str :=
  join [38] ((sortBy (fun a b => strLe a.1 b.1) q).flatMap encPieces)

end Ckube

import Verif.Model.Utf8
import Verif.Model.Num

/-! # JSON as produced and read by Go's `encoding/json` (1.19)

Writer: what `json.Marshal` prints for strings and integers.
Reader: a parser for arbitrary JSON texts.  Simplification of the reader: Go's nesting limit
of 10000 is not modelled. -/

namespace Ckube

/-- A JSON value; numbers keep their source text. -/
inductive JV where
  | null
  | bool (b : Bool)
  | num (raw : Str)
  | str (s : Str)
  | arr (xs : List JV)
  | obj (ms : List (Str × JV))

namespace Json

/-- `htmlSafeSet` of encoding/json: bytes below 0x80 written as they are. -/
def htmlSafe (b : UInt8) : Bool :=
  0x20 ≤ b && b < 0x80 && b ≠ 34 && b ≠ 92 && b ≠ 60 && b ≠ 62 && b ≠ 38

/-- Escaped form of one character inside a JSON string. -/
def escChunk : Chunk → Str
  | .ascii b =>
    if htmlSafe b then [b]
    else if b = 34 ∨ b = 92 then [92, b]
    else if b = 10 then [92, 110]
    else if b = 13 then [92, 114]
    else if b = 9 then [92, 116]
    else [92, 117, 48, 48] ++ hexN 2 b.toNat
  | .multi r bs => if r = 0x2028 ∨ r = 0x2029 then [92, 117] ++ hexN 4 r else bs
  | .bad _ => [92, 117] ++ hexN 4 0xFFFD

/-- `json.Marshal` of a string. -/
def encStr (s : Str) : Str := [34] ++ (chunks s).flatMap escChunk ++ [34]

/-- White space between tokens. -/
def isWs (c : UInt8) : Bool := c = 32 || c = 9 || c = 10 || c = 13

def skipWs : Str → Str
  | [] => []
  | c :: r => if isWs c then skipWs r else c :: r

/-- Four hexadecimal digits. -/
def hex4 (a b c d : UInt8) : Option Nat := do
  let a ← hexVal a
  let b ← hexVal b
  let c ← hexVal c
  let d ← hexVal d
  return a * 4096 + b * 256 + c * 16 + d

/-- Single-character escapes. -/
def unesc (c : UInt8) : Option UInt8 :=
  if c = 34 ∨ c = 92 ∨ c = 47 then some c
  else if c = 98 then some 8
  else if c = 102 then some 12
  else if c = 110 then some 10
  else if c = 114 then some 13
  else if c = 116 then some 9
  else none

/-- A string literal as a list of plain bytes and `\uXXXX` code units. -/
inductive Tok where
  | byte (b : UInt8)
  | unit (u : Nat)
deriving DecidableEq

/-- Prepend a token. -/
def pre (t : Tok) : Option (List Tok × Str) → Option (List Tok × Str)
  | none => none
  | some (s, r) => some (t :: s, r)

/-- Read the rest of a string literal (after the opening quote): its tokens and what
follows the closing quote. -/
def pToks : Str → Option (List Tok × Str)
  | [] => none
  | c :: r =>
    if c = 34 then some ([], r)
    else if c = 92 then
      match r with
      | [] => none
      | e :: r1 =>
        if e = 117 then
          match r1 with
          | a :: b :: c :: d :: r2 =>
            match hex4 a b c d with
            | none => none
            | some u => pre (.unit u) (pToks r2)
          | _ => none
        else match unesc e with
          | none => none
          | some b => pre (.byte b) (pToks r1)
    else if c < 0x20 then none
    else pre (.byte c) (pToks r)

def isHigh (u : Nat) : Bool := 0xD800 ≤ u && u < 0xDC00
def isLow (u : Nat) : Bool := 0xDC00 ≤ u && u < 0xE000
def repl : Str := [0xEF, 0xBF, 0xBD]

/-- Turn tokens into bytes; a pending high surrogate combines with a following low one, lone
surrogates become U+FFFD. -/
def combine : Option Nat → List Tok → Str
  | none, [] => []
  | some _, [] => repl
  | none, .byte b :: r => b :: combine none r
  | none, .unit u :: r =>
    if isHigh u then combine (some u) r
    else if isLow u then repl ++ combine none r
    else encodeRune u ++ combine none r
  | some _, .byte b :: r => repl ++ b :: combine none r
  | some h, .unit u :: r =>
    if isLow u then encodeRune (0x10000 + (h - 0xD800) * 1024 + (u - 0xDC00)) ++ combine none r
    else if isHigh u then repl ++ combine (some u) r
    else repl ++ encodeRune u ++ combine none r

/-- Contents of a string literal after its opening quote, and the rest of the input. Invalid
UTF-8 becomes U+FFFD. -/
def pStr (s : Str) : Option (Str × Str) :=
  match pToks s with
  | none => none
  | some (ts, r) => some (toValidUtf8 (combine none ts), r)

def isNumByte (c : UInt8) : Bool :=
  isDigit c || c = 45 || c = 43 || c = 46 || c = 101 || c = 69

/-- `digits+` -/
def someDigits (s : Str) : Option Str :=
  match s with
  | [] => none
  | c :: r => if isDigit c then some (r.dropWhile isDigit) else none

/-- JSON number grammar `-?(0|[1-9][0-9]*)(.[0-9]+)?([eE][+-]?[0-9]+)?`. -/
def validNum (s : Str) : Bool :=
  let s := match s with
    | [] => []
    | c :: r => if c = 45 then r else c :: r
  let afterInt : Option Str := match s with
    | [] => none
    | c :: r => if c = 48 then some r else someDigits (c :: r)
  match afterInt with
  | none => false
  | some s1 =>
    let afterFrac : Option Str := match s1 with
      | [] => some []
      | c :: r => if c = 46 then someDigits r else some (c :: r)
    match afterFrac with
    | none => false
    | some [] => true
    | some (c :: r) =>
      if c = 101 ∨ c = 69 then
        let r := match r with
          | [] => []
          | d :: r' => if d = 43 ∨ d = 45 then r' else d :: r'
        someDigits r = some []
      else false

mutual
/-- Read one value; the first argument bounds the nesting and length. -/
def pVal : Nat → Str → Option (JV × Str)
  | 0, _ => none
  | f + 1, s =>
    match skipWs s with
    | [] => none
    | c :: r =>
      if c = 123 then
        match skipWs r with
        | [] => none
        | d :: r' => if d = 125 then some (.obj [], r') else
          match pMembers f (d :: r') with
          | none => none
          | some (ms, t) => some (.obj ms, t)
      else if c = 91 then
        match skipWs r with
        | [] => none
        | d :: r' => if d = 93 then some (.arr [], r') else
          match pElems f (d :: r') with
          | none => none
          | some (xs, t) => some (.arr xs, t)
      else if c = 34 then
        match pStr r with
        | none => none
        | some (x, t) => some (.str x, t)
      else if hasPrefix (c :: r) (lit "true") then some (.bool true, (c :: r).drop 4)
      else if hasPrefix (c :: r) (lit "false") then some (.bool false, (c :: r).drop 5)
      else if hasPrefix (c :: r) (lit "null") then some (.null, (c :: r).drop 4)
      else
        let raw := (c :: r).takeWhile isNumByte
        if validNum raw then some (.num raw, (c :: r).dropWhile isNumByte) else none

/-- Read the members of an object up to and including `}`. -/
def pMembers : Nat → Str → Option (List (Str × JV) × Str)
  | 0, _ => none
  | f + 1, s =>
    match skipWs s with
    | [] => none
    | c :: r =>
      if c = 34 then
        match pStr r with
        | none => none
        | some (k, r1) =>
          match skipWs r1 with
          | [] => none
          | d :: r2 =>
            if d = 58 then
              match pVal f r2 with
              | none => none
              | some (v, r3) =>
                match skipWs r3 with
                | [] => none
                | e :: r4 =>
                  if e = 44 then
                    match pMembers f r4 with
                    | none => none
                    | some (ms, t) => some ((k, v) :: ms, t)
                  else if e = 125 then some ([(k, v)], r4)
                  else none
            else none
      else none

/-- Read the elements of an array up to and including `]`. -/
def pElems : Nat → Str → Option (List JV × Str)
  | 0, _ => none
  | f + 1, s =>
    match pVal f s with
    | none => none
    | some (v, r3) =>
      match skipWs r3 with
      | [] => none
      | e :: r4 =>
        if e = 44 then
          match pElems f r4 with
          | none => none
          | some (xs, t) => some (v :: xs, t)
        else if e = 93 then some ([v], r4)
        else none
end

/-- Parse a complete JSON text (`json.Unmarshal` first checks the whole text). -/
def parse (s : Str) : Option JV :=
  match pVal (s.length + 1) s with
  | none => none
  | some (v, r) => if skipWs r = [] then some v else none

end Json
end Ckube

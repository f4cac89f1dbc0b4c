import Verif.Model.Num

/-! # Kubernetes label selectors (k8s.io/apimachinery v0.21.0)

/repo depends on `k8s.io/apimachinery/pkg/labels` and `.../apis/meta/v1` (go.mod:14).  Their
source is not part of /repo; this file models `labels/selector.go` (validation,
`NewRequirement`, `Requirement.Matches`, `Requirement.String`, `Lexer`, `Parser`) and
`meta/v1/helpers.go` (`LabelSelectorAsSelector`, `FormatLabelSelector`) of that version.
Error texts are not modelled: a failing call is `none`. -/

namespace Ckube

def isAlnum (c : UInt8) : Bool :=
  (48 ≤ c && c ≤ 57) || (65 ≤ c && c ≤ 90) || (97 ≤ c && c ≤ 122)
/-- `[-A-Za-z0-9_.]` -/
def isNameChar (c : UInt8) : Bool := isAlnum c || c = 45 || c = 95 || c = 46

/-- `([A-Za-z0-9][-A-Za-z0-9_.]*)?[A-Za-z0-9]` -/
def nameOk (s : Str) : Bool :=
  s.all isNameChar && (match s.head? with | some c => isAlnum c | none => false)
    && (match s.getLast? with | some c => isAlnum c | none => false)

/-- `validation.IsValidLabelValue`: at most 63 bytes, empty or a name. -/
def validLabelValue (s : Str) : Bool := s.length ≤ 63 && (s.isEmpty || nameOk s)

def isDnsChar (c : UInt8) : Bool := (48 ≤ c && c ≤ 57) || (97 ≤ c && c ≤ 122)

/-- One dot-separated part of a DNS-1123 subdomain. -/
def dnsPartOk (s : Str) : Bool :=
  s.all (fun c => isDnsChar c || c = 45)
    && (match s.head? with | some c => isDnsChar c | none => false)
    && (match s.getLast? with | some c => isDnsChar c | none => false)

/-- `validation.IsDNS1123Subdomain`. -/
def dnsOk (s : Str) : Bool := s.length ≤ 253 && (splitByte 46 s).all dnsPartOk

/-- The name part of a qualified name. -/
def qnameOk (s : Str) : Bool := s.length ≤ 63 && nameOk s

/-- `validateLabelKey` = `validation.IsQualifiedName`. -/
def validLabelKey (s : Str) : Bool :=
  match splitByte 47 s with
  | [n] => qnameOk n
  | [p, n] => dnsOk p && qnameOk n
  | _ => false

/-- `selection.Operator`. -/
inductive Op where
  | isIn | notIn | eq | deq | neq | exist | notExist | gt | lt
deriving DecidableEq, Repr

/-- `labels.Requirement`. -/
structure Req where
  key : Str
  op : Op
  vals : List Str
deriving DecidableEq, Repr

/-- The number of values each operator takes (`NewRequirement`). -/
def okVals (op : Op) (vals : List Str) : Bool :=
  match op with
  | .isIn | .notIn => vals.length ≠ 0
  | .eq | .deq | .neq => vals.length = 1
  | .exist | .notExist => vals.length = 0
  | .gt | .lt => vals.length = 1 && vals.all (fun v => (parseInt64 v).isSome)

/-- `labels.NewRequirement`. -/
def newReq (key : Str) (op : Op) (vals : List Str) : Option Req :=
  if validLabelKey key && okVals op vals && vals.all validLabelValue then some ⟨key, op, vals⟩
  else none

/-- `Requirement.Matches` on a label set (`labels.Set`, a Go map). -/
def Req.matches (r : Req) (m : List (Str × Str)) : Bool :=
  match r.op with
  | .isIn | .eq | .deq => match lookup r.key m with
    | none => false
    | some v => r.vals.contains v
  | .notIn | .neq => match lookup r.key m with
    | none => true
    | some v => !r.vals.contains v
  | .exist => (lookup r.key m).isSome
  | .notExist => (lookup r.key m).isNone
  | .gt => match (lookup r.key m).bind parseInt64, r.vals with
    | some a, [v] => match parseInt64 v with | some b => b < a | none => false
    | _, _ => false
  | .lt => match (lookup r.key m).bind parseInt64, r.vals with
    | some a, [v] => match parseInt64 v with | some b => a < b | none => false
    | _, _ => false

/-- `internalSelector.Matches`: every requirement. -/
def selMatches (rs : List Req) (m : List (Str × Str)) : Bool := rs.all (·.matches m)

/-- The values part of `Requirement.String`: a single value as it is, several sorted. -/
def Req.valsText (r : Req) : Str :=
  match r.vals with
  | [v] => v
  | vs => join [44] (sortBy strLe vs)

/-- `Requirement.String`. -/
def Req.toStr (r : Req) : Str :=
  match r.op with
  | .notExist => 33 :: r.key
  | .exist => r.key
  | .eq => r.key ++ [61] ++ r.valsText
  | .deq => r.key ++ [61, 61] ++ r.valsText
  | .neq => r.key ++ [33, 61] ++ r.valsText
  | .isIn => r.key ++ lit " in (" ++ r.valsText ++ [41]
  | .notIn => r.key ++ lit " notin (" ++ r.valsText ++ [41]
  | .gt => r.key ++ [62] ++ r.valsText
  | .lt => r.key ++ [60] ++ r.valsText

/-- Order used by `sort.Sort(ByKey(..))`. -/
def Req.keyLe (a b : Req) : Bool := strLe a.key b.key

/-- `internalSelector.String`. -/
def selStr (rs : List Req) : Str := join [44] (rs.map Req.toStr)

/-! ## Lexer -/

/-- Lexer tokens. -/
inductive LTok where
  | error | eos | closePar | comma | bang | deq | eq | gt | ident | isIn | lt | neq | notIn | openPar
deriving DecidableEq, Repr

structure Item where
  tok : LTok
  text : Str
deriving DecidableEq, Repr

/-- `string2token`. -/
def tokenOf (s : Str) : Option LTok :=
  if s = lit ")" then some .closePar
  else if s = lit "," then some .comma
  else if s = lit "!" then some .bang
  else if s = lit "==" then some .deq
  else if s = lit "=" then some .eq
  else if s = lit ">" then some .gt
  else if s = lit "in" then some .isIn
  else if s = lit "<" then some .lt
  else if s = lit "!=" then some .neq
  else if s = lit "notin" then some .notIn
  else if s = lit "(" then some .openPar
  else none

def isLexWs (c : UInt8) : Bool := c = 32 || c = 9 || c = 13 || c = 10
def isSpecial (c : UInt8) : Bool :=
  c = 61 || c = 33 || c = 40 || c = 41 || c = 44 || c = 62 || c = 60

/-- `scanIDOrKeyword`: the bytes up to a separator; a NUL byte ends the word and is dropped. -/
def scanWord : Str → Str × Str
  | [] => ([], [])
  | c :: r =>
    if c = 0 then ([], r)
    else if isSpecial c || isLexWs c then ([], c :: r)
    else (c :: (scanWord r).1, (scanWord r).2)

/-- `scanSpecialSymbol` with its buffer and last recognised item. -/
def scanSpecial : Str → Option Item → Str → Item × Str
  | _, last, [] => (last.getD ⟨.error, []⟩, [])
  | buf, last, c :: r =>
    if c = 0 then (last.getD ⟨.error, []⟩, r)
    else if isSpecial c then
      match tokenOf (buf ++ [c]) with
      | some t => scanSpecial (buf ++ [c]) (some ⟨t, buf ++ [c]⟩) r
      | none =>
        match last with
        | some i => (i, c :: r)
        | none => scanSpecial (buf ++ [c]) none r
    else (last.getD ⟨.error, []⟩, c :: r)

def skipLexWs : Str → Str
  | [] => []
  | c :: r => if isLexWs c then skipLexWs r else c :: r

/-- `Lexer.Lex`: the next item and the remaining input. -/
def lex (s : Str) : Item × Str :=
  match skipLexWs s with
  | [] => (⟨.eos, []⟩, [])
  | c :: r =>
    if c = 0 then (⟨.eos, []⟩, r)
    else if isSpecial c then scanSpecial [] none (c :: r)
    else (⟨(tokenOf (scanWord (c :: r)).1).getD .ident, (scanWord (c :: r)).1⟩, (scanWord (c :: r)).2)

/-- `Parser.scan`: all items up to and including the end-of-string item. Every call of `lex`
consumes at least one byte unless it returns end-of-string, so `s.length + 1` is enough fuel. -/
def scanAll : Nat → Str → List Item
  | 0, _ => [⟨.eos, []⟩]
  | f + 1, s => if (lex s).1.tok = .eos then [(lex s).1] else (lex s).1 :: scanAll f (lex s).2

/-! ## Parser -/

/-- In the `Values` context `in` and `notin` are identifiers. -/
def valTok (t : LTok) : LTok :=
  match t with
  | .isIn => .ident
  | .notIn => .ident
  | t => t

/-- `lookahead(Values)`. -/
def ahead (is : List Item) : LTok :=
  match is with
  | [] => .eos
  | i :: _ => valTok i.tok

/-- `parseIdentifiersList`; the accumulated set is a list. -/
def pIdents : Nat → List Str → List Item → Option (List Str × List Item)
  | 0, _, _ => none
  | _ + 1, _, [] => none
  | f + 1, acc, i :: r =>
    match valTok i.tok with
    | .ident =>
      match ahead r with
      | .comma => pIdents f (i.text :: acc) r
      | .closePar => some (i.text :: acc, r)
      | _ => none
    | .comma =>
      let acc := if acc.isEmpty then [[]] else acc
      match ahead r with
      | .closePar => some ([] :: acc, r)
      | .comma => pIdents f ([] :: acc) r.tail
      | _ => pIdents f acc r
    | _ => none

/-- `sets.String.List()`: sorted, without repetitions. -/
def setList (vs : List Str) : List Str := sortBy strLe (dedup vs)

/-- `parseValues`. -/
def pValues (is : List Item) : Option (List Str × List Item) :=
  match is with
  | [] => none
  | i :: r =>
    if valTok i.tok ≠ .openPar then none
    else match ahead r with
      | .ident | .comma =>
        match pIdents (r.length + 1) [] r with
        | none => none
        | some (vs, r1) =>
          match r1 with
          | [] => none
          | j :: r2 => if valTok j.tok = .closePar then some (setList vs, r2) else none
      | .closePar => some ([], r.tail)
      | _ => none

/-- `parseExactValue`. -/
def pExact (is : List Item) : Option (List Str × List Item) :=
  match ahead is with
  | .eos | .comma => some ([[]], is)
  | .ident => match is with
    | [] => none
    | i :: r => some ([i.text], r)
  | _ => none

/-- `parseOperator`. -/
def pOperator (t : LTok) : Option Op :=
  match t with
  | .isIn => some .isIn
  | .eq => some .eq
  | .deq => some .deq
  | .gt => some .gt
  | .lt => some .lt
  | .notIn => some .notIn
  | .neq => some .neq
  | _ => none

/-- `parseRequirement` after the optional `!` has been read (`neg`). -/
def pReqBody (neg : Bool) (is : List Item) : Option (Req × List Item) :=
  match is with
  | [] => none
  | i :: r =>
    if valTok i.tok ≠ LTok.ident then none
    else if !validLabelKey i.text then none
    else if neg then (newReq i.text .notExist []).map (·, r)
    else if ahead r = LTok.eos ∨ ahead r = LTok.comma then (newReq i.text .exist []).map (·, r)
    else match r with
      | [] => none
      | o :: r1 =>
        match pOperator o.tok with
        | none => none
        | some op =>
          match (if op = .isIn ∨ op = .notIn then pValues r1 else pExact r1) with
          | none => none
          | some (vs, r2) => (newReq i.text op vs).map (·, r2)

/-- `parseRequirement` (with `parseKeyAndInferOperator` inlined). -/
def pReq (is : List Item) : Option (Req × List Item) :=
  match is with
  | [] => none
  | i :: r => if valTok i.tok = LTok.bang then pReqBody true r else pReqBody false (i :: r)

/-- `Parser.parse`. -/
def pReqs : Nat → List Item → Option (List Req)
  | 0, _ => none
  | f + 1, is =>
    match ahead is with
    | .ident | .bang =>
      match pReq is with
      | none => none
      | some (q, r) =>
        match r with
        | [] => none
        | i :: r1 =>
          match valTok i.tok with
          | .eos => some [q]
          | .comma =>
            if ahead r1 = .ident ∨ ahead r1 = .bang then (pReqs f r1).map (q :: ·) else none
          | _ => none
    | .eos => some []
    | _ => none

/-- `labels.ParseToRequirements`: parse, then sort by key. -/
def parseReqs (s : Str) : Option (List Req) :=
  (pReqs ((scanAll (s.length + 1) s).length + 1) (scanAll (s.length + 1) s)).map (sortBy Req.keyLe)

/-! ## `metav1.LabelSelector` -/

/-- `metav1.LabelSelectorOperator`. -/
inductive LOp where
  | isIn | notIn | exist | notExist
deriving DecidableEq, Repr

/-- `metav1.LabelSelectorRequirement`. -/
structure LReq where
  key : Str
  op : LOp
  vals : List Str
deriving DecidableEq, Repr

/-- `metav1.LabelSelector`. -/
structure LabelSelector where
  matchLabels : List (Str × Str) := []
  matchExprs : List LReq := []
deriving DecidableEq, Repr

def LOp.toOp : LOp → Op
  | .isIn => .isIn
  | .notIn => .notIn
  | .exist => .exist
  | .notExist => .notExist

/-- `metav1.LabelSelectorAsSelector`: the requirements, sorted by key (`Selector.Add` sorts).
Simplification: `matchLabels` is visited in list order, the sort is stable. -/
def asSelector (ls : LabelSelector) : Option (List Req) :=
  ((ls.matchLabels.mapM fun kv => newReq kv.1 .eq [kv.2]).bind fun a =>
    (ls.matchExprs.mapM fun e => newReq e.key e.op.toOp e.vals).map fun b =>
      sortBy Req.keyLe (a ++ b))

/-- `metav1.FormatLabelSelector`; `none` stands for the result `"<error>"`. -/
def formatSelector (ls : LabelSelector) : Option Str :=
  (asSelector ls).map fun rs => if (selStr rs).isEmpty then lit "<none>" else selStr rs

end Ckube

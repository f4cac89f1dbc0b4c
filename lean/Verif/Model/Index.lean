import Verif.Model.ObjType

/-! # Index expressions that are JSON paths (store/memory/memory.go:359-390, utils/utils.go:5-10)

The part of k8s.io/client-go v0.21 `util/jsonpath` that the documented index expressions use: text, fields (`.name`), all elements
(`[*]`), single elements (`[0]`, `[-1]`), blanks, `$` and `@`. Everything else (filters, unions, ranges, `..`, `.*`, quotes, escapes, Go templates) is
left to the parameter `other`. -/

namespace Ckube

/-- A step of a JSON path. -/
inductive JpStep where
  | field (name : Str)
  | each
  | elem (n : Int)
deriving DecidableEq, Repr

/-- A node of a template: text, or a list of steps in braces. -/
inductive JpNode where
  | text (s : Str)
  | path (steps : List JpStep)
deriving DecidableEq, Repr

/-- Outcome of a parser: a result, an error, or something that is not modelled. -/
inductive JpRes (α : Type) where
  | ok (a : α)
  | bad
  | other
deriving DecidableEq, Repr

/-- `Parser.advance` stops at these bytes (util/jsonpath/parser.go). -/
def jpStop (b : UInt8) : Bool := (lit " .,[]$@{}").contains b

/-- `parseInsideAction` after `{`: the steps and the text after `}` (util/jsonpath/parser.go). `[]` is `[0]`, since the end of a range without colon is one
more than its beginning, which is 0 when it is not given. -/
def jpAction : Nat → Str → JpRes (List JpStep × Str)
  | 0, _ => .other
  | _ + 1, [] => .bad
  | f + 1, c :: r =>
    if c = 125 then .ok ([], r)
    else if c = 10 ∨ c = 13 then .bad
    else if c = 32 ∨ c = 64 ∨ c = 36 then jpAction f r
    else if c = 46 then
      let name := r.takeWhile fun b => !jpStop b
      if name = [] ∨ name = lit "*" ∨ (92 : UInt8) ∈ name then .other
      else match jpAction f (r.drop name.length) with
        | .ok (ss, rest) => .ok (.field name :: ss, rest)
        | .bad => .bad
        | .other => .other
    else if c = 91 ∧ hasPrefix r (lit "*]") then
      match jpAction f (r.drop 2) with
        | .ok (ss, rest) => .ok (.each :: ss, rest)
        | .bad => .bad
        | .other => .other
    else if c = 91 then
      let body := r.takeWhile fun b => b ≠ 93
      if r.drop body.length = [] ∨ ((if body.head? = some 45 then body.drop 1 else body).all isDigit) = false then .other
      else match if body = [] then some 0 else parseInt64 body with
        | none => .bad
        | some n => match jpAction f (r.drop (body.length + 1)) with
          | .ok (ss, rest) => .ok (.elem n :: ss, rest)
          | .bad => .bad
          | .other => .other
    else .other

/-- `parseText`: text up to the next `{`, then the action (util/jsonpath/parser.go). -/
def jpText : Nat → Str → JpRes (List JpNode)
  | 0, _ => .other
  | f + 1, s =>
    let t := s.takeWhile fun b => b ≠ 123
    let head := if t = [] then [] else [JpNode.text t]
    match s.drop t.length with
    | [] => .ok head
    | _ :: r =>
      match jpAction (r.length + 1) r with
      | .ok (ss, rest) =>
        match jpText f rest with
        | .ok ns => .ok (head ++ .path ss :: ns)
        | .bad => .bad
        | .other => .other
      | .bad => .bad
      | .other => .other

/-- `JSONPath.Parse`. -/
def jpParse (s : Str) : JpRes (List JpNode) := jpText (s.length + 1) s

/-- `MapIndex` of a value: a member of an object, nothing for other values. -/
def jvField (n : Str) : JV → Option JV
  | .obj ms => lookup n ms
  | _ => none

/-- `evalArray` for `[*]` (util/jsonpath/jsonpath.go), which is the range from 0 to the length: null is skipped, other values than arrays are an error. A range of no
elements, here an empty array, ends the evaluation (`return result, nil`), and what follows it is not looked at. -/
def jpEach : List JV → Option (List JV)
  | [] => some []
  | .null :: vs => jpEach vs
  | .arr [] :: _ => some []
  | .arr (x :: xs) :: vs => (jpEach vs).map ((x :: xs) ++ ·)
  | _ :: _ => none

/-- An element of an array, counted from the end if the number is negative. -/
def jvAt (n : Int) (xs : List JV) : Option JV :=
  let i := if n < 0 then n + xs.length else n
  if i < 0 then none else xs[i.toNat]?

/-- `evalArray` for `[n]`, the range from n to n + 1; an element that is not there is an error. -/
def jpElem (n : Int) : List JV → Option (List JV)
  | [] => some []
  | .null :: vs => jpElem n vs
  | .arr xs :: vs => (jvAt n xs).bind fun v => (jpElem n vs).map (v :: ·)
  | _ :: _ => none

/-- `evalField` and `evalArray` (util/jsonpath/jsonpath.go), with missing keys allowed; `none` is an error. -/
def jpStep : JpStep → List JV → Option (List JV)
  | .field n, vs => some (vs.filterMap (jvField n))
  | .each, vs => jpEach vs
  | .elem n, vs => jpElem n vs

/-- `evalList` (util/jsonpath/jsonpath.go). -/
def jpSteps : List JpStep → List JV → Option (List JV)
  | [], vs => some vs
  | s :: ss, vs => (jpStep s vs).bind (jpSteps ss)

/-- Scientific notation: one digit, the others after a point, and an exponent of at least two digits. -/
def sciText (digits : Str) (neg : Bool) (e : Nat) : Str :=
  digits.take 1 ++ (if digits.drop 1 = [] then [] else 46 :: digits.drop 1) ++ [101, if neg then 45 else 43]
    ++ (if e < 10 then 48 :: natDigits e else natDigits e)

/-- Trailing zeros removed. -/
def stripZeros (s : Str) : Str := (s.reverse.dropWhile (· = 48)).reverse

/-- `fmt.Fprint` of the `float64` for which `json.Marshal` prints `t`, without its sign: both print the shortest digits; `json.Marshal`
uses an exponent from 1e21 and below 1e-6 (and removes a leading zero of a negative one), `%v` from 1e6 and below 1e-4
(strconv/ftoa.go, encoding/json/encode.go). -/
def gTextAbs (t : Str) : Str :=
  if t.contains 101 then
    let (m, e) := (t.takeWhile (· ≠ 101), (t.dropWhile (· ≠ 101)).drop 1)
    if e.length = 2 then m ++ [101] ++ e.take 1 ++ 48 :: e.drop 1 else t
  else
    let (i, f) := (t.takeWhile (· ≠ 46), (t.dropWhile (· ≠ 46)).drop 1)
    let z := (f.takeWhile (· = 48)).length
    if 7 ≤ i.length then sciText (stripZeros (i ++ f)) false (i.length - 1)
    else if i = [48] ∧ 4 ≤ z ∧ z < f.length then sciText (f.drop z) true (z + 1)
    else t

def gText (t : Str) : Str :=
  match t with
  | 45 :: r => 45 :: gTextAbs r
  | _ => gTextAbs t

/-- `evalToText`, or `json.Marshal` for maps and slices (util/jsonpath/jsonpath.go, `PrintResults`). -/
def jpShow : JV → Str
  | .null => lit "null"
  | .bool b => if b then lit "true" else lit "false"
  | .num t => gText t
  | .str s => s
  | .arr xs => Json.enc (.arr xs)
  | .obj ms => Json.enc (.obj ms)

/-- The results of one node, as `PrintResults` writes them. -/
def jpNode (doc : JV) : JpNode → Option Str
  | .text s => some s
  | .path ss => (jpSteps ss [doc]).map fun vs => join [32] (vs.map jpShow)

/-- `FindResults` of all nodes, then `PrintResults`: after an error nothing has been written. -/
def jpExec (nodes : List JpNode) (doc : JV) : Str :=
  match nodes.mapM (jpNode doc) with
  | some ts => ts.flatten
  | none => []

/-- What the expression `e` writes for an object whose JSON form is `js o`: `Obj2JSONMap` (utils/utils.go:5-10), then the JSON path
(store/memory/memory.go:376-390). A path that cannot be parsed leaves no parser, and executing it writes nothing. -/
def jpEval (num : Str → Option Str) (other : Str → Str → Str) (js : Obj → Str) : Str → Obj → Str := fun e o =>
  if contains e (lit "{{") then other e (js o)
  else match jpParse e with
    | .ok nodes => jpExec nodes (.obj (decodeMap num (js o)))
    | .bad => []
    | .other => other e (js o)

end Ckube

import Verif.Model.Index
import Verif.Model.Quote

/-! # Index expressions that are Go templates (store/memory/memory.go:339-352, 359-390)

The part of Go 1.19 `text/template` that the index expressions of store/memory/memory_test.go use (from memory of its source): text, comments, trim
markers, field chains, string constants without escapes, pipelines with the three functions of `funMap`, and `if` with `else` and `else if`. Everything
else (variables, `range`, `with`, `define`, parentheses, numbers, built-in functions, text that is not ASCII in actions) is left to the parameter `other`. -/

namespace Ckube

/-- A token of an action (text/template/parse/lex.go). -/
inductive TTok where
  | sp
  | field (name : Str)
  | str (s : Str)
  | word (s : Str)
  | pipe
deriving DecidableEq, Repr

/-- The functions of `funMap` (store/memory/memory.go:339-352). -/
inductive TFn where
  | default | quote | join
deriving DecidableEq, Repr

inductive TArg where
  | field (path : List Str)
  | str (s : Str)
deriving DecidableEq, Repr

inductive TCmd where
  | val (a : TArg)
  | call (f : TFn) (args : List TArg)
deriving DecidableEq, Repr

/-- A node of a template. -/
inductive TNode where
  | text (s : Str)
  | act (cmds : List TCmd)
  | cond (cmds : List TCmd) (yes no : List TNode)
deriving Repr

/-! ## Lexer -/

/-- `isSpace` (text/template/parse/lex.go). -/
def tSpace (b : UInt8) : Bool := b = 32 || b = 9 || b = 13 || b = 10

/-- `isAlphaNumeric` for ASCII. -/
def tAlnum (b : UInt8) : Bool := isAlnum b || b = 95

/-- The text before the first `{{`, and what follows it. -/
def cutOpen : Str → Option (Str × Str)
  | [] => none
  | c :: r =>
    if hasPrefix (c :: r) (lit "{{") then some ([], r.drop 1)
    else (cutOpen r).map fun x => (c :: x.1, x.2)

/-- What follows the first `*/`. -/
def cutComment : Str → Option Str
  | [] => none
  | c :: r => if hasPrefix (c :: r) (lit "*/") then some (r.drop 1) else cutComment r

/-- `atTerminator` for the tokens that are modelled. -/
def tTerm : Str → Bool
  | [] => true
  | c :: _ => tSpace c || c = 46 || c = 124 || c = 125

/-- The tokens of an action, the text after its end, and whether that text is to be trimmed (`lexInsideAction` and its successors). -/
def tLexAction : Nat → Str → JpRes (List TTok × Str × Bool)
  | 0, _ => .other
  | _ + 1, [] => .bad
  | f + 1, c :: r =>
    if hasPrefix (c :: r) (lit "}}") then .ok ([], r.drop 1, false)
    else if tSpace c then
      let rest := r.dropWhile tSpace
      if hasPrefix rest (lit "-}}") then .ok ([.sp], rest.drop 3, true)
      else match tLexAction f rest with
        | .ok x => .ok (.sp :: x.1, x.2)
        | .bad => .bad
        | .other => .other
    else if c = 124 then
      match tLexAction f r with
        | .ok x => .ok (.pipe :: x.1, x.2)
        | .bad => .bad
        | .other => .other
    else if c = 34 then
      let s := r.takeWhile (· ≠ 34)
      if (92 : UInt8) ∈ s ∨ (10 : UInt8) ∈ s ∨ validUtf8 s = false ∨ r.length = s.length then .other
      else match tLexAction f (r.drop (s.length + 1)) with
        | .ok x => .ok (.str s :: x.1, x.2)
        | .bad => .bad
        | .other => .other
    else if c = 46 then
      let n := r.takeWhile tAlnum
      if n = [] ∨ isDigit (n.headD 0) ∨ tTerm (r.drop n.length) = false then .other
      else match tLexAction f (r.drop n.length) with
        | .ok x => .ok (.field n :: x.1, x.2)
        | .bad => .bad
        | .other => .other
    else
      let n := (c :: r).takeWhile tAlnum
      if n = [] ∨ isDigit c ∨ tTerm ((c :: r).drop n.length) = false then .other
      else match tLexAction f ((c :: r).drop n.length) with
        | .ok x => .ok (.word n :: x.1, x.2)
        | .bad => .bad
        | .other => .other

/-- Text or an action. -/
inductive TItem where
  | text (s : Str)
  | act (toks : List TTok)
deriving DecidableEq, Repr

/-- `lexText`, `lexLeftDelim` and `lexComment`: all items (text/template/parse/lex.go). -/
def tLex : Nat → Str → JpRes (List TItem)
  | 0, _ => .other
  | f + 1, s =>
    match cutOpen s with
    | none => .ok (if s = [] then [] else [.text s])
    | some (t, r) =>
      let trim := r.headD 0 = 45 && tSpace ((r.drop 1).headD 0)
      let t := if trim then (t.reverse.dropWhile tSpace).reverse else t
      let r := if trim then r.drop 2 else r
      let head := if t = [] then [] else [TItem.text t]
      if hasPrefix r (lit "/*") then
        match cutComment (r.drop 2) with
        | none => .bad
        | some r =>
          if hasPrefix r (lit "}}") then
            match tLex f (r.drop 2) with
            | .ok is => .ok (head ++ is)
            | .bad => .bad
            | .other => .other
          else if tSpace (r.headD 0) && hasPrefix (r.drop 1) (lit "-}}") then
            match tLex f ((r.drop 4).dropWhile tSpace) with
            | .ok is => .ok (head ++ is)
            | .bad => .bad
            | .other => .other
          else .bad
      else match tLexAction (r.length + 1) r with
        | .bad => .bad
        | .other => .other
        | .ok (toks, rest, trimmed) =>
          match tLex f (if trimmed then rest.dropWhile tSpace else rest) with
          | .ok is => .ok (head ++ .act toks :: is)
          | .bad => .bad
          | .other => .other

/-! ## Parser -/

/-- An operand is followed by a blank or by nothing (`command`, text/template/parse/parse.go). -/
def tSep : List TTok → Bool
  | [] => true
  | t :: _ => t = .sp

/-- The operands of a command; fields that follow each other are one chain. A word is a function. -/
def tArgs : List TTok → Option (List (TArg ⊕ Str))
  | [] => some []
  | .sp :: r => tArgs r
  | .pipe :: _ => none
  | .str s :: r => if tSep r then (tArgs r).map (.inl (.str s) :: ·) else none
  | .word s :: r => if tSep r then (tArgs r).map (.inr s :: ·) else none
  | .field n :: r => match r with
    | .field _ :: _ => match tArgs r with
      | some (.inl (.field p) :: as) => some (.inl (.field (n :: p)) :: as)
      | _ => none
    | _ => if tSep r then (tArgs r).map (.inl (.field [n]) :: ·) else none

/-- The tokens between pipe symbols. -/
def tSplit : List TTok → List (List TTok)
  | [] => [[]]
  | .pipe :: r => [] :: tSplit r
  | t :: r => match tSplit r with
    | x :: xs => (t :: x) :: xs
    | [] => [[t]]

def tFn (s : Str) : Option TFn :=
  if s = lit "default" then some .default
  else if s = lit "quote" then some .quote
  else if s = lit "join" then some .join
  else none

/-- Words that are keywords, constants or built-in functions. -/
def tKnown : List Str :=
  ["block", "break", "continue", "define", "else", "end", "if", "range", "nil", "template", "with", "true", "false", "and", "call", "html", "index", "slice",
    "js", "len", "not", "or", "print", "printf", "println", "urlquery", "eq", "ge", "gt", "le", "lt", "ne"].map lit

/-- The arguments of a function that are no functions. -/
def tPlain : List (TArg ⊕ Str) → Option (List TArg)
  | [] => some []
  | .inl a :: r => (tPlain r).map (a :: ·)
  | .inr _ :: _ => none

/-- One command; `first`: of the pipeline (`checkPipeline`). -/
def tCmd (first : Bool) (toks : List TTok) : JpRes TCmd :=
  match tArgs toks with
  | some [.inl a] => if first then .ok (.val a) else .other
  | some (.inr s :: as) => match tFn s with
    | some f => match tPlain as with
      | some as => .ok (.call f as)
      | none => .other
    | none => if tKnown.contains s then .other else .bad
  | _ => .other

def tCmds (first : Bool) : List (List TTok) → JpRes (List TCmd)
  | [] => .ok []
  | t :: ts => match tCmd first t with
    | .bad => .bad
    | .other => .other
    | .ok c => match tCmds false ts with
      | .ok cs => .ok (c :: cs)
      | .bad => .bad
      | .other => .other

/-- `pipeline` (text/template/parse/parse.go). -/
def tPipe (toks : List TTok) : JpRes (List TCmd) := tCmds true (tSplit toks)

/-- The kinds of actions. -/
inductive TAct where
  | pipe (p : List TCmd)
  | cond (p : List TCmd)
  | elseIf (p : List TCmd)
  | els
  | fin

def tAct (toks : List TTok) : JpRes TAct :=
  let toks := toks.dropWhile (· = .sp)
  let wrap (k : List TCmd → TAct) (ts : List TTok) : JpRes TAct := match tPipe ts with
    | .ok p => .ok (k p)
    | .bad => .bad
    | .other => .other
  if toks.headD .sp = .word (lit "if") then wrap .cond (toks.drop 1)
  else if toks.headD .sp = .word (lit "end") then if (toks.drop 1).all (· = .sp) then .ok .fin else .bad
  else if toks.headD .sp = .word (lit "else") then
    let r := (toks.drop 1).dropWhile (· = .sp)
    if r = [] then .ok .els
    else if r.headD .sp = .word (lit "if") then wrap .elseIf (r.drop 1) else .bad
  else wrap .pipe toks

/-- How a list of nodes ends. -/
inductive TEnd where
  | eof
  | fin
  | els
  | elseIf (p : List TCmd)

mutual
/-- `parse` and `itemList` (text/template/parse/parse.go): the nodes up to the end of the template or to an `end` or `else` that belongs to the
enclosing `if`. -/
def tNodes : Nat → List TItem → JpRes (List TNode × TEnd × List TItem)
  | 0, _ => .other
  | _ + 1, [] => .ok ([], .eof, [])
  | f + 1, .text s :: is => match tNodes f is with
    | .ok x => .ok (.text s :: x.1, x.2)
    | .bad => .bad
    | .other => .other
  | f + 1, .act toks :: is => match tAct toks with
    | .bad => .bad
    | .other => .other
    | .ok .fin => .ok ([], .fin, is)
    | .ok .els => .ok ([], .els, is)
    | .ok (.elseIf p) => .ok ([], .elseIf p, is)
    | .ok (.pipe p) => match tNodes f is with
      | .ok x => .ok (.act p :: x.1, x.2)
      | .bad => .bad
      | .other => .other
    | .ok (.cond p) => match tIf f p is with
      | .bad => .bad
      | .other => .other
      | .ok (n, is) => match tNodes f is with
        | .ok x => .ok (n :: x.1, x.2)
        | .bad => .bad
        | .other => .other

/-- `parseControl` for `if` (text/template/parse/parse.go): `else if` is an `if` in the branch of `else`, with one `end` for both. -/
def tIf : Nat → List TCmd → List TItem → JpRes (TNode × List TItem)
  | 0, _, _ => .other
  | f + 1, p, is => match tNodes f is with
    | .bad => .bad
    | .other => .other
    | .ok (_, .eof, _) => .bad
    | .ok (yes, .fin, is) => .ok (.cond p yes [], is)
    | .ok (yes, .elseIf q, is) => match tIf f q is with
      | .ok (n, is) => .ok (.cond p yes [n], is)
      | .bad => .bad
      | .other => .other
    | .ok (yes, .els, is) => match tNodes f is with
      | .bad => .bad
      | .other => .other
      | .ok (no, .fin, is) => .ok (.cond p yes no, is)
      | .ok _ => .bad
end

/-- `Template.Parse`: the tree of a template. -/
def tmplParse (s : Str) : JpRes (List TNode) :=
  match tLex (s.length + 1) s with
  | .bad => .bad
  | .other => .other
  | .ok is => match tNodes (2 * is.length + 2) is with
    | .ok (ns, .eof, _) => .ok ns
    | .ok _ => .bad
    | .bad => .bad
    | .other => .other

/-! ## Execution -/

mutual
/-- `fmt` with the verb `v`, `s` or `q` inside a value (fmt/print.go). -/
def fmtVerb (isPrint : Nat → Bool) (verb : UInt8) : JV → Str
  | .null => lit "<nil>"
  | .bool b =>
    let t := if b then lit "true" else lit "false"
    if verb = 118 then t else [37, 33, verb] ++ lit "(bool=" ++ t ++ [41]
  | .num t => if verb = 118 then gText t else [37, 33, verb] ++ lit "(float64=" ++ gText t ++ [41]
  | .str s => if verb = 113 then quote isPrint s else s
  | .arr xs => [91] ++ join [32] (fmtElems isPrint verb xs) ++ [93]
  | .obj ms => lit "map[" ++ join [32] ((sortBy (fun a b => strLe a.1 b.1) (fmtMembers isPrint verb ms)).map fun e =>
      (if verb = 113 then quote isPrint e.1 else e.1) ++ [58] ++ e.2) ++ [93]

def fmtElems (isPrint : Nat → Bool) (verb : UInt8) : List JV → List Str
  | [] => []
  | x :: xs => fmtVerb isPrint verb x :: fmtElems isPrint verb xs

def fmtMembers (isPrint : Nat → Bool) (verb : UInt8) : List (Str × JV) → List (Str × Str)
  | [] => []
  | (k, v) :: ms => (k, fmtVerb isPrint verb v) :: fmtMembers isPrint verb ms
end

/-- `fmt.Sprintf("%s", v)` and `fmt.Sprintf("%q", v)`. -/
def fmtTop (isPrint : Nat → Bool) (verb : UInt8) : JV → Str
  | .null => [37, 33, verb] ++ lit "(<nil>)"
  | v => fmtVerb isPrint verb v

/-- `evalFieldChain` on maps (text/template/exec.go): the inner `none` is a missing key, the outer one an error. -/
def tField : List Str → Option JV → Option (Option JV)
  | [], v => some v
  | _ :: _, none => some none
  | n :: ns, some (.obj ms) => tField ns (lookup n ms)
  | _ :: _, some _ => none

def tArg (doc : JV) : TArg → Option (Option JV)
  | .str s => some (some (.str s))
  | .field p => tField p (some doc)

/-- `validateType` for a parameter of type `string`. -/
def tString : Option JV → Option Str
  | some (.str s) => some s
  | _ => none

/-- A call of a function with all its arguments (`evalCall`, text/template/exec.go; store/memory/memory.go:339-352); `none` is an error. -/
def tCall (isPrint : Nat → Bool) : TFn → List (Option JV) → Option Str
  | .default, [d, pre] => (tString d).map fun d => match pre with
    | none => d
    | some .null => d
    | some v => fmtTop isPrint 115 v
  | .quote, [pre] => some (fmtTop isPrint 113 (pre.getD .null))
  | .join, sep :: ins => (tString sep).bind fun sep => (ins.mapM tString).map fun ins => join sep ins
  | _, _ => none

/-- One command; `final` is the value of the command before (`evalCommand`, text/template/exec.go). -/
def tEval (isPrint : Nat → Bool) (doc : JV) (final : List (Option JV)) : TCmd → Option (Option JV)
  | .val a => tArg doc a
  | .call f as => (as.mapM (tArg doc)).bind fun vs => (tCall isPrint f (vs ++ final)).map fun s => some (.str s)

/-- `evalPipeline`. -/
def tPipeline (isPrint : Nat → Bool) (doc : JV) : List (Option JV) → List TCmd → Option (Option JV)
  | final, [] => final.headD none
  | final, c :: cs => (tEval isPrint doc final c).bind fun v => match cs with
    | [] => some v
    | _ :: _ => tPipeline isPrint doc [v] cs

/-- `printValue`: `fmt.Fprint`, and a text for what is missing or null. -/
def tShow (isPrint : Nat → Bool) : Option JV → Str
  | none => lit "<no value>"
  | some .null => lit "<no value>"
  | some v => fmtVerb isPrint 118 v

/-- `isTrue`. -/
def tTrue : Option JV → Bool
  | none => false
  | some .null => false
  | some (.bool b) => b
  | some (.num t) => t != [48] && t != [45, 48]
  | some (.str s) => s != []
  | some (.arr xs) => xs.length != 0
  | some (.obj ms) => ms.length != 0

mutual
/-- `walk` (text/template/exec.go): what is written, and whether no error occurred. -/
def tWalk (isPrint : Nat → Bool) (doc : JV) : TNode → Str × Bool
  | .text s => (s, true)
  | .act p => match tPipeline isPrint doc [] p with
    | none => ([], false)
    | some v => (tShow isPrint v, true)
  | .cond p yes no => match tPipeline isPrint doc [] p with
    | none => ([], false)
    | some v => if tTrue v then tWalks isPrint doc yes else tWalks isPrint doc no

def tWalks (isPrint : Nat → Bool) (doc : JV) : List TNode → Str × Bool
  | [] => ([], true)
  | n :: ns =>
    let x := tWalk isPrint doc n
    if x.2 then
      let y := tWalks isPrint doc ns
      (x.1 ++ y.1, y.2)
    else x
end

/-- The parameter `other` of `jpEval` with Go templates (store/memory/memory.go:368-390): a template that cannot be parsed writes nothing, and
after an error what has been written before stays. -/
def tmplOther (num : Str → Option Str) (isPrint : Nat → Bool) (other : Str → Str → Str) : Str → Str → Str := fun e j =>
  if contains e (lit "{{") then
    match tmplParse e with
    | .ok ns => (tWalks isPrint (.obj (decodeMap num j)) ns).1
    | .bad => []
    | .other => other e j
  else other e j

/-- The evaluation of index expressions: JSON paths and Go templates. -/
def ixEval (num : Str → Option Str) (isPrint : Nat → Bool) (other : Str → Str → Str) (js : Obj → Str) : Str → Obj → Str :=
  jpEval num (tmplOther num isPrint other) js

/-! ## The shared template -/

/-- `parse.IsEmptyTree` (text/template/parse/parse.go): comments leave no node. -/
def tEmpty (ns : List TNode) : Bool := ns.all fun n => match n with
  | .text s => s.all fun b => tSpace b || b = 11 || b = 12
  | _ => false

/-- The loop of `buildResourceWithIndex` (store/memory/memory.go:359-390) with the template object that all expressions share: `Parse` does not
replace a tree by an empty one (`AddParseTree`, text/template/template.go). -/
def sharedIndex (num : Str → Option Str) (isPrint : Nat → Bool) (other : Str → Str → Str) (js : Obj → Str) (o : Obj) :
    Option (List TNode) → List (Str × Str) → List (Str × Str)
  | _, [] => []
  | tree, (k, e) :: conf =>
    if contains e (lit "{{") then
      match tmplParse e with
      | .ok ns =>
        let ns := if tEmpty ns then tree.getD ns else ns
        (k, (tWalks isPrint (.obj (decodeMap num (js o))) ns).1) :: sharedIndex num isPrint other js o (some ns) conf
      | .bad => (k, []) :: sharedIndex num isPrint other js o tree conf
      | .other => (k, other e (js o)) :: sharedIndex num isPrint other js o tree conf
    else (k, indexValue (ixEval num isPrint other js) o e) :: sharedIndex num isPrint other js o tree conf

end Ckube

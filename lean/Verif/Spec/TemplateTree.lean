import Verif.Spec.Template

/-! # Specification: Go templates with nested conditions -/

namespace Ckube.Spec

mutual
/-- A leaf, or `{{if .a.b}}…` with what belongs to it up to its `{{end}}`. -/
inductive TTree where
  | leaf (l : TLeaf)
  | cond (p : List Str) (yes : TTrees) (no : TElse)

/-- One after the other. -/
inductive TTrees where
  | nil
  | cons (t : TTree) (ts : TTrees)

/-- How a condition goes on: `{{end}}`, `{{else}}…{{end}}` or `{{else if .a.b}}…`. -/
inductive TElse where
  | fin
  | els (no : TTrees)
  | elseIf (p : List Str) (yes : TTrees) (no : TElse)
end

mutual
/-- The template as it is written in the configuration. -/
def TTree.written : TTree → Str
  | .leaf l => l.written
  | .cond p yes no => lit "{{if " ++ chainText p ++ lit "}}" ++ yes.written ++ no.written

def TTrees.written : TTrees → Str
  | .nil => []
  | .cons t ts => t.written ++ ts.written

def TElse.written : TElse → Str
  | .fin => lit "{{end}}"
  | .els no => lit "{{else}}" ++ no.written ++ lit "{{end}}"
  | .elseIf p yes no => lit "{{else if " ++ chainText p ++ lit "}}" ++ yes.written ++ no.written
end

def TTree.isText : TTree → Bool
  | .leaf l => l.isText
  | .cond _ _ _ => false

/-- Text comes first. -/
def TTrees.textFirst : TTrees → Bool
  | .nil => false
  | .cons t _ => t.isText

mutual
/-- The leaves are well-formed, and text is written in one piece. -/
def TTree.Ok : TTree → Prop
  | .leaf l => l.Ok
  | .cond p yes no => PathOk p ∧ yes.Ok ∧ no.Ok

def TTrees.Ok : TTrees → Prop
  | .nil => True
  | .cons t ts => t.Ok ∧ ts.Ok ∧ ¬ (t.isText = true ∧ ts.textFirst = true)

def TElse.Ok : TElse → Prop
  | .fin => True
  | .els no => no.Ok
  | .elseIf p yes no => PathOk p ∧ yes.Ok ∧ no.Ok
end

mutual
/-- What a tree writes, and whether the template goes on after it. -/
inductive TreeWrites (num : Str → Option Str) (doc : JV) : TTree → Str → Bool → Prop
  | leaf {l : TLeaf} {t : Str} (h : LeafDenotes num doc l t) : TreeWrites num doc (.leaf l) t true
  | fails {l : TLeaf} (h : PieceFails doc (.leaf l)) : TreeWrites num doc (.leaf l) [] false
  | yes {p : List Str} {yes : TTrees} {no : TElse} {v : JV} {t : Str} {b : Bool} (h : HasAt p doc v) (ht : Truthy num v)
      (hb : TreesWrite num doc yes t b) : TreeWrites num doc (.cond p yes no) t b
  | no {p : List Str} {yes : TTrees} {no : TElse} {t : Str} {b : Bool} (h : AbsentAt num p doc ∨ ∃ v, HasAt p doc v ∧ Falsy num v)
      (hb : ElseWrites num doc no t b) : TreeWrites num doc (.cond p yes no) t b
  | blocked {p : List Str} {yes : TTrees} {no : TElse} (h : BlockedAt p doc) : TreeWrites num doc (.cond p yes no) [] false

inductive TreesWrite (num : Str → Option Str) (doc : JV) : TTrees → Str → Bool → Prop
  | nil : TreesWrite num doc .nil [] true
  | cons {t : TTree} {ts : TTrees} {a c : Str} {b : Bool} (h : TreeWrites num doc t a true) (hs : TreesWrite num doc ts c b) :
      TreesWrite num doc (.cons t ts) (a ++ c) b
  | stop {t : TTree} {ts : TTrees} {a : Str} (h : TreeWrites num doc t a false) : TreesWrite num doc (.cons t ts) a false

inductive ElseWrites (num : Str → Option Str) (doc : JV) : TElse → Str → Bool → Prop
  | fin : ElseWrites num doc .fin [] true
  | els {no : TTrees} {t : Str} {b : Bool} (h : TreesWrite num doc no t b) : ElseWrites num doc (.els no) t b
  | elseIf {p : List Str} {yes : TTrees} {no : TElse} {t : Str} {b : Bool} (h : TreeWrites num doc (.cond p yes no) t b) :
      ElseWrites num doc (.elseIf p yes no) t b
end

/-- A mistake in a template, between two templates without one. -/
inductive TMistake where
  /-- `{{.a.b | lower}}`: a function that does not exist -/
  | function (p : List Str) (f : Str)
  /-- `{{if .a.b}}` without `{{end}}` -/
  | noEnd (p : List Str)
  /-- `{{end}}` without `{{if}}` -/
  | noIf
  /-- `{{else}}` without `{{if}}` -/
  | noIfElse

def TMistake.written : TMistake → Str
  | .function p f => lit "{{" ++ chainText p ++ lit " | " ++ f ++ lit "}}"
  | .noEnd p => lit "{{if " ++ chainText p ++ lit "}}"
  | .noIf => lit "{{end}}"
  | .noIfElse => lit "{{else}}"

/-- The names that mean something in a template: the functions of ckube, the keywords and the functions of Go. -/
def templateWords : List Str :=
  ["default", "quote", "join", "block", "break", "continue", "define", "else", "end", "if", "range", "nil", "template", "with",
   "true", "false", "and", "call", "html", "index", "slice", "js", "len", "not", "or", "print", "printf", "println", "urlquery", "eq", "ge", "gt", "le", "lt", "ne"].map lit

def TMistake.Ok : TMistake → Prop
  | .function p f => PathOk p ∧ FieldName f ∧ f ∉ templateWords
  | .noEnd p => PathOk p
  | _ => True

end Ckube.Spec

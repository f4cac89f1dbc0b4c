import Verif.Model.Template
import Verif.Spec.Index

/-! # Specification: what a Go template in the index configuration denotes -/

namespace Ckube.Spec

/-- The value `v` stands at the path. -/
inductive HasAt : List Str → JV → JV → Prop
  | nil (v : JV) : HasAt [] v v
  | step {n : Str} {ns : List Str} {ms : List (Str × JV)} {w v : JV} (h : lastOf n ms = some w) (t : HasAt ns w v) : HasAt (n :: ns) (.obj ms) v

/-- An object on the path does not have the field. -/
inductive LacksAt : List Str → JV → Prop
  | here {n : Str} {ns : List Str} {ms : List (Str × JV)} (h : lastOf n ms = none) : LacksAt (n :: ns) (.obj ms)
  | step {n : Str} {ns : List Str} {ms : List (Str × JV)} {w : JV} (h : lastOf n ms = some w) (t : LacksAt ns w) : LacksAt (n :: ns) (.obj ms)

/-- The path asks for a field of something that is no object. -/
inductive BlockedAt : List Str → JV → Prop
  | here {n : Str} {ns : List Str} {v : JV} (h : ∀ ms, v ≠ .obj ms) : BlockedAt (n :: ns) v
  | step {n : Str} {ns : List Str} {ms : List (Str × JV)} {w : JV} (h : lastOf n ms = some w) (t : BlockedAt ns w) : BlockedAt (n :: ns) (.obj ms)

/-- Nothing, or null (a number that is out of range counts as null), stands at the path. -/
def AbsentAt (num : Str → Option Str) (p : List Str) (doc : JV) : Prop :=
  LacksAt p doc ∨ HasAt p doc .null ∨ ∃ raw, HasAt p doc (.num raw) ∧ num raw = none

/-- An action of a template that writes something. -/
inductive TAction where
  /-- `{{.a.b}}` -/
  | field (p : List Str)
  /-- `{{.a.b | default "d"}}` -/
  | fallback (p : List Str) (d : Str)
  /-- `{{.a.b | quote}}` -/
  | quoted (p : List Str)
  /-- `{{join "sep" .a.b .c}}` -/
  | joined (sep : Str) (ps : List (List Str))

/-- Text, or an action with or without blanks beside the braces. -/
inductive TLeaf where
  | text (s : Str)
  | act (a : TAction) (left right : Bool)

/-- A leaf, or `{{if .a.b}}…{{else}}…{{end}}`; an empty `no` is not written. -/
inductive TPiece where
  | leaf (l : TLeaf)
  | cond (p : List Str) (yes no : List TLeaf)

def chainText (p : List Str) : Str := p.flatMap fun n => 46 :: n

def TAction.written : TAction → Str
  | .field p => chainText p
  | .fallback p d => chainText p ++ lit " | default \"" ++ d ++ lit "\""
  | .quoted p => chainText p ++ lit " | quote"
  | .joined sep ps => lit "join \"" ++ sep ++ lit "\"" ++ ps.flatMap fun p => 32 :: chainText p

def blank (b : Bool) : Str := if b then [32] else []

def TLeaf.written : TLeaf → Str
  | .text s => s
  | .act a l r => lit "{{" ++ blank l ++ a.written ++ blank r ++ lit "}}"

/-- The template as it is written in the configuration. -/
def TPiece.written : TPiece → Str
  | .leaf l => l.written
  | .cond p yes no => lit "{{if " ++ chainText p ++ lit "}}" ++ yes.flatMap TLeaf.written
      ++ (if no.isEmpty then [] else lit "{{else}}" ++ no.flatMap TLeaf.written) ++ lit "{{end}}"

/-- A name of letters, digits and underscores that starts with no digit. -/
def FieldName (n : Str) : Prop := n ≠ [] ∧ (∀ b ∈ n, isAlnum b = true ∨ b = 95) ∧ ∀ b ∈ n.head?, isDigit b = false

def PathOk (p : List Str) : Prop := p ≠ [] ∧ ∀ n ∈ p, FieldName n

/-- A text that can stand in double quotes as it is. -/
def ConstOk (s : Str) : Prop := (34 : UInt8) ∉ s ∧ (92 : UInt8) ∉ s ∧ (10 : UInt8) ∉ s ∧ validUtf8 s = true

def TAction.Ok : TAction → Prop
  | .field p => PathOk p
  | .fallback p d => PathOk p ∧ ConstOk d
  | .quoted p => PathOk p
  | .joined sep ps => ConstOk sep ∧ ∀ p ∈ ps, PathOk p

def TLeaf.Ok : TLeaf → Prop
  | .text s => s ≠ [] ∧ (123 : UInt8) ∉ s
  | .act a _ _ => a.Ok

def TLeaf.isText : TLeaf → Bool
  | .text _ => true
  | .act _ _ _ => false

/-- Text is written in one piece. -/
def OnePiece (ls : List TLeaf) : Prop := ls.IsChain fun a b => ¬ (a.isText = true ∧ b.isText = true)

def TPiece.Ok : TPiece → Prop
  | .leaf l => l.Ok
  | .cond p yes no => PathOk p ∧ (∀ l ∈ yes, l.Ok) ∧ OnePiece yes ∧ (∀ l ∈ no, l.Ok) ∧ OnePiece no

def TPiece.isText : TPiece → Bool
  | .leaf l => l.isText
  | .cond _ _ _ => false

/-- A template that is made of well-formed pieces. -/
def TemplateOk (ps : List TPiece) : Prop := (∀ p ∈ ps, p.Ok) ∧ ps.IsChain fun a b => ¬ (a.isText = true ∧ b.isText = true)

/-- PlainAscii ASCII without quotes and backslashes. -/
def PlainAscii (s : Str) : Prop := ∀ b ∈ s, 32 ≤ b ∧ b ≤ 126 ∧ b ≠ 34 ∧ b ≠ 92

/-- What an action writes. -/
inductive TmplDenotes (num : Str → Option Str) (doc : JV) : TAction → Str → Prop
  | str {p : List Str} {s : Str} (h : HasAt p doc (.str s)) : TmplDenotes num doc (.field p) s
  | tt {p : List Str} (h : HasAt p doc (.bool true)) : TmplDenotes num doc (.field p) (lit "true")
  | ff {p : List Str} (h : HasAt p doc (.bool false)) : TmplDenotes num doc (.field p) (lit "false")
  | int {p : List Str} {n : Int} (h : HasAt p doc (.num (intDigits n))) (hn : n.natAbs < 1000000) (hs : num (intDigits n) = some (intDigits n)) :
      TmplDenotes num doc (.field p) (intDigits n)
  | dec {p : List Str} {raw t : Str} (h : HasAt p doc (.num raw)) (hs : num raw = some t) (hd : PlainDecimal t) : TmplDenotes num doc (.field p) t
  | present {p : List Str} {d s : Str} (h : HasAt p doc (.str s)) : TmplDenotes num doc (.fallback p d) s
  | absent {p : List Str} {d : Str} (h : AbsentAt num p doc) : TmplDenotes num doc (.fallback p d) d
  | quoted {p : List Str} {s : Str} (h : HasAt p doc (.str s)) (hp : PlainAscii s) : TmplDenotes num doc (.quoted p) ([34] ++ s ++ [34])
  | joined {sep : Str} {ps : List (List Str)} {ss : List Str} (h : List.Forall₂ (fun p s => HasAt p doc (.str s)) ps ss) :
      TmplDenotes num doc (.joined sep ps) (sep.intercalate ss)

/-- What a leaf writes. -/
inductive LeafDenotes (num : Str → Option Str) (doc : JV) : TLeaf → Str → Prop
  | text (s : Str) : LeafDenotes num doc (.text s) s
  | act {a : TAction} {l r : Bool} {t : Str} (h : TmplDenotes num doc a t) : LeafDenotes num doc (.act a l r) t

/-- A value that counts as true. -/
inductive Truthy (num : Str → Option Str) : JV → Prop
  | tt : Truthy num (.bool true)
  | str {s : Str} (h : s ≠ []) : Truthy num (.str s)
  | int {n : Int} (h : n ≠ 0) (hs : num (intDigits n) = some (intDigits n)) : Truthy num (.num (intDigits n))
  | arr {x : JV} {xs : List JV} : Truthy num (.arr (x :: xs))
  | obj {m : Str × JV} {ms : List (Str × JV)} : Truthy num (.obj (m :: ms))

/-- A value that counts as false. -/
inductive Falsy (num : Str → Option Str) : JV → Prop
  | ff : Falsy num (.bool false)
  | str : Falsy num (.str [])
  | zero (hs : num (lit "0") = some (lit "0")) : Falsy num (.num (lit "0"))
  | arr : Falsy num (.arr [])
  | obj : Falsy num (.obj [])

/-- What a piece of a template writes. -/
inductive PieceDenotes (num : Str → Option Str) (doc : JV) : TPiece → Str → Prop
  | leaf {l : TLeaf} {t : Str} (h : LeafDenotes num doc l t) : PieceDenotes num doc (.leaf l) t
  | yes {p : List Str} {yes no : List TLeaf} {v : JV} {ts : List Str} (h : HasAt p doc v) (ht : Truthy num v)
      (hb : List.Forall₂ (LeafDenotes num doc) yes ts) : PieceDenotes num doc (.cond p yes no) ts.flatten
  | no {p : List Str} {yes no : List TLeaf} {ts : List Str} (h : AbsentAt num p doc ∨ ∃ v, HasAt p doc v ∧ Falsy num v)
      (hb : List.Forall₂ (LeafDenotes num doc) no ts) : PieceDenotes num doc (.cond p yes no) ts.flatten

/-- A piece that cannot be evaluated: it asks for a field of something that is no object, or joins something that is no string. -/
inductive PieceFails (doc : JV) : TPiece → Prop
  | field {p : List Str} {l r : Bool} (h : BlockedAt p doc) : PieceFails doc (.leaf (.act (.field p) l r))
  | fallback {p : List Str} {d : Str} {l r : Bool} (h : BlockedAt p doc) : PieceFails doc (.leaf (.act (.fallback p d) l r))
  | quoted {p : List Str} {l r : Bool} (h : BlockedAt p doc) : PieceFails doc (.leaf (.act (.quoted p) l r))
  | joined {sep : Str} {ps : List (List Str)} {l r : Bool} {p : List Str} (hp : p ∈ ps) (h : ∀ s, ¬ HasAt p doc (.str s)) :
      PieceFails doc (.leaf (.act (.joined sep ps) l r))
  | cond {p : List Str} {yes no : List TLeaf} (h : BlockedAt p doc) : PieceFails doc (.cond p yes no)

/-- What stands between the braces of a template. -/
inductive TCommand where
  | out (a : TAction)
  | iff (p : List Str)
  | els
  | fin
  /-- `{{/* c */}}` -/
  | note (c : Str)

def TCommand.written : TCommand → Str
  | .out a => a.written
  | .iff p => lit "if " ++ chainText p
  | .els => lit "else"
  | .fin => lit "end"
  | .note c => lit "/*" ++ c ++ lit "*/"

def TCommand.Ok : TCommand → Prop
  | .out a => a.Ok
  | .iff p => PathOk p
  | .els => True
  | .fin => True
  | .note c => (42 : UInt8) ∉ c

def TCommand.isNote : TCommand → Bool
  | .note _ => true
  | _ => false

/-- Text and a command in braces; a marker `{{- ` removes the blanks before it, and a marker ` -}}` those after it. -/
structure Marked where
  before : Str
  left : Bool
  cmd : TCommand
  right : Bool

def Marked.Ok (m : Marked) : Prop := (123 : UInt8) ∉ m.before ∧ m.cmd.Ok

/-- Blanks, tabs and line ends. -/
def isBlank (b : UInt8) : Bool := b = 32 || b = 9 || b = 13 || b = 10

def trimStart (b : Bool) (s : Str) : Str := if b then s.dropWhile isBlank else s

def trimEnd (b : Bool) (s : Str) : Str := if b then (s.reverse.dropWhile isBlank).reverse else s

/-- The template as it is written, with its markers. -/
def markedText : List Marked → Str → Str
  | [], last => last
  | m :: ms, last => m.before ++ (if m.left then lit "{{- " else lit "{{") ++ m.cmd.written ++ (if m.right then lit " -}}" else lit "}}")
      ++ markedText ms last

/-- The template without markers and without the blanks that they remove. -/
def unmarkedText : Bool → List Marked → Str → Str
  | b, [], last => trimStart b last
  | b, m :: ms, last => trimEnd m.left (trimStart b m.before) ++ lit "{{" ++ m.cmd.written ++ blank (m.right && !m.cmd.isNote) ++ lit "}}"
      ++ unmarkedText m.right ms last

end Ckube.Spec

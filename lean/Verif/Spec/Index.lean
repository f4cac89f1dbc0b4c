import Verif.Model.Index
import Verif.Spec.Kept
import Mathlib.Data.List.Forall2

/-! # Specification: what an index expression denotes -/

namespace Ckube.Spec

/-- The element `n` of an array, where -1 is the last one. -/
def nth (xs : List JV) (n : Int) : Option JV :=
  if 0 ≤ n then xs[n.toNat]? else xs.reverse[(-n).toNat - 1]?

/-- The values a path leads to, from one value: a missing field leads nowhere, `[*]` to all elements, `[n]` to one of them. `none`: `[*]` or `[n]` meets something
that is no array, or there is no such element. A number that is out of range counts as null. -/
def valuesAt (num : Str → Option Str) : List JpStep → JV → Option (List JV)
  | [], v => some [v]
  | .field n :: ss, .obj ms => match lastOf n ms with
    | some v => valuesAt num ss v
    | none => some []
  | .field _ :: _, _ => some []
  | .each :: ss, .arr xs => (xs.mapM (valuesAt num ss)).map List.flatten
  | .each :: _, .null => some []
  | .each :: _, .num raw => if num raw = none then some [] else none
  | .each :: _, _ => none
  | .elem n :: ss, .arr xs => match nth xs n with
    | some v => valuesAt num ss v
    | none => none
  | .elem _ :: _, .null => some []
  | .elem _ :: _, .num raw => if num raw = none then some [] else none
  | .elem _ :: _, _ => none

/-- Where `[*]` meets several values, only the last one may be an empty array. -/
def Undisturbed (num : Str → Option Str) (ss : List JpStep) (doc : JV) : Prop :=
  ∀ pre post, ss = pre ++ .each :: post → ∀ vs, valuesAt num pre doc = some vs → ∀ l r, vs = l ++ .arr [] :: r → r = []

/-- A fraction that is written without an exponent: less than one million, and with a digit other than zero before the fifth
place. -/
def PlainDecimal (t : Str) : Prop :=
  ∃ (sign : Str) (i : Nat) (f : Str), t = sign ++ natDigits i ++ [46] ++ f ∧ (sign = [] ∨ sign = [45]) ∧ i < 1000000
    ∧ (∀ c ∈ f, isDigit c = true) ∧ (i = 0 → ∃ c ∈ f.take 4, c ≠ 48)

/-- How a value is shown: texts as they are, truth values and null by their names, numbers in decimal, arrays and objects as
JSON. -/
inductive ShownAs (num : Str → Option Str) : JV → Str → Prop
  | null : ShownAs num .null (lit "null")
  | tt : ShownAs num (.bool true) (lit "true")
  | ff : ShownAs num (.bool false) (lit "false")
  | str (s : Str) : ShownAs num (.str s) s
  | int (n : Int) : ShownAs num (.num (intDigits n)) (intDigits n)
  | dec {raw t : Str} (h : num raw = some t) (hd : PlainDecimal t) : ShownAs num (.num raw) t
  | arr {xs : List JV} {t : Str} {w : JV} (hk : Kept num (.arr xs) w) (hp : Json.parse t = some w) : ShownAs num (.arr xs) t
  | obj {ms : List (Str × JV)} {t : Str} {w : JV} (hk : Kept num (.obj ms) w) (hp : Json.parse t = some w) : ShownAs num (.obj ms) t

/-- A name that needs no escape in a path. -/
def PlainName (n : Str) : Prop := n ≠ [] ∧ n ≠ lit "*" ∧ (92 : UInt8) ∉ n ∧ ∀ b ∈ n, b ∉ lit " .,[]$@{}"

/-- A piece of an expression: text, or a path in braces, which may start with `$`, `@` or blanks. -/
inductive Piece where
  | text (s : Str)
  | path (ss : List JpStep) (lead : Str := [])

def stepText : JpStep → Str
  | .field n => 46 :: n
  | .each => lit "[*]"
  | .elem n => 91 :: (intDigits n ++ [93])

/-- A step that is written as it should be: names need no escapes, numbers fit into 64 bits. -/
def StepOk : JpStep → Prop
  | .field n => PlainName n
  | .each => True
  | .elem n => -9223372036854775808 ≤ n ∧ n ≤ 9223372036854775807

/-- The expression as it is written in the configuration. -/
def Piece.written : Piece → Str
  | .text s => s
  | .path ss lead => [123] ++ lead ++ ss.flatMap stepText ++ [125]

def Piece.Ok : Piece → Prop
  | .text s => (123 : UInt8) ∉ s
  | .path ss lead => (∀ b ∈ lead, b ∈ lit "$@ ") ∧ ∀ s ∈ ss, StepOk s

/-- A number that is shown in decimal. -/
def SmallNumbers (num : Str → Option Str) (v : JV) : Prop :=
  ∀ raw, v = .num raw → (∃ n : Int, raw = intDigits n ∧ n.natAbs < 1000000 ∧ num raw = some raw) ∨ ∃ t, num raw = some t ∧ PlainDecimal t

/-- The piece `p` of the expression contributes the text `t`. -/
def Shows1 (num : Str → Option Str) (doc : JV) : Piece → Str → Prop
  | .text s, t => t = s
  | .path ss _, t => ∃ vs ts, valuesAt num ss doc = some vs ∧ List.Forall₂ (ShownAs num) vs ts ∧ t = join [32] ts

/-- The bytes of label keys and values. -/
def labelByte (b : UInt8) : Bool := isAlnum b || b == 45 || b == 46 || b == 47 || b == 95

/-- The labels in the JSON form of an object, if any, are a map of plain strings. -/
def LabelsOk (num : Str → Option Str) (doc : JV) : Prop :=
  ∀ vs, valuesAt num [.field (lit "metadata"), .field (lit "labels")] doc = some vs → ∀ w ∈ vs, ∃ ms, w = .obj ms
    ∧ ∀ e ∈ ms, (∀ b ∈ e.1, labelByte b = true) ∧ ∃ t, e.2 = .str t ∧ ∀ b ∈ t, labelByte b = true

/-- The object has the label `k` with the value `v`. -/
def HasLabel (num : Str → Option Str) (doc : JV) (k v : Str) : Prop :=
  valuesAt num [.field (lit "metadata"), .field (lit "labels"), .field k] doc = some [.str v]

/-- A point of time in UTC, by the second. -/
structure CivilTime where
  year : Nat
  month : Nat
  day : Nat
  hour : Nat
  minute : Nat
  second : Nat

def CivilTime.Valid (t : CivilTime) : Prop :=
  t.year < 10000 ∧ t.month ≤ 12 ∧ t.day ≤ 31 ∧ t.hour < 24 ∧ t.minute < 60 ∧ t.second < 60

def CivilTime.fields (t : CivilTime) : List Nat := [t.year, t.month, t.day, t.hour, t.minute, t.second]

/-- `a` is earlier than `b`. -/
def CivilTime.Before (a b : CivilTime) : Prop := a.fields < b.fields

def twoDigits (n : Nat) : Str := [UInt8.ofNat (48 + n / 10), UInt8.ofNat (48 + n % 10)]

/-- The time as `metav1.Time` is written in JSON: `2006-01-02T15:04:05Z`. -/
def CivilTime.rfc3339 (t : CivilTime) : Str :=
  twoDigits (t.year / 100) ++ twoDigits (t.year % 100) ++ lit "-" ++ twoDigits t.month ++ lit "-" ++ twoDigits t.day ++ lit "T"
    ++ twoDigits t.hour ++ lit ":" ++ twoDigits t.minute ++ lit ":" ++ twoDigits t.second ++ lit "Z"

end Ckube.Spec

import Verif.Model.Json

/-! # What JSON texts mean (RFC 8259), stated apart from any reader

`Str` and the tree of values `JV` are shared with the model; nothing else is.  Characters are
Lean's `Char` (Unicode scalar values), their bytes Lean's own UTF-8 encoding. -/

namespace Ckube.Spec

/-- White space between tokens. -/
def Blank (s : Str) : Prop := ∀ c ∈ s, c ∈ lit " \t\n\r"

/-- One or more decimal digits. -/
def DigitRow (s : Str) : Prop := s ≠ [] ∧ ∀ c ∈ s, c ∈ lit "0123456789"

/-- The grammar of numbers. -/
def JsonNumber (t : Str) : Prop :=
  ∃ sign int frac exp, t = sign ++ int ++ frac ++ exp ∧ (sign = [] ∨ sign = lit "-")
    ∧ (int = lit "0" ∨ DigitRow int ∧ int.head? ≠ some 48)
    ∧ (frac = [] ∨ ∃ d, DigitRow d ∧ frac = lit "." ++ d)
    ∧ (exp = [] ∨ ∃ e s d, (e = lit "e" ∨ e = lit "E") ∧ (s = [] ∨ s = lit "+" ∨ s = lit "-") ∧ DigitRow d ∧ exp = e ++ s ++ d)

/-- The sixteen hexadecimal digits in both cases. -/
def HexDigit (d : UInt8) (n : Nat) : Prop :=
  (lit "0123456789abcdef")[n]? = some d ∨ (lit "0123456789ABCDEF")[n]? = some d

/-- Four hexadecimal digits and the number they mean. -/
def Hex4 (t : Str) (u : Nat) : Prop :=
  ∃ a b c d i j k l, t = [a, b, c, d] ∧ HexDigit a i ∧ HexDigit b j ∧ HexDigit c k ∧ HexDigit d l
    ∧ u = ((i * 16 + j) * 16 + k) * 16 + l

/-- The two-character escapes. -/
def shortEscapes : List (Str × Char) :=
  [(lit "\\\"", '"'), (lit "\\\\", '\\'), (lit "\\/", '/'), (lit "\\b", '\x08'), (lit "\\f", '\x0c'),
   (lit "\\n", '\n'), (lit "\\r", '\r'), (lit "\\t", '\t')]

/-- The ways to write one character inside a string. -/
inductive SpellsChar : Str → Char → Prop
  /-- As it is, unless it is a control character, a quote or a backslash. -/
  | raw {c : Char} (h : 0x20 ≤ c.toNat) (h1 : c ≠ '"') (h2 : c ≠ '\\') : SpellsChar (String.utf8EncodeChar c) c
  /-- A backslash and a letter. -/
  | short {t : Str} {c : Char} (h : (t, c) ∈ shortEscapes) : SpellsChar t c
  /-- Four hexadecimal digits. -/
  | unit {t : Str} {c : Char} (h : Hex4 t c.toNat) : SpellsChar (lit "\\u" ++ t) c
  /-- A surrogate pair (UTF-16). -/
  | pair {t t' : Str} {hi lo : Nat} {c : Char} (h : Hex4 t hi) (h' : Hex4 t' lo)
      (hhi : 0xD800 ≤ hi ∧ hi ≤ 0xDBFF) (hlo : 0xDC00 ≤ lo ∧ lo ≤ 0xDFFF)
      (hc : c.toNat = 0x10000 + (hi - 0xD800) * 0x400 + (lo - 0xDC00)) : SpellsChar (lit "\\u" ++ t ++ lit "\\u" ++ t') c

/-- The ways to write a text between two quotes; the text is given by its bytes. -/
inductive Spells : Str → Str → Prop
  | nil : Spells [] []
  | cons {t r s : Str} {c : Char} (h : SpellsChar t c) (hr : Spells r s) : Spells (t ++ r) (String.utf8EncodeChar c ++ s)

/-- What may stand between two quotes at all: bytes other than control characters, quotes and
backslashes, and escapes; neither valid UTF-8 nor well-formed surrogate pairs are asked for. -/
inductive Loose : Str → Prop
  | nil : Loose []
  | byte {b : UInt8} {r : Str} (h : 0x20 ≤ b.toNat) (h1 : b ≠ 34) (h2 : b ≠ 92) (hr : Loose r) : Loose (b :: r)
  | short {t r : Str} {c : Char} (h : (t, c) ∈ shortEscapes) (hr : Loose r) : Loose (t ++ r)
  | unit {t r : Str} {u : Nat} (h : Hex4 t u) (hr : Loose r) : Loose (lit "\\u" ++ t ++ r)

mutual
/-- The texts of a value, given what may stand between quotes (`S`). -/
inductive ValueText (S : Str → Str → Prop) : Str → JV → Prop
  | null : ValueText S (lit "null") .null
  | true : ValueText S (lit "true") (.bool true)
  | false : ValueText S (lit "false") (.bool false)
  | num {t : Str} (h : JsonNumber t) : ValueText S t (.num t)
  | str {t s : Str} (h : S t s) : ValueText S (lit "\"" ++ t ++ lit "\"") (.str s)
  | arr0 {w : Str} (h : Blank w) : ValueText S (lit "[" ++ w ++ lit "]") (.arr [])
  | arr {t : Str} {xs : List JV} (h : ElemsText S t xs) : ValueText S (lit "[" ++ t ++ lit "]") (.arr xs)
  | obj0 {w : Str} (h : Blank w) : ValueText S (lit "{" ++ w ++ lit "}") (.obj [])
  | obj {t : Str} {ms : List (Str × JV)} (h : MembersText S t ms) : ValueText S (lit "{" ++ t ++ lit "}") (.obj ms)

/-- One or more values with commas between them. -/
inductive ElemsText (S : Str → Str → Prop) : Str → List JV → Prop
  | one {a t b : Str} {v : JV} (ha : Blank a) (h : ValueText S t v) (hb : Blank b) : ElemsText S (a ++ t ++ b) [v]
  | cons {a t b r : Str} {v : JV} {vs : List JV} (ha : Blank a) (h : ValueText S t v) (hb : Blank b) (hr : ElemsText S r vs) :
      ElemsText S (a ++ t ++ b ++ lit "," ++ r) (v :: vs)

/-- One or more members with commas between them. -/
inductive MembersText (S : Str → Str → Prop) : Str → List (Str × JV) → Prop
  | one {a k b c t d : Str} {key : Str} {v : JV} (ha : Blank a) (hk : S k key) (hb : Blank b) (hc : Blank c)
      (h : ValueText S t v) (hd : Blank d) : MembersText S (a ++ lit "\"" ++ k ++ lit "\"" ++ b ++ lit ":" ++ c ++ t ++ d) [(key, v)]
  | cons {a k b c t d r : Str} {key : Str} {v : JV} {ms : List (Str × JV)} (ha : Blank a) (hk : S k key) (hb : Blank b)
      (hc : Blank c) (h : ValueText S t v) (hd : Blank d) (hr : MembersText S r ms) :
      MembersText S (a ++ lit "\"" ++ k ++ lit "\"" ++ b ++ lit ":" ++ c ++ t ++ d ++ lit "," ++ r) ((key, v) :: ms)
end

/-- `t` is a JSON text of the value `v`. -/
def JsonText (S : Str → Str → Prop) (t : Str) (v : JV) : Prop :=
  ∃ a u b, Blank a ∧ ValueText S u v ∧ Blank b ∧ t = a ++ u ++ b

end Ckube.Spec

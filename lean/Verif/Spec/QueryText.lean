import Mathlib.Data.List.Forall2
import Verif.Spec.JsonText

/-! # Specification: what the query text of a URL says

`application/x-www-form-urlencoded`, as Go reads it: pieces between `&`, each a name and a value with `=` between them; `+` stands for a blank and `%` with two
hexadecimal digits for a byte. A piece with a semicolon or a broken escape says nothing. -/

namespace Ckube.Spec

/-- The escaped text stands for the bytes. -/
inductive Decodes : Str → Str → Prop
  | nil : Decodes [] []
  | blank {s t : Str} (h : Decodes s t) : Decodes (43 :: s) (32 :: t)
  | escape {s t : Str} {a b : UInt8} {i j : Nat} (ha : HexDigit a i) (hb : HexDigit b j) (h : Decodes s t) : Decodes (37 :: a :: b :: s) ((16 * i + j).toUInt8 :: t)
  | byte {s t : Str} {c : UInt8} (h1 : c ≠ 37) (h2 : c ≠ 43) (h : Decodes s t) : Decodes (c :: s) (c :: t)

/-- What one piece says: a name and a value, or nothing. -/
inductive PieceSays : Str → Option (Str × Str) → Prop
  | pair {a b k v : Str} (h : (61 : UInt8) ∉ a) (hs : (59 : UInt8) ∉ a ++ b) (hk : Decodes a k) (hv : Decodes b v) : PieceSays (a ++ 61 :: b) (some (k, v))
  | bare {a k : Str} (hne : a ≠ []) (h : (61 : UInt8) ∉ a) (hs : (59 : UInt8) ∉ a) (hk : Decodes a k) : PieceSays a (some (k, []))
  | empty : PieceSays [] none
  | semicolon {a : Str} (h : (59 : UInt8) ∈ a) : PieceSays a none
  | brokenName {a b : Str} (h : (61 : UInt8) ∉ a) (hk : ∀ k, ¬ Decodes a k) : PieceSays (a ++ 61 :: b) none
  | brokenValue {a b : Str} (h : (61 : UInt8) ∉ a) (hv : ∀ v, ¬ Decodes b v) : PieceSays (a ++ 61 :: b) none
  | broken {a : Str} (h : (61 : UInt8) ∉ a) (hk : ∀ k, ¬ Decodes a k) : PieceSays a none

/-- The query says the pairs, in this order. -/
def QuerySays (raw : Str) (pairs : List (Str × Str)) : Prop :=
  ∃ ps os, ps ≠ [] ∧ (∀ p ∈ ps, (38 : UInt8) ∉ p) ∧ raw = [38].intercalate ps ∧ List.Forall₂ PieceSays ps os ∧ pairs = os.filterMap id

/-- The values that are given to the name `k`. -/
def given (k : Str) (pairs : List (Str × Str)) : List Str := (pairs.filter fun e => e.1 = k).map Prod.snd

end Ckube.Spec

import Verif.Spec.JsonText
import Mathlib.Data.List.Forall2

/-! # Specification: what the target of a request says -/

namespace Ckube.Spec

/-- The escaped path stands for the bytes: `%` with two hexadecimal digits for one byte, every other byte for itself. -/
inductive PathSays : Str → Str → Prop
  | nil : PathSays [] []
  | escape {s t : Str} {a b : UInt8} {i j : Nat} (ha : HexDigit a i) (hb : HexDigit b j) (h : PathSays s t) :
      PathSays (37 :: a :: b :: s) ((16 * i + j).toUInt8 :: t)
  | byte {s t : Str} {c : UInt8} (h1 : c ≠ 37) (h : PathSays s t) : PathSays (c :: s) (c :: t)

/-- The segments of an escaped path: what stands between its slashes, decoded. -/
def SegmentsSay (p : Str) (segs : List Str) : Prop :=
  ∃ ps : List Str, ps ≠ [] ∧ (∀ s ∈ ps, (47 : UInt8) ∉ s) ∧ p = [47].intercalate ps ∧ List.Forall₂ PathSays ps segs

/-- A target of a request: a path that begins with `/`, and perhaps `?` and a query; no blanks or control bytes. -/
def IsTarget (raw p q : Str) : Prop :=
  (∃ r, p = 47 :: r) ∧ (63 : UInt8) ∉ p ∧ (raw = p ∧ q = [] ∨ raw = p ++ 63 :: q) ∧ ∀ b ∈ raw, 33 ≤ b ∧ b ≠ 127

/-- Nothing in a query that ends it or that is forbidden in a URL. -/
def PlainQuery (q : Str) : Prop := ∀ b ∈ q, 33 ≤ b ∧ b ≠ 127 ∧ b ≠ 35

end Ckube.Spec

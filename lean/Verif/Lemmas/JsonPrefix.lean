import Verif.Lemmas.JsonText

/-! # Texts that are cut off -/

namespace Ckube
open Json Spec

/-- A value other than a number is read up to its end, whatever follows. -/
theorem pVal_closed {t : Str} {v : JV} (hv : ValueText ReadsAs t v) (hn : ∀ x, v ≠ .num x) (r : Str) {f : Nat} (hf : t.length < f) :
    pVal f (t ++ r) = some (v, r) := by
  obtain ⟨f, rfl⟩ : ∃ g, f = g + 1 := ⟨f - 1, by omega⟩
  obtain ⟨-, ih2, ih3⟩ := reads_text (S := ReadsAs) (fun u s h => h.2) f
  cases hv with
  | null =>
    change pVal (f + 1) (110 :: 117 :: 108 :: 108 :: r) = _
    rw [pVal, skipWs_cons (by decide)]
    rfl
  | true =>
    change pVal (f + 1) (116 :: 114 :: 117 :: 101 :: r) = _
    rw [pVal, skipWs_cons (by decide)]
    rfl
  | false =>
    change pVal (f + 1) (102 :: 97 :: 108 :: 115 :: 101 :: r) = _
    rw [pVal, skipWs_cons (by decide)]
    rfl
  | num h => exact absurd rfl (hn _)
  | @str u s h =>
    have := h.2 r
    rw [lq, List.append_assoc, List.append_assoc]
    change pVal (f + 1) (34 :: (u ++ 34 :: r)) = _
    rw [pVal, skipWs_cons (by decide)]
    simp only [show (34 : UInt8) ≠ 123 by decide, show (34 : UInt8) ≠ 91 by decide, if_false, if_true, this]
  | @arr0 w h =>
    rw [llb, lrb, List.append_assoc, List.append_assoc]
    change pVal (f + 1) (91 :: (w ++ 93 :: r)) = _
    rw [pVal, skipWs_cons (by decide)]
    simp only [show (91 : UInt8) ≠ 123 by decide, if_false, if_true]
    rw [skipWs_blank h, skipWs_cons (by decide)]
    simp
  | @arr u xs h =>
    rw [llb, lrb] at hf ⊢
    simp only [List.length_append, List.length_cons, List.length_nil] at hf
    rw [List.append_assoc, List.append_assoc]
    change pVal (f + 1) (91 :: (u ++ 93 :: r)) = _
    have ih := ih3 u xs r h (by omega)
    obtain ⟨c, r', e, hc⟩ := elemsText_head h (93 :: r)
    rw [← pElems_skip, e] at ih
    rw [pVal, skipWs_cons (by decide)]
    simp only [show (91 : UInt8) ≠ 123 by decide, if_false, if_true, e, hc, ih]
  | @obj0 w h =>
    rw [llc, lrc, List.append_assoc, List.append_assoc]
    change pVal (f + 1) (123 :: (w ++ 125 :: r)) = _
    rw [pVal, skipWs_cons (by decide)]
    simp only [if_true]
    rw [skipWs_blank h, skipWs_cons (by decide)]
    simp
  | @obj u ms h =>
    rw [llc, lrc] at hf ⊢
    simp only [List.length_append, List.length_cons, List.length_nil] at hf
    rw [List.append_assoc, List.append_assoc]
    change pVal (f + 1) (123 :: (u ++ 125 :: r)) = _
    have ih := ih2 u ms r h (by omega)
    obtain ⟨r', e⟩ := membersText_head h (125 :: r)
    rw [← pMembers_skip, e] at ih
    rw [pVal, skipWs_cons (by decide)]
    simp only [if_true, e, show (34 : UInt8) ≠ 125 by decide, if_false, ih]

/-- What begins like a number is read as a number or not at all. -/
theorem pVal_numeric {f : Nat} {c : UInt8} {s r : Str} {w : JV} (hc : isDigit c = true ∨ c = 45) (h : pVal f (c :: s) = some (w, r)) :
    ∃ x, w = .num x := by
  obtain _ | f := f
  · simp [pVal] at h
  have key : ∀ c : UInt8, (isDigit c = true ∨ c = 45) →
      isWs c = false ∧ c ≠ 123 ∧ c ≠ 91 ∧ c ≠ 34 ∧ c ≠ 116 ∧ c ≠ 102 ∧ c ≠ 110 :=
    forall_byte (by decide +kernel)
  obtain ⟨k1, k2, k3, k4, k5, k6, k7⟩ := key c hc
  rw [pVal, skipWs_cons k1] at h
  simp only [k2, k3, k4, if_false] at h
  rw [show lit "true" = 116 :: lit "rue" by decide, show lit "false" = 102 :: lit "alse" by decide,
    show lit "null" = 110 :: lit "ull" by decide, hasPrefix_head_ne k5, hasPrefix_head_ne k6,
    hasPrefix_head_ne k7] at h
  simp only [Bool.false_eq_true, if_false] at h
  split at h
  · simp only [Option.some.injEq, Prod.mk.injEq] at h
    exact ⟨_, h.1.symm⟩
  · cases h

/-- A text of something other than a number that is cut off is a text only if nothing but white space is missing. -/
theorem parse_cut {p q : Str} {v w : JV} (hp : parse p = some v) (hw : parse (p ++ q) = some w) (hn : ∀ x, w ≠ .num x) :
    v = w ∧ skipWs q = [] := by
  obtain ⟨a, u, b, ha, hu, hb, rfl⟩ := text_parse hp
  unfold parse at hw
  have e : a ++ u ++ b ++ q = a ++ (u ++ (b ++ q)) := by simp
  rw [e, pVal_blank ha] at hw
  by_cases hv : ∃ x, v = .num x
  · obtain ⟨x, rfl⟩ := hv
    cases hu with
    | num h =>
      obtain ⟨c, r, rfl, hc⟩ := okNum_head (jsonNumber_iff.mp h)
      rw [List.cons_append] at hw
      split at hw
      · cases hw
      · rename_i w' r' h1
        obtain ⟨x, rfl⟩ := pVal_numeric hc h1
        split at hw
        · cases hw; exact absurd rfl (hn _)
        · cases hw
  · rw [pVal_closed hu (fun x e => hv ⟨x, e⟩) _ (by simp only [List.length_append]; omega)] at hw
    simp only at hw
    rw [skipWs_blank hb] at hw
    split at hw
    · rename_i h; cases hw; exact ⟨rfl, h⟩
    · cases hw

end Ckube

import Verif.Model.Base64
import Verif.Lemmas.Prelude

/-! # Facts about base64 -/

namespace Ckube.Base64

theorem val_char {n : Nat} (h : n < 64) : val (char n) = some n := by
  have : ∀ n, n < 64 → val (char n) = some n := by decide
  exact this n h

theorem char_ne {n : Nat} (h : n < 64) : char n ≠ 10 ∧ char n ≠ 13 ∧ char n ≠ 46 := by
  have : ∀ n, n < 64 → char n ≠ 10 ∧ char n ≠ 13 ∧ char n ≠ 46 := by decide
  exact this n h

/-- The 6-bit values of the encoding. -/
def sextets : Str → List Nat
  | [] => []
  | [a] => [a.toNat / 4, a.toNat % 4 * 16]
  | [a, b] => [a.toNat / 4, a.toNat % 4 * 16 + b.toNat / 16, b.toNat % 16 * 4]
  | a :: b :: c :: r =>
    (a.toNat / 4) :: (a.toNat % 4 * 16 + b.toNat / 16)
      :: (b.toNat % 16 * 4 + c.toNat / 64) :: (c.toNat % 64) :: sextets r

theorem encode_eq (s : Str) : encode s = (sextets s).map char := by
  fun_induction sextets s <;> simp [encode, *]

theorem sextets_lt (s : Str) : ∀ n ∈ sextets s, n < 64 := by
  fun_induction sextets s with
  | case1 => simp
  | case2 a => have := a.toNat_lt; simp; omega
  | case3 a b => have := a.toNat_lt; have := b.toNat_lt; simp; omega
  | case4 a b c r ih =>
    have := a.toNat_lt; have := b.toNat_lt; have := c.toNat_lt
    simp only [List.mem_cons]
    rintro n (h | h | h | h | h)
    · omega
    · omega
    · omega
    · omega
    · exact ih n h

theorem toUInt8_of_toNat (n : Nat) (a : UInt8) (h : n = a.toNat) : n.toUInt8 = a := by
  subst h; simp

theorem decodeVals_sextets (s : Str) : decodeVals (sextets s) = some s := by
  fun_induction sextets s with
  | case1 => rfl
  | case2 a =>
    have := a.toNat_lt
    simp only [decodeVals]
    rw [toUInt8_of_toNat _ a (by omega)]
  | case3 a b =>
    have := a.toNat_lt; have := b.toNat_lt
    simp only [decodeVals]
    rw [toUInt8_of_toNat _ a (by omega), toUInt8_of_toNat _ b (by omega)]
  | case4 a b c r ih =>
    have := a.toNat_lt; have := b.toNat_lt; have := c.toNat_lt
    simp only [decodeVals, ih, Option.map_some]
    rw [toUInt8_of_toNat _ a (by omega), toUInt8_of_toNat _ b (by omega),
      toUInt8_of_toNat _ c (by omega)]

theorem mapM_val_char : ∀ l : List Nat, (∀ n ∈ l, n < 64) → (l.map char).mapM val = some l
  | [], _ => rfl
  | n :: l, h => by
    rw [List.map_cons, List.mapM_cons, val_char (h n (by simp)),
      mapM_val_char l (fun k hk => h k (by simp [hk]))]
    rfl

theorem filter_map_char (l : List Nat) (h : ∀ n ∈ l, n < 64) :
    (l.map char).filter (fun c => c ≠ 10 && c ≠ 13) = l.map char := by
  rw [List.filter_eq_self]
  intro c hc
  obtain ⟨n, hn, rfl⟩ := List.mem_map.mp hc
  have := char_ne (h n hn)
  simp [this.1, this.2.1]

theorem decode_encode (s : Str) : decode (encode s) = some s := by
  unfold decode
  rw [encode_eq, filter_map_char _ (sextets_lt s), mapM_val_char _ (sextets_lt s)]
  exact decodeVals_sextets s

theorem dot_not_mem_encode (s : Str) : (46 : UInt8) ∉ encode s := by
  rw [encode_eq]
  intro h
  obtain ⟨n, hn, he⟩ := List.mem_map.mp h
  exact (char_ne (sextets_lt s n hn)).2.2 he

theorem mapM_val_none : ∀ l : Str, (∃ c ∈ l, val c = none) → l.mapM val = none
  | [], h => by simp at h
  | c :: l, h => by
    rw [List.mapM_cons]
    cases hv : val c with
    | none => rfl
    | some n =>
      have : ∃ c ∈ l, val c = none := by
        obtain ⟨d, hd, hn⟩ := h
        rcases List.mem_cons.mp hd with rfl | hd
        · rw [hv] at hn; simp at hn
        · exact ⟨d, hd, hn⟩
      rw [mapM_val_none l this]
      rfl

end Ckube.Base64

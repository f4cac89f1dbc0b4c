import Verif.Model.Num
import Verif.Lemmas.Str

/-! # Facts about decimal numbers -/

namespace Ckube

theorem digitsFuel_indep : ∀ f g n, n < f → n < g → digitsFuel f n = digitsFuel g n
  | 0, _, _, h, _ => by omega
  | _ + 1, 0, _, _, h => by omega
  | f + 1, g + 1, n, _, _ => by
    simp only [digitsFuel]
    split
    · rfl
    · rw [digitsFuel_indep f g (n / 10) (by omega) (by omega)]

theorem natDigits_eq (n : Nat) : natDigits n =
    if n < 10 then [(48 + n).toUInt8] else natDigits (n / 10) ++ [(48 + n % 10).toUInt8] := by
  unfold natDigits
  rw [digitsFuel]
  split
  · rfl
  · rw [digitsFuel_indep n (n / 10 + 1) (n / 10) (by omega) (by omega)]

theorem toNat_digit {d : Nat} (h : d < 10) : ((48 + d).toUInt8).toNat = 48 + d := by
  simp; omega

theorem isDigit_digit {d : Nat} (h : d < 10) : isDigit (48 + d).toUInt8 = true := by
  simp only [isDigit, Bool.and_eq_true, decide_eq_true_eq, UInt8.le_iff_toNat_le, toNat_digit h]
  simp; omega

theorem isDigit_iff {c : UInt8} : isDigit c = true ↔ 48 ≤ c.toNat ∧ c.toNat ≤ 57 := by
  simp [isDigit, UInt8.le_iff_toNat_le]

theorem natDigits_ne_nil (n : Nat) : natDigits n ≠ [] := by
  rw [natDigits_eq]; split <;> simp

theorem natDigits_all (n : Nat) : (natDigits n).all isDigit = true := by
  induction n using Nat.strongRecOn with
  | _ n ih =>
    rw [natDigits_eq]
    split
    · rename_i h; simpa using isDigit_digit h
    · simp only [List.all_append, Bool.and_eq_true]
      refine ⟨ih _ (by omega), ?_⟩
      simpa using isDigit_digit (d := n % 10) (by omega)

theorem natDigits_length_le {n k : Nat} (hk : 1 ≤ k) (h : n < 10 ^ k) : (natDigits n).length ≤ k := by
  induction k generalizing n with
  | zero => omega
  | succ k ih =>
    rw [natDigits_eq]
    split
    · simp
    · rename_i hn
      have : 1 ≤ k := by
        rcases Nat.eq_zero_or_pos k with rfl | hk'
        · simp at h; omega
        · exact hk'
      simp only [List.length_append, List.length_singleton]
      have := ih this (n := n / 10) (by rw [Nat.pow_succ] at h; omega)
      omega

theorem digitsVal_append (a b : Str) :
    digitsVal (a ++ b) = digitsVal a * 10 ^ b.length + digitsVal b := by
  unfold digitsVal
  rw [List.foldl_append]
  generalize List.foldl _ 0 a = x
  induction b using List.reverseRecOn with
  | nil => simp
  | append_singleton b c ih =>
    simp only [List.foldl_append, List.foldl_cons, List.foldl_nil, ih, List.length_append,
      List.length_singleton, Nat.pow_succ]
    ring

theorem digitsVal_natDigits (n : Nat) : digitsVal (natDigits n) = n := by
  induction n using Nat.strongRecOn with
  | _ n ih =>
    rw [natDigits_eq]
    split
    · rename_i h
      simp only [digitsVal, List.foldl_cons, List.foldl_nil, toNat_digit h]; omega
    · rw [digitsVal_append, ih _ (by omega)]
      simp only [digitsVal, List.foldl_cons, List.foldl_nil, List.length_singleton,
        toNat_digit (d := n % 10) (by omega)]
      omega

theorem digitsVal_lt {s : Str} (h : s.all isDigit = true) : digitsVal s < 10 ^ s.length := by
  induction s using List.reverseRecOn with
  | nil => simp [digitsVal]
  | append_singleton s c ih =>
    simp only [List.all_append, Bool.and_eq_true, List.all_cons, List.all_nil, Bool.and_true] at h
    have := ih h.1
    have hc := isDigit_iff.mp h.2
    rw [digitsVal_append]
    simp only [List.length_append, List.length_singleton, Nat.pow_succ]
    simp only [digitsVal, List.foldl_cons, List.foldl_nil] at this ⊢
    omega

theorem digitsVal_cons (c : UInt8) (s : Str) :
    digitsVal (c :: s) = (c.toNat - 48) * 10 ^ s.length + digitsVal s := by
  have := digitsVal_append [c] s
  simpa [digitsVal] using this

/-- Digit strings of equal length with different values compare like their values, whatever
follows them. -/
theorem strLe_digits : ∀ (a b x y : Str), a.length = b.length → a.all isDigit = true →
    b.all isDigit = true → digitsVal a < digitsVal b → strLe (a ++ x) (b ++ y) = true
  | [], [], _, _, _, _, _, h => by simp at h
  | [], _ :: _, _, _, h, _, _, _ => by simp at h
  | _ :: _, [], _, _, h, _, _, _ => by simp at h
  | c :: a, d :: b, x, y, hl, ha, hb, h => by
    simp only [List.all_cons, Bool.and_eq_true] at ha hb
    have hl : a.length = b.length := by simpa using hl
    rw [digitsVal_cons, digitsVal_cons, hl] at h
    have hca := isDigit_iff.mp ha.1
    have hdb := isDigit_iff.mp hb.1
    have hav := digitsVal_lt ha.2
    have hbv := digitsVal_lt hb.2
    rw [hl] at hav
    simp only [List.cons_append, strLe, UInt8.lt_iff_toNat_lt, ← UInt8.toNat_inj]
    rcases Nat.lt_trichotomy c.toNat d.toNat with h' | h' | h'
    · simp [h']
    · rw [if_neg (by omega), if_pos h']
      rw [h'] at h
      exact strLe_digits a b x y hl ha.2 hb.2 (by omega)
    · exfalso
      have : (d.toNat - 48 + 1) * 10 ^ b.length ≤ (c.toNat - 48) * 10 ^ b.length :=
        Nat.mul_le_mul_right _ (by omega)
      rw [Nat.add_mul] at this
      omega

theorem pad4_all (n : Nat) : (pad4 n).all isDigit = true := by
  simp only [pad4, List.all_append, natDigits_all, Bool.and_true]
  rw [List.all_eq_true]
  intro c hc
  rw [List.eq_of_mem_replicate hc]; decide

theorem pad4_length {n : Nat} (h : n < 10000) : (pad4 n).length = 4 := by
  have := natDigits_length_le (k := 4) (by omega) (by simpa using h)
  simp [pad4]; omega

theorem pad4_length_le {n : Nat} (h : n < 1000000) : (pad4 n).length ≤ 6 := by
  have := natDigits_length_le (k := 6) (by omega) (by simpa using h)
  simp [pad4]; omega

theorem pad4_length_pos (n : Nat) : 0 < (pad4 n).length := by
  have := List.length_pos_iff.mpr (natDigits_ne_nil n)
  simp [pad4]; omega

theorem digitsVal_replicate_zero (k : Nat) : digitsVal (List.replicate k 48) = 0 := by
  induction k with
  | zero => rfl
  | succ k ih => rw [List.replicate_succ, digitsVal_cons, ih]; simp

theorem digitsVal_pad4 (n : Nat) : digitsVal (pad4 n) = n := by
  rw [pad4, digitsVal_append, digitsVal_replicate_zero, digitsVal_natDigits]; simp

theorem not_mem_of_all_digit {s : Str} (h : s.all isDigit = true) {c : UInt8}
    (hc : isDigit c = false) : c ∉ s := by
  intro hm
  rw [List.all_eq_true] at h
  rw [h c hm] at hc; simp at hc

/-- First byte of the digits of a positive number is not `0`. -/
theorem natDigits_head {n : Nat} (h : 0 < n) : (natDigits n).head? ≠ some 48 := by
  induction n using Nat.strongRecOn with
  | _ n ih =>
    rw [natDigits_eq]
    split
    · rename_i h10
      intro he
      simp only [List.head?_cons, Option.some.injEq] at he
      have := congrArg UInt8.toNat he
      rw [toNat_digit h10] at this
      simp at this; omega
    · rw [List.head?_append_of_ne_nil _ (natDigits_ne_nil _)]
      exact ih _ (by omega) (by omega)

theorem parseInt64_intDigits {i : Int} (h : minInt64 ≤ i ∧ i ≤ maxInt64) :
    parseInt64 (intDigits i) = some i := by
  unfold intDigits
  split
  · rename_i hneg
    simp only [parseInt64, if_true, natDigits_ne_nil, if_false, natDigits_all,
      digitsVal_natDigits]
    rw [show -((i.natAbs : Nat) : Int) = i by omega]
    simp [h]
  · rename_i hneg
    obtain ⟨c, r, hcr⟩ := List.exists_cons_of_ne_nil (natDigits_ne_nil i.natAbs)
    have hc : c ≠ 45 := by
      have := natDigits_all i.natAbs
      rw [hcr] at this
      simp only [List.all_cons, Bool.and_eq_true] at this
      intro h; subst h; exact absurd this.1 (by decide)
    unfold parseInt64
    rw [hcr]
    simp only [hc, if_false]
    rw [← hcr]
    simp only [natDigits_ne_nil, if_false, natDigits_all, digitsVal_natDigits, if_true]
    rw [show ((i.natAbs : Nat) : Int) = i by omega]
    simp [h]

end Ckube

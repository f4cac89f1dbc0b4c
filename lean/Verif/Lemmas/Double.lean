import Verif.Lemmas.NumeralSep

/-! # Rounding to the nearest `float64` -/

namespace Ckube
open Spec

theorem pow_four (e : ℤ) : (2 : ℚ) ^ e = 4 * 2 ^ (e - 2) := by
  rw [zpow_sub₀ (by norm_num)]; norm_num; ring

/-- The number that is rounded is nearer to the result than to any other `float64`. -/
theorem near {m m' : ℕ} {e e' : ℤ} {v : ℚ} (h : IsFloat m e) (hr : InRange m e v) (hm' : m' < 2 ^ 53) (he' : -1074 ≤ e')
    (hne : (m' : ℚ) * 2 ^ e' ≠ m * 2 ^ e) :
    |v - m * 2 ^ e| ≤ |v - m' * 2 ^ e'| ∧ (m % 2 ≠ 0 → |v - m * 2 ^ e| < |v - m' * 2 ^ e'|) := by
  obtain ⟨hm, he, hnorm⟩ := h
  obtain ⟨hlo, hup, hodd⟩ := hr
  have hq : (0 : ℚ) < 2 ^ (e - 2) := by positivity
  have hq1 : (0 : ℚ) < 2 ^ (e' - 2) := by positivity
  have hfe := pow_four e
  have hfe' := pow_four e'
  have hmq : (m : ℚ) + 1 ≤ 2 ^ 53 := by exact_mod_cast hm
  have hmq' : (m' : ℚ) + 1 ≤ 2 ^ 53 := by exact_mod_cast hm'
  have hg := lowGap_le m e
  -- multiples, when the exponent is not smaller
  have hmul : e ≤ e' → ∃ j : ℕ, (m' : ℚ) * 2 ^ e' = j * 2 ^ e := by
    intro hle
    refine ⟨m' * 2 ^ (e' - e).toNat, ?_⟩
    push_cast
    rw [pow_toNat 2 (by omega), zpow_sub₀ (by norm_num), mul_assoc, div_mul_cancel₀ _ (by positivity)]
  have hsmall : e' < e → (m' : ℚ) * 2 ^ e' ≤ (2 ^ 53 - 1) * (2 * 2 ^ (e - 2)) := by
    intro hlt
    have h1 : (2 : ℚ) ^ e' ≤ 2 * 2 ^ (e - 2) := by
      have : (2 : ℚ) * 2 ^ (e - 2) = 2 ^ (e - 1) := by
        rw [← zpow_one_add₀ (by norm_num)]; congr 1; ring
      rw [this]
      exact zpow_le_zpow_right₀ (by norm_num) (by omega)
    exact mul_le_mul (by linarith) h1 (by positivity) (by norm_num)
  have hbig : e' < e → (2 ^ 52 : ℚ) ≤ m := by
    intro hlt
    rcases hnorm with h | h
    · exact_mod_cast h
    · omega
  rcases lt_or_gt_of_ne hne with hlt | hgt
  · -- below
    have hbelow : (m' : ℚ) * 2 ^ e' ≤ (4 * m - 2 * lowGap m e) * 2 ^ (e - 2) := by
      rcases lt_or_ge e' e with hle | hle
      · have h1 := hsmall hle
        have h2 := hbig hle
        unfold lowGap
        split
        · rename_i hh
          have : (m : ℚ) = 2 ^ 52 := by exact_mod_cast hh.1
          rw [this]
          push_cast
          nlinarith
        · rename_i hh
          have hm1 : (2 ^ 52 + 1 : ℚ) ≤ m := by
            have : 2 ^ 52 < m := by
              rcases Nat.lt_or_ge (2 ^ 52) m with h | h
              · exact h
              · exfalso; apply hh
                have : 2 ^ 52 ≤ m := by exact_mod_cast h2
                exact ⟨by omega, by omega⟩
            exact_mod_cast this
          push_cast
          nlinarith
      · obtain ⟨j, hj⟩ := hmul hle
        rw [hj] at hlt ⊢
        have hjm : j < m := by
          have := lt_of_mul_lt_mul_right hlt (by positivity)
          exact_mod_cast this
        have hjq : (j : ℚ) + 1 ≤ m := by exact_mod_cast hjm
        have hgq : (lowGap m e : ℚ) ≤ 2 := by exact_mod_cast hg.2
        rw [hfe]
        nlinarith
    have hge : (1 : ℚ) ≤ lowGap m e := by exact_mod_cast hg.1
    rw [hfe] at hlt ⊢
    have hpos : 0 ≤ v - m' * 2 ^ e' := by nlinarith
    rw [abs_of_nonneg hpos]
    constructor
    · rw [abs_le]; constructor <;> nlinarith
    · intro ho
      obtain ⟨h1, h2⟩ := hodd ho
      rw [abs_lt]; constructor <;> nlinarith
  · -- above
    have habove : (4 * m + 4) * 2 ^ (e - 2) ≤ (m' : ℚ) * 2 ^ e' := by
      rcases lt_or_ge e' e with hle | hle
      · exfalso
        have h1 := hsmall hle
        have h2 := hbig hle
        rw [hfe] at hgt
        nlinarith
      · obtain ⟨j, hj⟩ := hmul hle
        rw [hj] at hgt ⊢
        have hjm : m < j := by
          have := lt_of_mul_lt_mul_right hgt (by positivity)
          exact_mod_cast this
        have hjq : (m : ℚ) + 1 ≤ j := by exact_mod_cast hjm
        rw [hfe]
        nlinarith
    rw [hfe] at hgt ⊢
    have hpos : v - m' * 2 ^ e' ≤ 0 := by nlinarith
    rw [abs_of_nonpos hpos]
    constructor
    · rw [abs_le]; constructor <;> nlinarith
    · intro ho
      obtain ⟨h1, h2⟩ := hodd ho
      rw [abs_lt]; constructor <;> nlinarith

/-- Which numbers are rounded to a finite `float64`. -/
theorem finite_exp {m : ℕ} {e : ℤ} {v : ℚ} (h : IsFloat m e) (hr : InRange m e v) (_hv : 0 ≤ v) : e ≤ 971 ↔ v < 2 ^ 1024 - 2 ^ 970 := by
  obtain ⟨hm, he, hnorm⟩ := h
  obtain ⟨hlo, hup, hodd⟩ := hr
  have hq : (0 : ℚ) < 2 ^ (e - 2) := by positivity
  have hlim : (2 ^ 1024 - 2 ^ 970 : ℚ) = (2 ^ 55 - 2) * 2 ^ 969 := by
    rw [show (2 : ℚ) ^ 1024 = 2 ^ 55 * 2 ^ 969 by rw [← pow_add], show (2 : ℚ) ^ 970 = 2 * 2 ^ 969 by rw [← pow_succ']]
    ring
  have hz : (2 : ℚ) ^ (969 : ℤ) = 2 ^ 969 := zpow_ofNat 2 969
  rw [hlim]
  generalize (2 : ℚ) ^ 969 = z at *
  constructor
  · intro hle
    have h1 : (2 : ℚ) ^ (e - 2) ≤ z := by
      rw [← hz]; exact zpow_le_zpow_right₀ (by norm_num) (by omega)
    rcases Nat.lt_or_ge m (2 ^ 53 - 1) with hlt | hge
    · have hmq : (m : ℚ) ≤ 2 ^ 53 - 2 := by
        have h2 : m + 2 ≤ 2 ^ 53 := by omega
        have h3 : ((m + 2 : ℕ) : ℚ) ≤ ((2 ^ 53 : ℕ) : ℚ) := by exact_mod_cast h2
        push_cast at h3
        linarith
      have h2 : (4 * m + 2 : ℚ) * 2 ^ (e - 2) ≤ (2 ^ 55 - 6) * 2 ^ (e - 2) := mul_le_mul_of_nonneg_right (by linarith) hq.le
      have h3 : ((2 ^ 55 - 6 : ℚ)) * 2 ^ (e - 2) ≤ (2 ^ 55 - 6) * z := mul_le_mul_of_nonneg_left h1 (by norm_num)
      have hzp : 0 < z := lt_of_lt_of_le hq h1
      nlinarith
    · have hmeq : m = 2 ^ 53 - 1 := by omega
      have := (hodd (by rw [hmeq]; decide)).2
      have hmq : (4 * m + 2 : ℚ) = 2 ^ 55 - 2 := by rw [hmeq]; norm_num
      rw [hmq] at this
      exact lt_of_lt_of_le this (mul_le_mul_of_nonneg_left h1 (by norm_num))
  · intro hlt
    by_contra hgt
    have hm52 : 2 ^ 52 ≤ m := by rcases hnorm with h | h <;> omega
    have h1 : 2 * z ≤ (2 : ℚ) ^ (e - 2) := by
      rw [← hz, ← zpow_one_add₀ (by norm_num)]
      exact zpow_le_zpow_right₀ (by norm_num) (by omega)
    have hz0 : 0 < z := by rw [← hz]; positivity
    clear hz hlim
    have hc : (2 ^ 54 - 1 : ℚ) ≤ 4 * m - lowGap m e := by
      unfold lowGap
      split
      · rename_i hh; rw [hh.1]; norm_num
      · rename_i hh
        have : 2 ^ 52 + 1 ≤ m := by
          rcases Nat.lt_or_ge (2 ^ 52) m with h | h
          · omega
          · exfalso; exact hh ⟨by omega, by omega⟩
        have h3 : ((2 ^ 52 + 1 : ℕ) : ℚ) ≤ m := by exact_mod_cast this
        push_cast at h3 ⊢
        linarith
    have h2 : (2 ^ 54 - 1 : ℚ) * (2 * z) ≤ (4 * m - lowGap m e) * 2 ^ (e - 2) :=
      mul_le_mul hc h1 (by linarith) (le_trans (by norm_num) hc)
    linarith

theorem binaryFloat_spec (c : ℕ) (t : ℤ) : ∃ m e, IsFloat m e ∧ InRange m e (c * 2 ^ t : ℚ) ∧ binaryFloat c t = if 971 < e then none else some (m, e) := by
  unfold binaryFloat
  split
  · rename_i ht
    obtain ⟨m, e, h1, h2, h3⟩ := toFloat_spec (n := c * 2 ^ t.toNat) (d := 1) (by norm_num)
    refine ⟨m, e, h1, ?_, h3⟩
    push_cast at h2
    rwa [div_one, pow_toNat 2 ht] at h2
  · rename_i ht
    obtain ⟨m, e, h1, h2, h3⟩ := toFloat_spec (n := c) (d := 2 ^ (-t).toNat) (by positivity)
    refine ⟨m, e, h1, ?_, h3⟩
    push_cast at h2
    rwa [pow_toNat 2 (by omega), zpow_neg, div_inv_eq_mul] at h2

/-! ## Ranks -/

theorem rank_value (neg : Bool) {m : ℕ} {e : ℤ} (he : -1074 ≤ e) : doubleValue (floatRank neg (m, e)) = (if neg then -1 else 1) * (m * 2 ^ e) := by
  unfold doubleValue floatRank
  have h2 : ((2 : ℚ) ^ (e + 1074).toNat) = 2 ^ e * 2 ^ 1074 := by
    rw [pow_toNat 2 (by omega), zpow_add₀ (by norm_num)]; congr 1
  have h0 : (2 : ℚ) ^ 1074 ≠ 0 := by positivity
  push_cast
  rw [h2]
  generalize (2 : ℚ) ^ 1074 = z at *
  cases neg <;> simp <;> field_simp

theorem rank_abs (neg : Bool) {m : ℕ} {e : ℤ} (he : -1074 ≤ e) : (|floatRank neg (m, e)| : ℚ) = m * 2 ^ (e + 1074) := by
  unfold floatRank
  rw [← pow_toNat 2 (show (0 : ℤ) ≤ e + 1074 by omega)]
  have h : (0 : ℚ) ≤ (m : ℚ) * 2 ^ (e + 1074).toNat := by positivity
  push_cast
  cases neg
  · simp only [Bool.false_eq_true, if_false, one_mul]
    exact abs_of_nonneg h
  · simp only [if_true]
    rw [neg_one_mul, abs_neg, abs_of_nonneg h]

theorem rank_double (neg : Bool) {m : ℕ} {e : ℤ} (h : IsFloat m e) (he : e ≤ 971) : Double (floatRank neg (m, e)) :=
  ⟨m, e, h.1, h.2.1, he, by have := rank_abs neg (m := m) h.2.1; exact_mod_cast this⟩

theorem double_parts {k : ℤ} (h : Double k) : ∃ (m : ℕ) (e : ℤ), m < 2 ^ 53 ∧ -1074 ≤ e ∧ |doubleValue k| = m * 2 ^ e := by
  obtain ⟨m, e, h1, h2, _, h4⟩ := h
  refine ⟨m, e, h1, h2, ?_⟩
  unfold doubleValue
  have h0 : (0 : ℚ) < 2 ^ 1074 := by positivity
  rw [abs_div, abs_of_pos h0, div_eq_iff h0.ne']
  have h2' : (2 : ℚ) ^ (e + 1074) = 2 ^ e * 2 ^ 1074 := by
    rw [zpow_add₀ (by norm_num)]; congr 1
  rw [h2'] at h4
  push_cast at h4
  rw [h4, mul_assoc]

theorem doubleValue_inj {j k : ℤ} (h : doubleValue j = doubleValue k) : j = k := by
  unfold doubleValue at h
  have h0 : (2 : ℚ) ^ 1074 ≠ 0 := by positivity
  have := (div_left_inj' h0).mp h
  exact_mod_cast this

theorem doubleValue_lt {j k : ℤ} : doubleValue j < doubleValue k ↔ j < k := by
  unfold doubleValue
  rw [div_lt_div_iff_of_pos_right (by positivity)]
  exact_mod_cast Iff.rfl

/-- The result of rounding is the nearest. -/
theorem nearest_of_range (neg : Bool) {m : ℕ} {e : ℤ} {w : ℚ} (h : IsFloat m e) (he : e ≤ 971) (hr : InRange m e w) (hw : 0 ≤ w) :
    Nearest ((if neg then -1 else 1) * w) (floatRank neg (m, e)) := by
  refine ⟨rank_double neg h he, fun j hj hne => ?_⟩
  obtain ⟨m', e', hm', he', hv⟩ := double_parts hj
  rw [rank_value neg h.2.1]
  have hsgn : ∀ x y : ℚ, |(if neg then -1 else 1) * x - (if neg then -1 else 1) * y| = |x - y| := by
    intro x y
    cases neg
    · simp
    · simp only [if_true]; rw [← mul_sub, neg_one_mul, abs_neg]
  rw [hsgn]
  have heven : m % 2 = 0 → EvenDouble (floatRank neg (m, e)) := fun h2 =>
    ⟨m, e, h.1, h.2.1, he, h.2.2, by have := rank_abs neg (m := m) h.2.1; exact_mod_cast this, h2⟩
  -- the other number, seen with the sign of the first
  obtain ⟨y, hy⟩ : ∃ y, y = (if neg then -1 else 1) * doubleValue j := ⟨_, rfl⟩
  have hyj : doubleValue j = (if neg then -1 else 1) * y := by rw [hy]; cases neg <;> simp
  have hyabs : |y| = m' * 2 ^ e' := by
    rw [← hv, hy]; cases neg <;> simp
  rw [hyj, hsgn]
  have hne' : y ≠ m * 2 ^ e := by
    intro e0
    apply hne
    apply doubleValue_inj
    rw [rank_value neg h.2.1, hyj, e0]
  rcases le_or_gt 0 y with hy0 | hy0
  · rw [abs_of_nonneg hy0] at hyabs
    rw [hyabs] at hne' ⊢
    obtain ⟨n1, n2⟩ := near h hr hm' he' hne'
    refine ⟨n1, fun heq => heven ?_⟩
    by_contra hodd
    exact absurd heq (n2 hodd).ne
  · have h0 : |w - m * 2 ^ e| ≤ w := by
      by_cases hz : (0 : ℚ) = m * 2 ^ e
      · rw [← hz, sub_zero, abs_of_nonneg hw]
      · have := (near h hr (m' := 0) (by norm_num) (le_refl _) (by simpa using hz)).1
        simpa [abs_of_nonneg hw] using this
    have hlt : |w - m * 2 ^ e| < |w - y| := by
      rw [abs_of_pos (show 0 < w - y by linarith)]
      linarith
    exact ⟨hlt.le, fun heq => absurd heq hlt.ne⟩

end Ckube

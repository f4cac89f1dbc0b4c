import Verif.Model.Float
import Verif.Lemmas.Num
import Mathlib.Tactic.Linarith
import Mathlib.Tactic.Positivity
import Mathlib.Tactic.FieldSimp
import Mathlib.Tactic.Ring
import Mathlib.Algebra.Order.Field.Rat
import Mathlib.Algebra.Order.Field.Power

/-! # Lemmas about `float64`: the nearest one and the shortest decimal -/

namespace Ckube

theorem divRound_spec {n d : Nat} (hd : 0 < d) :
    2 * n ≤ (2 * divRound n d + 1) * d ∧ 2 * divRound n d * d ≤ 2 * n + d
    ∧ (2 * n = (2 * divRound n d + 1) * d → divRound n d % 2 = 0)
    ∧ (2 * divRound n d * d = 2 * n + d → divRound n d % 2 = 0)
    ∧ (divRound n d = n / d ∨ divRound n d = n / d + 1) := by
  have hn : n / d * d + n % d = n := Nat.div_add_mod' n d
  have hr : n % d < d := Nat.mod_lt _ hd
  unfold divRound
  generalize n / d = q at *
  generalize n % d = r at *
  have e1 : (2 * q + 1) * d = 2 * (q * d) + d := by ring
  have e2 : 2 * q * d = 2 * (q * d) := by ring
  have e3 : (2 * (q + 1) + 1) * d = 2 * (q * d) + 3 * d := by ring
  have e4 : 2 * (q + 1) * d = 2 * (q * d) + 2 * d := by ring
  split
  · rw [e1, e2]; omega
  · split
    · rw [e3, e4]; omega
    · split
      · rw [e1, e2]; omega
      · rw [e3, e4]; omega

theorem scaled_pos {n d : Nat} (hd : 0 < d) (e : Int) : 0 < (scaled n d e).2 := by
  unfold scaled; split
  · exact Nat.mul_pos hd (by positivity)
  · exact hd

theorem pow_toNat (b : ℚ) {e : Int} (he : 0 ≤ e) : b ^ e.toNat = b ^ e := by
  rw [← zpow_natCast, Int.toNat_of_nonneg he]

/-- The quotient of the scaled number. -/
theorem scaled_val {n d : Nat} (hd : 0 < d) (e : Int) :
    ((scaled n d e).1 : ℚ) = (n / d : ℚ) / 2 ^ e * (scaled n d e).2 := by
  have hd' : (d : ℚ) ≠ 0 := by positivity
  have h2 : (2 : ℚ) ^ e ≠ 0 := by positivity
  unfold scaled
  split
  · rename_i he
    push_cast
    rw [pow_toNat 2 he]
    field_simp
  · rename_i he
    push_cast
    rw [pow_toNat 2 (by omega), zpow_neg]
    field_simp

/-- The exponent gives the mantissa 53 bits. -/
theorem floatExp_spec {n d : Nat} (hn : 0 < n) (hd : 0 < d) :
    (n / d : ℚ) < 2 ^ 53 * 2 ^ floatExp n d ∧ (2 ^ 52 * 2 ^ floatExp n d ≤ (n / d : ℚ) ∨ floatExp n d = -1074)
      ∧ -1074 ≤ floatExp n d := by
  have hdq : (0 : ℚ) < d := by positivity
  generalize hV : (n / d : ℚ) = V
  have l1 : (2 : ℚ) ^ Nat.log2 n ≤ n := by exact_mod_cast Nat.log2_self_le (by omega)
  have l2 : (n : ℚ) < 2 ^ (Nat.log2 n + 1) := by exact_mod_cast Nat.lt_log2_self
  have l3 : (2 : ℚ) ^ Nat.log2 d ≤ d := by exact_mod_cast Nat.log2_self_le (by omega)
  have l4 : (d : ℚ) < 2 ^ (Nat.log2 d + 1) := by exact_mod_cast Nat.lt_log2_self
  set e0 : Int := Nat.log2 n - Nat.log2 d - 52 with he0
  have u : V < 2 ^ 53 * 2 ^ e0 := by
    have : (2 : ℚ) ^ (53 : ℕ) * 2 ^ e0 = 2 ^ (Nat.log2 n + 1) / 2 ^ Nat.log2 d := by
      rw [← zpow_natCast, ← zpow_natCast, ← zpow_natCast, ← zpow_add₀ (by norm_num), ← zpow_sub₀ (by norm_num)]
      congr 1; push_cast; omega
    rw [this, ← hV]
    exact div_lt_div₀ l2 l3 (by positivity) (by positivity)
  have v : 2 ^ 51 * 2 ^ e0 < V := by
    have : (2 : ℚ) ^ (51 : ℕ) * 2 ^ e0 = 2 ^ Nat.log2 n / 2 ^ (Nat.log2 d + 1) := by
      rw [← zpow_natCast, ← zpow_natCast, ← zpow_natCast, ← zpow_add₀ (by norm_num), ← zpow_sub₀ (by norm_num)]
      congr 1; push_cast; omega
    rw [this, ← hV]
    exact div_lt_div₀' l1 l4 (by positivity) hdq
  have hs := scaled_val (n := n) hd e0
  have hp := scaled_pos (n := n) hd e0
  have hpq : (0 : ℚ) < (scaled n d e0).2 := by exact_mod_cast hp
  have h2 : (0 : ℚ) < 2 ^ e0 := by positivity
  obtain ⟨e1, he1, w1, w2⟩ : ∃ e1, (if (scaled n d e0).1 < 2 ^ 52 * (scaled n d e0).2 then e0 - 1 else e0) = e1
      ∧ V < 2 ^ 53 * 2 ^ e1 ∧ 2 ^ 52 * 2 ^ e1 ≤ V := by
    refine ⟨_, rfl, ?_⟩
    split
    · rename_i h
      have h : ((scaled n d e0).1 : ℚ) < 2 ^ 52 * (scaled n d e0).2 := by exact_mod_cast h
      rw [hs, hV] at h
      have h := lt_of_mul_lt_mul_right h hpq.le
      rw [div_lt_iff₀ h2] at h
      rw [zpow_sub_one₀ (by norm_num)]
      constructor <;> linarith
    · rename_i h
      have h : (2 ^ 52 * (scaled n d e0).2 : ℚ) ≤ (scaled n d e0).1 := by exact_mod_cast Nat.le_of_not_lt h
      rw [hs, hV] at h
      have h := le_of_mul_le_mul_right h hpq
      rw [le_div_iff₀ h2] at h
      exact ⟨u, h⟩
  have hf : floatExp n d = max e1 (-1074) := by
    unfold floatExp
    simp only
    rw [← he0, he1]
  rw [hf]
  refine ⟨lt_of_lt_of_le w1 ?_, ?_, by omega⟩
  · exact mul_le_mul_of_nonneg_left (zpow_le_zpow_right₀ (by norm_num) (le_max_left _ _)) (by positivity)
  · rcases le_total e1 (-1074) with h | h
    · right; omega
    · left; rw [max_eq_left h]; exact w2

/-- How far below the `float64` (`m`, `e`) the numbers reach that are rounded to it, in quarters of `2^e`. -/
def lowGap (m : Nat) (e : Int) : Nat := if m = 2 ^ 52 ∧ -1074 < e then 1 else 2

/-- The numbers that are rounded to (`m`, `e`). -/
def InRange (m : Nat) (e : Int) (v : ℚ) : Prop :=
  (4 * m - lowGap m e : ℚ) * 2 ^ (e - 2) ≤ v ∧ v ≤ (4 * m + 2) * 2 ^ (e - 2)
    ∧ (m % 2 ≠ 0 → (4 * m - lowGap m e : ℚ) * 2 ^ (e - 2) < v ∧ v < (4 * m + 2) * 2 ^ (e - 2))

theorem roundFloat_spec {n d : Nat} (hn : 0 < n) (hd : 0 < d) :
    (roundFloat n d).1 < 2 ^ 53 ∧ -1074 ≤ (roundFloat n d).2 ∧ (2 ^ 52 ≤ (roundFloat n d).1 ∨ (roundFloat n d).2 = -1074)
      ∧ InRange (roundFloat n d).1 (roundFloat n d).2 (n / d : ℚ) := by
  obtain ⟨h1, h2, h3⟩ := floatExp_spec hn hd
  have hs := scaled_val (n := n) hd (floatExp n d)
  have hp := scaled_pos (n := n) hd (floatExp n d)
  obtain ⟨r1, r2, r3, r4, _⟩ := divRound_spec (n := (scaled n d (floatExp n d)).1) hp
  have hR : ∀ m e, divRound (scaled n d (floatExp n d)).1 (scaled n d (floatExp n d)).2 = m → floatExp n d = e →
      roundFloat n d = if m = 2 ^ 53 then (2 ^ 52, e + 1) else (m, e) := by
    rintro _ _ rfl rfl; rfl
  generalize hm : divRound (scaled n d (floatExp n d)).1 (scaled n d (floatExp n d)).2 = m at *
  generalize (scaled n d (floatExp n d)).1 = a at *
  generalize (scaled n d (floatExp n d)).2 = b at *
  generalize floatExp n d = e at *
  generalize (n / d : ℚ) = V at *
  rw [hR m e rfl rfl]
  have hb : (0 : ℚ) < b := by exact_mod_cast hp
  have h2e : (0 : ℚ) < 2 ^ e := by positivity
  generalize hy : V / 2 ^ e = y at *
  have hVy : V = y * 2 ^ e := by rw [← hy]; field_simp
  have hr1 : y ≤ m + 1 / 2 := by
    have : (2 * a : ℚ) ≤ (2 * m + 1) * b := by exact_mod_cast r1
    rw [hs] at this
    have : (2 * y) * b ≤ (2 * m + 1) * b := by linarith
    linarith [le_of_mul_le_mul_right this hb]
  have hr2 : (m : ℚ) - 1 / 2 ≤ y := by
    have : (2 * m * b : ℚ) ≤ 2 * a + b := by exact_mod_cast r2
    rw [hs] at this
    have : (2 * m) * b ≤ (2 * y + 1) * b := by linarith
    linarith [le_of_mul_le_mul_right this hb]
  have hr3 : y = m + 1 / 2 → m % 2 = 0 := by
    intro h
    apply r3
    have : (2 * a : ℚ) = (2 * m + 1) * b := by rw [hs, h]; ring
    exact_mod_cast this
  have hr4 : (m : ℚ) - 1 / 2 = y → m % 2 = 0 := by
    intro h
    apply r4
    have : (2 * m * b : ℚ) = 2 * a + b := by rw [hs, ← h]; ring
    exact_mod_cast this
  have hy1 : y < 2 ^ 53 := by
    rw [hVy] at h1
    exact lt_of_mul_lt_mul_right h1 h2e.le
  have hy2 : 2 ^ 52 ≤ y ∨ e = -1074 := by
    rcases h2 with h2 | h2
    · left; rw [hVy] at h2; exact le_of_mul_le_mul_right h2 h2e
    · exact Or.inr h2
  have hm1 : m ≤ 2 ^ 53 := by
    have : (m : ℚ) < 2 ^ 53 + 1 := by linarith
    have : m < 2 ^ 53 + 1 := by exact_mod_cast this
    omega
  have hm2 : 2 ^ 52 ≤ m ∨ e = -1074 := by
    rcases hy2 with h | h
    · left
      have : (2 ^ 52 : ℚ) < m + 1 := by linarith
      have : 2 ^ 52 < m + 1 := by exact_mod_cast this
      omega
    · exact Or.inr h
  have q1 : (2 : ℚ) ^ (e - 2) = 2 ^ e / 4 := by rw [zpow_sub₀ (by norm_num)]; norm_num
  have q2 : (2 : ℚ) ^ (e + 1 - 2) = 2 ^ e / 2 := by
    rw [show e + 1 - 2 = e - 1 by omega, zpow_sub_one₀ (by norm_num)]; rfl
  split
  · rename_i hc
    refine ⟨by norm_num, by simp only; omega, Or.inl (le_refl _), ?_⟩
    have hg : lowGap (2 ^ 52) (e + 1) = 1 := by unfold lowGap; rw [if_pos ⟨rfl, by omega⟩]
    subst hc
    push_cast at hr2
    unfold InRange
    rw [hg, q2, hVy]
    refine ⟨?_, ?_, fun h => absurd (by norm_num) h⟩
    · push_cast
      have : (4 * 4503599627370496 - 1) * (2 ^ e / 2) = (2 ^ 53 - 1 / 2) * (2 : ℚ) ^ e := by ring
      rw [this]
      exact mul_le_mul_of_nonneg_right (by linarith) h2e.le
    · push_cast
      have : (4 * 4503599627370496 + 2) * (2 ^ e / 2) = (2 ^ 53 + 1) * (2 : ℚ) ^ e := by ring
      rw [this]
      exact mul_le_mul_of_nonneg_right (by linarith) h2e.le
  · rename_i hc
    refine ⟨by simp only; omega, h3, hm2, ?_⟩
    have hlow : (4 * m - lowGap m e : ℚ) ≤ 4 * y := by
      unfold lowGap
      split
      · rename_i hg
        have : (2 ^ 52 : ℚ) ≤ y := by
          rcases hy2 with h | h
          · exact h
          · omega
        rw [hg.1]; push_cast; linarith
      · push_cast; linarith
    unfold InRange
    rw [q1, hVy]
    simp only
    have e1 : ∀ z : ℚ, z * (2 ^ e / 4) = z / 4 * 2 ^ e := fun z => by ring
    rw [e1, e1]
    refine ⟨mul_le_mul_of_nonneg_right (by linarith) h2e.le, mul_le_mul_of_nonneg_right (by linarith) h2e.le, ?_⟩
    intro hodd
    have k1 : y ≠ m + 1 / 2 := fun h => hodd (hr3 h)
    have k2 : (m : ℚ) - 1 / 2 ≠ y := fun h => hodd (hr4 h)
    have hg : lowGap m e = 2 := by
      unfold lowGap
      rw [if_neg]
      rintro ⟨rfl, _⟩
      exact hodd (by norm_num)
    rw [hg]
    push_cast
    constructor
    · exact mul_lt_mul_of_pos_right (by have := lt_of_le_of_ne hr2 k2; linarith) h2e
    · exact mul_lt_mul_of_pos_right (by have := lt_of_le_of_ne hr1 k1; linarith) h2e

/-! ## The shortest decimal -/

/-- `c` is between the bounds, and at a bound only if they belong to the interval. -/
def Within (lo up : ℚ) (incl : Bool) (c : ℚ) : Prop := lo ≤ c ∧ c ≤ up ∧ (incl = false → lo < c ∧ c < up)

theorem shortest_spec {x lo up p : Nat} {incl : Bool} (hlo : lo < x) (hup : x < up) (hp : x < 10 ^ p) (hp1 : 10 ^ (p - 1) ≤ x) :
    ∀ fuel l, p + 1 ≤ l + fuel →
      lo ≤ (shortest x lo up incl p fuel l).1 * 10 ^ (shortest x lo up incl p fuel l).2
      ∧ (shortest x lo up incl p fuel l).1 * 10 ^ (shortest x lo up incl p fuel l).2 ≤ up
      ∧ (incl = false → lo < (shortest x lo up incl p fuel l).1 * 10 ^ (shortest x lo up incl p fuel l).2
        ∧ (shortest x lo up incl p fuel l).1 * 10 ^ (shortest x lo up incl p fuel l).2 < up)
      ∧ ∀ (D L : Nat) (t : Int), D < 10 ^ L → 1 ≤ L → l ≤ L → Within lo up incl (D * 10 ^ t) →
        (shortest x lo up incl p fuel l).1 ≤ 10 ^ L
  | 0, l, h => by
    simp only [shortest, pow_zero, Nat.mul_one]
    exact ⟨hlo.le, hup.le, fun _ => ⟨hlo, hup⟩, fun D L t _ _ hl _ => hp.le.trans (Nat.pow_le_pow_right (by norm_num) (by omega))⟩
  | fuel + 1, l, h => by
    by_cases hpl : p ≤ l
    · simp only [shortest, if_pos hpl, pow_zero, Nat.mul_one]
      exact ⟨hlo.le, hup.le, fun _ => ⟨hlo, hup⟩, fun D L t _ _ hl _ => hp.le.trans (Nat.pow_le_pow_right (by norm_num) (by omega))⟩
    · have hu : 0 < 10 ^ (p - l) := by positivity
      have f1 : x / 10 ^ (p - l) * 10 ^ (p - l) ≤ x := Nat.div_mul_le_self _ _
      have f2 : x < (x / 10 ^ (p - l) + 1) * 10 ^ (p - l) := by
        have := Nat.lt_div_mul_add hu (a := x)
        rw [Nat.add_mul, Nat.one_mul]; exact this
      have f3 : x / 10 ^ (p - l) + 1 ≤ 10 ^ l := by
        have : x / 10 ^ (p - l) < 10 ^ l := by
          rw [Nat.div_lt_iff_lt_mul hu, ← pow_add, Nat.add_sub_cancel' (by omega)]; exact hp
        omega
      have f4 : ∀ L, l ≤ L → 10 ^ l ≤ 10 ^ L := fun L h => Nat.pow_le_pow_right (by norm_num) h
      obtain ⟨_, _, _, _, hdr⟩ := divRound_spec (n := x) hu
      have hrec := shortest_spec (incl := incl) hlo hup hp hp1 fuel (l + 1) (by omega)
      have hf : 1 ≤ l → 10 ^ (p - 1) ≤ x / 10 ^ (p - l) * 10 ^ (p - l) := by
        intro hl
        have : 10 ^ (l - 1) ≤ x / 10 ^ (p - l) := by
          rw [Nat.le_div_iff_mul_le hu, ← pow_add, show l - 1 + (p - l) = p - 1 by omega]; exact hp1
        calc 10 ^ (p - 1) = 10 ^ (l - 1) * 10 ^ (p - l) := by rw [← pow_add, show l - 1 + (p - l) = p - 1 by omega]
          _ ≤ _ := Nat.mul_le_mul_right _ this
      have hcast : ((10 ^ (p - l) : ℕ) : ℚ) = 10 ^ ((p : ℤ) - l) := by
        push_cast
        rw [← zpow_natCast]
        congr 1; omega
      simp only [shortest, if_neg hpl]
      have key : ∀ (D : Nat) (t : Int), D < 10 ^ l → 1 ≤ l → Within lo up incl (D * 10 ^ t) →
          ((D : ℚ) * 10 ^ t ≤ (x / 10 ^ (p - l) * 10 ^ (p - l) : ℕ)) ∨ (((x / 10 ^ (p - l) + 1) * 10 ^ (p - l) : ℕ) : ℚ) ≤ (D : ℚ) * 10 ^ t := by
        intro D t hD hl _
        by_cases ht : (p : ℤ) - l ≤ t
        · have hA : (D : ℚ) * 10 ^ t = ((D * 10 ^ (t - ((p : ℤ) - l)).toNat * 10 ^ (p - l) : ℕ) : ℚ) := by
            rw [Nat.cast_mul, hcast, Nat.cast_mul, Nat.cast_pow, Nat.cast_ofNat, ← zpow_natCast, mul_assoc, ← zpow_add₀ (by norm_num)]
            congr 2; omega
          rw [hA]
          generalize D * 10 ^ (t - ((p : ℤ) - l)).toNat = A
          rcases Nat.lt_or_ge (x / 10 ^ (p - l)) A with hlt | hge
          · right; exact_mod_cast Nat.mul_le_mul_right _ (by omega)
          · left; exact_mod_cast Nat.mul_le_mul_right _ hge
        · left
          have h1 : (D : ℚ) * 10 ^ t ≤ 10 ^ l * 10 ^ t :=
            mul_le_mul_of_nonneg_right (by exact_mod_cast hD.le) (by positivity)
          have h2 : (10 : ℚ) ^ l * 10 ^ t ≤ 10 ^ (p - 1) := by
            rw [← zpow_natCast, ← zpow_natCast, ← zpow_add₀ (by norm_num)]
            exact zpow_le_zpow_right₀ (by norm_num) (by omega)
          have h3 : ((10 ^ (p - 1) : ℕ) : ℚ) ≤ (x / 10 ^ (p - l) * 10 ^ (p - l) : ℕ) := by exact_mod_cast hf hl
          push_cast at h3 ⊢
          linarith
      generalize x / 10 ^ (p - l) = f at *
      generalize hdn : (decide (lo < f * 10 ^ (p - l)) || (incl && decide (lo = f * 10 ^ (p - l)))) = down
      generalize hov : (decide ((f + 1) * 10 ^ (p - l) < up) || (incl && decide ((f + 1) * 10 ^ (p - l) = up))) = over
      have d2 : down = true → incl = false → lo < f * 10 ^ (p - l) := by
        rintro rfl rfl
        simpa using hdn
      have o2 : over = true → incl = false → (f + 1) * 10 ^ (p - l) < up := by
        rintro rfl rfl
        simpa using hov
      have d1 : down = true → lo ≤ f * 10 ^ (p - l) := by
        rintro rfl
        rw [Bool.or_eq_true, Bool.and_eq_true, decide_eq_true_eq, decide_eq_true_eq] at hdn
        omega
      have o1 : over = true → (f + 1) * 10 ^ (p - l) ≤ up := by
        rintro rfl
        rw [Bool.or_eq_true, Bool.and_eq_true, decide_eq_true_eq, decide_eq_true_eq] at hov
        omega
      by_cases hd : down = true
      · by_cases ho : over = true
        · rw [if_pos (by rw [hd, ho]; rfl)]
          simp only
          rcases hdr with h | h <;> rw [h]
          · exact ⟨d1 hd, f1.trans hup.le, fun hi => ⟨d2 hd hi, lt_of_le_of_lt f1 hup⟩, fun D L t _ _ hl _ => by have := f4 L hl; omega⟩
          · exact ⟨(hlo.trans f2).le, o1 ho, fun hi => ⟨hlo.trans f2, o2 ho hi⟩, fun D L t _ _ hl _ => by have := f4 L hl; omega⟩
        · rw [if_neg (by rw [Bool.and_eq_true]; exact fun h => ho h.2), if_pos hd]
          exact ⟨d1 hd, f1.trans hup.le, fun hi => ⟨d2 hd hi, lt_of_le_of_lt f1 hup⟩, fun D L t _ _ hl _ => by have := f4 L hl; simp only; omega⟩
      · by_cases ho : over = true
        · rw [if_neg (by rw [Bool.and_eq_true]; exact fun h => hd h.1), if_neg hd, if_pos ho]
          exact ⟨(hlo.trans f2).le, o1 ho, fun hi => ⟨hlo.trans f2, o2 ho hi⟩, fun D L t _ _ hl _ => by have := f4 L hl; simp only; omega⟩
        · rw [if_neg (by rw [Bool.and_eq_true]; exact fun h => hd h.1), if_neg hd, if_neg ho]
          refine ⟨hrec.1, hrec.2.1, hrec.2.2.1, fun D L t hD hL hl hW => ?_⟩
          refine hrec.2.2.2 D L t hD hL ?_ hW
          rcases Nat.lt_or_ge l L with hlt | hge
          · exact hlt
          · exfalso
            have hlL : L = l := by omega
            subst hlL
            obtain ⟨w1, w2, w3⟩ := hW
            rcases key D t hD hL ⟨w1, w2, w3⟩ with hk | hk
            · apply hd
              rw [← hdn, Bool.or_eq_true, Bool.and_eq_true, decide_eq_true_eq, decide_eq_true_eq]
              have : (lo : ℚ) ≤ (f * 10 ^ (p - L) : ℕ) := w1.trans hk
              have : lo ≤ f * 10 ^ (p - L) := by exact_mod_cast this
              cases hi : incl with
              | true => rcases Nat.lt_or_eq_of_le this with h | h
                        · exact Or.inl h
                        · exact Or.inr ⟨rfl, h⟩
              | false =>
                left
                have : (lo : ℚ) < (f * 10 ^ (p - L) : ℕ) := lt_of_lt_of_le (w3 hi).1 hk
                exact_mod_cast this
            · apply ho
              rw [← hov, Bool.or_eq_true, Bool.and_eq_true, decide_eq_true_eq, decide_eq_true_eq]
              have : (((f + 1) * 10 ^ (p - L) : ℕ) : ℚ) ≤ up := hk.trans w2
              have : (f + 1) * 10 ^ (p - L) ≤ up := by exact_mod_cast this
              cases hi : incl with
              | true => rcases Nat.lt_or_eq_of_le this with h | h
                        · exact Or.inl h
                        · exact Or.inr ⟨rfl, h⟩
              | false =>
                left
                have : (((f + 1) * 10 ^ (p - L) : ℕ) : ℚ) < up := lt_of_le_of_lt hk (w3 hi).2
                exact_mod_cast this

theorem natDigits_lt (n : Nat) : n < 10 ^ (natDigits n).length := by
  have := digitsVal_lt (natDigits_all n)
  rwa [digitsVal_natDigits] at this

theorem natDigits_ge : ∀ {n : Nat}, 0 < n → 10 ^ ((natDigits n).length - 1) ≤ n := by
  intro n
  induction n using Nat.strongRecOn with
  | ind n ih =>
    intro hn
    rw [natDigits_eq]
    split
    · simp; omega
    · rename_i h
      have h10 : 0 < n / 10 := by omega
      have := ih (n / 10) (by omega) h10
      have hl : 0 < (natDigits (n / 10)).length := List.length_pos_iff.mpr (natDigits_ne_nil _)
      rw [List.length_append, List.length_singleton, Nat.add_sub_cancel]
      calc 10 ^ (natDigits (n / 10)).length = 10 ^ ((natDigits (n / 10)).length - 1) * 10 := by
              rw [← Nat.pow_succ]; congr 1; omega
        _ ≤ n / 10 * 10 := Nat.mul_le_mul_right _ this
        _ ≤ n := Nat.div_mul_le_self _ _

theorem quarterScale_val (e : Int) : ((quarterScale e).1 : ℚ) = 2 ^ (e - 2) * 10 ^ (quarterScale e).2 ∧ 0 < (quarterScale e).1 := by
  unfold quarterScale
  split
  · constructor
    · push_cast
      rw [pow_toNat 2 (by omega), pow_zero, mul_one]
    · positivity
  · constructor
    · push_cast
      rw [pow_toNat 5 (by omega), pow_toNat 10 (by omega), show (10 : ℚ) = 2 * 5 by norm_num, mul_zpow, ← mul_assoc,
        ← zpow_add₀ (by norm_num), show e - 2 + (2 - e) = 0 by omega, zpow_zero, one_mul]
    · positivity

/-- What `shortDecimal` finds is rounded to the same `float64`, and it has no more digits than any other decimal that is. -/
theorem shortDecimal_spec {m : Nat} (e : Int) (hm : 0 < m) :
    InRange m e ((shortDecimal m e).1 * 10 ^ (shortDecimal m e).2)
    ∧ ∀ (D L : Nat) (t : Int), D < 10 ^ L → 1 ≤ L → InRange m e (D * 10 ^ t) → (shortDecimal m e).1 ≤ 10 ^ L := by
  obtain ⟨hw, hw0⟩ := quarterScale_val e
  have hS : ∀ r, shortest (4 * m * (quarterScale e).1) ((4 * m - lowGap m e) * (quarterScale e).1)
      ((4 * m + 2) * (quarterScale e).1) (decide (m % 2 = 0)) (natDigits (4 * m * (quarterScale e).1)).length
      ((natDigits (4 * m * (quarterScale e).1)).length + 1) 0 = r → shortDecimal m e = (r.1, (r.2 : Int) - (quarterScale e).2) := by
    rintro _ rfl; rfl
  rw [hS _ rfl]
  clear hS
  generalize (quarterScale e).1 = w at *
  generalize (quarterScale e).2 = k at *
  have hg : 1 ≤ lowGap m e ∧ lowGap m e ≤ 2 := by unfold lowGap; split <;> omega
  have hx : 0 < 4 * m * w := by positivity
  obtain ⟨s1, s2, s4, s3⟩ := shortest_spec (x := 4 * m * w) (lo := (4 * m - lowGap m e) * w) (up := (4 * m + 2) * w) (incl := decide (m % 2 = 0))
    (Nat.mul_lt_mul_of_pos_right (by omega) hw0) (Nat.mul_lt_mul_of_pos_right (by omega) hw0) (natDigits_lt _) (natDigits_ge hx)
    ((natDigits (4 * m * w)).length + 1) 0 (by omega)
  simp only
  generalize shortest (4 * m * w) ((4 * m - lowGap m e) * w) ((4 * m + 2) * w) (decide (m % 2 = 0)) (natDigits (4 * m * w)).length
      ((natDigits (4 * m * w)).length + 1) 0 = r at *
  have h10 : (0 : ℚ) < 10 ^ k := by positivity
  have hlo : (((4 * m - lowGap m e) * w : ℕ) : ℚ) = (4 * m - lowGap m e : ℚ) * 2 ^ (e - 2) * 10 ^ k := by
    rw [Nat.cast_mul, hw, Nat.cast_sub (by omega)]; push_cast; ring
  have hup : (((4 * m + 2) * w : ℕ) : ℚ) = (4 * m + 2 : ℚ) * 2 ^ (e - 2) * 10 ^ k := by
    rw [Nat.cast_mul, hw]; push_cast; ring
  have hr : ((r.1 * 10 ^ r.2 : ℕ) : ℚ) = r.1 * 10 ^ ((r.2 : ℤ) - k) * 10 ^ k := by
    push_cast
    rw [mul_assoc, ← zpow_natCast, ← zpow_natCast, ← zpow_add₀ (by norm_num)]
    congr 2; omega
  refine ⟨⟨?_, ?_, ?_⟩, ?_⟩
  · have h : (((4 * m - lowGap m e) * w : ℕ) : ℚ) ≤ (r.1 * 10 ^ r.2 : ℕ) := by exact_mod_cast s1
    rw [hlo, hr] at h
    exact le_of_mul_le_mul_right h h10
  · have h : ((r.1 * 10 ^ r.2 : ℕ) : ℚ) ≤ ((4 * m + 2) * w : ℕ) := by exact_mod_cast s2
    rw [hup, hr] at h
    exact le_of_mul_le_mul_right h h10
  · intro hodd
    obtain ⟨a, b⟩ := s4 (by simpa using hodd)
    have h : (((4 * m - lowGap m e) * w : ℕ) : ℚ) < (r.1 * 10 ^ r.2 : ℕ) := by exact_mod_cast a
    have h' : ((r.1 * 10 ^ r.2 : ℕ) : ℚ) < ((4 * m + 2) * w : ℕ) := by exact_mod_cast b
    rw [hlo, hr] at h
    rw [hup, hr] at h'
    exact ⟨lt_of_mul_lt_mul_right h h10.le, lt_of_mul_lt_mul_right h' h10.le⟩
  · intro D L t hD hL hI
    refine s3 D L (t + k) hD hL (by omega) ?_
    have hc : (D : ℚ) * 10 ^ (t + k) = D * 10 ^ t * 10 ^ k := by
      rw [zpow_add₀ (by norm_num), zpow_natCast]; ring
    rw [hc]
    unfold Within
    rw [hlo, hup]
    refine ⟨mul_le_mul_of_nonneg_right hI.1 h10.le, mul_le_mul_of_nonneg_right hI.2.1 h10.le, ?_⟩
    intro hodd
    obtain ⟨a, b⟩ := hI.2.2 (by simpa using hodd)
    exact ⟨mul_lt_mul_of_pos_right a h10, mul_lt_mul_of_pos_right b h10⟩

/-! ## Uniqueness -/

/-- Mantissa and exponent of a `float64`, except for the upper bound of exponents. -/
def IsFloat (m : Nat) (e : Int) : Prop := m < 2 ^ 53 ∧ -1074 ≤ e ∧ (2 ^ 52 ≤ m ∨ e = -1074)

theorem lowGap_le (m : Nat) (e : Int) : 1 ≤ lowGap m e ∧ lowGap m e ≤ 2 := by unfold lowGap; split <;> omega

theorem inRange_exp {m m' : Nat} {e e' : Int} {v : ℚ} (h : IsFloat m e) (h' : IsFloat m' e') (hr : InRange m e v) (hr' : InRange m' e' v) : e' ≤ e := by
  by_contra hlt
  have hm' : 2 ^ 52 ≤ m' := by have := h.2.1; rcases h'.2.2 with h | h <;> omega
  have h2 : (0 : ℚ) < 2 ^ (e - 2) := by positivity
  have hpow : 2 * (2 : ℚ) ^ (e - 2) ≤ 2 ^ (e' - 2) := by
    rw [← zpow_one_add₀ (by norm_num)]
    exact zpow_le_zpow_right₀ (by norm_num) (by omega)
  have hlow : (2 ^ 54 - 1 : ℚ) ≤ 4 * m' - lowGap m' e' := by
    by_cases hmm : m' = 2 ^ 52
    · have : lowGap m' e' = 1 := by unfold lowGap; rw [if_pos ⟨hmm, by have := h.2.1; omega⟩]
      rw [this, hmm]; norm_num
    · have h1 : 2 ^ 52 + 1 ≤ m' := by omega
      have h1 : ((2 ^ 52 + 1 : ℕ) : ℚ) ≤ m' := by exact_mod_cast h1
      have h3 : (lowGap m' e' : ℚ) ≤ 2 := by exact_mod_cast (lowGap_le m' e').2
      push_cast at h1
      linarith
  have hv : (2 ^ 55 - 2 : ℚ) * 2 ^ (e - 2) ≤ v := by
    refine le_trans ?_ hr'.1
    calc (2 ^ 55 - 2 : ℚ) * 2 ^ (e - 2) = (2 ^ 54 - 1) * (2 * 2 ^ (e - 2)) := by ring
      _ ≤ (2 ^ 54 - 1) * 2 ^ (e' - 2) := mul_le_mul_of_nonneg_left hpow (by norm_num)
      _ ≤ _ := mul_le_mul_of_nonneg_right hlow (by positivity)
  by_cases hmm : m = 2 ^ 53 - 1
  · have := (hr.2.2 (by rw [hmm]; norm_num)).2
    rw [hmm] at this
    have h4 : ((4 * ((2 ^ 53 - 1 : ℕ) : ℚ) + 2) : ℚ) = 2 ^ 55 - 2 := by norm_num
    rw [h4] at this
    linarith
  · have h1 : m + 1 ≤ 2 ^ 53 - 1 := by have := h.1; omega
    have h1 : (m : ℚ) + 1 ≤ (2 ^ 53 - 1 : ℕ) := by exact_mod_cast h1
    have h4 : (4 * m + 2 : ℚ) < 2 ^ 55 - 2 := by push_cast at h1; norm_num at h1 ⊢; linarith
    have := mul_lt_mul_of_pos_right h4 h2
    linarith [hr.2.1]

theorem inRange_man {m m' : Nat} {e : Int} {v : ℚ} (hr : InRange m e v) (hr' : InRange m' e v) : m' ≤ m := by
  by_contra hlt
  have h2 : (0 : ℚ) < 2 ^ (e - 2) := by positivity
  have h1 : m + 1 ≤ m' := by omega
  have h1q : (m : ℚ) + 1 ≤ m' := by exact_mod_cast h1
  have h3 : (lowGap m' e : ℚ) ≤ 2 := by exact_mod_cast (lowGap_le m' e).2
  have hle : (4 * m + 2 : ℚ) ≤ 4 * m' - lowGap m' e := by linarith
  have hle2 := mul_le_mul_of_nonneg_right hle h2.le
  rcases Nat.mod_two_eq_zero_or_one m with hm | hm
  · rcases Nat.mod_two_eq_zero_or_one m' with hm' | hm'
    · have h1 : m + 2 ≤ m' := by omega
      have h1q : (m : ℚ) + 2 ≤ m' := by exact_mod_cast h1
      have hle : (4 * m + 2 : ℚ) < 4 * m' - lowGap m' e := by linarith
      have := mul_lt_mul_of_pos_right hle h2
      linarith [hr.2.1, hr'.1]
    · have := (hr'.2.2 (by omega)).1
      linarith [hr.2.1]
  · have := (hr.2.2 (by omega)).2
    linarith [hr'.1]

/-- A number is rounded to one `float64` only. -/
theorem inRange_unique {m m' : Nat} {e e' : Int} {v : ℚ} (h : IsFloat m e) (h' : IsFloat m' e') (hr : InRange m e v) (hr' : InRange m' e' v) :
    m' = m ∧ e' = e := by
  have he : e' = e := le_antisymm (inRange_exp h h' hr hr') (inRange_exp h' h hr' hr)
  subst he
  exact ⟨le_antisymm (inRange_man hr hr') (inRange_man hr' hr), rfl⟩

/-- Two decimals of 15 digits that are rounded to the same `float64` are the same number. -/
theorem fifteen_unique {m : Nat} {e : Int} (hm : 2 ^ 52 ≤ m) {D D' : Nat} {t t' : Int} (hD : D ≤ 10 ^ 15) (hD' : D' ≤ 10 ^ 15)
    (h : InRange m e (D * 10 ^ t)) (h' : InRange m e (D' * 10 ^ t')) : (D : ℚ) * 10 ^ t = D' * 10 ^ t' := by
  wlog htt : t ≤ t' generalizing D D' t t'
  · exact (this hD' hD h' h (by omega)).symm
  have h10 : (0 : ℚ) < 10 ^ t := by positivity
  have h2 : (0 : ℚ) < 2 ^ (e - 2) := by positivity
  have hmq : (2 ^ 52 : ℚ) ≤ m := by exact_mod_cast hm
  have hg : (lowGap m e : ℚ) ≤ 2 := by exact_mod_cast (lowGap_le m e).2
  have a1 : (4 * m - 2 : ℚ) * 2 ^ (e - 2) ≤ D * 10 ^ t := le_trans (mul_le_mul_of_nonneg_right (by linarith) h2.le) h.1
  have a2 : (4 * m - 2 : ℚ) * 2 ^ (e - 2) ≤ D' * 10 ^ t' := le_trans (mul_le_mul_of_nonneg_right (by linarith) h2.le) h'.1
  have b1 := h.2.1
  have b2 := h'.2.1
  have hDq : (D : ℚ) ≤ 10 ^ 15 := by exact_mod_cast hD
  have c1 : (2 ^ 54 - 2 : ℚ) * 2 ^ (e - 2) ≤ 10 ^ 15 * 10 ^ t :=
    le_trans (mul_le_mul_of_nonneg_right (by linarith) h2.le) (le_trans a1 (mul_le_mul_of_nonneg_right hDq h10.le))
  have c2 : 4 * (2 : ℚ) ^ (e - 2) < 10 ^ t := by
    norm_num at c1
    linarith
  have hA : (D' : ℚ) * 10 ^ t' = ((D' * 10 ^ (t' - t).toNat : ℕ) : ℚ) * 10 ^ t := by
    rw [Nat.cast_mul, Nat.cast_pow, Nat.cast_ofNat, ← zpow_natCast, mul_assoc, ← zpow_add₀ (by norm_num)]
    congr 2; omega
  rw [hA] at a2 b2 ⊢
  generalize D' * 10 ^ (t' - t).toNat = A at *
  have d1 : ((A : ℚ) - D) * 10 ^ t < 1 * 10 ^ t := by linarith
  have d2 : ((D : ℚ) - A) * 10 ^ t < 1 * 10 ^ t := by linarith
  have d1 := lt_of_mul_lt_mul_right d1 h10.le
  have d2 := lt_of_mul_lt_mul_right d2 h10.le
  have d1 : A < D + 1 := by exact_mod_cast (by linarith : (A : ℚ) < D + 1)
  have d2 : D < A + 1 := by exact_mod_cast (by linarith : (D : ℚ) < A + 1)
  have : A = D := by omega
  rw [this]

end Ckube

import Verif.Lemmas.FloatText
import Verif.Props.ObjType

/-! # C112: numbers in objects of unregistered kinds

`goNum` is what becomes of a number that `json.Unmarshal` reads into `interface{}` and `json.Marshal` prints (`Model/Float.lean`). It takes the place of the
parameter `num` of C60. -/

namespace Ckube
open Spec Json

/-- The parts of the result. -/
theorem goNum_some {r t : Str} (h : okNum r) (ht : goNum r = some t) : ∃ (neg : Bool) (v w : ℚ) (m : Nat) (e : Int),
    0 ≤ v ∧ numberValue r = (if neg then -1 else 1) * v ∧ IsFloat m e ∧ e ≤ 971 ∧ InRange m e v ∧ t = signText neg ++ floatText m e
    ∧ TextOf (floatText m e) w ∧ 0 ≤ w ∧ InRange m e w ∧ numberValue t = (if neg then -1 else 1) * w
    ∧ (0 < m → w = (shortDecimal m e).1 * 10 ^ (shortDecimal m e).2) ∧ (m = 0 → w = 0) := by
  obtain ⟨neg, ip, fp, ex, rfl, hok⟩ := okNum_parts h
  obtain ⟨m, e, h1, h2, h3⟩ := goNum_text neg hok
  rw [h3] at ht
  split at ht
  · cases ht
  · rename_i he
    obtain ⟨w, hw, w0, hwr, hws⟩ := floatText_value m e h1
    cases ht
    refine ⟨neg, _, w, m, e, ?_, numberValue_text neg hok, h1, by omega, h2, rfl, hw, w0, hwr, ?_, hws⟩
    · positivity
    · obtain ⟨ip', fp', ex', ht', hok', _, hv'⟩ := hw
      rw [ht', numberValue_text neg hok', hv']

theorem abs_sign (neg : Bool) {v : ℚ} (hv : 0 ≤ v) : |(if neg then -1 else 1) * v| = v := by
  cases neg <;> simp [abs_of_nonneg hv]

/-- **C112**: what is printed is a JSON number. -/
theorem C112_number {r t : Str} (ht : goNum r = some t) : okNum t := by
  obtain ⟨neg, c, x, hr⟩ : ∃ neg c x, readDecimal r = (neg, c, x) := ⟨_, _, _, rfl⟩
  obtain ⟨m, e, h1, _, h3⟩ := literalFloat_spec c x
  unfold goNum at ht
  rw [hr] at ht
  simp only [h3] at ht
  by_cases he : 971 < e
  · simp only [he, if_true, Option.map_none, reduceCtorEq] at ht
  · obtain ⟨w, ⟨ip, fp, ex, ht', hok', h0, _⟩, _⟩ := floatText_value m e h1
    simp only [he, if_false, Option.map_some, Option.some.injEq] at ht
    rw [← ht, ht']
    exact okNum_text neg hok' h0

/-- **C112**: a second pass changes nothing. -/
theorem C112_again {r t : Str} (h : okNum r) (ht : goNum r = some t) : goNum t = some t := by
  obtain ⟨neg, v, w, m, e, _, _, hf, he, _, rfl, ⟨ip, fp, ex, ht', hok', _, hv'⟩, _, hwr, _⟩ := goNum_some h ht
  obtain ⟨m', e', h1, h2, h3⟩ := goNum_text neg hok'
  rw [hv'] at h2
  obtain ⟨rfl, rfl⟩ := inRange_unique hf h1 hwr h2
  rw [← ht'] at h3
  rw [h3, if_neg (by omega)]

theorem low_ge {m : Nat} {e : Int} (hm : 2 ^ 52 ≤ m) (he : -1074 < e) : (2 ^ 54 - 1 : ℚ) ≤ 4 * m - lowGap m e := by
  by_cases hmm : m = 2 ^ 52
  · have : lowGap m e = 1 := by unfold lowGap; rw [if_pos ⟨hmm, he⟩]
    rw [this, hmm]; norm_num
  · have h1 : 2 ^ 52 + 1 ≤ m := by omega
    have h1 : ((2 ^ 52 + 1 : ℕ) : ℚ) ≤ m := by exact_mod_cast h1
    have h3 : (lowGap m e : ℚ) ≤ 2 := by exact_mod_cast (lowGap_le m e).2
    push_cast at h1
    linarith

theorem high_lt {m : Nat} {e : Int} {v : ℚ} (h : IsFloat m e) (hr : InRange m e v) : v < (2 ^ 55 - 2) * 2 ^ (e - 2) := by
  have h2 : (0 : ℚ) < 2 ^ (e - 2) := by positivity
  by_cases hmm : m = 2 ^ 53 - 1
  · have := (hr.2.2 (by rw [hmm]; norm_num)).2
    rw [hmm] at this
    have h4 : ((4 * ((2 ^ 53 - 1 : ℕ) : ℚ) + 2) : ℚ) = 2 ^ 55 - 2 := by norm_num
    rwa [h4] at this
  · have h1 : m + 1 ≤ 2 ^ 53 - 1 := by have := h.1; omega
    have h1 : (m : ℚ) + 1 ≤ (2 ^ 53 - 1 : ℕ) := by exact_mod_cast h1
    have h4 : (4 * m + 2 : ℚ) < 2 ^ 55 - 2 := by push_cast at h1; norm_num at h1 ⊢; linarith
    exact lt_of_le_of_lt hr.2.1 (mul_lt_mul_of_pos_right h4 h2)

/-- **C112**: a number becomes null exactly when it is at least 2^1024 - 2^970. -/
theorem C112_null {r : Str} (h : okNum r) : goNum r = none ↔ (2 ^ 54 - 1) * 2 ^ 970 ≤ |numberValue r| := by
  obtain ⟨neg, ip, fp, ex, rfl, hok⟩ := okNum_parts h
  obtain ⟨m, e, h1, h2, h3⟩ := goNum_text neg hok
  rw [h3, numberValue_text neg hok, abs_sign neg (by positivity)]
  generalize (digitsVal (ip ++ fp) * 10 ^ (expVal ex - fp.length) : ℚ) = v at *
  split
  · rename_i he
    refine ⟨fun _ => ?_, fun _ => rfl⟩
    have hm : 2 ^ 52 ≤ m := by rcases h1.2.2 with h | h <;> omega
    refine le_trans ?_ h2.1
    refine mul_le_mul (low_ge hm (by omega)) ?_ (by positivity) (le_trans (by norm_num) (low_ge hm (by omega)))
    rw [show (2 : ℚ) ^ 970 = 2 ^ (970 : ℤ) from (zpow_natCast 2 970).symm]
    exact zpow_le_zpow_right₀ (by norm_num) (by omega)
  · rename_i he
    refine ⟨(by intro h; cases h), fun hle => absurd hle (not_le.mpr ?_)⟩
    refine lt_of_lt_of_le (high_lt h1 h2) ?_
    have : (2 : ℚ) ^ (e - 2) ≤ 2 ^ (969 : ℤ) := zpow_le_zpow_right₀ (by norm_num) (by omega)
    calc (2 ^ 55 - 2 : ℚ) * 2 ^ (e - 2) ≤ (2 ^ 55 - 2) * 2 ^ (969 : ℤ) := mul_le_mul_of_nonneg_left this (by norm_num)
      _ = (2 ^ 54 - 1) * (2 ^ (969 : ℤ) * 2) := by ring
      _ = (2 ^ 54 - 1) * 2 ^ 970 := by
        rw [← zpow_add_one₀ (by norm_num)]
        rw [show (969 : ℤ) + 1 = ((970 : ℕ) : ℤ) by norm_num, zpow_natCast]

/-- **C112**: no number moves further than by 2^-51 of its size, or by the smallest `float64`. -/
theorem C112_close {r t : Str} (h : okNum r) (ht : goNum r = some t) :
    |numberValue t - numberValue r| ≤ max (|numberValue r| / 2 ^ 51) (1 / 2 ^ 1074) := by
  obtain ⟨neg, v, w, m, e, hv0, hv, hf, _, hrv, _, _, hw0, hrw, hw, _⟩ := goNum_some h ht
  have habs : |numberValue t - numberValue r| = |w - v| := by
    rw [hv, hw, ← mul_sub, abs_mul]
    cases neg <;> simp
  rw [habs, hv, abs_sign neg hv0]
  have h2 : (0 : ℚ) < 2 ^ (e - 2) := by positivity
  have hg : (lowGap m e : ℚ) ≤ 2 := by exact_mod_cast (lowGap_le m e).2
  have hwid : |w - v| ≤ 4 * 2 ^ (e - 2) := by
    have a1 : (4 * m - 2 : ℚ) * 2 ^ (e - 2) ≤ v := le_trans (mul_le_mul_of_nonneg_right (by linarith) h2.le) hrv.1
    have a2 : (4 * m - 2 : ℚ) * 2 ^ (e - 2) ≤ w := le_trans (mul_le_mul_of_nonneg_right (by linarith) h2.le) hrw.1
    have b1 := hrv.2.1
    have b2 := hrw.2.1
    rw [abs_le]
    constructor <;> linarith
  refine le_trans hwid ?_
  rcases hf.2.2 with hm | he
  · refine le_trans ?_ (le_max_left _ _)
    have hmq : (2 ^ 52 : ℚ) ≤ m := by exact_mod_cast hm
    have a1 : (2 ^ 54 - 2 : ℚ) * 2 ^ (e - 2) ≤ v := le_trans (mul_le_mul_of_nonneg_right (by linarith) h2.le) hrv.1
    rw [le_div_iff₀ (by norm_num)]
    norm_num at a1 ⊢
    linarith
  · refine le_trans (le_of_eq ?_) (le_max_right _ _)
    rw [he, show ((-1074 : ℤ) - 2) = -1074 + -2 by ring, zpow_add₀ (by norm_num), show (-1074 : ℤ) = -((1074 : ℕ) : ℤ) by norm_num, zpow_neg, zpow_natCast,
      one_div, show (2 : ℚ) ^ (-2 : ℤ) = 1 / 4 by norm_num]
    generalize ((2 : ℚ) ^ 1074)⁻¹ = z
    ring

/-- A number that is not tiny is a normal `float64`. -/
theorem normal_of_ge {m : Nat} {e : Int} {v : ℚ} (h : IsFloat m e) (hr : InRange m e v) (hv : 1 / 10 ^ 307 ≤ v) : 2 ^ 52 ≤ m := by
  rcases h.2.2 with hm | he
  · exact hm
  · by_contra hlt
    have h1 : m + 1 ≤ 2 ^ 52 := by omega
    have h1 : (m : ℚ) + 1 ≤ 2 ^ 52 := by exact_mod_cast h1
    have hx := hr.2.1
    rw [he] at hx
    have hy : v ≤ (2 ^ 54 - 2) * 2 ^ ((-1074 : ℤ) - 2) := le_trans hx (mul_le_mul_of_nonneg_right (by linarith) (by positivity))
    have hz : (2 ^ 54 - 2 : ℚ) * 2 ^ ((-1074 : ℤ) - 2) < 1 / 10 ^ 307 := by
      have e1 : (2 : ℚ) ^ ((-1074 : ℤ) - 2) = (((2 : ℕ) ^ 1076 : ℕ) : ℚ)⁻¹ := by
        rw [show (-1074 : ℤ) - 2 = -((1076 : ℕ) : ℤ) by norm_num, zpow_neg, zpow_natCast]; push_cast; rfl
      have e2 : (1 / 10 ^ 307 : ℚ) = (((10 : ℕ) ^ 307 : ℕ) : ℚ)⁻¹ := by rw [one_div]; push_cast; rfl
      have e3 : (2 ^ 54 - 2 : ℚ) = ((2 ^ 54 - 2 : ℕ) : ℚ) := by norm_num
      rw [e1, e2, e3, ← div_eq_mul_inv, div_lt_iff₀ (by positivity), ← div_eq_inv_mul, lt_div_iff₀ (by positivity)]
      exact_mod_cast (by decide +kernel : (2 ^ 54 - 2) * 10 ^ 307 < 2 ^ 1076)
    exact absurd (lt_of_le_of_lt (le_trans hv hy) hz) (lt_irrefl _)

/-- **C112**, partial (missing: numbers that need more than 15 digits, and very small ones): a number that can be written with 15 digits and that is in reach keeps its
value. -/
theorem C112_few_partial {r : Str} (h : okNum r) (hd : FewDigits 15 (numberValue r)) (hr : InReach (numberValue r)) :
    ∃ t, goNum r = some t ∧ numberValue t = numberValue r := by
  have hs : goNum r ≠ none := by
    rw [ne_eq, C112_null h, not_le]
    have hbig : (10 : ℚ) ^ 308 < (2 ^ 54 - 1) * 2 ^ 970 := by
      have e1 : (2 ^ 54 - 1 : ℚ) = ((2 ^ 54 - 1 : ℕ) : ℚ) := by norm_num
      rw [e1]
      exact_mod_cast (by decide +kernel : 10 ^ 308 < (2 ^ 54 - 1) * 2 ^ 970)
    rcases hr with h0 | ⟨_, h2⟩
    · rw [h0, abs_zero]
      exact mul_pos (by norm_num) (by positivity)
    · exact lt_of_le_of_lt h2 hbig
  obtain ⟨t, ht⟩ := Option.ne_none_iff_exists'.mp hs
  refine ⟨t, ht, ?_⟩
  obtain ⟨neg, v, w, m, e, hv0, hv, hf, _, hrv, _, _, hw0, hrw, hw, hws, hw00⟩ := goNum_some h ht
  rw [hv] at hd hr
  rw [hv, hw]
  congr 1
  rcases hr with h0 | ⟨h1, _⟩
  · have hv' : v = 0 := by cases neg <;> simpa using h0
    subst hv'
    apply hw00
    by_contra hm
    have hmq : (1 : ℚ) ≤ m := by exact_mod_cast (by omega : 1 ≤ m)
    have hg : (lowGap m e : ℚ) ≤ 2 := by exact_mod_cast (lowGap_le m e).2
    have h2 : (0 : ℚ) < 2 ^ (e - 2) := by positivity
    have := mul_pos (by linarith : (0 : ℚ) < 4 * m - lowGap m e) h2
    linarith [hrv.1]
  · rw [abs_sign neg hv0] at h1
    have hm := normal_of_ge hf hrv h1
    obtain ⟨c, t', hc, hct⟩ := hd
    rw [abs_sign neg hv0] at hct
    have hm0 : 0 < m := by omega
    rw [hct] at hrv ⊢
    rw [hws hm0]
    have hD := (shortDecimal_spec e hm0).2 c 15 t' hc (by norm_num) hrv
    exact fifteen_unique hm hD hc.le (shortDecimal_spec e hm0).1 hrv

/-- Integers below 2^53 are their own shortest decimals. -/
theorem shortDecimal_integer {m : Nat} {e : Int} (hf : IsFloat m e) {n : Nat} (hn : 0 < n) (hn53 : n < 2 ^ 53) (hr : InRange m e n) :
    0 < m ∧ ((shortDecimal m e).1 : ℚ) * 10 ^ (shortDecimal m e).2 = n := by
  have hn1 : (1 : ℚ) ≤ n := by exact_mod_cast hn
  have hm : 2 ^ 52 ≤ m := normal_of_ge hf hr (le_trans (by
    rw [div_le_one (by positivity)]; exact one_le_pow₀ (by norm_num)) hn1)
  have hm0 : 0 < m := by omega
  refine ⟨hm0, ?_⟩
  obtain ⟨hs, hmin⟩ := shortDecimal_spec e hm0
  have h2 : (0 : ℚ) < 2 ^ (e - 2) := by positivity
  have hg : (lowGap m e : ℚ) ≤ 2 := by exact_mod_cast (lowGap_le m e).2
  have he : e ≤ 0 := by
    by_contra hcon
    have hq : (1 / 2 : ℚ) ≤ 2 ^ (e - 2) := by
      have : (2 : ℚ) ^ (-1 : ℤ) ≤ 2 ^ (e - 2) := zpow_le_zpow_right₀ (by norm_num) (by omega)
      norm_num at this ⊢
      exact this
    have h1 := low_ge (e := e) hm (by omega)
    have : (2 ^ 54 - 1 : ℚ) * (1 / 2) ≤ n := le_trans (mul_le_mul h1 hq (by norm_num) (le_trans (by norm_num) h1)) hr.1
    have hn' : (n : ℚ) + 1 ≤ 2 ^ 53 := by exact_mod_cast hn53
    norm_num at this hn'
    linarith
  have a1 : (4 * m - 2 : ℚ) * 2 ^ (e - 2) ≤ n := le_trans (mul_le_mul_of_nonneg_right (by linarith) h2.le) hr.1
  have b1 := hr.2.1
  have a2 : (4 * m - 2 : ℚ) * 2 ^ (e - 2) ≤ (shortDecimal m e).1 * 10 ^ (shortDecimal m e).2 :=
    le_trans (mul_le_mul_of_nonneg_right (by linarith) h2.le) hs.1
  have b2 := hs.2.1
  have hclose : (n : ℚ) - 1 / 2 ≤ (shortDecimal m e).1 * 10 ^ (shortDecimal m e).2 ∧ ((shortDecimal m e).1 : ℚ) * 10 ^ (shortDecimal m e).2 ≤ n + 1 / 2 := by
    rcases lt_or_eq_of_le he with he | he
    · have hq : (2 : ℚ) ^ (e - 2) ≤ 1 / 8 := by
        have : (2 : ℚ) ^ (e - 2) ≤ 2 ^ (-3 : ℤ) := zpow_le_zpow_right₀ (by norm_num) (by omega)
        norm_num at this ⊢
        exact this
      constructor <;> linarith
    · rw [he] at a1 b1 a2 b2
      have hq : (2 : ℚ) ^ ((0 : ℤ) - 2) = 1 / 4 := by norm_num
      rw [hq] at a1 b1 a2 b2
      have hmn : m = n := by
        have c1 : (m : ℚ) < n + 1 := by linarith
        have c2 : (n : ℚ) < m + 1 := by linarith
        have c1 : m < n + 1 := by exact_mod_cast c1
        have c2 : n < m + 1 := by exact_mod_cast c2
        omega
      have hmq : (m : ℚ) = n := by exact_mod_cast hmn
      rw [he]
      constructor <;> linarith
  rcases lt_or_ge (shortDecimal m e).2 0 with ht | ht
  · have hnge := natDigits_ge hn
    have hnlt := natDigits_lt n
    have hlpos : 0 < (natDigits n).length := List.length_pos_iff.mpr (natDigits_ne_nil _)
    have hDL := hmin n (natDigits n).length 0 hnlt hlpos (by simpa using hr)
    have hle : ((shortDecimal m e).1 : ℚ) * 10 ^ (shortDecimal m e).2 ≤ (10 ^ ((natDigits n).length - 1) : ℕ) := by
      calc ((shortDecimal m e).1 : ℚ) * 10 ^ (shortDecimal m e).2 ≤ (10 ^ (natDigits n).length : ℕ) * 10 ^ (-1 : ℤ) :=
            mul_le_mul (by exact_mod_cast hDL) (zpow_le_zpow_right₀ (by norm_num) (by omega)) (by positivity) (by positivity)
        _ = (10 ^ ((natDigits n).length - 1) : ℕ) := by
            push_cast
            rw [← zpow_natCast, ← zpow_natCast, ← zpow_add₀ (by norm_num)]
            congr 1; omega
    rcases lt_or_eq_of_le hnge with hlt | heq
    · have : ((10 ^ ((natDigits n).length - 1) : ℕ) : ℚ) + 1 ≤ n := by exact_mod_cast hlt
      linarith [hclose.1]
    · have hr' : InRange m e ((1 : ℕ) * 10 ^ (((natDigits n).length - 1 : ℕ) : ℤ)) := by
        rw [zpow_natCast]
        have : ((1 : ℕ) : ℚ) * 10 ^ ((natDigits n).length - 1) = n := by
          rw [Nat.cast_one, one_mul]; exact_mod_cast heq
        rw [this]; exact hr
      have hD10 := hmin 1 1 _ (by norm_num) (by norm_num) hr'
      have := fifteen_unique hm (le_trans hD10 (by norm_num)) (by norm_num) hs hr'
      rw [this, zpow_natCast, Nat.cast_one, one_mul]
      exact_mod_cast heq
  · have hA : ((shortDecimal m e).1 : ℚ) * 10 ^ (shortDecimal m e).2 = ((shortDecimal m e).1 * 10 ^ (shortDecimal m e).2.toNat : ℕ) := by
      push_cast
      rw [pow_toNat 10 ht]
    rw [hA] at hclose ⊢
    generalize (shortDecimal m e).1 * 10 ^ (shortDecimal m e).2.toNat = A at *
    have c1 : (A : ℚ) < n + 1 := by linarith
    have c2 : (n : ℚ) < A + 1 := by linarith
    have c1 : A < n + 1 := by exact_mod_cast c1
    have c2 : n < A + 1 := by exact_mod_cast c2
    have : A = n := by omega
    rw [this]

theorem goNum_zero : goNum (lit "0") = some (lit "0") := by decide +kernel
theorem goNum_limit : goNum (lit "9007199254740992") = some (lit "9007199254740992") ∧ goNum (lit "-9007199254740992") = some (lit "-9007199254740992") := by
  decide +kernel
theorem intDigits_limit : intDigits 0 = lit "0" ∧ intDigits (2 ^ 53) = lit "9007199254740992" ∧ intDigits (-2 ^ 53) = lit "-9007199254740992" := by decide +kernel

/-- **C112**: integers from -2^53 to 2^53 are printed as they were written. -/
theorem C112_integer {n : Int} (h : n.natAbs ≤ 2 ^ 53) : goNum (intDigits n) = some (intDigits n) := by
  rcases Nat.lt_or_eq_of_le h with h | h
  · rcases Nat.eq_zero_or_pos n.natAbs with h0 | h0
    · have : n = 0 := by omega
      rw [this, intDigits_limit.1, goNum_zero]
    · have hok : NumOk (natDigits n.natAbs) [] none := ⟨natDigits_all _, natDigits_ne_nil _, rfl, trivial⟩
      have hi : intDigits n = signText (decide (n < 0)) ++ numText (natDigits n.natAbs) [] none := by
        by_cases hn : n < 0
        · simp [intDigits, hn, signText, numText, expText]
        · simp [intDigits, hn, signText, numText, expText]
      obtain ⟨m, e, h1, h2, h3⟩ := goNum_text (decide (n < 0)) hok
      have hv : ((digitsVal (natDigits n.natAbs ++ []) : ℕ) : ℚ) * 10 ^ (expVal none - ([] : Str).length : ℤ) = n.natAbs := by
        rw [List.append_nil, digitsVal_natDigits]; simp [expVal]
      rw [hv] at h2
      have he : ¬ 971 < e := by
        intro he
        have hm : 2 ^ 52 ≤ m := by rcases h1.2.2 with h | h <;> omega
        have hl := low_ge (e := e) hm (by omega)
        have hq : (1 : ℚ) ≤ 2 ^ (e - 2) := one_le_zpow₀ (by norm_num) (by omega)
        have hb : (n.natAbs : ℚ) + 1 ≤ 2 ^ 53 := by exact_mod_cast h
        have : (2 ^ 54 - 1 : ℚ) * 1 ≤ n.natAbs := le_trans (mul_le_mul hl hq (by norm_num) (le_trans (by norm_num) hl)) h2.1
        norm_num at this hb
        linarith
      rw [if_neg he] at h3
      obtain ⟨hm0, hD⟩ := shortDecimal_integer h1 h0 h h2
      rw [floatText_integer hm0 h0 (lt_trans h (by norm_num)) hD] at h3
      rw [hi, h3]
      simp [numText, expText]
  · rcases Int.natAbs_eq n with hn | hn
    · rw [show n = 2 ^ 53 by rw [hn, h]; norm_num, intDigits_limit.2.1, goNum_limit.1]
    · rw [show n = -2 ^ 53 by rw [hn, h]; norm_num, intDigits_limit.2.2, goNum_limit.2]

/-- **C112 is false** for integers beyond 2^53, also those that fit `int64`. -/
theorem C112_false : goNum (lit "9007199254740993") = some (lit "9007199254740992") := by decide +kernel

/-- **C112 is false** for numbers out of range: they become null. -/
theorem C112_false_null : goNum (lit "1e309") = none := by decide +kernel

/-- A price, a large quantity, a small one, an exponent that is written differently, and a negative zero. -/
example : goNum (lit "19.90") = some (lit "19.9") ∧ goNum (lit "1e21") = some (lit "1e+21") ∧ goNum (lit "0.00000015") = some (lit "1.5e-7")
    ∧ goNum (lit "2.5E+3") = some (lit "2500") ∧ goNum (lit "-0.0") = some (lit "-0") := by decide +kernel

/-- A number to which `C112_few_partial` applies, and that is written differently. -/
example : okNum (lit "19.90") ∧ FewDigits 15 (numberValue (lit "19.90")) ∧ InReach (numberValue (lit "19.90")) := by
  have hv : numberValue (lit "19.90") = 199 / 10 := by
    have hl : lit "19.90" = signText false ++ numText (lit "19") (lit "90") none := by decide +kernel
    rw [hl, numberValue_text false (ip := lit "19") (fp := lit "90") (ex := none) ⟨by decide +kernel, by decide +kernel, by decide +kernel, trivial⟩]
    have h1 : digitsVal (lit "19" ++ lit "90") = 1990 := by decide +kernel
    have h2 : (lit "90").length = 2 := by decide +kernel
    rw [h1, h2]
    norm_num [expVal]
  rw [hv]
  refine ⟨⟨by decide +kernel, by decide +kernel⟩, ⟨199, -1, by norm_num, ?_⟩, Or.inr ⟨?_, ?_⟩⟩
  · rw [abs_of_pos (by norm_num)]; norm_num
  · rw [abs_of_pos (by norm_num), div_le_iff₀ (by positivity)]
    have : (1 : ℚ) ≤ 10 ^ 307 := one_le_pow₀ (by norm_num)
    generalize (10 : ℚ) ^ 307 = z at *
    linarith
  · rw [abs_of_pos (by norm_num)]
    have : (10 : ℚ) ^ 2 ≤ 10 ^ 308 := pow_le_pow_right₀ (by norm_num) (by norm_num)
    generalize (10 : ℚ) ^ 308 = z at *
    linarith

/-! ## Whole objects -/

/-- The number keeps its value. -/
def Spec.Plain (r : Str) : Prop := FewDigits 15 (numberValue r) ∧ InReach (numberValue r)

theorem sameValue_of_kept {v w : JV} (hk : Kept goNum v w) (hg : Good v) (hp : ∀ r, NumberIn r v → Plain r) : SameValue v w := by
  induction hk with
  | null => exact .null
  | bool b => exact .bool b
  | num h =>
    rename_i r t
    rw [Good] at hg
    obtain ⟨t', h1, h2⟩ := C112_few_partial hg (hp r .here).1 (hp r .here).2
    rw [h] at h1
    cases h1
    exact .num h2
  | range h =>
    rename_i r
    rw [Good] at hg
    obtain ⟨t', h1, h2⟩ := C112_few_partial hg (hp r .here).1 (hp r .here).2
    rw [h] at h1
    cases h1
  | str s => exact .str s
  | arr hl h ih =>
    rename_i xs ys
    rw [Good, goodElems_iff] at hg
    exact .arr hl fun i x y hx hy => ih i x y hx hy (hg x (List.mem_of_getElem? hx)) fun r hr => hp r (.arr (List.mem_of_getElem? hx) hr)
  | obj hn h ih =>
    rename_i ms ms'
    rw [Good, goodMembers_iff] at hg
    exact .obj hn fun k v v' hv hv' => ih k v v' hv hv' (hg _ (mem_of_lastOf hv)).2 fun r hr => hp r (.obj hv hr)

/-- **C112**, partial (missing: as in `C112_few_partial`): an object of an unregistered kind whose numbers are plain is stored and written again with the same values;
kind, API version and metadata are as in `C60_exact`. -/
theorem C112_object_partial {om : JV → JV} (hom : ∀ v, Good (om v)) {text : Str} {ms : List (Str × JV)} (hp : parse text = some (.obj ms))
    (hnum : ∀ r, NumberIn r (.obj ms) → Plain r) {o : ObjType} (ho : ObjType.unmarshal goNum om text = some o) :
    ∃ ms', parse o.marshal = some (.obj ms') ∧ ∀ k, ¬ special k → (lastOf k ms = none ↔ lookup k ms' = none)
      ∧ ∀ v v', lastOf k ms = some v → lookup k ms' = some v' → SameValue v v' := by
  have hg := good_of_parse hp
  rw [Good, goodMembers_iff] at hg
  obtain ⟨ms', h1, _, h3, _⟩ := C60_exact (fun r t ht => C112_number ht) hom hp ho
  refine ⟨ms', h1, fun k hk => ⟨(h3 k hk).1, fun v v' hv hv' => ?_⟩⟩
  exact sameValue_of_kept ((h3 k hk).2 v v' hv hv') (hg _ (mem_of_lastOf hv)).2 fun r hr => hnum r (.obj hv hr)

/-- An object to which it applies. -/
example : parse (lit "{\"spec\":[3]}") = some (.obj [(lit "spec", .arr [.num (lit "3")])])
    ∧ (∀ r, NumberIn r (.obj [(lit "spec", .arr [.num (lit "3")])]) → Plain r)
    ∧ (ObjType.unmarshal goNum id (lit "{\"spec\":[3]}")).map ObjType.marshal = some (lit "{\"spec\":[3],\"metadata\":null}") := by
  refine ⟨?_, ?_, by decide +kernel⟩
  · rw [show lit "{\"spec\":[3]}" = enc (.obj [(lit "spec", .arr [.num (lit "3")])]) by decide +kernel]
    exact parse_enc (by simp only [Good, GoodMembers, GoodElems, okNum]; decide +kernel)
  · intro r hr
    have hr3 : r = lit "3" := by
      cases hr with
      | obj hv h =>
        have hm := mem_of_lastOf hv
        simp only [List.mem_cons, List.not_mem_nil, or_false, Prod.mk.injEq] at hm
        rw [hm.2] at h
        cases h with
        | arr hx h =>
          simp only [List.mem_cons, List.not_mem_nil, or_false] at hx
          rw [hx] at h
          cases h
          rfl
    have hv : numberValue (lit "3") = 3 := by
      have hl : lit "3" = signText false ++ numText (lit "3") [] none := by decide +kernel
      have h1 : digitsVal (lit "3" ++ []) = 3 := by decide +kernel
      rw [hl, numberValue_text false (ip := lit "3") (fp := []) (ex := none) ⟨by decide +kernel, by decide +kernel, rfl, trivial⟩, h1]
      norm_num [expVal]
    rw [hr3]
    unfold Plain
    rw [hv]
    refine ⟨⟨3, 0, by norm_num, ?_⟩, Or.inr ⟨?_, ?_⟩⟩
    · rw [abs_of_pos (by norm_num)]; norm_num
    · rw [abs_of_pos (by norm_num), div_le_iff₀ (by positivity)]
      have : (1 : ℚ) ≤ 10 ^ 307 := one_le_pow₀ (by norm_num)
      generalize (10 : ℚ) ^ 307 = z at *
      linarith
    · rw [abs_of_pos (by norm_num)]
      have : (10 : ℚ) ^ 2 ≤ 10 ^ 308 := pow_le_pow_right₀ (by norm_num) (by norm_num)
      generalize (10 : ℚ) ^ 308 = z at *
      linarith

/-- **C112 is false** for this object: its number is another one when it is written again. -/
theorem C112_false_object : (ObjType.unmarshal goNum id (lit "{\"spec\":9007199254740993}")).map ObjType.data
    = some [(lit "spec", .num (lit "9007199254740992"))] := C60_number C112_false

end Ckube

import Verif.Lemmas.Decimal

/-! # The text of a `float64` -/

namespace Ckube
open Spec Json

theorem trailingOff_spec (l : Str) : ∃ k, l = trailingOff l ++ List.replicate k 48 ∧ (trailingOff l).getLast? ≠ some 48 := by
  refine ⟨(l.reverse.takeWhile (· = 48)).length, ?_, ?_⟩
  · have h1 : l.reverse.takeWhile (· = 48) = List.replicate (l.reverse.takeWhile (· = 48)).length 48 := by
      rw [List.eq_replicate_iff]
      refine ⟨rfl, fun b hb => ?_⟩
      have := List.all_eq_true.mp (List.all_takeWhile (p := fun c : UInt8 => decide (c = 48)) (l := l.reverse)) b hb
      simpa using this
    have h2 : l.reverse = l.reverse.takeWhile (· = 48) ++ l.reverse.dropWhile (· = 48) := (List.takeWhile_append_dropWhile).symm
    have h3 : l = (l.reverse.takeWhile (· = 48) ++ l.reverse.dropWhile (· = 48)).reverse := by rw [← h2, List.reverse_reverse]
    rw [List.reverse_append] at h3
    unfold trailingOff
    conv_lhs => rw [h3, h1, List.reverse_replicate]
  · unfold trailingOff
    rw [List.getLast?_reverse]
    intro h
    have := List.head?_dropWhile_not (fun c : UInt8 => decide (c = 48)) l.reverse
    rw [h] at this
    simp at this

/-- `t` is a JSON number without sign and its value is `v`. -/
def TextOf (t : Str) (v : ℚ) : Prop :=
  ∃ ip fp ex, t = numText ip fp ex ∧ NumOk ip fp ex ∧ (ip = [48] ∨ ip.head? ≠ some 48) ∧ (digitsVal (ip ++ fp) : ℚ) * 10 ^ (expVal ex - fp.length) = v

theorem all_replicate_zero (k : Nat) : (List.replicate k (48 : UInt8)).all isDigit = true := by
  rw [List.all_eq_true]
  intro c hc
  rw [List.eq_of_mem_replicate hc]; decide

theorem digitsVal_zeros (ds : Str) (k : Nat) : digitsVal (ds ++ List.replicate k 48) = digitsVal ds * 10 ^ k := by
  rw [digitsVal_append, digitsVal_replicate_zero, List.length_replicate]; rfl

theorem textOf_fixed {ds : Str} (hd : ds.all isDigit = true) (hne : ds ≠ []) (h0 : ds.head? ≠ some 48) (dp : Int) :
    TextOf (fmtFixed ds dp) (digitsVal ds * 10 ^ (dp - ds.length)) := by
  unfold fmtFixed
  by_cases hp : 0 < dp
  · simp only [hp, if_true]
    rw [List.all_eq_true] at hd
    by_cases hl : ds.length ≤ dp.toNat
    · have h1 : ds.take dp.toNat = ds := List.take_of_length_le hl
      have h2 : ds.drop dp.toNat = [] := List.drop_of_length_le hl
      rw [h1, h2, if_pos rfl]
      refine ⟨ds ++ List.replicate (dp.toNat - ds.length) 48, [], none, by simp [numText, expText], ⟨?_, by simp [hne], rfl, trivial⟩, ?_, ?_⟩
      · rw [List.all_append, List.all_eq_true.mpr hd, all_replicate_zero]; rfl
      · right
        cases ds with
        | nil => exact absurd rfl hne
        | cons a b => simpa using h0
      · rw [List.append_nil, digitsVal_zeros]
        simp only [expVal, List.length_nil, Nat.cast_zero, sub_zero, zpow_zero, mul_one]
        push_cast
        rw [← zpow_natCast]
        congr 2
        omega
    · have hdr : ds.drop dp.toNat ≠ [] := by
        intro h
        have := List.length_drop (i := dp.toNat) (l := ds)
        rw [h, List.length_nil] at this
        omega
      rw [if_neg hdr, show dp.toNat - ds.length = 0 by omega]
      refine ⟨ds.take dp.toNat, ds.drop dp.toNat, none, by simp [numText, hdr, expText], ⟨?_, ?_, ?_, trivial⟩, ?_, ?_⟩
      · exact List.all_eq_true.mpr fun c hc => hd c (List.mem_of_mem_take hc)
      · intro h
        have := List.length_take (i := dp.toNat) (l := ds)
        rw [h, List.length_nil] at this
        omega
      · exact List.all_eq_true.mpr fun c hc => hd c (List.mem_of_mem_drop hc)
      · right
        rw [List.head?_take, if_neg (by omega)]
        exact h0
      · rw [List.take_append_drop, List.length_drop]
        congr 2
        simp only [expVal]
        omega
  · simp only [hp, if_false]
    have hfne : List.replicate (-dp).toNat (48 : UInt8) ++ ds ≠ [] := by simp [hne]
    rw [if_neg hfne]
    refine ⟨[48], List.replicate (-dp).toNat 48 ++ ds, none, by simp [numText, hne, expText], ⟨by decide, by decide, ?_, trivial⟩, Or.inl rfl, ?_⟩
    · rw [List.all_append, all_replicate_zero, hd]; rfl
    · have : digitsVal ([48] ++ (List.replicate (-dp).toNat 48 ++ ds)) = digitsVal ds := by
        have h1 : [48] ++ (List.replicate (-dp).toNat (48 : UInt8) ++ ds) = List.replicate ((-dp).toNat + 1) 48 ++ ds := by
          rw [List.replicate_succ]; simp
        rw [h1, digitsVal_append, digitsVal_replicate_zero]; omega
      rw [this]
      congr 2
      simp only [expVal, List.length_append, List.length_replicate]
      omega

theorem textOf_exp {ds : Str} (hd : ds.all isDigit = true) (hne : ds ≠ []) (h0 : ds.head? ≠ some 48) (dp : Int) :
    TextOf (fmtExp ds dp) (digitsVal ds * 10 ^ (dp - ds.length)) := by
  cases ds with
  | nil => exact absurd rfl hne
  | cons a b =>
    simp only [List.all_cons, Bool.and_eq_true] at hd
    refine ⟨[a], b, some (101, if dp - 1 < 0 then [45] else [43], natDigits (dp - 1).natAbs), ?_, ⟨by simp [hd.1], by simp, hd.2, Or.inl rfl, ?_, natDigits_all _, natDigits_ne_nil _⟩, ?_, ?_⟩
    · unfold fmtExp numText
      cases b with
      | nil => simp [expText]
      | cons c r => simp [expText]
    · split
      · exact Or.inr (Or.inr rfl)
      · exact Or.inr (Or.inl rfl)
    · right; simpa using h0
    · have : expVal (some (101, if dp - 1 < 0 then [45] else [43], natDigits (dp - 1).natAbs)) = dp - 1 := by
        simp only [expVal]
        rw [digitsVal_natDigits]
        by_cases h : dp - 1 < 0
        · simp only [h, if_true]; omega
        · simp only [h, if_false]
          rw [if_neg (by decide)]; omega
      rw [this]
      show (digitsVal (a :: b) : ℚ) * _ = _
      congr 2
      simp only [List.length_cons]
      omega

/-- The digits of the shortest decimal without zeros at the end. -/
theorem shortDigits {D : Nat} (hD : 0 < D) : ∃ k, D = digitsVal (trailingOff (natDigits D)) * 10 ^ k ∧ (natDigits D).length = (trailingOff (natDigits D)).length + k
    ∧ (trailingOff (natDigits D)).all isDigit = true ∧ trailingOff (natDigits D) ≠ [] ∧ (trailingOff (natDigits D)).head? ≠ some 48
    ∧ (trailingOff (natDigits D)).getLast? ≠ some 48 := by
  obtain ⟨k, hk, hl⟩ := trailingOff_spec (natDigits D)
  have hall := natDigits_all D
  have hval := digitsVal_natDigits D
  have hhead := natDigits_head hD
  have hne : trailingOff (natDigits D) ≠ [] := by
    intro h
    rw [h, List.nil_append] at hk
    rw [hk, digitsVal_replicate_zero] at hval
    omega
  refine ⟨k, ?_, ?_, ?_, hne, ?_, hl⟩
  · rw [← digitsVal_zeros, ← hk, hval]
  · conv_lhs => rw [hk]
    simp
  · rw [hk, List.all_append, Bool.and_eq_true] at hall; exact hall.1
  · generalize trailingOff (natDigits D) = ds at *
    cases ds with
    | nil => exact absurd rfl hne
    | cons a b => rw [hk] at hhead; simpa using hhead

theorem textOf_float {m : Nat} {e : Int} (hm : 0 < m) : TextOf (floatText m e) ((shortDecimal m e).1 * 10 ^ (shortDecimal m e).2) := by
  have hD : 0 < (shortDecimal m e).1 := by
    have := (shortDecimal_spec e hm).1.1
    have h2 : (0 : ℚ) < 2 ^ (e - 2) := by positivity
    have hg : (lowGap m e : ℚ) ≤ 2 := by exact_mod_cast (lowGap_le m e).2
    have hmq : (1 : ℚ) ≤ m := by exact_mod_cast hm
    have hpos : 0 < (4 * m - lowGap m e : ℚ) * 2 ^ (e - 2) := mul_pos (by linarith) h2
    rcases Nat.eq_zero_or_pos (shortDecimal m e).1 with h0 | h0
    · rw [h0] at this
      simp only [Nat.cast_zero, zero_mul] at this
      linarith
    · exact h0
  obtain ⟨k, hk, hlen, hall, hne, hh, _⟩ := shortDigits hD
  have hv : ((shortDecimal m e).1 : ℚ) * 10 ^ (shortDecimal m e).2 = digitsVal (trailingOff (natDigits (shortDecimal m e).1))
      * 10 ^ (((natDigits (shortDecimal m e).1).length + (shortDecimal m e).2 : ℤ) - (trailingOff (natDigits (shortDecimal m e).1)).length) := by
    conv_lhs => rw [hk]
    push_cast
    rw [mul_assoc, ← zpow_natCast, ← zpow_add₀ (by norm_num)]
    congr 2
    rw [hlen]
    push_cast
    ring
  rw [hv]
  unfold floatText
  rw [if_neg (by omega)]
  simp only
  split
  · exact textOf_exp hall hne hh _
  · exact textOf_fixed hall hne hh _

theorem inRange_zero (e : Int) : InRange 0 e 0 := by
  have hg : lowGap 0 e = 2 := by unfold lowGap; rw [if_neg (by simp)]
  unfold InRange
  rw [hg]
  have : (0 : ℚ) < 2 ^ (e - 2) := by positivity
  refine ⟨?_, ?_, fun h => absurd rfl h⟩
  · push_cast; linarith
  · push_cast; linarith

theorem toFloat_spec {n d : Nat} (hd : 0 < d) : ∃ m e, IsFloat m e ∧ InRange m e (n / d : ℚ) ∧ toFloat n d = if 971 < e then none else some (m, e) := by
  unfold toFloat
  rcases Nat.eq_zero_or_pos n with rfl | hn
  · refine ⟨0, -1074, ⟨by norm_num, le_refl _, Or.inr rfl⟩, ?_, by simp⟩
    rw [Nat.cast_zero, zero_div]; exact inRange_zero _
  · rw [if_neg (by omega)]
    obtain ⟨h1, h2, h3, h4⟩ := roundFloat_spec hn hd
    exact ⟨_, _, ⟨h1, h2, h3⟩, h4, rfl⟩

theorem literalFloat_spec (c : Nat) (t : Int) : ∃ m e, IsFloat m e ∧ InRange m e (c * 10 ^ t : ℚ) ∧ literalFloat c t = if 971 < e then none else some (m, e) := by
  unfold literalFloat
  split
  · rename_i ht
    obtain ⟨m, e, h1, h2, h3⟩ := toFloat_spec (n := c * 10 ^ t.toNat) (d := 1) (by norm_num)
    refine ⟨m, e, h1, ?_, h3⟩
    push_cast at h2
    rwa [div_one, pow_toNat 10 ht] at h2
  · rename_i ht
    obtain ⟨m, e, h1, h2, h3⟩ := toFloat_spec (n := c) (d := 10 ^ (-t).toNat) (by positivity)
    refine ⟨m, e, h1, ?_, h3⟩
    push_cast at h2
    rwa [pow_toNat 10 (by omega), zpow_neg, div_inv_eq_mul] at h2

/-- What becomes of a number, from its parts. -/
theorem goNum_text (neg : Bool) {ip fp : Str} {ex : Option (UInt8 × Str × Str)} (h : NumOk ip fp ex) :
    ∃ m e, IsFloat m e ∧ InRange m e (digitsVal (ip ++ fp) * 10 ^ (expVal ex - fp.length) : ℚ)
      ∧ goNum (signText neg ++ numText ip fp ex) = if 971 < e then none else some (signText neg ++ floatText m e) := by
  obtain ⟨m, e, h1, h2, h3⟩ := literalFloat_spec (digitsVal (ip ++ fp)) (expVal ex - fp.length)
  refine ⟨m, e, h1, h2, ?_⟩
  unfold goNum
  rw [readDecimal_text neg h]
  simp only [h3]
  by_cases he : 971 < e
  · simp only [he, if_true, Option.map_none]
  · simp only [he, if_false, Option.map_some]; rfl

/-- The printed number is read as the same `float64`. -/
theorem floatText_value (m : Nat) (e : Int) (h : IsFloat m e) : ∃ w, TextOf (floatText m e) w ∧ 0 ≤ w ∧ InRange m e w
    ∧ (0 < m → w = (shortDecimal m e).1 * 10 ^ (shortDecimal m e).2) ∧ (m = 0 → w = 0) := by
  rcases Nat.eq_zero_or_pos m with rfl | hm
  · refine ⟨0, ⟨[48], [], none, rfl, ⟨by decide, by decide, rfl, trivial⟩, Or.inl rfl, ?_⟩, le_refl _, ?_, fun h => absurd h (by omega), fun _ => rfl⟩
    · have : digitsVal ([48] ++ []) = 0 := by decide
      rw [this]; simp
    · exact inRange_zero _
  · refine ⟨_, textOf_float hm, by positivity, (shortDecimal_spec e hm).1, fun _ => rfl, fun h => by omega⟩

theorem digit_eq {c : UInt8} (h : isDigit c = true) : (48 + (c.toNat - 48)).toUInt8 = c := by
  have := isDigit_iff.mp h
  apply UInt8.toNat_inj.mp
  rw [toNat_digit (by omega)]
  omega

/-- Digits without zeros in front are the digits of their number. -/
theorem natDigits_unique {s : Str} (h : s.all isDigit = true) (hne : s ≠ []) (h0 : s.head? ≠ some 48) : natDigits (digitsVal s) = s := by
  induction s using List.reverseRecOn with
  | nil => exact absurd rfl hne
  | append_singleton s c ih =>
    simp only [List.all_append, Bool.and_eq_true, List.all_cons, List.all_nil, Bool.and_true] at h
    have hc := isDigit_iff.mp h.2
    have hv : digitsVal (s ++ [c]) = digitsVal s * 10 + (c.toNat - 48) := by
      rw [digitsVal_append]; simp [digitsVal]
    rw [natDigits_eq, hv]
    cases hs : s with
    | nil =>
      have : digitsVal ([] : Str) = 0 := rfl
      rw [this, if_pos (by omega), Nat.zero_mul, Nat.zero_add, digit_eq h.2]; rfl
    | cons a b =>
      rw [← hs]
      have hhd : s.head? ≠ some 48 := by rw [hs] at h0 ⊢; simpa using h0
      have ih := ih h.1 (by rw [hs]; simp) hhd
      have hpos : 0 < digitsVal s := by
        rcases Nat.eq_zero_or_pos (digitsVal s) with hz | hz
        · rw [hz] at ih
          have : natDigits 0 = [48] := by decide
          rw [this] at ih
          rw [← ih] at hhd
          exact absurd rfl hhd
        · exact hz
      rw [if_neg (by omega), show (digitsVal s * 10 + (c.toNat - 48)) / 10 = digitsVal s by omega,
        show (digitsVal s * 10 + (c.toNat - 48)) % 10 = c.toNat - 48 by omega, ih, digit_eq h.2]

/-- The text of a `float64` whose shortest decimal is an integer below 10^16. -/
theorem floatText_integer {m : Nat} {e : Int} (hm : 0 < m) {n : Nat} (hn : 0 < n) (hn16 : n < 10 ^ 16)
    (h : ((shortDecimal m e).1 : ℚ) * 10 ^ (shortDecimal m e).2 = n) : floatText m e = natDigits n := by
  have hD : 0 < (shortDecimal m e).1 := by
    rcases Nat.eq_zero_or_pos (shortDecimal m e).1 with h0 | h0
    · rw [h0, Nat.cast_zero, zero_mul] at h
      have : n = 0 := by exact_mod_cast h.symm
      omega
    · exact h0
  obtain ⟨k, hk, hlen, hall, hne, hh, hlast⟩ := shortDigits hD
  have hge := natDigits_ge hD
  have hlt := natDigits_lt (shortDecimal m e).1
  have hlpos : 0 < (natDigits (shortDecimal m e).1).length := List.length_pos_iff.mpr (natDigits_ne_nil _)
  unfold floatText
  rw [if_neg (by omega)]
  simp only
  generalize (shortDecimal m e).1 = D at *
  generalize (shortDecimal m e).2 = t at *
  have h10 : (0 : ℚ) < 10 ^ t := by positivity
  have hup : ((natDigits D).length + t - 1 : ℤ) < 16 := by
    by_contra hcon
    have a1 : ((10 ^ ((natDigits D).length - 1) : ℕ) : ℚ) * 10 ^ t ≤ n := by
      rw [← h]; exact mul_le_mul_of_nonneg_right (by exact_mod_cast hge) h10.le
    push_cast at a1
    rw [← zpow_natCast, ← zpow_add₀ (by norm_num)] at a1
    have a2 : (10 : ℚ) ^ (16 : ℤ) ≤ 10 ^ ((((natDigits D).length - 1 : ℕ) : ℤ) + t) := zpow_le_zpow_right₀ (by norm_num) (by omega)
    have a3 : (n : ℚ) < 10 ^ (16 : ℤ) := by
      rw [show (16 : ℤ) = ((16 : ℕ) : ℤ) by norm_num, zpow_natCast]; exact_mod_cast hn16
    linarith
  have hdp : 0 < ((natDigits D).length + t : ℤ) := by
    by_contra hcon
    have a1 : (n : ℚ) < ((10 ^ (natDigits D).length : ℕ) : ℚ) * 10 ^ t := by
      rw [← h]; exact mul_lt_mul_of_pos_right (by exact_mod_cast hlt) h10
    push_cast at a1
    rw [← zpow_natCast, ← zpow_add₀ (by norm_num)] at a1
    have a2 : (10 : ℚ) ^ (((natDigits D).length : ℤ) + t) ≤ 10 ^ (0 : ℤ) := zpow_le_zpow_right₀ (by norm_num) (by omega)
    have a3 : (1 : ℚ) ≤ n := by exact_mod_cast hn
    rw [zpow_zero] at a2
    linarith
  rw [if_neg (by omega)]
  generalize hds : trailingOff (natDigits D) = ds at *
  have hval : (digitsVal ds : ℚ) * 10 ^ ((natDigits D).length + t - ds.length : ℤ) = n := by
    rw [← h]
    conv_rhs => rw [hk]
    push_cast
    rw [mul_assoc, ← zpow_natCast, ← zpow_add₀ (by norm_num)]
    congr 2
    rw [hlen]; push_cast; ring
  have hle : ds.length ≤ ((natDigits D).length + t).toNat := by
    by_contra hcon
    have hj : (n * 10 ^ (ds.length - ((natDigits D).length + t).toNat) : ℕ) = digitsVal ds := by
      have : ((n * 10 ^ (ds.length - ((natDigits D).length + t).toNat) : ℕ) : ℚ) = (digitsVal ds : ℕ) := by
        push_cast
        rw [← hval, mul_assoc, ← zpow_natCast, ← zpow_add₀ (by norm_num)]
        conv_rhs => rw [← mul_one (digitsVal ds : ℚ), ← zpow_zero (10 : ℚ)]
        congr 2
        omega
      exact_mod_cast this
    rcases List.eq_nil_or_concat ds with h0 | ⟨init, c, hc⟩
    · exact hne h0
    · rw [hc] at hlast hall
      have hcl : c ≠ 48 := by
        intro h48
        rw [List.concat_eq_append, List.getLast?_append, h48] at hlast
        exact hlast rfl
      rw [List.concat_eq_append, List.all_append, Bool.and_eq_true] at hall
      have hcd := isDigit_iff.mp (by simpa using hall.2 : isDigit c = true)
      have hv : digitsVal ds = digitsVal init * 10 + (c.toNat - 48) := by
        rw [hc, List.concat_eq_append, digitsVal_append]; simp [digitsVal]
      have hc48 : c.toNat ≠ 48 := fun h => hcl (UInt8.toNat_inj.mp h)
      obtain ⟨j, hj'⟩ : ∃ j, ds.length - ((natDigits D).length + t).toNat = j + 1 := ⟨ds.length - ((natDigits D).length + t).toNat - 1, by omega⟩
      rw [hj', pow_succ, ← mul_assoc, hv] at hj
      omega
  unfold fmtFixed
  simp only [hdp, if_true]
  rw [List.take_of_length_le hle, List.drop_of_length_le hle, if_pos rfl]
  generalize hs : ds ++ List.replicate (((natDigits D).length + t).toNat - ds.length) 48 = s
  have hsv : digitsVal s = n := by
    have : ((digitsVal s : ℕ) : ℚ) = n := by
      rw [← hs, digitsVal_zeros, ← hval]
      push_cast
      rw [← zpow_natCast]
      congr 2
      omega
    exact_mod_cast this
  rw [← hsv]
  symm
  apply natDigits_unique
  · rw [← hs, List.all_append, hall, all_replicate_zero]; rfl
  · rw [← hs]; simp [hne]
  · rw [← hs]
    cases ds with
    | nil => exact absurd rfl hne
    | cons a b => simpa using hh

end Ckube

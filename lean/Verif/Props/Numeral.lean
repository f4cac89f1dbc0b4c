import Verif.Lemmas.NumeralRead
import Verif.Props.Float
import Verif.Props.Sort

/-! # C114: sorting by number

The order by number (`key!int`) is that of `strconv.ParseFloat`; here it is compared with the values that the texts mean. -/

namespace Ckube
open Spec

/-- What is read depends on the value only. -/
theorem numeral_rank {s : Str} {v : ℚ} (h : Numeral s v) : ∃ m e, IsFloat m e ∧ InRange m e |v|
    ∧ parseFloat64 s = if 971 < e then none else some (.num (floatRank (decide (v < 0)) (m, e))) := by
  obtain ⟨neg, w, m, e, rfl, hw, h1, h2, h3⟩ := numeral_read h
  have habs : |(if neg then -1 else 1) * w| = w := abs_sign neg hw
  refine ⟨m, e, h1, by rw [habs]; exact h2, ?_⟩
  rw [h3]
  have hr : floatRank neg (m, e) = floatRank (decide ((if neg then -1 else 1) * w < 0)) (m, e) := by
    rcases hw.eq_or_lt with h0 | h0
    · rw [← h0] at h2
      obtain ⟨rfl, _⟩ := inRange_unique ⟨by norm_num, le_refl _, Or.inr rfl⟩ h1 (inRange_zero (-1074)) h2
      simp [floatRank]
    · cases neg
      · rw [decide_eq_false]
        simp only [Bool.false_eq_true, if_false, one_mul, not_lt]; exact hw
      · rw [decide_eq_true]
        simp only [if_true]; linarith
  rw [hr]

/-- **C114**: the texts that are read as a number: NaN, the infinities, and the numerals whose value is less than 2^1024 - 2^970, half a step above the largest
`float64`. -/
theorem C114_accepted (s : Str) : (parseFloat64 s).isSome = true ↔
    SameWord s "nan" ∨ (∃ neg, InfinityText neg s) ∨ ∃ v, Numeral s v ∧ Moderate v := by
  have hnum : ∀ {v}, Numeral s v → ((parseFloat64 s).isSome = true ↔ Moderate v) := by
    intro v hv
    obtain ⟨m, e, h1, h2, h3⟩ := numeral_rank hv
    have := finite_exp h1 h2 (abs_nonneg v)
    unfold Moderate
    rw [← this, h3]
    split
    · rename_i he
      constructor
      · intro h; cases h
      · intro h; omega
    · rename_i he
      exact ⟨fun _ => by omega, fun _ => rfl⟩
  have hspec : ∀ {x}, specialFloat s = some x → parseFloat64 s = some x := by
    intro x hx; unfold parseFloat64; rw [hx]
  constructor
  · intro h
    obtain ⟨x, hx⟩ := Option.isSome_iff_exists.mp h
    cases hsp : specialFloat s with
    | some y =>
      rcases (special_iff s y).mp hsp with ⟨_, h⟩ | ⟨neg, h, _⟩
      · exact Or.inl h
      · exact Or.inr (Or.inl ⟨neg, h⟩)
    | none =>
      obtain ⟨v, hv⟩ := read_numeral hx hsp
      exact Or.inr (Or.inr ⟨v, hv, (hnum hv).mp h⟩)
  · rintro (h | ⟨neg, h⟩ | ⟨v, hv, hf⟩)
    · rw [hspec ((special_iff s _).mpr (Or.inl ⟨rfl, h⟩))]; rfl
    · rw [hspec ((special_iff s _).mpr (Or.inr ⟨neg, h, rfl⟩))]; rfl
    · exact (hnum hv).mpr hf

/-- **C114**: a numeral is read as the `float64` nearest to its value. -/
theorem C114_nearest {s : Str} {v : ℚ} {x : GoFloat} (hv : Numeral s v) (hx : parseFloat64 s = some x) : ∃ k, x = .num k ∧ Nearest v k := by
  obtain ⟨neg, w, m, e, rfl, hw, h1, h2, h3⟩ := numeral_read hv
  rw [h3] at hx
  by_cases he : 971 < e
  · rw [if_pos he] at hx; cases hx
  · rw [if_neg he] at hx
    cases hx
    exact ⟨_, rfl, nearest_of_range neg h1 (by omega) h2 hw⟩

/-- **C114**: NaN is read as NaN, an infinity as a number beyond every `float64`. -/
theorem C114_special (s : Str) : (parseFloat64 s = some .nan ↔ SameWord s "nan")
    ∧ ∀ neg, InfinityText neg s → ∃ k, parseFloat64 s = some (.num k) ∧ ∀ j, Double j → if neg then k < j else j < k := by
  have hspec : ∀ {x}, specialFloat s = some x → parseFloat64 s = some x := by
    intro x hx; unfold parseFloat64; rw [hx]
  constructor
  · constructor
    · intro h
      cases hsp : specialFloat s with
      | some y =>
        have := hspec hsp
        rw [h] at this
        cases this
        rcases (special_iff s _).mp hsp with ⟨_, h⟩ | ⟨neg, _, h⟩
        · exact h
        · cases h
      | none =>
        obtain ⟨v, hv⟩ := read_numeral h hsp
        obtain ⟨k, h', _⟩ := C114_nearest hv h
        cases h'
    · intro h
      exact hspec ((special_iff s _).mpr (Or.inl ⟨rfl, h⟩))
  · intro neg h
    refine ⟨_, hspec ((special_iff s _).mpr (Or.inr ⟨neg, h, rfl⟩)), fun j hj => ?_⟩
    obtain ⟨m, e, hm, _, he, hj⟩ := hj
    have hlt : (|j| : ℚ) < 2 ^ 2098 := by
      have h1 : (m : ℚ) < 2 ^ 53 := by exact_mod_cast hm
      have h2 : (2 : ℚ) ^ (e + 1074) ≤ 2 ^ (2045 : ℤ) := zpow_le_zpow_right₀ (by norm_num) (by omega)
      have h3 : (2 : ℚ) ^ (2045 : ℤ) = 2 ^ 2045 := zpow_ofNat 2 2045
      have h4 : (2 : ℚ) ^ 2098 = 2 ^ 53 * 2 ^ 2045 := by rw [← pow_add]
      have hj' : (|j| : ℚ) = m * 2 ^ (e + 1074) := by exact_mod_cast hj
      rw [hj', h4, ← h3]
      exact mul_lt_mul h1 h2 (by positivity) (by positivity)
    have hlt' : |j| < 2 ^ 2098 := by exact_mod_cast hlt
    rw [abs_lt] at hlt'
    unfold infRank
    cases neg
    · exact hlt'.2
    · exact hlt'.1

/-- **C114**: a text means at most one number. -/
theorem C114_unique {s : Str} {v w : ℚ} (hv : Numeral s v) (hw : Numeral s w) : v = w := by
  obtain ⟨neg, r, a, hs, rfl, ha⟩ := hv
  obtain ⟨neg', r', b, hs', rfl, hb⟩ := hw
  obtain ⟨rfl, h1⟩ := signed_iff.mp hs
  obtain ⟨rfl, h2⟩ := signed_iff.mp hs'
  rw [h1, h2]
  have hab : a = b := by
    have dec : ∀ {w}, DecimalText (plain (unsigned s)) w → w = readValue false (plain (unsigned s)) := fun h => (decimal_read0 h).1
    have hx : ∀ {w}, HexText (plain (unsigned s)) w → w = readValue true ((plain (unsigned s)).drop 2) := fun h => (hex_read0 h).1
    rcases ha with ⟨a1, a2⟩ | ⟨a1, a2⟩ <;> rcases hb with ⟨b1, b2⟩ | ⟨b1, b2⟩
    · rw [dec a2, dec b2]
    · have := decimal_prefix a1 a2
      rw [hex_prefix b1 b2] at this; cases this
    · have := decimal_prefix b1 b2
      rw [hex_prefix a1 a2] at this; cases this
    · rw [hx a2, hx b2]
  rw [hab]

/-- **C114**: texts of the same value are read as the same number. -/
theorem C114_same {a b : Str} {v : ℚ} (ha : Numeral a v) (hb : Numeral b v) : parseFloat64 a = parseFloat64 b := by
  obtain ⟨m, e, h1, h2, h3⟩ := numeral_rank ha
  obtain ⟨m', e', h1', h2', h3'⟩ := numeral_rank hb
  obtain ⟨rfl, rfl⟩ := inRange_unique h1 h1' h2 h2'
  rw [h3, h3']

/-- **C114**: the order of the numbers that are read never contradicts that of the values. -/
theorem C114_order {a b : Str} {va vb : ℚ} {x y : ℤ} (ha : Numeral a va) (hb : Numeral b vb) (hx : parseFloat64 a = some (.num x))
    (hy : parseFloat64 b = some (.num y)) (hle : va ≤ vb) : x ≤ y := by
  rcases hle.eq_or_lt with rfl | hlt
  · rw [C114_same ha hb, hy] at hx
    cases hx
    exact le_refl _
  · obtain ⟨k, hk, n1⟩ := C114_nearest ha hx
    cases hk
    obtain ⟨k', hk', n2⟩ := C114_nearest hb hy
    cases hk'
    by_contra hgt
    have hgt : y < x := by omega
    have h1 := (n1.2 y n2.1 hgt.ne).1
    have h2 := (n2.2 x n1.1 hgt.ne').1
    have hv := doubleValue_lt.mpr hgt
    generalize doubleValue x = p at *
    generalize doubleValue y = q at *
    have h3 := sq_le_sq' (by have := abs_nonneg (va - p); have := abs_nonneg (va - q); linarith) h1
    have h4 := sq_le_sq' (by have := abs_nonneg (vb - p); have := abs_nonneg (vb - q); linarith) h2
    rw [sq_abs, sq_abs] at h3 h4
    nlinarith

theorem inRange_self {m : ℕ} {e : ℤ} : InRange m e (m * 2 ^ e) := by
  have hq : (0 : ℚ) < 2 ^ (e - 2) := by positivity
  have hg : (1 : ℚ) ≤ lowGap m e := by exact_mod_cast (lowGap_le m e).1
  rw [pow_four e]
  refine ⟨by nlinarith, by nlinarith, fun _ => ⟨by nlinarith, by nlinarith⟩⟩

theorem rank_inj {neg : Bool} {m m' : ℕ} {e e' : ℤ} (h : IsFloat m e) (h' : IsFloat m' e') (hr : floatRank neg (m, e) = floatRank neg (m', e')) :
    m' = m ∧ e' = e := by
  have := congrArg doubleValue hr
  rw [rank_value neg h.2.1, rank_value neg h'.2.1] at this
  have heq : (m : ℚ) * 2 ^ e = m' * 2 ^ e' := by
    cases neg
    · simpa using this
    · simp only [if_true] at this; linarith
  exact inRange_unique h h' inRange_self (heq ▸ inRange_self)

/-- The value has at most 15 digits, and is neither too small nor too large. -/
def Spec.Short (v : ℚ) : Prop := FewDigits 15 v ∧ InReach v

/-- The value is a whole number from -2^53 to 2^53. -/
def Spec.Small (v : ℚ) : Prop := ∃ n : ℤ, v = n ∧ |n| ≤ 2 ^ 53

/-- **C114**: numerals of at most 15 digits are read, and what is read is in the order of the values. -/
theorem C114_few {a b : Str} {va vb : ℚ} (ha : Numeral a va) (hb : Numeral b vb) (sa : Short va) (sb : Short vb) :
    ∃ x y, parseFloat64 a = some (.num x) ∧ parseFloat64 b = some (.num y) ∧ (x < y ↔ va < vb) ∧ (x = y ↔ va = vb) := by
  have hfin : ∀ {v}, InReach v → Moderate v := by
    intro v hr
    have hbig : (10 : ℚ) ^ 308 < 2 ^ 1024 - 2 ^ 970 := by
      have e1 : (2 ^ 1024 - 2 ^ 970 : ℚ) = ((2 ^ 1024 - 2 ^ 970 : ℕ) : ℚ) := by
        rw [Nat.cast_sub (by decide +kernel)]; push_cast; rfl
      rw [e1]
      exact_mod_cast (by decide +kernel : 10 ^ 308 < 2 ^ 1024 - 2 ^ 970)
    have h0 : (0 : ℚ) ≤ 10 ^ 308 := by positivity
    unfold Moderate
    rcases hr with rfl | ⟨_, h2⟩
    · rw [abs_zero]; exact lt_of_le_of_lt h0 hbig
    · exact lt_of_le_of_lt h2 hbig
  obtain ⟨m, e, h1, h2, h3⟩ := numeral_rank ha
  obtain ⟨m', e', h1', h2', h3'⟩ := numeral_rank hb
  have he := (finite_exp h1 h2 (abs_nonneg _)).mpr (hfin sa.2)
  have he' := (finite_exp h1' h2' (abs_nonneg _)).mpr (hfin sb.2)
  rw [if_neg (by omega)] at h3 h3'
  have heq : floatRank (decide (va < 0)) (m, e) = floatRank (decide (vb < 0)) (m', e') → va = vb := by
    intro hr
    have hnorm : ∀ {m e v}, IsFloat m e → InRange m e |v| → InReach v → v ≠ 0 → 2 ^ 52 ≤ m := by
      intro m e v h1 h2 hr hne
      rcases hr with h0 | ⟨h0, _⟩
      · exact absurd h0 hne
      · exact normal_of_ge h1 h2 h0
    have hzero : ∀ {neg : Bool} {m : ℕ} {e : ℤ}, floatRank neg (m, e) = 0 → m = 0 := by
      intro neg m e h
      unfold floatRank at h
      have : ((m * 2 ^ (e + 1074).toNat : ℕ) : ℤ) = 0 := by
        cases neg
        · simpa using h
        · simpa using h
      have : m * 2 ^ (e + 1074).toNat = 0 := by exact_mod_cast this
      rcases Nat.mul_eq_zero.mp this with h | h
      · exact h
      · exact absurd h (by positivity)
    have hz : ∀ {m e}, IsFloat m e → InRange m e |(0 : ℚ)| → m = 0 := by
      intro m e h1 h2
      rw [abs_zero] at h2
      exact (inRange_unique ⟨by norm_num, le_refl _, Or.inr rfl⟩ h1 (inRange_zero (-1074)) h2).1
    have hz0 : ∀ {neg : Bool} {e : ℤ}, floatRank neg (0, e) = 0 := by intro neg e; simp [floatRank]
    by_cases ha0 : va = 0
    · by_cases hb0 : vb = 0
      · rw [ha0, hb0]
      · exfalso
        rw [ha0] at h2
        obtain rfl := hz h1 h2
        rw [hz0] at hr
        have := hnorm h1' h2' sb.2 hb0
        have := hzero hr.symm
        omega
    · have hm := hnorm h1 h2 sa.2 ha0
      by_cases hb0 : vb = 0
      · exfalso
        rw [hb0] at h2'
        obtain rfl := hz h1' h2'
        rw [hz0] at hr
        have := hzero hr
        omega
      · have hsign : decide (va < 0) = decide (vb < 0) := by
          have hpos : ∀ {m : ℕ} {e : ℤ}, 0 < m → -1074 ≤ e → 0 < floatRank false (m, e) ∧ floatRank true (m, e) < 0 := by
            intro m e h _
            have : (0 : ℤ) < ((m * 2 ^ (e + 1074).toNat : ℕ) : ℤ) := by
              have : 0 < m * 2 ^ (e + 1074).toNat := by positivity
              exact_mod_cast this
            unfold floatRank
            simp only [Bool.false_eq_true, if_false, if_true]
            constructor <;> linarith
          have hm' := hnorm h1' h2' sb.2 hb0
          have p1 := hpos (e := e) (show 0 < m by omega) h1.2.1
          have p2 := hpos (e := e') (show 0 < m' by omega) h1'.2.1
          cases hda : decide (va < 0) <;> cases hdb : decide (vb < 0) <;> rw [hda, hdb] at hr
          · have := p1.1; have := p2.2; omega
          · have := p1.2; have := p2.1; omega
        rw [hsign] at hr
        obtain ⟨rfl, rfl⟩ := rank_inj h1 h1' hr
        obtain ⟨D, t, hD, hDv⟩ := sa.1
        obtain ⟨D', t', hD', hDv'⟩ := sb.1
        rw [hDv] at h2
        rw [hDv'] at h2'
        have habs : |va| = |vb| := by
          rw [hDv, hDv']
          exact fifteen_unique hm (by omega) (by omega) h2 h2'
        rcases lt_or_ge va 0 with hva | hva
        · have hvb : vb < 0 := by rw [decide_eq_true hva] at hsign; exact of_decide_eq_true hsign.symm
          rw [abs_of_neg hva, abs_of_neg hvb] at habs
          linarith
        · have hvb : 0 ≤ vb := by
            rw [decide_eq_false (not_lt.mpr hva)] at hsign
            exact not_lt.mp (of_decide_eq_false hsign.symm)
          rwa [abs_of_nonneg hva, abs_of_nonneg hvb] at habs
  refine ⟨_, _, h3, h3', ?_, heq, ?_⟩
  · constructor
    · intro h
      by_contra hge
      have := C114_order hb ha h3' h3 (not_lt.mp hge)
      omega
    · intro h
      have h5 := C114_order ha hb h3 h3' h.le
      rcases h5.eq_or_lt with h6 | h6
      · exact absurd (heq h6) h.ne
      · exact h6
  · rintro rfl
    have := C114_same ha hb
    rw [h3, h3'] at this
    simpa using this

/-- **C114**: whole numbers from -2^53 to 2^53 are read as what they are. -/
theorem C114_small {a : Str} {n : ℤ} (ha : Numeral a n) (hn : |n| ≤ 2 ^ 53) : ∃ x, parseFloat64 a = some (.num x) ∧ doubleValue x = n := by
  have hq : (|(n : ℚ)|) ≤ 2 ^ 53 := by exact_mod_cast hn
  have hfin : Moderate (n : ℚ) := by
    refine lt_of_le_of_lt hq ?_
    have e1 : (2 ^ 1024 - 2 ^ 970 : ℚ) = ((2 ^ 1024 - 2 ^ 970 : ℕ) : ℚ) := by
      rw [Nat.cast_sub (by decide +kernel)]; push_cast; rfl
    rw [e1]
    exact_mod_cast (by decide +kernel : 2 ^ 53 < 2 ^ 1024 - 2 ^ 970)
  obtain ⟨g, hg⟩ := Option.isSome_iff_exists.mp ((C114_accepted a).mpr (Or.inr (Or.inr ⟨_, ha, hfin⟩)))
  obtain ⟨k, rfl, hk⟩ := C114_nearest ha hg
  refine ⟨k, hg, ?_⟩
  have hv : doubleValue (n * 2 ^ 1074) = n := by
    unfold doubleValue
    push_cast
    have h0 : (2 : ℚ) ^ 1074 ≠ 0 := by positivity
    exact mul_div_cancel_right₀ _ h0
  have hd : Double (n * 2 ^ 1074) := by
    have habs : |((n * 2 ^ 1074 : ℤ) : ℚ)| = |(n : ℚ)| * 2 ^ 1074 := by
      push_cast
      rw [abs_mul, abs_of_nonneg (show (0 : ℚ) ≤ 2 ^ 1074 by positivity)]
    rcases hn.eq_or_lt with h | h
    · refine ⟨2 ^ 52, 1, by norm_num, by norm_num, by norm_num, ?_⟩
      have hq' : |(n : ℚ)| = 2 ^ 53 := by exact_mod_cast h
      rw [habs, hq']
      have : (2 : ℚ) ^ ((1 : ℤ) + 1074) = 2 * 2 ^ 1074 := by
        rw [zpow_add₀ (by norm_num), zpow_one, zpow_ofNat]
      rw [this]
      push_cast
      generalize (2 : ℚ) ^ 1074 = z
      ring
    · refine ⟨n.natAbs, 0, (by have := Int.abs_eq_natAbs n; omega), by norm_num, by norm_num, ?_⟩
      rw [habs]
      have : (2 : ℚ) ^ ((0 : ℤ) + 1074) = 2 ^ 1074 := by rw [zero_add, zpow_ofNat]
      rw [this]
      push_cast
      rw [Nat.cast_natAbs]
      push_cast
      rfl
  by_cases hkn : n * 2 ^ 1074 = k
  · rw [← hkn, hv]
  · have := (hk.2 _ hd hkn).1
    rw [hv, sub_self, abs_zero] at this
    have := abs_nonpos_iff.mp this
    linarith

theorem small_ranks {a b : Str} {va vb : ℚ} (ha : Numeral a va) (hb : Numeral b vb) (sa : Small va) (sb : Small vb) :
    ∃ x y, parseFloat64 a = some (.num x) ∧ parseFloat64 b = some (.num y) ∧ (x < y ↔ va < vb) ∧ (x = y ↔ va = vb) := by
  obtain ⟨n, rfl, hn⟩ := sa
  obtain ⟨n', rfl, hn'⟩ := sb
  obtain ⟨x, hx, hxv⟩ := C114_small ha hn
  obtain ⟨y, hy, hyv⟩ := C114_small hb hn'
  refine ⟨x, y, hx, hy, ?_, ?_⟩
  · rw [← hxv, ← hyv, doubleValue_lt]
  · rw [← hxv, ← hyv]
    exact ⟨fun h => by rw [h], doubleValue_inj⟩

/-! ## The order of answers -/

/-- The value under the key is smaller: the number that the text means, or the text. -/
def Spec.Smaller (k : SortKey) (a b : SObj) : Prop :=
  if k.num then ∃ x y, Numeral (a.val k.key) x ∧ Numeral (b.val k.key) y ∧ x < y else strLt (a.val k.key) (b.val k.key) = true

/-- The values under the key are the same. -/
def Spec.Alike (k : SortKey) (a b : SObj) : Prop :=
  if k.num then ∃ x, Numeral (a.val k.key) x ∧ Numeral (b.val k.key) x else a.val k.key = b.val k.key

/-- `a` may stand before `b`: lexicographically by the values under the keys, each in its direction. -/
def Spec.NumericOrder : List SortKey → SObj → SObj → Prop
  | [], _, _ => True
  | k :: ks, a, b => (if k.reverse then Smaller k b a else Smaller k a b) ∨ (Alike k a b ∧ NumericOrder ks a b)

/-- Under every numeric key the values of the matching objects are numerals of at most 15 digits, or else whole numbers up to 2^53. -/
def Spec.ClearNumbers (isPrint : Nat → Bool) (eval : Str → Obj → Str) (conf : List (GVR × List (Str × Str))) (h : List Notice) (g : GVR) (q : Query)
    (ks : List SortKey) : Prop :=
  ∀ k ∈ ks, k.num = true → ∃ D : ℚ → Prop, (D = Short ∨ D = Small)
    ∧ ∀ id o, Matching isPrint eval conf h g q id o → ∃ t v, indexValueOf eval (confAt conf g) id.cluster o k.key = some t ∧ Numeral t v ∧ D v

theorem clear_ranks {D : ℚ → Prop} (hD : D = Short ∨ D = Small) {a b : Str} {va vb : ℚ} (ha : Numeral a va) (hb : Numeral b vb) (sa : D va) (sb : D vb) :
    ∃ x y, parseFloat64 a = some (.num x) ∧ parseFloat64 b = some (.num y) ∧ (x < y ↔ va < vb) ∧ (x = y ↔ va = vb) := by
  rcases hD with rfl | rfl
  · exact C114_few ha hb sa sb
  · exact small_ranks ha hb sa sb

theorem numericOrder_of_lex {ks : List SortKey} {a b : SObj}
    (h : ∀ k ∈ ks, k.num = true → ∃ D : ℚ → Prop, (D = Short ∨ D = Small) ∧ (∃ v, Numeral (a.val k.key) v ∧ D v) ∧ ∃ v, Numeral (b.val k.key) v ∧ D v)
    (hl : LexLe parseFloat64 ks a b) : NumericOrder ks a b := by
  induction ks with
  | nil => trivial
  | cons k ks ih =>
    have ih := ih fun k' hk' => h k' (List.mem_cons_of_mem _ hk')
    unfold LexLe at hl
    unfold NumericOrder
    cases hn : k.num with
    | false =>
      rcases hl with hl | ⟨h1, h2⟩
      · left
        cases hr : k.reverse <;> rw [hr] at hl <;> simpa [Smaller, ValueLt, hn] using hl
      · right
        exact ⟨by simpa [Alike, ValueEq, hn] using h1, ih h2⟩
    | true =>
      obtain ⟨D, hD, ⟨va, na, sa⟩, vb, nb, sb⟩ := h k (by simp) hn
      obtain ⟨x, y, hx, hy, hlt, heq⟩ := clear_ranks hD na nb sa sb
      obtain ⟨y', x', hy', hx', hgt, _⟩ := clear_ranks hD nb na sb sa
      rw [hy] at hy'
      rw [hx] at hx'
      cases hy'
      cases hx'
      have hnx : number parseFloat64 (a.val k.key) = some x := by unfold number; rw [hx]
      have hny : number parseFloat64 (b.val k.key) = some y := by unfold number; rw [hy]
      rcases hl with hl | ⟨h1, h2⟩
      · left
        cases hr : k.reverse with
        | false =>
          rw [hr] at hl
          simp only [Bool.false_eq_true, if_false, ValueLt, hn, if_true, hnx, hny, NumLt] at hl
          simp only [Bool.false_eq_true, if_false, Smaller, hn, if_true]
          exact ⟨va, vb, na, nb, hlt.mp hl⟩
        | true =>
          rw [hr] at hl
          simp only [ValueLt, hn, if_true, hnx, hny, NumLt] at hl
          simp only [Smaller, hn, if_true]
          exact ⟨vb, va, nb, na, hgt.mp hl⟩
      · right
        simp only [ValueEq, hn, if_true, hnx, hny, Option.some.injEq] at h1
        refine ⟨?_, ih h2⟩
        simp only [Alike, hn, if_true]
        exact ⟨va, na, (heq.mp h1) ▸ nb⟩

/-- **C114**: a query whose sort expression asks for known keys, where the values under numeric keys are numerals of at most 15 digits or whole numbers up to
2^53, is answered, without error, with the matching objects (or the requested page of them) in the order of the values that the texts mean. Missing for the
full claim: longer numerals (`C114_false_long`), very large ones (`C114_false_large`), and texts that mean no number but are read as one
(`C25_false_nan`). -/
theorem C114_sorted_partial {isPrint : Nat → Bool} {eval : Str → Obj → Str} {alg : SliceSort} {conf : List (GVR × List (Str × Str))} {h : List Notice} {s : Store}
    (hconf : ConfOK conf) (hrun : (newStore conf).run eval h = some s) (hapi : ApiObjects h)
    (g : GVR) (q : Query) (hp : ValidPaging q.page) (ks : List SortKey) (hks : SortMeans q.page.sort ks)
    (hknown : ∀ k ∈ ks, k.key ∈ (confAt conf g).map Prod.fst
      ∨ k.key ∈ [lit "cluster", lit "is_deleted", lit "namespace", lit "name"])
    (hsearch : ∀ id o idx, Latest eval (confAt conf) h id o → id.gvr = g → (q.ns = [] ∨ q.ns = id.ns) →
      IsIndex eval (confAt conf g) id.cluster o idx → q.page.matches isPrint idx ≠ none)
    (hnum : ClearNumbers isPrint eval conf h g q ks)
    (res : QueryResult) (hans : s.mayAnswer isPrint alg parseFloat64 g q (some res)) :
    res.error = false ∧ ∃ found, Lists isPrint eval conf h s g q found ∧ res.total = found.length
      ∧ res.items = pageOf q.page.page q.page.pageSize (found.map fun e => e.2.2.obj)
      ∧ (found.map fun e => e.2.2).Pairwise (NumericOrder ks) := by
  have hread : ∀ {D : ℚ → Prop} {t : Str} {v : ℚ}, (D = Short ∨ D = Small) → Numeral t v → D v → ∃ x, parseFloat64 t = some (.num x) := by
    intro D t v hD hv hd
    obtain ⟨x, _, hx, _⟩ := clear_ranks hD hv hv hd hd
    exact ⟨x, hx⟩
  have hok : res.error = false := by
    refine C25_accepted hconf hrun hapi g q ks hks hknown hsearch ?_ res hans
    intro id o hm k hk hn
    obtain ⟨D, hD, hall⟩ := hnum k hk hn
    obtain ⟨t, v, ht, hv, hd⟩ := hall id o hm
    obtain ⟨x, hx⟩ := hread hD hv hd
    exact ⟨t, ht, by unfold number; rw [hx]; rfl⟩
  refine ⟨hok, ?_⟩
  obtain ⟨found, f1, f2, f3, f4⟩ := C25_sorted_partial hconf hrun g q hp ks hks (by unfold EmptyNoNaN; decide +kernel) (by
    intro id o hm k hk hn t ht
    obtain ⟨D, hD, hall⟩ := hnum k hk hn
    obtain ⟨t', v, ht', hv, hd⟩ := hall id o hm
    rw [ht] at ht'
    cases ht'
    obtain ⟨x, hx⟩ := hread hD hv hd
    rw [hx]
    simp) res hans hok
  refine ⟨found, f1, f2, f3, ?_⟩
  refine List.Pairwise.imp_of_mem ?_ f4
  intro a b ha hb hl
  have hval : ∀ {so : SObj}, so ∈ (found.map fun e => e.2.2) → ∀ k ∈ ks, k.num = true → ∀ D : ℚ → Prop,
      (∀ id o, Matching isPrint eval conf h g q id o → ∃ t v, indexValueOf eval (confAt conf g) id.cluster o k.key = some t ∧ Numeral t v ∧ D v) →
      ∃ v, Numeral (so.val k.key) v ∧ D v := by
    intro so hso k hk hn D hall
    obtain ⟨e, he, rfl⟩ := List.mem_map.mp hso
    have hm := (f1.2.1 e.1 e.2.1).mp ⟨e.2.2, he⟩
    obtain ⟨t, v, ht, hv, hd⟩ := hall e.1 e.2.1 hm
    have := (f1.2.2 e he).1.2 k.key
    refine ⟨v, ?_, hd⟩
    unfold SObj.val
    rw [this, ht]
    exact hv
  apply numericOrder_of_lex _ hl
  intro k hk hn
  obtain ⟨D, hD, hall⟩ := hnum k hk hn
  exact ⟨D, hD, hval ha k hk hn D hall, hval hb k hk hn D hall⟩

/-! ## Examples and counterexamples -/

theorem numeral_plain {s : Str} {neg : Bool} {r m x : Str} {a b v : ℚ} (hs : Signed s neg r) (h95 : (95 : UInt8) ∉ r) (hr : r = m ++ x)
    (hm : Mantissa false m a) (hx : (x = [] ∧ b = 1) ∨ Power 10 (lit "eE") x b) (hv : v = if neg then -(a * b) else a * b) : Numeral s v := by
  refine ⟨neg, r, a * b, hs, hv, Or.inl ⟨separated_free h95, m, x, a, b, ?_, hm, hx, rfl⟩⟩
  have : r.filter (· ≠ 95) = r := plain_of_not_mem h95
  rw [this, hr]

theorem row_lit {hex : Bool} {s : Str} (h : s.all (fun c => (place hex c).isSome) = true) : Row hex s := by
  rw [List.all_eq_true] at h
  exact h

/-- A row of digits means what it means. -/
theorem numeral_digits {s : Str} {n : ℕ} (h : s.all (fun c => (place false c).isSome) = true ∧ s ≠ [] ∧ rowValue false s = n) : Numeral s n := by
  have hrow := row_lit h.1
  have h95 : (95 : UInt8) ∉ s := fun e => (place_ne false (hrow _ e)).1 rfl
  have hsig : Signed s false s := by
    refine Or.inr (Or.inr ⟨rfl, rfl, ?_⟩)
    obtain ⟨c, r, rfl⟩ := List.exists_cons_of_ne_nil h.2.1
    have := place_ne false (hrow c (by simp))
    exact ⟨by simpa using this.2.2.2.1, by simpa using this.2.2.1⟩
  refine numeral_plain hsig h95 (List.append_nil s).symm (a := n) ⟨s, [], [], by simp, hrow, row_lit rfl, Or.inl h.2.1, Or.inr ⟨rfl, rfl⟩, ?_⟩ (Or.inl ⟨rfl, rfl⟩)
    (by simp)
  rw [h.2.2]
  simp [pointValue]

/-- The sign, the point and the power of ten; underscores; hexadecimal. -/
example : Numeral (lit "-2.50e+1") (-25) ∧ Numeral (lit "1_000") 1000 ∧ Numeral (lit "0x_1.8p-1") (3 / 4) := by
  refine ⟨?_, ?_, ?_⟩
  · refine numeral_plain (r := lit "2.50e+1") (m := lit "2.50") (x := lit "e+1") (a := 5 / 2) (b := 10) (Or.inl ⟨by decide +kernel, rfl⟩) (by decide +kernel) (by decide +kernel)
      ⟨lit "2", [46], lit "50", by decide +kernel, row_lit (by decide +kernel), row_lit (by decide +kernel), Or.inl (by decide), Or.inl rfl, ?_⟩
      (Or.inr ⟨101, [43], lit "1", by decide +kernel, by decide +kernel, Or.inr (Or.inl rfl), row_lit (by decide +kernel), by decide, ?_⟩) (by norm_num)
    · have h1 : rowValue false (lit "2") = 2 := by decide +kernel
      have h2 : pointValue false (lit "50") = 1 / 2 := by decide +kernel
      rw [h1, h2]; norm_num
    · have h1 : rowValue false (lit "1") = 1 := by decide +kernel
      rw [h1]; norm_num; decide
  · refine ⟨false, lit "1_000", 1000, Or.inr (Or.inr ⟨rfl, rfl, by decide +kernel, by decide +kernel⟩), rfl, Or.inl ⟨?_, ?_⟩⟩
    · rw [separated_false]
      have := (loop_iff false (lit "1_000") 94).mp (by decide +kernel)
      simpa using this.1
    · have e : (lit "1_000").filter (· ≠ 95) = lit "1000" := by decide +kernel
      rw [e]
      refine ⟨lit "1000", [], 1000, 1, by simp, ⟨lit "1000", [], [], by simp, row_lit (by decide +kernel), row_lit rfl, Or.inl (by decide), Or.inr ⟨rfl, rfl⟩, ?_⟩, Or.inl ⟨rfl, rfl⟩, by norm_num⟩
      have h1 : rowValue false (lit "1000") = 1000 := by decide +kernel
      rw [h1]; simp [pointValue]
  · refine ⟨false, lit "0x_1.8p-1", 3 / 4, Or.inr (Or.inr ⟨rfl, rfl, by decide +kernel, by decide +kernel⟩), rfl, Or.inr ⟨?_, ?_⟩⟩
    · have e : lit "0x_1.8p-1" = 48 :: 120 :: lit "_1.8p-1" := by decide +kernel
      rw [e, separated_true (Or.inl rfl)]
      have := (loop_iff true (lit "_1.8p-1") 48).mp (by decide +kernel)
      simpa using this.1
    · refine ⟨120, lit "1.8", lit "p-1", 3 / 2, 1 / 2, by decide +kernel, Or.inl rfl,
        ⟨lit "1", [46], lit "8", by decide +kernel, row_lit (by decide +kernel), row_lit (by decide +kernel), Or.inl (by decide), Or.inl rfl, ?_⟩,
        ⟨112, [45], lit "1", by decide +kernel, by decide +kernel, Or.inr (Or.inr rfl), row_lit (by decide +kernel), by decide, ?_⟩, by norm_num⟩
      · have h1 : rowValue true (lit "1") = 1 := by decide +kernel
        have h2 : pointValue true (lit "8") = 1 / 2 := by decide +kernel
        rw [h1, h2]; norm_num
      · have h1 : rowValue false (lit "1") = 1 := by decide +kernel
        rw [h1]; norm_num

/-- What is not read: quantities, words, underscores out of place, hexadecimal without a power, numbers too large. -/
example : [lit "", lit "500m", lit "1Gi", lit "_1", lit "1__0", lit "0x10", lit "1e309", lit "+nan", lit "1 "].all (fun t => parseFloat64 t = none) = true
    ∧ parseFloat64 (lit "iNf") ≠ none ∧ parseFloat64 (lit "-Infinity") ≠ none ∧ parseFloat64 (lit "NaN") = some .nan := by
  decide +kernel

/-- What the examples run, with `strconv.ParseFloat`. -/
def exSort (hist : List Notice) (p : Paginate) : Option (Option QueryResult) :=
  ((newStore exConf).run exEval hist).bind fun s => (lookup exPods s.data).map fun cm =>
    queryMap (fun _ => true) insertionSort parseFloat64 cm { page := p }

theorem exSort_answers {hist : List Notice} {p : Paginate} {r : Option QueryResult} (hq : exSort hist p = some r) {s : Store}
    (hs : (newStore exConf).run exEval hist = some s) : s.answers (fun _ => true) insertionSort parseFloat64 exPods { page := p } r := by
  unfold exSort at hq
  rw [hs, Option.bind_some, Option.map_eq_some_iff] at hq
  obtain ⟨cm, h1, h2⟩ := hq
  unfold Store.answers
  rw [h1]
  exact ⟨cm, Shuffle.refl cm, h2.symm⟩

/-- As text 10 is before 9; as numbers, 9 is before 10 and 1e3 after it. -/
example : ((exSort (exThree "1e3" "10" "9") { sort := lit "node!int" }).bind id).map (fun r => (r.error, r.items.map Obj.body))
    = some (false, [lit "9", lit "10", lit "1e3"]) := by decide +kernel

/-- The hypotheses of `C114_sorted_partial` are met by three pods with the numbers 30, 4 and 4. -/
example : ClearNumbers (fun _ => true) exEval exConf (exThree "30" "4" "4") exPods { page := { sort := lit "node!int desc, name" } }
      [⟨lit "node", true, true⟩, ⟨lit "name", false, false⟩]
    ∧ ((exSort (exThree "30" "4" "4") { sort := lit "node!int desc, name" }).bind id).map (fun r => (r.error, r.items.map fun o => o.om.map ObjMeta.name))
      = some (false, [some (lit "x"), some (lit "y"), some (lit "z")]) := by
  refine ⟨?_, by decide +kernel⟩
  intro k hk hnum
  refine ⟨Small, Or.inr rfl, ?_⟩
  rintro id o ⟨⟨h₁, n, h₂, heq, hw, _⟩, _⟩
  have hn : n ∈ exThree "30" "4" "4" := by rw [heq]; simp
  simp only [List.mem_cons, List.not_mem_nil, or_false] at hk
  rcases hk with rfl | rfl
  · have hb : o.om.isSome = true ∧ (o.body = lit "30" ∨ o.body = lit "4") := by
      simp only [exThree, List.mem_cons, List.not_mem_nil, or_false] at hn
      rcases hn with rfl | rfl | rfl <;> obtain ⟨rfl, _⟩ := hw
      · exact ⟨rfl, Or.inl rfl⟩
      · exact ⟨rfl, Or.inr rfl⟩
      · exact ⟨rfl, Or.inr rfl⟩
    obtain ⟨m, hm⟩ := Option.isSome_iff_exists.mp hb.1
    have hlk : lookup (lit "node") (confAt exConf exPods) = some (lit "{.spec.nodeName}") := by decide +kernel
    have hev : indexValue exEval o (lit "{.spec.nodeName}") = o.body := by
      unfold indexValue
      rw [if_neg (by decide +kernel), if_neg (by decide +kernel)]
      rfl
    have hv : indexValueOf exEval (confAt exConf exPods) id.cluster o (lit "node") = some o.body := by
      unfold indexValueOf
      simp only [hm, hlk, Option.map_some, hev]
      rw [if_neg (by decide), if_neg (by decide), if_neg (by decide), if_neg (by decide)]
    rcases hb.2 with h | h
    · exact ⟨lit "30", 30, by rw [hv, h], by exact_mod_cast numeral_digits (n := 30) (by decide +kernel), 30, by norm_num, by norm_num⟩
    · exact ⟨lit "4", 4, by rw [hv, h], by exact_mod_cast numeral_digits (n := 4) (by decide +kernel), 4, by norm_num, by norm_num⟩
  · simp at hnum

/-- **C114 is false** for whole numbers above 2^53: 9007199254740993 is put before 9007199254740992. -/
theorem C114_false_long : Numeral (lit "9007199254740993") 9007199254740993 ∧ Numeral (lit "9007199254740992") 9007199254740992
    ∧ ∃ s r, (newStore exConf).run exEval (exThree "9007199254740992" "9007199254740993" "1") = some s
      ∧ s.answers (fun _ => true) insertionSort parseFloat64 exPods { page := { sort := lit "node!int" } } (some r)
      ∧ r.error = false ∧ r.items.map Obj.body = [lit "1", lit "9007199254740993", lit "9007199254740992"] := by
  refine ⟨by exact_mod_cast numeral_digits (n := 9007199254740993) (by decide +kernel), by exact_mod_cast numeral_digits (n := 9007199254740992) (by decide +kernel), ?_⟩
  have hs : ((newStore exConf).run exEval (exThree "9007199254740992" "9007199254740993" "1")).isSome = true := by decide +kernel
  obtain ⟨s, h⟩ := Option.isSome_iff_exists.mp hs
  have h1 : ((exSort (exThree "9007199254740992" "9007199254740993" "1") { sort := lit "node!int" }).bind id).isSome = true := by decide +kernel
  obtain ⟨r₁, h1⟩ := Option.isSome_iff_exists.mp h1
  rw [Option.bind_eq_some_iff] at h1
  obtain ⟨x₁, h1, rfl⟩ := h1
  have hval : ((exSort (exThree "9007199254740992" "9007199254740993" "1") { sort := lit "node!int" }).bind id).map
        (fun r => (r.error, r.items.map Obj.body)) = some (false, [lit "1", lit "9007199254740993", lit "9007199254740992"]) := by decide +kernel
  rw [h1] at hval
  simp only [Option.bind_some, id_eq, Option.map_some, Option.some.injEq, Prod.mk.injEq] at hval
  exact ⟨s, r₁, h, exSort_answers h1 h, hval.1, hval.2⟩

/-- **C114 is false** for numbers beyond the largest `float64`: the query is answered with an error. -/
theorem C114_false_large : ∃ s r, (newStore exConf).run exEval (exThree "1" "1e400" "2") = some s
    ∧ s.answers (fun _ => true) insertionSort parseFloat64 exPods { page := { sort := lit "node!int" } } (some r) ∧ r.error = true := by
  have hs : ((newStore exConf).run exEval (exThree "1" "1e400" "2")).isSome = true := by decide +kernel
  obtain ⟨s, h⟩ := Option.isSome_iff_exists.mp hs
  have h1 : ((exSort (exThree "1" "1e400" "2") { sort := lit "node!int" }).bind id).isSome = true := by decide +kernel
  obtain ⟨r₁, h1⟩ := Option.isSome_iff_exists.mp h1
  rw [Option.bind_eq_some_iff] at h1
  obtain ⟨x₁, h1, rfl⟩ := h1
  have hval : ((exSort (exThree "1" "1e400" "2") { sort := lit "node!int" }).bind id).map QueryResult.error = some true := by decide +kernel
  rw [h1] at hval
  simp only [Option.bind_some, id_eq, Option.map_some, Option.some.injEq] at hval
  exact ⟨s, r₁, h, exSort_answers h1 h, hval⟩

end Ckube

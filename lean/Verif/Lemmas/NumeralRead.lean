import Verif.Lemmas.Double

/-! # `strconv.ParseFloat` on every text -/

namespace Ckube
open Spec

theorem signed_iff {s r : Str} {neg : Bool} : Signed s neg r ↔ r = unsigned s ∧ neg = decide (s.head? = some 45) := by
  unfold Signed unsigned
  cases s with
  | nil => simp
  | cons c t =>
    by_cases h45 : c = 45
    · subst h45; simp; tauto
    · by_cases h43 : c = 43
      · subst h43; simp; tauto
      · simp [h45, h43]; tauto

/-! ## Words -/

theorem sameLetters_iff (s : Str) (word : String) (hw : ∀ w ∈ lit word, w ∈ lit "infityna") : sameLetters s (lit word) = true ↔ SameWord s word := by
  have k : ∀ c : UInt8, ∀ w ∈ lit "infityna", ((if 65 ≤ c ∧ c ≤ 90 then c + 32 else c) = w ↔ c = w ∨ (97 ≤ w ∧ w ≤ 122 ∧ c = w - 32)) :=
    forall_byte (by decide +kernel)
  unfold sameLetters SameWord
  rw [decide_eq_true_eq]
  generalize lit word = l at *
  induction s generalizing l with
  | nil =>
    cases l with
    | nil => simp
    | cons w l => simp
  | cons c s ih =>
    cases l with
    | nil => simp
    | cons w l =>
      simp only [List.map_cons, List.cons.injEq, List.forall₂_cons]
      have h1 := ih l (fun x hx => hw x (List.mem_cons_of_mem _ hx))
      have h2 := k c w (hw w (by simp))
      exact ⟨fun h => ⟨h2.mp h.1, h1.mp h.2⟩, fun h => ⟨h2.mpr h.1, h1.mpr h.2⟩⟩

theorem sameWord_head {s : Str} {word : String} (hw : ∃ w l, lit word = w :: l ∧ (w = 105 ∨ w = 110)) (h : SameWord s word) :
    ∃ c r, s = c :: r ∧ c ≠ 43 ∧ c ≠ 45 ∧ c ≠ 46 ∧ c ≠ 95 ∧ (place false c).isSome = false := by
  obtain ⟨w, l, hl, hw⟩ := hw
  unfold SameWord at h
  rw [hl] at h
  cases h with
  | cons h _ =>
    refine ⟨_, _, rfl, ?_⟩
    rcases hw with rfl | rfl <;> rcases h with rfl | ⟨_, _, rfl⟩ <;> decide

theorem inf_words : (∀ w ∈ lit "inf", w ∈ lit "infityna") ∧ (∀ w ∈ lit "infinity", w ∈ lit "infityna") ∧ (∀ w ∈ lit "nan", w ∈ lit "infityna") := by decide +kernel

theorem word_heads : (∃ w l, lit "inf" = w :: l ∧ (w = 105 ∨ w = 110)) ∧ (∃ w l, lit "infinity" = w :: l ∧ (w = 105 ∨ w = 110))
    ∧ (∃ w l, lit "nan" = w :: l ∧ (w = 105 ∨ w = 110)) :=
  ⟨⟨105, _, rfl, Or.inl rfl⟩, ⟨105, _, rfl, Or.inl rfl⟩, ⟨110, _, rfl, Or.inr rfl⟩⟩

theorem inf_iff (r : Str) : (sameLetters r (lit "inf") || sameLetters r (lit "infinity")) = true ↔ SameWord r "inf" ∨ SameWord r "infinity" := by
  rw [Bool.or_eq_true, sameLetters_iff _ _ inf_words.1, sameLetters_iff _ _ inf_words.2.1]

theorem inf_head {r : Str} (h : SameWord r "inf" ∨ SameWord r "infinity") :
    ∃ c t, r = c :: t ∧ c ≠ 43 ∧ c ≠ 45 ∧ c ≠ 46 ∧ c ≠ 95 ∧ (place false c).isSome = false := by
  rcases h with h | h
  · exact sameWord_head word_heads.1 h
  · exact sameWord_head word_heads.2.1 h

/-- The rank of an infinity. -/
def infRank (neg : Bool) : Int := if neg then -2 ^ 2098 else 2 ^ 2098

theorem nan_not_inf {s : Str} (h : SameWord s "nan") (h' : SameWord s "inf" ∨ SameWord s "infinity") : False := by
  unfold SameWord at h h'
  have e1 : lit "nan" = 110 :: lit "an" := rfl
  have e2 : lit "inf" = 105 :: lit "nf" := rfl
  have e3 : lit "infinity" = 105 :: lit "nfinity" := rfl
  rw [e1] at h
  rw [e2, e3] at h'
  cases h with
  | cons h _ =>
    have : ∀ c : UInt8, (c = 110 ∨ (97 ≤ (110 : UInt8) ∧ (110 : UInt8) ≤ 122 ∧ c = 110 - 32)) → ¬ (c = 105 ∨ (97 ≤ (105 : UInt8) ∧ (105 : UInt8) ≤ 122 ∧ c = 105 - 32)) := by
      rintro c (rfl | ⟨_, _, rfl⟩) <;> decide
    rcases h' with h' | h' <;> cases h' with
    | cons h' _ => exact this _ h h'

theorem special_iff (s : Str) (x : GoFloat) : specialFloat s = some x ↔
    (x = .nan ∧ SameWord s "nan") ∨ ∃ neg, InfinityText neg s ∧ x = .num (infRank neg) := by
  have hnan := sameLetters_iff s "nan" inf_words.2.2
  cases s with
  | nil =>
    constructor
    · intro h; cases h
    · rintro (⟨_, h⟩ | ⟨neg, ⟨r, hs, hr⟩, _⟩)
      · obtain ⟨c, r, h, _⟩ := sameWord_head word_heads.2.2 h; cases h
      · obtain ⟨c, t, rfl, _⟩ := inf_head hr
        rcases hs with ⟨h, _⟩ | ⟨h, _⟩ | ⟨h, _⟩ <;> cases h
  | cons c r =>
    have hsig : ∀ neg, InfinityText neg (c :: r) ↔ neg = decide (c = 45) ∧ (SameWord (unsigned (c :: r)) "inf" ∨ SameWord (unsigned (c :: r)) "infinity") := by
      intro neg
      unfold InfinityText
      constructor
      · rintro ⟨t, hs, ht⟩
        obtain ⟨rfl, hn⟩ := signed_iff.mp hs
        exact ⟨by simpa using hn, ht⟩
      · rintro ⟨hn, ht⟩
        exact ⟨_, signed_iff.mpr ⟨rfl, by simpa using hn⟩, ht⟩
    simp only [hsig]
    have hnans : c = 43 ∨ c = 45 → ¬ SameWord (c :: r) "nan" := by
      intro hc h
      obtain ⟨d, t, e, h1, h2, _⟩ := sameWord_head word_heads.2.2 h
      simp only [List.cons.injEq] at e
      rcases hc with rfl | rfl
      · exact h1 e.1.symm
      · exact h2 e.1.symm
    unfold specialFloat
    simp only
    by_cases h43 : c = 43
    · have hu : unsigned (c :: r) = r := by simp [unsigned, h43]
      rw [if_pos h43, hu]
      by_cases hi : (sameLetters r (lit "inf") || sameLetters r (lit "infinity")) = true
      · rw [if_pos hi]
        have hi' := (inf_iff r).mp hi
        constructor
        · intro h
          cases h
          exact Or.inr ⟨false, ⟨by simp [h43], hi'⟩, rfl⟩
        · rintro (⟨_, h⟩ | ⟨neg, ⟨h1, _⟩, rfl⟩)
          · exact absurd h (hnans (Or.inl h43))
          · rw [h1, h43]; rfl
      · rw [if_neg hi]
        constructor
        · intro h; cases h
        · rintro (⟨_, h⟩ | ⟨neg, ⟨_, h⟩, _⟩)
          · exact absurd h (hnans (Or.inl h43))
          · exact absurd ((inf_iff r).mpr h) hi
    · rw [if_neg h43]
      by_cases h45 : c = 45
      · have hu : unsigned (c :: r) = r := by simp [unsigned, h45]
        rw [if_pos h45, hu]
        by_cases hi : (sameLetters r (lit "inf") || sameLetters r (lit "infinity")) = true
        · rw [if_pos hi]
          have hi' := (inf_iff r).mp hi
          constructor
          · intro h
            cases h
            exact Or.inr ⟨true, ⟨by simp [h45], hi'⟩, rfl⟩
          · rintro (⟨_, h⟩ | ⟨neg, ⟨h1, _⟩, rfl⟩)
            · exact absurd h (hnans (Or.inr h45))
            · rw [h1, h45]; rfl
        · rw [if_neg hi]
          constructor
          · intro h; cases h
          · rintro (⟨_, h⟩ | ⟨neg, ⟨_, h⟩, _⟩)
            · exact absurd h (hnans (Or.inr h45))
            · exact absurd ((inf_iff r).mpr h) hi
      · have hu : unsigned (c :: r) = c :: r := by simp [unsigned, h43, h45]
        rw [if_neg h45, hu]
        by_cases hi : (sameLetters (c :: r) (lit "inf") || sameLetters (c :: r) (lit "infinity")) = true
        · rw [if_pos hi]
          have hi' := (inf_iff (c :: r)).mp hi
          constructor
          · intro h
            cases h
            exact Or.inr ⟨false, ⟨by simp [h45], hi'⟩, rfl⟩
          · rintro (⟨_, h⟩ | ⟨neg, ⟨h1, _⟩, rfl⟩)
            · exact (nan_not_inf h hi').elim
            · rw [h1, decide_eq_false h45]; rfl
        · rw [if_neg hi]
          by_cases hn : sameLetters (c :: r) (lit "nan") = true
          · rw [if_pos hn]
            constructor
            · intro h; cases h; exact Or.inl ⟨rfl, hnan.mp hn⟩
            · rintro (⟨rfl, _⟩ | ⟨neg, ⟨_, h⟩, _⟩)
              · rfl
              · exact absurd ((inf_iff _).mpr h) hi
          · rw [if_neg hn]
            constructor
            · intro h; cases h
            · rintro (⟨_, h⟩ | ⟨neg, ⟨_, h⟩, _⟩)
              · exact absurd (hnan.mpr h) hn
              · exact absurd ((inf_iff _).mpr h) hi

/-! ## Numerals -/

theorem mantissa_head {hex : Bool} {m : Str} {a : ℚ} (h : Mantissa hex m a) : ∃ c r, m = c :: r ∧ ((place hex c).isSome = true ∨ c = 46) := by
  obtain ⟨ip, pt, fp, rfl, hip, hfp, hne, hpt, _⟩ := h
  cases ip with
  | cons c r => exact ⟨c, r ++ pt ++ fp, rfl, Or.inl (hip c (by simp))⟩
  | nil =>
    rcases hpt with rfl | ⟨rfl, rfl⟩
    · exact ⟨46, fp, rfl, Or.inr rfl⟩
    · simp at hne

theorem decimal_not_hex {s : Str} {w : ℚ} (h : DecimalText s w) : hexPrefix s = false := by
  obtain ⟨m, x, a, b, rfl, ⟨ip, pt, fp, rfl, hip, hfp, hne, hpt, rfl⟩, hx, rfl⟩ := h
  refine not_hex hip hfp hpt ?_ rfl
  rcases hx with ⟨rfl, _⟩ | ⟨c, sg, ds, rfl, hc, _⟩
  · exact Or.inl rfl
  · exact Or.inr ⟨c, sg ++ ds, rfl, (letter_iff c).1.mpr hc⟩

theorem decimal_prefix {r : Str} {w : ℚ} (hs : Separated false r) (h : DecimalText (plain r) w) : hexPrefix r = false := by
  have h1 := decimal_not_hex h
  rw [← Bool.not_eq_true, hexPrefix_iff] at h1 ⊢
  rintro ⟨x, c, t, rfl, hx⟩
  have hx95 : x ≠ 95 := by rcases hx with rfl | rfl <;> decide
  have hc : c ≠ 95 := by
    rintro rfl
    obtain ⟨h2, _⟩ := hs [48, x] t rfl
    rcases h2 with ⟨p, d, e, hd⟩ | ⟨e, _⟩
    · have hd' : d = x := by
        have := congrArg List.getLast? e
        simpa using this.symm
      rw [hd'] at hd
      rcases hx with rfl | rfl <;> revert hd <;> decide
    · cases e
  exact h1 ⟨x, c, plain t, by rw [plain_cons (by decide), plain_cons hx95, plain_cons hc], hx⟩

theorem hex_prefix {r : Str} {w : ℚ} (hs : Separated true r) (h : HexText (plain r) w) : hexPrefix r = true := by
  obtain ⟨x, m, y, a, b, he, hx, hm, _⟩ := h
  obtain ⟨c, m', rfl, hc⟩ := mantissa_head hm
  have hxp : (place true x).isSome = false := by rcases hx with rfl | rfl <;> decide
  match r, he with
  | [], he => simp [plain] at he
  | a :: r, he =>
    have ha : a ≠ 95 := by
      rintro rfl
      obtain ⟨h1, _⟩ := hs [] r rfl
      rcases h1 with ⟨p, d, e, _⟩ | ⟨_, e⟩
      · simp at e
      · simp at e
    rw [plain_cons ha] at he
    simp only [List.cons_append, List.cons.injEq] at he
    obtain ⟨rfl, he⟩ := he
    cases r with
    | nil => simp [plain] at he
    | cons b r =>
      by_cases hb : b = 95
      · subst hb
        obtain ⟨_, d, p, h2, hd⟩ := hs [48] r rfl
        rw [plain_under, h2, plain_cons (place_ne true hd).1] at he
        simp only [List.cons.injEq] at he
        rw [he.1, hxp] at hd; cases hd
      · rw [plain_cons hb] at he
        simp only [List.cons.injEq] at he
        obtain ⟨rfl, he⟩ := he
        cases r with
        | nil => simp [plain] at he
        | cons d r => exact hexPrefix_iff.mpr ⟨b, d, r, rfl, hx⟩

theorem number_head {r : Str} {w : ℚ} (h : (Separated false r ∧ DecimalText (plain r) w) ∨ (Separated true r ∧ HexText (plain r) w)) :
    ∃ c t, r = c :: t ∧ ((place false c).isSome = true ∨ c = 46) := by
  have h0 : ∃ hex, Separated hex r := by
    rcases h with ⟨h, _⟩ | ⟨h, _⟩
    · exact ⟨_, h⟩
    · exact ⟨_, h⟩
  obtain ⟨hex, h0⟩ := h0
  have hp : ∃ c t, plain r = c :: t ∧ ((place false c).isSome = true ∨ c = 46) := by
    rcases h with ⟨_, m, x, a, b, h1, hm, _⟩ | ⟨_, x, m, y, a, b, h1, _⟩
    · obtain ⟨c, t, rfl, hc⟩ := mantissa_head hm
      exact ⟨c, t ++ x, h1, hc⟩
    · exact ⟨48, _, h1, Or.inl (by decide)⟩
  obtain ⟨c, t, hc, hcd⟩ := hp
  cases r with
  | nil => simp [plain] at hc
  | cons a r =>
    have ha : a ≠ 95 := by
      rintro rfl
      obtain ⟨h1, _⟩ := h0 [] r rfl
      rcases h1 with ⟨p, d, e, _⟩ | ⟨_, e⟩
      · simp at e
      · simp at e
    rw [plain_cons ha] at hc
    simp only [List.cons.injEq] at hc
    exact ⟨a, r, rfl, hc.1 ▸ hcd⟩

theorem head_not_special {s : Str} {c : UInt8} {t : Str} (hu : unsigned s = c :: t) (hc : (place false c).isSome = true ∨ c = 46) : specialFloat s = none := by
  rw [← Option.not_isSome_iff_eq_none]
  intro hsome
  obtain ⟨x, hx⟩ := Option.isSome_iff_exists.mp hsome
  have hh : ∀ {r : Str}, (∃ d t, r = d :: t ∧ d ≠ 43 ∧ d ≠ 45 ∧ d ≠ 46 ∧ d ≠ 95 ∧ (place false d).isSome = false) → r = c :: t → False := by
    rintro _ ⟨d, t', rfl, _, _, h46, _, hd⟩ e
    simp only [List.cons.injEq] at e
    rw [e.1] at h46 hd
    rcases hc with hc | hc
    · rw [hd] at hc; cases hc
    · exact h46 hc
  rcases (special_iff s x).mp hx with ⟨_, h⟩ | ⟨neg, ⟨r, hs, hr⟩, _⟩
  · have h1 := sameWord_head word_heads.2.2 h
    obtain ⟨d, t', rfl, h43, h45, _⟩ := id h1
    have : unsigned (d :: t') = d :: t' := by simp [unsigned, h43, h45]
    rw [this] at hu
    exact hh h1 hu
  · obtain ⟨rfl, _⟩ := signed_iff.mp hs
    exact hh (inf_head hr) hu

theorem mem_unsigned {s : Str} : (95 : UInt8) ∈ s ↔ (95 : UInt8) ∈ unsigned s := by
  unfold unsigned
  cases s with
  | nil => simp
  | cons c r =>
    simp only [List.head?_cons, Option.some.injEq, List.drop_succ_cons, List.drop_zero]
    split
    · rename_i h
      rw [List.mem_cons]
      constructor
      · rintro (h' | h')
        · rcases h with rfl | rfl <;> exact absurd h' (by decide)
        · exact h'
      · exact Or.inr
    · exact Iff.rfl

theorem parse_read {s : Str} (h : specialFloat s = none) :
    (parseFloat64 s = none ∧ ((95 : UInt8) ∈ s ∧ floatSepOK s = false)) ∨
    (¬ ((95 : UInt8) ∈ s ∧ floatSepOK s = false)
      ∧ parseFloat64 s = (readUnsigned (unsigned s)).map fun f => .num (floatRank (s.head? = some 45) f)) := by
  unfold parseFloat64
  rw [h]
  simp only
  by_cases hu : (95 : UInt8) ∈ s ∧ floatSepOK s = false
  · exact Or.inl ⟨by rw [if_pos hu], hu⟩
  · exact Or.inr ⟨hu, by rw [if_neg hu]⟩

/-- How a numeral is read. -/
theorem numeral_read {s : Str} {v : ℚ} (h : Numeral s v) : ∃ (neg : Bool) (w : ℚ) (m : ℕ) (e : ℤ), v = (if neg then -1 else 1) * w ∧ 0 ≤ w
    ∧ IsFloat m e ∧ InRange m e w ∧ parseFloat64 s = if 971 < e then none else some (.num (floatRank neg (m, e))) := by
  obtain ⟨neg, r, w, hs, rfl, hd⟩ := h
  obtain ⟨rfl, hneg⟩ := signed_iff.mp hs
  have hd : (Separated false (unsigned s) ∧ DecimalText (plain (unsigned s)) w) ∨ (Separated true (unsigned s) ∧ HexText (plain (unsigned s)) w) := hd
  obtain ⟨c, t, hu, hc⟩ := number_head hd
  have hsp := head_not_special hu hc
  have hsep : if hexPrefix (unsigned s) then Separated true (unsigned s) else Separated false (unsigned s) := by
    rcases hd with ⟨h1, h2⟩ | ⟨h1, h2⟩
    · rw [decimal_prefix h1 h2]; exact h1
    · rw [hex_prefix h1 h2]; exact h1
  have hread : ∃ m e, IsFloat m e ∧ InRange m e w ∧ readUnsigned (plain (unsigned s)) = (if 971 < e then none else some (m, e)) ∧ 0 ≤ w := by
    rcases hd with ⟨_, h2⟩ | ⟨_, h2⟩
    · obtain ⟨c, t, rfl, hr⟩ := decimal_read h2
      obtain ⟨m, e, h1, h2, h3⟩ := literalFloat_spec c t
      exact ⟨m, e, h1, h2, by rw [hr, h3], by positivity⟩
    · obtain ⟨c, t, rfl, hr⟩ := hex_read h2
      obtain ⟨m, e, h1, h2, h3⟩ := binaryFloat_spec c t
      exact ⟨m, e, h1, h2, by rw [hr, h3], by positivity⟩
  obtain ⟨m, e, h1, h2, h3, h4⟩ := hread
  rw [readUnsigned_plain hsep] at h3
  refine ⟨neg, w, m, e, by cases neg <;> simp, h4, h1, h2, ?_⟩
  rcases parse_read hsp with ⟨p1, p2⟩ | ⟨_, p2⟩
  · rw [p1]
    by_cases he : 971 < e
    · rw [if_pos he]
    · exfalso
      rw [if_neg he] at h3
      have := (under_iff (mem_unsigned.mp p2.1) (by rw [h3]; simp)).mpr hsep
      rw [p2.2] at this; cases this
  · rw [p2, h3, hneg]
    split <;> rfl

/-- What is read is an infinity, NaN, or a numeral. -/
theorem read_numeral {s : Str} {x : GoFloat} (h : parseFloat64 s = some x) (hsp : specialFloat s = none) : ∃ v, Numeral s v := by
  rcases parse_read hsp with ⟨p1, _⟩ | ⟨p1, p2⟩
  · rw [p1] at h; cases h
  · rw [p2] at h
    have hne : readUnsigned (unsigned s) ≠ none := by intro e; rw [e] at h; cases h
    have hsep : if hexPrefix (unsigned s) then Separated true (unsigned s) else Separated false (unsigned s) := by
      by_cases hm : (95 : UInt8) ∈ unsigned s
      · apply (under_iff hm hne).mp
        by_contra hf
        exact p1 ⟨mem_unsigned.mpr hm, by simpa using hf⟩
      · split <;> exact separated_free hm
    rw [← readUnsigned_plain hsep] at hne
    have hcase := read_text (plain_not_mem _) hne
    have hpp := hexPrefix_plain hsep
    rcases hcase with ⟨w, hw⟩ | ⟨w, hw⟩
    · rw [decimal_not_hex hw] at hpp
      rw [← hpp] at hsep
      exact ⟨_, _, unsigned s, w, signed_iff.mpr ⟨rfl, rfl⟩, rfl, Or.inl ⟨hsep, hw⟩⟩
    · have : hexPrefix (plain (unsigned s)) = true := by
        refine hex_prefix (separated_free (plain_not_mem _)) (w := w) ?_
        rwa [plain_of_not_mem (plain_not_mem _)]
      rw [this] at hpp
      rw [← hpp] at hsep
      exact ⟨_, _, unsigned s, w, signed_iff.mpr ⟨rfl, rfl⟩, rfl, Or.inr ⟨hsep, hw⟩⟩

end Ckube

import Verif.Lemmas.Numeral

/-! # Underscores in the texts that mean numbers -/

namespace Ckube
open Spec

/-- Underscores are between digits; `saw`: what is before the text counts as a digit. -/
def Between (hex saw : Bool) (s : Str) : Prop :=
  ∀ pre post, s = pre ++ 95 :: post →
    ((pre = [] ∧ saw = true) ∨ ∃ p c, pre = p ++ [c] ∧ (place hex c).isSome = true)
      ∧ ∃ c p, post = c :: p ∧ (place hex c).isSome = true

theorem place_95 (hex : Bool) : (place hex 95).isSome = false := by cases hex <;> decide

theorem between_cons {hex saw : Bool} {c : UInt8} {r : Str} (hc : c ≠ 95) :
    Between hex saw (c :: r) ↔ Between hex (place hex c).isSome r := by
  constructor
  · intro h pre post e
    obtain ⟨h1, h2⟩ := h (c :: pre) post (by rw [e]; rfl)
    refine ⟨?_, h2⟩
    rcases h1 with ⟨h1, _⟩ | ⟨p, d, h1, hd⟩
    · cases h1
    · cases p with
      | nil =>
        simp only [List.nil_append, List.cons.injEq] at h1
        exact Or.inl ⟨h1.2, h1.1 ▸ hd⟩
      | cons a p =>
        simp only [List.cons_append, List.cons.injEq] at h1
        exact Or.inr ⟨p, d, h1.2, hd⟩
  · intro h pre post e
    cases pre with
    | nil => simp only [List.nil_append, List.cons.injEq] at e; exact absurd e.1 hc
    | cons a pre =>
      simp only [List.cons_append, List.cons.injEq] at e
      obtain ⟨rfl, e⟩ := e
      obtain ⟨h1, h2⟩ := h pre post e
      refine ⟨Or.inr ?_, h2⟩
      rcases h1 with ⟨rfl, h1⟩ | ⟨p, d, rfl, hd⟩
      · exact ⟨[], c, rfl, h1⟩
      · exact ⟨c :: p, d, rfl, hd⟩

theorem between_under {hex saw : Bool} {r : Str} :
    Between hex saw (95 :: r) ↔ saw = true ∧ Between hex false r ∧ ∃ c p, r = c :: p ∧ (place hex c).isSome = true := by
  constructor
  · intro h
    obtain ⟨h1, h2⟩ := h [] r rfl
    refine ⟨?_, ?_, h2⟩
    · rcases h1 with ⟨_, h1⟩ | ⟨p, c, h1, _⟩
      · exact h1
      · simp at h1
    · intro pre post e
      obtain ⟨h3, h4⟩ := h (95 :: pre) post (by rw [e]; rfl)
      refine ⟨?_, h4⟩
      rcases h3 with ⟨h3, _⟩ | ⟨p, d, h3, hd⟩
      · cases h3
      · cases p with
        | nil =>
          simp only [List.nil_append, List.cons.injEq] at h3
          rw [← h3.1, place_95] at hd; cases hd
        | cons a p =>
          simp only [List.cons_append, List.cons.injEq] at h3
          exact Or.inr ⟨p, d, h3.2, hd⟩
  · rintro ⟨hs, hb, hd⟩ pre post e
    cases pre with
    | nil =>
      simp only [List.nil_append, List.cons.injEq, true_and] at e
      exact ⟨Or.inl ⟨rfl, hs⟩, e ▸ hd⟩
    | cons a pre =>
      simp only [List.cons_append, List.cons.injEq] at e
      obtain ⟨rfl, e⟩ := e
      obtain ⟨h1, h2⟩ := hb pre post e
      refine ⟨Or.inr ?_, h2⟩
      rcases h1 with ⟨_, h1⟩ | ⟨p, d, rfl, hd⟩
      · cases h1
      · exact ⟨95 :: p, d, rfl, hd⟩

theorem loop_iff (hex : Bool) : ∀ (s : Str) (saw : UInt8), floatSepLoop hex saw s = true ↔
    Between hex (decide (saw = 48)) s ∧ (saw = 95 → ∃ c p, s = c :: p ∧ (place hex c).isSome = true) := by
  intro s
  induction s with
  | nil =>
    intro saw
    simp only [floatSepLoop, decide_eq_true_eq]
    constructor
    · intro h
      refine ⟨?_, fun e => absurd e h⟩
      intro pre post e
      simp at e
    · rintro ⟨_, h⟩ e
      obtain ⟨c, p, h, _⟩ := h e
      cases h
  | cons c r ih =>
    intro saw
    rw [floatSepLoop, floatDigit_place]
    by_cases hd : (place hex c).isSome = true
    · rw [if_pos hd, ih, between_cons (place_ne hex hd).1, hd]
      simp [hd]
    · rw [if_neg hd]
      simp only [Bool.not_eq_true] at hd
      by_cases hc : c = 95
      · subst hc
        rw [if_pos rfl, between_under]
        by_cases hs : saw = 48
        · rw [if_neg (by simp [hs]), ih]
          simp [hs]
        · rw [if_pos hs]
          simp [hs]
      · rw [if_neg hc, between_cons hc, hd]
        by_cases hs : saw = 95
        · rw [if_pos hs]
          simp only [Bool.false_eq_true, List.cons.injEq, false_iff, not_and, not_forall]
          intro _
          refine ⟨hs, ?_⟩
          rintro ⟨c', p, ⟨rfl, rfl⟩, h⟩
          rw [hd] at h; cases h
        · rw [if_neg hs, ih]
          simp [hs]

theorem separated_false {r : Str} : Separated false r ↔ Between false false r := by
  unfold Separated Between
  simp

theorem separated_true {h : UInt8} {r : Str} (hh : h = 120 ∨ h = 88) : Separated true (48 :: h :: r) ↔ Between true true r := by
  have hh95 : h ≠ 95 := by rcases hh with rfl | rfl <;> decide
  have hhp : (place true h).isSome = false := by rcases hh with rfl | rfl <;> decide
  constructor
  · intro hs pre post e
    obtain ⟨h1, h2⟩ := hs (48 :: h :: pre) post (by rw [e]; rfl)
    refine ⟨?_, h2⟩
    rcases h1 with ⟨p, c, h1, hc⟩ | ⟨_, h1⟩
    · match p, h1 with
      | [], h1 => simp at h1
      | [a], h1 =>
        simp only [List.cons_append, List.nil_append, List.cons.injEq] at h1
        rw [← h1.2.1, hhp] at hc; cases hc
      | a :: b :: p, h1 =>
        simp only [List.cons_append, List.cons.injEq] at h1
        exact Or.inr ⟨p, c, h1.2.2, hc⟩
    · left
      simp only [List.length_cons] at h1
      exact ⟨List.eq_nil_of_length_eq_zero (by omega), rfl⟩
  · intro hs pre post e
    match pre, e with
    | [], e => simp only [List.nil_append, List.cons.injEq] at e; exact absurd e.1 (by decide)
    | [a], e => simp only [List.cons_append, List.nil_append, List.cons.injEq] at e; exact absurd e.2.1 hh95
    | a :: b :: pre, e =>
      simp only [List.cons_append, List.cons.injEq] at e
      obtain ⟨h1, h2⟩ := hs pre post e.2.2
      refine ⟨?_, h2⟩
      rcases h1 with ⟨rfl, _⟩ | ⟨p, c, rfl, hc⟩
      · exact Or.inr ⟨rfl, rfl⟩
      · exact Or.inl ⟨a :: b :: p, c, rfl, hc⟩

theorem separated_free {hex : Bool} {r : Str} (h : (95 : UInt8) ∉ r) : Separated hex r := by
  intro pre post e
  exact absurd (by rw [e]; simp) h

/-! ## Leaving the underscores out -/

/-- Without its underscores. -/
def plain (s : Str) : Str := s.filter (· ≠ 95)

theorem plain_cons {c : UInt8} {r : Str} (h : c ≠ 95) : plain (c :: r) = c :: plain r := by simp [plain, h]

theorem plain_under {r : Str} : plain (95 :: r) = plain r := by simp [plain]

theorem plain_not_mem (s : Str) : (95 : UInt8) ∉ plain s := by simp [plain]

theorem plain_of_not_mem {s : Str} (h : (95 : UInt8) ∉ s) : plain s = s := by
  unfold plain
  rw [List.filter_eq_self]
  intro c hc
  simpa using fun e : c = 95 => h (e ▸ hc)

theorem scan_plain (hex : Bool) : ∀ (s : Str) (dot : Bool),
    scanMan hex dot (plain s) = ((scanMan hex dot s).1, (scanMan hex dot s).2.1, plain (scanMan hex dot s).2.2) := by
  intro s
  induction s with
  | nil => intro dot; rfl
  | cons c r ih =>
    intro dot
    by_cases hc : c = 95
    · rw [hc, plain_under, ih dot]
      rw [scanMan, if_pos rfl]
    · rw [plain_cons hc, scanMan, scanMan, if_neg hc, if_neg hc]
      by_cases h46 : c = 46
      · rw [if_pos h46, if_pos h46]
        cases dot
        · simp only [Bool.false_eq_true, if_false]; exact ih true
        · simp only [if_true]; rw [plain_cons hc]
      · rw [if_neg h46, if_neg h46]
        cases floatDigit hex c with
        | none => simp only; rw [plain_cons hc]
        | some d => simp only; rw [ih dot]

theorem scan_suffix (hex : Bool) : ∀ (s : Str) (dot : Bool), ∃ pre, s = pre ++ (scanMan hex dot s).2.2 ∧ (scanMan hex dot s).2.2.head? ≠ some 95 := by
  intro s
  induction s with
  | nil => intro dot; exact ⟨[], rfl, by simp [scanMan]⟩
  | cons c r ih =>
    intro dot
    rw [scanMan]
    by_cases hc : c = 95
    · rw [if_pos hc]
      obtain ⟨pre, h1, h2⟩ := ih dot
      exact ⟨c :: pre, by rw [List.cons_append, ← h1], h2⟩
    · rw [if_neg hc]
      by_cases h46 : c = 46
      · rw [if_pos h46]
        cases dot
        · obtain ⟨pre, h1, h2⟩ := ih true
          simp only [Bool.false_eq_true, if_false]
          exact ⟨c :: pre, by rw [List.cons_append, ← h1], h2⟩
        · exact ⟨[], rfl, by simpa using hc⟩
      · rw [if_neg h46]
        cases floatDigit hex c with
        | none => exact ⟨[], rfl, by simpa using hc⟩
        | some d =>
          obtain ⟨pre, h1, h2⟩ := ih dot
          exact ⟨c :: pre, by simp only [List.cons_append]; rw [← h1], h2⟩

theorem scanExp_plain {s : Str} (h0 : s.head? ≠ some 95) (h1 : ∀ c r, s = c :: r → (c = 43 ∨ c = 45) → r.head? ≠ some 95) :
    scanExp (plain s) = scanExp s := by
  have core : ∀ ds : Str, ds.head? ≠ some 95 →
      (match plain ds with
        | [] => none
        | c :: _ => if isDigit c && (plain ds).all (fun c => isDigit c || c = 95) then some (digitsVal ((plain ds).filter (· ≠ 95))) else none)
      = (match ds with
        | [] => none
        | c :: _ => if isDigit c && ds.all (fun c => isDigit c || c = 95) then some (digitsVal (ds.filter (· ≠ 95))) else none) := by
    intro ds h
    cases ds with
    | nil => rfl
    | cons c r =>
      have hc : c ≠ 95 := by simpa using h
      have e1 : (plain (c :: r)).filter (· ≠ 95) = (c :: r).filter (· ≠ 95) := by simp [plain]
      have e2 : (plain (c :: r)).all (fun c => isDigit c || c = 95) = (c :: r).all (fun c => isDigit c || c = 95) := by
        rw [Bool.eq_iff_iff, List.all_eq_true, List.all_eq_true]
        constructor
        · intro h x hx
          by_cases hx95 : x = 95
          · simp [hx95]
          · exact h x (by simpa [plain, hx95] using hx)
        · intro h x hx
          exact h x (by simp only [plain, List.mem_filter] at hx; exact hx.1)
      rw [e1, e2, plain_cons hc]
  have expand : ∀ (s : Str), scanExp s = (match (if s.head? = some 43 ∨ s.head? = some 45 then s.drop 1 else s) with
        | [] => none
        | c :: _ => if isDigit c && (if s.head? = some 43 ∨ s.head? = some 45 then s.drop 1 else s).all (fun c => isDigit c || c = 95) then
            some (digitsVal ((if s.head? = some 43 ∨ s.head? = some 45 then s.drop 1 else s).filter (· ≠ 95))) else none).map
        (fun n : ℕ => if s.head? = some 45 then -(n : ℤ) else n) := by
    intro s
    unfold scanExp
    simp only
    generalize (if s.head? = some 43 ∨ s.head? = some 45 then s.drop 1 else s) = ds
    cases ds with
    | nil => rfl
    | cons c r => simp only; split <;> simp
  rw [expand, expand]
  cases s with
  | nil => rfl
  | cons c r =>
    have hc : c ≠ 95 := by simpa using h0
    rw [plain_cons hc]
    simp only [List.head?_cons]
    congr 1
    by_cases hs : some c = some (43 : UInt8) ∨ some c = some (45 : UInt8)
    · simp only [hs, if_true, List.drop_succ_cons, List.drop_zero]
      exact core r (h1 c r rfl (by simpa using hs))
    · simp only [hs, if_false]
      have := core (c :: r) h0
      rw [plain_cons hc] at this
      exact this

theorem between_after {hex saw : Bool} {pre r : Str} {c : UInt8} (h : Between hex saw (pre ++ c :: r)) (hc : (place hex c).isSome = false) :
    r.head? ≠ some 95 := by
  intro e
  cases r with
  | nil => simp at e
  | cons d r =>
    simp only [List.head?_cons, Option.some.injEq] at e
    subst e
    obtain ⟨h1, _⟩ := h (pre ++ [c]) r (by simp)
    rcases h1 with ⟨h1, _⟩ | ⟨p, d, h1, hd⟩
    · simp at h1
    · rw [List.append_singleton_inj] at h1
      rw [← h1.2, hc] at hd; cases hd

theorem readPower_plain {hex saw : Bool} {s : Str} (h : Between hex saw s) :
    readPower hex (plain (scanMan hex false s).2.2) = readPower hex (scanMan hex false s).2.2 := by
  obtain ⟨pre, h1, h2⟩ := scan_suffix hex s false
  generalize (scanMan hex false s).2.2 = x at *
  cases x with
  | nil => rfl
  | cons c r =>
    have hc : c ≠ 95 := by simpa using h2
    rw [plain_cons hc]
    simp only [readPower]
    by_cases hl : floatLower c = if hex then 112 else 101
    · rw [if_pos hl, if_pos hl]
      have hp := (letter_stops hex hl).1
      rw [h1] at h
      apply scanExp_plain (between_after h hp)
      rintro d r' rfl hd
      have hd' : (place hex d).isSome = false := by
        rcases hd with rfl | rfl <;> cases hex <;> decide
      have h' : Between hex saw ((pre ++ [c]) ++ d :: r') := by simpa using h
      exact between_after h' hd'
    · rw [if_neg hl, if_neg hl]

theorem hexPrefix_plain {r : Str} (h : if hexPrefix r then Separated true r else Separated false r) : hexPrefix (plain r) = hexPrefix r := by
  by_cases hp : hexPrefix r = true
  · rw [if_pos hp] at h
    rw [hp]
    obtain ⟨x, c, t, rfl, hx⟩ := hexPrefix_iff.mp hp
    have hx95 : x ≠ 95 := by rcases hx with rfl | rfl <;> decide
    rw [separated_true hx] at h
    rw [plain_cons (by decide), plain_cons hx95, hexPrefix_iff]
    by_cases hc : c = 95
    · subst hc
      obtain ⟨_, d, p, h2, hd⟩ := h [] t rfl
      refine ⟨x, d, plain p, ?_, hx⟩
      rw [plain_under, h2, plain_cons (place_ne true hd).1]
    · exact ⟨x, c, plain t, by rw [plain_cons hc], hx⟩
  · rw [if_neg hp] at h
    rw [Bool.not_eq_true] at hp
    rw [hp, ← Bool.not_eq_true, hexPrefix_iff]
    rintro ⟨x, c, t, he, hx⟩
    rw [separated_false] at h
    match r, he with
    | [], he => cases he
    | a :: r, he =>
      have ha : a ≠ 95 := by
        rintro rfl
        have := (between_under.mp h).1
        cases this
      rw [plain_cons ha] at he
      simp only [List.cons.injEq] at he
      obtain ⟨rfl, he⟩ := he
      match r, he with
      | [], he => simp [plain] at he
      | b :: r, he =>
        by_cases hb : b = 95
        · subst hb
          obtain ⟨_, d, p, h2, hd⟩ := h [48] r rfl
          rw [plain_under, h2, plain_cons (place_ne false hd).1] at he
          simp only [List.cons.injEq] at he
          rw [he.1] at hd
          rcases hx with rfl | rfl <;> revert hd <;> decide
        · rw [plain_cons hb] at he
          simp only [List.cons.injEq] at he
          obtain ⟨rfl, he⟩ := he
          cases r with
          | nil => cases he
          | cons d r =>
            rw [← Bool.not_eq_true, hexPrefix_iff] at hp
            exact hp ⟨b, d, r, rfl, hx⟩

/-- Underscores in their places change nothing. -/
theorem readUnsigned_plain {r : Str} (h : if hexPrefix r then Separated true r else Separated false r) : readUnsigned (plain r) = readUnsigned r := by
  unfold readUnsigned
  rw [hexPrefix_plain h]
  by_cases hp : hexPrefix r = true
  · rw [if_pos hp] at h
    obtain ⟨x, c, t, rfl, hx⟩ := hexPrefix_iff.mp hp
    have hx95 : x ≠ 95 := by rcases hx with rfl | rfl <;> decide
    rw [separated_true hx] at h
    simp only [hp, if_true]
    rw [plain_cons (by decide), plain_cons hx95]
    simp only [List.drop_succ_cons, List.drop_zero]
    rw [scan_plain]
    simp only
    rw [readPower_plain h]
  · rw [if_neg hp] at h
    rw [separated_false] at h
    simp only [hp, Bool.false_eq_true, if_false]
    rw [scan_plain]
    simp only
    rw [readPower_plain h]

/-- What `floatSepOK` accepts, of the texts that are read. -/
theorem under_iff {s : Str} (h : (95 : UInt8) ∈ unsigned s) (hr : readUnsigned (unsigned s) ≠ none) :
    floatSepOK s = true ↔ if hexPrefix (unsigned s) then Separated true (unsigned s) else Separated false (unsigned s) := by
  unfold floatSepOK
  generalize unsigned s = r at *
  match r, h, hr with
  | [a], h, hr =>
    have h0 : hexPrefix [a] = false := rfl
    simp only [h0, Bool.false_eq_true, if_false]
    rw [loop_iff, separated_false]
    simp
  | a :: b :: t, h, hr =>
    simp only
    by_cases hx : a = 48 ∧ floatLower b = 120
    · obtain ⟨rfl, hb⟩ := hx
      have hb' := (letter_iff b).2.2.mp hb
      have hb95 : b ≠ 95 := by rcases hb' with rfl | rfl <;> decide
      obtain ⟨c, t', rfl⟩ : ∃ c t', t = c :: t' := by
        cases t with
        | nil =>
          simp only [List.mem_cons, List.not_mem_nil, or_false] at h
          rcases h with h | h
          · exact absurd h (by decide)
          · exact absurd h.symm hb95
        | cons c t' => exact ⟨c, t', rfl⟩
      have hp : hexPrefix (48 :: b :: c :: t') = true := hexPrefix_iff.mpr ⟨b, c, t', rfl, hb'⟩
      rw [if_pos ⟨rfl, Or.inr (Or.inr hb)⟩, hp]
      simp only [if_true]
      rw [separated_true hb', hb, loop_iff]
      simp
    · have hp : hexPrefix (a :: b :: t) = false := by
        rw [← Bool.not_eq_true, hexPrefix_iff]
        rintro ⟨y, c, t', he, hy⟩
        simp only [List.cons.injEq] at he
        exact hx ⟨he.1, he.2.1 ▸ (letter_iff y).2.2.mpr hy⟩
      rw [hp]
      simp only [Bool.false_eq_true, if_false]
      rw [separated_false]
      by_cases ho : a = 48 ∧ (floatLower b = 98 ∨ floatLower b = 111 ∨ floatLower b = 120)
      · exfalso
        apply hr
        obtain ⟨rfl, hb⟩ := ho
        have k : ∀ b : UInt8, (floatLower b = 98 ∨ floatLower b = 111) → b ≠ 95 ∧ b ≠ 46 ∧ place false b = none ∧ floatLower b ≠ 101 := forall_byte (by decide +kernel)
        have hb' : floatLower b = 98 ∨ floatLower b = 111 := by
          rcases hb with h | h | h
          · exact Or.inl h
          · exact Or.inr h
          · exact absurd ⟨rfl, h⟩ hx
        obtain ⟨k1, k2, k3, k4⟩ := k b hb'
        have hs : scanMan false false (48 :: b :: t) = ([0], 0, b :: t) := by
          have h48 : place false 48 = some 0 := by decide
          rw [scanMan, if_neg (by decide), if_neg (by decide), floatDigit_place, h48]
          simp only
          rw [scanMan, if_neg k1, if_neg k2, floatDigit_place, k3]
          rfl
        unfold readUnsigned
        simp only [hp, Bool.false_eq_true, if_false]
        rw [hs]
        simp [readPower, k4]
      · rw [if_neg ho, loop_iff]
        simp

end Ckube

import Verif.Model.ParseFloat
import Verif.Spec.Numeral
import Verif.Lemmas.FloatText

/-! # Reading the texts that mean numbers -/

namespace Ckube
open Spec

/-! ## Digits -/

theorem floatDigit_place (hex : Bool) (c : UInt8) : floatDigit hex c = place hex c := by
  have h : ∀ c : UInt8, floatDigit true c = place true c ∧ floatDigit false c = place false c := forall_byte (by decide +kernel)
  cases hex
  · exact (h c).2
  · exact (h c).1

theorem place_ne (hex : Bool) {c : UInt8} (h : (place hex c).isSome = true) :
    c ≠ 95 ∧ c ≠ 46 ∧ c ≠ 43 ∧ c ≠ 45 ∧ floatLower c ≠ 112 ∧ floatLower c ≠ 120 ∧ (hex = false → floatLower c ≠ 101) := by
  have k1 : ∀ c : UInt8, (place true c).isSome = true → c ≠ 95 ∧ c ≠ 46 ∧ c ≠ 43 ∧ c ≠ 45 ∧ floatLower c ≠ 112 ∧ floatLower c ≠ 120 :=
    forall_byte (by decide +kernel)
  have k2 : ∀ c : UInt8, (place false c).isSome = true → c ≠ 95 ∧ c ≠ 46 ∧ c ≠ 43 ∧ c ≠ 45 ∧ floatLower c ≠ 112 ∧ floatLower c ≠ 120 ∧ floatLower c ≠ 101 :=
    forall_byte (by decide +kernel)
  cases hex
  · obtain ⟨a, b, c, d, e, f, g⟩ := k2 c h
    exact ⟨a, b, c, d, e, f, fun _ => g⟩
  · obtain ⟨a, b, c, d, e, f⟩ := k1 c h
    exact ⟨a, b, c, d, e, f, fun h => by cases h⟩

theorem isDigit_place (c : UInt8) : isDigit c = (place false c).isSome := by
  have h : ∀ c : UInt8, isDigit c = (place false c).isSome := forall_byte (by decide +kernel)
  exact h c

theorem isDigit_val {c : UInt8} (h : isDigit c = true) : place false c = some (c.toNat - 48) := by
  have k : ∀ c : UInt8, isDigit c = true → place false c = some (c.toNat - 48) := forall_byte (by decide +kernel)
  exact k c h

/-- The values of the digits. -/
def vals (hex : Bool) (s : Str) : List Nat := s.map fun c => (place hex c).getD 0

theorem row_cons {hex : Bool} {c : UInt8} {s : Str} : Row hex (c :: s) ↔ (place hex c).isSome = true ∧ Row hex s := by
  simp [Row]

theorem row_all {s : Str} : Row false s ↔ s.all isDigit = true := by
  simp [Row, isDigit_place]

theorem rowValue_digits {s : Str} (h : Row false s) : rowValue false s = digitsVal s := by
  unfold rowValue digitsVal
  have : ∀ (s : Str) (a : Nat), Row false s →
      s.foldl (fun a c => a * radix false + (place false c).getD 0) a = s.foldl (fun a c => a * 10 + (c.toNat - 48)) a := by
    intro s
    induction s with
    | nil => intro a _; rfl
    | cons c r ih =>
      intro a h
      obtain ⟨h1, h2⟩ := row_cons.mp h
      rw [← isDigit_place] at h1
      simp only [List.foldl_cons]
      rw [ih _ h2, isDigit_val h1]
      rfl
  exact this s 0 h

theorem fold_append (b : Nat) (xs ys : List Nat) : foldDigits b (xs ++ ys) = foldDigits b xs * b ^ ys.length + foldDigits b ys := by
  induction ys using List.reverseRecOn with
  | nil => simp [foldDigits]
  | append_singleton ys d ih =>
    unfold foldDigits at *
    rw [← List.append_assoc, List.foldl_append, ih, List.foldl_append]
    simp only [List.foldl_cons, List.foldl_nil, List.length_append, List.length_singleton, pow_succ]
    ring

theorem fold_cons (b d : Nat) (ys : List Nat) : foldDigits b (d :: ys) = d * b ^ ys.length + foldDigits b ys := by
  have := fold_append b [d] ys
  simpa [foldDigits] using this

theorem rowValue_fold (hex : Bool) (s : Str) : rowValue hex s = foldDigits (radix hex) (vals hex s) := by
  unfold rowValue foldDigits vals
  rw [List.foldl_map]

theorem radix_pos (hex : Bool) : (0 : ℚ) < radix hex := by cases hex <;> simp [radix]

theorem pointValue_fold (hex : Bool) (s : Str) : pointValue hex s = foldDigits (radix hex) (vals hex s) / radix hex ^ s.length := by
  induction s with
  | nil => simp [pointValue, vals, foldDigits]
  | cons c r ih =>
    have h0 := (radix_pos hex).ne'
    rw [pointValue, ih]
    simp only [vals, List.map_cons]
    rw [fold_cons, List.length_cons, List.length_map]
    push_cast
    rw [pow_succ]
    field_simp

/-- The value of digits with a point. -/
theorem mantissa_fold (hex : Bool) (ip fp : Str) :
    (rowValue hex ip + pointValue hex fp : ℚ) = foldDigits (radix hex) (vals hex (ip ++ fp)) / radix hex ^ fp.length := by
  have h0 := (radix_pos hex).ne'
  rw [pointValue_fold, rowValue_fold]
  have : vals hex (ip ++ fp) = vals hex ip ++ vals hex fp := by simp [vals]
  rw [this, fold_append]
  have hl : (vals hex fp).length = fp.length := by simp [vals]
  rw [hl]
  push_cast
  field_simp

/-! ## The loop over the digits -/

/-- What follows the digits does not go on with them. -/
def Stops (hex : Bool) (rest : Str) : Prop := ∀ c r, rest = c :: r → (place hex c).isSome = false ∧ c ≠ 95

theorem scan_frac {hex : Bool} {fp rest : Str} (h : Row hex fp) (hr : Stops hex rest) :
    scanMan hex true (fp ++ rest) = (vals hex fp, fp.length, rest) := by
  induction fp with
  | nil =>
    cases rest with
    | nil => rfl
    | cons c r =>
      obtain ⟨h1, h2⟩ := hr c r rfl
      have h3 : place hex c = none := by rw [← Option.not_isSome_iff_eq_none, h1]; simp
      rw [List.nil_append, scanMan, if_neg h2, floatDigit_place, h3]
      simp [vals]
  | cons c r ih =>
    obtain ⟨h1, h2⟩ := row_cons.mp h
    obtain ⟨n1, n2, _⟩ := place_ne hex h1
    obtain ⟨d, hd⟩ := Option.isSome_iff_exists.mp h1
    rw [List.cons_append, scanMan, if_neg n1, if_neg n2, floatDigit_place, hd]
    simp only [ih h2, vals, List.map_cons, hd, Option.getD_some, if_true, List.length_cons]

theorem scan_whole {hex : Bool} {ip rest : Str} {t : List Nat × Nat × Str} (h : Row hex ip) (hr : scanMan hex false rest = t) :
    scanMan hex false (ip ++ rest) = (vals hex ip ++ t.1, t.2.1, t.2.2) := by
  induction ip with
  | nil => rw [List.nil_append, hr]; rfl
  | cons c r ih =>
    obtain ⟨h1, h2⟩ := row_cons.mp h
    obtain ⟨n1, n2, _⟩ := place_ne hex h1
    obtain ⟨d, hd⟩ := Option.isSome_iff_exists.mp h1
    rw [List.cons_append, scanMan, if_neg n1, if_neg n2, floatDigit_place, hd]
    simp only [ih h2, vals, List.map_cons, hd, Option.getD_some, List.cons_append]
    simp

theorem scan_mantissa {hex : Bool} {ip pt fp rest : Str} (hip : Row hex ip) (hfp : Row hex fp) (hpt : pt = [46] ∨ (pt = [] ∧ fp = []))
    (hr : Stops hex rest) (hdot : rest.head? ≠ some 46) :
    scanMan hex false (ip ++ pt ++ fp ++ rest) = (vals hex (ip ++ fp), fp.length, rest) := by
  rcases hpt with rfl | ⟨rfl, rfl⟩
  · have h1 : scanMan hex false (46 :: (fp ++ rest)) = (vals hex fp, fp.length, rest) := by
      rw [scanMan, if_neg (by decide), if_pos rfl]
      simp only [Bool.false_eq_true, if_false]
      exact scan_frac hfp hr
    have := scan_whole hip h1
    simp only [List.append_assoc, List.cons_append, List.nil_append]
    rw [this]
    simp [vals]
  · have h1 : scanMan hex false rest = ([], 0, rest) := by
      cases rest with
      | nil => rfl
      | cons c r =>
        obtain ⟨h1, h2⟩ := hr c r rfl
        have h3 : place hex c = none := by rw [← Option.not_isSome_iff_eq_none, h1]; simp
        rw [scanMan, if_neg h2, if_neg (by simpa using hdot), floatDigit_place, h3]
    have := scan_whole hip h1
    simp only [List.append_nil]
    rw [this]
    simp

theorem scan_frac_inv {hex : Bool} : ∀ {s : Str}, (95 : UInt8) ∉ s → ∃ fp, s = fp ++ (scanMan hex true s).2.2 ∧ Row hex fp
    ∧ (scanMan hex true s).1 = vals hex fp ∧ (scanMan hex true s).2.1 = fp.length := by
  intro s
  induction s with
  | nil => intro _; exact ⟨[], rfl, by simp [Row], rfl, rfl⟩
  | cons c r ih =>
    intro h
    have hc : c ≠ 95 := fun e => h (by simp [e])
    rw [scanMan, if_neg hc]
    by_cases h46 : c = 46
    · rw [if_pos h46]; exact ⟨[], rfl, by simp [Row], rfl, rfl⟩
    · rw [if_neg h46, floatDigit_place]
      cases hd : place hex c with
      | none => exact ⟨[], rfl, by simp [Row], rfl, rfl⟩
      | some d =>
        obtain ⟨fp, h1, h2, h3, h4⟩ := ih (fun e => h (List.mem_cons_of_mem _ e))
        refine ⟨c :: fp, ?_, row_cons.mpr ⟨by rw [hd]; rfl, h2⟩, ?_, ?_⟩
        · simp only [List.cons_append]; rw [← h1]
        · simp only [h3, vals, List.map_cons, hd, Option.getD_some]
        · simp only [h4, if_true, List.length_cons]

theorem scan_inv {hex : Bool} : ∀ {s : Str}, (95 : UInt8) ∉ s → ∃ ip pt fp, s = ip ++ pt ++ fp ++ (scanMan hex false s).2.2 ∧ Row hex ip ∧ Row hex fp
    ∧ (pt = [46] ∨ (pt = [] ∧ fp = [])) ∧ (scanMan hex false s).1 = vals hex (ip ++ fp) ∧ (scanMan hex false s).2.1 = fp.length := by
  intro s
  induction s with
  | nil => intro _; exact ⟨[], [], [], rfl, by simp [Row], by simp [Row], Or.inr ⟨rfl, rfl⟩, rfl, rfl⟩
  | cons c r ih =>
    intro h
    have hc : c ≠ 95 := fun e => h (by simp [e])
    have hr : (95 : UInt8) ∉ r := fun e => h (List.mem_cons_of_mem _ e)
    rw [scanMan, if_neg hc]
    by_cases h46 : c = 46
    · rw [if_pos h46]
      simp only [Bool.false_eq_true, if_false]
      obtain ⟨fp, h1, h2, h3, h4⟩ := scan_frac_inv (hex := hex) hr
      refine ⟨[], [46], fp, ?_, by simp [Row], h2, Or.inl rfl, h3, h4⟩
      rw [h46]
      simp only [List.nil_append, List.cons_append]
      rw [← h1]
    · rw [if_neg h46, floatDigit_place]
      cases hd : place hex c with
      | none => exact ⟨[], [], [], rfl, by simp [Row], by simp [Row], Or.inr ⟨rfl, rfl⟩, rfl, rfl⟩
      | some d =>
        obtain ⟨ip, pt, fp, h1, h2, h3, h4, h5, h6⟩ := ih hr
        refine ⟨c :: ip, pt, fp, ?_, row_cons.mpr ⟨by rw [hd]; rfl, h2⟩, h3, h4, ?_, ?_⟩
        · simp only [List.cons_append]; rw [← h1]
        · simp only [h5, vals, List.map_cons, List.cons_append, hd, Option.getD_some]
        · simp only [h6]; simp

/-! ## The power -/

theorem scanExp_text {sg ds : Str} (hs : sg = [] ∨ sg = [43] ∨ sg = [45]) (hd : Row false ds) (hne : ds ≠ []) :
    scanExp (sg ++ ds) = some (if sg = [45] then -(rowValue false ds : ℤ) else rowValue false ds) := by
  have hall := row_all.mp hd
  have h43 := digit_head_ne hall (d := 43) (by decide)
  have h45 := digit_head_ne hall (d := 45) (by decide)
  have hf : ds.filter (· ≠ 95) = ds := by
    rw [List.filter_eq_self]
    intro c hc
    simpa using (place_ne false (hd c hc)).1
  have hall2 : ds.all (fun c => isDigit c || c = 95) = true := by
    rw [List.all_eq_true] at hall ⊢
    intro c hc; simp [hall c hc]
  have core : ∀ s : Str, (if s.head? = some 43 ∨ s.head? = some 45 then s.drop 1 else s) = ds →
      scanExp s = some (if s.head? = some 45 then -(rowValue false ds : ℤ) else rowValue false ds) := by
    intro s hsd
    unfold scanExp
    simp only [hsd]
    cases ds with
    | nil => exact absurd rfl hne
    | cons c r =>
      have hc : isDigit c = true := by simp only [List.all_cons, Bool.and_eq_true] at hall; exact hall.1
      simp only [hc, hall2, Bool.and_self, if_true, hf, rowValue_digits hd]
  rcases hs with rfl | rfl | rfl
  · have := core ds (by simp [h43, h45])
    simpa [h45] using this
  · have := core (43 :: ds) (by simp)
    simpa using this
  · have := core (45 :: ds) (by simp)
    simpa using this

theorem scanExp_inv {s : Str} (h95 : (95 : UInt8) ∉ s) (h : scanExp s ≠ none) :
    ∃ sg ds, s = sg ++ ds ∧ (sg = [] ∨ sg = [43] ∨ sg = [45]) ∧ Row false ds ∧ ds ≠ [] := by
  have core : ∀ ds : Str, (95 : UInt8) ∉ ds → (if s.head? = some 43 ∨ s.head? = some 45 then s.drop 1 else s) = ds → Row false ds ∧ ds ≠ [] := by
    intro ds hds hsd
    unfold scanExp at h
    simp only [hsd] at h
    cases ds with
    | nil => exact absurd rfl h
    | cons c r =>
      simp only at h
      split at h
      · rename_i hh
        simp only [Bool.and_eq_true] at hh
        refine ⟨row_all.mpr ?_, by simp⟩
        have h2 := hh.2
        rw [List.all_eq_true] at h2 ⊢
        intro x hx
        have := h2 x hx
        have hx95 : x ≠ 95 := fun e => hds (e ▸ hx)
        simpa [hx95] using this
      · exact absurd rfl h
  cases s with
  | nil =>
    have := core [] (by simp) (by simp)
    exact absurd rfl this.2
  | cons c r =>
    have hr : (95 : UInt8) ∉ r := fun e => h95 (List.mem_cons_of_mem _ e)
    by_cases h43 : c = 43
    · obtain ⟨h1, h2⟩ := core r hr (by simp [h43])
      exact ⟨[43], r, by simp [h43], Or.inr (Or.inl rfl), h1, h2⟩
    · by_cases h45 : c = 45
      · obtain ⟨h1, h2⟩ := core r hr (by simp [h45])
        exact ⟨[45], r, by simp [h45], Or.inr (Or.inr rfl), h1, h2⟩
      · obtain ⟨h1, h2⟩ := core (c :: r) h95 (by simp [h43, h45])
        exact ⟨[], c :: r, rfl, Or.inl rfl, h1, h2⟩

theorem letter_iff (c : UInt8) : (floatLower c = 101 ↔ c ∈ lit "eE") ∧ (floatLower c = 112 ↔ c ∈ lit "pP") ∧ (floatLower c = 120 ↔ c = 120 ∨ c = 88) := by
  have h : ∀ c : UInt8, (floatLower c = 101 ↔ c ∈ lit "eE") ∧ (floatLower c = 112 ↔ c ∈ lit "pP") ∧ (floatLower c = 120 ↔ c = 120 ∨ c = 88) := forall_byte (by decide +kernel)
  exact h c

theorem letter_stops (hex : Bool) {c : UInt8} (h : floatLower c = if hex then 112 else 101) : (place hex c).isSome = false ∧ c ≠ 95 ∧ c ≠ 46 := by
  have k : ∀ c : UInt8, (floatLower c = 112 → (place true c).isSome = false ∧ c ≠ 95 ∧ c ≠ 46)
      ∧ (floatLower c = 101 → (place false c).isSome = false ∧ c ≠ 95 ∧ c ≠ 46) := forall_byte (by decide +kernel)
  cases hex
  · exact (k c).2 h
  · exact (k c).1 h

/-! ## Texts without underscores -/

theorem vals_ne {hex : Bool} {ip fp : Str} (h : ip ≠ [] ∨ fp ≠ []) : vals hex (ip ++ fp) ≠ [] := by
  intro e
  simp only [vals, List.map_eq_nil_iff, List.append_eq_nil_iff] at e
  rcases h with h | h
  · exact h e.1
  · exact h e.2

theorem power_read {hex : Bool} {x : Str} {b : ℚ} (h : Power (if hex then 2 else 10) (if hex then lit "pP" else lit "eE") x b) :
    ∃ e, readPower hex x = some e ∧ b = (if hex then 2 else 10 : ℚ) ^ e ∧ Stops hex x ∧ x.head? ≠ some 46 := by
  obtain ⟨c, sg, ds, rfl, hc, hs, hd, hne, hb⟩ := h
  have hl : floatLower c = if hex then 112 else 101 := by
    cases hex
    · exact (letter_iff c).1.mpr hc
    · exact (letter_iff c).2.1.mpr hc
  obtain ⟨p1, p2, p3⟩ := letter_stops hex hl
  refine ⟨_, ?_, hb, ?_, by simpa using p3⟩
  · simp only [List.cons_append, readPower]
    rw [if_pos hl]
    exact scanExp_text hs hd hne
  · intro c' r' h
    simp only [List.cons_append, List.cons.injEq] at h
    exact h.1 ▸ ⟨p1, p2⟩

theorem read_power {hex : Bool} {x : Str} (h95 : (95 : UInt8) ∉ x) (h : readPower hex x ≠ none) :
    (hex = false ∧ x = []) ∨ ∃ b, Power (if hex then 2 else 10) (if hex then lit "pP" else lit "eE") x b := by
  cases x with
  | nil =>
    cases hex
    · exact Or.inl ⟨rfl, rfl⟩
    · exact absurd rfl h
  | cons c r =>
    right
    simp only [readPower] at h
    by_cases hl : floatLower c = if hex then 112 else 101
    · rw [if_pos hl] at h
      obtain ⟨sg, ds, h1, h2, h3, h4⟩ := scanExp_inv (fun e => h95 (List.mem_cons_of_mem _ e)) h
      refine ⟨_, c, sg, ds, by rw [h1]; rfl, ?_, h2, h3, h4, rfl⟩
      cases hex
      · exact (letter_iff c).1.mp hl
      · exact (letter_iff c).2.1.mp hl
    · rw [if_neg hl] at h
      exact absurd rfl h

theorem hexPrefix_iff {s : Str} : hexPrefix s = true ↔ ∃ h c r, s = 48 :: h :: c :: r ∧ (h = 120 ∨ h = 88) := by
  constructor
  · intro h
    match s, h with
    | a :: b :: c :: r, h =>
      simp only [hexPrefix, decide_eq_true_eq] at h
      exact ⟨b, c, r, by rw [h.1], (letter_iff b).2.2.mp h.2⟩
  · rintro ⟨h, c, r, rfl, hh⟩
    simp only [hexPrefix, decide_eq_true_eq]
    exact ⟨trivial, (letter_iff h).2.2.mpr hh⟩

theorem not_hex {hex : Bool} {ip pt fp x : Str} (hip : Row hex ip) (hfp : Row hex fp) (hpt : pt = [46] ∨ (pt = [] ∧ fp = []))
    (hx : x = [] ∨ ∃ c r, x = c :: r ∧ floatLower c = 101) (hh : hex = false) : hexPrefix (ip ++ pt ++ fp ++ x) = false := by
  rw [← Bool.not_eq_true, hexPrefix_iff]
  rintro ⟨h, c, r, he, hh'⟩
  have hnd : ∀ {d : UInt8}, (d = 120 ∨ d = 88) → (place false d).isSome = false ∧ d ≠ 46 ∧ floatLower d ≠ 101 := by
    rintro d (rfl | rfl) <;> decide
  obtain ⟨n1, n2, n3⟩ := hnd hh'
  subst hh
  -- the second byte
  have h2 : h ∈ ip ++ pt ++ fp ∨ ∃ r, x = h :: r ∨ x = 48 :: r := by
    have hlen : 0 < (ip ++ pt ++ fp).length ∨ (ip ++ pt ++ fp) = [] := by
      rcases (ip ++ pt ++ fp) with _ | _ <;> simp
    generalize ip ++ pt ++ fp = l at *
    match l with
    | [] => right; exact ⟨_, Or.inr (by simpa using he)⟩
    | [a] =>
      right
      simp only [List.cons_append, List.nil_append, List.cons.injEq] at he
      exact ⟨_, Or.inl he.2⟩
    | a :: b :: l =>
      left
      simp only [List.cons_append, List.cons.injEq] at he
      simp [he.2.1]
  rcases h2 with h2 | ⟨r', h2⟩
  · simp only [List.mem_append] at h2
    rcases h2 with (h2 | h2) | h2
    · have := hip h h2; rw [n1] at this; cases this
    · rcases hpt with rfl | ⟨rfl, _⟩
      · exact n2 (by simpa using h2)
      · simp at h2
    · have := hfp h h2; rw [n1] at this; cases this
  · rcases hx with rfl | ⟨c', r'', rfl, hc'⟩
    · rcases h2 with h2 | h2 <;> cases h2
    · rcases h2 with h2 | h2
      · simp only [List.cons.injEq] at h2; rw [h2.1] at hc'; exact n3 hc'
      · simp only [List.cons.injEq] at h2; rw [h2.1] at hc'; revert hc'; decide

/-- The value that is read. -/
def readValue (hex : Bool) (s : Str) : ℚ :=
  foldDigits (radix hex) (scanMan hex false s).1
    * (if hex then 2 else 10) ^ ((readPower hex (scanMan hex false s).2.2).getD 0 - (if hex then 4 else 1) * (scanMan hex false s).2.1)

theorem decimal_read0 {s : Str} {w : ℚ} (h : DecimalText s w) :
    w = readValue false s ∧ ∃ (c : ℕ) (t : ℤ), w = c * 10 ^ t ∧ readUnsigned s = literalFloat c t := by
  obtain ⟨m, x, a, b, rfl, ⟨ip, pt, fp, rfl, hip, hfp, hne, hpt, rfl⟩, hx, rfl⟩ := h
  obtain ⟨e, he, hb, hstop, hdot, hx'⟩ : ∃ e, readPower false x = some e ∧ b = (10 : ℚ) ^ e ∧ Stops false x ∧ x.head? ≠ some 46
      ∧ (x = [] ∨ ∃ c r, x = c :: r ∧ floatLower c = 101) := by
    rcases hx with ⟨rfl, rfl⟩ | hx
    · exact ⟨0, rfl, (by simp), (fun c r h => by cases h), (by simp), Or.inl rfl⟩
    · obtain ⟨c, sg, ds, hx1, hc, _⟩ := id hx
      obtain ⟨e, e1, e2, e3, e4⟩ := power_read (hex := false) hx
      exact ⟨e, e1, e2, e3, e4, Or.inr ⟨c, sg ++ ds, hx1, (letter_iff c).1.mpr hc⟩⟩
  have hp := not_hex hip hfp hpt hx' rfl
  have hs := scan_mantissa hip hfp hpt hstop hdot
  have hval : ((rowValue false ip + pointValue false fp) * b : ℚ) = foldDigits 10 (vals false (ip ++ fp)) * 10 ^ (e - fp.length) := by
    rw [mantissa_fold, hb, zpow_sub₀ (by norm_num), zpow_natCast]
    simp only [radix, Bool.false_eq_true, if_false]
    push_cast
    ring
  refine ⟨?_, foldDigits 10 (vals false (ip ++ fp)), e - fp.length, hval, ?_⟩
  · unfold readValue
    rw [hs, hval]
    simp only [he, Option.getD_some, radix, Bool.false_eq_true, if_false, one_mul]
  · unfold readUnsigned
    simp only [hp, Bool.false_eq_true, if_false]
    rw [hs]
    simp only [vals_ne hne, if_false, he, Option.bind_some]

theorem decimal_read {s : Str} {w : ℚ} (h : DecimalText s w) : ∃ (c : ℕ) (t : ℤ), w = c * 10 ^ t ∧ readUnsigned s = literalFloat c t :=
  (decimal_read0 h).2

theorem hex_read0 {s : Str} {w : ℚ} (h : HexText s w) :
    w = readValue true (s.drop 2) ∧ ∃ (c : ℕ) (t : ℤ), w = c * 2 ^ t ∧ readUnsigned s = binaryFloat c t := by
  obtain ⟨h, m, x, a, b, rfl, hh, ⟨ip, pt, fp, rfl, hip, hfp, hne, hpt, rfl⟩, hx, rfl⟩ := h
  obtain ⟨e, he, hb, hstop, hdot⟩ := power_read (hex := true) hx
  have hp : hexPrefix (48 :: h :: (ip ++ pt ++ fp) ++ x) = true := by
    rw [hexPrefix_iff]
    have : ip ++ pt ++ fp ≠ [] := by
      intro e
      simp only [List.append_eq_nil_iff] at e
      rcases hne with h | h
      · exact h e.1.1
      · exact h e.2
    obtain ⟨c, r, hc⟩ := List.exists_cons_of_ne_nil this
    exact ⟨h, c, r ++ x, by rw [hc]; rfl, hh⟩
  have hs := scan_mantissa hip hfp hpt hstop hdot
  have hval : ((rowValue true ip + pointValue true fp) * b : ℚ) = foldDigits 16 (vals true (ip ++ fp)) * 2 ^ (e - 4 * (fp.length : ℤ)) := by
    have h16 : (16 : ℚ) ^ fp.length = 2 ^ (4 * (fp.length : ℤ)) := by
      rw [zpow_mul, zpow_natCast]; norm_num
    rw [mantissa_fold, hb, zpow_sub₀ (by norm_num), ← h16]
    simp only [radix, if_true]
    push_cast
    ring
  refine ⟨?_, foldDigits 16 (vals true (ip ++ fp)), e - 4 * fp.length, hval, ?_⟩
  · have hd : (48 :: h :: (ip ++ pt ++ fp) ++ x).drop 2 = ip ++ pt ++ fp ++ x := rfl
    unfold readValue
    rw [hd, hs, hval]
    simp only [he, Option.getD_some, radix, if_true]
  · unfold readUnsigned
    simp only [hp, if_true]
    have hd : (48 :: h :: (ip ++ pt ++ fp) ++ x).drop 2 = ip ++ pt ++ fp ++ x := rfl
    rw [hd, hs]
    simp only [vals_ne hne, if_false, he, Option.bind_some]

theorem hex_read {s : Str} {w : ℚ} (h : HexText s w) : ∃ (c : ℕ) (t : ℤ), w = c * 2 ^ t ∧ readUnsigned s = binaryFloat c t := (hex_read0 h).2

theorem read_text {s : Str} (h95 : (95 : UInt8) ∉ s) (h : readUnsigned s ≠ none) : (∃ w, DecimalText s w) ∨ ∃ w, HexText s w := by
  unfold readUnsigned at h
  cases hp : hexPrefix s with
  | false =>
    left
    simp only [hp, Bool.false_eq_true, if_false] at h
    obtain ⟨ip, pt, fp, h1, h2, h3, h4, h5, h6⟩ := scan_inv (hex := false) h95
    split at h
    · exact absurd rfl h
    · rename_i hne
      have hx : readPower false (scanMan false false s).2.2 ≠ none := by
        intro e; rw [e] at h; exact h rfl
      have h95' : (95 : UInt8) ∉ (scanMan false false s).2.2 := by
        intro e; apply h95; rw [h1]; exact List.mem_append_right _ e
      have hne' : ip ≠ [] ∨ fp ≠ [] := by
        by_contra hcon
        push Not at hcon
        apply hne; rw [h5, hcon.1, hcon.2]; rfl
      rcases read_power h95' hx with ⟨_, h0⟩ | ⟨b, hb⟩
      · exact ⟨_, ip ++ pt ++ fp, [], _, 1, by rw [h0, List.append_nil] at h1; simpa using h1, ⟨ip, pt, fp, rfl, h2, h3, hne', h4, rfl⟩, Or.inl ⟨rfl, rfl⟩, rfl⟩
      · exact ⟨_, ip ++ pt ++ fp, _, _, b, h1, ⟨ip, pt, fp, rfl, h2, h3, hne', h4, rfl⟩, Or.inr hb, rfl⟩
  | true =>
    right
    obtain ⟨x, c, r, rfl, hx⟩ := hexPrefix_iff.mp hp
    simp only [hp, if_true] at h
    have hd : (48 :: x :: c :: r).drop 2 = c :: r := rfl
    rw [hd] at h
    have h95c : (95 : UInt8) ∉ c :: r := fun e => h95 (List.mem_cons_of_mem _ (List.mem_cons_of_mem _ e))
    obtain ⟨ip, pt, fp, h1, h2, h3, h4, h5, h6⟩ := scan_inv (hex := true) h95c
    split at h
    · exact absurd rfl h
    · rename_i hne
      have hx' : readPower true (scanMan true false (c :: r)).2.2 ≠ none := by
        intro e; rw [e] at h; exact h rfl
      have h95' : (95 : UInt8) ∉ (scanMan true false (c :: r)).2.2 := by
        intro e; apply h95c; rw [h1]; exact List.mem_append_right _ e
      have hne' : ip ≠ [] ∨ fp ≠ [] := by
        by_contra hcon
        push Not at hcon
        apply hne; rw [h5, hcon.1, hcon.2]; rfl
      rcases read_power h95' hx' with ⟨h0, _⟩ | ⟨b, hb⟩
      · cases h0
      · exact ⟨_, x, ip ++ pt ++ fp, _, _, b, by rw [List.cons_append, List.cons_append, ← h1], hx, ⟨ip, pt, fp, rfl, h2, h3, hne', h4, rfl⟩, hb, rfl⟩

end Ckube

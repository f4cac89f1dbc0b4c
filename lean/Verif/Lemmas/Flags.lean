import Verif.Spec.Flags
import Verif.Lemmas.Search
import Verif.Lemmas.Num

/-! # Lemmas on command lines -/

namespace Ckube

open Spec

/-! ## Numbers -/

theorem digitOf_iff (c : UInt8) (d : Nat) (hd : d < 16) :
    digitOf c = some d ↔ ((lit "0123456789abcdef")[d]? = some c ∨ (lit "0123456789ABCDEF")[d]? = some c) := by
  have h : ∀ c : UInt8, ∀ d < 16, digitOf c = some d ↔ ((lit "0123456789abcdef")[d]? = some c ∨ (lit "0123456789ABCDEF")[d]? = some c) :=
    forall_byte (by decide +kernel)
  exact h c d hd

theorem uintLoop_iff {base : Nat} (hb : base ≤ 16) : ∀ (t : Str) (n m : Nat),
    uintLoop base t n = some m ↔ ∃ ds, Digits base (t.filter (· ≠ 95)) ds ∧ m = ds.foldl (fun m d => m * base + d) n
  | [], n, m => by
    simp only [uintLoop, Option.some.injEq, List.filter_nil]
    constructor
    · rintro rfl
      exact ⟨[], .nil, rfl⟩
    · rintro ⟨ds, h, rfl⟩
      cases h
      rfl
  | c :: t, n, m => by
    simp only [uintLoop]
    by_cases hc : c = 95
    · simp only [hc, if_true, uintLoop_iff hb t]
      simp
    · rw [if_neg hc, List.filter_cons_of_pos (by simpa using hc)]
      constructor
      · cases h : digitOf c with
        | none => simp
        | some d =>
          simp only
          split
          · simp
          · next hlt =>
            rw [uintLoop_iff hb t]
            rintro ⟨ds, h1, h2⟩
            exact ⟨d :: ds, .cons ⟨by omega, (digitOf_iff c d (by omega)).1 h⟩ h1, h2⟩
      · rintro ⟨ds, h1, h2⟩
        cases h1 with
        | cons hd h1 =>
          rename_i d ds
          rw [(digitOf_iff c d (by have := hd.1; omega)).2 hd.2]
          simp only
          rw [if_neg (by have := hd.1; omega)]
          exact (uintLoop_iff hb t _ _).2 ⟨ds, h1, h2⟩

/-- Bytes that `underscoreOK` takes for digits. -/
def okDigit (hex : Bool) (c : UInt8) : Prop := (48 ≤ c ∧ c ≤ 57) ∨ (hex = true ∧ 97 ≤ lowerBit c ∧ lowerBit c ≤ 102)

theorem suffix_95 (c : UInt8) (t : Str) : [95] <:+ c :: t ↔ (t = [] ∧ c = 95) ∨ [95] <:+ t := by
  rw [List.suffix_cons_iff]
  constructor
  · rintro (h | h)
    · simp only [List.cons.injEq] at h
      exact Or.inl ⟨h.2.symm, h.1.symm⟩
    · exact Or.inr h
  · rintro (⟨rfl, rfl⟩ | h)
    · exact Or.inl rfl
    · exact Or.inr h

theorem infix_95 (c : UInt8) (t : Str) : [95, 95] <:+: c :: t ↔ (c = 95 ∧ [95] <+: t) ∨ [95, 95] <:+: t := by
  rw [List.infix_cons_iff, List.cons_prefix_cons]
  constructor
  · rintro (⟨h1, h2⟩ | h)
    · exact Or.inl ⟨h1.symm, h2⟩
    · exact Or.inr h
  · rintro (⟨h1, h2⟩ | h)
    · exact Or.inl ⟨h1.symm, h2⟩
    · exact Or.inr h

theorem underscoreLoop_iff (hex : Bool) : ∀ (t : Str) (saw : Saw), (∀ c ∈ t, c = 95 ∨ okDigit hex c) → saw ≠ .other →
    (underscoreLoop hex saw t = true ↔ (saw ≠ .digit → ¬ [95] <+: t) ∧ (saw = .underscore → t ≠ []) ∧ ¬ [95] <:+ t ∧ ¬ [95, 95] <:+: t)
  | [], saw, _, h => by
    cases saw <;> simp_all [underscoreLoop]
  | c :: t, saw, ht, h => by
    have ih := fun s => underscoreLoop_iff hex t s fun x hx => ht x (List.mem_cons_of_mem _ hx)
    simp only [underscoreLoop]
    by_cases hd : okDigit hex c
    · have hc : c ≠ 95 := by
        rintro rfl
        revert hd
        cases hex <;> (simp [okDigit]; try decide)
      rw [if_pos (by exact hd), ih .digit (by simp), suffix_95, infix_95]
      simp [hc, List.cons_prefix_cons, Ne.symm hc]
    · have hc : c = 95 := (ht c List.mem_cons_self).resolve_right hd
      rw [if_neg (by exact hd), if_pos hc, Bool.and_eq_true, ih .underscore (by simp), suffix_95, infix_95]
      subst hc
      cases saw with
      | start => simp [List.cons_prefix_cons]
      | digit =>
        simp only [beq_self_eq_true, true_and, ne_eq, reduceCtorEq, not_false_eq_true, forall_const, not_true_eq_false,
          false_implies, and_true, not_or]
        tauto
      | underscore => simp [List.cons_prefix_cons]
      | other => exact absurd rfl h

/-- The bytes of a number: underscores and digits. -/
theorem digits_bytes {base : Nat} : ∀ {t : Str} {ds : List Nat}, Digits base (t.filter (· ≠ 95)) ds →
    ∀ c ∈ t, c = 95 ∨ ∃ d, IsDigitOf base c d := by
  intro t ds h c hc
  by_cases h9 : c = 95
  · exact Or.inl h9
  · have hm : c ∈ t.filter (· ≠ 95) := List.mem_filter.2 ⟨hc, by simpa using h9⟩
    generalize t.filter (· ≠ 95) = t' at h hm
    induction h with
    | nil => simp at hm
    | cons hd _ ih =>
      rcases List.mem_cons.1 hm with rfl | hm
      · exact Or.inr ⟨_, hd⟩
      · exact ih hm

theorem digit_ok {base : Nat} {c : UInt8} {d : Nat} (h : IsDigitOf base c d) (hb : base ≤ 16) : okDigit (decide (10 < base)) c := by
  have h1 : ∀ c : UInt8, ∀ d < 16, ((lit "0123456789abcdef")[d]? = some c ∨ (lit "0123456789ABCDEF")[d]? = some c) →
      ((48 ≤ c ∧ c ≤ 57) ∨ (10 ≤ d ∧ 97 ≤ lowerBit c ∧ lowerBit c ≤ 102)) := by
    have h1 : ∀ d < 16, ∀ c ∈ [(lit "0123456789abcdef")[d]?.getD 0, (lit "0123456789ABCDEF")[d]?.getD 0],
        ((48 ≤ c ∧ c ≤ 57) ∨ (10 ≤ d ∧ 97 ≤ lowerBit c ∧ lowerBit c ≤ 102)) := by decide +kernel
    intro c d hd h
    refine h1 d hd c ?_
    rcases h with h | h <;> simp [h]
  rcases h1 c d (by have := h.1; omega) h.2 with h1 | ⟨h2, h3⟩
  · exact Or.inl h1
  · exact Or.inr ⟨by have := h.1; simpa using (by omega : 10 < base), h3⟩

/-- A byte of an octal number is no letter of a prefix. -/
theorem octal_letter {c : UInt8} (h : c = 95 ∨ ∃ d, IsDigitOf 8 c d) : lowerBit c ≠ 98 ∧ lowerBit c ≠ 111 ∧ lowerBit c ≠ 120 := by
  have h1 : ∀ c : UInt8, ((48 ≤ c ∧ c ≤ 57) ∨ c = 95) → lowerBit c ≠ 98 ∧ lowerBit c ≠ 111 ∧ lowerBit c ≠ 120 := forall_byte (by decide +kernel)
  apply h1
  rcases h with h | ⟨d, h⟩
  · exact Or.inr h
  · rcases digit_ok h (by omega) with h | ⟨h, _⟩
    · exact Or.inl h
    · exact absurd h (by decide)

/-- `ParseUint` finds the base and the digits of a number. -/
theorem baseOf_number {pre digits : Str} {base : Nat} (hp : (pre, base) ∈ prefixes) (hd : ∀ c ∈ digits, c = 95 ∨ ∃ d, IsDigitOf base c d)
    (h0 : pre = [] → digits.head? ≠ some 48) (hne : digits = [] → pre = lit "0") : baseOf (pre ++ digits) = (base, digits) := by
  simp only [prefixes, List.mem_cons, Prod.mk.injEq, List.not_mem_nil, or_false] at hp
  rcases hp with ⟨rfl, rfl⟩ | ⟨rfl, rfl⟩ | ⟨rfl, rfl⟩ | ⟨rfl, rfl⟩ | ⟨rfl, rfl⟩ | ⟨rfl, rfl⟩ | ⟨rfl, rfl⟩ | ⟨rfl, rfl⟩
  · have h1 := h0 rfl
    cases digits with
    | nil => rfl
    | cons c t =>
      have hc : c ≠ 48 := by simpa using h1
      simp only [List.nil_append]
      unfold baseOf
      split
      · next h => simp only [List.cons.injEq] at h; exact absurd h.1 hc
      · next h => simp only [List.cons.injEq] at h; exact absurd h.1 hc
      · rfl
  · match digits, hd with
    | [], _ => rfl
    | [c], _ => rfl
    | c :: d :: t, hd =>
      obtain ⟨h1, h2, h3⟩ := octal_letter (hd c List.mem_cons_self)
      show baseOf (48 :: c :: d :: t) = _
      simp only [baseOf, h1, h2, h3, if_false]
  all_goals
    match digits, hne with
    | [], hne => exact absurd (hne rfl) (by decide)
    | c :: t, _ => rfl

/-- Where a base and digits are found, there is a prefix. -/
theorem baseOf_prefix (u : Str) : ∃ pre, (pre, (baseOf u).1) ∈ prefixes ∧ u = pre ++ (baseOf u).2 ∧ (pre = [] → (baseOf u).2.head? ≠ some 48)
    ∧ ((baseOf u).2 = [] → pre = lit "0" ∨ u = []) := by
  have hx : ∀ c : UInt8, (lowerBit c = 98 → c = 98 ∨ c = 66) ∧ (lowerBit c = 111 → c = 111 ∨ c = 79) ∧ (lowerBit c = 120 → c = 120 ∨ c = 88) :=
    forall_byte (by decide +kernel)
  unfold baseOf
  split
  · next c d t =>
    split
    · next h =>
      rcases (hx c).1 h with rfl | rfl
      · exact ⟨lit "0b", by simp [prefixes], rfl, fun h => absurd h (by decide), by simp⟩
      · exact ⟨lit "0B", by simp [prefixes], rfl, fun h => absurd h (by decide), by simp⟩
    · split
      · next h =>
        rcases (hx c).2.1 h with rfl | rfl
        · exact ⟨lit "0o", by simp [prefixes], rfl, fun h => absurd h (by decide), by simp⟩
        · exact ⟨lit "0O", by simp [prefixes], rfl, fun h => absurd h (by decide), by simp⟩
      · split
        · next h =>
          rcases (hx c).2.2 h with rfl | rfl
          · exact ⟨lit "0x", by simp [prefixes], rfl, fun h => absurd h (by decide), by simp⟩
          · exact ⟨lit "0X", by simp [prefixes], rfl, fun h => absurd h (by decide), by simp⟩
        · exact ⟨lit "0", by simp [prefixes], rfl, fun h => absurd h (by decide), by simp⟩
  · exact ⟨lit "0", by simp [prefixes], rfl, fun h => absurd h (by decide), fun _ => Or.inl rfl⟩
  · next h1 h2 =>
    refine ⟨[], by simp [prefixes], rfl, fun _ => ?_, fun h => Or.inr h⟩
    cases u with
    | nil => simp
    | cons c t =>
      simp only [List.head?_cons, ne_eq, Option.some.injEq]
      rintro rfl
      exact h2 t rfl

/-- `underscoreOK` for a number. -/
theorem underscoreOK_number {pre digits : Str} {base : Nat} (hp : (pre, base) ∈ prefixes) (hd : ∀ c ∈ digits, c = 95 ∨ ∃ d, IsDigitOf base c d)
    (h0 : pre = [] → digits.head? ≠ some 48) (hne : digits = [] → pre = lit "0") :
    underscoreOK (pre ++ digits) = true ↔ ¬ [95] <+: pre ++ digits ∧ ¬ [95] <:+ pre ++ digits ∧ ¬ [95, 95] <:+: pre ++ digits := by
  have hb : base ≤ 16 := by
    simp only [prefixes, List.mem_cons, Prod.mk.injEq, List.not_mem_nil, or_false] at hp
    omega
  have hok : ∀ c ∈ digits, c = 95 ∨ okDigit (decide (10 < base)) c := by
    intro c hc
    rcases hd c hc with h | ⟨d, h⟩
    · exact Or.inl h
    · exact Or.inr (digit_ok h hb)
  have pre2 : ∀ c : UInt8, c ≠ 95 → digits ≠ [] → ((¬ [95] <+: (48 : UInt8) :: c :: digits ∧ ¬ [95] <:+ (48 : UInt8) :: c :: digits ∧ ¬ [95, 95] <:+: (48 : UInt8) :: c :: digits)
      ↔ (¬ [95] <:+ digits ∧ ¬ [95, 95] <:+: digits)) := by
    intro c hc hne
    simp only [suffix_95, infix_95, List.cons_prefix_cons, hc, hne]
    simp
  simp only [prefixes, List.mem_cons, Prod.mk.injEq, List.not_mem_nil, or_false] at hp
  rcases hp with ⟨rfl, rfl⟩ | ⟨rfl, rfl⟩ | ⟨rfl, rfl⟩ | ⟨rfl, rfl⟩ | ⟨rfl, rfl⟩ | ⟨rfl, rfl⟩ | ⟨rfl, rfl⟩ | ⟨rfl, rfl⟩
  · have h1 := h0 rfl
    simp only [List.nil_append]
    have h2 : underscoreOK digits = underscoreLoop false .start digits := by
      cases digits with
      | nil => rfl
      | cons c t =>
        have hc : c ≠ 48 := by simpa using h1
        unfold underscoreOK
        split
        · next h => simp only [List.cons.injEq] at h; exact absurd h.1 hc
        · rfl
    rw [h2, underscoreLoop_iff false digits .start (by simpa using hok) (by simp)]
    simp
  · have h2 : underscoreOK (lit "0" ++ digits) = underscoreLoop false .start (lit "0" ++ digits) := by
      cases digits with
      | nil => rfl
      | cons c t =>
        obtain ⟨h1, h2, h3⟩ := octal_letter (hd c List.mem_cons_self)
        show underscoreOK (48 :: c :: t) = _
        simp only [underscoreOK, h1, h2, h3, or_self, if_false]
        rfl
    rw [h2, underscoreLoop_iff false _ .start ?_ (by simp)]
    · simp
    · intro c hc
      rcases List.mem_append.1 hc with hc | hc
      · right
        left
        rw [show lit "0" = [48] from rfl, List.mem_singleton] at hc
        subst hc
        decide
      · simpa using hok c hc
  all_goals
    have hne' : digits ≠ [] := fun h => absurd (hne h) (by decide)
    refine Iff.trans ?_ (pre2 _ ?_ hne').symm
    rotate_left
    · decide
    · refine (underscoreLoop_iff _ digits .digit hok (by simp)).trans ?_
      simp

theorem parseUint0_iff (u : Str) (n : Nat) : parseUint0 u = some n ↔ Unsigned u n := by
  have base16 : ∀ {pre base}, (pre, base) ∈ prefixes → base ≤ 16 := by
    intro pre base hp
    simp only [prefixes, List.mem_cons, Prod.mk.injEq, List.not_mem_nil, or_false] at hp
    omega
  constructor
  · intro h
    unfold parseUint0 at h
    split at h
    · simp at h
    · next hu =>
      obtain ⟨pre, hp, hu2, h0, hne⟩ := baseOf_prefix u
      cases hl : uintLoop (baseOf u).1 (baseOf u).2 0 with
      | none => simp [hl] at h
      | some m =>
        simp only [hl] at h
        split at h
        · simp at h
        · next hus =>
          obtain rfl : m = n := by simpa using h
          obtain ⟨ds, h1, h2⟩ := (uintLoop_iff (base16 hp) _ _ _).1 hl
          have hne' : (baseOf u).2 = [] → pre = lit "0" := fun h => (hne h).resolve_right hu
          have hk := underscoreOK_number hp (digits_bytes h1) h0 hne'
          rw [← hu2] at hk
          refine ⟨pre, _, _, ds, hp, hu2, h1, h2, h0, hne', ?_⟩
          by_cases h9 : 95 ∈ (baseOf u).2
          · exact hk.1 (by simpa [h9] using hus)
          · have hno : 95 ∉ u := by
              rw [hu2]
              simp only [List.mem_append, h9, or_false]
              simp only [prefixes, List.mem_cons, Prod.mk.injEq, List.not_mem_nil, or_false] at hp
              rcases hp with ⟨rfl, _⟩ | ⟨rfl, _⟩ | ⟨rfl, _⟩ | ⟨rfl, _⟩ | ⟨rfl, _⟩ | ⟨rfl, _⟩ | ⟨rfl, _⟩ | ⟨rfl, _⟩ <;> decide
            exact ⟨fun h => hno (h.subset (by simp)), fun h => hno (h.subset (by simp)), fun h => hno (h.subset (by simp))⟩
  · rintro ⟨pre, base, digits, ds, hp, rfl, h1, rfl, h0, hne, hus⟩
    have hb := baseOf_number hp (digits_bytes h1) h0 hne
    have hk := (underscoreOK_number hp (digits_bytes h1) h0 hne).2 hus
    have hu : pre ++ digits ≠ [] := by
      intro h
      obtain ⟨h1, h2⟩ := List.append_eq_nil_iff.1 h
      rw [hne h2] at h1
      exact absurd h1 (by decide)
    unfold parseUint0
    rw [if_neg hu, hb]
    simp only [(uintLoop_iff (base16 hp) digits 0 _).2 ⟨ds, h1, rfl⟩, hk]
    simp

theorem unsigned_head {u : Str} {n : Nat} (h : Unsigned u n) : ∃ c t, u = c :: t ∧ c ≠ 43 ∧ c ≠ 45 := by
  obtain ⟨pre, base, digits, ds, hp, rfl, h1, rfl, h0, hne, hus⟩ := h
  cases hpre : pre with
  | nil =>
    cases hdg : digits with
    | nil => rw [hne hdg] at hpre; exact absurd hpre (by decide)
    | cons c t =>
      refine ⟨c, t, rfl, ?_⟩
      subst hpre hdg
      have hx : ∀ c : UInt8, ∀ d < 16, ((lit "0123456789abcdef")[d]? = some c ∨ (lit "0123456789ABCDEF")[d]? = some c) → c ≠ 43 ∧ c ≠ 45 := by
        have h1 : ∀ d < 16, ∀ c ∈ [(lit "0123456789abcdef")[d]?.getD 0, (lit "0123456789ABCDEF")[d]?.getD 0], c ≠ 43 ∧ c ≠ 45 := by decide +kernel
        intro c d hd h
        refine h1 d hd c ?_
        rcases h with h | h <;> simp [h]
      rcases digits_bytes h1 c List.mem_cons_self with rfl | ⟨d, hd⟩
      · decide
      · refine hx c d ?_ hd.2
        have := hd.1
        simp only [prefixes, List.mem_cons, Prod.mk.injEq, List.not_mem_nil, or_false] at hp
        omega
  | cons c t =>
    refine ⟨c, t ++ digits, rfl, ?_⟩
    subst hpre
    simp only [prefixes, List.mem_cons, Prod.mk.injEq, List.not_mem_nil, or_false] at hp
    rcases hp with ⟨h, _⟩ | ⟨h, _⟩ | ⟨h, _⟩ | ⟨h, _⟩ | ⟨h, _⟩ | ⟨h, _⟩ | ⟨h, _⟩ | ⟨h, _⟩
    · simp at h
    all_goals
      obtain rfl : c = 48 := (List.cons.inj (h.trans rfl)).1
      decide

theorem parseInt0_iff (s : Str) (i : Int) : parseInt0 s = some i ↔ IntText s i := by
  have hmin : minInt64 = -2^63 := by decide
  have hmax : maxInt64 = 2^63 - 1 := by decide
  constructor
  · intro h
    cases s with
    | nil => simp [parseInt0] at h
    | cons c t =>
      simp only [parseInt0] at h
      cases hu : parseUint0 (if c = 43 ∨ c = 45 then t else c :: t) with
      | none => simp [hu] at h
      | some n =>
        simp only [hu] at h
        have hn := (parseUint0_iff _ _).1 hu
        by_cases hr : minInt64 ≤ (if c = 45 then -(n : Int) else n) ∧ (if c = 45 then -(n : Int) else n) ≤ maxInt64
        · rw [if_pos hr] at h
          obtain rfl := Option.some.inj h
          rw [hmin, hmax] at hr
          by_cases h45 : c = 45
          · subst h45
            refine ⟨lit "-", t, n, rfl, by simp, by simpa using hn, by simp, hr.1, by omega⟩
          · by_cases h43 : c = 43
            · subst h43
              refine ⟨lit "+", t, n, rfl, by simp, by simpa using hn, by rw [if_neg (by decide), if_neg (by decide)], hr.1, by omega⟩
            · refine ⟨[], c :: t, n, rfl, by simp, by simpa [h43, h45] using hn, by rw [if_neg h45, if_neg (by decide)], hr.1, by omega⟩
        · rw [if_neg hr] at h
          simp at h
  · rintro ⟨sign, u, n, rfl, hs, hn, rfl, h1, h2⟩
    obtain ⟨c, t, rfl, h43, h45⟩ := unsigned_head hn
    have hu := (parseUint0_iff _ _).2 hn
    simp only [List.mem_cons, List.not_mem_nil, or_false] at hs
    rcases hs with rfl | rfl | rfl
    · rw [if_neg (by decide)] at h1 h2 ⊢
      simp only [List.nil_append, parseInt0, h43, h45, or_self, if_false, hu]
      rw [if_pos ⟨by omega, by omega⟩]
    · rw [if_neg (by decide)] at h1 h2 ⊢
      show parseInt0 (43 :: c :: t) = _
      have : (43 : UInt8) ≠ 45 := by decide
      simp only [parseInt0, true_or, if_true, hu, this, if_false]
      rw [if_pos ⟨by omega, by omega⟩]
    · rw [if_pos rfl] at h1 h2 ⊢
      show parseInt0 (45 :: c :: t) = _
      simp only [parseInt0, or_true, if_true, hu]
      rw [if_pos ⟨by omega, by omega⟩]

/-! ## Flags -/

theorem read_iff (k : FlagKind) (v : Str) (x : FlagVal) : k.read v = some x ↔ HasKind k x ∧ FlagText v x := by
  have hb : ∀ b, parseBool v = some b ↔ v ∈ if b then [lit "1", lit "t", lit "T", lit "true", lit "TRUE", lit "True"] else [lit "0", lit "f", lit "F", lit "false", lit "FALSE", lit "False"] := by
    intro b
    unfold parseBool
    cases b with
    | true => simp only [if_true]; split <;> simp_all
    | false =>
      simp only [Bool.false_eq_true, if_false]
      split
      · next h =>
        simp only [List.mem_cons, List.not_mem_nil, or_false] at h
        simp only [Option.some.injEq, Bool.true_eq_false, false_iff]
        rcases h with rfl | rfl | rfl | rfl | rfl | rfl <;> decide
      · split <;> simp_all
  cases k with
  | int =>
    cases x with
    | int i => simp [FlagKind.read, HasKind, FlagText, ← parseInt0_iff]
    | text t => simp [FlagKind.read, HasKind]
    | bool t => simp [FlagKind.read, HasKind]
  | text => cases x <;> simp [FlagKind.read, HasKind, FlagText]
  | bool =>
    cases x with
    | int i => simp [FlagKind.read, HasKind]
    | text t => simp [FlagKind.read, HasKind]
    | bool b =>
      simp only [FlagKind.read, HasKind, FlagText, ← hb, true_and]
      simp

/-- A name `flag.Var` accepts, other than the empty one. -/
def goodName (n : Str) : Prop := n ≠ [] ∧ 61 ∉ n ∧ n.head? ≠ some 45

theorem cutFlag_eq {n : Str} (h : goodName n) (v : Str) : cutFlag (n ++ lit "=" ++ v) = (n, some v) := by
  obtain ⟨h1, h2, _⟩ := h
  cases n with
  | nil => exact absurd rfl h1
  | cons c t =>
    simp only [List.mem_cons, not_or] at h2
    have e : c :: t ++ lit "=" ++ v = c :: (t ++ 61 :: v) := by simp [lit]
    rw [e]
    simp only [cutFlag, indexByte_append h2.2]
    simp

theorem cutFlag_bare {n : Str} (h : goodName n) : cutFlag n = (n, none) := by
  obtain ⟨h1, h2, _⟩ := h
  cases n with
  | nil => exact absurd rfl h1
  | cons c t =>
    simp only [List.mem_cons, not_or] at h2
    simp only [cutFlag, indexByte_none.2 h2.2]

theorem indexByte_cut {c : UInt8} : ∀ {s : Str} {i : Nat}, indexByte c s = some i → s = s.take i ++ c :: s.drop (i + 1)
  | [], i, h => by simp [indexByte] at h
  | d :: s, i, h => by
    simp only [indexByte] at h
    split at h
    · next hd =>
      obtain rfl : 0 = i := by simpa using h
      simp [hd]
    · cases hi : indexByte c s with
      | none => simp [hi] at h
      | some j =>
        obtain rfl : j + 1 = i := by simpa [hi] using h
        have := indexByte_cut hi
        simp only [List.take_succ_cons, List.drop_succ_cons, List.cons_append]
        rw [← this]

theorem cutFlag_text (s : Str) : s = (cutFlag s).1 ++ (match (cutFlag s).2 with | none => [] | some v => lit "=" ++ v) := by
  cases s with
  | nil => rfl
  | cons c t =>
    simp only [cutFlag]
    cases h : indexByte 61 t with
    | none => simp
    | some i =>
      have := indexByte_cut h
      simp only [List.cons_append]
      rw [show lit "=" ++ t.drop (i + 1) = 61 :: t.drop (i + 1) from rfl, ← this]

theorem flagArg_flag {s text : Str} (h : flagArg s = .flag text) : s = lit "-" ++ text ∨ s = lit "--" ++ text := by
  unfold flagArg at h
  split at h
  · split at h
    · simp at h
    · split at h
      · simp at h
      · obtain rfl := FlagArg.flag.inj h
        exact Or.inr rfl
  · split at h
    · simp at h
    · obtain rfl := FlagArg.flag.inj h
      exact Or.inl rfl
  · simp at h

theorem flagArg_of {dash n t : Str} (hd : dash ∈ [lit "-", lit "--"]) (h : goodName n) : flagArg (dash ++ (n ++ t)) = .flag (n ++ t) := by
  obtain ⟨h1, h2, h3⟩ := h
  cases n with
  | nil => exact absurd rfl h1
  | cons c n =>
    simp only [List.mem_cons, not_or] at h2
    have hc : c ≠ 45 := by simpa using h3
    have hc' : c ≠ 61 := fun e => h2.1 e.symm
    simp only [List.mem_cons, List.not_mem_nil, or_false] at hd
    rcases hd with rfl | rfl
    · show flagArg (45 :: c :: (n ++ t)) = .flag (c :: (n ++ t))
      unfold flagArg
      split
      · next h => simp only [List.cons.injEq] at h; exact absurd h.2.1 hc
      · next h =>
        simp only [List.cons.injEq, true_and] at h
        obtain ⟨rfl, rfl⟩ := h
        simp [hc']
      · next h1 h2 => exact absurd rfl (h2 c _)
    · show flagArg (45 :: 45 :: c :: (n ++ t)) = .flag (c :: (n ++ t))
      simp only [flagArg, hc, hc', or_self, if_false]

theorem flagArg_word {s : Str} : flagArg s = .word ↔ ¬ [45] <+: s ∨ s = [45] := by
  unfold flagArg
  split
  · split
    · simp
    · split <;> simp
  · split <;> simp
  · next h1 h2 =>
    simp only [true_iff]
    cases s with
    | nil => simp
    | cons c t =>
      cases t with
      | nil =>
        by_cases hc : c = 45
        · exact Or.inr (by rw [hc])
        · left
          simp [List.cons_prefix_cons, Ne.symm hc]
      | cons d t =>
        left
        rw [List.cons_prefix_cons]
        rintro ⟨rfl, _⟩
        exact h2 d t rfl

theorem flagArg_stop {s : Str} : flagArg s = .stop ↔ s = lit "--" := by
  unfold flagArg
  constructor
  · intro h
    split at h
    · split at h
      · rfl
      · split at h <;> simp at h
    · split at h <;> simp at h
    · simp at h
  · rintro rfl
    rfl

/-- The flags that are registered have names. -/
def GoodFlags (formal : Str → Option FlagKind) : Prop := ∀ n k, formal n = some k → goodName n

theorem flagParse_written {formal : Str → Option FlagKind} (hg : GoodFlags formal) {x : Str × FlagVal} {args rest : List Str} (h : Written formal x args) :
    flagParse formal (args ++ rest) = (flagParse formal rest).cons x := by
  cases h with
  | @eq dash n v k x hd hf hk hv =>
    have hn := hg n k hf
    have h1 : flagArg (dash ++ n ++ lit "=" ++ v) = .flag (n ++ lit "=" ++ v) := by
      have := flagArg_of (t := lit "=" ++ v) hd hn
      simpa [List.append_assoc] using this
    simp only [List.cons_append, List.nil_append, flagParse, h1, cutFlag_eq hn, hf, (read_iff k v x).2 ⟨hk, hv⟩]
  | @sep dash n v k x hd hf hnb hk hv =>
    have hn := hg n k hf
    have h1 : flagArg (dash ++ n) = .flag n := by simpa using flagArg_of (t := []) hd hn
    simp only [List.cons_append, List.nil_append, flagParse, h1, cutFlag_bare hn, hf, (read_iff k v x).2 ⟨hk, hv⟩, hnb, if_false]
  | @bare dash n hd hf =>
    have hn := hg n _ hf
    have h1 : flagArg (dash ++ n) = .flag n := by simpa using flagArg_of (t := []) hd hn
    simp only [List.cons_append, List.nil_append, flagParse, h1, cutFlag_bare hn, hf, if_true]

theorem FlagRes.cons_ok {r : FlagRes} {x : Str × FlagVal} {set rest} (h : r.cons x = .ok set rest) : ∃ set', r = .ok set' rest ∧ set = x :: set' := by
  cases r with
  | ok s l =>
    simp only [FlagRes.cons, FlagRes.ok.injEq] at h
    exact ⟨s, by rw [h.2], h.1.symm⟩
  | exit c => simp [FlagRes.cons] at h

theorem flagParse_reads {formal : Str → Option FlagKind} : ∀ (k : Nat) (argv : List Str), argv.length ≤ k → ∀ set rest,
    flagParse formal argv = .ok set rest → CmdLine formal argv set rest
  | _, [], _, set, rest, h => by
    simp only [flagParse, FlagRes.ok.injEq] at h
    obtain ⟨rfl, rfl⟩ := h
    exact .done
  | 0, _ :: _, hk, _, _, _ => by simp at hk
  | k + 1, s :: args, hk, set, rest, h => by
    have hk' : args.length ≤ k := by simpa using hk
    have ih := fun a (ha : a.length ≤ k) => flagParse_reads (formal := formal) k a ha
    simp only [flagParse] at h
    split at h
    · next hw =>
      simp only [FlagRes.ok.injEq] at h
      obtain ⟨rfl, rfl⟩ := h
      exact .word (flagArg_word.1 hw)
    · next hs =>
      simp only [FlagRes.ok.injEq] at h
      obtain ⟨rfl, rfl⟩ := h
      rw [flagArg_stop.1 hs]
      exact .stop
    · simp at h
    · next text ht =>
      have hdash : ∃ dash ∈ [lit "-", lit "--"], s = dash ++ text := by
        rcases flagArg_flag ht with h | h
        · exact ⟨_, by simp, h⟩
        · exact ⟨_, by simp, h⟩
      obtain ⟨dash, hd, rfl⟩ := hdash
      have hcut := cutFlag_text text
      split at h
      · simp at h
      · next kind hf =>
        split at h
        · next v hv =>
          split at h
          · simp at h
          · next x hx =>
            obtain ⟨set', h1, rfl⟩ := FlagRes.cons_ok h
            obtain ⟨h2, h3⟩ := (read_iff _ _ _).1 hx
            have := CmdLine.flag (Written.eq hd hf h2 h3) (ih args hk' _ _ h1)
            rw [hv] at hcut
            have e : dash ++ text = dash ++ (cutFlag text).1 ++ lit "=" ++ v := by
              simp only [List.append_assoc]
              rw [← hcut]
            rw [e]
            exact this
        · next hv =>
          rw [hv, List.append_nil] at hcut
          have e : dash ++ text = dash ++ (cutFlag text).1 := by rw [← hcut]
          rw [e]
          split at h
          · next hb =>
            obtain ⟨set', h1, rfl⟩ := FlagRes.cons_ok h
            exact CmdLine.flag (Written.bare hd (hb ▸ hf)) (ih args hk' _ _ h1)
          · next hb =>
            split at h
            · simp at h
            · next v args' =>
              split at h
              · simp at h
              · next x hx =>
                obtain ⟨set', h1, rfl⟩ := FlagRes.cons_ok h
                obtain ⟨h2, h3⟩ := (read_iff _ _ _).1 hx
                exact CmdLine.flag (Written.sep hd hf hb h2 h3) (ih args' (by simp at hk'; omega) _ _ h1)

theorem flagParse_iff {formal : Str → Option FlagKind} (hg : GoodFlags formal) (argv : List Str) (set : List (Str × FlagVal)) (rest : List Str) :
    flagParse formal argv = .ok set rest ↔ CmdLine formal argv set rest := by
  constructor
  · exact flagParse_reads _ argv (Nat.le_refl _) set rest
  · intro h
    induction h with
    | done => rfl
    | word hw => simp only [flagParse, flagArg_word.2 hw]
    | stop => simp only [flagParse, flagArg_stop.2 rfl]
    | flag hw _ ih => rw [flagParse_written hg hw, ih]; rfl

theorem flagValue_given (n : Str) (dflt : FlagVal) : ∀ set : List (Str × FlagVal), Given set n dflt (flagValue set n dflt) := by
  intro set
  induction set generalizing dflt with
  | nil => exact Or.inr ⟨by simp, rfl⟩
  | cons y t ih =>
    simp only [flagValue, List.foldl_cons]
    by_cases hy : y.1 = n
    · rw [if_pos hy]
      rcases ih y.2 with ⟨a, b, h1, h2⟩ | ⟨h1, h2⟩
      · exact Or.inl ⟨y :: a, b, by rw [List.cons_append, ← flagValue, ← h1], h2⟩
      · refine Or.inl ⟨[], t, ?_, h1⟩
        rw [← flagValue, h2, ← hy]
        rfl
    · rw [if_neg hy]
      rcases ih dflt with ⟨a, b, h1, h2⟩ | ⟨h1, h2⟩
      · exact Or.inl ⟨y :: a, b, by rw [List.cons_append, ← flagValue, ← h1], h2⟩
      · refine Or.inr ⟨?_, by rw [← flagValue, h2]⟩
        simp only [List.map_cons, List.mem_cons, not_or]
        exact ⟨Ne.symm hy, h1⟩

theorem Given.unique {set : List (Str × FlagVal)} {n : Str} {dflt x y : FlagVal} (hx : Given set n dflt x) (hy : Given set n dflt y) : x = y := by
  induction set with
  | nil =>
    rcases hx with ⟨a, b, h, _⟩ | ⟨_, rfl⟩
    · simp at h
    · rcases hy with ⟨a, b, h, _⟩ | ⟨_, rfl⟩
      · simp at h
      · rfl
  | cons z t ih =>
    by_cases hm : n ∈ t.map Prod.fst
    · have tail : ∀ x, Given (z :: t) n dflt x → Given t n dflt x := by
        rintro x (⟨a, b, h, hb⟩ | ⟨h, _⟩)
        · cases a with
          | nil =>
            simp only [List.nil_append, List.cons.injEq] at h
            rw [h.2] at hm
            exact absurd hm hb
          | cons w a =>
            simp only [List.cons_append, List.cons.injEq] at h
            exact Or.inl ⟨a, b, h.2, hb⟩
        · exact absurd (List.mem_cons_of_mem _ hm) (by simpa using h)
      exact ih (tail x hx) (tail y hy)
    · have head : ∀ x, Given (z :: t) n dflt x → x = if z.1 = n then z.2 else dflt := by
        rintro x (⟨a, b, h, hb⟩ | ⟨h, rfl⟩)
        · cases a with
          | nil =>
            simp only [List.nil_append, List.cons.injEq] at h
            rw [h.1]
            simp
          | cons w a =>
            simp only [List.cons_append, List.cons.injEq] at h
            exact absurd (by rw [h.2]; simp) hm
        · rw [if_neg]
          intro e
          exact h (by simp [e])
      rw [head x hx, head y hy]

end Ckube

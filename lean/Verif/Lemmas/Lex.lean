import Verif.Model.Labels
import Verif.Lemmas.Str

/-! # Lexing printed selectors -/

namespace Ckube

/-- Bytes that occur in label keys and values. -/
def isWordChar (c : UInt8) : Bool := isNameChar c || c = 47

theorem isWordChar_sep {c : UInt8} (h : isWordChar c = true) :
    c ≠ 0 ∧ isSpecial c = false ∧ isLexWs c = false := by
  revert c
  have := forall_byte (P := fun c => isWordChar c = true → c ≠ 0 ∧ isSpecial c = false ∧ isLexWs c = false)
    (by decide +kernel)
  exact fun {c} => this c

/-- A non-empty text of word characters. -/
def Word (w : Str) : Prop := w ≠ [] ∧ ∀ c ∈ w, isWordChar c = true

/-- The item a word is lexed to. -/
def wordItem (w : Str) : Item := ⟨(tokenOf w).getD .ident, w⟩

theorem valTok_wordItem {w : Str} (h : Word w) : valTok (wordItem w).tok = .ident := by
  have hc : ∀ x : Str, (∃ c ∈ x, isWordChar c = false) → w ≠ x := by
    rintro x ⟨c, hc, hf⟩ rfl
    rw [h.2 c hc] at hf; simp at hf
  simp only [wordItem, tokenOf]
  rw [if_neg (hc _ ⟨41, by decide, by decide⟩), if_neg (hc _ ⟨44, by decide, by decide⟩),
    if_neg (hc _ ⟨33, by decide, by decide⟩), if_neg (hc _ ⟨61, by decide, by decide⟩),
    if_neg (hc _ ⟨61, by decide, by decide⟩), if_neg (hc _ ⟨62, by decide, by decide⟩)]
  split
  · rfl
  · rw [if_neg (hc _ ⟨60, by decide, by decide⟩), if_neg (hc _ ⟨61, by decide, by decide⟩)]
    split
    · rfl
    · rw [if_neg (hc _ ⟨40, by decide, by decide⟩)]; rfl

theorem wordItem_ne_eos {w : Str} (h : Word w) : (wordItem w).tok ≠ .eos := by
  intro he
  have := valTok_wordItem h
  rw [he] at this
  simp [valTok] at this

/-- What may follow a word. -/
def Sep (t : Str) : Prop := ∀ c r, t = c :: r → c ≠ 0 ∧ (isSpecial c || isLexWs c) = true

theorem scanWord_append {w t : Str} (hw : ∀ c ∈ w, isWordChar c = true) (ht : Sep t) :
    scanWord (w ++ t) = (w, t) := by
  induction w with
  | nil =>
    cases t with
    | nil => rfl
    | cons c r =>
      have := ht c r rfl
      simp [scanWord, this.1, this.2]
  | cons c w ih =>
    have hc := isWordChar_sep (hw c (by simp))
    have := ih (fun d hd => hw d (by simp [hd]))
    simp [scanWord, hc.1, hc.2.1, hc.2.2, this]

theorem lex_word {w t : Str} (hw : Word w) (ht : Sep t) : lex (w ++ t) = (wordItem w, t) := by
  obtain ⟨c, r, rfl⟩ := List.exists_cons_of_ne_nil hw.1
  have hc := isWordChar_sep (hw.2 c (by simp))
  have hs := scanWord_append hw.2 ht
  unfold lex
  simp only [List.cons_append] at hs ⊢
  have : skipLexWs (c :: (r ++ t)) = c :: (r ++ t) := by simp [skipLexWs, hc.2.2]
  rw [this]
  simp only [hc.1, hc.2.1, if_false, hs]
  rfl

/-- The symbols of the selector syntax. -/
def symbols : List Str := [[61], [61, 61], [33, 61], [33], [40], [41], [44], [62], [60]]

theorem lex_symbol {u t : Str} (hu : u ∈ symbols) (ht : t.head? ≠ some 61) (ht0 : t.head? ≠ some 0) :
    ∃ k, tokenOf u = some k ∧ lex (u ++ t) = (⟨k, u⟩, t) := by
  have one : ∀ c k, tokenOf [c] = some k → c ≠ 0 → isLexWs c = false → isSpecial c = true →
      (∀ d, d ≠ 61 → tokenOf [c, d] = none) → lex ([c] ++ t) = (⟨k, [c]⟩, t) := by
    intro c k h1 h2 h3 h4 h5
    unfold lex
    simp only [List.singleton_append]
    have : skipLexWs (c :: t) = c :: t := by simp [skipLexWs, h3]
    rw [this]
    simp only [h2, if_false, h4, if_true]
    rw [scanSpecial]
    simp only [h2, if_false, h4, if_true, List.nil_append, h1]
    cases t with
    | nil => rfl
    | cons d r =>
      have hd : d ≠ 61 := by intro h; simp [h] at ht
      have hd0 : d ≠ 0 := by intro h; simp [h] at ht0
      rw [scanSpecial]
      simp only [hd0, if_false, List.singleton_append, h5 d hd]
      split <;> rfl
  have two : ∀ c e k k', tokenOf [c] = some k' → tokenOf [c, e] = some k → c ≠ 0 → isLexWs c = false →
      isSpecial c = true → isSpecial e = true → e ≠ 0 →
      (∀ d, d ≠ 61 → tokenOf [c, e, d] = none) → lex ([c, e] ++ t) = (⟨k, [c, e]⟩, t) := by
    intro c e k k' h1 h1' h2 h3 h4 h4' h2' h5
    unfold lex
    simp only [List.cons_append, List.nil_append]
    have : skipLexWs (c :: e :: t) = c :: e :: t := by simp [skipLexWs, h3]
    rw [this]
    simp only [h2, if_false, h4, if_true]
    rw [scanSpecial]
    simp only [h2, if_false, h4, if_true, List.nil_append, h1]
    rw [scanSpecial]
    simp only [h2', if_false, h4', if_true, List.singleton_append, h1']
    cases t with
    | nil => rfl
    | cons d r =>
      have hd : d ≠ 61 := by intro h; simp [h] at ht
      have hd0 : d ≠ 0 := by intro h; simp [h] at ht0
      rw [scanSpecial]
      simp only [hd0, if_false, List.cons_append, List.nil_append, h5 d hd]
      split <;> rfl
  have dec1 : ∀ c ∈ [61, 33, 40, 41, 44, 62, 60], ∀ d, d ≠ (61 : UInt8) → tokenOf [c, d] = none := by
    intro c hc
    refine forall_byte ?_
    revert c
    decide +kernel
  have dec2 : ∀ c ∈ [61, 33], ∀ d, d ≠ (61 : UInt8) → tokenOf [c, 61, d] = none := by
    intro c hc
    refine forall_byte ?_
    revert c
    decide +kernel
  simp only [symbols, List.mem_cons, List.not_mem_nil, or_false] at hu
  rcases hu with rfl | rfl | rfl | rfl | rfl | rfl | rfl | rfl | rfl
  · exact ⟨_, rfl, one 61 _ rfl (by decide) (by decide) (by decide) (dec1 _ (by simp))⟩
  · exact ⟨_, rfl, two 61 61 _ .eq rfl rfl (by decide) (by decide) (by decide) (by decide) (by decide) (dec2 _ (by simp))⟩
  · exact ⟨_, rfl, two 33 61 _ .bang rfl rfl (by decide) (by decide) (by decide) (by decide) (by decide) (dec2 _ (by simp))⟩
  · exact ⟨_, rfl, one 33 _ rfl (by decide) (by decide) (by decide) (dec1 _ (by simp))⟩
  · exact ⟨_, rfl, one 40 _ rfl (by decide) (by decide) (by decide) (dec1 _ (by simp))⟩
  · exact ⟨_, rfl, one 41 _ rfl (by decide) (by decide) (by decide) (dec1 _ (by simp))⟩
  · exact ⟨_, rfl, one 44 _ rfl (by decide) (by decide) (by decide) (dec1 _ (by simp))⟩
  · exact ⟨_, rfl, one 62 _ rfl (by decide) (by decide) (by decide) (dec1 _ (by simp))⟩
  · exact ⟨_, rfl, one 60 _ rfl (by decide) (by decide) (by decide) (dec1 _ (by simp))⟩

/-! ## Whole token lists -/

/-- `s` is lexed to `is`. -/
def LexesTo (s : Str) (is : List Item) : Prop := ∀ f, s.length + 1 ≤ f → scanAll f s = is

def eosItem : Item := ⟨.eos, []⟩

theorem lexesTo_nil : LexesTo [] [eosItem] := by
  intro f hf
  obtain ⟨f, rfl⟩ : ∃ g, f = g + 1 := ⟨f - 1, by simp at hf; omega⟩
  rfl

theorem lexesTo_word {w t : Str} {is : List Item} (hw : Word w) (ht : Sep t) (h : LexesTo t is) :
    LexesTo (w ++ t) (wordItem w :: is) := by
  intro f hf
  have hl := List.length_pos_iff.mpr hw.1
  rw [List.length_append] at hf
  obtain ⟨f, rfl⟩ : ∃ g, f = g + 1 := ⟨f - 1, by omega⟩
  rw [scanAll, lex_word hw ht, if_neg (wordItem_ne_eos hw), h f (by omega)]

theorem lexesTo_symbol {u t : Str} {is : List Item} {k : LTok} (hu : u ∈ symbols)
    (hk : tokenOf u = some k) (ht : t.head? ≠ some 61) (ht0 : t.head? ≠ some 0) (h : LexesTo t is) :
    LexesTo (u ++ t) (⟨k, u⟩ :: is) := by
  intro f hf
  obtain ⟨k', hk', hl⟩ := lex_symbol hu ht ht0
  rw [hk] at hk'
  cases hk'
  have hne : k ≠ .eos := by
    rintro rfl
    simp only [symbols, List.mem_cons, List.not_mem_nil, or_false] at hu
    rcases hu with rfl | rfl | rfl | rfl | rfl | rfl | rfl | rfl | rfl <;> exact absurd hk (by decide)
  have hpos : 0 < u.length := by
    simp only [symbols, List.mem_cons, List.not_mem_nil, or_false] at hu
    rcases hu with rfl | rfl | rfl | rfl | rfl | rfl | rfl | rfl | rfl <;> simp
  rw [List.length_append] at hf
  obtain ⟨f, rfl⟩ : ∃ g, f = g + 1 := ⟨f - 1, by omega⟩
  rw [scanAll, hl, if_neg hne, h f (by omega)]

theorem lexesTo_space {t : Str} {is : List Item} (h : LexesTo t is) : LexesTo (32 :: t) is := by
  intro f hf
  rw [← h f (by simp at hf; omega)]
  have : lex (32 :: t) = lex t := by
    unfold lex
    have : skipLexWs (32 :: t) = skipLexWs t := by simp [skipLexWs, isLexWs]
    rw [this]
  cases f with
  | zero => rfl
  | succ f => rw [scanAll, scanAll, this]

/-! ## Keys and values are words -/

theorem mem_splitByte {sep c : UInt8} : ∀ {s : Str}, c ∈ s → c = sep ∨ ∃ p ∈ splitByte sep s, c ∈ p
  | [], h => by simp at h
  | d :: s, h => by
    by_cases hd : d = sep
    · rcases List.mem_cons.mp h with rfl | h
      · exact Or.inl hd
      · rcases mem_splitByte (sep := sep) h with h' | ⟨p, hp, hc⟩
        · exact Or.inl h'
        · exact Or.inr ⟨p, by simp [splitByte, hd, hp], hc⟩
    · obtain ⟨p, ps, hp⟩ := List.exists_cons_of_ne_nil (splitByte_ne_nil sep s)
      rcases List.mem_cons.mp h with rfl | h
      · exact Or.inr ⟨c :: p, by simp [splitByte, hd, hp], by simp⟩
      · rcases mem_splitByte (sep := sep) h with h' | ⟨q, hq, hc⟩
        · exact Or.inl h'
        · right
          rw [hp] at hq
          rcases List.mem_cons.mp hq with rfl | hq
          · exact ⟨d :: q, by simp [splitByte, hd, hp], by simp [hc]⟩
          · exact ⟨q, by simp [splitByte, hd, hp, hq], hc⟩

theorem word_of_nameOk {s : Str} (h : nameOk s = true) : Word s := by
  simp only [nameOk, Bool.and_eq_true, List.all_eq_true] at h
  refine ⟨?_, fun c hc => by simp [isWordChar, h.1.1 c hc]⟩
  rintro rfl
  simp at h

theorem value_chars {v : Str} (h : validLabelValue v = true) : ∀ c ∈ v, isWordChar c = true := by
  simp only [validLabelValue, Bool.and_eq_true, Bool.or_eq_true] at h
  rcases h.2 with h | h
  · intro c hc
    simp at h; simp [h] at hc
  · exact (word_of_nameOk h).2

theorem word_of_value {v : Str} (h : validLabelValue v = true) (hne : v ≠ []) : Word v :=
  ⟨hne, value_chars h⟩

theorem dns_chars {p : Str} (h : dnsOk p = true) : ∀ c ∈ p, isWordChar c = true := by
  intro c hc
  simp only [dnsOk, Bool.and_eq_true, List.all_eq_true] at h
  rcases mem_splitByte (sep := 46) hc with rfl | ⟨q, hq, hcq⟩
  · decide
  · have := h.2 q hq
    simp only [dnsPartOk, Bool.and_eq_true, List.all_eq_true] at this
    have hd := this.1.1 c hcq
    have key : ∀ c : UInt8, (isDnsChar c || c = 45) = true → isWordChar c = true :=
      forall_byte (by decide +kernel)
    exact key c hd

theorem word_of_key {k : Str} (h : validLabelKey k = true) : Word k := by
  unfold validLabelKey at h
  constructor
  · rintro rfl
    exact absurd h (by decide)
  · intro c hc
    rcases mem_splitByte (sep := 47) hc with rfl | ⟨q, hq, hcq⟩
    · decide
    · split at h
      · rename_i n hn
        rw [hn] at hq
        rw [List.mem_singleton] at hq
        subst hq
        simp only [qnameOk, Bool.and_eq_true] at h
        exact (word_of_nameOk h.2).2 c hcq
      · rename_i p n hn
        rw [hn] at hq
        simp only [Bool.and_eq_true] at h
        simp only [List.mem_cons, List.not_mem_nil, or_false] at hq
        rcases hq with rfl | rfl
        · exact dns_chars h.1 c hcq
        · simp only [qnameOk, Bool.and_eq_true] at h
          exact (word_of_nameOk h.2.2).2 c hcq
      · simp at h

end Ckube

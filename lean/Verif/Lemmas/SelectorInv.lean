import Verif.Lemmas.SelectorGrammar

/-! # Only selector texts are read -/

namespace Ckube
open Spec

/-- A run of bytes that are neither signs nor blanks. -/
def RawWord (w : Str) : Prop := w ≠ [] ∧ ∀ c ∈ w, c ≠ 0 ∧ isSpecial c = false ∧ isLexWs c = false

/-- The signs and their tokens. -/
def signTokens : List (Str × LTok) :=
  [([61], .eq), ([61, 61], .deq), ([33, 61], .neq), ([33], .bang), ([40], .openPar), ([41], .closePar), ([44], .comma), ([62], .gt), ([60], .lt)]

theorem valTok_raw {w : Str} (h : RawWord w) : valTok (wordItem w).tok = .ident := by
  have hc : ∀ x : Str, (∃ c ∈ x, isSpecial c = true) → w ≠ x := by
    rintro x ⟨c, hc, hf⟩ rfl
    rw [(h.2 c hc).2.1] at hf; simp at hf
  simp only [wordItem, tokenOf]
  rw [if_neg (hc _ ⟨41, by decide, by decide⟩), if_neg (hc _ ⟨44, by decide, by decide⟩),
    if_neg (hc _ ⟨33, by decide, by decide⟩), if_neg (hc _ ⟨61, by decide, by decide⟩),
    if_neg (hc _ ⟨61, by decide, by decide⟩), if_neg (hc _ ⟨62, by decide, by decide⟩)]
  split
  · rfl
  · rw [if_neg (hc _ ⟨60, by decide, by decide⟩), if_neg (hc _ ⟨61, by decide, by decide⟩)]
    split
    · rfl
    · rw [if_neg (hc _ ⟨40, by decide, by decide⟩)]; rfl

theorem raw_ne_eos {w : Str} (h : RawWord w) : (wordItem w).tok ≠ .eos := by
  intro he
  have := valTok_raw h
  rw [he] at this
  simp [valTok] at this

/-- A text and its items, piece by piece. -/
inductive Lexes : Str → List Item → Prop
  | done {a : Str} : Blank a → Lexes a [eosItem]
  | word {a w t : Str} {is : List Item} : Blank a → RawWord w → Sep t → Lexes t is → Lexes (a ++ (w ++ t)) (wordItem w :: is)
  | sign {a u t : Str} {k : LTok} {is : List Item} : Blank a → (u, k) ∈ signTokens → Lexes t is → Lexes (a ++ (u ++ t)) (⟨k, u⟩ :: is)

theorem skip_blank : ∀ s : Str, ∃ a, s = a ++ skipLexWs s ∧ Blank a ∧ ∀ c r, skipLexWs s = c :: r → isLexWs c = false
  | [] => ⟨[], rfl, by simp [Blank], by simp [skipLexWs]⟩
  | c :: s => by
    by_cases h : isLexWs c = true
    · obtain ⟨a, h1, h2, h3⟩ := skip_blank s
      have hs : skipLexWs (c :: s) = skipLexWs s := by simp [skipLexWs, h]
      rw [hs]
      refine ⟨c :: a, by rw [List.cons_append, ← h1], fun d hd => ?_, h3⟩
      rcases List.mem_cons.mp hd with rfl | hd
      · exact (blank_iff _).mpr h
      · exact h2 d hd
    · have h' : isLexWs c = false := by simpa using h
      refine ⟨[], by simp [skipLexWs, h'], by simp [Blank], fun d r hd => ?_⟩
      simp only [skipLexWs, h', Bool.false_eq_true, if_false] at hd
      cases hd
      exact h'

theorem scanWord_inv : ∀ {s : Str}, (0 : UInt8) ∉ s → s = (scanWord s).1 ++ (scanWord s).2 ∧ Sep (scanWord s).2
    ∧ ∀ c ∈ (scanWord s).1, c ≠ 0 ∧ isSpecial c = false ∧ isLexWs c = false
  | [], _ => ⟨rfl, sep_nil, by simp [scanWord]⟩
  | c :: s, h0 => by
    have hc : c ≠ 0 := fun h => h0 (by simp [h])
    have hs : (0 : UInt8) ∉ s := fun h => h0 (by simp [h])
    rw [scanWord, if_neg hc]
    split
    · rename_i hsep
      refine ⟨rfl, ?_, by simp⟩
      intro d r hd
      cases hd
      exact ⟨hc, hsep⟩
    · rename_i hsep
      have hsep : isSpecial c = false ∧ isLexWs c = false := by simpa using hsep
      obtain ⟨h1, h2, h3⟩ := scanWord_inv hs
      refine ⟨by rw [List.cons_append, ← h1], h2, fun d hd => ?_⟩
      rcases List.mem_cons.mp hd with rfl | hd
      · exact ⟨hc, hsep⟩
      · exact h3 d hd

theorem special_cases (c : UInt8) : isSpecial c = true → c = 61 ∨ c = 33 ∨ c = 40 ∨ c = 41 ∨ c = 44 ∨ c = 62 ∨ c = 60 := by
  revert c; exact forall_byte (by decide +kernel)

theorem tokenOf_one (c : UInt8) : isSpecial c = true → ∃ k, tokenOf [c] = some k ∧ ([c], k) ∈ signTokens := by
  intro h
  rcases special_cases c h with rfl | rfl | rfl | rfl | rfl | rfl | rfl
  · exact ⟨.eq, by decide, by decide⟩
  · exact ⟨.bang, by decide, by decide⟩
  · exact ⟨.openPar, by decide, by decide⟩
  · exact ⟨.closePar, by decide, by decide⟩
  · exact ⟨.comma, by decide, by decide⟩
  · exact ⟨.gt, by decide, by decide⟩
  · exact ⟨.lt, by decide, by decide⟩

theorem tokenOf_two (c d : UInt8) (h : isSpecial c = true) (hd : isSpecial d = true) : (∃ k, tokenOf [c, d] = some k ∧ ([c, d], k) ∈ signTokens) ∨ tokenOf [c, d] = none := by
  rcases special_cases c h with rfl | rfl | rfl | rfl | rfl | rfl | rfl <;>
  rcases special_cases d hd with rfl | rfl | rfl | rfl | rfl | rfl | rfl <;>
  first
  | exact Or.inr (by decide)
  | exact Or.inl ⟨.deq, by decide, by decide⟩
  | exact Or.inl ⟨.neq, by decide, by decide⟩

theorem tokenOf_three (c d e : UInt8) (h : isSpecial c = true) : tokenOf [c, d, e] = none := by
  have hc : ∀ x : Str, x.length ≠ 3 ∨ x.head? ≠ some c → [c, d, e] ≠ x := by
    rintro x hx rfl
    simp at hx
  simp only [tokenOf]
  rw [if_neg (hc _ (Or.inl (by decide))), if_neg (hc _ (Or.inl (by decide))), if_neg (hc _ (Or.inl (by decide))),
    if_neg (hc _ (Or.inl (by decide))), if_neg (hc _ (Or.inl (by decide))), if_neg (hc _ (Or.inl (by decide))),
    if_neg (hc _ (Or.inl (by decide))), if_neg (hc _ (Or.inl (by decide))), if_neg (hc _ (Or.inl (by decide))),
    if_neg (hc _ (Or.inl (by decide))), if_neg (hc _ (Or.inl (by decide)))]

theorem scanSpecial_inv {c : UInt8} {r : Str} (h : isSpecial c = true) (h0 : (0 : UInt8) ∉ c :: r) :
    ∃ u k, scanSpecial [] none (c :: r) = (⟨k, u⟩, (scanSpecial [] none (c :: r)).2) ∧ (u, k) ∈ signTokens ∧ c :: r = u ++ (scanSpecial [] none (c :: r)).2 := by
  have hc : c ≠ 0 := fun h => h0 (by simp [h])
  obtain ⟨k, hk, hm⟩ := tokenOf_one c h
  have e1 : scanSpecial [] none (c :: r) = scanSpecial [c] (some ⟨k, [c]⟩) r := by
    rw [scanSpecial]
    simp only [hc, if_false, h, if_true, List.nil_append, hk]
  rw [e1]
  cases r with
  | nil => exact ⟨[c], k, rfl, hm, rfl⟩
  | cons d r =>
    have hd : d ≠ 0 := fun h => h0 (by simp [h])
    by_cases hds : isSpecial d = true
    · rcases tokenOf_two c d h hds with ⟨k2, hk2, hm2⟩ | hnone
      · have e2 : scanSpecial [c] (some ⟨k, [c]⟩) (d :: r) = scanSpecial [c, d] (some ⟨k2, [c, d]⟩) r := by
          rw [scanSpecial]
          simp only [hd, if_false, hds, if_true, List.singleton_append, hk2]
        rw [e2]
        cases r with
        | nil => exact ⟨[c, d], k2, rfl, hm2, rfl⟩
        | cons e r =>
          have he : e ≠ 0 := fun h => h0 (by simp [h])
          have e3 : scanSpecial [c, d] (some ⟨k2, [c, d]⟩) (e :: r) = (⟨k2, [c, d]⟩, e :: r) := by
            rw [scanSpecial]
            simp only [he, if_false, List.cons_append, List.nil_append, tokenOf_three c d e h]
            split <;> rfl
          rw [e3]
          exact ⟨[c, d], k2, rfl, hm2, rfl⟩
      · have e2 : scanSpecial [c] (some ⟨k, [c]⟩) (d :: r) = (⟨k, [c]⟩, d :: r) := by
          rw [scanSpecial]
          simp only [hd, if_false, hds, if_true, List.singleton_append, hnone]
        rw [e2]
        exact ⟨[c], k, rfl, hm, rfl⟩
    · have e2 : scanSpecial [c] (some ⟨k, [c]⟩) (d :: r) = (⟨k, [c]⟩, d :: r) := by
        rw [scanSpecial]
        simp only [hd, if_false, hds]
        rfl
      rw [e2]
      exact ⟨[c], k, rfl, hm, rfl⟩

theorem sign_ne_eos {u : Str} {k : LTok} (h : (u, k) ∈ signTokens) : k ≠ .eos ∧ u ≠ [] := by
  simp only [signTokens, List.mem_cons, List.not_mem_nil, or_false, Prod.mk.injEq] at h
  rcases h with ⟨rfl, rfl⟩ | ⟨rfl, rfl⟩ | ⟨rfl, rfl⟩ | ⟨rfl, rfl⟩ | ⟨rfl, rfl⟩ | ⟨rfl, rfl⟩ | ⟨rfl, rfl⟩ | ⟨rfl, rfl⟩ | ⟨rfl, rfl⟩ <;> simp

/-- Every text without NUL bytes is cut into pieces. -/
theorem lexes_scan : ∀ (n : Nat) (s : Str), s.length ≤ n → (0 : UInt8) ∉ s → ∀ f, s.length + 1 ≤ f → Lexes s (scanAll f s)
  | n, s, hn, h0, f, hf => by
    obtain ⟨f, rfl⟩ : ∃ g, f = g + 1 := ⟨f - 1, by omega⟩
    obtain ⟨a, h1, h2, h3⟩ := skip_blank s
    cases hs : skipLexWs s with
    | nil =>
      have hl : lex s = (eosItem, []) := by unfold lex; rw [hs]; rfl
      rw [scanAll, hl]
      rw [hs, List.append_nil] at h1
      rw [h1]
      exact .done h2
    | cons c r =>
      rw [hs] at h1
      have hcr : (0 : UInt8) ∉ c :: r := fun h => h0 (by rw [h1]; simp at h ⊢; tauto)
      have hc0 : c ≠ 0 := fun h => hcr (by simp [h])
      have hlen : (c :: r).length ≤ s.length := by rw [h1]; simp
      by_cases hsp : isSpecial c = true
      · obtain ⟨u, k, e1, e2, e3⟩ := scanSpecial_inv hsp hcr
        have hl : lex s = (⟨k, u⟩, (scanSpecial [] none (c :: r)).2) := by
          unfold lex
          rw [hs]
          simp only [hc0, if_false, hsp, if_true]
          exact e1
        generalize (scanSpecial [] none (c :: r)).2 = t at hl e3
        obtain ⟨hk, hu⟩ := sign_ne_eos e2
        have hu' := List.length_pos_iff.mpr hu
        have ht : t.length < (c :: r).length := by rw [e3, List.length_append]; omega
        rw [scanAll, hl]
        simp only [hk, if_false]
        cases n with
        | zero => simp at hlen; omega
        | succ n =>
          have ih := lexes_scan n t (by omega) (fun h => hcr (by rw [e3]; simp [h])) f (by omega)
          rw [h1, e3]
          exact .sign h2 e2 ih
      · obtain ⟨w1, w2, w3⟩ := scanWord_inv hcr
        have hl : lex s = (wordItem (scanWord (c :: r)).1, (scanWord (c :: r)).2) := by
          unfold lex
          rw [hs]
          simp only [hc0, if_false, hsp]
          rfl
        have hne : (scanWord (c :: r)).1 ≠ [] := by
          rw [scanWord, if_neg hc0, if_neg (by simp [hsp, h3 c r hs])]
          simp
        generalize (scanWord (c :: r)).1 = w at hl w1 w3 hne
        generalize (scanWord (c :: r)).2 = t at hl w1 w2
        have hraw : RawWord w := ⟨hne, w3⟩
        have hu' := List.length_pos_iff.mpr hne
        have ht : t.length < (c :: r).length := by rw [w1, List.length_append]; omega
        rw [scanAll, hl]
        simp only [raw_ne_eos hraw, if_false]
        cases n with
        | zero => simp at hlen; omega
        | succ n =>
          have ih := lexes_scan n t (by omega) (fun h => hcr (by rw [w1]; simp [h])) f (by omega)
          rw [h1, w1]
          exact .word h2 hraw w2 ih

/-! ## Taking items apart -/

theorem sign_tok {u : Str} {k : LTok} (h : (u, k) ∈ signTokens) : valTok k = k ∧ k ≠ .ident ∧ k ≠ .isIn ∧ k ≠ .notIn
    ∧ (k = .eq → u = lit "=") ∧ (k = .deq → u = lit "==") ∧ (k = .neq → u = lit "!=") ∧ (k = .bang → u = [33]) ∧ (k = .openPar → u = [40])
    ∧ (k = .closePar → u = [41]) ∧ (k = .comma → u = [44]) ∧ (k = .gt → u = lit ">") ∧ (k = .lt → u = lit "<") := by
  simp only [signTokens, List.mem_cons, List.not_mem_nil, or_false, Prod.mk.injEq] at h
  rcases h with ⟨rfl, rfl⟩ | ⟨rfl, rfl⟩ | ⟨rfl, rfl⟩ | ⟨rfl, rfl⟩ | ⟨rfl, rfl⟩ | ⟨rfl, rfl⟩ | ⟨rfl, rfl⟩ | ⟨rfl, rfl⟩ | ⟨rfl, rfl⟩ <;> decide +kernel

theorem Lexes.ne_nil {s : Str} (h : Lexes s []) : False := by cases h

/-- An identifier comes from a word. -/
theorem Lexes.ident {s : Str} {i : Item} {is : List Item} (h : Lexes s (i :: is)) (hi : valTok i.tok = .ident) :
    ∃ a t, s = a ++ (i.text ++ t) ∧ Blank a ∧ RawWord i.text ∧ i = wordItem i.text ∧ Sep t ∧ Lexes t is := by
  cases h with
  | done ha => exact absurd hi (by decide)
  | @word a w t _ ha hw ht hl => exact ⟨a, t, rfl, ha, hw, rfl, ht, hl⟩
  | @sign a u t k _ ha hu hl =>
    obtain ⟨h1, h2, -⟩ := sign_tok hu
    simp only [h1] at hi
    exact absurd hi h2

/-- A sign comes from itself. -/
theorem Lexes.tok {s : Str} {i : Item} {is : List Item} (h : Lexes s (i :: is)) (hi : valTok i.tok ≠ .ident) (he : valTok i.tok ≠ .eos) :
    ∃ a t, s = a ++ (i.text ++ t) ∧ Blank a ∧ (i.text, i.tok) ∈ signTokens ∧ Lexes t is := by
  cases h with
  | done ha => exact absurd rfl he
  | @word a w t _ ha hw ht hl => exact absurd (valTok_raw hw) hi
  | @sign a u t k _ ha hu hl => exact ⟨a, t, rfl, ha, hu, hl⟩

/-- The end comes from blanks. -/
theorem Lexes.eos {s : Str} {i : Item} {is : List Item} (h : Lexes s (i :: is)) (hi : valTok i.tok = .eos) : Blank s := by
  cases h with
  | done ha => exact ha
  | @word a w t _ ha hw ht hl => rw [valTok_raw hw] at hi; simp at hi
  | @sign a u t k _ ha hu hl =>
    obtain ⟨h1, -⟩ := sign_tok hu
    simp only [h1] at hi
    exact absurd hi (sign_ne_eos hu).1

theorem valTok_comma {t : LTok} : valTok t = .comma ↔ t = .comma := by cases t <;> simp [valTok]
theorem valTok_close {t : LTok} : valTok t = .closePar ↔ t = .closePar := by cases t <;> simp [valTok]
theorem valTok_open {t : LTok} : valTok t = .openPar ↔ t = .openPar := by cases t <;> simp [valTok]
theorem valTok_bang {t : LTok} : valTok t = .bang ↔ t = .bang := by cases t <;> simp [valTok]

theorem Lexes.comma {s : Str} {i : Item} {is : List Item} (h : Lexes s (i :: is)) (hi : valTok i.tok = .comma) :
    ∃ a t, s = a ++ 44 :: t ∧ Blank a ∧ Lexes t is := by
  obtain ⟨a, t, h1, h2, h3, h4⟩ := h.tok (by rw [hi]; decide) (by rw [hi]; decide)
  have := (sign_tok h3).2.2.2.2.2.2.2.2.2.2.1 (valTok_comma.mp hi)
  exact ⟨a, t, by rw [h1, this]; rfl, h2, h4⟩

theorem Lexes.close {s : Str} {i : Item} {is : List Item} (h : Lexes s (i :: is)) (hi : valTok i.tok = .closePar) :
    ∃ a t, s = a ++ 41 :: t ∧ Blank a ∧ Lexes t is := by
  obtain ⟨a, t, h1, h2, h3, h4⟩ := h.tok (by rw [hi]; decide) (by rw [hi]; decide)
  have := (sign_tok h3).2.2.2.2.2.2.2.2.2.1 (valTok_close.mp hi)
  exact ⟨a, t, by rw [h1, this]; rfl, h2, h4⟩

theorem Lexes.opened {s : Str} {i : Item} {is : List Item} (h : Lexes s (i :: is)) (hi : valTok i.tok = .openPar) :
    ∃ a t, s = a ++ 40 :: t ∧ Blank a ∧ Lexes t is := by
  obtain ⟨a, t, h1, h2, h3, h4⟩ := h.tok (by rw [hi]; decide) (by rw [hi]; decide)
  have := (sign_tok h3).2.2.2.2.2.2.2.2.1 (valTok_open.mp hi)
  exact ⟨a, t, by rw [h1, this]; rfl, h2, h4⟩

theorem Lexes.bang {s : Str} {i : Item} {is : List Item} (h : Lexes s (i :: is)) (hi : valTok i.tok = .bang) :
    ∃ a t, s = a ++ 33 :: t ∧ Blank a ∧ Lexes t is := by
  obtain ⟨a, t, h1, h2, h3, h4⟩ := h.tok (by rw [hi]; decide) (by rw [hi]; decide)
  have := (sign_tok h3).2.2.2.2.2.2.2.1 (valTok_bang.mp hi)
  exact ⟨a, t, by rw [h1, this]; rfl, h2, h4⟩

/-! ## Lists of values -/

/-- Whether the parser gets through a list of values after a comma. -/
def restOk : List Str → Bool
  | [] => false
  | v :: vs => if v.isEmpty then (match vs with | [] => true | _ :: _ => listOk vs) else listOk (v :: vs)

theorem listOk_restOk (v w : Str) (vs : List Str) : listOk (v :: w :: vs) = restOk (w :: vs) := listOk_cons v w vs

theorem listSays_ne {vs : List Str} {x : Str} (h : ListSays vs x) : vs ≠ [] := by cases h <;> simp

theorem listOk_more {v : Str} {vs : List Str} (hne : vs ≠ []) (h : restOk vs = true) : listOk (v :: vs) = true := by
  obtain ⟨w, ws, rfl⟩ := List.exists_cons_of_ne_nil hne
  rw [listOk_restOk, h]

theorem idents_tok {f : Nat} {acc : List Str} {i : Item} {is : List Item} {p : List Str × List Item} (h : pIdents (f + 1) acc (i :: is) = some p) :
    valTok i.tok = .ident ∨ valTok i.tok = .comma := by
  rw [pIdents] at h
  generalize valTok i.tok = k at h
  cases k <;> simp at h ⊢

theorem idents_ident {f : Nat} {acc : List Str} {i : Item} {is : List Item} {p : List Str × List Item} (hi : valTok i.tok = .ident)
    (h : pIdents (f + 1) acc (i :: is) = some p) :
    (ahead is = .comma ∧ pIdents f (i.text :: acc) is = some p) ∨ (ahead is = .closePar ∧ (i.text :: acc, is) = p) := by
  rw [pIdents, hi] at h
  dsimp only at h
  generalize ahead is = k at h
  cases k
  case comma => exact Or.inl ⟨rfl, h⟩
  case closePar => exact Or.inr ⟨rfl, Option.some.inj h⟩
  all_goals exact absurd h (by simp)

theorem idents_comma {f : Nat} {acc : List Str} {i : Item} {is : List Item} {p : List Str × List Item} (hne : acc ≠ []) (hi : valTok i.tok = .comma)
    (h : pIdents (f + 1) acc (i :: is) = some p) :
    (ahead is = .closePar ∧ ([] :: acc, is) = p) ∨ (ahead is = .comma ∧ pIdents f ([] :: acc) is.tail = some p)
      ∨ (ahead is ≠ .comma ∧ pIdents f acc is = some p) := by
  rw [pIdents, hi] at h
  have he : acc.isEmpty = false := by cases acc with | nil => exact absurd rfl hne | cons _ _ => rfl
  simp only [he, Bool.false_eq_true, if_false] at h
  generalize ahead is = k at h
  cases k
  case comma => exact Or.inr (Or.inl ⟨rfl, h⟩)
  case closePar => exact Or.inl ⟨rfl, Option.some.inj h⟩
  all_goals exact Or.inr (Or.inr ⟨by simp, h⟩)

theorem idents_first {f : Nat} {i : Item} {is : List Item} (hi : valTok i.tok = .comma) : pIdents (f + 1) [[]] (i :: is) = pIdents (f + 1) [] (i :: is) := by
  rw [pIdents, pIdents, hi]
  rfl

theorem idents_inv : ∀ (f : Nat),
    (∀ (acc : List Str) (is : List Item) (s : Str) (acc' : List Str) (r : List Item), Lexes s is → (acc = [] ∨ [] ∈ acc ∨ ahead is ≠ .comma) →
      pIdents f acc is = some (acc', r) → ∃ vs x t, s = x ++ t ∧ ListSays vs x ∧ Lexes t r ∧ ahead r = .closePar ∧ listOk vs = true
        ∧ (ahead is = .comma ∨ vs.head? ≠ some []) ∧ ∀ y, y ∈ acc' ↔ y ∈ acc ∨ y ∈ vs)
    ∧ (∀ (acc : List Str) (is : List Item) (s : Str) (acc' : List Str) (r : List Item), Lexes s is → acc ≠ [] → ahead is = .comma →
      pIdents f acc is = some (acc', r) → ∃ vs x t b, s = b ++ 44 :: (x ++ t) ∧ Blank b ∧ ListSays vs x ∧ Lexes t r ∧ ahead r = .closePar ∧ restOk vs = true
        ∧ ∀ y, y ∈ acc' ↔ y ∈ acc ∨ y ∈ vs)
  | 0 => ⟨by intro acc is s acc' r _ _ h; simp [pIdents] at h, by intro acc is s acc' r _ _ _ h; simp [pIdents] at h⟩
  | f + 1 => by
    obtain ⟨ihA, ihC⟩ := idents_inv f
    have C : ∀ (acc : List Str) (is : List Item) (s : Str) (acc' : List Str) (r : List Item), Lexes s is → acc ≠ [] → ahead is = .comma →
        pIdents (f + 1) acc is = some (acc', r) → ∃ vs x t b, s = b ++ 44 :: (x ++ t) ∧ Blank b ∧ ListSays vs x ∧ Lexes t r ∧ ahead r = .closePar
          ∧ restOk vs = true ∧ ∀ y, y ∈ acc' ↔ y ∈ acc ∨ y ∈ vs := by
      intro acc is s acc' r hl hne ha hp
      cases is with
      | nil => exact hl.ne_nil.elim
      | cons i is =>
        have hi : valTok i.tok = .comma := ha
        obtain ⟨b, t, hs, hb, hl'⟩ := hl.comma hi
        rcases idents_comma hne hi hp with ⟨h1, h2⟩ | ⟨h1, h2⟩ | ⟨h1, h2⟩
        · obtain ⟨rfl, rfl⟩ := Prod.mk.inj h2
          refine ⟨[[]], [], t, b, by simpa using hs, hb, ?_, hl', h1, rfl, fun y => by simp [or_comm]⟩
          have := ListSays.one (a := []) (v := []) (b := []) (by simp [Blank]) (by simp [Blank])
          simpa using this
        · cases is with
          | nil => exact hl'.ne_nil.elim
          | cons j js =>
            obtain ⟨b2, t2, hs2, hb2, hl2⟩ := hl'.comma h1
            obtain ⟨vs, x, t3, e1, e2, e3, e4, e5, -, e6⟩ := ihA ([] :: acc) js t2 acc' r hl2 (Or.inr (Or.inl (by simp))) h2
            refine ⟨[] :: vs, b2 ++ 44 :: x, t3, b, ?_, hb, ?_, e3, e4, ?_, fun y => by rw [e6]; simp; tauto⟩
            · rw [hs, hs2, e1]; simp
            · have := ListSays.more (a := b2) (v := []) (b := []) hb2 (by simp [Blank]) e2
              simpa using this
            · obtain ⟨w, ws, rfl⟩ := List.exists_cons_of_ne_nil (listSays_ne e2)
              simpa [restOk] using e5
        · obtain ⟨vs, x, t3, e1, e2, e3, e4, e5, e6, e7⟩ := ihA acc is t acc' r hl' (Or.inr (Or.inr h1)) h2
          refine ⟨vs, x, t3, b, by rw [hs, e1], hb, e2, e3, e4, ?_, e7⟩
          obtain ⟨w, ws, rfl⟩ := List.exists_cons_of_ne_nil (listSays_ne e2)
          have hw : w ≠ [] := by simpa using e6.resolve_left h1
          simpa [restOk, hw] using e5
    refine ⟨?_, C⟩
    intro acc is s acc' r hl hacc hp
    cases is with
    | nil => exact hl.ne_nil.elim
    | cons i is =>
      rcases idents_tok hp with hi | hi
      · obtain ⟨a, t, e1, e2, e3, e4, e5, e6⟩ := hl.ident hi
        rcases idents_ident hi hp with ⟨h1, h2⟩ | ⟨h1, h2⟩
        · obtain ⟨vs, x, t2, b, c1, c2, c3, c4, c5, c6, c7⟩ := ihC (i.text :: acc) is t acc' r e6 (by simp) h1 h2
          refine ⟨i.text :: vs, a ++ i.text ++ b ++ 44 :: x, t2, by rw [e1, c1]; simp, .more e2 c2 c3, c4, c5, listOk_more (listSays_ne c3) c6,
              Or.inr (by simpa using e3.1), fun y => by rw [c7]; simp; tauto⟩
        · obtain ⟨rfl, rfl⟩ := Prod.mk.inj h2
          refine ⟨[i.text], a ++ i.text ++ [], t, by rw [e1]; simp, .one e2 (by simp [Blank]), e6, h1, ?_, Or.inr (by simpa using e3.1), fun y => by simp [or_comm]⟩
          simpa [listOk] using e3.1
      · have hp' : ∃ acc1, acc1 ≠ [] ∧ pIdents (f + 1) acc1 (i :: is) = some (acc', r) ∧ ∀ y, (y ∈ acc1 ↔ y ∈ acc ∨ y = []) := by
          by_cases h0 : acc = []
          · exact ⟨[[]], by simp, by rw [idents_first hi, ← h0, hp], by simp [h0]⟩
          · refine ⟨acc, h0, hp, fun y => ⟨Or.inl, ?_⟩⟩
            rintro (h | rfl)
            · exact h
            · rcases hacc with h | h | h
              · exact absurd h h0
              · exact h
              · exact absurd hi h
        obtain ⟨acc1, g1, g2, g3⟩ := hp'
        obtain ⟨vs, x, t, b, e1, e2, e3, e4, e5, e6, e7⟩ := C acc1 (i :: is) s acc' r hl g1 hi g2
        refine ⟨[] :: vs, b ++ 44 :: x, t, by rw [e1]; simp, ?_, e4, e5, listOk_more (listSays_ne e3) e6, Or.inl hi, fun y => by rw [e7, g3]; simp; tauto⟩
        have := ListSays.more (a := b) (v := []) (b := []) e2 (by simp [Blank]) e3
        simpa using this

theorem listSays_blank {vs : List Str} {x b : Str} (h : ListSays vs x) (hb : Blank b) : ListSays vs (x ++ b) := by
  induction h with
  | one h1 h2 =>
    rw [List.append_assoc]
    exact .one h1 (blank_append h2 hb)
  | more h1 h2 _ ih =>
    rw [List.append_assoc, List.cons_append]
    exact .more h1 h2 ih

/-- A list in parentheses. -/
theorem values_inv {s : Str} {is r : List Item} {vs : List Str} (hl : Lexes s is) (h : pValues is = some (vs, r)) (hne : vs ≠ []) :
    ∃ ws b x t, s = b ++ 40 :: x ++ 41 :: t ∧ Blank b ∧ ListSays ws x ∧ Lexes t r ∧ listOk ws = true ∧ vs = setList ws := by
  unfold pValues at h
  cases is with
  | nil => exact hl.ne_nil.elim
  | cons i is =>
    dsimp only at h
    by_cases hi : valTok i.tok = .openPar
    · rw [if_neg (by simp [hi])] at h
      obtain ⟨b, t, e1, e2, e3⟩ := hl.opened hi
      have hp : ∃ acc j r2, pIdents (is.length + 1) [] is = some (acc, j :: r2) ∧ setList acc = vs ∧ r2 = r := by
        have hcase : (match pIdents (is.length + 1) [] is with
            | none => none
            | some (vs, r1) => match r1 with
              | [] => none
              | j :: r2 => if valTok j.tok = .closePar then some (setList vs, r2) else none) = some (vs, r) := by
          generalize ahead is = k at h
          cases k
          case ident => exact h
          case comma => exact h
          case closePar => exact absurd (Prod.mk.inj (Option.some.inj h)).1.symm hne
          all_goals exact absurd h (by simp)
        cases hpi : pIdents (is.length + 1) [] is with
        | none => rw [hpi] at hcase; simp at hcase
        | some p =>
          obtain ⟨acc, r1⟩ := p
          rw [hpi] at hcase
          dsimp only at hcase
          cases r1 with
          | nil => simp at hcase
          | cons j r2 =>
            dsimp only at hcase
            split at hcase
            · obtain ⟨h1, h2⟩ := Prod.mk.inj (Option.some.inj hcase)
              exact ⟨acc, j, r2, rfl, h1, h2⟩
            · simp at hcase
      obtain ⟨acc, j, r2, h1, h2, rfl⟩ := hp
      obtain ⟨ws, x, t2, c1, c2, c3, c4, c5, -, c6⟩ := (idents_inv _).1 [] is t acc (j :: r2) e3 (Or.inl rfl) h1
      obtain ⟨b2, t3, d1, d2, d3⟩ := c3.close c4
      refine ⟨ws, b, x ++ b2, t3, by rw [e1, c1, d1]; simp, e2, listSays_blank c2 d2, d3, c5, ?_⟩
      rw [← h2]
      exact setList_congr fun y => by rw [c6]; simp
    · rw [if_pos hi] at h
      simp at h

theorem newReq_inv {k : Str} {op : Op} {vs : List Str} {q : Req} (h : newReq k op vs = some q) :
    q = ⟨k, op, vs⟩ ∧ LegalLabelKey k ∧ okVals op vs = true ∧ ∀ v ∈ vs, LegalLabelValue v := by
  obtain ⟨h1, h2, h3⟩ := newReq_eq_some h
  refine ⟨h1, legal_key.mpr h2, ?_, fun v hv => legal_value.mpr (h3 v hv)⟩
  unfold newReq at h
  split at h
  · rename_i hok
    simp only [Bool.and_eq_true] at hok
    exact hok.1.2
  · simp at h

theorem word_keyword {w : Str} (h : RawWord w) {op : Op} (ho : pOperator (wordItem w).tok = some op) :
    (op, w) ∈ [(Op.isIn, lit "in"), (Op.notIn, lit "notin")] := by
  have hv := valTok_raw h
  by_cases h1 : w = lit "in"
  · subst h1
    have : pOperator (wordItem (lit "in")).tok = some .isIn := by decide +kernel
    rw [this] at ho
    cases ho
    simp
  · by_cases h2 : w = lit "notin"
    · subst h2
      have : pOperator (wordItem (lit "notin")).tok = some .notIn := by decide +kernel
      rw [this] at ho
      cases ho
      simp
    · exfalso
      generalize ht : (wordItem w).tok = k at ho hv
      cases k <;> simp [valTok] at hv
      case ident => simp [pOperator] at ho
      case isIn =>
        simp only [wordItem, tokenOf] at ht
        repeat' split at ht
        all_goals first | contradiction | simp at ht
      case notIn =>
        simp only [wordItem, tokenOf] at ht
        repeat' split at ht
        all_goals first | contradiction | simp at ht

/-- A sign that is an operator. -/
theorem sign_operator {u : Str} {k : LTok} {op : Op} (h : (u, k) ∈ signTokens) (ho : pOperator k = some op) : (op, u) ∈ signs := by
  simp only [signTokens, List.mem_cons, List.not_mem_nil, or_false, Prod.mk.injEq] at h
  rcases h with ⟨rfl, rfl⟩ | ⟨rfl, rfl⟩ | ⟨rfl, rfl⟩ | ⟨rfl, rfl⟩ | ⟨rfl, rfl⟩ | ⟨rfl, rfl⟩ | ⟨rfl, rfl⟩ | ⟨rfl, rfl⟩ | ⟨rfl, rfl⟩ <;>
    first
    | (obtain rfl := Option.some.inj ho; decide +kernel)
    | exact absurd ho (by simp [pOperator])

/-- One value or none. -/
theorem exact_inv {s : Str} {is r : List Item} {vs : List Str} (hl : Lexes s is) (h : pExact is = some (vs, r)) :
    ∃ v b t, s = b ++ v ++ t ∧ Blank b ∧ Lexes t r ∧ vs = [v] := by
  unfold pExact at h
  cases is with
  | nil => exact hl.ne_nil.elim
  | cons i is =>
    have hc : (ahead (i :: is) = .eos ∨ ahead (i :: is) = .comma) ∧ ([[]], i :: is) = (vs, r) ∨ valTok i.tok = .ident ∧ ([i.text], is) = (vs, r) := by
      rw [ahead_cons] at h ⊢
      generalize valTok i.tok = k at h
      cases k
      case eos => exact Or.inl ⟨Or.inl rfl, Option.some.inj h⟩
      case comma => exact Or.inl ⟨Or.inr rfl, Option.some.inj h⟩
      case ident => exact Or.inr ⟨rfl, Option.some.inj h⟩
      all_goals exact absurd h (by simp)
    rcases hc with ⟨-, he⟩ | ⟨hi, he⟩
    · obtain ⟨rfl, rfl⟩ := Prod.mk.inj he
      exact ⟨[], [], s, by simp, by simp [Blank], hl, rfl⟩
    · obtain ⟨rfl, rfl⟩ := Prod.mk.inj he
      obtain ⟨a, t, e1, e2, e3, e4, e5, e6⟩ := hl.ident hi
      exact ⟨i.text, a, t, by rw [e1]; simp, e2, e6, rfl⟩

/-- What is read as a requirement is the text of one. -/
theorem term_inv {s : Str} {is r : List Item} {q : Req} (hl : Lexes s is) (h : pReq is = some (q, r)) :
    ∃ a x t q0, s = a ++ (x ++ t) ∧ Blank a ∧ TermSays q0 x ∧ Lexes t r ∧ SameReq q0 q := by
  unfold pReq at h
  cases is with
  | nil => exact hl.ne_nil.elim
  | cons i is =>
    dsimp only at h
    by_cases hb : valTok i.tok = .bang
    · rw [if_pos hb] at h
      obtain ⟨a, t, e1, e2, e3⟩ := hl.bang hb
      unfold pReqBody at h
      cases is with
      | nil => exact e3.ne_nil.elim
      | cons j js =>
        dsimp only at h
        by_cases hi : valTok j.tok = .ident
        · rw [if_neg (by simp [hi])] at h
          by_cases hk : validLabelKey j.text = true
          · rw [if_neg (by simp [hk]), if_pos rfl, Option.map_eq_some_iff] at h
            obtain ⟨q', h1, h2⟩ := h
            obtain ⟨rfl, rfl⟩ := Prod.mk.inj h2
            obtain ⟨rfl, -, -, -⟩ := newReq_inv h1
            obtain ⟨b, t2, c1, c2, c3, c4, c5, c6⟩ := e3.ident hi
            refine ⟨a, 33 :: (b ++ j.text), t2, _, by rw [e1, c1]; simp, e2, .absent c2 (legal_key.mpr hk), c6, rfl, rfl, fun v => Iff.rfl⟩
          · rw [if_pos (by simpa using hk)] at h
            simp at h
        · rw [if_pos hi] at h
          simp at h
    · rw [if_neg hb] at h
      unfold pReqBody at h
      dsimp only at h
      by_cases hi : valTok i.tok = .ident
      · rw [if_neg (by simp [hi])] at h
        obtain ⟨a, t, e1, e2, e3, e4, e5, e6⟩ := hl.ident hi
        by_cases hk : validLabelKey i.text = true
        · rw [if_neg (by simp [hk]), if_neg (by simp)] at h
          have hkey := legal_key.mpr hk
          by_cases hend : ahead is = .eos ∨ ahead is = .comma
          · rw [if_pos hend, Option.map_eq_some_iff] at h
            obtain ⟨q', h1, h2⟩ := h
            obtain ⟨rfl, rfl⟩ := Prod.mk.inj h2
            obtain ⟨rfl, -, -, -⟩ := newReq_inv h1
            exact ⟨a, i.text, t, _, e1, e2, .exist hkey, e6, rfl, rfl, fun v => Iff.rfl⟩
          · rw [if_neg hend] at h
            cases is with
            | nil => simp at h
            | cons o os =>
              dsimp only at h
              cases ho : pOperator o.tok with
              | none => rw [ho] at h; simp at h
              | some op =>
                rw [ho] at h
                dsimp only at h
                by_cases hid : valTok o.tok = .ident
                · obtain ⟨b, t2, c1, c2, c3, c4, c5, c6⟩ := e6.ident hid
                  rw [c4] at ho
                  have hkw := word_keyword c3 ho
                  have hop : op = .isIn ∨ op = .notIn := by
                    simp only [List.mem_cons, List.not_mem_nil, or_false, Prod.mk.injEq] at hkw
                    rcases hkw with h | h
                    · exact Or.inl h.1
                    · exact Or.inr h.1
                  rw [if_pos hop] at h
                  cases hpv : pValues os with
                  | none => rw [hpv] at h; simp at h
                  | some p =>
                    obtain ⟨vs, r2⟩ := p
                    rw [hpv] at h
                    simp only [Option.map_eq_some_iff] at h
                    obtain ⟨q', h1, h2⟩ := h
                    obtain ⟨rfl, rfl⟩ := Prod.mk.inj h2
                    obtain ⟨rfl, -, hok, hlegal⟩ := newReq_inv h1
                    have hne : vs ≠ [] := by
                      rintro rfl
                      rcases hop with rfl | rfl <;> simp [okVals] at hok
                    obtain ⟨ws, b2, x, t3, d1, d2, d3, d4, d5, d6⟩ := values_inv c6 hpv hne
                    subst d6
                    refine ⟨a, i.text ++ b ++ o.text ++ b2 ++ 40 :: x ++ [41], t3, ⟨i.text, op, ws⟩, by rw [e1, c1, d1]; simp, e2,
                      .among hkey c2 ?_ hkw d2 d3 (fun v hv => hlegal v (mem_setList.mpr hv)) ((listOk_iff ws).mp d5), d4, rfl, rfl, fun v => mem_setList⟩
                    rintro rfl
                    obtain ⟨c, cs, hc⟩ := List.exists_cons_of_ne_nil c3.1
                    have := e5 c (cs ++ t2) (by rw [c1, hc]; simp)
                    have hc' := c3.2 c (by rw [hc]; simp)
                    simp [hc'.2.1, hc'.2.2] at this
                · obtain ⟨b, t2, c1, c2, c3, c4⟩ := e6.tok hid (fun h => hend (Or.inl h))
                  have hsg := sign_operator c3 ho
                  have hop : ¬ (op = .isIn ∨ op = .notIn) := by
                    simp only [signs, List.mem_cons, List.not_mem_nil, or_false, Prod.mk.injEq] at hsg
                    rcases hsg with h | h | h | h | h <;> rw [h.1] <;> simp
                  rw [if_neg hop] at h
                  cases hpv : pExact os with
                  | none => rw [hpv] at h; simp at h
                  | some p =>
                    obtain ⟨vs, r2⟩ := p
                    rw [hpv] at h
                    simp only [Option.map_eq_some_iff] at h
                    obtain ⟨q', h1, h2⟩ := h
                    obtain ⟨rfl, rfl⟩ := Prod.mk.inj h2
                    obtain ⟨rfl, -, hok, hlegal⟩ := newReq_inv h1
                    obtain ⟨v, b2, t3, d1, d2, d3, rfl⟩ := exact_inv c4 hpv
                    refine ⟨a, i.text ++ b ++ o.text ++ b2 ++ v, t3, _, by rw [e1, c1, d1]; simp, e2,
                      .compare hkey c2 hsg d2 (hlegal v (by simp)) ?_, d3, rfl, rfl, fun v => Iff.rfl⟩
                    intro hgl
                    have hsome : (parseInt64 v).isSome = true := by
                      rcases hgl with rfl | rfl <;> simpa [okVals] using hok
                    obtain ⟨n, hn⟩ := Option.isSome_iff_exists.mp hsome
                    exact ⟨n, parseInt64_means.mp hn⟩
        · rw [if_pos (by simpa using hk)] at h
          simp at h
      · rw [if_pos hi] at h
        simp at h

theorem selector_inv : ∀ (f : Nat) (s : Str) (is : List Item) (qs : List Req), Lexes s is → pReqs f is = some qs →
    ∃ qs0, SelectorSays qs0 s ∧ List.Forall₂ SameReq qs0 qs
  | 0, _, _, _, _, h => by simp [pReqs] at h
  | f + 1, s, is, qs, hl, h => by
    rw [pReqs] at h
    have hc : (ahead is = .eos ∧ qs = []) ∨ ∃ q i r, pReq is = some (q, i :: r) ∧ ((valTok i.tok = .eos ∧ qs = [q])
        ∨ (valTok i.tok = .comma ∧ (ahead r = .ident ∨ ahead r = .bang) ∧ ∃ qs', pReqs f r = some qs' ∧ qs = q :: qs')) := by
      have hcase : ahead is = .eos ∧ qs = [] ∨ (match pReq is with
          | none => none
          | some (q, r) => match r with
            | [] => none
            | i :: r1 => match valTok i.tok with
              | .eos => some [q]
              | .comma => if ahead r1 = .ident ∨ ahead r1 = .bang then (pReqs f r1).map (q :: ·) else none
              | _ => none) = some qs := by
        generalize ahead is = k at h
        cases k
        case ident => exact Or.inr h
        case bang => exact Or.inr h
        case eos => exact Or.inl ⟨rfl, (Option.some.inj h).symm⟩
        all_goals exact absurd h (by simp)
      rcases hcase with h | h
      · exact Or.inl h
      · right
        cases hp : pReq is with
        | none => rw [hp] at h; simp at h
        | some p =>
          obtain ⟨q, r⟩ := p
          rw [hp] at h
          dsimp only at h
          cases r with
          | nil => simp at h
          | cons i r =>
            dsimp only at h
            refine ⟨q, i, r, rfl, ?_⟩
            generalize valTok i.tok = k at h
            cases k
            case eos => exact Or.inl ⟨rfl, (Option.some.inj h).symm⟩
            case comma =>
              right
              dsimp only at h
              by_cases ha : ahead r = .ident ∨ ahead r = .bang
              · rw [if_pos ha, Option.map_eq_some_iff] at h
                obtain ⟨qs', h1, h2⟩ := h
                exact ⟨rfl, ha, qs', h1, h2.symm⟩
              · rw [if_neg ha] at h; simp at h
            all_goals exact absurd h (by simp)
    rcases hc with ⟨h1, rfl⟩ | ⟨q, i, r, h1, h2⟩
    · cases is with
      | nil => exact hl.ne_nil.elim
      | cons i is => exact ⟨[], .none (hl.eos h1), .nil⟩
    · obtain ⟨a, x, t, q0, e1, e2, e3, e4, e5⟩ := term_inv hl h1
      rcases h2 with ⟨h2, rfl⟩ | ⟨h2, h3, qs', h4, rfl⟩
      · refine ⟨[q0], ?_, .cons e5 .nil⟩
        rw [e1, ← List.append_assoc]
        exact .one e2 e3 (e4.eos h2)
      · obtain ⟨b, t2, c1, c2, c3⟩ := e4.comma h2
        obtain ⟨qs0, g1, g2⟩ := selector_inv f t2 r qs' c3 h4
        have hne : qs0 ≠ [] := by
          rintro rfl
          cases g2
          cases f with
          | zero => simp [pReqs] at h4
          | succ f =>
            rw [pReqs] at h4
            exfalso
            cases hp : pReq r with
            | none => rcases h3 with h3 | h3 <;> rw [h3, hp] at h4 <;> simp at h4
            | some p =>
              obtain ⟨q', r'⟩ := p
              cases r' with
              | nil => rcases h3 with h3 | h3 <;> rw [h3, hp] at h4 <;> simp at h4
              | cons j r' =>
                have : (match valTok j.tok with
                  | .eos => some [q']
                  | .comma => if ahead r' = .ident ∨ ahead r' = .bang then (pReqs f r').map (q' :: ·) else none
                  | _ => none) = some [] := by
                  rcases h3 with h3 | h3 <;> rw [h3, hp] at h4 <;> exact h4
                generalize valTok j.tok = k at this
                cases k
                case comma =>
                  dsimp only at this
                  split at this
                  · rw [Option.map_eq_some_iff] at this
                    obtain ⟨_, _, h⟩ := this
                    simp at h
                  · simp at this
                all_goals exact absurd this (by simp)
        obtain ⟨q1, qs1, rfl⟩ := List.exists_cons_of_ne_nil hne
        refine ⟨q0 :: q1 :: qs1, ?_, .cons e5 g2⟩
        rw [e1, c1]
        have := SelectorSays.more e2 e3 c2 g1
        simpa [List.append_assoc] using this

theorem says_parse {s : Str} {out : List Req} (h0 : (0 : UInt8) ∉ s) (h : parseReqs s = some out) : ∃ qs, SelectorSays qs s := by
  unfold parseReqs at h
  rw [Option.map_eq_some_iff] at h
  obtain ⟨qs, h1, -⟩ := h
  obtain ⟨qs0, h2, -⟩ := selector_inv _ s _ qs (lexes_scan s.length s (Nat.le_refl _) h0 _ (Nat.le_refl _)) h1
  exact ⟨qs0, h2⟩

end Ckube

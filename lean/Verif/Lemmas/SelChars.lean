import Verif.Lemmas.Selector

/-! # A selector text with a `;` cannot be parsed

The lexer takes `;` as part of an identifier, and every identifier has to be a label key or a label value. -/

namespace Ckube

/-! ## The lexer -/

theorem tokenOf_ne_eos {s : Str} {t : LTok} (h : tokenOf s = some t) : t ≠ .eos := by
  unfold tokenOf at h
  rintro rfl
  repeat' split at h
  all_goals simp at h

theorem tokenOf_semicolon {s : Str} (h : (59 : UInt8) ∈ s) : tokenOf s = none := by
  unfold tokenOf
  have no : ∀ {w : Str}, (59 : UInt8) ∉ w → s ≠ w := by rintro w hw rfl; exact hw h
  rw [if_neg (no (by decide)), if_neg (no (by decide)), if_neg (no (by decide)), if_neg (no (by decide)), if_neg (no (by decide)),
    if_neg (no (by decide)), if_neg (no (by decide)), if_neg (no (by decide)), if_neg (no (by decide)), if_neg (no (by decide)),
    if_neg (no (by decide))]

theorem skipLexWs_semicolon (w : Str) : ∀ u : Str, ∃ u', skipLexWs (u ++ 59 :: w) = u' ++ 59 :: w ∧ u' <:+ u
  | [] => ⟨[], by simp [skipLexWs, isLexWs], List.suffix_rfl⟩
  | c :: u => by
    rw [List.cons_append, skipLexWs]
    split
    · obtain ⟨u', h1, h2⟩ := skipLexWs_semicolon w u
      exact ⟨u', h1, h2.trans (List.suffix_cons c u)⟩
    · exact ⟨c :: u, rfl, List.suffix_rfl⟩

theorem scanWord_semicolon (w : Str) : ∀ u : Str, (0 : UInt8) ∉ u →
    (59 : UInt8) ∈ (scanWord (u ++ 59 :: w)).1 ∨ ∃ u', (scanWord (u ++ 59 :: w)).2 = u' ++ 59 :: w ∧ u' <:+ u
  | [], _ => by
    left
    simp [scanWord, isSpecial, isLexWs]
  | c :: u, h0 => by
    have hc : c ≠ 0 := fun h => h0 (by simp [h])
    rw [List.cons_append, scanWord, if_neg hc]
    split
    · exact Or.inr ⟨c :: u, rfl, List.suffix_rfl⟩
    · rcases scanWord_semicolon w u (fun h => h0 (by simp [h])) with h | ⟨u', h1, h2⟩
      · exact Or.inl (List.mem_cons_of_mem _ h)
      · exact Or.inr ⟨u', h1, h2.trans (List.suffix_cons c u)⟩

theorem scanSpecial_semicolon (w : Str) : ∀ (u buf : Str) (last : Option Item), (0 : UInt8) ∉ u → (∀ i, last = some i → i.tok ≠ .eos) →
    ∃ i u', scanSpecial buf last (u ++ 59 :: w) = (i, u' ++ 59 :: w) ∧ u' <:+ u ∧ i.tok ≠ .eos
  | [], buf, last, _, hl => by
    refine ⟨last.getD ⟨.error, []⟩, [], by simp [scanSpecial, isSpecial], List.suffix_rfl, ?_⟩
    cases last with
    | none => simp
    | some i => exact hl i rfl
  | c :: u, buf, last, h0, hl => by
    have hc : c ≠ 0 := fun h => h0 (by simp [h])
    have h0' : (0 : UInt8) ∉ u := fun h => h0 (by simp [h])
    rw [List.cons_append, scanSpecial.eq_def]
    simp only
    rw [if_neg hc]
    split
    · split
      · rename_i t ht
        obtain ⟨i, u', h1, h2, h3⟩ := scanSpecial_semicolon w u (buf ++ [c]) (some ⟨t, buf ++ [c]⟩) h0' (by
          intro i hi
          obtain rfl := Option.some.inj hi
          exact tokenOf_ne_eos ht)
        exact ⟨i, u', h1, h2.trans (List.suffix_cons c u), h3⟩
      · cases last with
        | some i => exact ⟨i, c :: u, rfl, List.suffix_rfl, hl i rfl⟩
        | none =>
          obtain ⟨i, u', h1, h2, h3⟩ := scanSpecial_semicolon w u (buf ++ [c]) none h0' (by simp)
          exact ⟨i, u', h1, h2.trans (List.suffix_cons c u), h3⟩
    · refine ⟨last.getD ⟨.error, []⟩, c :: u, rfl, List.suffix_rfl, ?_⟩
      cases last with
      | none => simp
      | some i => exact hl i rfl

/-- One step of the lexer before a `;`: it reads an identifier with the `;`, or stops before it. -/
theorem lex_semicolon (w u : Str) (h0 : (0 : UInt8) ∉ u) :
    (lex (u ++ 59 :: w)).1.tok ≠ .eos
      ∧ (((lex (u ++ 59 :: w)).1.tok = .ident ∧ (59 : UInt8) ∈ (lex (u ++ 59 :: w)).1.text)
        ∨ ∃ u', (lex (u ++ 59 :: w)).2 = u' ++ 59 :: w ∧ u' <:+ u ∧ u'.length < u.length) := by
  obtain ⟨v, hv, hvu⟩ := skipLexWs_semicolon w u
  have h0v : (0 : UInt8) ∉ v := fun h => h0 (hvu.subset h)
  unfold lex
  rw [hv]
  have word : ∀ v : Str, (0 : UInt8) ∉ v → ((tokenOf (scanWord (v ++ 59 :: w)).1).getD .ident ≠ .eos) := by
    intro v _
    cases ht : tokenOf (scanWord (v ++ 59 :: w)).1 with
    | none => simp
    | some t => exact tokenOf_ne_eos ht
  cases v with
  | nil =>
    have hin : (59 : UInt8) ∈ (scanWord (59 :: w)).1 := by simp [scanWord, isSpecial, isLexWs]
    have e1 : ¬ ((59 : UInt8) = 0) := by decide
    have e2 : ¬ (isSpecial 59 = true) := by decide
    simp only [List.nil_append]
    rw [if_neg e1, if_neg e2, tokenOf_semicolon hin]
    exact ⟨by simp, Or.inl ⟨rfl, hin⟩⟩
  | cons c v =>
    have hc : c ≠ 0 := fun h => h0v (by simp [h])
    have h0' : (0 : UInt8) ∉ v := fun h => h0v (by simp [h])
    have hlen : v.length < u.length := by
      have := hvu.length_le
      simp at this
      omega
    have hsuf : v <:+ u := (List.suffix_cons c v).trans hvu
    simp only [List.cons_append]
    rw [if_neg hc]
    split
    · rename_i hsp
      rw [scanSpecial, if_neg hc, if_pos hsp]
      split
      · rename_i t ht
        obtain ⟨i, u', h1, h2, h3⟩ := scanSpecial_semicolon w v ([] ++ [c]) (some ⟨t, [] ++ [c]⟩) h0' (by
          intro i hi
          obtain rfl := Option.some.inj hi
          exact tokenOf_ne_eos ht)
        rw [h1]
        exact ⟨h3, Or.inr ⟨u', rfl, h2.trans hsuf, Nat.lt_of_le_of_lt h2.length_le hlen⟩⟩
      · obtain ⟨i, u', h1, h2, h3⟩ := scanSpecial_semicolon w v ([] ++ [c]) none h0' (by simp)
        rw [h1]
        exact ⟨h3, Or.inr ⟨u', rfl, h2.trans hsuf, Nat.lt_of_le_of_lt h2.length_le hlen⟩⟩
    · rename_i hsp
      have hw := word (c :: v) h0v
      simp only [List.cons_append] at hw
      refine ⟨hw, ?_⟩
      have hws : isLexWs c = false := by
        have h : skipLexWs (u ++ 59 :: w) = c :: (v ++ 59 :: w) := hv
        have : ∀ (s : Str) (c : UInt8) (r : Str), skipLexWs s = c :: r → isLexWs c = false := by
          intro s
          induction s with
          | nil => intro c r h; simp [skipLexWs] at h
          | cons a s ih =>
            intro c r h
            rw [skipLexWs] at h
            split at h
            · exact ih c r h
            · rename_i ha
              simp only [List.cons.injEq] at h
              rw [← h.1]
              simpa using ha
        exact this _ _ _ h
      rw [scanWord, if_neg hc, if_neg (by simp [hws, hsp])]
      rcases scanWord_semicolon w v h0' with h | ⟨u', h1, h2⟩
      · have hm : (59 : UInt8) ∈ c :: (scanWord (v ++ 59 :: w)).1 := List.mem_cons_of_mem _ h
        simp only
        rw [tokenOf_semicolon hm]
        exact Or.inl ⟨rfl, hm⟩
      · exact Or.inr ⟨u', h1, h2.trans hsuf, Nat.lt_of_le_of_lt h2.length_le hlen⟩

theorem scanAll_semicolon (w : Str) : ∀ (f : Nat) (u : Str), (0 : UInt8) ∉ u → u.length + 1 ≤ f →
    ∃ i ∈ scanAll f (u ++ 59 :: w), i.tok = .ident ∧ (59 : UInt8) ∈ i.text
  | 0, u, _, h => by omega
  | f + 1, u, h0, h => by
    obtain ⟨h1, h2⟩ := lex_semicolon w u h0
    rw [scanAll, if_neg h1]
    rcases h2 with h2 | ⟨u', h3, h4, h5⟩
    · exact ⟨_, List.mem_cons_self, h2⟩
    · obtain ⟨i, hi, h⟩ := scanAll_semicolon w f u' (fun h => h0 (h4.subset h)) (by omega)
      rw [h3]
      exact ⟨i, List.mem_cons_of_mem _ hi, h⟩

/-- The item for the end of the text comes last. -/
def EosLast (is : List Item) : Prop := ∀ a i b, is = a ++ i :: b → i.tok = .eos → b = []

theorem EosLast.drop {a is : List Item} (h : EosLast (a ++ is)) : EosLast is := by
  intro x i b hx
  exact h (a ++ x) i b (by rw [hx, List.append_assoc])

theorem scanAll_eosLast : ∀ (f : Nat) (s : Str), EosLast (scanAll f s)
  | 0, s => by
    intro a i b h _
    rw [scanAll] at h
    cases a with
    | nil => exact (List.cons.inj h).2.symm
    | cons x a => simp at h
  | f + 1, s => by
    intro a i b h hi
    rw [scanAll] at h
    split at h
    · cases a with
      | nil => exact (List.cons.inj h).2.symm
      | cons x a => simp at h
    · rename_i hne
      cases a with
      | nil =>
        simp only [List.nil_append, List.cons.injEq] at h
        rw [h.1] at hne
        exact absurd hi hne
      | cons x a =>
        simp only [List.cons_append, List.cons.injEq] at h
        exact scanAll_eosLast f _ a i b h.2 hi

/-! ## The parser -/

/-- Items that were read, with the texts of the identifiers among them. -/
def Took (vs : List Str) (c : List Item) : Prop := ∀ i ∈ c, i.tok = .ident → i.text ∈ vs

theorem pIdents_took : ∀ (f : Nat) (acc : List Str) (is : List Item) (vs : List Str) (r : List Item),
    pIdents f acc is = some (vs, r) → (∀ x ∈ acc, x ∈ vs) ∧ ∃ c, is = c ++ r ∧ Took vs c
  | 0, acc, is, vs, r, h => by simp [pIdents] at h
  | f + 1, acc, [], vs, r, h => by simp [pIdents] at h
  | f + 1, acc, i :: is, vs, r, h => by
    rw [pIdents] at h
    split at h
    · split at h
      · obtain ⟨h1, c, h2, h3⟩ := pIdents_took f _ _ _ _ h
        refine ⟨fun x hx => h1 x (by simp [hx]), i :: c, by rw [h2]; rfl, ?_⟩
        intro j hj hjt
        rcases List.mem_cons.mp hj with rfl | hj
        · exact h1 _ (by simp)
        · exact h3 j hj hjt
      · simp only [Option.some.injEq, Prod.mk.injEq] at h
        obtain ⟨rfl, rfl⟩ := h
        exact ⟨fun x hx => by simp [hx], [i], rfl, fun j hj _ => by rw [List.mem_singleton] at hj; simp [hj]⟩
      · simp at h
    · rename_i hc
      have hi : i.tok ≠ .ident := by
        intro hh
        rw [hh] at hc
        simp [valTok] at hc
      have hacc : ∀ x ∈ acc, x ∈ (if acc.isEmpty then [[]] else acc) := by
        intro x hx
        cases acc with
        | nil => simp at hx
        | cons a b => simpa using hx
      simp only at h
      split at h
      · simp only [Option.some.injEq, Prod.mk.injEq] at h
        obtain ⟨rfl, rfl⟩ := h
        exact ⟨fun x hx => List.mem_cons_of_mem _ (hacc x hx), [i], rfl,
          fun j hj hjt => by rw [List.mem_singleton] at hj; subst hj; exact absurd hjt hi⟩
      · rename_i hah
        obtain ⟨h1, c, h2, h3⟩ := pIdents_took f _ _ _ _ h
        cases is with
        | nil => simp [ahead] at hah
        | cons j is =>
          rw [List.tail_cons] at h2
          refine ⟨fun x hx => h1 x (List.mem_cons_of_mem _ (hacc x hx)), i :: j :: c, by rw [h2]; rfl, ?_⟩
          intro k hk hkt
          rcases List.mem_cons.mp hk with rfl | hk
          · exact absurd hkt hi
          · rcases List.mem_cons.mp hk with rfl | hk
            · rw [ahead_cons, hkt] at hah
              simp [valTok] at hah
            · exact h3 k hk hkt
      · obtain ⟨h1, c, h2, h3⟩ := pIdents_took f _ _ _ _ h
        refine ⟨fun x hx => h1 x (hacc x hx), i :: c, by rw [h2]; rfl, ?_⟩
        intro k hk hkt
        rcases List.mem_cons.mp hk with rfl | hk
        · exact absurd hkt hi
        · exact h3 k hk hkt
    · simp at h

theorem ne_ident_of_valTok {i : Item} {t : LTok} (h : valTok i.tok = t) (ht : t ≠ .ident) : i.tok ≠ .ident := by
  intro hi
  rw [hi] at h
  exact ht h.symm

theorem pValues_took {is : List Item} {vs : List Str} {r : List Item} (h : pValues is = some (vs, r)) :
    ∃ c, is = c ++ r ∧ Took vs c := by
  unfold pValues at h
  cases is with
  | nil => simp at h
  | cons i is =>
    simp only at h
    split at h
    · simp at h
    · rename_i ho
      have hi : i.tok ≠ .ident := ne_ident_of_valTok (not_not.mp ho) (by decide)
      have step : (match pIdents (is.length + 1) [] is with
          | none => none
          | some (vs, r1) =>
            match r1 with
            | [] => none
            | j :: r2 => if valTok j.tok = .closePar then some (setList vs, r2) else none) = some (vs, r) →
          ∃ c, i :: is = c ++ r ∧ Took vs c := by
        intro h
        split at h
        · simp at h
        · rename_i vs' r1 hp
          obtain ⟨_, c, h2, h3⟩ := pIdents_took _ _ _ _ _ hp
          split at h
          · simp at h
          · rename_i j r2
            split at h
            · rename_i hj
              simp only [Option.some.injEq, Prod.mk.injEq] at h
              obtain ⟨rfl, rfl⟩ := h
              refine ⟨i :: (c ++ [j]), by rw [h2]; simp, ?_⟩
              intro k hk hkt
              rcases List.mem_cons.mp hk with rfl | hk
              · exact absurd hkt hi
              · rcases List.mem_append.mp hk with hk | hk
                · exact mem_setList.mpr (h3 k hk hkt)
                · rw [List.mem_singleton] at hk
                  subst hk
                  exact absurd hkt (ne_ident_of_valTok hj (by decide))
            · simp at h
      split at h
      · exact step h
      · exact step h
      · rename_i hah
        simp only [Option.some.injEq, Prod.mk.injEq] at h
        obtain ⟨rfl, rfl⟩ := h
        cases is with
        | nil => simp [ahead] at hah
        | cons j is =>
          refine ⟨[i, j], rfl, ?_⟩
          intro k hk hkt
          simp only [List.mem_cons, List.not_mem_nil, or_false] at hk
          rcases hk with rfl | rfl
          · exact absurd hkt hi
          · exact absurd hkt (ne_ident_of_valTok hah (by decide))
      · simp at h

theorem pExact_took {is : List Item} {vs : List Str} {r : List Item} (h : pExact is = some (vs, r)) :
    ∃ c, is = c ++ r ∧ Took vs c := by
  unfold pExact at h
  split at h
  · simp only [Option.some.injEq, Prod.mk.injEq] at h
    exact ⟨[], by rw [h.2]; rfl, by simp [Took]⟩
  · simp only [Option.some.injEq, Prod.mk.injEq] at h
    exact ⟨[], by rw [h.2]; rfl, by simp [Took]⟩
  · split at h
    · simp at h
    · rename_i i r' _
      simp only [Option.some.injEq, Prod.mk.injEq] at h
      obtain ⟨rfl, rfl⟩ := h
      exact ⟨[i], rfl, fun k hk _ => by rw [List.mem_singleton] at hk; simp [hk]⟩
  · simp at h

/-- Identifiers that were read are made of the characters of keys and values. -/
def WordsOnly (c : List Item) : Prop := ∀ i ∈ c, i.tok = .ident → ∀ b ∈ i.text, isWordChar b = true

theorem pReqBody_words {neg : Bool} {is : List Item} {q : Req} {r : List Item} (h : pReqBody neg is = some (q, r)) :
    ∃ c, is = c ++ r ∧ WordsOnly c := by
  unfold pReqBody at h
  cases is with
  | nil => simp at h
  | cons i is =>
    simp only at h
    split at h
    · simp at h
    · split at h
      · simp at h
      · rename_i hk
        have hw : ∀ b ∈ i.text, isWordChar b = true := (word_of_key (by simpa using hk)).2
        have one : WordsOnly [i] := fun k hk _ => by rw [List.mem_singleton] at hk; rw [hk]; exact hw
        split at h
        · rw [Option.map_eq_some_iff] at h
          obtain ⟨_, _, he⟩ := h
          simp only [Prod.mk.injEq] at he
          exact ⟨[i], by rw [he.2]; rfl, one⟩
        · split at h
          · rw [Option.map_eq_some_iff] at h
            obtain ⟨_, _, he⟩ := h
            simp only [Prod.mk.injEq] at he
            exact ⟨[i], by rw [he.2]; rfl, one⟩
          · split at h
            · simp at h
            · rename_i o r1 _
              split at h
              · simp at h
              · rename_i op hop
                have ho : o.tok ≠ .ident := by
                  intro ho
                  rw [ho] at hop
                  simp [pOperator] at hop
                have fin : ∀ vs r2 c, r1 = c ++ r2 → Took vs c → ((newReq i.text op vs).map (·, r2)) = some (q, r) →
                    ∃ c, i :: o :: r1 = c ++ r ∧ WordsOnly c := by
                  intro vs r2 c h1 h2 h
                  rw [Option.map_eq_some_iff] at h
                  obtain ⟨q', hq, he⟩ := h
                  simp only [Prod.mk.injEq] at he
                  refine ⟨i :: o :: c, by rw [h1, he.2]; rfl, ?_⟩
                  intro k hk hkt
                  rcases List.mem_cons.mp hk with rfl | hk
                  · exact hw
                  · rcases List.mem_cons.mp hk with rfl | hk
                    · exact absurd hkt ho
                    · exact value_chars ((newReq_eq_some hq).2.2 _ (h2 k hk hkt))
                split at h
                · simp at h
                · rename_i vs r2 hv
                  by_cases hop2 : op = .isIn ∨ op = .notIn
                  · rw [if_pos hop2] at hv
                    obtain ⟨c, h1, h2⟩ := pValues_took hv
                    exact fin vs r2 c h1 h2 h
                  · rw [if_neg hop2] at hv
                    obtain ⟨c, h1, h2⟩ := pExact_took hv
                    exact fin vs r2 c h1 h2 h

theorem pReq_words {is : List Item} {q : Req} {r : List Item} (h : pReq is = some (q, r)) : ∃ c, is = c ++ r ∧ WordsOnly c := by
  unfold pReq at h
  cases is with
  | nil => simp at h
  | cons i is =>
    simp only at h
    split at h
    · rename_i hb
      obtain ⟨c, h1, h2⟩ := pReqBody_words h
      refine ⟨i :: c, by rw [h1]; rfl, ?_⟩
      intro k hk hkt
      rcases List.mem_cons.mp hk with rfl | hk
      · exact absurd hkt (ne_ident_of_valTok hb (by decide))
      · exact h2 k hk hkt
    · exact pReqBody_words h

theorem pReqs_words : ∀ (f : Nat) (is : List Item) (qs : List Req), pReqs f is = some qs → EosLast is → WordsOnly is
  | 0, is, qs, h, _ => by simp [pReqs] at h
  | f + 1, is, qs, h, he => by
    have step : (match pReq is with
        | none => none
        | some (q, r) =>
          match r with
          | [] => none
          | i :: r1 =>
            match valTok i.tok with
            | .eos => some [q]
            | .comma => if ahead r1 = .ident ∨ ahead r1 = .bang then (pReqs f r1).map (q :: ·) else none
            | _ => none) = some qs → WordsOnly is := by
      intro h
      split at h
      · simp at h
      · rename_i q r hq
        obtain ⟨c, h1, h2⟩ := pReq_words hq
        split at h
        · simp at h
        · rename_i i r1
          have more : i.tok ≠ .ident → WordsOnly r1 → WordsOnly is := by
            intro hi hr k hk hkt
            rw [h1] at hk
            rcases List.mem_append.mp hk with hk | hk
            · exact h2 k hk hkt
            · rcases List.mem_cons.mp hk with rfl | hk
              · exact absurd hkt hi
              · exact hr k hk hkt
          split at h
          · rename_i heos
            have : i.tok = .eos := by
              cases hi : i.tok <;> rw [hi] at heos <;> simp [valTok] at heos ⊢
            have := he c i r1 h1 this
            subst this
            exact more (ne_ident_of_valTok heos (by decide)) (by simp [WordsOnly])
          · rename_i hcom
            split at h
            · rw [Option.map_eq_some_iff] at h
              obtain ⟨qs', hqs, _⟩ := h
              have he' : EosLast r1 := by
                have : EosLast ((c ++ [i]) ++ r1) := by
                  rw [List.append_assoc]; rw [h1] at he; exact he
                exact this.drop
              exact more (ne_ident_of_valTok hcom (by decide)) (pReqs_words f r1 qs' hqs he')
            · simp at h
          · simp at h
    rw [pReqs] at h
    split at h
    · exact step h
    · exact step h
    · rename_i hah
      cases is with
      | nil => simp [WordsOnly]
      | cons i is =>
        rw [ahead_cons] at hah
        have : i.tok = .eos := by
          cases hi : i.tok <;> rw [hi] at hah <;> simp [valTok] at hah ⊢
        have := he [] i is rfl this
        subst this
        intro k hk hkt
        rw [List.mem_singleton] at hk
        subst hk
        exact absurd hkt (ne_ident_of_valTok hah (by decide))
    · simp at h

/-- A text with a `;` before any NUL is no selector. -/
theorem parseReqs_semicolon {u : Str} (w : Str) (h0 : (0 : UInt8) ∉ u) : parseReqs (u ++ 59 :: w) = none := by
  unfold parseReqs
  rw [Option.map_eq_none_iff, Option.eq_none_iff_forall_ne_some]
  intro qs hqs
  obtain ⟨i, hi, h1, h2⟩ := scanAll_semicolon w ((u ++ 59 :: w).length + 1) u h0 (by simp)
  exact absurd (pReqs_words _ _ _ hqs (scanAll_eosLast _ _) i hi h1 59 h2) (by decide)

end Ckube

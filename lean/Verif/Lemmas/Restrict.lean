import Verif.Lemmas.Clusters
import Verif.Lemmas.SelChars

/-! # What a restricted search can match, whatever the search was -/

namespace Ckube
open Spec

/-! ## `TrimSpace` does not reach beyond a `;` -/

theorem trailingSpace_le (r : Str) : trailingSpace r ≤ 3 := by
  unfold trailingSpace
  repeat' split
  all_goals omega

theorem trailingSpace_semicolon (w x : Str) : trailingSpace (w ++ 59 :: x) ≤ w.length := by
  have hv : visible 59 = true := by decide
  match w with
  | [] => rw [List.nil_append, trailingSpace_visible hv]; simp
  | [c] =>
    have h2 : leadingSpace [59, c] = 0 := leadingSpace_visible hv _
    have h3 : ∀ a, leadingSpace [a, 59, c] ≠ 3 := by
      intro a
      simp only [leadingSpace]
      repeat' split
      all_goals try simp
      rename_i h
      rcases h with h | h | h | h <;> exact absurd h.2.1 (by decide)
    cases x with
    | nil =>
      simp only [List.cons_append, List.nil_append, trailingSpace, h2, List.length_singleton]
      repeat' split
      all_goals omega
    | cons a x =>
      simp only [List.cons_append, List.nil_append, trailingSpace, h2, List.length_singleton, if_neg (h3 a)]
      repeat' split
      all_goals first | omega | simp_all
  | [c, b] =>
    have h3 : leadingSpace [59, b, c] = 0 := leadingSpace_visible hv _
    simp only [List.cons_append, List.nil_append, trailingSpace, List.length_cons, List.length_nil, h3]
    repeat' split
    all_goals omega
  | c :: b :: a :: w =>
    have := trailingSpace_le ((c :: b :: a :: w) ++ 59 :: x)
    simp only [List.length_cons]
    omega

theorem trimRightFuel_semicolon : ∀ (n : Nat) (w x : Str), ∃ w', trimRightFuel n (w ++ 59 :: x) = w' ++ 59 :: x
  | 0, w, x => ⟨w, rfl⟩
  | n + 1, w, x => by
    rw [trimRightFuel]
    split
    · exact ⟨w, rfl⟩
    · rw [List.drop_append_of_le_length (trailingSpace_semicolon w x)]
      exact trimRightFuel_semicolon n _ x

theorem trimSpace_semicolon {a : UInt8} {r s : Str} (w : Str) (ha : visible a = true) (h : s = a :: r) :
    ∃ w', trimSpace (s ++ 59 :: w) = s ++ 59 :: w' := by
  have e1 : trimLeftFuel (s ++ 59 :: w).length (s ++ 59 :: w) = s ++ 59 :: w := by
    have hl : leadingSpace (s ++ 59 :: w) = 0 := by rw [h]; exact leadingSpace_visible ha _
    cases (s ++ 59 :: w).length <;> simp [trimLeftFuel, hl]
  unfold trimSpace
  simp only [e1]
  have : (s ++ 59 :: w).reverse = w.reverse ++ 59 :: s.reverse := by simp
  rw [this]
  obtain ⟨w', hw⟩ := trimRightFuel_semicolon (s ++ 59 :: w).length w.reverse s.reverse
  rw [hw]
  exact ⟨w'.reverse, by simp⟩

/-! ## The first part of a joined search -/

theorem rawParts_headPrefix : ∀ (b : Bool) (cur t : Str), ∃ w rest, rawParts b cur t = (cur ++ w) :: rest ∧ w <+: t
  | b, cur, [] => ⟨[], [], by simp [rawParts], List.prefix_rfl⟩
  | true, cur, c :: r => by
    obtain ⟨w, rest, h1, h2⟩ := rawParts_headPrefix false (cur ++ [c]) r
    exact ⟨c :: w, rest, by rw [rawParts, h1]; simp, (List.prefix_cons_inj c).mpr h2⟩
  | false, cur, c :: r => by
    have more : ∀ b, ∃ w rest, rawParts b (cur ++ [c]) r = (cur ++ w) :: rest ∧ w <+: c :: r := by
      intro b
      obtain ⟨w, rest, h1, h2⟩ := rawParts_headPrefix b (cur ++ [c]) r
      exact ⟨c :: w, rest, by rw [h1]; simp, (List.prefix_cons_inj c).mpr h2⟩
    rw [rawParts]
    split
    · split
      · exact more false
      · split
        · exact more true
        · exact ⟨[], _, by rw [List.append_nil], List.nil_prefix⟩
    · exact more false

theorem undouble_append : ∀ (p t : Str), undouble false (double p ++ t) = p ++ undouble false t
  | [], t => rfl
  | c :: p, t => by
    have ih := undouble_append p t
    simp only [double, List.flatMap_cons] at ih ⊢
    by_cases h : c = partsSep
    · subst h
      simp [undouble, ih]
    · simp [undouble, ih, h]

/-- The first part of a joined search is the first of the joined parts, with text that starts with `;` after it exactly when
the second of them starts with `;`. -/
theorem searchParts_first {p : Str} (hp : p ≠ []) {ps : List Str} (hps : ∀ q ∈ ps, q ≠ []) :
    ∃ w rest, searchParts (joinParts (p :: ps)) = (p ++ w) :: rest
      ∧ ((w = [] ∧ ∀ q, ps.head? = some q → ∀ r, q ≠ 59 :: r) ∨ (∃ w', w = 59 :: w') ∧ ∃ r, ps.head? = some (59 :: r)) := by
  have main : ∀ (t w : Str) (rest : List Str), joinParts (p :: ps) = double p ++ t → rawParts false (double p) t = (double p ++ w) :: rest →
      searchParts (joinParts (p :: ps)) = (p ++ undouble false w) :: (rest.map (undouble false)).filter (fun p => !p.isEmpty) := by
    intro t w rest ht h1
    unfold searchParts
    rw [ht, rawParts_double, List.nil_append, h1, List.map_cons, undouble_append, List.filter_cons]
    have hne : (!(p ++ undouble false w).isEmpty) = true := by simp [hp]
    rw [if_pos hne]
  cases ps with
  | nil =>
    refine ⟨[], _, main [] [] [] (by simp [joinParts, join]) (by simp [rawParts]), Or.inl ⟨rfl, by simp⟩⟩
  | cons q ps =>
    obtain ⟨d, l, hd⟩ := List.exists_cons_of_ne_nil (double_ne_nil (hps q (by simp)))
    have hdq : q.head? = some d := by rw [← double_head, hd]; rfl
    obtain ⟨l', hl'⟩ : ∃ l', join [partsSep] ((q :: ps).map double) = d :: l' := by
      rw [List.map_cons, hd]
      cases ps with
      | nil => exact ⟨l, by simp [join]⟩
      | cons x ps =>
        exact ⟨l ++ [partsSep] ++ join [partsSep] (double x :: ps.map double), by simp only [List.map_cons, join, List.cons_append]⟩
    have ht : joinParts (p :: q :: ps) = double p ++ 59 :: d :: l' := by
      unfold joinParts
      rw [← hl']
      simp only [List.map_cons, join, List.append_assoc]
      rfl
    by_cases h59 : d = 59
    · subst h59
      obtain ⟨w, rest, h1, h2⟩ := rawParts_headPrefix true (double p ++ [59]) (59 :: l')
      have hr : rawParts false (double p) (59 :: 59 :: l') = (double p ++ 59 :: w) :: rest := by
        rw [rawParts, if_pos (show (59 : UInt8) = partsSep from rfl)]
        simp only [List.head?_cons]
        rw [if_pos (show (59 : UInt8) = partsSep from rfl), h1]
        simp
      refine ⟨_, _, main _ _ _ ht hr, Or.inr ⟨?_, q.tail, ?_⟩⟩
      · rw [undouble]
        split <;> exact ⟨_, rfl⟩
      · cases q with
        | nil => simp at hdq
        | cons a q => simp only [List.head?_cons, Option.some.injEq] at hdq ⊢; rw [hdq]; rfl
    · have hr : rawParts false (double p) (59 :: d :: l') = (double p ++ []) :: rawParts false [] (d :: l') := by
        rw [rawParts, if_pos (show (59 : UInt8) = partsSep from rfl)]
        simp only [List.head?_cons]
        rw [if_neg (show ¬ d = partsSep from h59), List.append_nil]
      refine ⟨_, _, main _ _ _ ht hr, Or.inl ⟨rfl, ?_⟩⟩
      intro q' hq' r hr
      simp only [List.head?_cons, Option.some.injEq] at hq'
      rw [hq', hr] at hdq
      exact h59 (Option.some.inj hdq).symm

/-! ## Restricted searches -/

theorem selStr_noNul {rs : List Req} (h : ∀ r ∈ rs, r.Valid) : (0 : UInt8) ∉ selStr rs := by
  have key : ∀ c : UInt8, isWordChar c = true → c ≠ 0 := forall_byte (by decide +kernel)
  have hjoin : ∀ (sep : Str) (l : List Str), (0 : UInt8) ∉ sep → (∀ p ∈ l, (0 : UInt8) ∉ p) → (0 : UInt8) ∉ join sep l := by
    intro sep l hs
    induction l with
    | nil => simp [join]
    | cons p l ih =>
      intro hp
      cases l with
      | nil => simpa [join] using hp p (by simp)
      | cons q l =>
        simp only [join, List.mem_append, not_or]
        exact ⟨⟨hp p (by simp), hs⟩, ih (fun x hx => hp x (by simp [hx]))⟩
  unfold selStr
  refine hjoin _ _ (by decide) ?_
  intro p hp
  obtain ⟨r, hr, rfl⟩ := List.mem_map.mp hp
  have hk : (0 : UInt8) ∉ r.key := fun h0 => key 0 ((word_of_key (h r hr).key).2 0 h0) rfl
  have hvs : ∀ v ∈ r.vals, (0 : UInt8) ∉ v := fun v hv h0 => key 0 (value_chars ((h r hr).vals v hv) 0 h0) rfl
  have ht : (0 : UInt8) ∉ r.valsText := by
    rw [printVals_text]
    exact hjoin _ _ (by decide) (fun v hv => hvs v ((printVals_perm r).mem_iff.mp hv))
  obtain ⟨k, op, vs⟩ := r
  cases op <;> simp [Req.toStr, lit, hk, ht]

/-- The first part of a restricted search. -/
theorem restrict_first {key search s' : Str} {vals : List Str}
    (hset : ((searchSelector search).bind fun s => setSearchSelector search (restrictTo key vals s)) = some s') :
    ∃ ls rs w rest, searchSelector search = some ls ∧ IsMap ls.matchLabels ∧ asSelector (restrictTo key vals ls) = some rs ∧ rs ≠ []
      ∧ searchParts s' = ((advPrefix ++ selStr rs) ++ w) :: rest
      ∧ ((w = [] ∧ ∀ q, ((searchParts search).filter (fun part => !hasPrefix part advPrefix)).head? = some q → ∀ r, q ≠ 59 :: r)
        ∨ (∃ w', w = 59 :: w') ∧ ∃ r, ((searchParts search).filter (fun part => !hasPrefix part advPrefix)).head? = some (59 :: r)) := by
  rw [Option.bind_eq_some_iff] at hset
  obtain ⟨ls, hls, hset⟩ := hset
  have hmap : IsMap ls.matchLabels := by
    unfold searchSelector at hls
    split at hls
    · obtain rfl := Option.some.inj hls; simp [IsMap]
    · split at hls
      · obtain rfl := Option.some.inj hls; simp [IsMap]
      · unfold parseToLabelSelector at hls
        rw [Option.bind_eq_some_iff] at hls
        obtain ⟨qs, hqs, hloop⟩ := hls
        have hform := selectorLoop_eq qs {} (parseReqs_valid hqs) (selectorLoop_unsupported qs {} ls hloop)
        rw [hloop] at hform
        rw [Option.some.inj hform]
        exact isMap_eqFold _ _ (by simp [IsMap])
  unfold setSearchSelector at hset
  rw [Option.map_eq_some_iff] at hset
  obtain ⟨sstr, hfmt, hs'⟩ := hset
  have hfmt' := hfmt
  unfold formatSelector at hfmt'
  rw [Option.map_eq_some_iff] at hfmt'
  obtain ⟨rs, hrs, -⟩ := hfmt'
  have hperm : rs.Perm _ := (asSelector_some hrs).1 ▸ sortBy_perm _ _
  have hrsne : rs ≠ [] := by
    rintro rfl
    have := hperm.length_eq
    simp [restrictTo] at this
  rw [formatSelector_eq hrs hrsne] at hfmt
  obtain rfl := Option.some.inj hfmt
  obtain ⟨w, rest, hparts, hw⟩ := searchParts_first (p := advPrefix ++ selStr rs) (by simp [advPrefix, lit])
    (ps := (searchParts search).filter (fun part => !hasPrefix part advPrefix))
    (fun q hq => searchParts_ne_nil search q (List.mem_filter.mp hq).1)
  rw [hs'] at hparts
  exact ⟨ls, rs, w, rest, hls, hmap, hrs, hrsne, hparts, hw⟩

/-- Text after the printed selector makes it unreadable. -/
theorem match1_semicolon {isPrint : Nat → Bool} {m : List (Str × Str)} {rs : List Req} (hv : ∀ r ∈ rs, r.Valid) (w' : Str) :
    match1 isPrint m ((advPrefix ++ selStr rs) ++ 59 :: w') = none := by
  obtain ⟨w2, hw2⟩ := trimSpace_semicolon (a := 95) (r := lit "_ckube_as__:" ++ selStr rs) (s := advPrefix ++ selStr rs) w'
    (by decide) (by simp [advPrefix, lit])
  have e1 : ¬ advPrefix ++ selStr rs ++ 59 :: w2 = [] := by simp
  have e2 : hasPrefix (advPrefix ++ selStr rs ++ 59 :: w2) advPrefix = true :=
    hasPrefix_iff.mpr ⟨selStr rs ++ 59 :: w2, by simp⟩
  have e3 : ¬ (advPrefix ++ selStr rs ++ 59 :: w2).length = advPrefix.length := by
    simp only [List.length_append, List.length_cons]; omega
  unfold match1
  rw [hw2]
  simp only
  rw [if_neg e1, if_pos e2, if_neg e3, List.append_assoc, List.drop_left]
  unfold parseToLabelSelector
  rw [parseReqs_semicolon w2 (selStr_noNul hv)]
  rfl

/-- A printed selector that the parser refuses. -/
theorem match1_unprintable {isPrint : Nat → Bool} {m : List (Str × Str)} {rs : List Req} (hv : ∀ r ∈ rs, r.Valid) (hne : rs ≠ [])
    (hp : ¬ ∀ r ∈ rs, r.Printable) : match1 isPrint m (advPrefix ++ selStr rs) = none := by
  have hs := selStr_ne_nil hne hv
  have e1 : ¬ advPrefix ++ selStr rs = [] := by simp [hs]
  have e2 : hasPrefix (advPrefix ++ selStr rs) advPrefix = true := hasPrefix_iff.mpr (List.prefix_append _ _)
  have e3 : ¬ (advPrefix ++ selStr rs).length = advPrefix.length := by
    have := List.length_pos_iff.mpr hs
    simp only [List.length_append]; omega
  have hp' : ∃ r ∈ rs, ¬ r.Printable := by
    by_contra h
    exact hp (fun r hr => by by_contra h'; exact h ⟨r, hr, h'⟩)
  unfold match1
  rw [advPart_trim hne hv]
  simp only
  rw [if_neg e1, if_pos e2, if_neg e3, List.drop_left]
  unfold parseToLabelSelector
  rw [parseReqs_selStr_none hv hp']
  rfl

/-- Whatever the search was: an object that matches the search after a successful `Clusters`/`Namespaces` has one of the
given values, and the rest of the first advanced part holds. -/
theorem restrict_sound {isPrint : Nat → Bool} {key search s' : Str} {vals : List Str}
    (hset : ((searchSelector search).bind fun s => setSearchSelector search (restrictTo key vals s)) = some s')
    {m : List (Str × Str)} (hm : matchParts isPrint m (searchParts s') = some true) :
    ∃ ls, searchSelector search = some ls ∧ SelectorHolds (restrictTo key vals ls) m := by
  obtain ⟨ls, rs, w, rest, hls, hmap, hrs, hrsne, hparts, hw⟩ := restrict_first hset
  have hv := (asSelector_some hrs).2
  have h1 : match1 isPrint m ((advPrefix ++ selStr rs) ++ w) = some true := by
    rw [hparts] at hm
    cases rest with
    | nil => exact hm
    | cons q rest =>
      simp only [matchParts, Option.map_eq_some_iff, decide_eq_true_eq] at hm
      obtain ⟨n, hn, he⟩ := hm
      have := (matchLoop_some isPrint m _ 0 n hn).2.2.mp (by rw [he]; simp)
      exact this _ List.mem_cons_self
  rcases hw with ⟨rfl, _⟩ | ⟨⟨w', rfl⟩, _⟩
  · rw [List.append_nil] at h1
    by_cases hprint : ∀ r ∈ rs, r.Printable
    · obtain ⟨b, hb, hbm⟩ := match1_advPart' (isPrint := isPrint) (m := m) hrs hrsne hprint hmap
      rw [hb, Option.some.injEq] at h1
      exact ⟨ls, hls, hbm.mp h1⟩
    · rw [match1_unprintable hv hrsne hprint] at h1
      simp at h1
  · rw [match1_semicolon hv] at h1
    simp at h1

theorem restrictTo_holds {key : Str} {vals : List Str} {ls : LabelSelector} {m : List (Str × Str)}
    (h : SelectorHolds (restrictTo key vals ls) m) : ∃ v ∈ vals, lookup key m = some v := by
  have := h.2 ⟨key, .isIn, vals⟩ (by simp [restrictTo])
  obtain ⟨v, h1, h2⟩ : ∃ v, lookup key m = some v ∧ v ∈ vals := by simpa [ExprHolds] using this
  exact ⟨v, h2, h1⟩

/-! ## Reading the clusters back -/

/-- What `SearchSelector` finds in a restricted search. -/
theorem searchSelector_restricted {s' : Str} {rs : List Req} {w : Str} {rest : List Str} (hne : rs ≠ []) (hv : ∀ r ∈ rs, r.Valid)
    (hparts : searchParts s' = ((advPrefix ++ selStr rs) ++ w) :: rest) :
    searchSelector s' = parseToLabelSelector (selStr rs ++ w) := by
  have hs := selStr_ne_nil hne hv
  unfold searchSelector
  have e2 : hasPrefix ((advPrefix ++ selStr rs) ++ w) advPrefix = true := hasPrefix_iff.mpr ⟨selStr rs ++ w, by simp⟩
  have e3 : ¬ ((advPrefix ++ selStr rs) ++ w).length = advPrefix.length := by
    have := List.length_pos_iff.mpr hs
    simp only [List.length_append]; omega
  rw [hparts, List.find?_cons, e2]
  simp only
  rw [if_neg e3, List.append_assoc, List.drop_left]

theorem getClusters_restricted {search s' : Str} {vals : List Str}
    (hset : ((searchSelector search).bind fun s => setSearchSelector search (restrictTo clusterKey vals s)) = some s') :
    ∃ ls rs, searchSelector search = some ls ∧ asSelector (restrictTo clusterKey vals ls) = some rs ∧ (∀ r ∈ rs, r.Valid)
      ∧ (getClusters s' = setList vals ∧ (∀ r ∈ rs, r.Printable)
          ∧ (∀ q, ((searchParts search).filter (fun part => !hasPrefix part advPrefix)).head? = some q → ∀ r, q ≠ 59 :: r)
        ∨ getClusters s' = [] ∧ ((¬ ∀ r ∈ rs, r.Printable)
          ∨ ∃ r, ((searchParts search).filter (fun part => !hasPrefix part advPrefix)).head? = some (59 :: r))) := by
  obtain ⟨ls, rs, w, rest, hls, hmap, hrs, hrsne, hparts, hw⟩ := restrict_first hset
  have hv := (asSelector_some hrs).2
  have hsel := searchSelector_restricted hrsne hv hparts
  refine ⟨ls, rs, hls, hrs, hv, ?_⟩
  have bad : parseReqs (selStr rs ++ w) = none → getClusters s' = [] := by
    intro h
    unfold getClusters
    rw [hsel]
    unfold parseToLabelSelector
    rw [h]
    rfl
  rcases hw with ⟨rfl, hno⟩ | ⟨⟨w', rfl⟩, hsemi⟩
  · rw [List.append_nil] at hsel bad
    by_cases hprint : ∀ r ∈ rs, r.Printable
    · left
      refine ⟨?_, hprint, hno⟩
      obtain ⟨ls', h1, _, _, h4⟩ := parse_format hrs hprint hmap
      have hfind : ls'.matchExprs.find? (fun r => r.key = clusterKey) = some ⟨clusterKey, .isIn, setList vals⟩ := by
        have huniq : ∀ e ∈ ls'.matchExprs, e.key = clusterKey → e = ⟨clusterKey, .isIn, setList vals⟩ := by
          intro e he hk
          have := h4.mem_iff.mp he
          simp only [restrictTo, List.map_cons, List.mem_cons, List.mem_map, List.mem_filter] at this
          rcases this with rfl | ⟨e', ⟨_, hne⟩, rfl⟩
          · rfl
          · exact absurd hk (of_decide_eq_true hne)
        cases hf : ls'.matchExprs.find? (fun r => r.key = clusterKey) with
        | none =>
          rw [List.find?_eq_none] at hf
          have hin : (⟨clusterKey, .isIn, setList vals⟩ : LReq) ∈ ls'.matchExprs :=
            h4.mem_iff.mpr (by simp [restrictTo, LReq.norm])
          exact absurd (decide_eq_true rfl) (hf _ hin)
        | some e =>
          have hk := List.find?_some hf
          rw [huniq e (List.mem_of_find?_eq_some hf) (of_decide_eq_true hk)]
      unfold getClusters
      rw [hsel, h1]
      simp only [hfind]
    · right
      have hp' : ∃ r ∈ rs, ¬ r.Printable := by
        by_contra h
        exact hprint (fun r hr => by by_contra h'; exact h ⟨r, hr, h'⟩)
      exact ⟨bad (parseReqs_selStr_none hv hp'), Or.inl hprint⟩
  · right
    exact ⟨bad (parseReqs_semicolon w' (selStr_noNul hv)), Or.inr hsemi⟩

/-- The printed requirements can be read back exactly when no requirement lists only empty values. -/
theorem printable_restricted {key : Str} {vals : List Str} {qs rs : List Req} {ls : LabelSelector} (hv : ∀ q ∈ qs, q.Valid)
    (hls : selectorLoop qs {} = some ls) (hrs : asSelector (restrictTo key vals ls) = some rs) (hvals : ∃ v ∈ vals, v ≠ []) :
    (∀ r ∈ rs, r.Printable) ↔
      ∀ q ∈ qs, q.key ≠ key → q.op = .isIn ∨ q.op = .notIn ∨ q.op = .neq → ∃ v ∈ q.vals, v ≠ [] := by
  have hs := selectorLoop_unsupported qs {} ls hls
  have hform := selectorLoop_eq qs {} hv hs
  rw [hls] at hform
  have hform := Option.some.inj hform
  constructor
  · intro h q hq hk hop
    have he : q.isEq = false := by
      rw [← Bool.not_eq_true, isEq_ops]
      rintro (h | h) <;> rw [h] at hop <;> simp at hop
    have hmem : q.toExpr ∈ (restrictTo key vals ls).matchExprs := by
      rw [hform]
      simp only [restrictTo, List.nil_append, List.mem_cons, List.mem_filter, List.mem_map]
      exact Or.inr ⟨⟨q, ⟨hq, by simp [he]⟩, rfl⟩, decide_eq_true hk⟩
    have hr : exprReq q.toExpr ∈ rs := by
      rw [(asSelector_some hrs).1, mem_sortBy, List.mem_append, List.mem_map, List.mem_map]
      exact Or.inr ⟨_, hmem, rfl⟩
    have hp := h _ hr (by
      obtain ⟨k, op, vs⟩ := q
      rcases hop with h | h | h <;> simp only at h <;> subst h <;> simp [exprReq, Req.toExpr, LOp.toOp])
    by_contra hcon
    have hall : ∀ v ∈ q.vals, v = [] := by
      intro v hv'
      by_contra h'
      exact hcon ⟨v, hv', h'⟩
    have hvals' : (exprReq q.toExpr).vals = setList q.vals := rfl
    rcases hp with ⟨v, h1, h2⟩ | hlen
    · rw [hvals'] at h1
      exact h2 (hall v (mem_setList.mp h1))
    · rw [hvals'] at hlen
      have hne : q.vals ≠ [] := by
        have hc := (hv q hq).count
        intro h0
        obtain ⟨k, op, vs⟩ := q
        simp only at h0
        subst h0
        rcases hop with h | h | h <;> simp only at h <;> subst h <;> simp at hc
      have h1 := setList_ne_nil hne
      have h2 := setList_nodup q.vals
      have h3 : ∀ v ∈ setList q.vals, v = [] := fun v hv' => hall v (mem_setList.mp hv')
      match hl : setList q.vals with
      | [] => exact h1 hl
      | [_] => rw [hl] at hlen; simp at hlen
      | a :: b :: l =>
        rw [hl] at h2 h3
        have ha := h3 a (by simp)
        have hb := h3 b (by simp)
        rw [ha, hb] at h2
        simp at h2
  · intro h
    refine printable_reqs hrs ?_
    intro e he hop
    simp only [restrictTo, List.mem_cons, List.mem_filter] at he
    rcases he with rfl | ⟨he, hk⟩
    · exact hvals
    · rw [hform] at he
      simp only [List.nil_append, List.mem_map, List.mem_filter] at he
      obtain ⟨q, ⟨hqm, hb⟩, rfl⟩ := he
      have hop' : q.op = .isIn ∨ q.op = .notIn ∨ q.op = .neq := by
        have hsq := hs q hqm
        obtain ⟨k, op, vs⟩ := q
        cases op <;> simp_all [Req.toExpr, Req.isEq, Op.supported]
      obtain ⟨v, hv1, hv2⟩ := h q hqm (of_decide_eq_true hk) hop'
      exact ⟨v, mem_setList.mpr hv1, hv2⟩

/-- The first part that is not advanced starts with `;`. -/
theorem head_plain {parts : List Str} :
    (∃ r, (parts.filter (fun part => !hasPrefix part advPrefix)).head? = some (59 :: r)) ↔
      ∃ pre r post, parts = pre ++ (lit ";" ++ r) :: post ∧ ∀ p ∈ pre, lit "__ckube_as__:" <+: p := by
  have hl : ∀ r : Str, lit ";" ++ r = 59 :: r := fun r => by simp [lit]
  simp only [hl, ← find?_eq_head_filter, List.find?_eq_some_iff_append]
  constructor
  · rintro ⟨r, _, pre, post, h1, h2⟩
    refine ⟨pre, r, post, h1, fun p hp => hasPrefix_iff.mp (show hasPrefix p advPrefix = true by simpa using h2 p hp)⟩
  · rintro ⟨pre, r, post, h1, h2⟩
    refine ⟨r, ?_, pre, post, h1, fun p hp => by
      simpa using (show hasPrefix p advPrefix = true from hasPrefix_iff.mpr (h2 p hp))⟩
    rw [Bool.not_eq_true', ← Bool.not_eq_true, hasPrefix_iff]
    intro h
    have := (List.cons_prefix_cons.mp (show (95 : UInt8) :: lit "_ckube_as__:" <+: 59 :: r from h)).1
    simp at this

end Ckube

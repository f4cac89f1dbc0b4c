import Verif.Lemmas.Clusters
import Verif.Model.Page

/-! # C08, C16: selectors as text -/

namespace Ckube
open Spec

/-- **C08**: formatting a selector and parsing the text again (both with `ParseToRequirements` as
the API server does, and with ckube's `ParseToLabelSelector`) gives a selector that accepts
exactly the same label sets. Missing for the full claim: selectors without any requirement and
`In`/`NotIn` expressions whose values are all empty, for which it is false (`C08_false`,
`C08_false_empty`). -/
theorem C08_format_parse_partial (ls : LabelSelector) (text : Str)
    (hmap : (ls.matchLabels.map Prod.fst).Nodup)
    (hne : ls.matchLabels ≠ [] ∨ ls.matchExprs ≠ [])
    (hvals : ∀ e ∈ ls.matchExprs, e.op = .isIn ∨ e.op = .notIn → ∃ v ∈ e.vals, v ≠ [])
    (h : formatSelector ls = some text) :
    (∃ qs, parseReqs text = some qs ∧ ∀ m, selMatches qs m = true ↔ SelectorHolds ls m)
    ∧ ∃ ls', parseToLabelSelector text = some ls' ∧ ∀ m, SelectorHolds ls' m ↔ SelectorHolds ls m := by
  unfold formatSelector at h
  rw [Option.map_eq_some_iff] at h
  obtain ⟨rs, hrs, ht⟩ := h
  have hv := (asSelector_some hrs).2
  have hne' : rs ≠ [] := by
    have hp : rs.Perm _ := (asSelector_some hrs).1 ▸ sortBy_perm _ _
    rintro rfl
    have := hp.length_eq
    simp at this
    rcases hne with h | h
    · exact h (List.length_eq_zero_iff.mp (by omega))
    · exact h (List.length_eq_zero_iff.mp (by omega))
  have hs := selStr_ne_nil hne' hv
  have ht : selStr rs = text := by simpa [hs] using ht
  subst ht
  have hp := printable_reqs hrs hvals
  constructor
  · refine ⟨_, parseReqs_selStr_sorted hv hp (asSelector_sorted hrs), fun m => ?_⟩
    rw [selMatches_norm]
    exact asSelector_matches hrs m
  · obtain ⟨ls', h1, _, h2, h3⟩ := parse_format hrs hp hmap
    exact ⟨ls', h1, fun m => holds_congr h2 h3 m⟩

/-- **C08**, exactly: the text of a selector can be parsed if and only if there is a requirement at all, and every `In` and `NotIn` expression
has a value that is not empty or an even number of values; and then it means the same. (An odd number of empty values prints as an even
number of commas, which the parser reads in pairs.) -/
theorem C08_exact (ls : LabelSelector) (text : Str) (h : formatSelector ls = some text) :
    ((∃ qs, parseReqs text = some qs) ↔ (ls.matchLabels ≠ [] ∨ ls.matchExprs ≠ [])
        ∧ ∀ e ∈ ls.matchExprs, e.op = .isIn ∨ e.op = .notIn → (∃ v ∈ e.vals, v ≠ []) ∨ e.vals.length % 2 = 0)
    ∧ ∀ qs, parseReqs text = some qs → ∀ m, selMatches qs m = true ↔ SelectorHolds ls m := by
  unfold formatSelector at h
  rw [Option.map_eq_some_iff] at h
  obtain ⟨rs, hrs, ht⟩ := h
  have hv := (asSelector_some hrs).2
  have hperm : rs.Perm _ := (asSelector_some hrs).1 ▸ sortBy_perm _ _
  by_cases hne : ls.matchLabels ≠ [] ∨ ls.matchExprs ≠ []
  · have hne' : rs ≠ [] := by
      rintro rfl
      have := hperm.length_eq
      simp at this
      rcases hne with h | h
      · exact h (List.length_eq_zero_iff.mp (by omega))
      · exact h (List.length_eq_zero_iff.mp (by omega))
    have ht : selStr rs = text := by simpa [selStr_ne_nil hne' hv] using ht
    subst ht
    by_cases hvals : ∀ e ∈ ls.matchExprs, e.op = .isIn ∨ e.op = .notIn → (∃ v ∈ e.vals, v ≠ []) ∨ e.vals.length % 2 = 0
    · have hq := parseReqs_selStr_sorted hv (legible_reqs hrs hvals) (asSelector_sorted hrs)
      refine ⟨⟨fun _ => ⟨hne, hvals⟩, fun _ => ⟨_, hq⟩⟩, fun qs hqs m => ?_⟩
      obtain rfl := Option.some.inj (hq.symm.trans hqs)
      rw [selMatches_norm]
      exact asSelector_matches hrs m
    · have hnone : parseReqs (selStr rs) = none := by
        refine parseReqs_selStr_none hv ?_
        have hex : ∃ e ∈ ls.matchExprs, ¬ (e.op = .isIn ∨ e.op = .notIn → (∃ v ∈ e.vals, v ≠ []) ∨ e.vals.length % 2 = 0) := by
          by_contra hcon
          refine hvals (fun e he => ?_)
          by_contra hh
          exact hcon ⟨e, he, hh⟩
        obtain ⟨e, he, hbad⟩ := hex
        refine ⟨exprReq e, hperm.mem_iff.mpr (List.mem_append.mpr (Or.inr (List.mem_map.mpr ⟨e, he, rfl⟩))), fun hp => hbad (fun hop => ?_)⟩
        refine hp ?_
        rcases hop with h | h <;> simp [exprReq, h, LOp.toOp]
      refine ⟨⟨fun ⟨qs, hqs⟩ => ?_, fun h => absurd h.2 hvals⟩, fun qs hqs => ?_⟩ <;> rw [hnone] at hqs <;> simp at hqs
  · have hnil : rs = [] := by
      have h1 : ls.matchLabels = [] := by by_contra h'; exact hne (Or.inl h')
      have h2 : ls.matchExprs = [] := by by_contra h'; exact hne (Or.inr h')
      rw [(asSelector_some hrs).1, h1, h2]
      rfl
    subst hnil
    have ht : lit "<none>" = text := by simpa [selStr, join] using ht
    subst ht
    have hnone : parseReqs (lit "<none>") = none := by decide +kernel
    refine ⟨⟨fun ⟨qs, hqs⟩ => ?_, fun h => absurd h.1 hne⟩, fun qs hqs => ?_⟩ <;> rw [hnone] at hqs <;> simp at hqs

/-- Two empty values are read back, three are not. -/
example : formatSelector ⟨[], [⟨lit "k", .isIn, [[], []]⟩]⟩ = some (lit "k in (,)")
    ∧ parseReqs (lit "k in (,)") = some [⟨lit "k", .isIn, [[]]⟩]
    ∧ formatSelector ⟨[], [⟨lit "k", .isIn, [[], [], []]⟩]⟩ = some (lit "k in (,,)") ∧ parseReqs (lit "k in (,,)") = none := by decide +kernel

/-- A selector with labels, repeated and unsorted values, an empty value among others and every
operator meets the hypotheses. -/
example : ∃ ls : LabelSelector, ∃ text, ls.matchLabels.length = 2 ∧ ls.matchExprs.length = 4
    ∧ formatSelector ls = some text
    ∧ ∃ ls', parseToLabelSelector text = some ls' ∧ ∀ m, SelectorHolds ls' m ↔ SelectorHolds ls m := by
  refine ⟨⟨[(lit "z", lit "1"), (lit "a.b/c", [])], [⟨lit "k", .isIn, [lit "y", [], lit "x", lit "y"]⟩,
    ⟨lit "in", .notIn, [lit "notin"]⟩, ⟨lit "q", .exist, []⟩, ⟨lit "r", .notExist, []⟩]⟩,
    lit "a.b/c=,in notin (notin),k in (,x,y,y),q,!r,z=1", rfl, rfl, by decide +kernel, ?_⟩
  exact (C08_format_parse_partial _ _ (by decide +kernel) (by decide +kernel) (by decide +kernel)
    (by decide +kernel)).2

/-- **C08 is false** for an expression whose only value is empty: the text cannot be parsed. -/
theorem C08_false : formatSelector ⟨[], [⟨lit "k", .isIn, [[]]⟩]⟩ = some (lit "k in ()")
    ∧ parseReqs (lit "k in ()") = none := by decide +kernel

/-- **C08 is false** for the selector without requirements, which accepts everything: its text is
`<none>`. -/
theorem C08_false_empty : formatSelector {} = some (lit "<none>")
    ∧ parseReqs (lit "<none>") = none := by decide +kernel

/-! ## C16 -/

/-- **C16**, for every selector text that is not empty, can be read and has neither `>` nor `<`: the part is answered, and it matches exactly
the objects whose index map satisfies the requirements that count, which are all of them but the equalities followed by
another equality on the same key. -/
theorem C16_last (isPrint : Nat → Bool) (m : List (Str × Str)) (part text : Str)
    (qs : List Req) (htrim : trimSpace part = advPrefix ++ text) (hne : text ≠ [])
    (hqs : parseReqs text = some qs) (hop : ∀ q ∈ qs, q.op ≠ .gt ∧ q.op ≠ .lt) :
    ∃ b, match1 isPrint m part = some b ∧ (b = true ↔ ∀ q ∈ lastEqualities qs, ReqHolds q m) := by
  have h1 : ¬ advPrefix ++ text = [] := by simp [advPrefix, lit]
  have h2 : hasPrefix (advPrefix ++ text) advPrefix = true := by
    rw [hasPrefix, List.isPrefixOf_iff_prefix]; exact List.prefix_append _ _
  have hv := parseReqs_valid hqs
  have hs : ∀ q ∈ qs, q.op.supported = true := by
    intro q hq
    have := hop q hq
    cases hq : q.op <;> simp_all [Op.supported]
  have hloop := selectorLoop_eq qs {} hv hs
  obtain ⟨rs, hrs⟩ := asSelector_parsed hv hloop
  refine ⟨selMatches rs m, ?_, ?_⟩
  · unfold match1
    simp only [htrim]
    have hl : ¬ (advPrefix ++ text).length = advPrefix.length := by
      simp only [List.length_append]
      have := List.length_pos_iff.mpr hne
      omega
    rw [if_neg h1, if_pos h2, if_neg hl, List.drop_left]
    unfold parseToLabelSelector
    rw [hqs, Option.bind_some, hloop, Option.bind_some, hrs]
    rfl
  · rw [asSelector_matches hrs, selectorLoop_holds_last hv hs hloop m]
    exact forall₂_congr fun q hq => matches_iff_reqHolds (hs q (lastEqualities_subset qs q hq)) m

/-- **C16**: an advanced search part (`__ckube_as__:` followed by a selector) matches exactly the
objects whose index map satisfies every requirement written in it. Missing for the full claim:
selectors with two equality requirements on one key, for which it is false (`C16_false`); `C16_exact` says for which of them it
holds, and `C16_last` what the part means for all of them. -/
theorem C16_advanced_partial (isPrint : Nat → Bool) (m : List (Str × Str)) (part text : Str)
    (qs : List Req) (htrim : trimSpace part = advPrefix ++ text) (hne : text ≠ [])
    (hqs : parseReqs text = some qs) (hop : ∀ q ∈ qs, q.op ≠ .gt ∧ q.op ≠ .lt)
    (hdup : qs.Pairwise (fun a b => (a.op = .eq ∨ a.op = .deq) → (b.op = .eq ∨ b.op = .deq) → a.key ≠ b.key)) :
    ∃ b, match1 isPrint m part = some b ∧ (b = true ↔ ∀ q ∈ qs, ReqHolds q m) := by
  have := C16_last isPrint m part text qs htrim hne hqs hop
  rwa [lastEqualities_eq hdup] at this

/-- So is a part without a selector. -/
theorem C16_empty_rejected (isPrint : Nat → Bool) (m : List (Str × Str)) (part : Str) (htrim : trimSpace part = advPrefix) :
    match1 isPrint m part = none := by
  unfold match1
  simp only [htrim]
  rw [if_neg (by simp [advPrefix, lit]), if_pos (by rw [hasPrefix, List.isPrefixOf_iff_prefix])]
  simp

/-- `>` and `<` are rejected. -/
theorem C16_gt_lt_rejected (isPrint : Nat → Bool) (m : List (Str × Str)) (part text : Str)
    (qs : List Req) (htrim : trimSpace part = advPrefix ++ text)
    (hqs : parseReqs text = some qs) (hop : ∃ q ∈ qs, q.op = .gt ∨ q.op = .lt) :
    match1 isPrint m part = none := by
  have hsel : selectorLoop qs {} = none := by
    cases h : selectorLoop qs {} with
    | none => rfl
    | some ls =>
      obtain ⟨q, hq, ho⟩ := hop
      have := selectorLoop_unsupported qs {} ls h q hq
      rcases ho with ho | ho <;> rw [ho] at this <;> simp [Op.supported] at this
  unfold match1
  have h1 : ¬ advPrefix ++ text = [] := by simp [advPrefix, lit]
  have h2 : hasPrefix (advPrefix ++ text) advPrefix = true := by
    rw [hasPrefix, List.isPrefixOf_iff_prefix]; exact List.prefix_append _ _
  simp only [htrim]
  rw [if_neg h1, if_pos h2, List.drop_left]
  unfold parseToLabelSelector
  rw [hqs, Option.bind_some, hsel]
  split <;> rfl

/-- **C16**, exactly: the part matches, for every index map, if and only if all requirements hold, exactly when the selector is not empty, there is neither
`>` nor `<`, and no two equalities ask one key for different values or the requirements that count cannot be satisfied. -/
theorem C16_exact (isPrint : Nat → Bool) (part text : Str)
    (qs : List Req) (htrim : trimSpace part = advPrefix ++ text)
    (hqs : parseReqs text = some qs) :
    (∀ m, ∃ b, match1 isPrint m part = some b ∧ (b = true ↔ ∀ q ∈ qs, ReqHolds q m))
      ↔ text ≠ [] ∧ (∀ q ∈ qs, q.op ≠ .gt ∧ q.op ≠ .lt)
        ∧ ((∀ a ∈ qs, ∀ b ∈ qs, (a.op = .eq ∨ a.op = .deq) → (b.op = .eq ∨ b.op = .deq) → a.key = b.key → a.vals = b.vals)
          ∨ ∀ m, ∃ q ∈ lastEqualities qs, ¬ ReqHolds q m) := by
  rw [← last_exact (parseReqs_valid hqs)]
  constructor
  · intro h
    have hne : text ≠ [] := by
      rintro rfl
      obtain ⟨b, hb, _⟩ := h []
      rw [C16_empty_rejected isPrint [] part (by simpa using htrim)] at hb
      simp at hb
    have hop : ∀ q ∈ qs, q.op ≠ .gt ∧ q.op ≠ .lt := by
      intro q hq
      by_contra hc
      obtain ⟨b, hb, _⟩ := h []
      have hr := C16_gt_lt_rejected isPrint [] part text qs htrim hqs
        ⟨q, hq, by by_cases hg : q.op = .gt <;> by_cases hl : q.op = .lt <;> simp_all⟩
      rw [hr] at hb
      simp at hb
    refine ⟨hne, hop, fun m => ?_⟩
    obtain ⟨b, hb, hbm⟩ := h m
    obtain ⟨b', hb', hbm'⟩ := C16_last isPrint m part text qs htrim hne hqs hop
    rw [hb] at hb'
    obtain rfl := Option.some.inj hb'
    rw [← hbm', hbm]
  · rintro ⟨hne, hop, hall⟩ m
    obtain ⟨b, hb, hbm⟩ := C16_last isPrint m part text qs htrim hne hqs hop
    exact ⟨b, hb, by rw [hbm, hall m]⟩

/-- `a=1,b,a==1` repeats an equality and keeps its meaning. -/
example : ∃ qs, parseReqs (lit "a=1,b,a==1") = some qs ∧ lastEqualities qs ≠ qs
    ∧ ∀ m, ∃ b, match1 (fun _ => true) m (advPrefix ++ lit "a=1,b,a==1") = some b ∧ (b = true ↔ ∀ q ∈ qs, ReqHolds q m) := by
  have hq : parseReqs (lit "a=1,b,a==1") = some [⟨lit "a", .eq, [lit "1"]⟩, ⟨lit "a", .deq, [lit "1"]⟩, ⟨lit "b", .exist, []⟩] := by
    decide +kernel
  exact ⟨_, hq, by decide +kernel, (C16_exact _ _ _ _ (by decide +kernel) hq).mpr ⟨by decide, by decide +kernel, Or.inl (by decide +kernel)⟩⟩

/-- An advanced part with five requirements and surrounding blanks meets the hypotheses. -/
example : ∃ qs, parseReqs (lit "a=1,b!=2,c in (x,y),d,!e") = some qs ∧ qs.length = 5
    ∧ trimSpace (lit "  " ++ advPrefix ++ lit "a=1,b!=2,c in (x,y),d,!e ") =
        advPrefix ++ lit "a=1,b!=2,c in (x,y),d,!e"
    ∧ (∀ q ∈ qs, q.op ≠ .gt ∧ q.op ≠ .lt)
    ∧ qs.Pairwise (fun a b => (a.op = .eq ∨ a.op = .deq) → (b.op = .eq ∨ b.op = .deq) → a.key ≠ b.key) :=
  ⟨[⟨lit "a", .eq, [lit "1"]⟩, ⟨lit "b", .neq, [lit "2"]⟩, ⟨lit "c", .isIn, [lit "x", lit "y"]⟩,
    ⟨lit "d", .exist, []⟩, ⟨lit "e", .notExist, []⟩], by decide +kernel, rfl, by decide +kernel,
    by decide +kernel, by decide +kernel⟩

/-- A text with `>` parses. -/
example : ∃ qs, parseReqs (lit "a>1") = some qs ∧ ∃ q ∈ qs, q.op = .gt ∨ q.op = .lt :=
  ⟨[⟨lit "a", .gt, [lit "1"]⟩], by decide +kernel, by decide +kernel⟩

/-- **C16 is false** for repeated equality keys: `a=1,a=2` accepts an object with `a=2`. -/
theorem C16_false : match1 (fun _ => true) [(lit "a", lit "2")] (advPrefix ++ lit "a=1,a=2") = some true
    ∧ parseReqs (lit "a=1,a=2") = some [⟨lit "a", .eq, [lit "1"]⟩, ⟨lit "a", .eq, [lit "2"]⟩]
    ∧ ¬ ReqHolds ⟨lit "a", .eq, [lit "1"]⟩ [(lit "a", lit "2")] := by
  refine ⟨by decide +kernel, by decide +kernel, ?_⟩
  rintro ⟨v, h, hv⟩
  rw [List.mem_singleton] at hv
  subst hv
  revert h
  decide +kernel

end Ckube

import Verif.Lemmas.ListOptions
import Verif.Props.Payload
import Verif.Props.SelectorText
import Verif.Lemmas.Plain

/-! # C05, C06, C07: `QueryListOptions` against the server's reading of the label selector -/

namespace Ckube
open Spec

/-- What the caller's own selector must look like: it parses to `qs`, does not use `>` or `<`,
does not mention the pagination key, and its value lists contain a non-empty value. -/
structure CallerSelector (sel : Str) (qs : List Req) : Prop where
  parses : parseReqs sel = some qs
  ops : ∀ q ∈ qs, q.op ≠ .gt ∧ q.op ≠ .lt
  key : ∀ q ∈ qs, q.key ≠ paginateKey
  vals : ∀ q ∈ qs, q.op = .isIn ∨ q.op = .notIn ∨ q.op = .neq → ∃ v ∈ q.vals, v ≠ []

/-- What the server makes of the list options, in terms of the model. -/
theorem server_reads {sel text : Str} {qs : List Req} {page : Paginate} (hc : CallerSelector sel qs)
    (hwf : page.WF) (hlen : (Base64.encode page.toJson).length ≤ 10024)
    (h : queryListOptions sel page = some text) :
    ∃ ls, selectorLoop qs {} = some ls ∧ (∃ rs, asSelector ls = some rs) ∧ ls.Printable ∧
      ((parseSelector text = some ⟨page, none, none⟩ ∧ qs = []) ∨
        ∃ l, parseSelector text = some (selInfo page l) ∧ IsMap l.matchLabels
          ∧ (∀ kv, kv ∈ l.matchLabels ↔ kv ∈ ls.matchLabels)
          ∧ l.matchExprs.Perm (ls.matchExprs.map LReq.norm)) := by
  obtain ⟨ls, h1, h2, h3, h4, h5, h6, rs0, h7⟩ := caller_parsed hc.parses hc.ops
  have hl : ∀ kv ∈ ls.matchLabels, kv.1 ≠ paginateKey := by
    intro kv hkv
    obtain ⟨q, hq, he⟩ := h5 kv hkv
    exact he ▸ hc.key q hq
  have he : ∀ e ∈ ls.matchExprs, e.key ≠ paginateKey := by
    intro e hemem
    obtain ⟨q, hq, rfl, _⟩ := h6 e hemem
    exact hc.key q hq
  have hpr : ls.Printable := by
    intro e hemem hop
    obtain ⟨q, hq, rfl, heq⟩ := h6 e hemem
    have hv := hc.vals q hq
    have hop' : q.op = .isIn ∨ q.op = .notIn ∨ q.op = .neq := by
      have hs := h4 q hq
      obtain ⟨k, op, vs⟩ := q
      cases op <;> simp_all [Req.toExpr, Req.isEq, Op.supported]
    obtain ⟨v, hv1, hv2⟩ := hv hop'
    exact ⟨v, mem_setList.mpr hv1, hv2⟩
  have hnorm : ls.matchExprs.map LReq.norm = ls.matchExprs := by
    rw [List.map_congr_left (g := id), List.map_id]
    intro e hemem
    obtain ⟨q, hq, rfl, _⟩ := h6 e hemem
    simp [LReq.norm, Req.toExpr, setList_idem]
  refine ⟨ls, h2, ⟨rs0, h7⟩, hpr, ?_⟩
  unfold queryListOptions at h
  split at h
  · rename_i hj
    obtain rfl := Option.some.inj h
    rw [toJson_eq_braces] at hj
    subst hj
    have := parseSelector_plain h1 hl he
    split at this
    · rename_i hs
      refine Or.inl ⟨this, ?_⟩
      have hp := hc.parses
      rw [hs] at hp
      have h0 : parseReqs [] = some [] := by decide +kernel
      rw [h0] at hp
      exact (Option.some.inj hp).symm
    · refine Or.inr ⟨ls, this, h3, fun kv => Iff.rfl, ?_⟩
      rw [hnorm]
  · rw [h1, Option.bind_some] at h
    have hf : ls.matchExprs.filter (fun m => decide (m.key ≠ paginateKey)) = ls.matchExprs :=
      List.filter_eq_self.mpr (fun a ha => by simpa using he a ha)
    rw [hf] at h
    have h' := h
    unfold formatSelector at h'
    rw [Option.map_eq_some_iff] at h'
    obtain ⟨rs, hrs, -⟩ := h'
    have hrsne : rs ≠ [] := by
      have hp : rs.Perm _ := (asSelector_some hrs).1 ▸ sortBy_perm _ _
      rintro rfl
      have := hp.length_eq
      simp at this
    rw [formatSelector_eq hrs hrsne] at h
    obtain rfl := Option.some.inj h
    exact Or.inr (parseSelector_payload hrs h3 hl he hpr hlen hwf)

/-- **C05**: if `QueryListOptions` succeeds, the server parsing the resulting label selector
obtains exactly the pagination request. Missing for the full claim: payloads above 10024 base64
characters (`C01_false`), selectors that already contain the pagination key as an equality
(`C05_false_key`), and value lists that are all empty (`C05_false_empty`). -/
theorem C05_delivered_partial (sel text : Str) (qs : List Req) (page : Paginate)
    (hc : CallerSelector sel qs)
    (hpage : -2^63 ≤ page.page ∧ page.page < 2^63)
    (hsize : -2^63 ≤ page.pageSize ∧ page.pageSize < 2^63)
    (htotal : -2^63 ≤ page.total ∧ page.total < 2^63)
    (hsort : validUtf8 page.sort = true) (hsearch : validUtf8 page.search = true)
    (hlen : (Base64.encode page.toJson).length ≤ 10024)
    (h : queryListOptions sel page = some text) :
    ∃ info, parseSelector text = some info ∧ info.paginate = page := by
  have hwf : page.WF := by
    refine ⟨?_, ?_, ?_, hsort, hsearch⟩ <;> simp only [minInt64, maxInt64] <;> omega
  obtain ⟨ls, _, _, _, h | ⟨l, h, _⟩⟩ := server_reads hc hwf hlen h
  · exact ⟨_, h.1, rfl⟩
  · exact ⟨_, h, rfl⟩

/-- **C06**, what becomes of any selector with which C05 holds: the label selector the server applies
after removing the pagination key, and the selector text it forwards, accept exactly the label sets that
satisfy every requirement of the caller's selector, except that of several equalities on one label only
the last counts. -/
theorem C06_kept_last (sel text : Str) (qs : List Req) (page : Paginate)
    (hc : CallerSelector sel qs)
    (hpage : -2^63 ≤ page.page ∧ page.page < 2^63)
    (hsize : -2^63 ≤ page.pageSize ∧ page.pageSize < 2^63)
    (htotal : -2^63 ≤ page.total ∧ page.total < 2^63)
    (hsort : validUtf8 page.sort = true) (hsearch : validUtf8 page.search = true)
    (hlen : (Base64.encode page.toJson).length ≤ 10024)
    (h : queryListOptions sel page = some text) :
    ∃ info, parseSelector text = some info
      ∧ (∀ m, (∀ l, info.labels = some l → SelectorHolds l m) ↔ ∀ q ∈ lastEqualities qs, ReqHolds q m)
      ∧ (∀ fwd, info.rewritten = some fwd → ∃ qs', parseReqs fwd = some qs'
          ∧ ∀ m, selMatches qs' m = true ↔ ∀ q ∈ lastEqualities qs, ReqHolds q m) := by
  have hwf : page.WF := by
    refine ⟨?_, ?_, ?_, hsort, hsearch⟩ <;> simp only [minInt64, maxInt64] <;> omega
  obtain ⟨ls, hls, ⟨rs0, hrs0⟩, hpr, h | ⟨l, h, hm, h1, h2⟩⟩ := server_reads hc hwf hlen h
  · refine ⟨_, h.1, ?_, ?_⟩
    · simp [h.2, lastEqualities]
    · simp
  · have hv := parseReqs_valid hc.parses
    have hs := selectorLoop_unsupported qs {} ls hls
    have key : ∀ m, SelectorHolds l m ↔ ∀ q ∈ lastEqualities qs, ReqHolds q m := by
      intro m
      rw [holds_congr h1 h2, selectorLoop_holds_last hv hs hls m]
      exact forall₂_congr fun q hq => matches_iff_reqHolds (hs q (lastEqualities_subset qs q hq)) m
    refine ⟨_, h, ?_, ?_⟩
    · intro m
      simp only [selInfo, Option.some.injEq, forall_eq']
      exact key m
    · intro fwd hf
      obtain ⟨hvl, hve⟩ := asSelector_valid hrs0
      have hsel : ∃ rs, asSelector l = some rs := by
        refine ⟨_, asSelector_of_valid (fun kv hkv => hvl kv ((h1 kv).mp hkv)) ?_⟩
        intro e he
        rw [h2.mem_iff] at he
        obtain ⟨x, hx, rfl⟩ := List.mem_map.mp he
        exact lreq_norm_valid (hve x hx)
      obtain ⟨rs, hrs⟩ := hsel
      have hne : l.matchLabels ≠ [] ∨ l.matchExprs ≠ [] := by
        by_contra hcon
        simp only [not_or, ne_eq, Decidable.not_not] at hcon
        simp [selInfo, hcon.1, hcon.2] at hf
      have hrsne : rs ≠ [] := by
        have hp : rs.Perm _ := (asSelector_some hrs).1 ▸ sortBy_perm _ _
        rintro rfl
        have := hp.length_eq
        simp at this
        rcases hne with h | h
        · exact h (List.length_eq_zero_iff.mp (by omega))
        · exact h (List.length_eq_zero_iff.mp (by omega))
      have hfwd : fwd = selStr rs := by
        simp only [selInfo] at hf
        split at hf
        · rw [formatSelector_eq hrs hrsne] at hf
          exact (Option.some.inj hf).symm
        · simp at hf
      subst hfwd
      have hprl : l.Printable := by
        intro e he hop
        rw [h2.mem_iff] at he
        obtain ⟨x, hx, rfl⟩ := List.mem_map.mp he
        obtain ⟨v, hv1, hv2⟩ := hpr x hx hop
        exact ⟨v, mem_setList.mpr hv1, hv2⟩
      refine ⟨_, parseReqs_selStr_sorted (asSelector_some hrs).2 (printable_reqs hrs hprl)
        (asSelector_sorted hrs), fun m => ?_⟩
      rw [selMatches_norm, asSelector_matches hrs, key]

/-- **C06**: the label selector the server applies after removing the pagination key accepts
exactly the label sets that satisfy every requirement of the caller's selector, and the same
holds for the selector text it forwards. Missing for the full claim, besides the cases of C05:
selectors with two equality requirements on one key (`C06_false`). -/
theorem C06_selector_kept_partial (sel text : Str) (qs : List Req) (page : Paginate)
    (hc : CallerSelector sel qs)
    (hdup : qs.Pairwise (fun a b => (a.op = .eq ∨ a.op = .deq) → (b.op = .eq ∨ b.op = .deq) → a.key ≠ b.key))
    (hpage : -2^63 ≤ page.page ∧ page.page < 2^63)
    (hsize : -2^63 ≤ page.pageSize ∧ page.pageSize < 2^63)
    (htotal : -2^63 ≤ page.total ∧ page.total < 2^63)
    (hsort : validUtf8 page.sort = true) (hsearch : validUtf8 page.search = true)
    (hlen : (Base64.encode page.toJson).length ≤ 10024)
    (h : queryListOptions sel page = some text) :
    ∃ info, parseSelector text = some info
      ∧ (∀ m, (∀ l, info.labels = some l → SelectorHolds l m) ↔ ∀ q ∈ qs, ReqHolds q m)
      ∧ (∀ fwd, info.rewritten = some fwd → ∃ qs', parseReqs fwd = some qs'
          ∧ ∀ m, selMatches qs' m = true ↔ ∀ q ∈ qs, ReqHolds q m) := by
  have := C06_kept_last sel text qs page hc hpage hsize htotal hsort hsearch hlen h
  rwa [lastEqualities_eq hdup] at this

/-- **C06**, exactly: with a selector with which C05 holds, the server's selector accepts the same label
sets as the caller's if and only if no two equalities ask one label for different values, or the
requirements that count cannot be satisfied anyway. -/
theorem C06_exact (sel text : Str) (qs : List Req) (page : Paginate) (hc : CallerSelector sel qs)
    (hpage : -2^63 ≤ page.page ∧ page.page < 2^63)
    (hsize : -2^63 ≤ page.pageSize ∧ page.pageSize < 2^63)
    (htotal : -2^63 ≤ page.total ∧ page.total < 2^63)
    (hsort : validUtf8 page.sort = true) (hsearch : validUtf8 page.search = true)
    (hlen : (Base64.encode page.toJson).length ≤ 10024)
    (h : queryListOptions sel page = some text) :
    ∃ info, parseSelector text = some info
      ∧ ((∀ m, (∀ l, info.labels = some l → SelectorHolds l m) ↔ ∀ q ∈ qs, ReqHolds q m)
        ↔ (∀ a ∈ qs, ∀ b ∈ qs, (a.op = .eq ∨ a.op = .deq) → (b.op = .eq ∨ b.op = .deq) → a.key = b.key → a.vals = b.vals)
          ∨ ∀ m, ∃ q ∈ lastEqualities qs, ¬ ReqHolds q m) := by
  obtain ⟨info, g1, g2, _⟩ := C06_kept_last sel text qs page hc hpage hsize htotal hsort hsearch hlen h
  refine ⟨info, g1, ?_⟩
  rw [← last_exact (parseReqs_valid hc.parses)]
  exact forall_congr' fun m => by rw [g2 m]

/-- `a=1,b=2,a==1` repeats an equality and is kept. -/
example : ∃ text qs, CallerSelector (lit "a=1,b=2,a==1") qs
    ∧ queryListOptions (lit "a=1,b=2,a==1") { page := 1, pageSize := 10 } = some text
    ∧ lastEqualities qs ≠ qs
    ∧ ∃ info, parseSelector text = some info
      ∧ ∀ m, (∀ l, info.labels = some l → SelectorHolds l m) ↔ ∀ q ∈ qs, ReqHolds q m := by
  have hc : CallerSelector (lit "a=1,b=2,a==1")
      [⟨lit "a", .eq, [lit "1"]⟩, ⟨lit "a", .deq, [lit "1"]⟩, ⟨lit "b", .eq, [lit "2"]⟩] :=
    ⟨by decide +kernel, by decide +kernel, by decide +kernel, by decide +kernel⟩
  have hq : queryListOptions (lit "a=1,b=2,a==1") { page := 1, pageSize := 10 }
      = some (lit "a=1,b=2,ckube.daocloud.io/query notin (eyJwYWdlIjoxLCJwYWdlX3NpemUiOjEwfQ)") := by
    decide +kernel
  refine ⟨_, _, hc, hq, by decide +kernel, ?_⟩
  obtain ⟨info, h1, h2⟩ := C06_exact _ _ _ _ hc (by decide) (by decide) (by decide) (by decide +kernel)
    (by decide +kernel) (by decide +kernel) hq
  exact ⟨info, h1, h2.mpr (Or.inl (by decide +kernel))⟩

/-- A caller selector with four requirements and a request whose payload is split in two: the
hypotheses of C05 and C06 hold. -/
example : ∃ sel text qs page, CallerSelector sel qs ∧ qs.length = 4
    ∧ qs.Pairwise (fun a b => (a.op = .eq ∨ a.op = .deq) → (b.op = .eq ∨ b.op = .deq) → a.key ≠ b.key)
    ∧ (Base64.encode page.toJson).length ≤ 10024 ∧ 56 < (Base64.encode page.toJson).length
    ∧ queryListOptions sel page = some text
    ∧ ∃ info, parseSelector text = some info ∧ info.paginate = page := by
  refine ⟨lit "a=1,b!=2,c in (y,x),!d",
    lit "a=1,b notin (2),c in (x,y),ckube.daocloud.io/query notin (0000.eyJwYWdlIjoxLCJwYWdlX3NpemUiOjEwLCJzZWFyY2giOiJuYW1lPX4i,0056.fQ),!d",
    [⟨lit "a", .eq, [lit "1"]⟩, ⟨lit "b", .neq, [lit "2"]⟩, ⟨lit "c", .isIn, [lit "x", lit "y"]⟩,
      ⟨lit "d", .notExist, []⟩],
    { page := 1, pageSize := 10, search := lit "name=~" }, ?_⟩
  have hc : CallerSelector (lit "a=1,b!=2,c in (y,x),!d")
    [⟨lit "a", .eq, [lit "1"]⟩, ⟨lit "b", .neq, [lit "2"]⟩, ⟨lit "c", .isIn, [lit "x", lit "y"]⟩,
      ⟨lit "d", .notExist, []⟩] :=
    ⟨by decide +kernel, by decide +kernel, by decide +kernel, by decide +kernel⟩
  have hq : queryListOptions (lit "a=1,b!=2,c in (y,x),!d")
      { page := 1, pageSize := 10, search := lit "name=~" } =
      some (lit "a=1,b notin (2),c in (x,y),ckube.daocloud.io/query notin (0000.eyJwYWdlIjoxLCJwYWdlX3NpemUiOjEwLCJzZWFyY2giOiJuYW1lPX4i,0056.fQ),!d") := by
    decide +kernel
  exact ⟨hc, rfl, by decide +kernel, by decide +kernel, by decide +kernel, hq,
    C05_delivered_partial _ _ _ _ hc (by decide) (by decide) (by decide) (by decide +kernel)
      (by decide +kernel) (by decide +kernel) hq⟩

/-- **C05 is false** when the caller's selector has an equality on the pagination key: the server
reads that value instead (here it cannot be decoded and the request fails). -/
theorem C05_false_key : ∃ text,
    queryListOptions (lit "ckube.daocloud.io/query=x") { page := 1, pageSize := 10 } = some text
    ∧ parseSelector text = none := by
  refine ⟨lit "ckube.daocloud.io/query=x,ckube.daocloud.io/query notin (eyJwYWdlIjoxLCJwYWdlX3NpemUiOjEwfQ)", ?_⟩
  decide +kernel

/-- **C05 is false** for the caller selector `k!=` (label absent or not empty): the options it
produces cannot be parsed by the server. -/
theorem C05_false_empty : ∃ text,
    queryListOptions (lit "k!=") { page := 1, pageSize := 10 } = some text
    ∧ parseSelector text = none := by
  refine ⟨lit "ckube.daocloud.io/query notin (eyJwYWdlIjoxLCJwYWdlX3NpemUiOjEwfQ),k notin ()", ?_⟩
  decide +kernel

/-- A parsed selector, in terms of the requirements: equalities as labels, all others as expressions. -/
theorem parsed_shape {sel : Str} {qs : List Req} (hqs : parseReqs sel = some qs) (hop : ∀ q ∈ qs, q.op ≠ .gt ∧ q.op ≠ .lt) :
    ∃ ls, parseToLabelSelector sel = some ls ∧ IsMap ls.matchLabels ∧ (∀ kv ∈ ls.matchLabels, ∃ q ∈ qs, q.isEq = true ∧ q.key = kv.1)
      ∧ (∀ e, e ∈ ls.matchExprs ↔ ∃ q ∈ qs, q.isEq = false ∧ e = q.toExpr) := by
  have hs : ∀ q ∈ qs, q.op.supported = true := by
    intro q hq
    have := hop q hq
    cases hq : q.op <;> simp_all [Op.supported]
  have hloop := selectorLoop_eq qs {} (parseReqs_valid hqs) hs
  refine ⟨_, by unfold parseToLabelSelector; rw [hqs]; exact hloop, isMap_eqFold _ [] (by simp [IsMap]), ?_, ?_⟩
  · have aux : ∀ (l : List Req) (m0 : List (Str × Str)), (∀ q ∈ l, q ∈ qs ∧ q.isEq = true) →
        (∀ kv ∈ m0, ∃ q ∈ qs, q.isEq = true ∧ q.key = kv.1) →
        ∀ kv ∈ l.foldl (fun m q => insertKV q.key (q.vals.headD []) m) m0, ∃ q ∈ qs, q.isEq = true ∧ q.key = kv.1 := by
      intro l
      induction l with
      | nil => intro m0 _ h0; exact h0
      | cons q l ih =>
        intro m0 hl h0
        refine ih _ (fun x hx => hl x (by simp [hx])) ?_
        intro kv hkv
        have hk : kv.1 ∈ (insertKV q.key (q.vals.headD []) m0).map Prod.fst := List.mem_map_of_mem hkv
        rw [mem_map_fst_insertKV] at hk
        rcases hk with hk | hk
        · exact ⟨q, (hl q (by simp)).1, (hl q (by simp)).2, hk.symm⟩
        · obtain ⟨x, hx, hxk⟩ := List.mem_map.mp hk
          obtain ⟨q', hq', he', he⟩ := h0 x hx
          exact ⟨q', hq', he', he.trans hxk⟩
    refine aux _ [] ?_ (by simp)
    intro q hq
    simpa using hq
  · intro e
    simp only [List.nil_append, List.mem_map, List.mem_filter, Bool.not_eq_true']
    constructor
    · rintro ⟨q, ⟨h1, h2⟩, rfl⟩; exact ⟨q, h1, h2, rfl⟩
    · rintro ⟨q, h1, h2, rfl⟩; exact ⟨q, ⟨h1, h2⟩, rfl⟩

/-- **C05**, exactly, for a caller's selector without `>` and `<` and without an equality on the pagination key (other requirements on it are
dropped): the server obtains the pagination request if and only if the other value lists of the selector contain a non-empty value. -/
theorem C05_exact (sel text : Str) (qs : List Req) (page : Paginate) (hqs : parseReqs sel = some qs)
    (hop : ∀ q ∈ qs, q.op ≠ .gt ∧ q.op ≠ .lt) (hkey : ∀ q ∈ qs, q.key = paginateKey → q.op ≠ .eq ∧ q.op ≠ .deq) (hne : page ≠ {})
    (hpage : -2^63 ≤ page.page ∧ page.page < 2^63)
    (hsize : -2^63 ≤ page.pageSize ∧ page.pageSize < 2^63)
    (htotal : -2^63 ≤ page.total ∧ page.total < 2^63)
    (hsort : validUtf8 page.sort = true) (hsearch : validUtf8 page.search = true)
    (hlen : (Base64.encode page.toJson).length ≤ 10024)
    (h : queryListOptions sel page = some text) :
    (∃ info, parseSelector text = some info ∧ info.paginate = page) ↔
      ∀ q ∈ qs, q.key ≠ paginateKey → q.op = .isIn ∨ q.op = .notIn ∨ q.op = .neq → ∃ v ∈ q.vals, v ≠ [] := by
  have hwf : page.WF := by
    refine ⟨?_, ?_, ?_, hsort, hsearch⟩ <;> simp only [minInt64, maxInt64] <;> omega
  obtain ⟨ls, h1, h2, h3, h4⟩ := parsed_shape hqs hop
  unfold queryListOptions at h
  rw [if_neg (fun hj => hne (toJson_eq_braces.mp hj)), h1, Option.bind_some] at h
  have hmem : ∀ e, e ∈ ls.matchExprs.filter (fun m => decide (m.key ≠ paginateKey)) ↔
      ∃ q ∈ qs, q.isEq = false ∧ q.key ≠ paginateKey ∧ e = q.toExpr := by
    intro e
    rw [List.mem_filter, h4]
    simp only [decide_eq_true_eq]
    constructor
    · rintro ⟨⟨q, g1, g2, rfl⟩, g3⟩; exact ⟨q, g1, g2, g3, rfl⟩
    · rintro ⟨q, g1, g2, g3, rfl⟩; exact ⟨⟨q, g1, g2, rfl⟩, g3⟩
  generalize hes : ls.matchExprs.filter (fun m => decide (m.key ≠ paginateKey)) = es at h hmem
  have hlist : ∀ q ∈ qs, q.op = .isIn ∨ q.op = .notIn ∨ q.op = .neq → q.isEq = false ∧ (q.toExpr.op = .isIn ∨ q.toExpr.op = .notIn) := by
    intro q _ hq
    rcases hq with hq | hq | hq <;> simp [Req.isEq, Req.toExpr, hq]
  constructor
  · rintro ⟨info, hi, -⟩ q hq hk hq'
    by_contra hcon
    obtain ⟨g1, g2⟩ := hlist q hq hq'
    have hne' : q.vals ≠ [] := by
      have := (parseReqs_valid hqs q hq).count
      intro h0
      rcases hq' with hq' | hq' | hq' <;> simp [hq', h0] at this
    have hval : q.toExpr.vals = [[]] := by
      have hs : setList q.vals = setList [[]] := setList_congr (fun x => by
        rw [List.mem_singleton]
        constructor
        · intro hx; by_contra hx'; exact hcon ⟨x, hx, hx'⟩
        · rintro rfl
          obtain ⟨a, l, hal⟩ := List.exists_cons_of_ne_nil hne'
          have : a = [] := by by_contra ha; exact hcon ⟨a, by rw [hal]; simp, ha⟩
          rw [hal, this]; simp)
      simp only [Req.toExpr]
      rw [hs]; rfl
    have hx := (C08_exact _ text h).1.mp
    have hpt : ∃ x, parseReqs text = some x := by
      unfold parseSelector at hi
      by_cases h0 : text = []
      · subst h0; exact ⟨[], by decide +kernel⟩
      · rw [if_neg h0] at hi
        obtain ⟨x, hx, -⟩ := Option.bind_eq_some_iff.mp hi
        unfold parseToLabelSelector at hx
        obtain ⟨y, hy, -⟩ := Option.bind_eq_some_iff.mp hx
        exact ⟨y, hy⟩
    have := (hx hpt).2 q.toExpr (List.mem_cons_of_mem _ ((hmem _).mpr ⟨q, hq, g1, hk, rfl⟩)) g2
    rw [hval] at this
    simp at this
  · intro hv
    have h' := h
    unfold formatSelector at h'
    rw [Option.map_eq_some_iff] at h'
    obtain ⟨rs, hrs, -⟩ := h'
    have hrsne : rs ≠ [] := by
      have hp : rs.Perm _ := (asSelector_some hrs).1 ▸ sortBy_perm _ _
      rintro rfl
      have := hp.length_eq
      simp at this
    rw [formatSelector_eq hrs hrsne] at h
    obtain rfl := Option.some.inj h
    obtain ⟨l, hl, -⟩ := parseSelector_payload (ls := { ls with matchExprs := es }) hrs h2
      (by
        intro kv hkv hk
        obtain ⟨q, hq, he, hqk⟩ := h3 kv hkv
        have := hkey q hq (hqk.trans hk)
        unfold Req.isEq at he
        revert he
        cases hqo : q.op <;> simp_all)
      (by
        intro e he
        obtain ⟨q, -, -, hk, rfl⟩ := (hmem e).mp he
        exact hk)
      (by
        intro e he hop'
        obtain ⟨q, hq, heq, hk, rfl⟩ := (hmem e).mp he
        obtain ⟨v, v1, v2⟩ := hv q hq hk (by
          obtain ⟨k, op, vs⟩ := q
          have := hop _ hq
          cases op <;> simp_all [Req.toExpr, Req.isEq])
        exact ⟨v, mem_setList.mpr v1, v2⟩)
      hlen hwf
    exact ⟨_, hl, rfl⟩

/-- A selector with an `in` on the pagination key, which is dropped, and one with `k!=`, where the request is lost. -/
example : let page : Paginate := { page := 1, pageSize := 10 }
    parseReqs (lit "a=1,ckube.daocloud.io/query in (x),c in (,y)") = some [⟨lit "a", .eq, [lit "1"]⟩, ⟨lit "c", .isIn, [[], lit "y"]⟩, ⟨paginateKey, .isIn, [lit "x"]⟩]
    ∧ (queryListOptions (lit "a=1,ckube.daocloud.io/query in (x),c in (,y)") page).map (fun t => (parseSelector t).map SelInfo.paginate) = some (some page)
    ∧ parseReqs (lit "k!=") = some [⟨lit "k", .neq, [[]]⟩]
    ∧ (queryListOptions (lit "k!=") page).map (fun t => (parseSelector t).map SelInfo.paginate) = some none := by
  decide +kernel

/-- **C06 is false** for repeated equality keys: `a=1,a=2` accepts nothing, the server's selector
accepts objects with `a=2`. -/
theorem C06_false : ∃ text info,
    queryListOptions (lit "a=1,a=2") { page := 1, pageSize := 10 } = some text
    ∧ parseSelector text = some info ∧ info.labels = some ⟨[(lit "a", lit "2")], []⟩ := by
  refine ⟨lit "a=2,ckube.daocloud.io/query notin (eyJwYWdlIjoxLCJwYWdlX3NpemUiOjEwfQ)",
    ⟨{ page := 1, pageSize := 10 }, some ⟨[(lit "a", lit "2")], []⟩, some (lit "a=2")⟩, ?_⟩
  decide +kernel

/-! ## C07 -/

theorem valid_of_legal {v : Str} (h : LegalLabelValue v) : validLabelValue v = true := by
  obtain ⟨h1, h2⟩ := h
  have key : ∀ b : UInt8, b ∈ alnum ∨ b ∈ lit "-_." → isNameChar b = true := forall_byte (by decide +kernel)
  unfold validLabelValue nameOk
  rcases h2 with rfl | ⟨h2, ⟨a, r, h3, ha⟩, r', z, h4, hz⟩
  · rfl
  · have e1 : v.head? = some a := by rw [h3]; rfl
    have e2 : v.getLast? = some z := by rw [h4]; simp
    rw [e1, e2]
    simp only [(mem_alnum_iff a).mp ha, (mem_alnum_iff z).mp hz, Bool.and_true]
    have : v.all isNameChar = true := List.all_eq_true.mpr (fun b hb => key b (h2 b hb))
    simp [this, h1]

/-- **C07**, exactly when it holds: with a valid selector, `QueryListOptions` accepts a request
precisely when it is the zero request or its base64 text contains neither `+` nor `/`. Missing
for the full claim: the requests whose base64 text contains one of them, which are rejected
(`C07_false`). -/
theorem C07_accepts_iff_partial (sel : Str) (qs : List Req) (page : Paginate)
    (hqs : parseReqs sel = some qs) (hop : ∀ q ∈ qs, q.op ≠ .gt ∧ q.op ≠ .lt)
    (hlen : (Base64.encode page.toJson).length < 1000000) :
    (∃ text, queryListOptions sel page = some text) ↔
      page = {} ∨ (43 ∉ Base64.encode page.toJson ∧ 47 ∉ Base64.encode page.toJson) := by
  obtain ⟨ls, h1, h2, h3, h4, h5, h6, rs0, h7⟩ := caller_parsed hqs hop
  obtain ⟨hvl, hve⟩ := asSelector_valid h7
  unfold queryListOptions
  by_cases hj : page.toJson = lit "{}"
  · rw [if_pos hj]
    rw [toJson_eq_braces] at hj
    simp [hj]
  · rw [if_neg hj, h1, Option.bind_some]
    have hj' : ¬ page = {} := fun h => hj (toJson_eq_braces.mpr h)
    simp only [hj', false_or]
    constructor
    · rintro ⟨text, ht⟩
      unfold formatSelector at ht
      rw [Option.map_eq_some_iff] at ht
      obtain ⟨rs, hrs, -⟩ := ht
      have hv := (asSelector_valid hrs).2 (pageExpr page) (by simp [pageExpr])
      have bad : ∀ b : UInt8, b ∈ Base64.encode page.toJson → isNameChar b = true := by
        intro b hb
        obtain ⟨c, hc, hbc⟩ := mem_splittingValue_of_mem hb
        exact validLabelValue_chars (hv.vals c hc) b hbc
      constructor
      · intro hb; exact absurd (bad _ hb) (by decide)
      · intro hb; exact absurd (bad _ hb) (by decide)
    · rintro ⟨ha, hb⟩
      have hal : ∀ b ∈ Base64.encode page.toJson, b ∈ alnum := by
        intro b hbm
        rcases encode_chars _ b hbm with h | rfl | rfl
        · exact (mem_alnum_iff b).mpr h
        · exact absurd hbm ha
        · exact absurd hbm hb
      have hlegal := C02_chunks_legal _ hal hlen
      have hpe : (exprReq (pageExpr page)).Valid := by
        unfold Req.Valid newReq
        rw [if_pos]
        simp only [Bool.and_eq_true]
        have hk : validLabelKey paginateKey = true := by decide +kernel
        refine ⟨⟨hk, ?_⟩, ?_⟩
        · simp only [exprReq, pageExpr, LOp.toOp, okVals]
          exact decide_eq_true (fun h => splittingValue_ne_nil _ (List.length_eq_zero_iff.mp h))
        · exact List.all_eq_true.mpr (fun c hc => valid_of_legal (hlegal c hc))
      have hsel := asSelector_of_valid (ls := { ls with
          matchExprs := pageExpr page :: ls.matchExprs.filter (fun m => decide (m.key ≠ paginateKey)) }) hvl (by
          intro e he
          rcases List.mem_cons.mp he with rfl | he
          · exact hpe
          · exact hve e (List.mem_filter.mp he).1)
      unfold formatSelector
      unfold pageExpr at hsel
      rw [hsel]
      exact ⟨_, rfl⟩

/-- Both sides of C07 occur: the request `name=~` is accepted with every valid selector. -/
example : ∃ page : Paginate, page ≠ {} ∧ (Base64.encode page.toJson).length < 1000000
    ∧ 43 ∉ Base64.encode page.toJson ∧ 47 ∉ Base64.encode page.toJson :=
  ⟨{ page := 1, pageSize := 10, search := lit "name=~" }, by decide +kernel⟩

/-- **C07**, partially: every request whose sort and search are ASCII text without `?`, `~` and DEL is accepted. -/
theorem C07_accepts_plain_partial (sel : Str) (qs : List Req) (page : Paginate)
    (hqs : parseReqs sel = some qs) (hop : ∀ q ∈ qs, q.op ≠ .gt ∧ q.op ≠ .lt)
    (hsort : ∀ b ∈ page.sort, b < 0x80 ∧ b ∉ lit "?~\x7f") (hsearch : ∀ b ∈ page.search, b < 0x80 ∧ b ∉ lit "?~\x7f")
    (hlen : (Base64.encode page.toJson).length < 1000000) : ∃ text, queryListOptions sel page = some text := by
  have hb : ∀ b : UInt8, b < 0x80 ∧ b ∉ lit "?~\x7f" → plainByte b = true := forall_byte (by decide +kernel)
  exact (C07_accepts_iff_partial sel qs page hqs hop hlen).mpr
    (Or.inr (encode_ok (toJson_ok (fun b h => hb b (hsort b h)) (fun b h => hb b (hsearch b h)))))

/-- A request with a selector, a sort and a search. -/
example : ∃ qs page, parseReqs (lit "app=web,tier in (a,b)") = some qs ∧ page = (⟨2, 5, 0, lit "name,age!int desc",
      lit "name=\"w\";__ckube_as__:cluster in (c1,c2)"⟩ : Paginate)
    ∧ (∀ q ∈ qs, q.op ≠ .gt ∧ q.op ≠ .lt) ∧ (∀ b ∈ page.sort, b < 0x80 ∧ b ∉ lit "?~\x7f")
    ∧ (∀ b ∈ page.search, b < 0x80 ∧ b ∉ lit "?~\x7f") ∧ (Base64.encode page.toJson).length < 1000000 :=
  ⟨[⟨lit "app", .eq, [lit "web"]⟩, ⟨lit "tier", .isIn, [lit "a", lit "b"]⟩], _, by decide +kernel, rfl, by decide +kernel,
    by decide +kernel, by decide +kernel, by decide +kernel⟩

/-- **C07 is false**: page 1, size 10, search `na=?` is rejected with an empty selector. -/
theorem C07_false :
    queryListOptions [] { page := 1, pageSize := 10, search := lit "na=?" } = none := by
  decide +kernel

end Ckube

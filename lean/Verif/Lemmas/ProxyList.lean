import Verif.Lemmas.Proxy
import Verif.Props.Sort
import Verif.Props.Clusters

/-! # Lists answered from the cache -/

namespace Ckube
open Spec

variable {env : Env} {st : StoreI} {tord : Nat → List (Str × Str) → List (Str × Str)} {ord : Values} {r : HReq}
variable {isPrint : Nat → Bool} {eval : Str → Obj → Str} {alg : SliceSort} {pf : Str → Option GoFloat}
  {conf : List (GVR × List (Str × Str))} {h : List Notice} {s : Store}

theorem reads_scan (hord : ord.Perm (parseQuery r.rawQuery)) (i : SelInfo) :
    Reads r i ↔ parseSelector (scanQuery ord).selector = some i := by
  unfold Reads
  rcases selector_first hord with h | ⟨h1, h2⟩
  · constructor
    · rintro (⟨v, hv, hi⟩ | ⟨hno, _⟩)
      · rwa [first_det h hv]
      · exact absurd h (hno _)
    · intro hi; exact Or.inl ⟨_, h, hi⟩
  · rw [h2, parseSelector_nil, Option.some.injEq]
    constructor
    · rintro (⟨v, hv, _⟩ | ⟨_, rfl⟩)
      · exact absurd hv (h1 v)
      · rfl
    · rintro rfl; exact Or.inr ⟨h1, rfl⟩

theorem labelFilter_some {sel : List Req} : ∀ {os out : List Obj}, labelFilter sel os = some out →
    out = os.filter (fun o => selMatches sel (labelsOf o)) ∧ ∀ o ∈ os, o.om.isSome = true
  | [], out, h => by simp only [labelFilter, Option.some.injEq] at h; subst h; simp
  | o :: os, out, h => by
    unfold labelFilter at h
    rw [Option.bind_eq_some_iff] at h
    obtain ⟨l, hl, h⟩ := h
    rw [Option.map_eq_some_iff] at h
    obtain ⟨rest, hrest, rfl⟩ := h
    obtain ⟨h1, h2⟩ := labelFilter_some hrest
    unfold findLabels at hl
    have hlo : labelsOf o = l := by unfold labelsOf; rw [hl]; rfl
    refine ⟨?_, ?_⟩
    · rw [List.filter_cons, hlo, h1]
    · intro x hx
      rcases List.mem_cons.mp hx with rfl | hx
      · cases hom : x.om with
        | none => rw [hom] at hl; simp at hl
        | some m => rfl
      · exact h2 x hx

theorem labelFilter_none {sel : List Req} : ∀ {os : List Obj}, labelFilter sel os = none → ∃ o ∈ os, o.om = none
  | [], h => by simp [labelFilter] at h
  | o :: os, h => by
    unfold labelFilter at h
    cases hom : o.om with
    | none => exact ⟨o, by simp, hom⟩
    | some m =>
      have hl : findLabels o = some m.labels := by unfold findLabels; rw [hom]; rfl
      rw [hl, Option.bind_some, Option.map_eq_none_iff] at h
      obtain ⟨x, hx, hn⟩ := labelFilter_none h
      exact ⟨x, by simp [hx], hn⟩

/-- The label selector that is left is one `LabelSelectorAsSelector` accepts. -/
theorem parseSelector_labels {v : Str} {i : SelInfo} {ls : LabelSelector} (hv : parseSelector v = some i)
    (hl : i.labels = some ls) : ∃ sel, asSelector ls = some sel := by
  unfold parseSelector at hv
  split at hv
  · simp only [Option.some.injEq] at hv; subst hv; simp at hl
  rw [Option.bind_eq_some_iff] at hv
  obtain ⟨ls0, h0, hv⟩ := hv
  have h0' := h0
  unfold parseToLabelSelector at h0
  rw [Option.bind_eq_some_iff] at h0
  obtain ⟨qs, hq, hloop⟩ := h0
  obtain ⟨rs, hrs⟩ := asSelector_parsed (parseReqs_valid hq) hloop
  obtain ⟨v1, v2⟩ := asSelector_valid hrs
  have sub : ∀ ls : LabelSelector, (∀ x ∈ ls.matchLabels, x ∈ ls0.matchLabels) → (∀ x ∈ ls.matchExprs, x ∈ ls0.matchExprs) →
      ∃ sel, asSelector ls = some sel :=
    fun ls h1 h2 => ⟨_, asSelector_of_valid (fun x hx => v1 x (h1 x hx)) (fun x hx => v2 x (h2 x hx))⟩
  rw [Option.bind_eq_some_iff] at hv
  obtain ⟨⟨ls1, ps⟩, ht, hv⟩ := hv
  have hsub : (∀ x ∈ ls1.matchLabels, x ∈ ls0.matchLabels) ∧ (∀ x ∈ ls1.matchExprs, x ∈ ls0.matchExprs) := by
    unfold takePaginate at ht
    split at ht
    · simp only [Option.some.injEq, Prod.mk.injEq] at ht
      obtain ⟨rfl, rfl⟩ := ht
      exact ⟨fun x hx => mem_eraseKV_of hx, fun x hx => hx⟩
    · rw [Option.map_eq_some_iff] at ht
      obtain ⟨t, _, ht⟩ := ht
      simp only [Prod.mk.injEq] at ht
      obtain ⟨rfl, rfl⟩ := ht
      exact ⟨fun x hx => hx, fun x hx => List.mem_of_mem_filter hx⟩
  simp only at hv
  split at hv
  · simp only [selInfo, Option.some.injEq] at hv
    subst hv
    simp only [Option.some.injEq] at hl
    subst hl
    exact sub _ hsub.1 hsub.2
  · rw [Option.map_eq_some_iff] at hv
    obtain ⟨rr, _, hv⟩ := hv
    subst hv
    simp only [selInfo, Option.some.injEq] at hl
    subst hl
    exact sub _ (fun x hx => hsub.1 x (mem_eraseKV_of hx)) hsub.2

theorem labelsOf_same {o o' : Obj} (h : SameButMarks o o') : labelsOf o' = labelsOf o := by
  obtain ⟨_, _, h⟩ := h
  unfold labelsOf
  revert h
  cases o.om <;> cases o'.om <;> simp
  intro _ _ h _ _ _
  exact h

theorem om_same {o o' : Obj} (h : SameButMarks o o') : o'.om.isSome = o.om.isSome := by
  obtain ⟨_, _, h⟩ := h
  revert h
  cases o.om <;> cases o'.om <;> simp

/-- The pagination request a list is answered with. -/
def listPage (env : Env) (i : SelInfo) : Paginate := { i.paginate with search := defaultSearch env i.paginate.search }

/-- How a list request is answered. -/
theorem list_outcome (hconf : ConfOK conf) (hrun : (newStore conf).run eval h = some s) (hst : Serves isPrint alg pf s st)
    (hord : ord.Perm (parseQuery r.rawQuery)) (hc : Cacheable st r) (hr : r.resource = []) {i : SelInfo}
    (hi : Reads r i) (hp : ValidPaging i.paginate) :
    (proxy env st tord ord r = .refused .query ∧ ∃ q res, q.ns = r.ns ∧ q.page.sort = i.paginate.sort
        ∧ q.page.search = (listPage env i).search ∧ ValidPaging q.page ∧ st.query r.gvr q = some res ∧ res.error = true)
    ∨ (proxy env st tord ord r = .crash
        ∧ ∃ id o, Matching isPrint eval conf h r.gvr ⟨r.ns, listPage env i⟩ id o ∧ o.om = none)
    ∨ ∃ found kept : List (Ident × Obj × SObj), Lists isPrint eval conf h s r.gvr ⟨r.ns, listPage env i⟩ found
      ∧ FoundOK isPrint eval conf h r.gvr ⟨r.ns, listPage env i⟩ found
      ∧ (found = [] ∨ ∃ rs : List SObj, rs.Perm (found.map fun e => e.2.2)
          ∧ sortObjs alg pf rs i.paginate.sort = (found.map (fun e => e.2.2), false))
      ∧ kept.Sublist found ∧ (∀ e ∈ found, e ∈ kept ↔ Satisfies i.labels e.2.1)
      ∧ proxy env st tord ord r = listAnswer env tord r (listPage env i)
          (some (.inl (pageOf i.paginate.page i.paginate.pageSize (kept.map fun e => e.2.2.obj), kept.length))) := by
  obtain ⟨info, hs, hpx⟩ := proxy_cacheable (env := env) (tord := tord) hord hc
  have : info = i := by
    have := (reads_scan hord i).mp hi
    rw [hs, Option.some.injEq] at this; exact this
  subst this
  have hpx : proxy env st tord ord r
      = listAnswer env tord r (listPage env info) (listItems st r (listPage env info) info.labels) := by
    rw [hpx, if_neg (by simpa using hr)]; rfl
  have hconfd : ∃ cm, lookup r.gvr s.data = some cm := by
    have := hc.configured
    rw [hst.types] at this
    exact Option.isSome_iff_exists.mp this
  obtain ⟨cm, hcm⟩ := hconfd
  have hq : ∀ q : Query, ValidPaging q.page → ∃ res, st.query r.gvr q = some res := by
    intro q hv
    have := hst.query r.gvr q
    unfold Store.mayAnswer at this
    rw [hcm] at this
    obtain ⟨vs, _, hq⟩ := this
    rw [hq]
    exact Option.isSome_iff_exists.mp (queryList_some vs q hv)
  rw [hpx]
  by_cases hne : ∃ ls, info.labels = some ls ∧ (ls.matchLabels.length ≠ 0 ∨ ls.matchExprs.length ≠ 0)
  swap
  · have hsat : ∀ o, Satisfies info.labels o := by
      intro o ls hls
      have h12 : ls.matchLabels = [] ∧ ls.matchExprs = [] := by
        have : ¬ (ls.matchLabels.length ≠ 0 ∨ ls.matchExprs.length ≠ 0) := fun hx => hne ⟨ls, hls, hx⟩
        simp only [not_or, ne_eq, Decidable.not_not, List.length_eq_zero_iff] at this
        exact this
      unfold SelectorHolds
      rw [h12.1, h12.2]
      simp
    have hl : listItems st r (listPage env info) info.labels = listPlain st r (listPage env info) := by
      unfold listItems
      cases hlab : info.labels with
      | none => rfl
      | some ls => exact if_neg fun hx => hne ⟨ls, hlab, hx⟩
    obtain ⟨res, hres⟩ := hq ⟨r.ns, listPage env info⟩ hp
    have hl2 : listPlain st r (listPage env info) = if res.error then some (.inr .query) else some (.inl (res.items, res.total)) := by
      unfold listPlain; rw [hres]
    rw [hl, hl2]
    by_cases herr : res.error = true
    · rw [if_pos herr]; exact Or.inl ⟨rfl, _, res, rfl, rfl, rfl, hp, hres, herr⟩
    rw [if_neg herr]
    have hans := hst.query r.gvr ⟨r.ns, listPage env info⟩
    rw [hres] at hans
    obtain ⟨found, f1, f2, f3, f4, f5⟩ := answer_lists hconf hrun r.gvr ⟨r.ns, listPage env info⟩ hp res hans (by simpa using herr)
    refine Or.inr (Or.inr ⟨found, found, f1, f2, f5, List.Sublist.refl _, fun e he => ⟨fun _ => hsat _, fun _ => he⟩, ?_⟩)
    rw [f3, f4]; rfl
  obtain ⟨ls, hlab, hne⟩ := hne
  obtain ⟨sel, hsel⟩ := parseSelector_labels hs hlab
  let q : Query := ⟨r.ns, { sort := (listPage env info).sort, search := (listPage env info).search }⟩
  obtain ⟨res, hres⟩ := hq q (Or.inl rfl)
  have hl : listItems st r (listPage env info) info.labels = if res.error then some (.inr .query)
      else (labelFilter sel res.items).bind fun items =>
        (labelSlice (listPage env info) items).map fun page => .inl (page, items.length) := by
    unfold listItems
    rw [hlab]
    simp only
    rw [if_pos hne]
    unfold listLabels
    have hres' : st.query r.gvr ⟨r.ns, { sort := (listPage env info).sort, search := (listPage env info).search }⟩ = some res := hres
    rw [hres']
    simp only
    rw [hsel]
  rw [hl, hlab]
  by_cases herr : res.error = true
  · rw [if_pos herr]; exact Or.inl ⟨rfl, q, res, rfl, rfl, rfl, Or.inl rfl, hres, herr⟩
  rw [if_neg herr]
  have hans := hst.query r.gvr q
  rw [hres] at hans
  obtain ⟨found, f1, f2, f3, f4, f5⟩ := answer_lists hconf hrun r.gvr q (Or.inl rfl) res hans (by simpa using herr)
  have hf4 : res.items = found.map fun e => e.2.2.obj := by
    rw [f4]; unfold pageOf; exact if_pos rfl
  have hfm := found_mem f2
  cases hlf : labelFilter sel res.items with
  | none =>
    obtain ⟨o, ho, hom⟩ := labelFilter_none hlf
    rw [hf4] at ho
    obtain ⟨e, he, rfl⟩ := List.mem_map.mp ho
    obtain ⟨m1, m2⟩ := (hfm e).mp he
    refine Or.inr (Or.inl ⟨rfl, e.1, e.2.1, m1, ?_⟩)
    have hsame := build_same eval (confAt conf r.gvr) e.1.cluster e.2.1
    rw [← m2] at hsame
    have := om_same hsame
    rw [hom] at this
    cases hx : e.2.1.om with
    | none => rfl
    | some m => rw [hx] at this; simp at this
  | some out =>
    obtain ⟨ho, _⟩ := labelFilter_some hlf
    rw [Option.bind_some]
    let kept := found.filter fun e => selMatches sel (labelsOf e.2.2.obj)
    have hout : out = kept.map fun e => e.2.2.obj := by
      rw [ho, hf4, List.filter_map]; rfl
    refine Or.inr (Or.inr ⟨found, kept, f1, f2, f5, List.filter_sublist, ?_, ?_⟩)
    · intro e he
      have hsame := build_same eval (confAt conf r.gvr) e.1.cluster e.2.1
      rw [← ((hfm e).mp he).2] at hsame
      show e ∈ found.filter _ ↔ _
      rw [List.mem_filter, and_iff_right he, asSelector_matches hsel, labelsOf_same hsame]
      constructor
      · intro hh ls' hls; rw [Option.some.injEq] at hls; exact hls ▸ hh
      · intro hh; exact hh ls rfl
    · have hslice : labelSlice (listPage env info) out
          = some (pageOf info.paginate.page info.paginate.pageSize (kept.map fun e => e.2.2.obj)) := by
        unfold labelSlice pageOf
        rw [hout]
        rcases hp with h0 | ⟨p1, p2, p3⟩
        · rw [if_pos (show (listPage env info).pageSize = 0 ∨ (listPage env info).page = 0 from Or.inl h0), if_pos h0]
        · rw [if_neg (show ¬ ((listPage env info).pageSize = 0 ∨ (listPage env info).page = 0) by
            show ¬ (info.paginate.pageSize = 0 ∨ info.paginate.page = 0); omega), if_neg (by omega)]
          exact slice_page _ p1 p2 (show info.paginate.page * info.paginate.pageSize < 9223372036854775808 by omega)
      rw [hslice, hout, Option.map_some, List.length_map]

/-- What a list request shows, whatever its page is. -/
theorem list_sound (hconf : ConfOK conf) (hrun : (newStore conf).run eval h = some s) (hst : Serves isPrint alg pf s st)
    (hord : ord.Perm (parseQuery r.rawQuery)) (hc : Cacheable st r) (hr : r.resource = []) {i : SelInfo} (hi : Reads r i) :
    proxy env st tord ord r = .crash ∨ (∃ w, proxy env st tord ord r = .refused w)
    ∨ ∃ items total, proxy env st tord ord r = listAnswer env tord r (listPage env i) (some (.inl (items, total)))
      ∧ ∀ o ∈ items, ∃ id o', Matching isPrint eval conf h r.gvr ⟨r.ns, listPage env i⟩ id o'
          ∧ s.get id.gvr id.cluster id.ns id.name = some o := by
  obtain ⟨info, hs, hpx⟩ := proxy_cacheable (env := env) (tord := tord) hord hc
  have : info = i := by
    have := (reads_scan hord i).mp hi
    rw [hs, Option.some.injEq] at this; exact this
  subst this
  have hpx : proxy env st tord ord r
      = listAnswer env tord r (listPage env info) (listItems st r (listPage env info) info.labels) := by
    rw [hpx, if_neg (by simpa using hr)]; rfl
  rw [hpx]
  have hitems : ∀ q : Query, q.ns = r.ns → q.page.search = (listPage env info).search → ∀ res,
      st.query r.gvr q = some res → res.error = false → ∀ o ∈ res.items,
      ∃ id o', Matching isPrint eval conf h r.gvr ⟨r.ns, listPage env info⟩ id o'
          ∧ s.get id.gvr id.cluster id.ns id.name = some o := by
    intro q q1 q2 res hres herr o ho
    have hans := hst.query r.gvr q
    rw [hres] at hans
    obtain ⟨found, f1, f2, f3, _, f5⟩ := answer_found hconf hrun r.gvr q res hans herr
    have hmem : ∃ e ∈ found, e.2.2.obj = o := by
      rcases f5 with ⟨_, f5⟩ | ⟨rs, _, _, items, hsl, f5⟩
      · rw [f5] at ho; simp at ho
      · rw [f5] at ho
        obtain ⟨x, hx, rfl⟩ := List.mem_map.mp ho
        unfold slice at hsl
        split at hsl
        · simp only [Option.some.injEq] at hsl
          subst hsl
          obtain ⟨e, he, rfl⟩ := List.mem_map.mp (List.mem_of_mem_drop (List.mem_of_mem_take hx))
          exact ⟨e, he, rfl⟩
        · simp at hsl
    obtain ⟨e, he, rfl⟩ := hmem
    refine ⟨e.1, e.2.1, ?_, by rw [get_look, (f3 e he).2]; rfl⟩
    have hm := (f2 e.1 e.2.1).mp ⟨e.2.2, he⟩
    unfold Matching Paginate.matches at hm ⊢
    rw [q1, q2] at hm
    exact hm
  have plain : ∀ L, listPlain st r (listPage env info) = L → listAnswer env tord r (listPage env info) L = .crash
      ∨ (∃ w, listAnswer env tord r (listPage env info) L = .refused w)
      ∨ ∃ items total, listAnswer env tord r (listPage env info) L
          = listAnswer env tord r (listPage env info) (some (.inl (items, total)))
        ∧ ∀ o ∈ items, ∃ id o', Matching isPrint eval conf h r.gvr ⟨r.ns, listPage env info⟩ id o'
          ∧ s.get id.gvr id.cluster id.ns id.name = some o := by
    rintro L rfl
    unfold listPlain
    cases hres : st.query r.gvr ⟨r.ns, listPage env info⟩ with
    | none => exact Or.inl rfl
    | some res =>
      cases herr : res.error with
      | true => exact Or.inr (Or.inl ⟨.query, by simp [listAnswer, herr]⟩)
      | false => exact Or.inr (Or.inr ⟨res.items, res.total, by simp [herr], hitems _ rfl rfl res hres herr⟩)
  unfold listItems
  cases hlab : info.labels with
  | none => exact plain _ rfl
  | some ls =>
    by_cases hne : ls.matchLabels.length ≠ 0 ∨ ls.matchExprs.length ≠ 0
    swap
    · simp only [if_neg hne]; exact plain _ rfl
    simp only [if_pos hne]
    unfold listLabels
    cases hres : st.query r.gvr ⟨r.ns, { sort := (listPage env info).sort, search := (listPage env info).search }⟩ with
    | none => exact Or.inl rfl
    | some res =>
      cases herr : res.error with
      | true => exact Or.inr (Or.inl ⟨.query, by simp [listAnswer, herr]⟩)
      | false =>
        simp only [herr]
        cases hsel : asSelector ls with
        | none => exact Or.inr (Or.inl ⟨.selector, by simp [listAnswer]⟩)
        | some sel =>
          cases hlf : labelFilter sel res.items with
          | none => exact Or.inl (by simp [listAnswer, hlf])
          | some out =>
            cases hsl : labelSlice (listPage env info) out with
            | none => exact Or.inl (by simp [listAnswer, hlf, hsl])
            | some pg =>
              refine Or.inr (Or.inr ⟨pg, out.length, by simp [hlf, hsl], ?_⟩)
              intro o ho
              refine hitems _ rfl rfl res hres herr o ?_
              have : o ∈ out := by
                unfold labelSlice at hsl
                split at hsl
                · simp only [Option.some.injEq] at hsl; rw [hsl]; exact ho
                · unfold slice at hsl
                  split at hsl
                  · simp only [Option.some.injEq] at hsl
                    subst hsl
                    exact List.mem_of_mem_drop (List.mem_of_mem_take ho)
                  · simp at hsl
              rw [(labelFilter_some hlf).1] at this
              exact List.mem_of_mem_filter this

/-- `Clusters` with a legal name succeeds on a search with an advanced part it can read. -/
theorem setClusters_some_first {search c : Str} {qs : List Req} (hadv : FirstReqs search qs)
    (hop : ∀ q ∈ qs, q.op ≠ .gt ∧ q.op ≠ .lt) (hne : c ≠ []) (hc : validLabelValue c = true) :
    ∃ s', setClusters search [c] = some s' := by
  have hsup : ∀ q ∈ qs, q.op.supported = true := by
    intro q hq
    have := hop q hq
    obtain ⟨k, op, vs⟩ := q
    cases op <;> simp_all [Op.supported]
  obtain ⟨hsel, hvalid⟩ := searchSelector_first hadv
  have hls := selectorLoop_eq qs {} hvalid hsup
  obtain ⟨rs, hrs⟩ := asSelector_parsed hvalid hls
  obtain ⟨v1, v2⟩ := asSelector_valid hrs
  unfold setClusters
  rw [hsel, hls, Option.bind_some, if_neg (by simpa using hne.symm)]
  unfold setSearchSelector formatSelector
  generalize ({ matchLabels := _, matchExprs := _ } : LabelSelector) = ls at hrs v1 v2
  rw [asSelector_of_valid (ls := restrictTo clusterKey [c] ls) v1 ?_]
  · exact ⟨_, rfl⟩
  · intro e he
    simp only [restrictTo, List.mem_cons, List.mem_filter] at he
    rcases he with rfl | ⟨he, _⟩
    · have hk : validLabelKey clusterKey = true := by decide +kernel
      simp [exprReq, Req.Valid, newReq, okVals, hk, hc, LOp.toOp]
    · exact v2 e he

theorem setClusters_some {search c : Str} {qs : List Req} (hadv : AdvReqs search qs)
    (hop : ∀ q ∈ qs, q.op ≠ .gt ∧ q.op ≠ .lt) (hne : c ≠ []) (hc : validLabelValue c = true) :
    ∃ s', setClusters search [c] = some s' := setClusters_some_first (AdvReqs.first hadv) hop hne hc

end Ckube

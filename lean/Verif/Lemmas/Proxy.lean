import Verif.Spec.Proxy
import Verif.Lemmas.Url
import Verif.Lemmas.DeleteOpts
import Verif.Lemmas.Search
import Verif.Lemmas.IndexJson

/-! # The proxy's reading of a request -/

namespace Ckube
open Spec

/-- A query parameter whose first value names a cluster for the client library. -/
def isMarker (e : Str × List Str) : Bool :=
  (e.1 = lit "fieldManager" || e.1 = lit "resourceVersion") && hasPrefix (e.2.headD []) clusterPrefix

/-- The cluster a query parameter names. -/
def candidate (e : Str × List Str) : Option Str :=
  if e.1 = lit "cluster" then some (e.2.headD [])
  else if isMarker e then some ((e.2.headD []).drop clusterPrefix.length) else none

theorem key_ne1 : lit "cluster" ≠ lit "labelSelector" := by decide
theorem key_ne2 : lit "fieldManager" ≠ lit "labelSelector" := by decide
theorem key_ne3 : lit "resourceVersion" ≠ lit "labelSelector" := by decide
theorem key_ne4 : lit "fieldManager" ≠ lit "cluster" := by decide
theorem key_ne5 : lit "resourceVersion" ≠ lit "cluster" := by decide

theorem scanStep_eq (st : Scan) (e : Str × List Str) : scanStep st e =
    ⟨if e.1 = lit "labelSelector" then e.2.headD [] else st.selector,
     (candidate e).getD st.cluster,
     if isMarker e then eraseKV e.1 st.query else st.query⟩ := by
  unfold scanStep candidate isMarker
  simp only [Bool.and_eq_true, Bool.or_eq_true, decide_eq_true_eq]
  by_cases h1 : e.1 = lit "labelSelector"
  · have a1 := key_ne1; have a2 := key_ne2; have a3 := key_ne3
    simp [h1, Ne.symm a1, Ne.symm a2, Ne.symm a3]
  by_cases h2 : e.1 = lit "cluster"
  · have a1 := key_ne1; have a2 := key_ne4; have a3 := key_ne5
    simp [h2, a1, Ne.symm a2, Ne.symm a3]
  by_cases h3 : e.1 = lit "fieldManager" ∨ e.1 = lit "resourceVersion"
  · by_cases h4 : hasPrefix (e.2.headD []) clusterPrefix = true
    · simp only [h1, h2, h3, h4, if_true, if_false, and_self, Option.getD_some]
    · simp only [h1, h2, h3, h4, if_true, if_false]
      simp
  · simp [h1, h2, h3]

theorem eraseKV_filter {κ ν : Type} [DecidableEq κ] (k : κ) : ∀ {m : List (κ × ν)}, IsMap m →
    eraseKV k m = m.filter (fun e => e.1 ≠ k)
  | [], _ => rfl
  | (k', v') :: m, h => by
    unfold IsMap at h
    simp only [List.map_cons, List.nodup_cons] at h
    unfold eraseKV
    by_cases hk : k' = k
    · subst hk
      rw [if_pos rfl, List.filter_cons_of_neg (by simp), List.filter_eq_self.mpr]
      intro e he
      have : e.1 ≠ k' := fun h' => h.1 (h' ▸ List.mem_map_of_mem he)
      simpa using this
    · rw [if_neg hk, List.filter_cons_of_pos (by simpa using hk), eraseKV_filter k h.2]

theorem scan_foldl (l : Values) : ∀ (st : Scan), IsMap l → IsMap st.query →
    (l.foldl scanStep st).cluster = ((l.filterMap candidate).getLast?).getD st.cluster
    ∧ (l.foldl scanStep st).selector = (match lookup (lit "labelSelector") l with
        | some vs => vs.headD [] | none => st.selector)
    ∧ (l.foldl scanStep st).query = st.query.filter (fun e => !(l.any fun m => isMarker m && m.1 = e.1)) := by
  induction l with
  | nil => intro st _ _; simp [lookup]
  | cons e l ih =>
    intro st hl hq
    have hl' : IsMap l := by unfold IsMap at hl ⊢; simp only [List.map_cons, List.nodup_cons] at hl; exact hl.2
    have hne : ∀ v, (e.1, v) ∉ l := by
      unfold IsMap at hl; simp only [List.map_cons, List.nodup_cons] at hl
      intro v hv; exact hl.1 (List.mem_map.mpr ⟨_, hv, rfl⟩)
    rw [List.foldl_cons]
    have hq' : IsMap (scanStep st e).query := by
      rw [scanStep_eq]; simp only; split
      · exact isMap_eraseKV hq
      · exact hq
    obtain ⟨h1, h2, h3⟩ := ih (scanStep st e) hl' hq'
    refine ⟨?_, ?_, ?_⟩
    · rw [h1, scanStep_eq]
      simp only [List.filterMap_cons]
      cases hc : candidate e with
      | none => simp
      | some c =>
        simp only [Option.getD_some, List.getLast?_cons]
    · rw [h2, scanStep_eq]
      obtain ⟨k, v⟩ := e
      simp only [lookup]
      by_cases hk : k = lit "labelSelector"
      · subst hk
        rw [if_pos rfl, lookup_eq_none.mpr (by simpa using hne)]
        simp
      · rw [if_neg hk]
        simp only [if_neg hk]
    · rw [h3, scanStep_eq]
      simp only [List.any_cons]
      by_cases hm : isMarker e = true
      · rw [if_pos hm, eraseKV_filter _ hq, List.filter_filter]
        apply List.filter_congr
        intro x _
        simp only [hm, Bool.true_and, Bool.not_or]
        rw [Bool.and_comm]
        congr 1
        by_cases hx : x.1 = e.1
        · simp [hx]
        · simp [hx, Ne.symm hx]
      · rw [if_neg hm]
        apply List.filter_congr
        intro x _
        simp only [Bool.not_eq_true] at hm
        simp [hm]

/-- What the loop over the query finds. -/
theorem scanQuery_eq {ord : Values} (h : IsMap ord) :
    (scanQuery ord).cluster = ((ord.filterMap candidate).getLast?).getD []
    ∧ (scanQuery ord).selector = ((lookup (lit "labelSelector") ord).getD []).headD []
    ∧ (scanQuery ord).query = ord.filter (fun e => !isMarker e) := by
  obtain ⟨h1, h2, h3⟩ := scan_foldl ord { query := ord } h h
  refine ⟨h1, ?_, ?_⟩
  · unfold scanQuery
    rw [h2]
    cases lookup (lit "labelSelector") ord <;> rfl
  · unfold scanQuery
    rw [h3]
    apply List.filter_congr
    intro e he
    congr 1
    rw [Bool.eq_iff_iff, List.any_eq_true]
    constructor
    · rintro ⟨m, hm, hme⟩
      simp only [Bool.and_eq_true, decide_eq_true_eq] at hme
      have h1 := lookup_eq_some_of_mem h (k := m.1) (v := m.2) hm
      have h2 := lookup_eq_some_of_mem h (k := e.1) (v := e.2) he
      rw [hme.2] at h1
      rw [h1, Option.some.injEq] at h2
      have : m = e := Prod.ext hme.2 h2
      exact this ▸ hme.1
    · intro hm
      exact ⟨e, he, by simp [hm]⟩

/-! ## In terms of the request -/

/-- `ord` is an order in which the query of the request can be iterated. -/
theorem ord_ok {r : HReq} {ord : Values} (h : ord.Perm (parseQuery r.rawQuery)) :
    IsMap ord ∧ (∀ e ∈ ord, e.2 ≠ []) ∧ ∀ k, lookup k ord = lookup k (parseQuery r.rawQuery) := by
  obtain ⟨h1, h2⟩ := parseQuery_ok r.rawQuery
  have hm : IsMap ord := by unfold IsMap at h1 ⊢; exact (h.map Prod.fst).nodup_iff.mpr h1
  exact ⟨hm, fun e he => h2 e (h.subset he), fun k => lookup_perm hm h k⟩

theorem first_iff {raw k v : Str} : First raw k v ↔ ∃ vs, (k, v :: vs) ∈ parseQuery raw := by
  unfold First
  constructor
  · rintro ⟨vs, h⟩; exact ⟨vs, mem_of_lookup h⟩
  · rintro ⟨vs, h⟩; exact ⟨vs, lookup_eq_some_of_mem (parseQuery_ok raw).1 h⟩

theorem mem_first {raw : Str} {e : Str × List Str} (h : e ∈ parseQuery raw) : First raw e.1 (e.2.headD []) := by
  obtain ⟨k, vs⟩ := e
  cases vs with
  | nil => exact absurd rfl ((parseQuery_ok raw).2 _ h)
  | cons v vs => exact first_iff.mpr ⟨vs, h⟩

theorem first_head {raw k v : Str} (h : First raw k v) : ∃ vs, (k, v :: vs) ∈ parseQuery raw := first_iff.mp h

theorem isMarker_iff (e : Str × List Str) :
    isMarker e = true ↔ e.1 ∈ markerKeys ∧ ∃ c, e.2.headD [] = marker c := by
  unfold isMarker markerKeys marker
  rw [Bool.and_eq_true, hasPrefix_iff]
  simp only [Bool.or_eq_true, decide_eq_true_eq, List.mem_cons, List.not_mem_nil, or_false]
  refine and_congr_right fun _ => ?_
  constructor
  · rintro ⟨c, hc⟩; exact ⟨c, hc.symm⟩
  · rintro ⟨c, hc⟩; exact ⟨c, hc.symm⟩

theorem candidate_iff (e : Str × List Str) (c : Str) :
    candidate e = some c ↔ (e.1 = lit "cluster" ∧ e.2.headD [] = c) ∨ (e.1 ∈ markerKeys ∧ e.2.headD [] = marker c) := by
  have hk : lit "cluster" ∉ markerKeys := by decide
  unfold candidate
  by_cases h : e.1 = lit "cluster"
  · rw [if_pos h]
    simp [h, hk]
  · rw [if_neg h]
    simp only [h, false_and, false_or]
    by_cases hm : isMarker e = true
    · rw [if_pos hm]
      obtain ⟨h1, c', h2⟩ := (isMarker_iff e).mp hm
      have hd : (marker c').drop clusterPrefix.length = c' := by
        show (clusterPrefix ++ c').drop clusterPrefix.length = c'
        rw [List.drop_left]
      rw [h2, hd]
      simp only [Option.some.injEq, h1, true_and]
      unfold marker
      constructor
      · rintro rfl; rfl
      · intro h; exact List.append_cancel_left h
    · rw [if_neg hm]
      rw [isMarker_iff] at hm
      constructor
      · simp
      · rintro ⟨h1, h2⟩; exact absurd ⟨h1, c, h2⟩ hm

theorem dryRunMarker_iff {body c : Str} {b : Str} : dryRunMarker body = some (c, b) ↔
    ∃ ds, (decodeDelete body).dryRun = marker c :: ds ∧ b = { decodeDelete body with dryRun := ds }.toJson := by
  unfold dryRunMarker
  cases hd : (decodeDelete body).dryRun with
  | nil => simp
  | cons d ds =>
    simp only [List.cons.injEq]
    by_cases hp : hasPrefix d clusterPrefix = true
    · rw [if_pos hp]
      obtain ⟨c', hc⟩ := hasPrefix_iff.mp hp
      subst hc
      rw [List.drop_left]
      simp only [Option.some.injEq, Prod.mk.injEq]
      constructor
      · rintro ⟨rfl, rfl⟩; exact ⟨ds, ⟨rfl, rfl⟩, rfl⟩
      · rintro ⟨ds', ⟨h1, rfl⟩, rfl⟩
        exact ⟨List.append_cancel_left h1, rfl⟩
    · rw [if_neg hp]
      constructor
      · simp
      · rintro ⟨ds', ⟨h1, _⟩, _⟩
        exact absurd (hasPrefix_iff.mpr ⟨c, h1.symm⟩) hp

/-- The cluster after the DELETE block is one the request names, or empty when it names none. -/
theorem deleteBlock_names {r : HReq} {ord : Values} (hord : ord.Perm (parseQuery r.rawQuery)) :
    Names r (deleteBlock r (scanQuery ord).cluster).1
      ∨ ((∀ c, ¬ Names r c) ∧ (deleteBlock r (scanQuery ord).cluster).1 = []) := by
  obtain ⟨hm, hv, _⟩ := ord_ok hord
  have scan : (∀ c' ds, ¬ DryRunNames r c' ds) →
      Names r (scanQuery ord).cluster ∨ ((∀ c, ¬ Names r c) ∧ (scanQuery ord).cluster = []) := by
    intro hno
    rw [(scanQuery_eq hm).1]
    cases hl : (ord.filterMap candidate).getLast? with
    | none =>
      right
      refine ⟨?_, rfl⟩
      rw [List.getLast?_eq_none_iff, List.filterMap_eq_nil_iff] at hl
      have : ∀ k v c, First r.rawQuery k v → candidate (k, [v]) ≠ some c := by
        intro k v c hf hcand
        obtain ⟨vs, hmem⟩ := first_head hf
        have := hl _ (hord.symm.subset hmem)
        rw [candidate_iff] at hcand
        have h2 : candidate (k, v :: vs) = some c := (candidate_iff _ _).mpr hcand
        rw [h2] at this
        simp at this
      intro c hc
      cases hc with
      | options ds h => exact hno _ _ h
      | param _ h => exact this _ _ c h ((candidate_iff _ _).mpr (Or.inl ⟨rfl, rfl⟩))
      | marked k _ hk h => exact this _ _ c h ((candidate_iff _ _).mpr (Or.inr ⟨hk, rfl⟩))
    | some c =>
      left
      have hc := List.mem_of_getLast? hl
      obtain ⟨e, he, hce⟩ := List.mem_filterMap.mp hc
      have hf := mem_first (hord.subset he)
      rw [Option.getD_some]
      rcases (candidate_iff e c).mp hce with ⟨h1, h2⟩ | ⟨h1, h2⟩
      · rw [h1, h2] at hf; exact .param hno hf
      · rw [h2] at hf; exact .marked _ hno h1 hf
  unfold deleteBlock
  by_cases hd : r.method = lit "DELETE"
  · rw [if_pos hd]
    cases hdm : dryRunMarker r.body with
    | some cb =>
      obtain ⟨ds, h1, _⟩ := dryRunMarker_iff.mp (show dryRunMarker r.body = some (cb.1, cb.2) from hdm)
      exact Or.inl (.options ds ⟨hd, h1⟩)
    | none =>
      refine scan ?_
      rintro c' ds ⟨_, h2⟩
      have := dryRunMarker_iff.mpr ⟨ds, h2, rfl⟩
      rw [hdm] at this
      simp at this
  · rw [if_neg hd]
    exact scan fun c' ds h => hd h.1

/-- The label selector text of the request. -/
theorem selector_first {r : HReq} {ord : Values} (hord : ord.Perm (parseQuery r.rawQuery)) :
    First r.rawQuery (lit "labelSelector") (scanQuery ord).selector
      ∨ ((∀ v, ¬ First r.rawQuery (lit "labelSelector") v) ∧ (scanQuery ord).selector = []) := by
  obtain ⟨hm, hv, hl⟩ := ord_ok hord
  rw [(scanQuery_eq hm).2.1, hl]
  cases h : lookup (lit "labelSelector") (parseQuery r.rawQuery) with
  | none =>
    refine Or.inr ⟨?_, rfl⟩
    rintro v ⟨vs, hv⟩
    rw [h] at hv; simp at hv
  | some vs => exact Or.inl (mem_first (mem_of_lookup h))

theorem first_det {raw k v v' : Str} (h : First raw k v) (h' : First raw k v') : v = v' := by
  obtain ⟨vs, h⟩ := h
  obtain ⟨vs', h'⟩ := h'
  rw [h] at h'
  simp only [Option.some.injEq, List.cons.injEq] at h'
  exact h'.1

theorem parseSelector_nil : parseSelector [] = some ⟨{}, none, none⟩ := rfl

theorem readable_iff_scan {r : HReq} {ord : Values} (hord : ord.Perm (parseQuery r.rawQuery)) :
    Readable r ↔ (parseSelector (scanQuery ord).selector).isSome = true := by
  rcases selector_first hord with h | ⟨h1, h2⟩
  · constructor
    · intro hr; exact hr _ h
    · intro hs v hv; rw [first_det hv h]; exact hs
  · rw [h2]
    constructor
    · intro _; rfl
    · intro _ v hv; exact absurd hv (h1 v)

theorem carries_scan {r : HReq} {ord : Values} (hord : ord.Perm (parseQuery r.rawQuery)) {info : SelInfo}
    (hs : parseSelector (scanQuery ord).selector = some info) (p : Paginate) :
    Carries r p ↔ p = info.paginate := by
  unfold Carries
  rcases selector_first hord with h | ⟨h1, h2⟩
  · constructor
    · rintro (⟨v, i, hv, hi, rfl⟩ | ⟨hno, _⟩)
      · rw [first_det hv h, hs, Option.some.injEq] at hi; rw [hi]
      · exact absurd h (hno _)
    · rintro rfl; exact Or.inl ⟨_, info, h, hs, rfl⟩
  · rw [h2, parseSelector_nil, Option.some.injEq] at hs
    subst hs
    constructor
    · rintro (⟨v, i, hv, _⟩ | ⟨_, rfl⟩)
      · exact absurd hv (h1 v)
      · rfl
    · rintro rfl; exact Or.inr ⟨h1, rfl⟩

theorem unreadable_carries {r : HReq} {ord : Values} (hord : ord.Perm (parseQuery r.rawQuery))
    (hs : parseSelector (scanQuery ord).selector = none) (p : Paginate) : ¬ Carries r p := by
  rcases selector_first hord with h | ⟨h1, h2⟩
  · rintro (⟨v, i, hv, hi, rfl⟩ | ⟨hno, _⟩)
    · rw [first_det hv h, hs] at hi; simp at hi
    · exact hno _ h
  · rw [h2, parseSelector_nil] at hs; simp at hs

theorem pick_nil {env : Env} {p : Paginate} : pickCluster env p []
    = if (getClusters p.search).headD [] = [] then env.defaultCluster else (getClusters p.search).headD [] := rfl

theorem pick_named {env : Env} {p : Paginate} {c : Str} (h : c ≠ []) : pickCluster env p c = c := by
  unfold pickCluster
  rw [if_neg h, if_neg h]

/-- The cluster of a readable request. -/
theorem pick_selects {env : Env} {r : HReq} {ord : Values} (hord : ord.Perm (parseQuery r.rawQuery)) {info : SelInfo}
    (hs : parseSelector (scanQuery ord).selector = some info) :
    Selects env r (pickCluster env info.paginate (deleteBlock r (scanQuery ord).cluster).1) := by
  have fb : FallsBack env r (pickCluster env info.paginate []) := by
    rw [pick_nil]
    by_cases hc : (getClusters info.paginate.search).headD [] = []
    · rw [if_pos hc]
      exact Or.inr ⟨fun p hp => by rw [(carries_scan hord hs p).mp hp]; exact hc, rfl⟩
    · rw [if_neg hc]
      cases hg : getClusters info.paginate.search with
      | nil => rw [hg] at hc; exact absurd rfl hc
      | cons c cs =>
        rw [hg] at hc
        exact Or.inl ⟨_, cs, (carries_scan hord hs _).mpr rfl, hg, hc⟩
  rcases deleteBlock_names hord with h | ⟨h1, h2⟩
  · by_cases hc : (deleteBlock r (scanQuery ord).cluster).1 = []
    · rw [hc] at h ⊢
      exact Or.inr ⟨Or.inl h, fb⟩
    · left
      have : pickCluster env info.paginate (deleteBlock r (scanQuery ord).cluster).1
          = (deleteBlock r (scanQuery ord).cluster).1 := pick_named hc
      rw [this]
      exact ⟨h, hc⟩
  · rw [h2]
    exact Or.inr ⟨Or.inr h1, fb⟩

/-- The cluster of a request that cannot be read. -/
theorem pass_selects {env : Env} {r : HReq} {ord : Values} (hord : ord.Perm (parseQuery r.rawQuery))
    (hs : parseSelector (scanQuery ord).selector = none) :
    Selects env r (if (deleteBlock r (scanQuery ord).cluster).1 = [] then env.defaultCluster
      else (deleteBlock r (scanQuery ord).cluster).1) := by
  have fb : FallsBack env r env.defaultCluster :=
    Or.inr ⟨fun p hp => absurd hp (unreadable_carries hord hs p), rfl⟩
  rcases deleteBlock_names hord with h | ⟨h1, h2⟩
  · by_cases hc : (deleteBlock r (scanQuery ord).cluster).1 = []
    · rw [if_pos hc]; rw [hc] at h
      exact Or.inr ⟨Or.inl h, fb⟩
    · rw [if_neg hc]; exact Or.inl ⟨h, hc⟩
  · rw [if_pos h2]
    exact Or.inr ⟨Or.inr h1, fb⟩

theorem pick_pass {env : Env} {p : Paginate} {c : Str} :
    (if pickCluster env p c = [] then env.defaultCluster else pickCluster env p c) = pickCluster env p c := by
  by_cases h : c = []
  · subst h
    rw [pick_nil]
    by_cases h' : (getClusters p.search).headD [] = []
    · rw [if_pos h']; split <;> rfl
    · rw [if_neg h', if_neg h']
  · rw [pick_named h, if_neg h]

theorem proxyPass_upstream {env : Env} {r : HReq} {c q b : Str} {c' : Str}
    (hc : (if c = [] then env.defaultCluster else c) = c') :
    Upstream env c' (proxyPass env r c q b) ∨ (proxyPass env r c q b = .crash ∧ knownMethod r.method = false
      ∧ c' ∈ env.clients) := by
  unfold proxyPass
  simp only [hc]
  by_cases hm : c' ∈ env.clients
  · rw [if_neg (by simpa using hm)]
    have hsend : ∀ w q b, Upstream env c' (send w c' r q b) ∨ (send w c' r q b = .crash ∧ knownMethod r.method = false
        ∧ c' ∈ env.clients) := by
      intro w q b
      unfold send
      by_cases hk : knownMethod r.method = true
      · rw [if_pos hk]; exact Or.inl (.sent _ _ _ _ _ hm)
      · rw [if_neg hk]; exact Or.inr ⟨rfl, by simpa using hk, hm⟩
    split <;> exact hsend _ _ _
  · rw [if_pos hm]; exact Or.inl (.unknown hm)

/-- The rewritten query. -/
theorem parsed_query {r : HReq} {ord : Values} (hord : ord.Perm (parseQuery r.rawQuery)) (rw : Option Str) :
    (parseQuery (encodeQuery (setSelector rw (scanQuery ord).query))).Perm (setSelector rw (scanQuery ord).query)
    ∧ IsMap (setSelector rw (scanQuery ord).query) ∧ ∀ e ∈ setSelector rw (scanQuery ord).query, e.2 ≠ [] := by
  obtain ⟨hm, hv, _⟩ := ord_ok hord
  have hq := (scanQuery_eq hm).2.2
  have h1 : IsMap (scanQuery ord).query := by
    rw [hq]; unfold IsMap at hm ⊢
    exact hm.sublist (List.filter_sublist.map _)
  have h2 : ∀ e ∈ (scanQuery ord).query, e.2 ≠ [] := by
    intro e he; rw [hq] at he; exact hv e (List.mem_of_mem_filter he)
  have h3 : IsMap (setSelector rw (scanQuery ord).query) ∧ ∀ e ∈ setSelector rw (scanQuery ord).query, e.2 ≠ [] := by
    unfold setSelector
    cases rw with
    | none => exact ⟨h1, h2⟩
    | some s =>
      refine ⟨isMap_insertKV h1, ?_⟩
      intro e he
      rcases mem_insertKV he with rfl | he
      · simp
      · exact h2 e he
  refine ⟨?_, h3⟩
  rw [parseQuery_encode h3.1 h3.2]
  exact sortBy_perm _ _

theorem lookup_filter {κ ν : Type} [DecidableEq κ] {m : List (κ × ν)} (hm : IsMap m) (p : κ × ν → Bool) (k : κ) (v : ν) :
    lookup k (m.filter p) = some v ↔ lookup k m = some v ∧ p (k, v) = true := by
  have hf : IsMap (m.filter p) := by unfold IsMap at hm ⊢; exact hm.sublist (List.filter_sublist.map _)
  rw [lookup_iff hf, lookup_iff hm, List.mem_filter]

/-- The keys that keep a request from the cache. -/
theorem any_key {r : HReq} {ord : Values} (hord : ord.Perm (parseQuery r.rawQuery)) (rw : Option Str) :
    (parseQuery (encodeQuery (setSelector rw (scanQuery ord).query))).any (fun e => !cacheKeys.contains e.1) = false ↔
      ∀ k v, First r.rawQuery k v → k ∈ cacheKeys ∨ (k ∈ markerKeys ∧ ∃ c, v = marker c) := by
  obtain ⟨hm, hv, _⟩ := ord_ok hord
  obtain ⟨h1, h2, h3⟩ := parsed_query hord rw
  rw [h1.any_eq, List.any_eq_false]
  have hq := (scanQuery_eq hm).2.2
  have hkeys : (∀ e ∈ setSelector rw (scanQuery ord).query, e.1 ∈ cacheKeys) ↔ ∀ e ∈ (scanQuery ord).query, e.1 ∈ cacheKeys := by
    unfold setSelector
    cases rw with
    | none => exact Iff.rfl
    | some s =>
      constructor
      · intro h e he
        by_cases hk : e.1 = lit "labelSelector"
        · rw [hk]; simp [cacheKeys]
        · have : e.1 ∈ (insertKV (lit "labelSelector") [s] (scanQuery ord).query).map Prod.fst :=
            mem_map_fst_insertKV.mpr (Or.inr (List.mem_map_of_mem he))
          obtain ⟨e', he', hee⟩ := List.mem_map.mp this
          rw [← hee]; exact h e' he'
      · intro h e he
        rcases mem_insertKV he with rfl | he
        · simp [cacheKeys]
        · exact h e he
  have : (∀ x ∈ setSelector rw (scanQuery ord).query, ¬ (!cacheKeys.contains x.1) = true) ↔
      ∀ e ∈ setSelector rw (scanQuery ord).query, e.1 ∈ cacheKeys := by
    simp
  rw [this, hkeys, hq]
  constructor
  · intro h k v hf
    obtain ⟨vs, hmem⟩ := first_head hf
    by_cases hmk : isMarker (k, v :: vs) = true
    · obtain ⟨a, c, b⟩ := (isMarker_iff _).mp hmk
      exact Or.inr ⟨a, c, b⟩
    · exact Or.inl (h (k, v :: vs) (List.mem_filter.mpr ⟨hord.symm.subset hmem, by simpa using hmk⟩))
  · intro h e he
    obtain ⟨he, hnm⟩ := List.mem_filter.mp he
    rcases h _ _ (mem_first (hord.subset he)) with hk | hk
    · exact hk
    · rw [(isMarker_iff e).mpr hk] at hnm; simp at hnm

end Ckube

namespace Ckube
open Spec

variable {env : Env} {st : StoreI} {tord : Nat → List (Str × Str) → List (Str × Str)} {ord : Values} {r : HReq}

theorem proxy_unread (hs : parseSelector (scanQuery ord).selector = none) : proxy env st tord ord r
    = proxyPass env r (deleteBlock r (scanQuery ord).cluster).1 r.rawQuery (deleteBlock r (scanQuery ord).cluster).2 := by
  unfold proxy parseClean
  simp only [hs]

theorem proxy_read {info : SelInfo} (hs : parseSelector (scanQuery ord).selector = some info) :
    proxy env st tord ord r =
      let p : Parsed := ⟨info.paginate, info.labels,
        pickCluster env info.paginate (deleteBlock r (scanQuery ord).cluster).1,
        encodeQuery (setSelector info.rewritten (scanQuery ord).query), (deleteBlock r (scanQuery ord).cluster).2⟩
      if (parseQuery p.rawQuery).any (fun e => !cacheKeys.contains e.1) then proxyPass env r p.cluster p.rawQuery p.body
      else if !st.isStoreGVR r.gvr ∨ r.method ≠ lit "GET" then proxyPass env r p.cluster p.rawQuery p.body
      else if r.resource ≠ [] then proxySingle st r p.cluster
      else proxyList env st tord r p := by
  unfold proxy parseClean
  simp only [hs]

theorem proxyList_local (p : Parsed) : Local (proxyList env st tord r p) := by
  unfold proxyList listAnswer
  simp only
  split
  · simp [Local]
  · simp [Local]
  · split
    · simp [Local]
    · split
      · unfold serverPrint; split <;> simp [Local]
      · simp [Local]

theorem proxySingle_local (c : Str) : Local (proxySingle st r c) := by
  unfold proxySingle; split <;> simp [Local]

/-- A cacheable request. -/
theorem proxy_cacheable (hord : ord.Perm (parseQuery r.rawQuery)) (hc : Cacheable st r) :
    ∃ info, parseSelector (scanQuery ord).selector = some info
      ∧ proxy env st tord ord r = if r.resource ≠ []
        then proxySingle st r (pickCluster env info.paginate (deleteBlock r (scanQuery ord).cluster).1)
        else proxyList env st tord r ⟨info.paginate, info.labels,
          pickCluster env info.paginate (deleteBlock r (scanQuery ord).cluster).1,
          encodeQuery (setSelector info.rewritten (scanQuery ord).query), (deleteBlock r (scanQuery ord).cluster).2⟩ := by
  obtain ⟨info, hs⟩ := Option.isSome_iff_exists.mp ((readable_iff_scan hord).mp hc.readable)
  refine ⟨info, hs, ?_⟩
  rw [proxy_read hs]
  simp only
  rw [(any_key hord info.rewritten).mpr hc.params, hc.configured, hc.get]
  simp

/-- A request that is not cacheable. -/
theorem proxy_not_cacheable (hord : ord.Perm (parseQuery r.rawQuery)) (hc : ¬ Cacheable st r) :
    (∃ info, parseSelector (scanQuery ord).selector = some info ∧ proxy env st tord ord r
      = proxyPass env r (pickCluster env info.paginate (deleteBlock r (scanQuery ord).cluster).1)
        (encodeQuery (setSelector info.rewritten (scanQuery ord).query)) (deleteBlock r (scanQuery ord).cluster).2)
    ∨ (parseSelector (scanQuery ord).selector = none ∧ proxy env st tord ord r
      = proxyPass env r (deleteBlock r (scanQuery ord).cluster).1 r.rawQuery (deleteBlock r (scanQuery ord).cluster).2) := by
  cases hs : parseSelector (scanQuery ord).selector with
  | none => exact Or.inr ⟨rfl, proxy_unread hs⟩
  | some info =>
    refine Or.inl ⟨info, rfl, ?_⟩
    rw [proxy_read hs]
    simp only
    split
    · rfl
    rename_i h1
    split
    · rfl
    rename_i h2
    exfalso
    apply hc
    simp only [Bool.not_eq_true', not_or, Bool.not_eq_false, ne_eq, Decidable.not_not] at h2
    exact ⟨h2.2, h2.1, (readable_iff_scan hord).mpr (by rw [hs]; rfl),
      (any_key hord info.rewritten).mp (by simpa using h1)⟩

theorem proxyPass_forward {c q b c' m p q' b' : Str} {w : Bool}
    (h : proxyPass env r c q b = .forward w c' m p q' b') :
    c' = (if c = [] then env.defaultCluster else c) ∧ c' ∈ env.clients ∧ w = isWatch r.path q ∧ m = r.method ∧ p = r.path
      ∧ q' = (if isWatch r.path q then watchQuery q else q) ∧ b' = (if r.method = lit "GET" then [] else b) := by
  unfold proxyPass send at h
  simp only at h
  generalize (if c = [] then env.defaultCluster else c) = c₀ at h ⊢
  split at h
  · simp at h
  rename_i hm
  split at h
  · rename_i hw
    split at h
    · simp only [Answer.forward.injEq] at h
      obtain ⟨rfl, rfl, rfl, rfl, rfl, rfl⟩ := h
      exact ⟨rfl, by simpa using hm, hw.symm, rfl, rfl, by rw [if_pos hw], rfl⟩
    · simp at h
  · rename_i hw
    split at h
    · simp only [Answer.forward.injEq] at h
      obtain ⟨rfl, rfl, rfl, rfl, rfl, rfl⟩ := h
      exact ⟨rfl, by simpa using hm, by simpa using hw, rfl, rfl, by rw [if_neg hw], rfl⟩
    · simp at h

/-- What a forwarded request looks like. -/
theorem proxy_forward (hord : ord.Perm (parseQuery r.rawQuery)) {c m p q b : Str} {w : Bool}
    (h : proxy env st tord ord r = .forward w c m p q b) :
    ∃ q₀, m = r.method ∧ p = r.path ∧ w = isWatch r.path q₀ ∧ q = (if isWatch r.path q₀ then watchQuery q₀ else q₀)
      ∧ b = (if r.method = lit "GET" then [] else (deleteBlock r (scanQuery ord).cluster).2)
      ∧ (((∃ info, parseSelector (scanQuery ord).selector = some info
            ∧ q₀ = encodeQuery (setSelector info.rewritten (scanQuery ord).query)))
          ∨ (parseSelector (scanQuery ord).selector = none ∧ q₀ = r.rawQuery)) := by
  by_cases hc : Cacheable st r
  · obtain ⟨info, hs, hp⟩ := proxy_cacheable (env := env) (tord := tord) hord hc
    rw [hp] at h
    split at h
    · exact absurd h ((proxySingle_local _).1 _ _ _ _ _ _)
    · exact absurd h ((proxyList_local _).1 _ _ _ _ _ _)
  · rcases proxy_not_cacheable (env := env) (tord := tord) hord hc with ⟨info, hs, hp⟩ | ⟨hs, hp⟩
    · rw [hp] at h
      obtain ⟨_, _, h1, h2, h3, h4, h5⟩ := proxyPass_forward h
      exact ⟨_, h2, h3, h1, h4, h5, Or.inl ⟨info, hs, rfl⟩⟩
    · rw [hp] at h
      obtain ⟨_, _, h1, h2, h3, h4, h5⟩ := proxyPass_forward h
      exact ⟨_, h2, h3, h1, h4, h5, Or.inr ⟨hs, rfl⟩⟩

theorem sortBy_fst_perm {ν : Type} {m m' : List (Str × ν)} (hm : IsMap m) (hp : m.Perm m') :
    sortBy (fun a b => strLe a.1 b.1) m = sortBy (fun a b => strLe a.1 b.1) m' := by
  refine sortBy_eq_of_perm (fun a b => strLe_total a.1 b.1) (fun a b c => strLe_trans a.1 b.1 c.1) hp ?_
  intro a ha b hb h1 h2
  have hk := strLe_antisymm _ _ h1 h2
  have e1 := lookup_eq_some_of_mem hm (show (a.1, a.2) ∈ m from ha)
  have e2 := lookup_eq_some_of_mem hm (show (b.1, b.2) ∈ m from hb)
  rw [hk, e2, Option.some.injEq] at e1
  exact Prod.ext hk e1.symm

theorem validUtf8_ascii : ∀ {p s : Str}, (∀ b ∈ p, b < 0x80) → validUtf8 s = true → validUtf8 (p ++ s) = true
  | [], _, _, h => h
  | b :: p, s, hp, h => by
    have ih := validUtf8_ascii (p := p) (fun x hx => hp x (by simp [hx])) h
    have hb : b < 0x80 := hp b (by simp)
    unfold validUtf8 chunks at ih ⊢
    rw [List.cons_append, chunksFrom]
    have hc : chunk1 b (p ++ s) = .ascii b := by unfold chunk1; rw [if_pos hb]
    rw [hc, List.all_cons, Bool.true_and]
    exact ih

/-- Parameters of the forwarded watch. -/
theorem lookup_watchQuery (q k : Str) (hk : k ≠ lit "timeout") (hl : k ≠ lit "labelSelector") :
    lookup k (parseQuery (watchQuery q)) = lookup k (parseQuery q) := by
  obtain ⟨h1, h2⟩ := parseQuery_ok q
  have m1 : IsMap (insertKV (lit "timeout") [lit "30m"] (parseQuery q)) := isMap_insertKV h1
  have v1 : ∀ e ∈ insertKV (lit "timeout") [lit "30m"] (parseQuery q), e.2 ≠ [] := by
    intro e he
    rcases mem_insertKV he with rfl | he
    · simp
    · exact h2 e he
  have l1 : lookup k (insertKV (lit "timeout") [lit "30m"] (parseQuery q)) = lookup k (parseQuery q) := by
    rw [lookup_insertKV, if_neg (Ne.symm hk)]
  unfold watchQuery
  simp only
  split
  · rw [parseQuery_encode (isMap_eraseKV m1) (fun e he => v1 e (mem_eraseKV_of he)), lookup_sortBy (isMap_eraseKV m1),
      lookup_eraseKV m1, if_neg (Ne.symm hl), l1]
  · rw [parseQuery_encode m1 v1, lookup_sortBy m1, l1]

/-- Parameters of a forwarded request that could be read. -/
theorem lookup_rewritten (hord : ord.Perm (parseQuery r.rawQuery)) (rw : Option Str) {k : Str}
    (hl : k ≠ lit "labelSelector") (vs : List Str) :
    lookup k (parseQuery (encodeQuery (setSelector rw (scanQuery ord).query))) = some vs ↔
      lookup k (parseQuery r.rawQuery) = some vs ∧ ¬ (k ∈ markerKeys ∧ ∃ c, vs.headD [] = marker c) := by
  obtain ⟨hm, hv, hlk⟩ := ord_ok hord
  obtain ⟨h1, h2, h3⟩ := parsed_query hord rw
  rw [parseQuery_encode h2 h3, lookup_sortBy h2]
  have : lookup k (setSelector rw (scanQuery ord).query) = lookup k (scanQuery ord).query := by
    unfold setSelector
    cases rw with
    | none => rfl
    | some s => simp only; rw [lookup_insertKV, if_neg (Ne.symm hl)]
  rw [this, (scanQuery_eq hm).2.2, lookup_filter hm, hlk, ← isMarker_iff (k, vs)]
  simp

end Ckube

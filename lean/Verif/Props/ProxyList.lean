import Verif.Lemmas.ProxyList
import Verif.Props.Proxy

/-! # C41–C44: lists answered from the cache

`listPage env i` is the pagination request of `i` with the default cluster filled in. -/

namespace Ckube
open Spec

variable {env : Env} {st : StoreI} {tord : Nat → List (Str × Str) → List (Str × Str)} {ord : Values} {r : HReq}
variable {isPrint : Nat → Bool} {eval : Str → Obj → Str} {alg : SliceSort} {pf : Str → Option GoFloat}
  {conf : List (GVR × List (Str × Str))} {h : List Notice} {s : Store}

/-- The answer shows exactly `items`: as a list, or as a table when the client asked for one (C49). -/
inductive Spec.Shows (tord : Nat → List (Str × Str) → List (Str × Str)) (items : List Obj) : Answer → Prop
  | list (v k l rc) : Shows tord items (.list v k l rc items)
  | table : Shows tord items (serverPrint tord items)

/-- A list answer shows its items or says that the page does not exist. -/
theorem listAnswer_shows (p : Paginate) (items : List Obj) (total : Int) :
    listAnswer env tord r p (some (.inl (items, total))) = .refused .outOfPage
      ∨ Shows tord items (listAnswer env tord r p (some (.inl (items, total)))) := by
  unfold listAnswer
  simp only
  generalize remainCount p total items.length = rc
  cases rc with
  | none => exact Or.inl rfl
  | some rc =>
    right
    simp only
    split
    · exact .table
    · exact .list _ _ _ _

/-! ## C41 -/

/-- A search restricted to one cluster accepts only objects of it. -/
theorem defaultSearch_cluster {search : Str} {qs : List Req} (hd : env.defaultCluster ≠ [])
    (hl : validLabelValue env.defaultCluster = true) (hno : getClusters search = []) (hadv : FirstReqs search qs)
    (hop : ∀ q ∈ qs, q.op ≠ .gt ∧ q.op ≠ .lt)
    {m : List (Str × Str)} (hm : matchParts isPrint m (searchParts (defaultSearch env search)) = some true) :
    lookup (lit "cluster") m = some env.defaultCluster := by
  obtain ⟨s', hs'⟩ := setClusters_some_first hadv hop hd hl
  unfold defaultSearch at hm
  rw [if_pos hno, hs', Option.getD_some] at hm
  obtain ⟨⟨c, hc, hlk⟩, _⟩ := C17_sound isPrint search s' [env.defaultCluster] hs' m hm
  rw [List.mem_singleton] at hc
  rwa [hc] at hlk

/-- **C41**: a list answered from the cache whose search names no cluster shows only objects of the default cluster, whatever the search is, as long
as its first advanced part can be read. Missing for the full claim: default cluster names that are no label values (`C41_false_name`), and first
advanced parts that cannot be read as they are written (`C41_false_search`) or use `<` or `>`. -/
theorem C41_default_cluster_partial (hconf : ConfOK conf) (hrun : (newStore conf).run eval h = some s)
    (hst : Serves isPrint alg pf s st) (hord : ord.Perm (parseQuery r.rawQuery)) (hc : Cacheable st r) (hr : r.resource = [])
    {i : SelInfo} (hi : Reads r i) (hno : getClusters i.paginate.search = [])
    (hd : env.defaultCluster ≠ []) (hl : validLabelValue env.defaultCluster = true)
    {qs : List Req} (hadv : FirstReqs i.paginate.search qs) (hop : ∀ q ∈ qs, q.op ≠ .gt ∧ q.op ≠ .lt) :
    proxy env st tord ord r = .crash ∨ (∃ w, proxy env st tord ord r = .refused w)
    ∨ ∃ items, Shows tord items (proxy env st tord ord r)
      ∧ ∀ o ∈ items, ∃ ns name, s.get r.gvr env.defaultCluster ns name = some o := by
  rcases list_sound (env := env) (tord := tord) hconf hrun hst hord hc hr hi with h1 | h1 | ⟨items, total, h1, h2⟩
  · exact Or.inl h1
  · exact Or.inr (Or.inl h1)
  · rcases listAnswer_shows (env := env) (tord := tord) (r := r) (listPage env i) items total with h3 | h3
    · exact Or.inr (Or.inl ⟨.outOfPage, by rw [h1, h3]⟩)
    · refine Or.inr (Or.inr ⟨items, by rw [h1]; exact h3, ?_⟩)
      intro o ho
      obtain ⟨id, o', hm, hg⟩ := h2 o ho
      obtain ⟨_, hgvr, _, idx, hidx, hmt⟩ := hm
      have hcl := defaultSearch_cluster hd hl hno hadv hop hmt
      rw [hidx.2] at hcl
      have hcl : id.cluster = env.defaultCluster := by simpa [indexValueOf] using hcl
      rw [hgvr, hcl] at hg
      exact ⟨_, _, hg⟩

/-- A list of all pods whose search is `node=n;__ckube_as__:is_deleted notin (true)`. -/
def exSearched : HReq :=
  { method := lit "GET", path := lit "/api/v1/pods",
    rawQuery := lit "labelSelector=ckube.daocloud.io%2Fquery+notin+%280000.eyJzZWFyY2giOiJub2RlPW47X19ja3ViZV9hc19fOmlzX2RlbGV0ZW%2C0056.Qgbm90aW4gKHRydWUpIn0%29",
    version := lit "v1", resourceType := lit "pods" }

theorem exCacheable (q : HReq) (h1 : q.method = lit "GET") (h2 : exStore.isStoreGVR q.gvr = true)
    (h3 : (parseQuery q.rawQuery).all (fun e => decide (e.1 = lit "labelSelector") && (parseSelector (e.2.headD [])).isSome) = true) :
    Cacheable exStore q := by
  have key := all_first (raw := q.rawQuery) (P := fun k v => decide (k = lit "labelSelector") && (parseSelector v).isSome) h3
  refine ⟨h1, h2, ?_, ?_⟩
  · intro v hv
    have := key _ _ hv
    simpa using this
  · intro k v hv
    have := key _ _ hv
    simp only [Bool.and_eq_true, decide_eq_true_eq] at this
    exact Or.inl (by rw [this.1]; simp)

/-- The hypotheses of C41 hold, and of the two pods `web` the one of the default cluster is shown. -/
example : Cacheable exStore exSearched ∧ FirstReqs (lit "node=n;__ckube_as__:is_deleted notin (true)") [⟨lit "is_deleted", .notIn, [lit "true"]⟩]
    ∧ (parseQuery exSearched.rawQuery).map (fun e => (e.1, (parseSelector (e.2.headD [])).map SelInfo.paginate))
      = [(lit "labelSelector", some { search := lit "node=n;__ckube_as__:is_deleted notin (true)" })]
    ∧ getClusters (lit "node=n;__ckube_as__:is_deleted notin (true)") = []
    ∧ proxy exEnv exStore (fun _ m => m) (parseQuery exSearched.rawQuery) exSearched
      = .list (lit "v1") [] (lit "/api/v1/pods") 0 ((exStore.get exPods (lit "c1") (lit "prod") (lit "web")).toList) :=
  ⟨exCacheable _ rfl (by decide +kernel) (by decide +kernel),
    AdvReqs.first (Or.inr ⟨lit "is_deleted notin (true)", by decide +kernel, by decide +kernel⟩), by decide +kernel, by decide +kernel, by decide +kernel⟩

/-- **C41 is false** for a default cluster whose name is no label value, as kubeconfig contexts such as
`admin@prod`: the restriction fails, the error is only logged, and the objects of all clusters are listed. -/
theorem C41_false_name :
    proxy { exEnv with defaultCluster := lit "admin@prod" } exStore (fun _ m => m) [] { exSearched with rawQuery := [] }
      = .list (lit "v1") [] (lit "/api/v1/pods") 0
        ((exStore.get exPods (lit "c1") (lit "prod") (lit "web")).toList ++ (exStore.get exPods (lit "c2") (lit "prod") (lit "web")).toList)
    ∧ (exStore.get exPods (lit "c1") (lit "prod") (lit "web")).isSome = true
    ∧ (exStore.get exPods (lit "c2") (lit "prod") (lit "web")).isSome = true := by
  decide +kernel

/-- **C41 is false** for a search whose advanced part is only readable after trimming blanks, here a
vertical tab after `is_deleted=false`: the restriction fails, the search itself works. -/
theorem C41_false_search :
    let q := lit "labelSelector=ckube.daocloud.io%2Fquery+notin+%280000.eyJzZWFyY2giOiJfX2NrdWJlX2FzX186aXNfZGVsZXRlZD1mYWxzZV%2C0056.x1MDAwYiJ9%29"
    (parseQuery q).map (fun e => (parseSelector (e.2.headD [])).map SelInfo.paginate)
      = [some { search := lit "__ckube_as__:is_deleted=false" ++ [11] }]
    ∧ proxy exEnv exStore (fun _ m => m) (parseQuery q) { exSearched with rawQuery := q }
      = .list (lit "v1") [] (lit "/api/v1/pods") 0
        ((exStore.get exPods (lit "c1") (lit "prod") (lit "web")).toList
          ++ (exStore.get exPods (lit "c2") (lit "prod") (lit "web")).toList) := by
  decide +kernel

/-! ## C42 -/

/-- **C42**: a list answered from the cache is the requested page of the matching objects whose labels satisfy the selector, in the
order of the sort expression; it is refused only if the query of the cache fails or the page does not exist.
Missing for the full claim: pages that end at 2^63 or later, page 0 and negative pages, sort items with more than
two blank separated parts and NaN index values (see C25, C27, C28). -/
theorem C42_selected_partial (hconf : ConfOK conf) (hrun : (newStore conf).run eval h = some s) (hapi : ApiObjects h)
    (hst : Serves isPrint alg pf s st) (hord : ord.Perm (parseQuery r.rawQuery)) (hc : Cacheable st r) (hr : r.resource = [])
    {i : SelInfo} (hi : Reads r i) (hp : ValidPaging i.paginate) (htwo : TwoParts i.paginate.sort) (he : EmptyNoNaN pf) :
    (proxy env st tord ord r = .refused .query ∧ ∃ q res, q.ns = r.ns ∧ q.page.sort = i.paginate.sort
        ∧ q.page.search = (listPage env i).search ∧ ValidPaging q.page ∧ st.query r.gvr q = some res ∧ res.error = true)
    ∨ ∃ found kept : List (Ident × Obj × SObj), Lists isPrint eval conf h s r.gvr ⟨r.ns, listPage env i⟩ found
      ∧ (found = [] ∨ ∃ ks, SortMeans i.paginate.sort ks ∧ (NoNaNs isPrint eval pf conf h r.gvr ⟨r.ns, listPage env i⟩ ks →
          (found.map fun e => e.2.2).Pairwise (LexLe pf ks)))
      ∧ kept.Sublist found ∧ (∀ e ∈ found, e ∈ kept ↔ Satisfies i.labels e.2.1)
      ∧ (proxy env st tord ord r = .refused .outOfPage
          ∨ Shows tord (pageOf i.paginate.page i.paginate.pageSize (kept.map fun e => e.2.2.obj)) (proxy env st tord ord r)) := by
  rcases list_outcome (env := env) (tord := tord) hconf hrun hst hord hc hr hi hp with
    h1 | ⟨_, id, o, hm, hom⟩ | ⟨found, kept, f1, f2, f3, f4, f5, f6⟩
  · exact Or.inl h1
  · have := latest_api hapi hm.1
    rw [hom] at this
    simp at this
  · refine Or.inr ⟨found, kept, f1, ?_, f4, f5, ?_⟩
    · rcases f3 with f3 | ⟨rs, hperm, hs⟩
      · exact Or.inl f3
      · by_cases h0 : found = []
        · exact Or.inl h0
        · have hne : rs ≠ [] := by
            rintro rfl
            have := hperm.length_eq
            simp only [List.length_nil, List.length_map] at this
            exact h0 (List.length_eq_zero_iff.mp this.symm)
          obtain ⟨ks, k1, k2⟩ := sortObjs_sorted hs hne htwo
          exact Or.inr ⟨ks, k1, fun hn => k2 (noNaN_found hconf f2 he hn hperm)⟩
    · rw [f6]
      exact listAnswer_shows _ _ _

/-! ## C43 and C44 -/

/-- The number of objects on a page. -/
theorem length_pageOf {α : Type} (l : List α) {page size : Int} (hs : size ≠ 0) :
    (pageOf page size l).length = min size.toNat (l.length - ((page - 1) * size).toNat) := by
  unfold pageOf
  rw [if_neg hs, List.length_take, List.length_drop]

/-- What `remainCount` and `MakeupResPaginate` do on a page that exists. -/
theorem remain_total {n : Nat} {p : Paginate} {l : Nat} (hn : (n : Int) < 9223372036854775808)
    (hp : 1 ≤ p.page) (hs : 1 ≤ p.pageSize) (hm : p.page * p.pageSize < 9223372036854775808)
    (hl : l = min p.pageSize.toNat (n - ((p.page - 1) * p.pageSize).toNat)) :
    (remainCount p n l = none ↔ p.page ≠ 1 ∧ (n : Int) ≤ (p.page - 1) * p.pageSize)
    ∧ ∀ rc, remainCount p n l = some rc → makeupTotal (some rc) l p = n := by
  have hb : (p.page - 1) * p.pageSize = p.page * p.pageSize - p.pageSize := by rw [Int.sub_mul]; omega
  have hb0 : 0 ≤ (p.page - 1) * p.pageSize := Int.mul_nonneg (by omega) (by omega)
  have hp1 : p.page ≤ p.page * p.pageSize := by
    have := Int.mul_le_mul_of_nonneg_left hs (show (0 : Int) ≤ p.page by omega)
    omega
  have h1 : p.page = 1 → p.page * p.pageSize = p.pageSize := by intro h; rw [h]; omega
  have hne1 : p.page ≠ 1 → p.pageSize ≤ (p.page - 1) * p.pageSize := by
    intro h
    have := Int.mul_le_mul_of_nonneg_right (show (1 : Int) ≤ p.page - 1 by omega) (show (0 : Int) ≤ p.pageSize by omega)
    omega
  have w1 : wrap64 (p.pageSize * p.page) = p.page * p.pageSize := by
    rw [Int.mul_comm]; exact wrap64_id (by omega) (by omega)
  have w2 : wrap64 ((n : Int) - p.page * p.pageSize) = n - p.page * p.pageSize := wrap64_id (by omega) (by omega)
  have w3 : wrap64 (p.page - 1) = p.page - 1 := wrap64_id (by omega) (by omega)
  have w4 : wrap64 ((p.page - 1) * p.pageSize) = (p.page - 1) * p.pageSize := wrap64_id (by omega) (by omega)
  unfold remainCount makeupTotal
  simp only [w1, w2, w3, w4, Option.getD_some]
  rw [if_neg (by omega)]
  generalize hA : (p.page - 1) * p.pageSize = A at *
  generalize hB : p.page * p.pageSize = B at *
  constructor
  · constructor
    · intro h
      split at h
      · omega
      · split at h <;> simp at h
    · rintro ⟨g1, g2⟩
      rw [if_pos (by omega)]
  · intro rc
    split
    · simp
    · rename_i hno
      split
      · rename_i hlt
        intro h
        simp only [Option.some.injEq] at h
        subst h
        have e1 : wrap64 (0 + A) = A := by rw [Int.zero_add]; exact wrap64_id (by omega) (by omega)
        rw [e1]
        have : A + (l : Int) = n := by omega
        rw [this]
        exact wrap64_id (by omega) (by omega)
      · intro h
        simp only [Option.some.injEq] at h
        subst h
        have e1 : wrap64 (n - B + A) = n - B + A := wrap64_id (by omega) (by omega)
        rw [e1]
        have : n - B + A + (l : Int) = n := by omega
        rw [this]
        exact wrap64_id (by omega) (by omega)

/-- **C43**: the total that a client computes from a list answer is the number of matching objects whose labels satisfy the selector.
Missing for the full claim: a page number without page size (`C43_false_no_size`), page 0 with a page size (`C43_false_page_zero`; crashes without label selector,
C28), negative numbers and pages that end at 2^63 or later. -/
theorem C43_total_partial (hconf : ConfOK conf) (hrun : (newStore conf).run eval h = some s)
    (hst : Serves isPrint alg pf s st) (hord : ord.Perm (parseQuery r.rawQuery)) (hc : Cacheable st r) (hr : r.resource = [])
    {i : SelInfo} (hi : Reads r i) (hp : (i.paginate.page = 0 ∧ i.paginate.pageSize = 0)
      ∨ (1 ≤ i.paginate.page ∧ 1 ≤ i.paginate.pageSize ∧ i.paginate.page * i.paginate.pageSize < 9223372036854775808))
    {v k l : Str} {rc : Int} {items : List Obj} (ha : proxy env st tord ord r = .list v k l rc items) :
    ∃ found kept : List (Ident × Obj × SObj), Lists isPrint eval conf h s r.gvr ⟨r.ns, listPage env i⟩ found
      ∧ kept.Sublist found ∧ (∀ e ∈ found, e ∈ kept ↔ Satisfies i.labels e.2.1)
      ∧ ((kept.length : Int) < 9223372036854775808 → makeupTotal (some rc) items.length i.paginate = kept.length) := by
  have hv : ValidPaging i.paginate := by
    rcases hp with hp | ⟨h1, h2, h3⟩
    · exact Or.inl hp.2
    · exact Or.inr ⟨h1, h2, by omega⟩
  rcases list_outcome (env := env) (tord := tord) hconf hrun hst hord hc hr hi hv with
    ⟨h1, _⟩ | ⟨h1, _⟩ | ⟨found, kept, f1, _, _, f4, f5, f6⟩
  · rw [h1] at ha; simp at ha
  · rw [h1] at ha; simp at ha
  refine ⟨found, kept, f1, f4, f5, ?_⟩
  intro hn
  rw [ha] at f6
  unfold listAnswer at f6
  simp only at f6
  have hitems : ∃ rc', remainCount (listPage env i) kept.length (pageOf i.paginate.page i.paginate.pageSize (kept.map fun e => e.2.2.obj)).length = some rc'
      ∧ rc = rc' ∧ items = pageOf i.paginate.page i.paginate.pageSize (kept.map fun e => e.2.2.obj) := by
    revert f6
    cases remainCount (listPage env i) kept.length (pageOf i.paginate.page i.paginate.pageSize (kept.map fun e => e.2.2.obj)).length with
    | none => simp
    | some rc' =>
      simp only
      split
      · intro h
        exfalso
        revert h
        unfold serverPrint
        split <;> simp
      · intro h
        simp only [Answer.list.injEq] at h
        exact ⟨rc', rfl, h.2.2.2.1, h.2.2.2.2⟩
  obtain ⟨rc', hr1, rfl, rfl⟩ := hitems
  rcases hp with ⟨p1, p2⟩ | ⟨p1, p2, p3⟩
  · unfold remainCount at hr1
    rw [if_pos (show (listPage env i).page = 0 ∧ (listPage env i).pageSize = 0 from ⟨p1, p2⟩)] at hr1
    simp only [Option.some.injEq] at hr1
    subst hr1
    unfold makeupTotal pageOf
    rw [p1, p2, if_pos rfl, List.length_map]
    simp only [Option.getD_some, Int.mul_zero]
    have e : wrap64 0 = 0 := by decide
    rw [e, Int.zero_add, e, Int.zero_add]
    exact wrap64_id (by omega) (by omega)
  · have hl := length_pageOf (kept.map fun e => e.2.2.obj) (page := i.paginate.page) (size := i.paginate.pageSize) (by omega)
    rw [List.length_map] at hl
    exact (remain_total (p := listPage env i) hn p1 p2 p3 hl).2 rc hr1

/-- **C44**: a list whose query succeeds is refused as out of page exactly when its page is not the first and starts at or past
the end of the result. Missing for the full claim: page size 0 (`C43_false_no_size`), page 0, negative numbers and pages that end at 2^63 or later. -/
theorem C44_out_of_page_partial (hconf : ConfOK conf) (hrun : (newStore conf).run eval h = some s) (hapi : ApiObjects h)
    (hst : Serves isPrint alg pf s st) (hord : ord.Perm (parseQuery r.rawQuery)) (hc : Cacheable st r) (hr : r.resource = [])
    {i : SelInfo} (hi : Reads r i)
    (hp : 1 ≤ i.paginate.page ∧ 1 ≤ i.paginate.pageSize ∧ i.paginate.page * i.paginate.pageSize < 9223372036854775808)
    (hok : proxy env st tord ord r ≠ .refused .query) :
    ∃ found kept : List (Ident × Obj × SObj), Lists isPrint eval conf h s r.gvr ⟨r.ns, listPage env i⟩ found
      ∧ kept.Sublist found ∧ (∀ e ∈ found, e ∈ kept ↔ Satisfies i.labels e.2.1)
      ∧ ((kept.length : Int) < 9223372036854775808 →
        (proxy env st tord ord r = .refused .outOfPage
          ↔ i.paginate.page ≠ 1 ∧ (kept.length : Int) ≤ (i.paginate.page - 1) * i.paginate.pageSize)) := by
  rcases list_outcome (env := env) (tord := tord) hconf hrun hst hord hc hr hi (Or.inr ⟨hp.1, hp.2.1, by omega⟩) with
    ⟨h1, _⟩ | ⟨_, id, o, hm, hom⟩ | ⟨found, kept, f1, _, _, f4, f5, f6⟩
  · exact absurd h1 hok
  · have := latest_api hapi hm.1
    rw [hom] at this
    simp at this
  refine ⟨found, kept, f1, f4, f5, ?_⟩
  intro hn
  have hl := length_pageOf (kept.map fun e => e.2.2.obj) (page := i.paginate.page) (size := i.paginate.pageSize) (by omega)
  rw [List.length_map] at hl
  have key := (remain_total (p := listPage env i) hn hp.1 hp.2.1 hp.2.2 hl).1
  have key' : _ ↔ i.paginate.page ≠ 1 ∧ (kept.length : Int) ≤ (i.paginate.page - 1) * i.paginate.pageSize := key
  rw [f6, ← key']
  unfold listAnswer
  simp only
  cases remainCount (listPage env i) kept.length (pageOf i.paginate.page i.paginate.pageSize (kept.map fun e => e.2.2.obj)).length with
  | none => simp
  | some rc =>
    simp only [reduceCtorEq, iff_false]
    split
    · unfold serverPrint; split <;> simp
    · simp

/-- `GET /api/v1/pods` with the pagination request in base64. -/
def exPaged (payload : String) : HReq :=
  { exSearched with rawQuery := lit "labelSelector=ckube.daocloud.io%2Fquery+notin+%28" ++ lit payload ++ lit "%29" }

/-- Page 1 of size 1 (`{"page":1,"page_size":1}`) of one pod, and page 2, which does not exist. The hypotheses of C42–C44 hold. -/
example : Cacheable exStore (exPaged "eyJwYWdlIjoxLCJwYWdlX3NpemUiOjF9")
    ∧ (parseQuery (exPaged "eyJwYWdlIjoxLCJwYWdlX3NpemUiOjF9").rawQuery).map (fun e => (parseSelector (e.2.headD [])).map SelInfo.paginate)
      = [some { page := 1, pageSize := 1 }]
    ∧ proxy exEnv exStore (fun _ m => m) (parseQuery (exPaged "eyJwYWdlIjoxLCJwYWdlX3NpemUiOjF9").rawQuery) (exPaged "eyJwYWdlIjoxLCJwYWdlX3NpemUiOjF9")
      = .list (lit "v1") [] (lit "/api/v1/pods") 0 ((exStore.get exPods (lit "c1") (lit "prod") (lit "web")).toList)
    ∧ makeupTotal (some 0) 1 { page := 1, pageSize := 1 } = 1
    ∧ proxy exEnv exStore (fun _ m => m) (parseQuery (exPaged "eyJwYWdlIjoyLCJwYWdlX3NpemUiOjF9").rawQuery) (exPaged "eyJwYWdlIjoyLCJwYWdlX3NpemUiOjF9")
      = .refused .outOfPage :=
  ⟨exCacheable _ rfl (by decide +kernel) (by decide +kernel), by decide +kernel, by decide +kernel, by decide +kernel, by decide +kernel⟩

/-- **C43 and C44 are false** for a page number without page size (`{"page":2}`): everything is listed on every page, and the
client computes twice the number of objects. -/
theorem C43_false_no_size :
    (parseQuery (exPaged "eyJwYWdlIjoyfQ").rawQuery).map (fun e => (parseSelector (e.2.headD [])).map SelInfo.paginate) = [some { page := 2 }]
    ∧ proxy exEnv exStore (fun _ m => m) (parseQuery (exPaged "eyJwYWdlIjoyfQ").rawQuery) (exPaged "eyJwYWdlIjoyfQ")
      = .list (lit "v1") [] (lit "/api/v1/pods") 1 ((exStore.get exPods (lit "c1") (lit "prod") (lit "web")).toList)
    ∧ (exStore.get exPods (lit "c1") (lit "prod") (lit "web")).isSome = true
    ∧ makeupTotal (some 1) 1 { page := 2 } = 2 := by
  decide +kernel

/-- **C43 is false** for a page size without page number (`{"page_size":1}`) and a label selector: everything is listed, and the client computes -1 for an empty result. -/
theorem C43_false_page_zero :
    let q := lit "labelSelector=ckube.daocloud.io%2Fquery+notin+%28eyJwYWdlX3NpemUiOjF9%29%2Ca%21%3Db"
    (parseQuery q).map (fun e => (parseSelector (e.2.headD [])).map SelInfo.paginate) = [some { pageSize := 1 }]
    ∧ proxy exEnv exStore (fun _ m => m) (parseQuery q) { exSearched with rawQuery := q }
      = .list (lit "v1") [] (lit "/api/v1/pods") 1 ((exStore.get exPods (lit "c1") (lit "prod") (lit "web")).toList)
    ∧ makeupTotal (some 1) 1 { pageSize := 1 } = 1
    ∧ proxy exEnv exStore (fun _ m => m) (parseQuery q) { exSearched with rawQuery := q, ns := lit "none" }
      = .list (lit "v1") [] (lit "/api/v1/pods") 0 []
    ∧ makeupTotal (some 0) 0 { pageSize := 1 } = -1 := by
  decide +kernel

/-- **C42 is false** for a page with a negative number (`{"page":-1,"page_size":1}`): the handler panics when it cuts the page out of the objects
whose labels satisfy the selector. -/
theorem C42_false :
    let q := lit "labelSelector=ckube.daocloud.io%2Fquery+notin+%28eyJwYWdlIjotMSwicGFnZV9zaXplIjoxfQ%29%2Ca%21%3Db"
    (parseQuery q).map (fun e => (parseSelector (e.2.headD [])).map SelInfo.paginate) = [some { page := -1, pageSize := 1 }]
    ∧ proxy exEnv exStore (fun _ m => m) (parseQuery q) { exSearched with rawQuery := q } = .crash := by
  decide +kernel

end Ckube

import Verif.Spec.Informer
import Verif.Props.EndToEnd
import Verif.Props.Wire

/-! # C91 and C92: clients that list and watch -/

namespace Ckube
open Spec Json

variable {env : Env} {st : StoreI} {tord : Nat → List (Str × Str) → List (Str × Str)} {ord word : Values} {r : HReq}
variable {isPrint : Nat → Bool} {eval : Str → Obj → Str} {alg : SliceSort} {pf : Str → Option GoFloat}
  {conf : List (GVR × List (Str × Str))} {h : List Notice} {s : Store}

theorem watch_first (r : HReq) {raw wraw : Str} (hw : WatchQuery raw wraw) {k v : Str} (hk : k ≠ lit "watch") : First wraw k v ↔ First raw k v := by
  have h1 := (ord_ok (r := { r with rawQuery := wraw }) (ord := (lit "watch", [lit "true"]) :: parseQuery raw) hw.symm).2.2 k
  simp only [lookup, if_neg (Ne.symm hk)] at h1
  unfold First
  rw [h1]

/-- Where the watch goes. -/
theorem watch_goes {wraw : Str} (hw : WatchQuery r.rawQuery wraw) (hword : word.Perm (parseQuery wraw)) (hg : r.method = lit "GET")
    (hn : ∀ c, ¬ Names r c) {i : SelInfo} (hi : Reads r i) :
    (pickCluster env i.paginate [] ∈ env.clients →
      ∃ q, proxy env st tord word { r with rawQuery := wraw } = .forward true (pickCluster env i.paginate []) (lit "GET") r.path q [])
    ∧ (pickCluster env i.paginate [] ∉ env.clients → proxy env st tord word { r with rawQuery := wraw } = .noCluster (pickCluster env i.paginate [])) := by
  have hdel : ∀ c ds, ¬ DryRunNames { r with rawQuery := wraw } c ds := fun c ds hd => absurd (hg ▸ hd.1 : lit "GET" = lit "DELETE") (by decide)
  have hdel' : ∀ c ds, ¬ DryRunNames r c ds := fun c ds hd => absurd (hg ▸ hd.1 : lit "GET" = lit "DELETE") (by decide)
  have hn' : ∀ c, ¬ Names { r with rawQuery := wraw } c := by
    rintro c (⟨ds, hd⟩ | ⟨_, hf⟩ | ⟨k, _, hk, hf⟩)
    · exact hdel _ _ hd
    · exact hn c (.param hdel' ((watch_first r hw (by decide)).mp hf))
    · have hkw : k ≠ lit "watch" := by rintro rfl; revert hk; decide
      exact hn c (.marked k hdel' hk ((watch_first r hw hkw).mp hf))
  have hsel : ∀ v, First wraw (lit "labelSelector") v ↔ First r.rawQuery (lit "labelSelector") v := fun v => watch_first r hw (by decide)
  have hi' : Reads { r with rawQuery := wraw } i := by
    rcases hi with ⟨v, h1, h2⟩ | ⟨h1, h2⟩
    · exact Or.inl ⟨v, (hsel v).mpr h1, h2⟩
    · exact Or.inr ⟨fun v hv => h1 v ((hsel v).mp hv), h2⟩
  have hwf : lookup (lit "watch") (parseQuery wraw) = some [lit "true"] := by
    have h1 := (ord_ok (r := { r with rawQuery := wraw }) (ord := (lit "watch", [lit "true"]) :: parseQuery r.rawQuery) hw.symm).2.2 (lit "watch")
    rw [← h1]
    simp [lookup]
  have hc : ¬ Cacheable st { r with rawQuery := wraw } := by
    intro hc
    rcases hc.params (lit "watch") (lit "true") ⟨[], hwf⟩ with h | ⟨h, _⟩
    · revert h; decide
    · revert h; decide
  have hs := (reads_scan (r := { r with rawQuery := wraw }) hword i).mp hi'
  have hcl : (deleteBlock { r with rawQuery := wraw } (scanQuery word).cluster).1 = [] := by
    rcases deleteBlock_names (r := { r with rawQuery := wraw }) hword with h | ⟨_, h⟩
    · exact absurd h (hn' _)
    · exact h
  rcases proxy_not_cacheable (env := env) (tord := tord) (r := { r with rawQuery := wraw }) hword hc with ⟨info, h1, h2⟩ | ⟨h1, _⟩
  · rw [hs, Option.some.injEq] at h1
    subst h1
    rw [h2, hcl]
    have hwatch : isWatch r.path (encodeQuery (setSelector i.rewritten (scanQuery word).query)) = true := by
      have hl := (lookup_rewritten (r := { r with rawQuery := wraw }) hword i.rewritten (k := lit "watch") (by decide) [lit "true"]).mpr
        ⟨hwf, fun hx => absurd hx.1 (by decide)⟩
      have ht : [lit "1", lit "y", lit "true"].contains (asciiLower (lit "true")) = true := by decide
      simp only [isWatch, hl, List.headD_cons, ht, Bool.true_or]
    have hgm : knownMethod r.method = true := by rw [hg]; decide
    constructor
    · intro hm
      unfold proxyPass
      simp only [pick_pass]
      rw [if_neg (by simpa using hm), if_pos hwatch]
      unfold send
      simp only [hgm, if_true, hg]
      exact ⟨_, rfl⟩
    · intro hm
      unfold proxyPass
      simp only [pick_pass]
      rw [if_pos hm]
  · rw [hs] at h1; simp at h1

/-! ## C91 -/

/-- **C91**: a client that restricts a list to one cluster and then watches with the same options watches the objects of that cluster: everything the list
shows is of the cluster, and the watch goes to its API server. Missing for the full claim: several clusters (`C91_false_clusters`), searches
(`C91_false_search`), clusters named otherwise (`C91_false_marker`), and searches that cannot be restricted (`Breaks`, `C19_exact`). -/
theorem C91_watch_partial (hconf : ConfOK conf) (hrun : (newStore conf).run eval h = some s) (hst : Serves isPrint alg pf s st)
    (hord : ord.Perm (parseQuery r.rawQuery)) (hc : Cacheable st r) (hr : r.resource = []) (hn : ∀ c, ¬ Names r c)
    {i : SelInfo} (hi : Reads r i) {search c : Str} (hset : setClusters search [c] = some i.paginate.search)
    {qs : List Req} (hadv : FirstReqs search qs) (hplain : ¬ Breaks (lit "cluster") search qs) (hcl : c ∈ env.clients) (hne : c ≠ [])
    {wraw : Str} (hw : WatchQuery r.rawQuery wraw) (hword : word.Perm (parseQuery wraw)) :
    (proxy env st tord ord r = .crash ∨ (∃ w, proxy env st tord ord r = .refused w)
      ∨ ∃ items, Shows tord items (proxy env st tord ord r) ∧ ∀ o ∈ items, ∃ ns name, s.get r.gvr c ns name = some o)
    ∧ ∃ q, proxy env st tord word { r with rawQuery := wraw } = .forward true c (lit "GET") r.path q [] := by
  obtain ⟨hmem, -⟩ := (C19_exact search i.paginate.search [c] qs hset hadv).1 hplain
  have hhead : (getClusters i.paginate.search).headD [] = c := by
    cases hg : getClusters i.paginate.search with
    | nil =>
      have := (hmem c).mpr (by simp)
      rw [hg] at this
      simp at this
    | cons x xs =>
      have := (hmem x).mp (by rw [hg]; simp)
      simpa using this
  have hgne : getClusters i.paginate.search ≠ [] := by
    intro h0
    rw [h0] at hhead
    exact hne hhead.symm
  have hpick : pickCluster env i.paginate [] = c := by rw [pick_nil, hhead, if_neg hne]
  constructor
  · rcases list_sound (env := env) (tord := tord) hconf hrun hst hord hc hr hi with h1 | h1 | ⟨items, total, h1, h2⟩
    · exact Or.inl h1
    · exact Or.inr (Or.inl h1)
    · rcases listAnswer_shows (env := env) (tord := tord) (r := r) (listPage env i) items total with h3 | h3
      · exact Or.inr (Or.inl ⟨.outOfPage, by rw [h1, h3]⟩)
      · refine Or.inr (Or.inr ⟨items, by rw [h1]; exact h3, ?_⟩)
        intro o ho
        obtain ⟨id, o', ⟨_, hgvr, _, idx, hidx, hmt⟩, hget⟩ := h2 o ho
        have hs : (listPage env i).search = i.paginate.search := by
          show defaultSearch env i.paginate.search = _
          unfold defaultSearch
          rw [if_neg hgne]
        unfold Paginate.matches at hmt
        rw [hs] at hmt
        have := C17_sound isPrint search i.paginate.search [c] hset idx hmt
        obtain ⟨⟨c', hc', hl⟩, _⟩ := this
        rw [List.mem_singleton] at hc'
        subst hc'
        rw [hidx.2] at hl
        have hcl : id.cluster = c' := by simpa [indexValueOf] using hl
        rw [hgvr, hcl] at hget
        exact ⟨_, _, hget⟩
  · have := (watch_goes (env := env) (st := st) (tord := tord) hw hword hc.get hn hi).1
    rw [hpick] at this
    exact this hcl

/-- **C91**, without clusters: a list whose search names no cluster shows the default cluster, and the watch goes there. -/
theorem C91_default_partial (hconf : ConfOK conf) (hrun : (newStore conf).run eval h = some s)
    (hst : Serves isPrint alg pf s st) (hord : ord.Perm (parseQuery r.rawQuery)) (hc : Cacheable st r) (hr : r.resource = []) (hn : ∀ c, ¬ Names r c)
    {i : SelInfo} (hi : Reads r i) (hno : getClusters i.paginate.search = [])
    (hd : env.defaultCluster ≠ []) (hl : validLabelValue env.defaultCluster = true)
    {qs : List Req} (hadv : FirstReqs i.paginate.search qs) (hop : ∀ q ∈ qs, q.op ≠ .gt ∧ q.op ≠ .lt)
    (hcl : env.defaultCluster ∈ env.clients) {wraw : Str} (hw : WatchQuery r.rawQuery wraw) (hword : word.Perm (parseQuery wraw)) :
    (proxy env st tord ord r = .crash ∨ (∃ w, proxy env st tord ord r = .refused w)
      ∨ ∃ items, Shows tord items (proxy env st tord ord r) ∧ ∀ o ∈ items, ∃ ns name, s.get r.gvr env.defaultCluster ns name = some o)
    ∧ ∃ q, proxy env st tord word { r with rawQuery := wraw } = .forward true env.defaultCluster (lit "GET") r.path q [] := by
  refine ⟨C41_default_cluster_partial hconf hrun hst hord hc hr hi hno hd hl hadv hop, ?_⟩
  have hpick : pickCluster env i.paginate [] = env.defaultCluster := by rw [pick_nil, hno]; rfl
  have := (watch_goes (env := env) (st := st) (tord := tord) hw hword hc.get hn hi).1
  rw [hpick] at this
  exact this hcl

/-! ### Examples -/

/-- A list of all pods with the query `q`. -/
def exInf (q : String) : HReq := { exSearched with rawQuery := lit q }

/-- What an answer tells: names and nodes of the listed pods, or where the request was sent and whether it is streamed. -/
def exTold (q : String) : List (Str × Str) ⊕ (Bool × Str) :=
  match proxy exEnv exSyncedI (fun _ m => m) (parseQuery (lit q)) (exInf q) with
  | .list _ _ _ _ items => .inl (items.map fun o => ((o.om.map ObjMeta.name).getD [], o.body))
  | .forward w c _ _ _ _ => .inr (w, c)
  | _ => .inl []

/-- The query that is sent to the API server. -/
def exInfSent (q : String) : Option Str :=
  match proxy exEnv exSyncedI (fun _ m => m) (parseQuery (lit q)) (exInf q) with
  | .forward _ _ _ _ sent _ => some sent
  | _ => none

theorem exInf_cacheable (q : String)
    (h : (parseQuery (lit q)).all (fun e => decide (e.1 = lit "labelSelector") && (parseSelector (e.2.headD [])).isSome) = true) :
    Cacheable exSyncedI (exInf q) ∧ ∀ c, ¬ Names (exInf q) c := by
  have key := all_first (raw := lit q) (P := fun k v => decide (k = lit "labelSelector") && (parseSelector v).isSome) h
  have ht : exSyncedI.isStoreGVR exPods = true := by decide +kernel
  refine ⟨⟨rfl, ht, ?_, ?_⟩, ?_⟩
  · intro v hv
    simpa using key _ _ hv
  · intro k v hv
    have := key _ _ hv
    simp only [Bool.and_eq_true, decide_eq_true_eq] at this
    exact Or.inl (by rw [this.1]; simp)
  · rintro c (⟨_, h, _⟩ | ⟨_, h⟩ | ⟨k, _, hk, h⟩)
    · revert h; simp only [exInf, exSearched]; decide
    · have := key _ _ h
      simp only [Bool.and_eq_true, decide_eq_true_eq] at this
      exact absurd this.1 (by decide)
    · have := key _ _ h
      simp only [Bool.and_eq_true, decide_eq_true_eq] at this
      rw [this.1] at hk
      revert hk; decide

/-- The search `__ckube_as__:cluster in (c2)`, which `setClusters` makes of an empty search: the pod of `c2` is listed and `c2` is watched. -/
example : let q := "labelSelector=ckube.daocloud.io%2Fquery+notin+%28eyJzZWFyY2giOiJfX2NrdWJlX2FzX186Y2x1c3RlciBpbiAoYzIpIn0%29"
    let w := "labelSelector=ckube.daocloud.io%2Fquery+notin+%28eyJzZWFyY2giOiJfX2NrdWJlX2FzX186Y2x1c3RlciBpbiAoYzIpIn0%29&watch=true"
    (Cacheable exSyncedI (exInf q) ∧ ∀ c, ¬ Names (exInf q) c)
    ∧ (∃ i, Reads (exInf q) i ∧ setClusters [] [lit "c2"] = some i.paginate.search)
    ∧ FirstReqs [] [] ∧ ¬ Breaks (lit "cluster") [] []
    ∧ lit "c2" ∈ exEnv.clients ∧ WatchQuery (lit q) (lit w)
    ∧ exTold q = .inl [(lit "web", lit "n9")] ∧ exTold w = .inr (true, lit "c2") := by
  intro q w
  have h2 : ((parseSelector (lit "ckube.daocloud.io/query notin (eyJzZWFyY2giOiJfX2NrdWJlX2FzX186Y2x1c3RlciBpbiAoYzIpIn0)")).map fun i => i.paginate.search)
      = setClusters [] [lit "c2"] := by decide +kernel
  have h3 : setClusters [] [lit "c2"] = some (lit "__ckube_as__:cluster in (c2)") := by decide +kernel
  obtain ⟨i, h4, h5⟩ := Option.map_eq_some_iff.mp (h2.trans h3)
  refine ⟨exInf_cacheable q (by decide +kernel), ⟨i, Or.inl ⟨_, ⟨[], by decide +kernel⟩, h4⟩, by rw [h3, h5]⟩, Or.inl ⟨?_, rfl⟩, ?_,
    by decide, by unfold WatchQuery; decide +kernel, by decide +kernel, by decide +kernel⟩
  · have hp : searchParts [] = [] := by decide +kernel
    rw [hp]
    simp
  · have hp : searchParts [] = [] := by decide +kernel
    rintro (⟨pre, r, post, h, _⟩ | ⟨q, hq, _⟩)
    · rw [hp] at h; simp at h
    · simp at hq

/-- Without search, and the hypotheses of `C91_default_partial` about it. -/
example : (Cacheable exSyncedI (exInf "") ∧ ∀ c, ¬ Names (exInf "") c) ∧ (∃ i, Reads (exInf "") i ∧ i.paginate = {}) ∧ getClusters [] = []
    ∧ validLabelValue exEnv.defaultCluster = true ∧ exEnv.defaultCluster ∈ exEnv.clients ∧ WatchQuery (lit "") (lit "watch=true")
    ∧ exTold "" = .inl [(lit "db", lit "n1"), (lit "web", lit "n2")] ∧ exTold "watch=true" = .inr (true, lit "c1") := by
  refine ⟨exInf_cacheable _ (by decide +kernel), ⟨_, Or.inr ⟨fun v hv => ?_, rfl⟩, rfl⟩, by decide +kernel, by decide +kernel, by decide,
    by unfold WatchQuery; decide +kernel, by decide +kernel, by decide +kernel⟩
  obtain ⟨_, hv⟩ := hv
  revert hv
  have : lookup (lit "labelSelector") (parseQuery (exInf "").rawQuery) = none := by decide +kernel
  rw [this]
  simp

/-- **C91 is false** for several clusters: the list `__ckube_as__:cluster in (c1,c2)` shows the pods of both clusters, the watch with the same options goes to
the first only. -/
theorem C91_false_clusters :
    let q := "labelSelector=ckube.daocloud.io%2Fquery+notin+%280000.eyJzZWFyY2giOiJfX2NrdWJlX2FzX186Y2x1c3RlciBpbiAoYzEsYzIp%2C0056.In0%29"
    let w := "labelSelector=ckube.daocloud.io%2Fquery+notin+%280000.eyJzZWFyY2giOiJfX2NrdWJlX2FzX186Y2x1c3RlciBpbiAoYzEsYzIp%2C0056.In0%29&watch=true"
    WatchQuery (lit q) (lit w) ∧ exTold q = .inl [(lit "db", lit "n1"), (lit "web", lit "n2"), (lit "web", lit "n9")]
    ∧ exTold w = .inr (true, lit "c1") := by
  refine ⟨?_, ?_, ?_⟩
  · unfold WatchQuery; decide +kernel
  · decide +kernel
  · decide +kernel

/-- **C91 is false** for a list that names its cluster in its resource version, as single objects, watches and writes do: the list shows the default cluster,
the watch goes to the named one. -/
theorem C91_false_marker :
    WatchQuery (lit "resourceVersion=dsm-cluster-c2") (lit "resourceVersion=dsm-cluster-c2&watch=true")
    ∧ exTold "resourceVersion=dsm-cluster-c2" = .inl [(lit "db", lit "n1"), (lit "web", lit "n2")]
    ∧ exTold "resourceVersion=dsm-cluster-c2&watch=true" = .inr (true, lit "c2") := by
  refine ⟨?_, ?_, ?_⟩
  · unfold WatchQuery; decide +kernel
  · decide +kernel
  · decide +kernel

/-- **C91 is false** for searches: the list `name=db` shows the pod `db` only. The watch asks the API server for all pods: what is sent has no parameter besides
the label selector with the search, which an API server takes as a condition on a label no object has, and the parameters of the watch. -/
theorem C91_false_search :
    let q := "labelSelector=ckube.daocloud.io%2Fquery+notin+%28eyJzZWFyY2giOiJuYW1lPWRiIn0%29"
    let w := "labelSelector=ckube.daocloud.io%2Fquery+notin+%28eyJzZWFyY2giOiJuYW1lPWRiIn0%29&watch=true"
    WatchQuery (lit q) (lit w) ∧ exTold q = .inl [(lit "db", lit "n1")]
    ∧ exTold w = .inr (true, lit "c1")
    ∧ exInfSent w = some (lit "labelSelector=ckube.daocloud.io%2Fquery+notin+%28eyJzZWFyY2giOiJuYW1lPWRiIn0%29&timeout=30m&watch=true") := by
  refine ⟨?_, ?_, ?_, ?_⟩
  · unfold WatchQuery; decide +kernel
  · decide +kernel
  · decide +kernel
  · decide +kernel

/-- **C91 is false** for a search that excludes a cluster: `cluster notin (c1)` lists the pods of the other clusters, but the watch goes to `c1`, because
every cluster that the search mentions is taken for one that is asked for. -/
theorem C91_false_excluded :
    let q := "labelSelector=ckube.daocloud.io%2Fquery+notin+%280000.eyJzZWFyY2giOiJfX2NrdWJlX2FzX186Y2x1c3RlciBub3RpbiAoYzEp%2C0056.In0%29"
    let w := "labelSelector=ckube.daocloud.io%2Fquery+notin+%280000.eyJzZWFyY2giOiJfX2NrdWJlX2FzX186Y2x1c3RlciBub3RpbiAoYzEp%2C0056.In0%29&watch=true"
    WatchQuery (lit q) (lit w) ∧ exTold q = .inl [(lit "web", lit "n9")] ∧ exTold w = .inr (true, lit "c1") := by
  refine ⟨?_, ?_, ?_⟩
  · unfold WatchQuery; decide +kernel
  · decide +kernel
  · decide +kernel

/-! ## C92 -/

theorem changes_replay {m m' : List ((Str × Str) × Obj)} {es : List (EvType × Obj)} (hch : Changes m es m') :
    ∀ {f : Objs}, IsMap m → (∀ k, f k = lookup k m) → ∀ k, replayOn nameKey f es k = lookup k m' := by
  have key : ∀ {o : Obj} {k : Str × Str}, metaKey o = some k → nameKey o = k := by
    intro o k hk
    simp [nameKey, hk]
  induction hch with
  | nil => intro f _ hf k; exact hf k
  | create hk hn t ih =>
    intro f hm hf k
    refine ih (isMap_insertKV hm) (fun k => ?_) k
    rw [lookup_insertKV]
    simp only [applyEvent, key hk, hf]
  | update hk ho t ih =>
    intro f hm hf k
    refine ih (isMap_insertKV hm) (fun k => ?_) k
    rw [lookup_insertKV]
    simp only [applyEvent, key hk, hf]
  | delete hk ho t ih =>
    intro f hm hf k
    refine ih (isMap_eraseKV hm) (fun k => ?_) k
    rw [lookup_eraseKV hm]
    simp only [applyEvent, key hk, hf]

theorem same_nameKey {o o' : Obj} (h : SameButMarks o o') : nameKey o' = nameKey o := by
  obtain ⟨_, _, h⟩ := h
  unfold nameKey metaKey
  cases h1 : o.om <;> cases h2 : o'.om <;> rw [h1, h2] at h <;> simp_all

theorem caughtUp_names {g : GVR} {c : Str} {objs : List ((Str × Str) × Obj)} (hu : CaughtUp g c h objs) :
    IsMap objs ∧ ∀ e ∈ objs, nameKey e.2 = e.1 := by
  obtain ⟨t, f, hsys, -, -, -, -, rfl⟩ := hu
  have hi := (SysInv.init (key := nameKey) g c).run (fun o k hk => by simp [nameKey, hk]) hsys
  exact ⟨hi.map, hi.keys⟩

/-- What a client knows after its list. -/
theorem listed_holds (items : List Obj) : ∀ (f : Objs) (k : Str × Str), (∀ o ∈ items, nameKey o ≠ k) →
    replayOn nameKey f (items.map fun o => (.added, o)) k = f k := by
  induction items with
  | nil => intro f k _; rfl
  | cons o os ih =>
    intro f k hk
    simp only [List.map_cons, replayOn]
    rw [ih _ k (fun o ho => hk o (by simp [ho]))]
    simp only [applyEvent, if_neg (hk o (by simp))]

/-- **C92**: a client that lists everything through ckube and watches with the same options has, after every event of the watch, exactly the objects of the API
server, if nothing was deleted between the state the cache has and the start of the watch. Missing for the full claim: deletions in between
(`C92_false_deleted`). -/
theorem C92_informer_partial (hconf : ConfOK conf) (hrun : (newStore conf).run eval h = some s) (hapi : ApiObjects h)
    (hst : Serves isPrint alg pf s st) (hord : ord.Perm (parseQuery r.rawQuery)) (hc : Cacheable st r) (hr : r.resource = []) (hn : ∀ c, ¬ Names r c)
    {i : SelInfo} (hi : Reads r i) (hpg : i.paginate = {}) {objs₀ objs₁ objs₂ : List ((Str × Str) × Obj)}
    (hu : CaughtUp r.gvr env.defaultCluster h objs₀) (hd : env.defaultCluster ≠ []) (hl : validLabelValue env.defaultCluster = true) (he : EmptyNoNaN pf)
    (hm : IsMap objs₁) (hk : ∀ e ∈ objs₁, nameKey e.2 = e.1) (hkeep : ∀ k, lookup k objs₁ = none → lookup k objs₀ = none)
    {es stream : List (EvType × Obj)} (hch : Changes objs₁ es objs₂) (hstr : FreshWatch objs₁ es stream) (hcl : env.defaultCluster ∈ env.clients)
    {wraw : Str} (hw : WatchQuery r.rawQuery wraw) (hword : word.Perm (parseQuery wraw)) :
    (∃ q, proxy env st tord word { r with rawQuery := wraw } = .forward true env.defaultCluster (lit "GET") r.path q [])
    ∧ ∃ items, Shows tord items (proxy env st tord ord r) ∧ ∀ k, clientHolds items stream k = lookup k objs₂ := by
  obtain ⟨shown, items, h1, -, -, h4, h5, -⟩ := C80_list_partial (env := env) (tord := tord) hconf hrun hapi hst hord hc hr hi hpg hu hd hl he
  refine ⟨?_, items, h5, ?_⟩
  · have hpick : pickCluster env i.paginate [] = env.defaultCluster := by
      rw [pick_nil, hpg]
      have : (getClusters ({} : Paginate).search).headD [] = [] := by decide +kernel
      rw [if_pos this]
    have := (watch_goes (env := env) (st := st) (tord := tord) hw hword hc.get hn hi).1
    rw [hpick] at this
    exact this hcl
  · obtain ⟨l, hperm, rfl⟩ := hstr
    have hml : IsMap l := by unfold IsMap at hm ⊢; exact (hperm.map Prod.fst).nodup_iff.mpr hm
    intro k
    unfold clientHolds replay
    rw [replayOn_append, replayOn_append]
    refine changes_replay hch hm (fun k => ?_) k
    rw [replayOn_initial l (fun e he => hk e (hperm.subset he)) _ k hml, lookup_perm hml hperm k]
    cases hlk : lookup k objs₁ with
    | some o => rfl
    | none =>
      simp only
      rw [listed_holds]
      intro o ho hok
      obtain ⟨e, hem, hes⟩ : ∃ e ∈ shown, SameButMarks e.2 o := by
        clear h5 h1
        induction h4 with
        | nil => simp at ho
        | cons hab _ ih =>
          rcases List.mem_cons.mp ho with rfl | ho
          · exact ⟨_, List.mem_cons_self, hab⟩
          · obtain ⟨e, h1, h2⟩ := ih ho
            exact ⟨e, List.mem_cons_of_mem _ h1, h2⟩
      have hkeys := caughtUp_names hu
      have heo := ((h1 e).mp hem).1
      rw [same_nameKey hes, hkeys.2 e heo] at hok
      have := lookup_eq_some_of_mem hkeys.1 heo
      rw [hok, hkeep k hlk] at this
      simp at this

/-- **C92 is false** for every object that is deleted between the state the cache has and the start of the watch, and not created again: the client keeps it
for ever. The list has no resource version from which the watch could start (`C92_version`). -/
theorem C92_false_deleted (hconf : ConfOK conf) (hrun : (newStore conf).run eval h = some s) (hapi : ApiObjects h)
    (hst : Serves isPrint alg pf s st) (hord : ord.Perm (parseQuery r.rawQuery)) (hc : Cacheable st r) (hr : r.resource = [])
    {i : SelInfo} (hi : Reads r i) (hpg : i.paginate = {}) (hlab : i.labels = none) (hns : r.ns = []) {objs₀ objs₁ objs₂ : List ((Str × Str) × Obj)}
    (hu : CaughtUp r.gvr env.defaultCluster h objs₀) (hd : env.defaultCluster ≠ []) (hl : validLabelValue env.defaultCluster = true) (he : EmptyNoNaN pf)
    (hm : IsMap objs₁) (hk : ∀ e ∈ objs₁, nameKey e.2 = e.1)
    {es stream : List (EvType × Obj)} (hch : Changes objs₁ es objs₂) (hstr : FreshWatch objs₁ es stream)
    {k : Str × Str} (h0 : lookup k objs₀ ≠ none) (h1 : lookup k objs₁ = none) (hes : ∀ e ∈ es, nameKey e.2 ≠ k) :
    lookup k objs₂ = none ∧ ∃ items, Shows tord items (proxy env st tord ord r) ∧ clientHolds items stream k ≠ none := by
  obtain ⟨shown, items, s1, -, -, s4, s5, -⟩ := C80_list_partial (env := env) (tord := tord) hconf hrun hapi hst hord hc hr hi hpg hu hd hl he
  have quiet : ∀ (es : List (EvType × Obj)) (f : Objs), (∀ e ∈ es, nameKey e.2 ≠ k) → replayOn nameKey f es k = f k := by
    intro es
    induction es with
    | nil => intro f _; rfl
    | cons e es ih =>
      intro f hq
      rw [replayOn, ih _ fun x hx => hq x (by simp [hx])]
      have := hq e (by simp)
      obtain ⟨t, o⟩ := e
      cases t <;> simp_all [applyEvent]
  have grows : ∀ (items : List Obj) (f : Objs), (f k ≠ none ∨ ∃ o ∈ items, nameKey o = k) →
      replayOn nameKey f (items.map fun o => (.added, o)) k ≠ none := by
    intro items
    induction items with
    | nil => rintro f (hf | ⟨o, ho, _⟩) <;> simp_all
    | cons o os ih =>
      intro f hf
      simp only [List.map_cons, replayOn]
      apply ih
      by_cases hok : nameKey o = k
      · left; simp [applyEvent, hok]
      · rcases hf with hf | ⟨o', ho', hk'⟩
        · left; simpa [applyEvent, hok] using hf
        · right
          rcases List.mem_cons.mp ho' with rfl | ho'
          · exact absurd hk' hok
          · exact ⟨o', ho', hk'⟩
  have hfin : ∀ (f : Objs), (∀ k, f k = lookup k objs₁) → lookup k objs₂ = none := by
    intro f hf
    rw [← changes_replay hch hm hf k, quiet es f hes, hf, h1]
  refine ⟨hfin (fun k => lookup k objs₁) (fun _ => rfl), items, s5, ?_⟩
  obtain ⟨l, hperm, rfl⟩ := hstr
  unfold clientHolds replay
  rw [replayOn_append, replayOn_append, quiet es _ hes, quiet]
  · apply grows
    right
    obtain ⟨o, ho⟩ := Option.ne_none_iff_exists'.mp h0
    have hmem : (k, o) ∈ shown := (s1 _).mpr ⟨mem_of_lookup ho, Or.inl hns, fun ls hls => by rw [hlab] at hls; simp at hls⟩
    obtain ⟨o', ho', hsame⟩ : ∃ o' ∈ items, SameButMarks o o' := by
      clear s1 s5
      induction s4 with
      | nil => simp at hmem
      | cons hab _ ih =>
        rcases List.mem_cons.mp hmem with rfl | hmem
        · exact ⟨_, List.mem_cons_self, hab⟩
        · obtain ⟨e, h1, h2⟩ := ih hmem
          exact ⟨e, List.mem_cons_of_mem _ h1, h2⟩
    exact ⟨o', ho', by rw [same_nameKey hsame]; exact (caughtUp_names hu).2 _ (mem_of_lookup ho)⟩
  · intro e hem
    obtain ⟨x, hx, rfl⟩ := List.mem_map.mp hem
    intro hek
    have hx' := hperm.subset hx
    simp only at hek
    rw [hk x hx'] at hek
    have := lookup_eq_some_of_mem hm hx'
    rw [hek, h1] at this
    simp at this

/-- A list answered from the cache has no resource version. -/
theorem C92_version {up : Answer → UpRes} {obj : Obj → JV} {texts : Answer → Str} {failure : Str} {v k l : Str} {rc : Int} {items : List Obj}
    (hu : validUtf8 v = true ∧ validUtf8 k = true ∧ validUtf8 l = true) (hobj : ∀ o ∈ items, Good (obj o)) (lab : Bool) :
    ∃ w doc, respond up (.list v k l rc items) = some w ∧ parse (w.text obj texts lab failure) = some doc
      ∧ LacksAt [lit "metadata", lit "resourceVersion"] doc :=
  ⟨⟨some 200, [.json (.list v k l rc items)]⟩, _, rfl, body_parses (list_good hu.1 hu.2.1 hu.2.2 hobj lab) 200, .step rfl (.here rfl)⟩

/-- The client of the example lists `db` and `web`; before its watch opens `cache` is created; then `web` is deleted and `db` changed. -/
example : ∃ items, Shows (fun _ m => m) items (proxy exEnv exSyncedI (fun _ m => m) (parseQuery []) (exInf ""))
    ∧ ∀ k, clientHolds items ((exObjs (lit "c1") ++ [((lit "prod", lit "cache"), exPod "cache" "n4")]).map (fun e => (EvType.added, e.2))
          ++ [(.deleted, exPod "web" "n2"), (.modified, exPod "db" "n7")]) k
      = lookup k [((lit "prod", lit "db"), exPod "db" "n7"), ((lit "prod", lit "cache"), exPod "cache" "n4")] := by
  have hc := exInf_cacheable "" (by decide +kernel)
  refine (C92_informer_partial (env := exEnv) (st := exSyncedI) (tord := fun _ m => m) (conf := exConf) (eval := exEval) (h := exSynced) (s := exSyncedStore)
    (r := exInf "") (ord := parseQuery []) (word := parseQuery (lit "watch=true")) (wraw := lit "watch=true") (i := ⟨{}, none, none⟩)
    (objs₀ := exObjs (lit "c1")) (objs₁ := exObjs (lit "c1") ++ [((lit "prod", lit "cache"), exPod "cache" "n4")])
    (es := [(.deleted, exPod "web" "n2"), (.modified, exPod "db" "n7")])
    ⟨by decide +kernel, by decide +kernel⟩ exSynced_run exSynced_api (serves_self _ _ _ _) (List.Perm.refl _) hc.1 rfl hc.2 (Or.inr ⟨fun v hv => ?_, rfl⟩) rfl
    exSynced_caughtUp.1 (by decide) (by decide +kernel) (by unfold EmptyNoNaN; decide +kernel) (by decide +kernel) ?_ ?_ ?_ ⟨_, List.Perm.refl _, rfl⟩ (by decide)
    (by unfold WatchQuery; decide +kernel) (List.Perm.refl _)).2
  · obtain ⟨_, hv⟩ := hv
    revert hv
    have : lookup (lit "labelSelector") (parseQuery (exInf "").rawQuery) = none := by decide +kernel
    rw [this]
    simp
  · decide +kernel
  · intro k hk
    have : ∀ (a b : List ((Str × Str) × Obj)), lookup k (a ++ b) = none → lookup k a = none := by
      intro a b
      induction a with
      | nil => intro _; rfl
      | cons e a ih =>
        simp only [List.cons_append, lookup]
        split
        · simp
        · exact ih
    exact this _ _ hk
  · exact .delete (k := (lit "prod", lit "web")) rfl (old := exPod "web" "n2") (by decide +kernel)
      (.update (k := (lit "prod", lit "db")) rfl (old := exPod "db" "n1") (by decide +kernel) (.nil _))

/-- The pod `web` is deleted before the watch opens: the server has only `db`, the client has both. -/
example : lookup (lit "prod", lit "web") (exObjs (lit "c1")) ≠ none ∧ lookup (lit "prod", lit "web") [((lit "prod", lit "db"), exPod "db" "n1")] = none
    ∧ clientHolds [exPod "db" "n1", exPod "web" "n2"] [(.added, exPod "db" "n1")] (lit "prod", lit "web") = some (exPod "web" "n2")
    ∧ exTold "" = .inl [(lit "db", lit "n1"), (lit "web", lit "n2")] := by
  decide +kernel

end Ckube

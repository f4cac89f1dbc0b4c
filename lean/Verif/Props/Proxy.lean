import Verif.Lemmas.Proxy
import Verif.Props.Store

/-! # C39, C40, C45–C48, C67: which requests go where

`proxy env st tord ord r` is the outcome of request `r`; `ord` is the order in which the map of its query
parameters is iterated and ranges over all orders. -/

namespace Ckube
open Spec

variable {env : Env} {st : StoreI} {tord : Nat → List (Str × Str) → List (Str × Str)} {ord : Values} {r : HReq}

/-! ## C39 -/

/-- **C39**, from the cache: a GET for a configured type with a readable label selector and no query
parameters other than `labelSelector`, `timeoutSeconds`, `timeout`, `limit` and cluster markers is sent
to no API server. -/
theorem C39_from_cache (hord : ord.Perm (parseQuery r.rawQuery)) (hc : Cacheable st r) :
    Local (proxy env st tord ord r) := by
  obtain ⟨info, _, hp⟩ := proxy_cacheable (env := env) (tord := tord) hord hc
  rw [hp]
  split
  · exact proxySingle_local _
  · exact proxyList_local _

/-- **C39**, forwarded: every other request with a method that can be forwarded goes to the API server of the selected
cluster; if that cluster is unknown the answer says so. Missing for the full claim: other methods (`C39_false_method`). -/
theorem C39_forwarded_partial (hord : ord.Perm (parseQuery r.rawQuery)) (hc : ¬ Cacheable st r)
    (hm : r.method ∈ [lit "GET", lit "POST", lit "DELETE", lit "PUT", lit "PATCH"]) :
    ∃ c, Selects env r c ∧ Upstream env c (proxy env st tord ord r) := by
  have hk : knownMethod r.method = true := by
    unfold knownMethod; rw [List.contains_iff_mem]; exact hm
  rcases proxy_not_cacheable (env := env) (tord := tord) hord hc with ⟨info, hs, hp⟩ | ⟨hs, hp⟩
  · refine ⟨_, pick_selects hord hs, ?_⟩
    rw [hp]
    rcases proxyPass_upstream (r := r) (q := encodeQuery (setSelector info.rewritten (scanQuery ord).query))
      (b := (deleteBlock r (scanQuery ord).cluster).2) (pick_pass (env := env) (p := info.paginate)
        (c := (deleteBlock r (scanQuery ord).cluster).1)) with h | ⟨_, h, _⟩
    · exact h
    · rw [hk] at h; simp at h
  · refine ⟨_, pass_selects hord hs, ?_⟩
    rw [hp]
    rcases proxyPass_upstream (env := env) (r := r) (q := r.rawQuery) (b := (deleteBlock r (scanQuery ord).cluster).2)
      (c := (deleteBlock r (scanQuery ord).cluster).1) rfl with h | ⟨_, h, _⟩
    · exact h
    · rw [hk] at h; simp at h

theorem all_first {raw : Str} {P : Str → Str → Bool} (h : (parseQuery raw).all (fun e => P e.1 (e.2.headD [])) = true) :
    ∀ k v, First raw k v → P k v = true := by
  intro k v hf
  obtain ⟨vs, hm⟩ := first_head hf
  exact List.all_eq_true.mp h _ hm

/-- The cache of the example history, seen through the store interface. -/
def exStore : StoreI :=
  let s := ((newStore exConf).run exEval exHist).getD (newStore exConf)
  ⟨s.isStoreGVR, s.get, s.query (fun _ => true) insertionSort (fun _ => none)⟩

def exEnv : Env := ⟨lit "c1", [lit "c1", lit "c2"], []⟩

/-- `GET /api/v1/namespaces/prod/pods` with a label selector, a limit and a cluster marker. -/
def exList : HReq :=
  { method := lit "GET", path := lit "/api/v1/namespaces/prod/pods",
    rawQuery := lit "labelSelector=app%21%3Dweb&limit=500&resourceVersion=dsm-cluster-c2",
    version := lit "v1", resourceType := lit "pods", ns := lit "prod" }

theorem exList_cacheable : Cacheable exStore exList := by
  refine ⟨rfl, by decide +kernel, ?_, ?_⟩
  · intro v hv
    have := all_first (raw := exList.rawQuery) (P := fun k v => k ≠ lit "labelSelector" || (parseSelector v).isSome)
      (by decide +kernel) _ _ hv
    simpa using this
  · intro k v hv
    have := all_first (raw := exList.rawQuery) (P := fun k v => k ∈ [lit "labelSelector", lit "timeoutSeconds", lit "timeout", lit "limit"]
      || (k ∈ markerKeys && hasPrefix v (lit "dsm-cluster-"))) (by decide +kernel) _ _ hv
    simp only [Bool.or_eq_true, Bool.and_eq_true, decide_eq_true_eq, hasPrefix_iff] at this
    rcases this with h | ⟨h, c, hc⟩
    · exact Or.inl h
    · exact Or.inr ⟨h, c, hc.symm⟩

/-- The hypotheses of `C39_from_cache`, and the answer. -/
example : Cacheable exStore exList
    ∧ proxy exEnv exStore (fun _ m => m) (parseQuery exList.rawQuery) exList
      = .list (lit "v1") [] (lit "/api/v1/namespaces/prod/pods") 0
        (((exStore.get exPods (lit "c1") (lit "prod") (lit "web"))).toList) :=
  ⟨exList_cacheable, by decide +kernel⟩

/-- The hypotheses of `C39_forwarded_partial`, and the answer. -/
example : ¬ Cacheable exStore { exList with rawQuery := lit "watch=1&cluster=c2" }
    ∧ proxy exEnv exStore (fun _ m => m) (parseQuery (lit "watch=1&cluster=c2")) { exList with rawQuery := lit "watch=1&cluster=c2" }
      = .forward true (lit "c2") (lit "GET") (lit "/api/v1/namespaces/prod/pods") (lit "cluster=c2&timeout=30m&watch=1") [] := by
  refine ⟨?_, by decide +kernel⟩
  intro h
  rcases h.params (lit "watch") (lit "1") ⟨[], by decide +kernel⟩ with h | ⟨h, _⟩
  · revert h; decide
  · revert h; decide

/-- **C39 is false** for methods such as HEAD and OPTIONS, which the router lets through: the handler
dereferences a nil request. -/
theorem C39_false_method :
    proxy exEnv exStore (fun _ m => m) [] { method := lit "HEAD", path := lit "/api/v1/namespaces" } = .crash
    ∧ proxy exEnv exStore (fun _ m => m) [] { method := lit "OPTIONS", path := lit "/version" } = .crash := by
  decide +kernel

/-- The text of the pagination request in a label selector, as the server takes it: the value of an equality on the
pagination key, otherwise the merged values of the last expression on that key that has values. -/
def Spec.PayloadOf (ls : LabelSelector) (t : Str) : Prop :=
  lookup paginateKey ls.matchLabels = some t
    ∨ (lookup paginateKey ls.matchLabels = none ∧ ∃ pre e post, ls.matchExprs = pre ++ e :: post ∧ e.key = paginateKey
        ∧ e.vals ≠ [] ∧ mergeValues e.vals = some t ∧ ∀ e' ∈ post, e'.key = paginateKey → e'.vals = [])

theorem paginateLoop_some {es : List LReq} : ∀ {acc t : Str}, paginateLoop es acc = some t ↔
    (∀ e ∈ es, e.key = paginateKey → e.vals ≠ [] → (mergeValues e.vals).isSome = true)
    ∧ ((∃ pre e post, es = pre ++ e :: post ∧ e.key = paginateKey ∧ e.vals ≠ [] ∧ mergeValues e.vals = some t
        ∧ ∀ e' ∈ post, e'.key = paginateKey → e'.vals = [])
      ∨ ((∀ e ∈ es, e.key = paginateKey → e.vals = []) ∧ t = acc)) := by
  induction es with
  | nil =>
    intro acc t
    simp only [paginateLoop, Option.some.injEq, List.not_mem_nil, false_implies, implies_true, true_and, List.nil_eq,
      List.append_eq_nil_iff, reduceCtorEq, and_false, false_and, exists_false, false_or]
    exact eq_comm
  | cons x es ih =>
    intro acc t
    have skip : (x.key = paginateKey → x.vals = []) → (paginateLoop es acc = some t ↔
        (∀ e ∈ x :: es, e.key = paginateKey → e.vals ≠ [] → (mergeValues e.vals).isSome = true)
        ∧ ((∃ pre e post, x :: es = pre ++ e :: post ∧ e.key = paginateKey ∧ e.vals ≠ [] ∧ mergeValues e.vals = some t
            ∧ ∀ e' ∈ post, e'.key = paginateKey → e'.vals = [])
          ∨ ((∀ e ∈ x :: es, e.key = paginateKey → e.vals = []) ∧ t = acc))) := by
      intro hx
      rw [ih]
      simp only [List.mem_cons, forall_eq_or_imp]
      constructor
      · rintro ⟨h1, h2⟩
        refine ⟨⟨fun hk hv => absurd (hx hk) hv, h1⟩, ?_⟩
        rcases h2 with ⟨pre, e, post, h3, h4⟩ | ⟨h3, h4⟩
        · exact Or.inl ⟨x :: pre, e, post, by rw [h3]; rfl, h4⟩
        · exact Or.inr ⟨⟨hx, h3⟩, h4⟩
      · rintro ⟨⟨_, h1⟩, h2⟩
        refine ⟨h1, ?_⟩
        rcases h2 with ⟨pre, e, post, h3, h4, h5, h6⟩ | ⟨h3, h4⟩
        · cases pre with
          | nil =>
            simp only [List.nil_append, List.cons.injEq] at h3
            obtain ⟨rfl, rfl⟩ := h3
            exact absurd (hx h4) h5
          | cons y pre =>
            simp only [List.cons_append, List.cons.injEq] at h3
            exact Or.inl ⟨pre, e, post, h3.2, h4, h5, h6⟩
        · exact Or.inr ⟨h3.2, h4⟩
    unfold paginateLoop
    by_cases hk : x.key = paginateKey
    · rw [if_pos hk]
      by_cases hv : x.vals = []
      · rw [if_neg (by simp [hv])]
        exact skip fun _ => hv
      · rw [if_pos (List.length_pos_iff.mpr hv)]
        cases hm : mergeValues x.vals with
        | none =>
          simp only [List.mem_cons, forall_eq_or_imp]
          constructor
          · intro h; simp at h
          · rintro ⟨⟨h, _⟩, _⟩
            have := h hk hv
            rw [hm] at this; simp at this
        | some u =>
          simp only
          rw [ih]
          simp only [List.mem_cons, forall_eq_or_imp]
          constructor
          · rintro ⟨h1, h2⟩
            refine ⟨⟨fun _ _ => by rw [hm]; rfl, h1⟩, Or.inl ?_⟩
            rcases h2 with ⟨pre, e, post, h3, h4⟩ | ⟨h3, rfl⟩
            · exact ⟨x :: pre, e, post, by rw [h3]; rfl, h4⟩
            · exact ⟨[], x, es, rfl, hk, hv, hm, h3⟩
          · rintro ⟨⟨_, h1⟩, h2⟩
            refine ⟨h1, ?_⟩
            rcases h2 with ⟨pre, e, post, h3, h4, h5, h6, h7⟩ | ⟨h3, _⟩
            · cases pre with
              | nil =>
                simp only [List.nil_append, List.cons.injEq] at h3
                obtain ⟨rfl, rfl⟩ := h3
                rw [hm, Option.some.injEq] at h6
                exact Or.inr ⟨h7, h6.symm⟩
              | cons y pre =>
                simp only [List.cons_append, List.cons.injEq] at h3
                exact Or.inl ⟨pre, e, post, h3.2, h4, h5, h6, h7⟩
            · exact absurd (h3.1 hk) hv
    · rw [if_neg hk]
      exact skip fun h => absurd h hk

/-- **C39**, what is readable: a label selector is accepted exactly when it parses and the pagination request in it,
if any, is unpadded base64 (cut into chunks that can be merged). -/
theorem C39_readable (v : Str) : (parseSelector v).isSome = true ↔
    ∃ ls, parseToLabelSelector v = some ls ∧ (∀ t, PayloadOf ls t → (Base64.decode t).isSome = true)
      ∧ (lookup paginateKey ls.matchLabels = none →
          ∀ e ∈ ls.matchExprs, e.key = paginateKey → e.vals ≠ [] → (mergeValues e.vals).isSome = true) := by
  have h0 : parseToLabelSelector [] = some {} := by decide +kernel
  have d0 : (Base64.decode []).isSome = true := by decide +kernel
  unfold parseSelector
  by_cases hv : v = []
  · rw [if_pos hv, hv, h0]
    simp [PayloadOf, lookup]
  · rw [if_neg hv]
    cases hp : parseToLabelSelector v with
    | none => simp
    | some ls =>
      simp only [Option.bind_some, Option.some.injEq, exists_eq_left']
      have fin : ∀ (ls' : LabelSelector) (ps : Str),
          (if ps = [] then some (selInfo {} ls') else (Base64.decode ps).map fun rr =>
            selInfo (decodePaginate rr) { ls' with matchLabels := eraseKV paginateKey ls'.matchLabels }).isSome = true
          ↔ (Base64.decode ps).isSome = true := by
        intro ls' ps
        by_cases hps : ps = []
        · rw [if_pos hps, hps]; simp [d0]
        · rw [if_neg hps]; simp
      unfold takePaginate
      cases hl : lookup paginateKey ls.matchLabels with
      | some ps =>
        simp only [Option.bind_some]
        rw [fin]
        constructor
        · intro h
          refine ⟨?_, by simp⟩
          rintro t (ht | ⟨ht, _⟩)
          · rw [hl, Option.some.injEq] at ht; rw [← ht]; exact h
          · rw [hl] at ht; simp at ht
        · rintro ⟨h, _⟩; exact h ps (Or.inl hl)
      | none =>
        simp only [forall_const]
        cases hpl : paginateLoop ls.matchExprs [] with
        | none =>
          simp only [Option.map_none, Option.bind_none, Option.isSome_none, Bool.false_eq_true, false_iff, not_and]
          intro _ hall
          -- with every merge possible the loop gives a text
          have : ∃ t, paginateLoop ls.matchExprs [] = some t := by
            have gen : ∀ (es : List LReq) (acc : Str), (∀ e ∈ es, e.key = paginateKey → e.vals ≠ [] →
                (mergeValues e.vals).isSome = true) → ∃ t, paginateLoop es acc = some t := by
              intro es
              induction es with
              | nil => intro acc _; exact ⟨acc, rfl⟩
              | cons x es ih =>
                intro acc h
                have hr : ∀ e ∈ es, e.key = paginateKey → e.vals ≠ [] → (mergeValues e.vals).isSome = true :=
                  fun e he => h e (by simp [he])
                unfold paginateLoop
                split
                · rename_i hk
                  split
                  · rename_i hlen
                    obtain ⟨u, hu⟩ := Option.isSome_iff_exists.mp (h x (by simp) hk (List.length_pos_iff.mp hlen))
                    rw [hu]; exact ih u hr
                  · exact ih acc hr
                · exact ih acc hr
            exact gen _ _ hall
          obtain ⟨t, ht⟩ := this
          rw [hpl] at ht; simp at ht
        | some ps =>
          simp only [Option.map_some, Option.bind_some]
          rw [fin]
          obtain ⟨h1, h2⟩ := paginateLoop_some.mp hpl
          constructor
          · intro h
            refine ⟨?_, h1⟩
            rintro t (ht | ⟨_, pre, e, post, ht⟩)
            · rw [hl] at ht; simp at ht
            · have := (paginateLoop_some (acc := [])).mpr ⟨h1, Or.inl ⟨pre, e, post, ht⟩⟩
              rw [hpl, Option.some.injEq] at this
              rw [← this]; exact h
          · rintro ⟨h, _⟩
            rcases h2 with h2 | ⟨_, rfl⟩
            · exact h ps (Or.inr ⟨hl, h2⟩)
            · exact d0

/-- Both directions on concrete selectors. -/
example : (parseSelector (lit "a=b,ckube.daocloud.io/query notin (e30)")).isSome = true
    ∧ (parseSelector (lit "a=b,ckube.daocloud.io/query notin (e)")).isSome = false
    ∧ (parseSelector (lit "a=b,ckube.daocloud.io/query notin (a.b.c,d)")).isSome = false
    ∧ (parseSelector (lit "a=b,=")).isSome = false := by decide +kernel

/-! ## C40 -/

/-- **C40**: a request that is not a GET, or that has a `watch` query parameter, is never answered from the
cache: it goes to an API server, or the answer says that the cluster is unknown, or (methods that are not
forwarded) the handler panics. -/
theorem C40_never_from_cache (hord : ord.Perm (parseQuery r.rawQuery))
    (h : r.method ≠ lit "GET" ∨ ∃ v, First r.rawQuery (lit "watch") v) :
    (∃ c, Selects env r c ∧ Upstream env c (proxy env st tord ord r))
      ∨ (r.method ∉ [lit "GET", lit "POST", lit "DELETE", lit "PUT", lit "PATCH"]
          ∧ proxy env st tord ord r = .crash) := by
  have hc : ¬ Cacheable st r := by
    intro hc
    rcases h with h | ⟨v, h⟩
    · exact h hc.get
    · rcases hc.params _ _ h with h | ⟨h, _⟩
      · revert h; decide
      · revert h; decide
  by_cases hm : r.method ∈ [lit "GET", lit "POST", lit "DELETE", lit "PUT", lit "PATCH"]
  · exact Or.inl (C39_forwarded_partial hord hc hm)
  · rcases proxy_not_cacheable (env := env) (tord := tord) hord hc with ⟨info, hs, hp⟩ | ⟨hs, hp⟩
    · rw [hp]
      rcases proxyPass_upstream (r := r) (q := encodeQuery (setSelector info.rewritten (scanQuery ord).query))
        (b := (deleteBlock r (scanQuery ord).cluster).2) (pick_pass (env := env) (p := info.paginate)
          (c := (deleteBlock r (scanQuery ord).cluster).1)) with h | ⟨h, _⟩
      · exact Or.inl ⟨_, pick_selects hord hs, h⟩
      · exact Or.inr ⟨hm, h⟩
    · rw [hp]
      rcases proxyPass_upstream (env := env) (r := r) (q := r.rawQuery) (b := (deleteBlock r (scanQuery ord).cluster).2)
        (c := (deleteBlock r (scanQuery ord).cluster).1) rfl with h | ⟨h, _⟩
      · exact Or.inl ⟨_, pass_selects hord hs, h⟩
      · exact Or.inr ⟨hm, h⟩

/-- An update of a cached type, and a watch of it. -/
example : ({ exList with method := lit "PUT" }).method ≠ lit "GET"
    ∧ proxy exEnv exStore (fun _ m => m) (parseQuery exList.rawQuery) { exList with method := lit "PUT", body := lit "{}" }
      = .forward false (lit "c2") (lit "PUT") (lit "/api/v1/namespaces/prod/pods") (lit "labelSelector=app+notin+%28web%29&limit=500")
          (lit "{}")
    ∧ First (lit "watch=false") (lit "watch") (lit "false") :=
  ⟨by decide, by decide +kernel, [], by decide +kernel⟩

/-! ## C46 -/

theorem carries_det {p p' : Paginate} (h : Carries r p) (h' : Carries r p') : p = p' := by
  rcases h with ⟨v, i, h1, h2, rfl⟩ | ⟨h1, rfl⟩ <;> rcases h' with ⟨v', i', h1', h2', rfl⟩ | ⟨h1', rfl⟩
  · rw [first_det h1 h1', h2', Option.some.injEq] at h2; rw [h2]
  · exact absurd h1 (h1' _)
  · exact absurd h1' (h1 _)
  · rfl

theorem fallsBack_det {c c' : Str} (h : FallsBack env r c) (h' : FallsBack env r c') : c = c' := by
  rcases h with ⟨p, cs, h1, h2, h3⟩ | ⟨h1, rfl⟩ <;> rcases h' with ⟨p', cs', h1', h2', h3'⟩ | ⟨h1', rfl⟩
  · rw [carries_det h1 h1', h2'] at h2
    simp only [List.cons.injEq] at h2
    exact h2.1.symm
  · have := h1' _ h1
    rw [h2] at this; exact absurd this h3
  · have := h1 _ h1'
    rw [h2'] at this; exact absurd this h3'
  · rfl

/-- A request that does not name two clusters has one cluster that should serve it. -/
theorem selects_det (hone : OneName r) {c c' : Str} (h : Selects env r c) (h' : Selects env r c') : c = c' := by
  rcases h with ⟨h1, h2⟩ | ⟨h1, h2⟩ <;> rcases h' with ⟨h1', h2'⟩ | ⟨h1', h2'⟩
  · exact hone _ _ h1 h1'
  · rcases h1' with h1' | h1'
    · exact absurd (hone _ _ h1 h1') h2
    · exact absurd h1 (h1' _)
  · rcases h1 with h1 | h1
    · exact absurd (hone _ _ h1' h1) h2'
    · exact absurd h1' (h1 _)
  · exact fallsBack_det h2 h2'

/-- The answer is that of cluster `c`: of its API server or, for a single object, of its part of the cache. Lists
answered from the cache are the subject of C41; a method that cannot be forwarded is not answered. -/
inductive Spec.ServedBy (env : Env) (st : StoreI) (r : HReq) (c : Str) (a : Answer) : Prop
  | upstream : Upstream env c a → ServedBy env st r c a
  | cached (o : Obj) : r.resource ≠ [] → st.get r.gvr c r.ns r.resource = some o → a = .object o → ServedBy env st r c a
  | missing : r.resource ≠ [] → st.get r.gvr c r.ns r.resource = none → a = .refused .notFound → ServedBy env st r c a
  | listed : Cacheable st r → r.resource = [] → Local a → ServedBy env st r c a
  | failed : r.method ∉ [lit "GET", lit "POST", lit "DELETE", lit "PUT", lit "PATCH"] → a = .crash → ServedBy env st r c a

/-- Every answer is that of a cluster the request selects. -/
theorem served (hord : ord.Perm (parseQuery r.rawQuery)) :
    ∃ c, Selects env r c ∧ ServedBy env st r c (proxy env st tord ord r) := by
  by_cases hc : Cacheable st r
  · obtain ⟨info, hs, hp⟩ := proxy_cacheable (env := env) (tord := tord) hord hc
    refine ⟨_, pick_selects hord hs, ?_⟩
    rw [hp]
    by_cases hr : r.resource = []
    · rw [if_neg (by simpa using hr)]
      exact .listed hc hr (proxyList_local _)
    · rw [if_pos hr]
      unfold proxySingle
      cases hg : st.get r.gvr (pickCluster env info.paginate (deleteBlock r (scanQuery ord).cluster).1) r.ns r.resource with
      | none => exact .missing hr hg rfl
      | some o => exact .cached o hr hg rfl
  · by_cases hm : r.method ∈ [lit "GET", lit "POST", lit "DELETE", lit "PUT", lit "PATCH"]
    · obtain ⟨c, h1, h2⟩ := C39_forwarded_partial (env := env) (tord := tord) hord hc hm
      exact ⟨c, h1, .upstream h2⟩
    · have hg : r.method ≠ lit "GET" := fun h => hm (by simp [h])
      rcases C40_never_from_cache (env := env) (st := st) (tord := tord) hord (Or.inl hg) with ⟨c, h1, h2⟩ | ⟨_, h⟩
      · exact ⟨c, h1, .upstream h2⟩
      · cases hs : parseSelector (scanQuery ord).selector with
        | none => exact ⟨_, pass_selects hord hs, .failed hm h⟩
        | some info => exact ⟨_, pick_selects hord hs, .failed hm h⟩

/-- **C46**: a request that does not name two different clusters is served by the cluster it names, otherwise the first
cluster of its search, otherwise the default cluster. Missing for the full claim: requests that name
several clusters (`C46_false_order`), and lists answered from the cache, which look only at the clusters of the
search (`C46_false_list`). -/
theorem C46_cluster_partial (hone : OneName r) : ∃ c, Selects env r c ∧ (∀ c', Selects env r c' → c' = c)
    ∧ ∀ tord ord, ord.Perm (parseQuery r.rawQuery) → ServedBy env st r c (proxy env st tord ord r) := by
  obtain ⟨c, h1, _⟩ := served (env := env) (st := st) (tord := fun _ m => m) (List.Perm.refl (parseQuery r.rawQuery))
  refine ⟨c, h1, fun c' h' => selects_det hone h' h1, ?_⟩
  intro tord ord hord
  obtain ⟨c', h1', h2'⟩ := served (env := env) (st := st) (tord := tord) hord
  rw [selects_det hone h1 h1']
  exact h2'

/-- **C46**, the outcome is a function of the request: it does not depend on the order in which the query parameters
are iterated. Missing for the full claim: requests that name several clusters (`C46_false_order`). -/
theorem C46_function_partial (hone : OneName r) {ord' : Values} (hord : ord.Perm (parseQuery r.rawQuery))
    (hord' : ord'.Perm (parseQuery r.rawQuery)) :
    proxy env st tord ord r = proxy env st tord ord' r := by
  have hcl : (deleteBlock r (scanQuery ord).cluster).1 = (deleteBlock r (scanQuery ord').cluster).1 := by
    rcases deleteBlock_names hord with h | ⟨h, h2⟩ <;> rcases deleteBlock_names hord' with h' | ⟨h', h2'⟩
    · exact hone _ _ h h'
    · exact absurd h (h' _)
    · exact absurd h' (h _)
    · rw [h2, h2']
  have hb : (deleteBlock r (scanQuery ord).cluster).2 = (deleteBlock r (scanQuery ord').cluster).2 := by
    unfold deleteBlock; split
    · split <;> rfl
    · rfl
  obtain ⟨m1, _, l1⟩ := ord_ok hord
  obtain ⟨m2, _, l2⟩ := ord_ok hord'
  have hsel : (scanQuery ord).selector = (scanQuery ord').selector := by
    rw [(scanQuery_eq m1).2.1, (scanQuery_eq m2).2.1, l1, l2]
  have henc : ∀ rw, encodeQuery (setSelector rw (scanQuery ord).query) = encodeQuery (setSelector rw (scanQuery ord').query) := by
    intro rw
    obtain ⟨_, a2, a3⟩ := parsed_query hord rw
    obtain ⟨_, b2, b3⟩ := parsed_query hord' rw
    have hlk : ∀ k, lookup k (setSelector rw (scanQuery ord).query) = lookup k (setSelector rw (scanQuery ord').query) := by
      have hq : ∀ k, lookup k (scanQuery ord).query = lookup k (scanQuery ord').query := by
        intro k
        rw [(scanQuery_eq m1).2.2, (scanQuery_eq m2).2.2]
        apply Option.ext
        intro v
        rw [lookup_filter m1, lookup_filter m2, l1, l2]
      intro k
      unfold setSelector
      cases rw with
      | none => exact hq k
      | some s => simp only [lookup_insertKV, hq]
    have hp : (setSelector rw (scanQuery ord).query).Perm (setSelector rw (scanQuery ord').query) := by
      have nd : ∀ {m : Values}, IsMap m → m.Nodup := fun h => List.Nodup.of_map _ h
      rw [List.perm_ext_iff_of_nodup (nd a2) (nd b2)]
      intro e
      have := hlk e.1
      constructor
      · intro he
        have h1 := (lookup_iff a2).mpr (show (e.1, e.2) ∈ _ from he)
        rw [this] at h1
        exact (lookup_iff b2).mp h1
      · intro he
        have h1 := (lookup_iff b2).mpr (show (e.1, e.2) ∈ _ from he)
        rw [← this] at h1
        exact (lookup_iff a2).mp h1
    unfold encodeQuery
    rw [sortBy_fst_perm a2 hp]
  cases hs : parseSelector (scanQuery ord).selector with
  | none => rw [proxy_unread hs, proxy_unread (hsel ▸ hs), hcl, hb]
  | some info => rw [proxy_read hs, proxy_read (hsel ▸ hs), hcl, hb, henc]

theorem exList_oneName : OneName exList := by
  have key : ∀ c, Names exList c → c = lit "c2" := by
    intro c h
    cases h with
    | options ds h => exact absurd h.1 (by decide)
    | param _ h =>
      have := all_first (raw := exList.rawQuery) (P := fun k _ => k ≠ lit "cluster") (by decide +kernel) _ _ h
      simp at this
    | marked k _ hk h =>
      have := all_first (raw := exList.rawQuery) (P := fun k v => k ∉ markerKeys || v = marker (lit "c2")) (by decide +kernel) _ _ h
      simp only [Bool.or_eq_true, decide_eq_true_eq] at this
      rcases this with h' | h'
      · exact absurd hk h'
      · exact List.append_cancel_left h'
  intro c c' h h'
  rw [key c h, key c' h']

/-- A read of one object from the cluster named in a marker. -/
example : OneName exList ∧ Selects exEnv { exList with resource := lit "web" } (lit "c2")
    ∧ proxy exEnv exStore (fun _ m => m) (parseQuery exList.rawQuery) { exList with resource := lit "web" }
      = .object ((exStore.get exPods (lit "c2") (lit "prod") (lit "web")).getD {})
    ∧ (exStore.get exPods (lit "c2") (lit "prod") (lit "web")).isSome = true :=
  ⟨exList_oneName, Or.inl ⟨.marked (lit "resourceVersion") (fun _ _ h => absurd h.1 (by decide)) (by decide)
    ⟨[], by decide +kernel⟩, by decide⟩, by decide +kernel, by decide +kernel⟩

/-- **C46 is false** for a request that names two clusters: which one serves it depends on the order in which Go iterates
the map of query parameters. -/
theorem C46_false_order :
    let q := lit "cluster=c1&fieldManager=dsm-cluster-c2"
    let r : HReq := { method := lit "POST", path := lit "/api/v1/namespaces/prod/pods", rawQuery := q, body := lit "{}" }
    parseQuery q = [(lit "cluster", [lit "c1"]), (lit "fieldManager", [lit "dsm-cluster-c2"])]
    ∧ proxy exEnv exStore (fun _ m => m) [(lit "cluster", [lit "c1"]), (lit "fieldManager", [lit "dsm-cluster-c2"])] r
      = .forward false (lit "c2") (lit "POST") (lit "/api/v1/namespaces/prod/pods") (lit "cluster=c1") (lit "{}")
    ∧ proxy exEnv exStore (fun _ m => m) [(lit "fieldManager", [lit "dsm-cluster-c2"]), (lit "cluster", [lit "c1"])] r
      = .forward false (lit "c1") (lit "POST") (lit "/api/v1/namespaces/prod/pods") (lit "cluster=c1") (lit "{}") := by
  decide +kernel

/-- **C46 is false** for lists from the cache: the cluster named by a marker is removed from the query and then
ignored; the list is that of the default cluster. -/
theorem C46_false_list : Names exList (lit "c2")
    ∧ proxy exEnv exStore (fun _ m => m) (parseQuery exList.rawQuery) exList
      = .list (lit "v1") [] (lit "/api/v1/namespaces/prod/pods") 0
        ((exStore.get exPods (lit "c1") (lit "prod") (lit "web")).toList)
    ∧ exStore.get exPods (lit "c1") (lit "prod") (lit "web") ≠ exStore.get exPods (lit "c2") (lit "prod") (lit "web") := by
  refine ⟨.marked (lit "resourceVersion") ?_ (by decide) ⟨[], by decide +kernel⟩, by decide +kernel, by decide +kernel⟩
  intro c ds h
  exact absurd h.1 (by decide)

/-! ## C45 -/

/-- **C45**: a GET of one object that can be answered from the cache gives the object last received for this cluster, namespace and name
(with ckube's marks), or 404 when there is none. -/
theorem C45_single_object {isPrint : Nat → Bool} {alg : SliceSort} {pf : Str → Option GoFloat} {eval : Str → Obj → Str}
    {conf : List (GVR × List (Str × Str))} {h : List Notice} {s : Store}
    (hrun : (newStore conf).run eval h = some s) (hst : Serves isPrint alg pf s st)
    (hord : ord.Perm (parseQuery r.rawQuery)) (hc : Cacheable st r) (hr : r.resource ≠ []) :
    ∃ c, Selects env r c ∧
      ((∃ o o', Latest eval (confAt conf) h ⟨r.gvr, c, r.ns, r.resource⟩ o ∧ SameButMarks o o'
          ∧ proxy env st tord ord r = .object o')
       ∨ ((∀ o, ¬ Latest eval (confAt conf) h ⟨r.gvr, c, r.ns, r.resource⟩ o)
          ∧ proxy env st tord ord r = .refused .notFound)) := by
  obtain ⟨info, hs, hp⟩ := proxy_cacheable (env := env) (tord := tord) hord hc
  refine ⟨_, pick_selects hord hs, ?_⟩
  rw [hp, if_pos hr]
  unfold proxySingle
  rw [hst.get]
  obtain ⟨h1, h2⟩ := C20_latest hrun ⟨r.gvr, pickCluster env info.paginate (deleteBlock r (scanQuery ord).cluster).1, r.ns, r.resource⟩
  by_cases hl : ∃ o, Latest eval (confAt conf) h ⟨r.gvr, pickCluster env info.paginate (deleteBlock r (scanQuery ord).cluster).1, r.ns, r.resource⟩ o
  · obtain ⟨o, ho⟩ := hl
    obtain ⟨o', g1, g2⟩ := h1 o ho
    simp only at g1
    exact Or.inl ⟨o, o', ho, g2, by rw [g1]⟩
  · have hno := not_exists.mp hl
    have g1 := h2 hno
    simp only at g1
    exact Or.inr ⟨hno, by rw [g1]⟩

/-- The example store is the cache after the example history, the request is cacheable, and another name gives 404. -/
example : ((newStore exConf).run exEval exHist).isSome = true ∧ Cacheable exStore { exList with resource := lit "web" }
    ∧ proxy exEnv exStore (fun _ m => m) (parseQuery exList.rawQuery) { exList with resource := lit "db" } = .refused .notFound :=
  ⟨by decide +kernel, ⟨rfl, exList_cacheable.configured, exList_cacheable.readable, exList_cacheable.params⟩, by decide +kernel⟩

/-! ## C47 and C67 -/

/-- **C47**, query: when the label selector of a request is readable, the forwarded query has no cluster marker. Missing for
the full claim: requests whose label selector cannot be read (`C47_false_unreadable`). -/
theorem C47_query_partial (hord : ord.Perm (parseQuery r.rawQuery)) (hread : Readable r) {w : Bool} {c m p q b : Str}
    (h : proxy env st tord ord r = .forward w c m p q b) :
    ∀ k ∈ [lit "fieldManager", lit "resourceVersion"], ∀ c', ¬ First q k (marker c') := by
  obtain ⟨q₀, _, _, _, hq, _, hcase⟩ := proxy_forward hord h
  rintro k hk c' ⟨vs, hf⟩
  have n1 : k ≠ lit "timeout" ∧ k ≠ lit "labelSelector" := by
    have : ∀ k ∈ [lit "fieldManager", lit "resourceVersion"], k ≠ lit "timeout" ∧ k ≠ lit "labelSelector" := by decide
    exact this k hk
  have hf0 : lookup k (parseQuery q₀) = some (marker c' :: vs) := by
    rw [hq] at hf
    split at hf
    · rwa [lookup_watchQuery q₀ k n1.1 n1.2] at hf
    · exact hf
  rcases hcase with ⟨info, hs, rfl⟩ | ⟨hs, _⟩
  · exact ((lookup_rewritten hord info.rewritten n1.2 _).mp hf0).2 ⟨hk, c', rfl⟩
  · rw [readable_iff_scan hord, hs] at hread
    simp at hread

/-- **C47**, delete options: when the options of a DELETE name a cluster, the forwarded body holds the same options without
that marker. -/
theorem C47_options (hord : ord.Perm (parseQuery r.rawQuery)) {c₀ : Str} {ds : List Str} (hd : DryRunNames r c₀ ds)
    {w : Bool} {c m p q b : Str} (h : proxy env st tord ord r = .forward w c m p q b) :
    decodeDelete b = { decodeDelete r.body with dryRun := ds } := by
  obtain ⟨q₀, _, _, _, _, hb, _⟩ := proxy_forward hord h
  rw [if_neg (by rw [hd.1]; decide)] at hb
  have : deleteBlock r (scanQuery ord).cluster = (c₀, { decodeDelete r.body with dryRun := ds }.toJson) := by
    unfold deleteBlock
    rw [if_pos hd.1, dryRunMarker_iff.mpr ⟨ds, hd.2, rfl⟩]
  rw [hb, this]
  apply decodeDelete_toJson
  have hw := decodeDelete_wf r.body
  exact { hw with dryRun := fun x hx => hw.dryRun x (by rw [hd.2]; simp [hx]) }

/-- A DELETE with a marker in its options, and one with a marker in the query. -/
example :
    let b := lit "{\"kind\":\"DeleteOptions\",\"gracePeriodSeconds\":5,\"propagationPolicy\":\"Orphan\",\"dryRun\":[\"dsm-cluster-c2\",\"All\"]}"
    let r : HReq := { method := lit "DELETE", path := lit "/api/v1/namespaces/prod/pods/web", body := b }
    (decodeDelete r.body).dryRun = [lit "dsm-cluster-c2", lit "All"]
    ∧ proxy exEnv exStore (fun _ m => m) [] r = .forward false (lit "c2") (lit "DELETE") (lit "/api/v1/namespaces/prod/pods/web") []
        (lit "{\"kind\":\"DeleteOptions\",\"gracePeriodSeconds\":5,\"propagationPolicy\":\"Orphan\",\"dryRun\":[\"All\"]}")
    ∧ proxy exEnv exStore (fun _ m => m) [(lit "fieldManager", [lit "dsm-cluster-c2"]), (lit "pretty", [lit "true"])]
        { r with method := lit "PATCH", body := lit "{}", rawQuery := lit "fieldManager=dsm-cluster-c2&pretty=true" }
      = .forward false (lit "c2") (lit "PATCH") (lit "/api/v1/namespaces/prod/pods/web") (lit "pretty=true") (lit "{}") := by
  decide +kernel

/-- **C47 is false** for a request whose label selector cannot be parsed: its query is forwarded as it came, with the
marker. -/
theorem C47_false_unreadable :
    let q := lit "fieldManager=dsm-cluster-c2&labelSelector=%3D"
    parseQuery q = [(lit "fieldManager", [lit "dsm-cluster-c2"]), (lit "labelSelector", [lit "="])]
    ∧ proxy exEnv exStore (fun _ m => m) (parseQuery q) { method := lit "POST", path := lit "/api/v1/pods", rawQuery := q }
      = .forward false (lit "c2") (lit "POST") (lit "/api/v1/pods") q [] := by
  decide +kernel

/-- **C67**: a request that is forwarded keeps its method, its path, its body (unless it is a GET, which has none, or a DELETE) and
every query parameter other than cluster markers, `labelSelector` and, for a watch, `timeout`. Missing for
the full claim: the body of a DELETE without a marker is lost (`C67_false_delete_body`). -/
theorem C67_forwarded_unchanged_partial (hord : ord.Perm (parseQuery r.rawQuery)) {w : Bool} {c m p q b : Str}
    (h : proxy env st tord ord r = .forward w c m p q b) :
    m = r.method ∧ p = r.path ∧ (r.method ≠ lit "GET" → r.method ≠ lit "DELETE" → b = r.body)
      ∧ ∀ k, k ≠ lit "labelSelector" → (w = true → k ≠ lit "timeout") →
          (k ∈ markerKeys → ∀ c', ¬ First r.rawQuery k (marker c')) →
          lookup k (parseQuery q) = lookup k (parseQuery r.rawQuery) := by
  obtain ⟨q₀, hm, hp, hw, hq, hb, hcase⟩ := proxy_forward hord h
  refine ⟨hm, hp, ?_, ?_⟩
  · intro h1 h2
    rw [hb, if_neg h1]
    unfold deleteBlock
    rw [if_neg h2]
  · intro k hl ht hmk
    have e1 : lookup k (parseQuery q) = lookup k (parseQuery q₀) := by
      rw [hq]
      split
      · rename_i hw'
        exact lookup_watchQuery q₀ k (ht (by rw [hw, hw'])) hl
      · rfl
    rw [e1]
    rcases hcase with ⟨info, hs, rfl⟩ | ⟨hs, rfl⟩
    · apply Option.ext
      intro vs
      rw [lookup_rewritten hord info.rewritten hl]
      constructor
      · exact fun h => h.1
      · intro h
        refine ⟨h, ?_⟩
        rintro ⟨h1, c', h2⟩
        have := mem_first (mem_of_lookup h)
        simp only [h2] at this
        exact hmk h1 c' this
    · rfl

/-- The hypothesis holds for the requests of the examples above; a watch with a label selector. -/
example : proxy exEnv exStore (fun _ m => m) [(lit "watch", [lit "true"]), (lit "labelSelector", [lit "a=b"]), (lit "timeout", [lit "5s"])]
      { exList with rawQuery := lit "watch=true&labelSelector=a%3Db&timeout=5s" }
    = .forward true (lit "c1") (lit "GET") (lit "/api/v1/namespaces/prod/pods") (lit "labelSelector=a%3Db&timeout=30m&watch=true") [] := by
  decide +kernel

/-- **C67 is false** for a DELETE whose options name no cluster: the body has been read and is not put back. Here the API
server is asked to really delete what the client asked to delete as a dry run. -/
theorem C67_false_delete_body :
    let b := lit "{\"dryRun\":[\"All\"]}"
    proxy exEnv exStore (fun _ m => m) [] { method := lit "DELETE", path := lit "/api/v1/namespaces/prod/pods/web", body := b }
      = .forward false (lit "c1") (lit "DELETE") (lit "/api/v1/namespaces/prod/pods/web") [] []
    ∧ (decodeDelete (lit "{\"dryRun\":[\"All\"]}")).dryRun = [lit "All"] ∧ (decodeDelete []).dryRun = [] := by
  decide +kernel

/-! ## C48 -/

/-- **C48**, query options: when the client wraps a cluster into an unused field, the request that carries the field in `fieldManager`
or `resourceVersion` (and names no other cluster) is served by that cluster; a field in use is refused and left unchanged. Missing for
the full claim: the empty cluster name (`C48_false_empty`). -/
theorem C48_field_partial (field c : Str) (hne : c ≠ []) :
    (field ≠ [] → wrapField field c = (field, true))
    ∧ (field = [] → (wrapField field c).2 = false ∧ ∀ k ∈ [lit "fieldManager", lit "resourceVersion"],
        First r.rawQuery k (wrapField field c).1 → OneName r → (∀ c' ds, ¬ DryRunNames r c' ds) →
        ord.Perm (parseQuery r.rawQuery) → ServedBy env st r c (proxy env st tord ord r)) := by
  unfold wrapField
  constructor
  · intro hf; rw [if_pos hf]
  · intro hf
    rw [if_neg (by simpa using hf)]
    refine ⟨rfl, ?_⟩
    intro k hk hf hone hno hord
    have hn : Names r c := .marked k hno hk hf
    obtain ⟨c', h1, h2⟩ := served (env := env) (st := st) (tord := tord) hord
    rw [selects_det hone (Or.inl ⟨hn, hne⟩) h1]
    exact h2

/-- **C48**, delete options: when the client wraps a cluster into the options of a DELETE, the request with these options is served by that
cluster, whatever its query says; options with a `dryRun` value are refused and left unchanged. Missing for the full claim:
the empty cluster name (`C48_false_empty`) and names that JSON cannot carry. -/
theorem C48_delete_partial (o : DelOpts) (c : Str) (hne : c ≠ []) :
    (o.dryRun ≠ [] → wrapDryRun o.dryRun c = (o.dryRun, true))
    ∧ (o.dryRun = [] → (wrapDryRun o.dryRun c).2 = false
        ∧ (r.method = lit "DELETE" → r.body = { o with dryRun := (wrapDryRun o.dryRun c).1 }.toJson →
          o.WF → validUtf8 c = true → ord.Perm (parseQuery r.rawQuery) →
          ServedBy env st r c (proxy env st tord ord r))) := by
  unfold wrapDryRun
  constructor
  · intro h
    rw [if_pos (by simpa using h)]
  · intro h
    rw [if_neg (by simp [h])]
    refine ⟨rfl, ?_⟩
    intro hm hb hw hc hord
    have hdec : decodeDelete r.body = { o with dryRun := [clusterPrefix ++ c] } := by
      rw [hb]
      apply decodeDelete_toJson
      refine { hw with dryRun := ?_ }
      intro x hx
      simp only [List.mem_singleton] at hx
      subst hx
      exact validUtf8_ascii (by decide) hc
    have hd : DryRunNames r c [] := ⟨hm, by rw [hdec]; rfl⟩
    have hone : OneName r := by
      have key : ∀ c', Names r c' → c' = c := by
        intro c' h'
        cases h' with
        | options ds h' =>
          have h1 := h'.2
          rw [hd.2] at h1
          simp only [List.cons.injEq] at h1
          exact (List.append_cancel_left h1.1).symm
        | param hno _ => exact absurd hd (hno _ _)
        | marked k hno _ _ => exact absurd hd (hno _ _)
      intro a b ha hb
      rw [key a ha, key b hb]
    have hn : Names r c := .options [] hd
    obtain ⟨c', h1, h2⟩ := served (env := env) (st := st) (tord := tord) hord
    rw [selects_det hone (Or.inl ⟨hn, hne⟩) h1]
    exact h2

/-- Both kinds of options. -/
example : wrapField [] (lit "c2") = (lit "dsm-cluster-c2", false) ∧ wrapField (lit "me") (lit "c2") = (lit "me", true)
    ∧ First (lit "fieldManager=dsm-cluster-c2") (lit "fieldManager") (lit "dsm-cluster-c2")
    ∧ wrapDryRun [lit "All"] (lit "c2") = ([lit "All"], true)
    ∧ { ({} : DelOpts) with grace := some 3, dryRun := (wrapDryRun [] (lit "c2")).1 }.toJson
      = lit "{\"gracePeriodSeconds\":3,\"dryRun\":[\"dsm-cluster-c2\"]}" :=
  ⟨by decide +kernel, by decide +kernel, ⟨[], by decide +kernel⟩, by decide +kernel, by decide +kernel⟩

/-- **C48 is false** for the empty cluster name: it is accepted by the client library and means the default cluster to the
server. -/
theorem C48_false_empty : wrapField [] [] = (lit "dsm-cluster-", false)
    ∧ proxy exEnv exStore (fun _ m => m) [(lit "fieldManager", [lit "dsm-cluster-"])]
        { method := lit "POST", path := lit "/api/v1/pods", rawQuery := lit "fieldManager=dsm-cluster-" }
      = .forward false (lit "c1") (lit "POST") (lit "/api/v1/pods") [] [] := by
  decide +kernel

end Ckube

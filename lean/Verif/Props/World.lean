import Verif.Lemmas.World
import Verif.Lemmas.WorldSched
import Verif.Props.EndToEnd
import Verif.Props.Federation

/-! # C106: API servers, watchers, the store and requests, all at the same time -/

namespace Ckube
open Spec

variable {env : Env} {st : StoreI} {tord : Nat → List (Str × Str) → List (Str × Str)} {ord : Values} {r : HReq}
variable {isPrint : Nat → Bool} {eval : Str → Obj → Str} {alg : SliceSort} {pf : Str → Option GoFloat}
  {conf : List (GVR × List (Str × Str))} {past : List World} {w : World}

/-- **C106**: a list request makes at most one query. -/
theorem C106_one_query (env : Env) (tord : Nat → List (Str × Str) → List (Str × Str)) (ord : Values) (r : HReq) (hr : r.resource = []) :
    ∃ q, OnlyAsks env tord ord r q := by
  cases hp : parseClean env ord r with
  | inr x => exact ⟨{}, fun st st' _ _ => by unfold proxy; rw [hp]⟩
  | inl p =>
    have key : ∃ q : Query, ∀ st st' : StoreI, st.query r.gvr q = st'.query r.gvr q →
        proxyList env st tord r p = proxyList env st' tord r p := by
      unfold proxyList listItems
      simp only
      cases p.labels with
      | none => exact ⟨_, fun st st' h => by simp only [listPlain]; rw [h]⟩
      | some ls =>
        simp only
        split
        · exact ⟨_, fun st st' h => by simp only [listLabels]; rw [h]⟩
        · exact ⟨_, fun st st' h => by simp only [listPlain]; rw [h]⟩
    obtain ⟨q, hq⟩ := key
    refine ⟨q, fun st st' ht h => ?_⟩
    unfold proxy
    rw [hp]
    simp only
    rw [ht, hq st st' h]
    simp [hr]

/-- **C106**: a request for a single object looks up one object, in a cluster that the request selects. -/
theorem C106_one_get (env : Env) (tord : Nat → List (Str × Str) → List (Str × Str)) {ord : Values} {r : HReq}
    (hord : ord.Perm (parseQuery r.rawQuery)) (hc : Cacheable st r) (hr : r.resource ≠ []) :
    ∃ c, Selects env r c ∧ OnlyGets env tord ord r c := by
  obtain ⟨info, hs, _⟩ := proxy_cacheable (env := env) (tord := tord) hord hc
  refine ⟨_, pick_selects hord hs, ?_⟩
  intro st₁ st₂ ht h
  by_cases h1 : st₁.isStoreGVR r.gvr = true
  · have hc1 : Cacheable st₁ r := ⟨hc.get, h1, hc.readable, hc.params⟩
    have hc2 : Cacheable st₂ r := ⟨hc.get, by rw [← ht]; exact h1, hc.readable, hc.params⟩
    obtain ⟨i1, e1, p1⟩ := proxy_cacheable (env := env) (tord := tord) hord hc1
    obtain ⟨i2, e2, p2⟩ := proxy_cacheable (env := env) (tord := tord) hord hc2
    rw [hs, Option.some.injEq] at e1 e2
    subst e1; subst e2
    rw [p1, p2, if_pos hr, if_pos hr]
    unfold proxySingle
    rw [h]
  · unfold proxy
    cases parseClean env ord r with
    | inr x => rfl
    | inl p =>
      have h1' : st₁.isStoreGVR r.gvr = false := by simpa using h1
      simp only
      rw [← ht, h1']
      simp

/-- The types of the store a request sees are those of the configuration. -/
def TypesOf (conf : List (GVR × List (Str × Str))) (st : StoreI) : Prop := ∀ g, st.isStoreGVR g = (lookup g conf).isSome

theorem run_isStoreGVR {hist : List Notice} {s : Store} (hrun : (newStore conf).run eval hist = some s) (g : GVR) :
    s.isStoreGVR g = (lookup g conf).isSome := by
  unfold Store.isStoreGVR
  rw [run_types hrun, Bool.eq_iff_iff, newStore_types]
  constructor
  · intro hg
    cases hl : lookup g conf with
    | none =>
      obtain ⟨e, he, hk⟩ := List.mem_map.mp hg
      exact absurd he (by rw [← hk] at hl; exact lookup_eq_none.mp hl e.2)
    | some m => rfl
  · intro hg
    obtain ⟨m, hm⟩ := Option.isSome_iff_exists.mp hg
    exact List.mem_map.mpr ⟨_, mem_of_lookup hm, rfl⟩

open Classical in
/-- **C106**: what a list request sees while everything runs is what it would see if all API servers, watchers and requests
stood still and the cache had caught up with the API servers of the clusters `cs`: their watchers had received everything when the
query of the request was made, and nothing happened to them until it returned. For other types and clusters anything may have happened
in the meantime. With this every claim about a cache that has caught up holds for the request. -/
theorem C106_at_rest (hw : WRun isPrint eval alg pf conf past w) (ht : TypesOf conf st) {q : Query} (hq : OnlyAsks env tord ord r q)
    {i : Nat} (hcall : Event.call i (.query r.gvr q) ∈ w.store.trace) (hret : Event.ret i (.result (st.query r.gvr q)) ∈ w.store.trace)
    (cs : List Str) (S : Str → Sys) (hrec : ∀ c ∈ cs, Received (S c))
    (hwait : ∀ v ∈ past ++ [w], During i v.store → ∀ c ∈ cs, Waiting (S c) (v.comp r.gvr c)) :
    ∃ hist s st', (newStore conf).run eval hist = some s ∧ ApiObjects hist ∧ (∀ c ∈ cs, CaughtUp r.gvr c hist (S c).objs)
      ∧ Serves isPrint alg pf s st' ∧ (Cacheable st r → Cacheable st' r)
      ∧ proxy env st tord ord r = proxy env st' tord ord r := by
  obtain ⟨hist, s, h1, h2, h3, h4⟩ := world_query hw hcall hret cs S hwait hrec
  refine ⟨hist, s, ⟨s.isStoreGVR, s.get, fun g' q' => if g' = r.gvr ∧ q' = q then st.query r.gvr q else s.query isPrint alg pf g' q'⟩,
    h1, h2, h3, ⟨fun _ => rfl, fun _ _ _ _ => rfl, ?_⟩, ?_, ?_⟩
  · intro g' q'
    show s.mayAnswer isPrint alg pf g' q' (if g' = r.gvr ∧ q' = q then _ else _)
    split
    · rename_i h
      obtain ⟨rfl, rfl⟩ := h
      exact h4
    · exact (serves_self isPrint alg pf s).query g' q'
  · intro hc
    refine ⟨hc.get, ?_, hc.readable, hc.params⟩
    show s.isStoreGVR r.gvr = true
    rw [run_isStoreGVR h1, ← ht]
    exact hc.configured
  · refine hq _ _ (fun g => ?_) ?_
    · rw [ht]; exact (run_isStoreGVR h1 g).symm
    · show _ = if r.gvr = r.gvr ∧ q = q then _ else _
      rw [if_pos ⟨rfl, rfl⟩]

/-- **C106**, lists: a list request for the default cluster that asks for nothing special, made while everything runs, shows exactly the
objects that the API server of the default cluster has in the namespace and that satisfy the label selector. -/
theorem C106_list (hconf : ConfOK conf) (hw : WRun isPrint eval alg pf conf past w) (ht : TypesOf conf st)
    (hord : ord.Perm (parseQuery r.rawQuery)) (hc : Cacheable st r) (hr : r.resource = [])
    {q : Query} (hq : OnlyAsks env tord ord r q) {i : Nat} (hcall : Event.call i (.query r.gvr q) ∈ w.store.trace)
    (hret : Event.ret i (.result (st.query r.gvr q)) ∈ w.store.trace) {S : Sys} (hrec : Received S)
    (hwait : ∀ v ∈ past ++ [w], During i v.store → Waiting S (v.comp r.gvr env.defaultCluster))
    {info : SelInfo} (hi : Reads r info) (hpg : info.paginate = {})
    (hd : env.defaultCluster ≠ []) (hl : validLabelValue env.defaultCluster = true) (he : EmptyNoNaN pf) :
    ∃ (shown : List ((Str × Str) × Obj)) (items : List Obj),
      (∀ e, e ∈ shown ↔ e ∈ S.objs ∧ (r.ns = [] ∨ r.ns = e.1.1) ∧ Satisfies info.labels e.2)
      ∧ (shown.map Prod.fst).Nodup ∧ (shown.map Prod.fst).Pairwise NsNameLe
      ∧ List.Forall₂ (fun e o => SameButMarks e.2 o) shown items
      ∧ Shows tord items (proxy env st tord ord r)
      ∧ ∀ v k l rc its, proxy env st tord ord r = .list v k l rc its → rc = 0 := by
  obtain ⟨hist, s, st', h1, h2, h3, h4, h5, h6⟩ := C106_at_rest hw ht hq hcall hret [env.defaultCluster] (fun _ => S)
    (fun _ _ => hrec) (fun v hv hdu c hc' => by
      rw [List.mem_singleton] at hc'; subst hc'; exact hwait v hv hdu)
  rw [h6]
  exact C80_list_partial hconf h1 h2 h4 hord (h5 hc) hr hi hpg (h3 _ (by simp)) hd hl he

/-- **C106**, several clusters: a list request that names the clusters `cs`, made while everything runs, shows its page of the list of
the objects the API servers of these clusters have, ordered by cluster, namespace and name. -/
theorem C106_page (hconf : ConfOK conf) (hw : WRun isPrint eval alg pf conf past w) (ht : TypesOf conf st)
    (hord : ord.Perm (parseQuery r.rawQuery)) (hc : Cacheable st r) (hr : r.resource = [])
    {q : Query} (hq : OnlyAsks env tord ord r q) {i : Nat} (hcall : Event.call i (.query r.gvr q) ∈ w.store.trace)
    (hret : Event.ret i (.result (st.query r.gvr q)) ∈ w.store.trace) {cs : List Str} {S : Str → Sys} (hrec : ∀ c ∈ cs, Received (S c))
    (hwait : ∀ v ∈ past ++ [w], During i v.store → ∀ c ∈ cs, Waiting (S c) (v.comp r.gvr c))
    {info : SelInfo} (hi : Reads r info) (hset : setClusters [] cs = some info.paginate.search)
    (hsort : info.paginate.sort = []) (h1 : 1 ≤ info.paginate.page) (h2 : 1 ≤ info.paginate.pageSize)
    (h3 : info.paginate.page * info.paginate.pageSize < 9223372036854775808) (he : EmptyNoNaN pf)
    {all : List ((Str × Str × Str) × Obj)} (hlen : (all.length : Int) < 9223372036854775808)
    (hall : ∀ e, e ∈ all ↔ e.1.1 ∈ cs ∧ (e.1.2, e.2) ∈ (S e.1.1).objs ∧ (r.ns = [] ∨ r.ns = e.1.2.1) ∧ Satisfies info.labels e.2)
    (hsorted : (all.map Prod.fst).Pairwise PlaceLt) :
    if info.paginate.page ≠ 1 ∧ pageOf info.paginate.page info.paginate.pageSize all = [] then
      proxy env st tord ord r = .refused .outOfPage
    else ∃ items, List.Forall₂ (fun e o => SameButMarks e.2 o) (pageOf info.paginate.page info.paginate.pageSize all) items
      ∧ Shows tord items (proxy env st tord ord r)
      ∧ ∀ v k l rc its, proxy env st tord ord r = .list v k l rc its → makeupTotal (some rc) its.length info.paginate = all.length := by
  obtain ⟨hist, s, st', e1, e2, e3, e4, e5, e6⟩ := C106_at_rest hw ht hq hcall hret cs S hrec hwait
  rw [e6]
  exact C96_page_partial hconf e1 e2 e4 hord (e5 hc) hr hi hset hsort h1 h2 h3 (objs := fun c => (S c).objs) e3 he hlen hall hsorted

/-- **C106**, any search and order: a list request with a search for the clusters `cs` (named by it or the default cluster) and an order that distinguishes objects, made while
everything runs, shows its page of the list of the objects the API servers of these clusters have that satisfy namespace, selector and search, in this
order. The conditions at the end exclude requests that are refused: a part of the search that cannot be evaluated, unknown sort keys, values that are no
numbers. -/
theorem C106_any (hconf : ConfOK conf) (hw : WRun isPrint eval alg pf conf past w) (ht : TypesOf conf st)
    (hord : ord.Perm (parseQuery r.rawQuery)) (hc : Cacheable st r) (hr : r.resource = [])
    {q : Query} (hq : OnlyAsks env tord ord r q) {i : Nat} (hcall : Event.call i (.query r.gvr q) ∈ w.store.trace)
    (hret : Event.ret i (.result (st.query r.gvr q)) ∈ w.store.trace) {cs : List Str} {S : Str → Sys} (hrec : ∀ c ∈ cs, Received (S c))
    (hwait : ∀ v ∈ past ++ [w], During i v.store → ∀ c ∈ cs, Waiting (S c) (v.comp r.gvr c))
    {info : SelInfo} (hi : Reads r info) {search : Str} {qs : List Req} (hset : Restricted env search qs cs info.paginate.search)
    (hadv : FirstReqs search qs) (hplain : Separable (lit "cluster") search qs) {ks : List SortKey} (hks : SortMeans info.paginate.sort ks)
    (htot : TotalKeys ks) (hv : ValidPaging info.paginate) (he : EmptyNoNaN pf)
    (hnan : ∀ c ∈ cs, ∀ e ∈ (S c).objs, ∀ k ∈ ks, k.num = true →
      pf (valueUnder eval (confAt conf r.gvr) ((c, e.1.1, e.1.2), e.2) k.key) ≠ some .nan)
    (hev : ∀ c o idx, o.om.isSome = true → IsIndex eval (confAt conf r.gvr) c o idx →
      ∀ p ∈ searchParts search, ¬ advPrefix <+: p → matchParts isPrint idx [p] ≠ none)
    (hkey : ∀ k ∈ ks, k.key ∈ (confAt conf r.gvr).map Prod.fst ∨ k.key ∈ [lit "cluster", lit "is_deleted", lit "namespace", lit "name"])
    (hnum : ∀ c ∈ cs, ∀ e ∈ (S c).objs, ∀ k ∈ ks, k.num = true →
      ∃ v, indexValueOf eval (confAt conf r.gvr) c e.2 k.key = some v ∧ (number pf v).isSome = true) :
    ∃ (all : List ((Str × Str × Str) × Obj)) (items : List Obj),
      (∀ e, e ∈ all ↔ e.1.1 ∈ cs ∧ (e.1.2, e.2) ∈ (S e.1.1).objs ∧ (r.ns = [] ∨ r.ns = e.1.2.1) ∧ Satisfies info.labels e.2
        ∧ ∃ idx, IsIndex eval (confAt conf r.gvr) e.1.1 e.2 idx ∧ KeptConstraints isPrint (lit "cluster") search qs idx)
      ∧ all.Pairwise (KeysLt pf (valueUnder eval (confAt conf r.gvr)) ks)
      ∧ List.Forall₂ (fun e o => SameButMarks e.2 o) all items
      ∧ (proxy env st tord ord r = .refused .outOfPage
          ∨ Shows tord (pageOf info.paginate.page info.paginate.pageSize items) (proxy env st tord ord r))
      ∧ (1 ≤ info.paginate.page → 1 ≤ info.paginate.pageSize → info.paginate.page * info.paginate.pageSize < 9223372036854775808 →
          (all.length : Int) < 9223372036854775808 →
          (proxy env st tord ord r = .refused .outOfPage ↔
            info.paginate.page ≠ 1 ∧ (all.length : Int) ≤ (info.paginate.page - 1) * info.paginate.pageSize)
          ∧ ∀ v k l rc its, proxy env st tord ord r = .list v k l rc its →
              makeupTotal (some rc) its.length info.paginate = all.length) := by
  obtain ⟨hist, s, st', e1, e2, e3, e4, e5, e6⟩ := C106_at_rest hw ht hq hcall hret cs S hrec hwait
  rw [e6]
  obtain ⟨h1, h2⟩ := C96_any_partial hconf e1 e2 e4 hord (e5 hc) hr hi hset hadv hplain hks htot hv (objs := fun c => (S c).objs) e3 he hnan
    (env := env) (tord := tord)
  exact h2.resolve_left (h1 (fun id o idx hl _ _ hx => hev _ _ _ (Option.isSome_iff_exists.mpr (latest_api e2 hl)) hx) hkey hnum)

/-- **C106**, single objects: the answer to a request for one object, made while everything runs, is that of one moment between its call of
the store and the return: if at this moment the watcher of the cluster had received everything, it is the object the API server had at this
moment, and 404 exactly if it had none. -/
theorem C106_get (hw : WRun isPrint eval alg pf conf past w) (hord : ord.Perm (parseQuery r.rawQuery)) (hc : Cacheable st r)
    (hr : r.resource ≠ []) {c : Str} (hq : OnlyGets env tord ord r c) {i : Nat}
    (hcall : Event.call i (.get r.gvr c r.ns r.resource) ∈ w.store.trace)
    (hret : Event.ret i (.got (st.get r.gvr c r.ns r.resource)) ∈ w.store.trace) :
    Selects env r c ∧ ∃ v ∈ past ++ [w], During i v.store ∧ ∀ S, Waiting S (v.comp r.gvr c) → Received S →
      ((∃ o o', lookup (r.ns, r.resource) S.objs = some o ∧ SameButMarks o o' ∧ proxy env st tord ord r = .object o')
       ∨ (lookup (r.ns, r.resource) S.objs = none ∧ proxy env st tord ord r = .refused .notFound)) := by
  obtain ⟨info, hs, hp⟩ := proxy_cacheable (env := env) (tord := tord) hord hc
  rw [if_pos hr] at hp
  generalize hc0 : pickCluster env info.paginate (deleteBlock r (scanQuery ord).cluster).1 = c0 at hp
  have hsel : Selects env r c0 := by rw [← hc0]; exact pick_selects hord hs
  have hcc : c = c0 := by
    by_contra hne
    have hq' := hq { st with get := fun _ c' _ _ => if c' = c then none else some { om := none } }
      { st with get := fun _ _ _ _ => none } (fun _ => rfl) (by simp)
    have hp' : ∀ f, proxy env { st with get := f } tord ord r = proxySingle { st with get := f } r c0 := by
      intro f
      obtain ⟨i1, e1, p1⟩ := proxy_cacheable (env := env) (tord := tord) (st := { st with get := f }) hord
        ⟨hc.get, hc.configured, hc.readable, hc.params⟩
      rw [hs, Option.some.injEq] at e1
      subst e1
      rw [p1, if_pos hr, hc0]
    rw [hp', hp'] at hq'
    simp [proxySingle, Ne.symm hne] at hq'
  subst hcc
  refine ⟨hsel, ?_⟩
  obtain ⟨v, hv, hd, hg⟩ := world_get hw (id := ⟨r.gvr, c, r.ns, r.resource⟩) hcall hret
  refine ⟨v, hv, hd, ?_⟩
  intro S hS ⟨hpend, f, hf1, hf2⟩
  obtain ⟨past', hr'⟩ := hw.at_ hv
  have hlat := world_latest (id := ⟨r.gvr, c, r.ns, r.resource⟩) hr' hS
  have hrun : SysRun r.gvr c {} S := by
    obtain ⟨_, _, _, hci⟩ := hr'.exec
    have := (hci r.gvr c).run
    rw [hS.1] at this
    exact this
  have hcu : CaughtUp r.gvr c S.out S.objs :=
    ⟨S, f, hrun, hf1, hpend, hf2, List.filter_eq_self.mpr (sysRun_about hrun), rfl⟩
  have hmir := (CaughtUp.mirrors (eval := eval) (conf := conf) hcu).1 r.ns r.resource
  rw [hp]
  unfold proxySingle
  rw [hg]
  cases hl : lookup (r.ns, r.resource) S.objs with
  | none =>
    right
    refine ⟨rfl, ?_⟩
    have : v.store.heap.abs ⟨r.gvr, c, r.ns, r.resource⟩ = none := by
      cases ha : v.store.heap.abs ⟨r.gvr, c, r.ns, r.resource⟩ with
      | none => rfl
      | some so =>
        obtain ⟨o, ho, _⟩ := (hlat so).mp ha
        rw [hmir o, hl] at ho; simp at ho
    rw [this]; rfl
  | some o =>
    left
    have := (hlat _).mpr ⟨o, (hmir o).mpr hl, rfl⟩
    refine ⟨o, _, rfl, ?_, by rw [this]; rfl⟩
    exact build_same eval (confAt conf r.gvr) c o

/-! The hypotheses are met: the watchers of `c1` and `c2` write to the store at the same time. While the query of the request
`exPlain` runs, the watcher of `c2` is in a store call, and the API server of `c2` changes its pod. -/

def exWorldSched (op : COp) : List WAct :=
  [.put exPods (lit "c1") (exPod "web" "n1"), .opened exPods (lit "c1"), .put exPods (lit "c1") (exPod "db" "n2"),
   .deliver exPods (lit "c1"), .invoke exPods (lit "c1"), .go 0 99, .returned exPods (lit "c1"),
   .put exPods (lit "c2") (exPod "web" "n9"), .opened exPods (lit "c2"), .deliver exPods (lit "c2"),
   .invoke exPods (lit "c1"), .invoke exPods (lit "c2"), .go 1 2, .go 2 99, .go 1 99, .returned exPods (lit "c1"), .returned exPods (lit "c2"),
   .deliver exPods (lit "c1"), .invoke exPods (lit "c1"), .go 3 99, .returned exPods (lit "c1"),
   .invoke exPods (lit "c2"), .go 4 3,
   .client op, .go 5 4, .go 4 99, .returned exPods (lit "c2"), .put exPods (lit "c2") (exPod "web" "n8"), .go 5 99]

def exWholeRun (op : COp) : WHist := wsched (fun _ => true) exEval insertionSort exFloat exConf (exWorldSched op) (wstart exConf)

def exWorldQuery : Query := ⟨lit "prod", { search := defaultSearch exEnv [] }⟩

/-- The answer of call `i`. -/
def answerOf (i : Nat) (x : WHist) : Option Ans :=
  x.2.store.trace.findSome? fun e => match e with | .ret j a => if i = j then some a else none | _ => none

/-- A store that gives these answers. -/
def answersI (conf : List (GVR × List (Str × Str))) (a : Option Ans) : StoreI :=
  ⟨fun g => (lookup g conf).isSome, fun _ _ _ _ => match a with | some (.got v) => v | _ => none,
   fun _ _ => match a with | some (.result v) => v | _ => none⟩

def exWorldI : StoreI := answersI exConf (answerOf 5 (exWholeRun (.query exPods exWorldQuery)))

/-- The API server of `c1` with its watcher at the end. -/
def exWorldC1 (op : COp) : Sys := ((exWholeRun op).2.comp exPods (lit "c1")).sys

example : WRun (fun _ => true) exEval insertionSort exFloat exConf (exWholeRun (.query exPods exWorldQuery)).1
      (exWholeRun (.query exPods exWorldQuery)).2 := wsched_run _ _ .start

set_option maxRecDepth 100000 in
example : let w := exWholeRun (.query exPods exWorldQuery)
    TypesOf exConf exWorldI
    ∧ Event.call 5 (.query exPlain.gvr exWorldQuery) ∈ w.2.store.trace
    ∧ Event.ret 5 (.result (exWorldI.query exPlain.gvr exWorldQuery)) ∈ w.2.store.trace
    ∧ (∀ v ∈ w.1 ++ [w.2], During 5 v.store → Waiting (exWorldC1 (.query exPods exWorldQuery)) (v.comp exPlain.gvr exEnv.defaultCluster))
    ∧ (exWorldC1 (.query exPods exWorldQuery)).objs.map (fun e => (e.1.2, e.2.body)) = [(lit "web", lit "n1"), (lit "db", lit "n2")]
    ∧ (match proxy exEnv exWorldI (fun _ m => m) (parseQuery exPlain.rawQuery) exPlain with
        | .list _ _ _ rc items => some (rc, items.map fun o => (o.om.map ObjMeta.name, o.body)) | _ => none)
      = some (0, [(some (lit "db"), lit "n2"), (some (lit "web"), lit "n1")]) := by
  refine ⟨fun _ => rfl, by decide +kernel, by decide +kernel, waits_of (by decide +kernel), by decide +kernel, by decide +kernel⟩

/-- The query is the one the request makes, and the watcher has received everything. -/
example : OnlyAsks exEnv (fun _ m => m) (parseQuery exPlain.rawQuery) exPlain exWorldQuery
    ∧ Received (exWorldC1 (.query exPods exWorldQuery)) := by
  constructor
  · intro st st' ht h
    have key : (match parseClean exEnv (parseQuery exPlain.rawQuery) exPlain with
        | .inl p => some (p.paginate, p.labels.map fun l => l.matchExprs.length) | .inr _ => none) = some ({}, some 1) := by decide +kernel
    have hd : exWorldQuery = ⟨exPlain.ns, { sort := [], search := defaultSearch exEnv [] }⟩ := rfl
    unfold proxy
    cases hp : parseClean exEnv (parseQuery exPlain.rawQuery) exPlain with
    | inr x => rfl
    | inl p =>
      rw [hp] at key
      simp only [Option.some.injEq, Prod.mk.injEq, Option.map_eq_some_iff] at key
      obtain ⟨h1, ls, h2, h3⟩ := key
      have : proxyList exEnv st (fun _ m => m) exPlain p = proxyList exEnv st' (fun _ m => m) exPlain p := by
        unfold proxyList listItems
        simp only [h1, h2, h3]
        simp only [ne_eq, one_ne_zero, not_false_eq_true, or_true, if_true, listLabels]
        rw [← hd, h]
      simp only
      rw [this, ht]
      have hr : exPlain.resource = [] := rfl
      simp [hr]
  · exact ⟨by decide +kernel, false, by decide +kernel, Or.inl rfl⟩

/-- A single object: the get returns the pod of `c1`, whose watcher waits all the time. -/
example : let op := COp.get exPods (lit "c1") (lit "prod") (lit "db")
    let w := exWholeRun op
    Event.call 5 op ∈ w.2.store.trace
    ∧ (answerOf 5 w).map (fun a => match a with | .got v => v.map Obj.body | _ => none) = some (some (lit "n2"))
    ∧ (∀ v ∈ w.1 ++ [w.2], During 5 v.store → Waiting (exWorldC1 op) (v.comp exPods (lit "c1"))) := by
  refine ⟨by decide +kernel, by decide +kernel, waits_of (by decide +kernel)⟩

def exLagSched : List WAct :=
  [.put exPods (lit "c1") (exPod "web" "n1"), .opened exPods (lit "c1"), .deliver exPods (lit "c1"),
   .invoke exPods (lit "c1"), .go 0 99, .returned exPods (lit "c1"), .invoke exPods (lit "c1"), .go 1 99, .returned exPods (lit "c1"),
   .remove exPods (lit "c1") (exPod "web" "n1"), .client (.get exPods (lit "c1") (lit "prod") (lit "web")), .go 2 99]

/-- The condition that everything sent has been received is needed: while the deletion of a pod is on the way, a request gets the pod,
although the API server has none during the whole request. -/
theorem C106_lag : ∃ past w, WRun (fun _ => true) exEval insertionSort exFloat exConf past w
    ∧ Event.call 2 (.get exPods (lit "c1") (lit "prod") (lit "web")) ∈ w.store.trace
    ∧ (∃ o, Event.ret 2 (.got (some o)) ∈ w.store.trace)
    ∧ ∀ v ∈ past ++ [w], During 2 v.store → (v.comp exPods (lit "c1")).sys.objs = []
      ∧ (v.comp exPods (lit "c1")).todo = [] ∧ (v.comp exPods (lit "c1")).calling = none := by
  let x := wsched (fun _ => true) exEval insertionSort exFloat exConf exLagSched (wstart exConf)
  refine ⟨x.1, x.2, wsched_run _ _ .start, by decide +kernel, ?_, ?_⟩
  · have : (match answerOf 2 x with | some (.got (some _)) => true | _ => false) = true := by decide +kernel
    have h2 : ∃ o, answerOf 2 x = some (.got (some o)) := by
      revert this
      generalize answerOf 2 x = a
      intro h
      match a, h with
      | some (.got (some o)), _ => exact ⟨o, rfl⟩
    obtain ⟨o, ho⟩ := h2
    refine ⟨o, ?_⟩
    unfold answerOf at ho
    obtain ⟨e, he, h⟩ := List.exists_of_findSome?_eq_some ho
    cases e with
    | call => simp at h
    | ret j a =>
      simp only [Option.ite_none_right_eq_some, Option.some.injEq] at h
      obtain ⟨rfl, rfl⟩ := h
      exact he
  · have hw := waits_of (i := 2) (g := exPods) (c := lit "c1") (S := (x.2.comp exPods (lit "c1")).sys) (x := x) (by decide +kernel)
    have ho : (x.2.comp exPods (lit "c1")).sys.objs = [] := by decide +kernel
    intro v hv hd
    obtain ⟨h1, h2, h3⟩ := hw v hv hd
    exact ⟨by rw [h1]; exact ho, h2, h3⟩

end Ckube

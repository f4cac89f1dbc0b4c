import Verif.Lemmas.FileIndexes
import Verif.Props.Generations
import Verif.Props.SortSettled

/-! # C132: the indexes of the configuration file are those of the queries -/

namespace Ckube
open Spec

/-- What a request sees of the process: the configuration in force and the clusters with a client. -/
def Spec.envOf (w : Ckube.World) : Env := ⟨w.conf.defaultCluster, w.clients, w.conf.proxies⟩

variable {kubeArg : Bool} {isPrint : Nat → Bool} {eval : Str → Obj → Str} {alg : SliceSort} {past : List Whole} {W : Whole} {x : Gen}
  {w' : Spec.World} {cs : List (GVR × Str)} {st : StoreI} {tord : Nat → List (Str × Str) → List (Str × Str)} {ord : Values} {r : HReq}

/-- **C132**: the process was started, the configuration was loaded any number of times while API servers, watchers and requests went on, and no reload is
under way; the types in force are those of a file with the bytes `bs`. From now on the API servers do not change, and the watchers of the generation that
is served catch up. Then every list request for a type of the file, with a search text that says the conditions `conds` and a sort text that says the keys
`ks`, shows its page of the list of exactly those objects of the API servers for which label selector and conditions hold, in the order of the keys, where
the index values are those of the expressions that the last entry of the file for this type gives. Missing for the full claim: what is missing in
`C127_settled_partial`, and expressions of other entries for the same type (`C132_false_twice`). -/
theorem C132_listed_partial (h : WholeRun kubeArg isPrint eval alg parseFloat64 past W) (hid : Idle W.proc)
    -- the file
    {bs : Str} {cfg : Config} (htext : configText bs = some cfg) (hforce : W.proc.w.conf.proxies = cfg.proxies)
    {pre post : List ProxyConf} {p : ProxyConf} (hps : cfg.proxies = pre ++ p :: post) (hgvr : gvrOf p = r.gvr) (hlast : ∀ q ∈ post, gvrOf q ≠ r.gvr)
    -- the watchers catch up, and the request is served
    (hx : W.gens[W.proc.w.served]? = some x) (htypes : ∀ q ∈ cs, q.1 ∈ W.proc.w.conf.types)
    {n : Nat} (hdr : Drains isPrint eval alg parseFloat64 x.conf cs n x.world w') (hst : Drained isPrint eval alg parseFloat64 x.conf cs w')
    {l : List Spec.World} {v : Spec.World} (hsv : Serving isPrint eval alg parseFloat64 x.conf w' l v) (ht : TypesOf x.conf st)
    (hord : ord.Perm (parseQuery r.rawQuery)) (hc : Cacheable st r) (hr : r.resource = []) {q : Query} (hq : OnlyAsks (envOf W.proc.w) tord ord r q) {i : Nat}
    (hnew : ∀ op, Event.call i op ∉ w'.store.trace) (hcall : Event.call i (.query r.gvr q) ∈ v.store.trace)
    (hret : Event.ret i (.result (st.query r.gvr q)) ∈ v.store.trace)
    {css : List Str} (hm : ∀ c ∈ css, (r.gvr, c) ∈ cs) (ho : ∀ c ∈ css, Recovers (x.world.comp r.gvr c).sys)
    -- the request
    {info : SelInfo} (hi : Reads r info) {search : Str} (hset : Restricted (envOf W.proc.w) search [] css info.paginate.search)
    {conds : List Cond} (hsays : SearchSays conds search) (hone : OneSelector conds search) (hfirst : ∀ r, search ≠ 59 :: r)
    {ks : List SortKey} (hks : SortSays ks info.paginate.sort) (htot : TotalKeys ks) (hv : ValidPaging info.paginate)
    (hnames : ∀ c o idx, o.om.isSome = true → IsIndex eval p.index c o idx → ∀ y ∈ conds, CondKnown idx y)
    (hkeys : ∀ k ∈ ks, k.key ∈ p.index.map Prod.fst ∨ k.key ∈ [lit "cluster", lit "is_deleted", lit "namespace", lit "name"])
    (hobj : ∀ c ∈ css, ∀ e ∈ W.api r.gvr c, ∀ idx, IsIndex eval p.index c e.2 idx → (∀ y ∈ idx, Printable isPrint y.2) ∧ ∀ k ∈ ks, HasKey idx k) :
    ∃ (all : List ((Str × Str × Str) × Obj)) (items : List Obj), all.Nodup
      ∧ (∀ e, e ∈ all ↔ e.1.1 ∈ css ∧ (e.1.2, e.2) ∈ W.api r.gvr e.1.1 ∧ (r.ns = [] ∨ r.ns = e.1.2.1)
        ∧ Satisfies info.labels e.2 ∧ Fulfils eval p.index e.1.1 conds e.2)
      ∧ all.Pairwise (fun a b => ∀ ia ib, IsIndex eval p.index a.1.1 a.2 ia → IsIndex eval p.index b.1.1 b.2 ib → MayPrecede ks ia ib)
      ∧ List.Forall₂ (fun e o => SameButMarks e.2 o) all items
      ∧ (proxy (envOf W.proc.w) st tord ord r = .refused .outOfPage
          ∨ Shows tord (pageOf info.paginate.page info.paginate.pageSize items) (proxy (envOf W.proc.w) st tord ord r))
      ∧ (1 ≤ info.paginate.page → 1 ≤ info.paginate.pageSize → info.paginate.page * info.paginate.pageSize < 9223372036854775808 →
          (all.length : Int) < 9223372036854775808 →
          (proxy (envOf W.proc.w) st tord ord r = .refused .outOfPage ↔
            info.paginate.page ≠ 1 ∧ (all.length : Int) ≤ (info.paginate.page - 1) * info.paginate.pageSize)
          ∧ ∀ v k l rc its, proxy (envOf W.proc.w) st tord ord r = .list v k l rc its →
              makeupTotal (some rc) its.length info.paginate = all.length) := by
  obtain ⟨_, hs⟩ := C109_served h
  obtain ⟨x', hx', hc', ht', ⟨own, h1⟩, hob, _⟩ := hs hid
  obtain rfl : x' = x := Option.some.inj (hx'.symm.trans hx)
  have hok : ConfOK x'.conf := by
    rw [hc']
    unfold Config.indexConf
    refine indexConf_ok _ _ ?_ ⟨List.nodup_nil, by simp⟩
    rw [hforce]
    exact configText_maps htext
  have hat : confAt x'.conf r.gvr = p.index := by
    rw [hc', ← hgvr]
    exact (confAt_last (hforce.trans hps) (by rw [hgvr]; exact hlast)).2
  have hapi : ∀ g c, (x'.world.comp g c).sys.objs = W.api g c := fun g c => (hob g c).1
  have main := C127_settled_partial (env := envOf W.proc.w) (tord := tord) (conds := conds) (ks := ks) hok h1 (fun q hq => (ht' q.1).mpr (htypes q hq)) hdr hst hsv ht hord hc hr hq
    hnew hcall hret hm (fun c _ => (hob r.gvr c).2) ho hi hset hsays hone hfirst hks htot hv
  rw [hat] at main
  simp only [hapi] at main
  exact main hnames hkeys hobj


/-! ## An example: a reload with a file that defines an index -/

def exFileText : Str :=
  lit "{\"proxies\": [{\"version\": \"v1\", \"resource\": \"pods\", \"list_kind\": \"PodList\", \"index\": {\"node\": \"{.spec.nodeName}\"}}, {\"version\": \"v1\", \"resource\": \"nodes\", \"list_kind\": \"NodeList\"}], \"token\": \"t\"}"

deriving instance DecidableEq for ProxyConf
deriving instance DecidableEq for Config

def exFileCfg : Config :=
  { proxies := [{ version := lit "v1", resource := lit "pods", listKind := lit "PodList", index := [(lit "node", lit "{.spec.nodeName}")] },
      { version := lit "v1", resource := lit "nodes", listKind := lit "NodeList" }], token := lit "t" }

def exFileFiles (cfg : Config) : Files := { config := some cfg, kube := some ⟨lit "c1", [lit "c1", lit "c2"]⟩ }

/-- The process starts with another configuration, loads this one, and the watchers of the new generation receive the pods of two clusters. -/
def exFileActs (cfg : Config) : List GAct :=
  [.reload (exFileFiles cfg), .reload (exFileFiles cfg), .reload (exFileFiles cfg), .reload (exFileFiles cfg), .reload (exFileFiles cfg),
   .put exPods (lit "c1") (exPod "x" "9"), .put exPods (lit "c2") (exPod "x" "30"), .on 1 (.opened exPods (lit "c1")), .on 1 (.opened exPods (lit "c2")),
   .put exPods (lit "c1") (exPod "y" "10"),
   .on 1 (.deliver exPods (lit "c1")), .on 1 (.invoke exPods (lit "c1")), .go 1 0 99, .on 1 (.returned exPods (lit "c1")), .on 1 (.invoke exPods (lit "c1")), .go 1 1 99,
   .on 1 (.returned exPods (lit "c1")), .on 1 (.deliver exPods (lit "c1")), .on 1 (.invoke exPods (lit "c1")), .go 1 2 99, .on 1 (.returned exPods (lit "c1")),
   .on 1 (.deliver exPods (lit "c2")), .on 1 (.invoke exPods (lit "c2")), .go 1 3 99, .on 1 (.returned exPods (lit "c2")), .on 1 (.invoke exPods (lit "c2")), .go 1 4 99,
   .on 1 (.returned exPods (lit "c2"))]

def exFileRun (cfg : Config) : GHist := gsched false (fun _ => true) exEval insertionSort parseFloat64 (exFileActs cfg) ([], bootWhole exWorld)

def exFileGen (cfg : Config) : Gen := ((exFileRun cfg).2.gens[1]?).getD ⟨[], newWorld [] fun _ _ => []⟩

/-- A list request arrives and is served. -/
def exFileServed (cfg : Config) : WHist :=
  goW (fun _ => true) insertionSort parseFloat64 5 99
    ([(exFileGen cfg).world], { (exFileGen cfg).world with store := (exFileGen cfg).world.store.call exEval (exFileGen cfg).conf (.query exPods exDuoQuery) })

def exFileAns (cfg : Config) : StoreI := answersI (exFileGen cfg).conf (answerOf 5 (exFileServed cfg))

def exTwiceText : Str :=
  lit "{\"proxies\": [{\"version\": \"v1\", \"resource\": \"pods\", \"index\": {\"node\": \"{.spec.nodeName}\"}}, {\"version\": \"v1\", \"resource\": \"pods\", \"index\": {\"zone\": \"{.spec.zone}\"}}]}"

def exTwiceCfg : Config :=
  { proxies := [{ version := lit "v1", resource := lit "pods", index := [(lit "node", lit "{.spec.nodeName}")] },
      { version := lit "v1", resource := lit "pods", index := [(lit "zone", lit "{.spec.zone}")] }] }

theorem exFile_text : configText exFileText = some exFileCfg := by decide +kernel

theorem exTwice_text : configText exTwiceText = some exTwiceCfg := by decide +kernel


theorem exBoot_any {pf : Str → Option GoFloat} : WholeRun false (fun _ => true) exEval insertionSort pf [] (bootWhole exWorld) := by
  have : ∃ w, bootWorld false exFiles = some w := ⟨_, rfl⟩
  obtain ⟨w, hw⟩ := this
  have e : exWorld = w := by unfold exWorld; rw [hw, Option.getD_some]
  rw [e]
  exact .start hw

theorem exFile_run (cfg : Config) : WholeRun false (fun _ => true) exEval insertionSort parseFloat64 (exFileRun cfg).1 (exFileRun cfg).2 := gsched_run _ _ exBoot_any

theorem exFile_gen {cfg : Config} (h : ((exFileRun cfg).2.gens[1]?).isSome = true) : (exFileRun cfg).2.gens[1]? = some (exFileGen cfg) := by
  obtain ⟨x, hx⟩ := Option.isSome_iff_exists.mp h
  unfold exFileGen
  rw [hx, Option.getD_some]

theorem idle_of {p : Proc} (h : (match p.pc with | .idle => true | _ => false) = true) : Idle p := by
  unfold Idle
  cases hp : p.pc <;> rw [hp] at h <;> first | rfl | cases h

theorem exFile_serving {cfg : Config} (hg : (lookup exPods (exFileGen cfg).conf).isSome = true) :
    Serving (fun _ => true) exEval insertionSort parseFloat64 (exFileGen cfg).conf (exFileGen cfg).world (exFileServed cfg).1 (exFileServed cfg).2 := by
  unfold exFileServed
  exact goW_serving (x := ([(exFileGen cfg).world], _)) (.client .start hg (by simp))

theorem exFile_now {cfg : Config} (hs : (exFileRun cfg).2.proc.w.served = 1) (h : ((exFileRun cfg).2.gens[1]?).isSome = true) :
    (exFileRun cfg).2.gens[(exFileRun cfg).2.proc.w.served]? = some (exFileGen cfg) := by
  rw [hs]
  exact exFile_gen h

theorem exTwice_now : (exFileRun exTwiceCfg).2.gens[(exFileRun exTwiceCfg).2.proc.w.served]? = some (exFileGen exTwiceCfg) :=
  exFile_now (by decide +kernel) (by decide +kernel)

theorem refused_query {a : Answer} (h : (match a with | .refused .query => true | _ => false) = true) : a = .refused .query := by
  cases a with
  | refused b => cases b <;> first | rfl | cases h
  | _ => cases h

theorem exTwice_refused : proxy (envOf (exFileRun exTwiceCfg).2.proc.w) (exFileAns exTwiceCfg) (fun _ m => m) (parseQuery exDuoReq.rawQuery) exDuoReq = .refused .query :=
  refused_query (by decide +kernel)

set_option maxRecDepth 100000 in
/-- **C132 is false** for a type that the file names twice: the first entry defines the index `node`, the second one `zone`. Everything has been received and nothing
is under way, and a request that sorts the pods by `node` is refused. -/
theorem C132_false_twice : ∃ past W x cfg v, WholeRun false (fun _ => true) exEval insertionSort parseFloat64 past W ∧ Idle W.proc
    ∧ configText exTwiceText = some cfg ∧ W.proc.w.conf.proxies = cfg.proxies ∧ (∃ p ∈ cfg.proxies, gvrOf p = exPods ∧ lit "node" ∈ p.index.map Prod.fst)
    ∧ W.gens[W.proc.w.served]? = some x ∧ Drained (fun _ => true) exEval insertionSort parseFloat64 x.conf [(exPods, lit "c1"), (exPods, lit "c2")] x.world
    ∧ (∃ l, Serving (fun _ => true) exEval insertionSort parseFloat64 x.conf x.world l v)
    ∧ Event.ret 5 (.result ((exFileAns exTwiceCfg).query exPods exDuoQuery)) ∈ v.store.trace
    ∧ proxy (envOf W.proc.w) (exFileAns exTwiceCfg) (fun _ m => m) (parseQuery exDuoReq.rawQuery) exDuoReq = .refused .query := by
  have hg : (lookup exPods (exFileGen exTwiceCfg).conf).isSome = true := by decide +kernel
  exact ⟨(exFileRun exTwiceCfg).1, (exFileRun exTwiceCfg).2, exFileGen exTwiceCfg, exTwiceCfg, (exFileServed exTwiceCfg).2, exFile_run _,
    idle_of (by decide +kernel), exTwice_text, by decide +kernel, by decide +kernel, exTwice_now, drained_of (by decide +kernel) (by decide +kernel), ⟨_, exFile_serving hg⟩, by decide +kernel,
    exTwice_refused⟩

theorem exFile_asks : OnlyAsks (envOf (exFileRun exFileCfg).2.proc.w) (fun _ m => m) (parseQuery exDuoReq.rawQuery) exDuoReq exDuoQuery :=
  exDuo_asks_of (by decide +kernel) (by decide +kernel)

theorem exFile_now' : (exFileRun exFileCfg).2.gens[(exFileRun exFileCfg).2.proc.w.served]? = some (exFileGen exFileCfg) :=
  exFile_now (by decide +kernel) (by decide +kernel)

theorem exFile_api : ∀ c ∈ [lit "c1", lit "c2"], (exFileRun exFileCfg).2.api exDuoReq.gvr c = exDuoObjs c := by decide +kernel

theorem exFile_objs : ∀ c ∈ [lit "c1", lit "c2"], ((exFileGen exFileCfg).world.comp exDuoReq.gvr c).sys.objs = exDuoObjs c := by decide +kernel

theorem exFile_new (op : COp) : Event.call 5 op ∉ (exFileGen exFileCfg).world.store.trace := by
  have : ∀ e ∈ (exFileGen exFileCfg).world.store.trace, (match e with | .call j _ => decide (j ≠ 5) | _ => true) = true := by decide +kernel
  intro hop
  simpa using this _ hop

set_option maxRecDepth 100000 in
/-- The same for any run that has come to this state. -/
theorem exFile_listed {past : List Whole} {W : Whole} {x : Gen} {st : StoreI} {cfg : Config} {p p' : ProxyConf} {l : List Spec.World} {v : Spec.World}
    (h : WholeRun false (fun _ => true) exEval insertionSort parseFloat64 past W) (hid : Idle W.proc) {bs : Str} (hcfg : configText bs = some cfg)
    (hpr : W.proc.w.conf.proxies = cfg.proxies) (hps : cfg.proxies = [] ++ p :: [p']) (hp : gvrOf p = exPods) (hp' : gvrOf p' ≠ exPods)
    (hidx : p.index = confAt exConf exPods) (hx : W.gens[W.proc.w.served]? = some x)
    (htypes : ∀ q ∈ [(exPods, lit "c1"), (exPods, lit "c2")], q.1 ∈ W.proc.w.conf.types)
    (hst : Drained (fun _ => true) exEval insertionSort parseFloat64 x.conf [(exPods, lit "c1"), (exPods, lit "c2")] x.world)
    (hsv : Serving (fun _ => true) exEval insertionSort parseFloat64 x.conf x.world l v) (ht : TypesOf x.conf st) (hc : Cacheable st exDuoReq)
    (hq : OnlyAsks (envOf W.proc.w) (fun _ m => m) (parseQuery exDuoReq.rawQuery) exDuoReq exDuoQuery) (hnew : ∀ op, Event.call 5 op ∉ x.world.store.trace)
    (hcall : Event.call 5 (.query exDuoReq.gvr exDuoQuery) ∈ v.store.trace) (hret : Event.ret 5 (.result (st.query exDuoReq.gvr exDuoQuery)) ∈ v.store.trace)
    (hobjs : ∀ c ∈ [lit "c1", lit "c2"], (x.world.comp exDuoReq.gvr c).sys.objs = exDuoObjs c)
    (hapi : ∀ c ∈ [lit "c1", lit "c2"], W.api exDuoReq.gvr c = exDuoObjs c) :
    ∃ (all : List ((Str × Str × Str) × Obj)) (items : List Obj), all.Nodup
      ∧ (∀ e, e ∈ all ↔ e.1.1 ∈ [lit "c1", lit "c2"] ∧ (e.1.2, e.2) ∈ exDuoObjs e.1.1 ∧ Fulfils exEval p.index e.1.1 exDuoConds e.2)
      ∧ List.Forall₂ (fun e o => SameButMarks e.2 o) all items
      ∧ (proxy (envOf W.proc.w) st (fun _ m => m) (parseQuery exDuoReq.rawQuery) exDuoReq = .refused .outOfPage
        ∨ Shows (fun _ m => m) (pageOf 1 2 items) (proxy (envOf W.proc.w) st (fun _ m => m) (parseQuery exDuoReq.rawQuery) exDuoReq)) := by
  obtain ⟨i, hi, hpg, hlab⟩ := exDuo_reads
  obtain ⟨all, items, h1, h2, -, h3, h4, -⟩ := C132_listed_partial (css := [lit "c1", lit "c2"]) (cs := [(exPods, lit "c1"), (exPods, lit "c2")])
    (r := exDuoReq) (i := 5) (info := i) (search := exDuoSearch) (conds := exDuoConds) (ks := exDuoKeys) (st := st) (q := exDuoQuery)
    h hid hcfg hpr hps hp (by intro y hy; rw [List.mem_singleton] at hy; subst hy; exact hp') hx htypes .refl
    hst hsv ht (List.Perm.refl _) hc rfl hq hnew hcall hret (by decide +kernel)
    (by
      intro c hc
      left
      rw [hobjs c hc]
      simp only [List.mem_cons, List.not_mem_nil, or_false] at hc
      rcases hc with rfl | rfl <;> decide +kernel)
    hi (Or.inl (by rw [hpg]; decide +kernel)) exDuoSearch_says exDuo_one (by intro r; simp [exDuoSearch, lit]) (by rw [hpg]; exact exDuoKeys_says)
    (by unfold TotalKeys; decide) (by rw [hpg]; exact Or.inr (by decide))
    (by
      intro c o idx ho hidx x hx
      simp only [exDuoConds, List.mem_cons, List.not_mem_nil, or_false] at hx
      rcases hx with rfl | rfl
      swap
      · trivial
      obtain ⟨om, hom⟩ := Option.isSome_iff_exists.mp ho
      refine ⟨om.name, ?_⟩
      rw [hidx.2, indexValueOf, hom]
      simp only
      rw [if_neg (by decide), if_neg (by decide), if_neg (by decide), if_pos trivial])
    (by rw [hidx]; decide +kernel)
    (by
      intro c hc e he idx hix
      rw [hapi c hc] at he
      rw [hidx] at hix
      obtain ⟨hc', ho⟩ := exDuo_fed c hc
      obtain ⟨k1, -, k3⟩ := exDuo_index hc' (ho e he) hix
      exact ⟨k1, k3⟩)
  refine ⟨all, items, h1, fun e => ?_, h3, ?_⟩
  · rw [h2]
    constructor
    · rintro ⟨a, b, -, -, c⟩
      exact ⟨a, by rw [← hapi _ a]; exact b, c⟩
    · rintro ⟨a, b, c⟩
      exact ⟨a, by rw [hapi _ a]; exact b, Or.inl rfl, hlab _, c⟩
  · rw [hpg] at h4
    exact h4

theorem exFile_drained : Drained (fun _ => true) exEval insertionSort parseFloat64 (exFileGen exFileCfg).conf [(exPods, lit "c1"), (exPods, lit "c2")]
    (exFileGen exFileCfg).world := drained_of (by decide +kernel) (by decide +kernel)

theorem exFile_idle : Idle (exFileRun exFileCfg).2.proc := idle_of (by decide +kernel)

theorem exFile_types : ∀ q ∈ [(exPods, lit "c1"), (exPods, lit "c2")], q.1 ∈ (exFileRun exFileCfg).2.proc.w.conf.types := by decide +kernel

theorem exFile_cached : (exFileAns exFileCfg).isStoreGVR exPods = true := by decide +kernel

theorem exFile_call : Event.call 5 (.query exDuoReq.gvr exDuoQuery) ∈ (exFileServed exFileCfg).2.store.trace := by decide +kernel

theorem exFile_ret : Event.ret 5 (.result ((exFileAns exFileCfg).query exDuoReq.gvr exDuoQuery)) ∈ (exFileServed exFileCfg).2.store.trace := by decide +kernel

theorem exFile_has : (lookup exPods (exFileGen exFileCfg).conf).isSome = true := by decide +kernel

theorem exFile_ans (cfg : Config) : TypesOf (exFileGen cfg).conf (exFileAns cfg) := fun _ => rfl

theorem exFile_force : (exFileRun exFileCfg).2.proc.w.conf.proxies = exFileCfg.proxies := by decide +kernel

theorem exFile_answer : (match proxy (envOf (exFileRun exFileCfg).2.proc.w) (exFileAns exFileCfg) (fun _ m => m) (parseQuery exDuoReq.rawQuery) exDuoReq with
        | .list _ _ _ rc items => some (rc, items.map fun o => (o.om.map ObjMeta.name, o.body)) | _ => none)
      = some (1, [(some (lit "x"), lit "30"), (some (lit "y"), lit "10")]) := by decide +kernel

/-- The hypotheses of `C132_listed_partial` are met (`exFile_listed`): the file defines the index `node`, the second generation is served, and the request shows two of the three
pods, those with the largest numbers first. -/
example : ∃ cfg, configText exFileText = some cfg ∧ ∃ p ∈ cfg.proxies, gvrOf p = exPods
    ∧ (∃ (all : List ((Str × Str × Str) × Obj)) (items : List Obj), all.Nodup
      ∧ (∀ e, e ∈ all ↔ e.1.1 ∈ [lit "c1", lit "c2"] ∧ (e.1.2, e.2) ∈ exDuoObjs e.1.1 ∧ Fulfils exEval p.index e.1.1 exDuoConds e.2)
      ∧ List.Forall₂ (fun e o => SameButMarks e.2 o) all items
      ∧ (proxy (envOf (exFileRun exFileCfg).2.proc.w) (exFileAns exFileCfg) (fun _ m => m) (parseQuery exDuoReq.rawQuery) exDuoReq = .refused .outOfPage
        ∨ Shows (fun _ m => m) (pageOf 1 2 items)
            (proxy (envOf (exFileRun exFileCfg).2.proc.w) (exFileAns exFileCfg) (fun _ m => m) (parseQuery exDuoReq.rawQuery) exDuoReq)))
    ∧ (match proxy (envOf (exFileRun exFileCfg).2.proc.w) (exFileAns exFileCfg) (fun _ m => m) (parseQuery exDuoReq.rawQuery) exDuoReq with
        | .list _ _ _ rc items => some (rc, items.map fun o => (o.om.map ObjMeta.name, o.body)) | _ => none)
      = some (1, [(some (lit "x"), lit "30"), (some (lit "y"), lit "10")]) := by
  exact ⟨_, exFile_text, _, List.mem_cons_self, by decide +kernel, exFile_listed (exFile_run exFileCfg) exFile_idle exFile_text exFile_force rfl (by decide +kernel)
    (by decide +kernel) (by decide +kernel) exFile_now' exFile_types exFile_drained (exFile_serving exFile_has) (exFile_ans _) (exDuo_cache exFile_cached) exFile_asks
    exFile_new exFile_call exFile_ret exFile_objs exFile_api, exFile_answer⟩

end Ckube

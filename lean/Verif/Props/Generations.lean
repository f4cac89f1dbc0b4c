import Verif.Lemmas.GenSched
import Verif.Props.Drain

/-! # C109: reloading the configuration while everything runs -/

namespace Ckube
open Spec

variable {env : Env} {st : StoreI} {tord : Nat → List (Str × Str) → List (Str × Str)} {ord : Values} {r : HReq}
variable {kubeArg : Bool} {isPrint : Nat → Bool} {eval : Str → Obj → Str} {alg : SliceSort} {pf : Str → Option GoFloat}
  {past : List Whole} {W : Whole} {i : Nat} {x : Gen}

theorem Spec.WholeRun.at_ (h : WholeRun kubeArg isPrint eval alg pf past W) : ∀ V ∈ past ++ [W],
    ∃ past', WholeRun kubeArg isPrint eval alg pf past' V := by
  induction h with
  | start hb => intro V hV; simp only [List.nil_append, List.mem_singleton] at hV; subst hV; exact ⟨_, .start hb⟩
  | @step past W W' h hs ih =>
    intro V hV
    rcases List.mem_append.mp hV with hV | hV
    · exact ih V hV
    · rw [List.mem_singleton] at hV; subst hV; exact ⟨_, .step h hs⟩

/-- The moments of a call of generation `i` are moments of the whole. -/
theorem gen_during (h : WholeRun kubeArg isPrint eval alg pf past W) (hx : W.gens[i]? = some x) :
    ∃ own, WRun isPrint eval alg pf x.conf own x.world ∧ ∀ u ∈ own ++ [x.world], ∀ j, During j u.store →
      ∃ V ∈ past ++ [W], V.gens[i]? = some ⟨x.conf, u⟩ := by
  obtain ⟨_, own, h1, h2⟩ := (wholeInv h).gens i x hx
  refine ⟨own, h1, ?_⟩
  intro u hu j ⟨⟨op, hd⟩, _⟩
  rw [List.mem_append, List.mem_singleton] at hu
  rcases hu with hu | rfl
  · rcases h2 u hu with h0 | ⟨V, hV, hg⟩
    · rw [h0] at hd; simp at hd
    · exact ⟨V, List.mem_append_left _ hV, hg⟩
  · exact ⟨W, by simp, hx⟩

/-- **C109**, single objects: while API servers, watchers, requests and reloads go on at the same time, the answer to a request for one object that
reads the store of generation `i` is that of one moment between its call of the store and the return: if at this moment the watcher of this generation
had received everything, it is the object the API server had at this moment, and 404 exactly if it had none. -/
theorem C109_get (h : WholeRun kubeArg isPrint eval alg pf past W) (hx : W.gens[i]? = some x) (hord : ord.Perm (parseQuery r.rawQuery))
    (hc : Cacheable st r) (hr : r.resource ≠ []) {c : Str} (hq : OnlyGets env tord ord r c) {j : Nat}
    (hcall : Event.call j (.get r.gvr c r.ns r.resource) ∈ x.world.store.trace)
    (hret : Event.ret j (.got (st.get r.gvr c r.ns r.resource)) ∈ x.world.store.trace) :
    Selects env r c ∧ ∃ V ∈ past ++ [W], ∃ y, V.gens[i]? = some y ∧ During j y.world.store
      ∧ ∀ S, Waiting S (y.world.comp r.gvr c) → Received S →
        ((∃ o o', lookup (r.ns, r.resource) (V.api r.gvr c) = some o ∧ SameButMarks o o' ∧ proxy env st tord ord r = .object o')
         ∨ (lookup (r.ns, r.resource) (V.api r.gvr c) = none ∧ proxy env st tord ord r = .refused .notFound)) := by
  obtain ⟨own, h1, h2⟩ := gen_during h hx
  obtain ⟨hsel, u, hu, hd, hS⟩ := C106_get h1 hord hc hr hq hcall hret
  obtain ⟨V, hV, hg⟩ := h2 u hu j hd
  refine ⟨hsel, V, hV, ⟨x.conf, u⟩, hg, hd, ?_⟩
  intro S hw hrec
  obtain ⟨past', hr'⟩ := h.at_ V hV
  have hob := ((wholeInv hr').gens i _ hg).1 r.gvr c
  rw [← hob]
  have := hS S hw hrec
  rw [hw.1]
  exact this

/-- **C109**, lists: what a list request that reads the store of generation `i` sees is what it would see if everything stood still and the cache had
caught up with the API servers of the clusters `cs`, if the watchers of this generation had received everything when its query was made, and
nothing happened to them until it returned. With this every claim about a cache that has caught up holds for the request (see C106). -/
theorem C109_at_rest (h : WholeRun kubeArg isPrint eval alg pf past W) (hx : W.gens[i]? = some x) (ht : TypesOf x.conf st)
    {q : Query} (hq : OnlyAsks env tord ord r q) {j : Nat} (hcall : Event.call j (.query r.gvr q) ∈ x.world.store.trace)
    (hret : Event.ret j (.result (st.query r.gvr q)) ∈ x.world.store.trace) (cs : List Str) (S : Str → Sys) (hrec : ∀ c ∈ cs, Received (S c))
    (hwait : ∀ V ∈ past ++ [W], ∀ y, V.gens[i]? = some y → During j y.world.store → ∀ c ∈ cs, Waiting (S c) (y.world.comp r.gvr c)) :
    (∃ V ∈ past ++ [W], ∃ y, V.gens[i]? = some y ∧ During j y.world.store)
    ∧ (∀ V ∈ past ++ [W], ∀ y, V.gens[i]? = some y → During j y.world.store → ∀ c ∈ cs, (S c).objs = V.api r.gvr c)
    ∧ ∃ hist s st', (newStore x.conf).run eval hist = some s ∧ ApiObjects hist ∧ (∀ c ∈ cs, CaughtUp r.gvr c hist (S c).objs)
      ∧ Serves isPrint alg pf s st' ∧ (Cacheable st r → Cacheable st' r)
      ∧ proxy env st tord ord r = proxy env st' tord ord r := by
  obtain ⟨own, h1, h2⟩ := gen_during h hx
  refine ⟨?_, ?_, ?_⟩
  · obtain ⟨states, he, hm, _⟩ := h1.exec
    obtain ⟨τ, hτ, hd⟩ := exists_during he hcall
    obtain ⟨u, hu, rfl⟩ := hm τ hτ
    obtain ⟨V, hV, hg⟩ := h2 u hu j hd
    exact ⟨V, hV, _, hg, hd⟩
  · intro V hV y hy hd c hc
    obtain ⟨past', hr'⟩ := h.at_ V hV
    have hob := ((wholeInv hr').gens i _ hy).1 r.gvr c
    rw [← hob, (hwait V hV y hy hd c hc).1]
  · refine C106_at_rest h1 ht hq hcall hret cs S hrec ?_
    intro u hu hd c hc
    obtain ⟨V, hV, hg⟩ := h2 u hu j hd
    exact hwait V hV _ hg hd c hc

/-- **C109**: whenever no reload is under way, the store that is served was made for the configuration in force: it has exactly the configured types,
it is the store of a generation of its own, whose watchers run and watch the API servers as they are now. The goroutine that reloads never panics. -/
theorem C109_served (h : WholeRun kubeArg isPrint eval alg pf past W) :
    (∀ f, (W.proc.step kubeArg f).isSome = true)
    ∧ (Idle W.proc → ∃ x, W.gens[W.proc.w.served]? = some x ∧ x.conf = W.proc.w.conf.indexConf
        ∧ (∀ g, (lookup g x.conf).isSome = true ↔ g ∈ W.proc.w.conf.types)
        ∧ (∃ own, WRun isPrint eval alg pf x.conf own x.world)
        ∧ (∀ g c, (x.world.comp g c).sys.objs = W.api g c ∧ (x.world.comp g c).sys.phase ≠ .done)
        ∧ ∃ y ∈ W.proc.w.watchers, y.fills = W.proc.w.served ∧ y.stops = 0 ∧ y.types = W.proc.w.conf.types ∧ y.clusters = W.proc.w.clients) := by
  refine ⟨whole_step h, ?_⟩
  intro hid
  have hp := procInv h
  have hat := hp.at_
  rw [show W.proc.pc = .idle from hid] at hat
  obtain ⟨_, hw, x, hx, hc⟩ := hat
  obtain ⟨hob, own, h1, _⟩ := (wholeInv h).gens _ x hx
  refine ⟨x, hx, hc, ?_, ⟨own, h1⟩, fun g c => ⟨hob g c, hp.alive _ _ x hw rfl hx g c⟩, _, List.mem_of_getElem? hw, rfl, rfl, rfl, rfl⟩
  intro g
  rw [hc]
  unfold Config.indexConf
  rw [mem_indexConf]
  simp [Config.types, lookup]

/-- **C109**, after a reload: at any time when no reload is under way, let the API servers stop changing, let no stream break and no further request
arrive. Whatever the order in which the goroutines of the generation that is served go on, they can make only a bounded number of steps; when none is
left, the store that is served has exactly the objects of the API servers, for every configured type and every cluster whose API server has an object of
the type or whose watcher has told the store nothing since its last clean up or has received an event on the open stream. Missing for the full claim: the time until then
(`C109_gap`, `C109_false`), and other API servers without an object of the type (see C107). -/
theorem C109_settled_partial (h : WholeRun kubeArg isPrint eval alg pf past W) (hid : Idle W.proc) :
    ∃ x, W.gens[W.proc.w.served]? = some x ∧ ∀ cs : List (GVR × Str), (∀ p ∈ cs, p.1 ∈ W.proc.w.conf.types) →
      (∃ n w', Drains isPrint eval alg pf x.conf cs n x.world w' ∧ Drained isPrint eval alg pf x.conf cs w')
      ∧ ∃ N, ∀ n w', Drains isPrint eval alg pf x.conf cs n x.world w' → n ≤ N
        ∧ (Drained isPrint eval alg pf x.conf cs w' → ∀ g c, (g, c) ∈ cs → Recovers (x.world.comp g c).sys → ∀ ns name,
          match lookup (ns, name) (W.api g c) with
          | some o => ∃ so, w'.store.heap.abs ⟨g, c, ns, name⟩ = some so ∧ SameButMarks o so.obj
          | none => w'.store.heap.abs ⟨g, c, ns, name⟩ = none) := by
  obtain ⟨_, hs⟩ := C109_served h
  obtain ⟨x, hx, hc, ht, ⟨own, h1⟩, hob, _⟩ := hs hid
  refine ⟨x, hx, fun cs hcs => ?_⟩
  have hg : ∀ p ∈ cs, (lookup p.1 x.conf).isSome = true := fun p hp => (ht p.1).mpr (hcs p hp)
  obtain ⟨N, hN⟩ := C107_drain h1 hg
  refine ⟨C107_reached h1 hg, N, fun n w' hd => ⟨(hN n w' hd).1, ?_⟩⟩
  intro hst g c hm ho ns name
  have := C107_cache_partial h1 hg hd hst hm (hob g c).2 ho ns name
  rwa [(hob g c).1] at this

theorem out_grows {conf : List (GVR × List (Str × Str))} {own : List Spec.World} {w : Spec.World} (hw : WRun isPrint eval alg pf conf own w)
    {g : GVR} {c : Str} (h : (w.comp g c).sys.out = []) : ∀ u ∈ own ++ [w], (u.comp g c).sys.out = [] := by
  induction hw with
  | start => intro u hu; simp only [List.nil_append, List.mem_singleton] at hu; subst hu; exact h
  | @step past w w' _ hs ih =>
    intro u hu
    rcases List.mem_append.mp hu with hu | hu
    · refine ih ?_ u hu
      have set_ : ∀ {v : Spec.World} {g' : GVR} {c' : Str} {k : Comp}, (∃ new, k.sys.out = (w.comp g' c').sys.out ++ new) → v.comp = w.comp →
          ((v.set g' c' k).comp g c).sys.out = [] → (w.comp g c).sys.out = [] := by
        intro v g' c' k ⟨new, hk⟩ hv h'
        rw [set_comp] at h'
        split at h'
        · rename_i he
          rw [hk, List.append_eq_nil_iff] at h'
          rw [he.1, he.2]; exact h'.1
        · rwa [hv] at h'
      cases hs with
      | run => exact h
      | client => exact h
      | server _ _ ho => exact set_ ⟨[], by simpa using ho⟩ rfl h
      | watch _ _ _ ho => exact set_ ⟨_, ho⟩ rfl h
      | invoke => exact set_ ⟨[], by simp⟩ rfl h
      | returned => exact set_ ⟨[], by simp⟩ rfl h
    · rw [List.mem_singleton] at hu; subst hu; exact h

/-- As long as a watcher has had nothing to tell the store, every get of an object of its type and cluster finds nothing. -/
theorem nothing_told {conf : List (GVR × List (Str × Str))} {own : List Spec.World} {w : Spec.World} (hw : WRun isPrint eval alg pf conf own w)
    {g : GVR} {c : Str} (h : (w.comp g c).sys.out = []) {j : Nat} {ns name : Str} {v : Option Obj}
    (hcall : Event.call j (.get g c ns name) ∈ w.store.trace) (hret : Event.ret j (.got v) ∈ w.store.trace) : v = none := by
  obtain ⟨u, hu, _, hv⟩ := world_get hw (id := ⟨g, c, ns, name⟩) hcall hret
  have hout := out_grows hw h u hu
  obtain ⟨own', hw'⟩ := hw.at_ hu
  obtain ⟨states, he, _, hci⟩ := hw'.exec
  cases ha : u.store.heap.abs ⟨g, c, ns, name⟩ with
  | none => rw [hv, ha]; rfl
  | some so =>
    obtain ⟨k, t, n, o, ht, hop, hwr, _⟩ := heap_written (fun _ h => h) he ha
    have hab := writes_about hwr
    have hi := (hci g c).out
    rw [hout, List.append_eq_nil_iff] at hi
    have hm : n ∈ issued g c u.store.thrs := by
      unfold issued
      rw [List.mem_filterMap]
      exact ⟨t, List.mem_of_getElem? ht, by rw [hop]; exact about_notice hab⟩
    rw [hi.1] at hm
    simp at hm

/-- **C109**, the gap: after every reload, until the new watcher has received the first event about a type from a cluster, each request for an object of this type
and cluster that reads the new store is answered 404, whatever the API server has. -/
theorem C109_gap (h : WholeRun kubeArg isPrint eval alg pf past W) (hx : W.gens[i]? = some x) {g : GVR} {c : Str}
    (hout : (x.world.comp g c).sys.out = []) {j : Nat} {ns name : Str} {v : Option Obj}
    (hcall : Event.call j (.get g c ns name) ∈ x.world.store.trace) (hret : Event.ret j (.got v) ∈ x.world.store.trace) : v = none := by
  obtain ⟨_, own, h1, _⟩ := (wholeInv h).gens i x hx
  exact nothing_told h1 hout hcall hret

/-! ## Examples -/

/-- A pod is made, the watcher of the first generation tells the store, and a request asks for it. Then the configuration file is written, with the same content.
After the reload the request is repeated. -/
def exReloadActs : List GAct :=
  [.put exPods (lit "a") (exPod "web" "n1"), .on 0 (.opened exPods (lit "a")), .on 0 (.deliver exPods (lit "a")),
   .on 0 (.invoke exPods (lit "a")), .go 0 0 99, .on 0 (.returned exPods (lit "a")), .on 0 (.invoke exPods (lit "a")), .go 0 1 99,
   .on 0 (.returned exPods (lit "a")), .on 0 (.client (.get exPods (lit "a") (lit "prod") (lit "web"))), .go 0 2 99,
   .reload exFiles, .reload exFiles, .reload exFiles, .reload exFiles, .reload exFiles,
   .on 1 (.client (.get exPods (lit "a") (lit "prod") (lit "web"))), .go 1 0 99]

def exReloaded : GHist := gsched false (fun _ => true) exEval insertionSort exFloat exReloadActs ([], bootWhole exWorld)

/-- The answer of call `j` of generation `i`. -/
def gAnswer (i j : Nat) (W : Whole) : Option (Option Obj) := W.gens[i]?.bind fun x => x.world.store.trace.findSome? fun e =>
  match e with | .ret k (.got a) => if j = k then some a else none | _ => none

theorem gAnswer_ret {i j : Nat} {a : Option Obj} (hx : W.gens[i]? = some x) (h : gAnswer i j W = some a) :
    Event.ret j (.got a) ∈ x.world.store.trace := by
  unfold gAnswer at h
  rw [hx, Option.bind_some] at h
  obtain ⟨e, he, h⟩ := List.exists_of_findSome?_eq_some h
  cases e with
  | call => simp at h
  | ret k b =>
    cases b with
    | got b =>
      simp only [Option.ite_none_right_eq_some, Option.some.injEq] at h
      obtain ⟨rfl, rfl⟩ := h
      exact he
    | ok | cleaned | result => simp at h

theorem gCalled_mem {i : Nat} {e : Event} (hx : W.gens[i]? = some x)
    (h : (W.gens[i]?.map fun x => decide (e ∈ x.world.store.trace)) = some true) : e ∈ x.world.store.trace := by
  rw [hx] at h
  simpa using h

theorem exBoot_run : WholeRun false (fun _ => true) exEval insertionSort exFloat [] (bootWhole exWorld) := by
  have : ∃ w, bootWorld false exFiles = some w := ⟨_, rfl⟩
  obtain ⟨w, hw⟩ := this
  have e : exWorld = w := by unfold exWorld; rw [hw, Option.getD_some]
  rw [e]
  exact .start hw

theorem exReloaded_run : WholeRun false (fun _ => true) exEval insertionSort exFloat exReloaded.1 exReloaded.2 := gsched_run _ _ exBoot_run

set_option maxRecDepth 100000 in
/-- **C109 is false**: the configuration file is written with the same content. A request for a pod gets it before the reload and is told that there is none afterwards,
although the API server has the pod all the time. -/
theorem C109_false : ∃ past W x y, WholeRun false (fun _ => true) exEval insertionSort exFloat past W ∧ Idle W.proc
    ∧ W.gens[0]? = some x ∧ W.gens[1]? = some y ∧ W.proc.w.served = 1 ∧ W.proc.w.succeeded = 1 ∧ W.proc.w.conf.types = exWorld.conf.types
    ∧ (∀ V ∈ (past ++ [W]).drop 1, (V.api exPods (lit "a")).map (fun e => e.1) = [(lit "prod", lit "web")])
    ∧ Event.call 2 (.get exPods (lit "a") (lit "prod") (lit "web")) ∈ x.world.store.trace
    ∧ (∃ o, Event.ret 2 (.got (some o)) ∈ x.world.store.trace)
    ∧ Event.call 0 (.get exPods (lit "a") (lit "prod") (lit "web")) ∈ y.world.store.trace
    ∧ Event.ret 0 (.got none) ∈ y.world.store.trace := by
  have hlen : exReloaded.2.gens.length = 2 := by decide +kernel
  have h0 : exReloaded.2.gens[0]? = some exReloaded.2.gens[0] := List.getElem?_eq_getElem _
  have h1 : exReloaded.2.gens[1]? = some exReloaded.2.gens[1] := List.getElem?_eq_getElem _
  have hid : (match exReloaded.2.proc.pc with | .idle => true | _ => false) = true := by decide +kernel
  refine ⟨exReloaded.1, exReloaded.2, _, _, exReloaded_run, ?_, h0, h1, by decide +kernel, by decide +kernel, by decide +kernel,
    by decide +kernel, gCalled_mem h0 (by decide +kernel), ?_, gCalled_mem h1 (by decide +kernel), gAnswer_ret h1 ?_⟩
  · unfold Idle
    revert hid
    generalize exReloaded.2.proc.pc = pc
    intro h
    cases pc with
    | idle => rfl
    | _ => simp at h
  · have : (gAnswer 0 2 exReloaded.2).map (·.map Obj.body) = some (some (lit "n1")) := by decide +kernel
    rw [Option.map_eq_some_iff] at this
    obtain ⟨a, ha, hb⟩ := this
    rw [Option.map_eq_some_iff] at hb
    obtain ⟨o, rfl, _⟩ := hb
    exact ⟨o, gAnswer_ret h0 ha⟩
  · have : (gAnswer 1 0 exReloaded.2).map (·.map Obj.body) = some none := by decide +kernel
    rw [Option.map_eq_some_iff] at this
    obtain ⟨a, ha, hb⟩ := this
    rw [Option.map_eq_none_iff] at hb
    rw [ha, hb]

/-- The new watcher catches up, the pod is replaced, and the request is repeated twice. -/
def exCaughtUp : GHist := gsched false (fun _ => true) exEval insertionSort exFloat
  [.on 1 (.opened exPods (lit "a")), .on 1 (.deliver exPods (lit "a")),
   .on 1 (.invoke exPods (lit "a")), .go 1 1 99, .on 1 (.returned exPods (lit "a")), .on 1 (.invoke exPods (lit "a")), .go 1 2 99,
   .on 1 (.returned exPods (lit "a")), .on 1 (.client (.get exPods (lit "a") (lit "prod") (lit "web"))), .go 1 3 99,
   .put exPods (lit "a") (exPod "web" "n2"), .on 0 (.deliver exPods (lit "a")), .on 1 (.deliver exPods (lit "a")),
   .on 1 (.invoke exPods (lit "a")), .go 1 4 99, .on 1 (.returned exPods (lit "a")),
   .on 1 (.client (.get exPods (lit "a") (lit "prod") (lit "web"))), .go 1 5 99] exReloaded

set_option maxRecDepth 100000 in
/-- The hypotheses are met: both answers are what the API server has, which has reported the change to the watchers of both generations. -/
example : WholeRun false (fun _ => true) exEval insertionSort exFloat exCaughtUp.1 exCaughtUp.2
    ∧ [gAnswer 1 3 exCaughtUp.2, gAnswer 1 5 exCaughtUp.2].map (·.map (·.map Obj.body)) = [some (some (lit "n1")), some (some (lit "n2"))]
    ∧ (exCaughtUp.2.gens.map fun x => (x.world.comp exPods (lit "a")).sys.pending) = [[], []]
    ∧ (exCaughtUp.2.gens.map fun x => (x.world.comp exPods (lit "a")).todo.length) = [1, 0]
    ∧ (exCaughtUp.2.gens.map fun x => (x.world.comp exPods (lit "a")).calling) = [none, none]
    ∧ (exCaughtUp.2.gens.map fun x => (x.world.comp exPods (lit "a")).sys.phase) = [.streaming false, .streaming false]
    ∧ exCaughtUp.2.proc.w.watchers.map (·.stops) = [1, 0] := by
  refine ⟨gsched_run _ _ exReloaded_run, by decide +kernel, by decide +kernel, by decide +kernel, by decide +kernel, by decide +kernel,
    by decide +kernel⟩

end Ckube

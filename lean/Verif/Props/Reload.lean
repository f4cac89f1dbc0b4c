import Verif.Model.Reload
import Verif.Lemmas.Str
import Verif.Props.Proxy

/-! # C53-C55, C65, C66, C69: reloading -/

namespace Ckube

/-! ## Specification -/

/-- The points at which a load can fail. -/
inductive Spec.LoadFails (kubeArg : Bool) (f : Files) : Prop
  | config : f.config = none → LoadFails kubeArg f
  | account : kubeArg = false → f.home = false → f.account = false ∨ f.accountClient = false → LoadFails kubeArg f
  | kube : kubeArg = true ∨ f.home = true → f.kube = none → LoadFails kubeArg f
  | context (k : KubeCfg) (c : Str) : kubeArg = true ∨ f.home = true → f.kube = some k → c ∈ k.contexts →
      f.context c = false ∨ f.contextClient c = false → LoadFails kubeArg f

/-- The process is consistent: the served store is filled by the current watcher, which watches all configured types of all clusters with a client;
it runs and every other watcher was stopped once. -/
structure Spec.OneWatcher (w : World) : Prop where
  current : ∃ x, w.watchers[w.current]? = some x ∧ x.fills = w.served ∧ x.types = w.conf.types ∧ x.clusters = w.clients
  running : ∀ i x, w.watchers[i]? = some x → x.stops = if i = w.current then 0 else 1
  store : w.stores[w.served]? = some w.conf.types

open Spec

variable {kubeArg : Bool}

/-! ## C53 -/

theorem loadContexts_none {f : Files} : ∀ (cs acc : List Str),
    loadContexts f acc cs = none ↔ ∃ c ∈ cs, f.context c = false ∨ f.contextClient c = false
  | [], acc => by simp [loadContexts]
  | c :: cs, acc => by
    rw [loadContexts]
    cases h1 : f.context c with
    | false => simp [h1]
    | true =>
      cases h2 : f.contextClient c with
      | false => simp [h1, h2]
      | true =>
        simp only [Bool.not_true, Bool.false_eq_true, if_false]
        rw [loadContexts_none]
        simp [h1, h2]

/-- The load fails exactly at these points. -/
theorem findConf_none {f : Files} : findConf kubeArg f = none ↔ LoadFails kubeArg f := by
  constructor
  · intro h
    unfold findConf at h
    cases hc : f.config with
    | none => exact .config hc
    | some cfg =>
      rw [hc] at h
      simp only at h
      split at h
      · rename_i hb
        simp only [Bool.and_eq_true, Bool.not_eq_true'] at hb
        refine .account hb.1 hb.2 ?_
        unfold loadAccount at h
        cases h1 : f.account with
        | false => exact Or.inl rfl
        | true =>
          cases h2 : f.accountClient with
          | false => exact Or.inr rfl
          | true => simp [h1, h2] at h
      · rename_i hb
        have hb : kubeArg = true ∨ f.home = true := by
          cases kubeArg <;> cases hh : f.home <;> simp_all
        unfold loadKube at h
        cases hk : f.kube with
        | none => exact .kube hb hk
        | some k =>
          rw [hk] at h
          simp only [Option.map_eq_none_iff] at h
          obtain ⟨c, h1, h2⟩ := (loadContexts_none _ _).mp h
          exact .context k c hb hk h1 h2
  · intro h
    unfold findConf
    cases h with
    | config hc => rw [hc]
    | account h1 h2 h3 =>
      cases f.config with
      | none => rfl
      | some cfg =>
        simp only [h1, h2, Bool.not_false, Bool.and_self, if_true]
        unfold loadAccount
        rcases h3 with h3 | h3
        · simp [h3]
        · simp [h3]
    | kube hb hk =>
      have hb : (!kubeArg && !f.home) = false := by rcases hb with hb | hb <;> simp [hb]
      cases f.config with
      | none => rfl
      | some cfg => simp [hb, loadKube, hk]
    | context k c hb hk h1 h2 =>
      have hb : (!kubeArg && !f.home) = false := by rcases hb with hb | hb <;> simp [hb]
      cases f.config with
      | none => rfl
      | some cfg => simp [hb, loadKube, hk, (loadContexts_none _ _).mpr ⟨c, h1, h2⟩]

/-- **C53**: a reload that fails, at whatever point, changes nothing but the count of failed reloads. -/
theorem C53_failed_reload (w : World) {f : Files} (h : LoadFails kubeArg f) :
    w.reload kubeArg f = some { w with failed := w.failed + 1 } := by
  simp [World.reload, Proc.step, findConf_none.mpr h]

/-! ## C54 -/

theorem stopAt_some : ∀ (i : Nat) (ws : List WatcherS) (x : WatcherS), ws[i]? = some x → x.stops = 0 →
    ∃ ws', stopAt i ws = some ws' ∧ ws'.length = ws.length ∧ ws'[i]? = some { x with stops := 1 } ∧ ∀ j, j ≠ i → ws'[j]? = ws[j]?
  | _, [], x, h, _ => by simp at h
  | 0, y :: ys, x, h, h0 => by
    simp at h
    subst h
    refine ⟨{ y with stops := 1 } :: ys, by simp [stopAt, h0], by simp, by simp, ?_⟩
    intro j hj
    cases j with
    | zero => exact absurd rfl hj
    | succ j => simp
  | i + 1, y :: ys, x, h, h0 => by
    obtain ⟨ws', h1, h2, h3, h4⟩ := stopAt_some i ys x (by simpa using h) h0
    refine ⟨y :: ws', by simp [stopAt, h1], by simp [h2], by simpa using h3, ?_⟩
    intro j hj
    cases j with
    | zero => simp
    | succ j => simpa using h4 j (fun e => hj (by rw [e]))

theorem boot_one {f : Files} {w : World} (h : bootWorld kubeArg f = some w) : OneWatcher w := by
  unfold bootWorld at h
  cases hf : findConf kubeArg f with
  | none => simp [hf] at h
  | some x =>
    simp [hf] at h
    subst h
    refine ⟨⟨_, rfl, rfl, rfl, rfl⟩, ?_, rfl⟩
    intro i y hy
    cases i with
    | zero => simp at hy; simp [← hy]
    | succ i => simp at hy

/-- One successful reload. -/
theorem reload_one {w : World} (hw : OneWatcher w) {f : Files} {x : Found} (hf : findConf kubeArg f = some x) :
    ∃ w', w.reload kubeArg f = some w' ∧ OneWatcher w' ∧ w'.watchers.length = w.watchers.length + 1 ∧ w'.current = w.watchers.length
      ∧ w'.conf = initConfig x.conf ∧ w'.clients = x.clusters ∧ w'.failed = w.failed ∧ w'.succeeded = w.succeeded + 1 := by
  obtain ⟨c, hc1, hc2, hc3, hc4⟩ := hw.current
  have hlt : w.current < w.watchers.length := by
    rcases Nat.lt_or_ge w.current w.watchers.length with h | h
    · exact h
    · rw [List.getElem?_eq_none h] at hc1; simp at hc1
  have hrun := hw.running w.current c hc1
  simp at hrun
  obtain ⟨ws, h1, h2, h3, h4⟩ := stopAt_some w.current
    (w.watchers ++ [⟨w.stores.length, (initConfig x.conf).types, x.clusters, 0⟩]) c
    (by rw [List.getElem?_append_left hlt]; exact hc1) hrun
  have hlast : ws[w.watchers.length]? = some ⟨w.stores.length, (initConfig x.conf).types, x.clusters, 0⟩ := by
    rw [h4 _ (by omega)]
    simp
  refine ⟨⟨initConfig x.conf, w.stores.length, x.clusters, w.watchers.length, ws, w.stores ++ [(initConfig x.conf).types],
    w.succeeded + 1, w.failed⟩, ?_, ⟨?_, ?_, ?_⟩, ?_, rfl, rfl, rfl, rfl, rfl⟩
  · simp [World.reload, Proc.step, hf, h1]
  · exact ⟨_, hlast, rfl, rfl, rfl⟩
  · intro i y hy
    show y.stops = if i = w.watchers.length then 0 else 1
    by_cases hi : i = w.current
    · subst hi
      have : ws[w.current]? = some y := hy
      rw [h3] at this
      simp only [Option.some.injEq] at this
      rw [if_neg (by omega), ← this]
    · have hy : ws[i]? = some y := hy
      by_cases hil : i = w.watchers.length
      · subst hil
        rw [hlast] at hy
        simp only [Option.some.injEq] at hy
        rw [if_pos rfl, ← hy]
      · rw [h4 i hi] at hy
        have hib : i < w.watchers.length := by
          rcases Nat.lt_or_ge i w.watchers.length with h | h
          · exact h
          · rw [List.getElem?_eq_none (by simp; omega)] at hy; simp at hy
        rw [List.getElem?_append_left hib] at hy
        have := hw.running i y hy
        rw [if_neg hi] at this
        rw [if_neg hil, this]
  · simp
  · simp [h2]

/-- **C54**: after the start and any sequence of reload events, successful or not, the process has not panicked, exactly one watcher runs, all
others have been stopped exactly once, and the running one fills the store that is served, with all types and clusters of the current configuration. -/
theorem C54_one_watcher {f : Files} {w : World} (h : bootWorld kubeArg f = some w) (fs : List Files) :
    ∃ w', w.reloads kubeArg fs = some w' ∧ OneWatcher w' ∧ w'.watchers.length = 1 + w'.succeeded
      ∧ w'.succeeded + w'.failed = fs.length := by
  have hb := boot_one h
  have hcount : w.watchers.length = 1 + w.succeeded ∧ w.succeeded + w.failed = 0 := by
    unfold bootWorld at h
    cases hf : findConf kubeArg f with
    | none => simp [hf] at h
    | some x => simp [hf] at h; subst h; simp
  suffices key : ∀ (fs : List Files) (w : World), OneWatcher w → w.watchers.length = 1 + w.succeeded →
      ∃ w', w.reloads kubeArg fs = some w' ∧ OneWatcher w' ∧ w'.watchers.length = 1 + w'.succeeded
        ∧ w'.succeeded + w'.failed = w.succeeded + w.failed + fs.length by
    obtain ⟨w', h1, h2, h3, h4⟩ := key fs w hb hcount.1
    exact ⟨w', h1, h2, h3, by omega⟩
  clear hb hcount h w
  intro fs
  induction fs with
  | nil => intro w hb hl; exact ⟨w, rfl, hb, hl, by simp⟩
  | cons g fs ih =>
    intro w hb hl
    cases hg : findConf kubeArg g with
    | none =>
      have hr := C53_failed_reload w (findConf_none.mp hg)
      obtain ⟨w', h1, h2, h3, h4⟩ := ih { w with failed := w.failed + 1 } ⟨hb.current, hb.running, hb.store⟩ hl
      refine ⟨w', by simp [World.reloads, hr, h1], h2, h3, ?_⟩
      simp only [List.length_cons] at h4 ⊢
      omega
    | some x =>
      obtain ⟨w1, g1, g2, g3, _, _, _, g7, g8⟩ := reload_one hb hg
      obtain ⟨w', h1, h2, h3, h4⟩ := ih w1 g2 (by omega)
      refine ⟨w', by simp [World.reloads, g1, h1], h2, h3, ?_⟩
      simp only [List.length_cons]
      omega

/-- Examples: a configuration of pods with a token, a kube config with two contexts; the kube config cannot be parsed; the current context is another. -/
def exFiles : Files :=
  { config := some ⟨[⟨[], lit "v1", lit "pods", lit "PodList", []⟩], lit "main", lit "secret"⟩
    kube := some ⟨lit "a", [lit "a", lit "b"]⟩ }
def exBroken : Files := { exFiles with kube := none }
def exOther : Files := { exFiles with kube := some ⟨lit "c", [lit "c"]⟩ }

/-- A start, a failed and a successful reload. -/
example : LoadFails false exBroken ∧ ∃ w w', bootWorld false exFiles = some w ∧ w.clients = [lit "a", lit "b"]
    ∧ w.reloads false [exBroken, exOther] = some w' ∧ w'.watchers.map (·.stops) = [1, 0] ∧ w'.served = 1 ∧ w'.clients = [lit "c"]
    ∧ w'.conf.defaultCluster = lit "c" ∧ w'.failed = 1 :=
  ⟨.kube (Or.inr rfl) rfl, _, _, rfl, by decide, rfl, by decide, rfl, by decide, by decide, rfl⟩

/-! ## C55 -/

/-- The goroutine takes any number of steps; whatever the files are. -/
inductive Spec.Reach (kubeArg : Bool) : Proc → Proc → Prop
  | refl (p : Proc) : Reach kubeArg p p
  | step {p q r : Proc} (f : Files) : p.step kubeArg f = some q → Reach kubeArg q r → Reach kubeArg p r

/-- The goroutine waits for an event. -/
def Spec.Idle (p : Proc) : Prop := p.pc = .idle

/-- Reloads that have succeeded or are about to. -/
def Proc.begun (p : Proc) : Nat :=
  p.w.succeeded + match p.pc with
    | .idle => 0
    | _ => 1

theorem step_begun {p q : Proc} {f : Files} (h : p.step kubeArg f = some q) : p.begun ≤ q.begun
    ∧ (Idle p → p.begun = q.begun → Idle q ∧ q.w.conf = p.w.conf ∧ q.w.clients = p.w.clients ∧ q.w.served = p.w.served) := by
  unfold Proc.step at h
  split at h
  · rename_i hpc
    split at h
    · simp only [Option.some.injEq] at h
      subst h
      simp [Proc.begun, hpc, Idle]
    · simp only [Option.some.injEq] at h
      subst h
      simp [Proc.begun, hpc]
  · rename_i hpc
    simp only [Option.some.injEq] at h
    subst h
    simp [Proc.begun, hpc, Idle]
  · rename_i hpc
    rw [Option.map_eq_some_iff] at h
    obtain ⟨ws, _, rfl⟩ := h
    simp [Proc.begun, hpc, Idle]
  · rename_i hpc
    simp only [Option.some.injEq] at h
    subst h
    simp [Proc.begun, hpc, Idle]
  · rename_i hpc
    simp only [Option.some.injEq] at h
    subst h
    simp [Proc.begun, hpc, Idle]

theorem reach_begun {p q : Proc} (h : Reach kubeArg p q) : p.begun ≤ q.begun := by
  induction h with
  | refl p => exact Nat.le_refl _
  | step f hs _ ih => exact Nat.le_trans (step_begun hs).1 ih

/-- **C55**: a request that begins and ends while no reload is under way, without one having succeeded in between, reads at every moment the
configuration, clients and store of one generation. Missing for the full claim: requests that meet a successful reload (`C55_false_default`,
`C55_false_store`). -/
theorem C55_one_generation_partial {s p t : Proc} (h1 : Reach kubeArg s p) (h2 : Reach kubeArg p t) (hs : Idle s) (ht : Idle t)
    (heq : s.w.succeeded = t.w.succeeded) :
    p.w.conf = s.w.conf ∧ p.w.clients = s.w.clients ∧ p.w.served = s.w.served := by
  have e1 : s.begun = t.begun := by
    have a : s.pc = .idle := hs
    have b : t.pc = .idle := ht
    simp [Proc.begun, a, b, heq]
  have e2 : s.begun = p.begun := Nat.le_antisymm (reach_begun h1) (e1 ▸ reach_begun h2)
  clear heq e1 ht h2 t
  induction h1 with
  | refl p => exact ⟨rfl, rfl, rfl⟩
  | @step a b c f hstep hr ih =>
    have hb : a.begun = b.begun := Nat.le_antisymm (step_begun hstep).1 (e2 ▸ reach_begun hr)
    obtain ⟨i1, i2, i3, i4⟩ := (step_begun hstep).2 hs hb
    obtain ⟨j1, j2, j3⟩ := ih i1 (hb ▸ e2)
    exact ⟨j1.trans i2, j2.trans i3, j3.trans i4⟩

/-- The process that has loaded `exFiles`. -/
def exWorld : World := (bootWorld false exFiles).getD ⟨{}, 0, [], 0, [], [], 0, 0⟩

/-- A failed reload in between. -/
example : ∃ t, Reach false ⟨exWorld, .idle⟩ t ∧ Idle t ∧ t.w.succeeded = exWorld.succeeded ∧ t.w.failed = 1 :=
  ⟨_, .step exBroken rfl (.refl _), rfl, rfl, rfl⟩

/-- What a request meets at a moment. -/
def Proc.env (p : Proc) : Env := ⟨p.w.conf.defaultCluster, p.w.clients, p.w.conf.proxies⟩

/-- **C55 is false**: between `InitConfig` and `ResetStore` a request sees the new default cluster and the old clients. A request for the default cluster, which
is forwarded before and after the reload, is told that the cluster does not exist. -/
theorem C55_false_default : ∃ p q r : Proc, Reach false p q ∧ Reach false q r ∧ Idle p ∧ Idle r
    ∧ proxy p.env ⟨fun _ => false, fun _ _ _ _ => none, fun _ _ => none⟩ (fun _ m => m) [] { method := lit "GET", path := lit "/version" }
      = .forward false (lit "a") (lit "GET") (lit "/version") [] []
    ∧ proxy q.env ⟨fun _ => false, fun _ _ _ _ => none, fun _ _ => none⟩ (fun _ m => m) [] { method := lit "GET", path := lit "/version" }
      = .noCluster (lit "c")
    ∧ proxy r.env ⟨fun _ => false, fun _ _ _ _ => none, fun _ _ => none⟩ (fun _ m => m) [] { method := lit "GET", path := lit "/version" }
      = .forward false (lit "c") (lit "GET") (lit "/version") [] [] := by
  refine ⟨⟨exWorld, .idle⟩, _, _, .step exOther rfl (.refl _), .step exOther rfl (.step exOther rfl (.step exOther rfl
    (.step exOther rfl (.refl _)))), rfl, rfl, by decide +kernel, by decide +kernel, by decide +kernel⟩

/-- **C55 is false** also for store and clients: between the two assignments of `ResetStore` the new store is served with the old clients. -/
theorem C55_false_store : ∃ q : Proc, Reach false ⟨exWorld, .idle⟩ q ∧ q.w.served = 1 ∧ q.w.clients = [lit "a", lit "b"] := by
  refine ⟨_, .step exOther rfl (.step exOther rfl (.step exOther rfl (.step exOther rfl (.refl _)))), rfl, by decide⟩

/-! ## C66, C69 -/

/-- **C66**: after a load the default cluster is not empty; without a kube config it is the configured one, or `default`; with a kube config it is the
current context of the kube config, or `default`. Missing for the full claim: with a kube config the configured one is ignored (`C66_false_ignored`). -/
theorem C66_default_cluster_partial {f : Files} {x : Found} (h : findConf kubeArg f = some x) :
    (initConfig x.conf).defaultCluster ≠ []
    ∧ (kubeArg = false → f.home = false → ∃ c, f.config = some c
        ∧ (initConfig x.conf).defaultCluster = if c.defaultCluster = [] then lit "default" else c.defaultCluster)
    ∧ ((kubeArg = true ∨ f.home = true) → ∃ k, f.kube = some k
        ∧ (initConfig x.conf).defaultCluster = if k.currentContext = [] then lit "default" else k.currentContext) := by
  have hne : lit "default" ≠ [] := by decide
  refine ⟨?_, ?_, ?_⟩
  · unfold initConfig
    split
    · exact hne
    · assumption
  · intro h1 h2
    unfold findConf at h
    cases hc : f.config with
    | none => simp [hc] at h
    | some c =>
      refine ⟨c, rfl, ?_⟩
      simp only [hc, h1, h2, Bool.not_false, Bool.and_self, if_true, loadAccount] at h
      split at h
      · simp at h
      · split at h
        · simp at h
        · simp only [Option.some.injEq] at h
          subst h
          by_cases hd : c.defaultCluster = []
          · simp [hd, initConfig, hne]
          · simp [hd, initConfig]
  · intro hb
    have hb : (!kubeArg && !f.home) = false := by rcases hb with hb | hb <;> simp [hb]
    unfold findConf at h
    cases hc : f.config with
    | none => simp [hc] at h
    | some c =>
      simp only [hc, hb, Bool.false_eq_true, if_false, loadKube] at h
      cases hk : f.kube with
      | none => simp [hk] at h
      | some k =>
        refine ⟨k, rfl, ?_⟩
        simp only [hk, Option.map_eq_some_iff] at h
        obtain ⟨cs, _, rfl⟩ := h
        by_cases hd : k.currentContext = []
        · simp [hd, initConfig]
        · simp [hd, initConfig]

/-- In a pod, with and without a configured default cluster. -/
example : (findConf false { config := some ⟨[], lit "main", []⟩, home := false, account := true }).map (fun x => (initConfig x.conf).defaultCluster)
      = some (lit "main")
    ∧ (findConf false { config := some {}, home := false, account := true }).map (fun x => (initConfig x.conf).defaultCluster)
      = some (lit "default") := by
  decide

/-- **C66 is false** with a kube config: the configured default cluster `main` is ignored, the default cluster is the current context `a`. -/
theorem C66_false_ignored : (findConf false exFiles).map (fun x => (initConfig x.conf).defaultCluster) = some (lit "a")
    ∧ exFiles.config.map Config.defaultCluster = some (lit "main") := by
  decide

theorem loadContexts_some {f : Files} : ∀ (cs acc r : List Str), loadContexts f acc cs = some r → ∀ c, c ∈ r ↔ c ∈ acc ∨ c ∈ cs
  | [], acc, r, h, c => by
    simp only [loadContexts, Option.some.injEq] at h
    simp [h]
  | x :: cs, acc, r, h, c => by
    rw [loadContexts] at h
    split at h
    · simp at h
    · split at h
      · simp at h
      · rw [loadContexts_some cs _ r h c]
        split
        · rename_i hx
          constructor
          · rintro (h | h)
            · exact Or.inl h
            · exact Or.inr (by simp [h])
          · rintro (h | h)
            · exact Or.inl h
            · rcases List.mem_cons.mp h with rfl | h
              · exact Or.inl hx
              · exact Or.inr h
        · simp only [List.mem_append, List.mem_cons]
          tauto

/-- **C69**: after a load the clusters with a client are the contexts of the kube config, or the default cluster in a pod; the default cluster has a
client in a pod, and with a kube config whose current context is one of its contexts. Missing for the full claim: a kube config without such a current
context (`C69_false_no_context`). -/
theorem C69_default_client_partial {f : Files} {x : Found} (h : findConf kubeArg f = some x) :
    (kubeArg = false → f.home = false → x.clusters = [(initConfig x.conf).defaultCluster])
    ∧ ((kubeArg = true ∨ f.home = true) → ∃ k, f.kube = some k ∧ (∀ c, c ∈ x.clusters ↔ c ∈ k.contexts)
        ∧ (k.currentContext ≠ [] → k.currentContext ∈ k.contexts → (initConfig x.conf).defaultCluster ∈ x.clusters)) := by
  refine ⟨?_, ?_⟩
  · intro h1 h2
    unfold findConf at h
    cases hc : f.config with
    | none => simp [hc] at h
    | some c =>
      simp only [hc, h1, h2, Bool.not_false, Bool.and_self, if_true, loadAccount] at h
      split at h
      · simp at h
      · split at h
        · simp at h
        · simp only [Option.some.injEq] at h
          subst h
          have hne : lit "default" ≠ [] := by decide
          by_cases hd : c.defaultCluster = []
          · simp [hd, initConfig, hne]
          · simp [hd, initConfig]
  · intro hb
    obtain ⟨k, hk, hd⟩ := (C66_default_cluster_partial h).2.2 hb
    have hb : (!kubeArg && !f.home) = false := by rcases hb with hb | hb <;> simp [hb]
    refine ⟨k, hk, ?_⟩
    have hx : ∀ c, c ∈ x.clusters ↔ c ∈ k.contexts := by
      unfold findConf at h
      cases hc : f.config with
      | none => simp [hc] at h
      | some c =>
        simp only [hc, hb, Bool.false_eq_true, if_false, loadKube, hk, Option.map_eq_some_iff] at h
        obtain ⟨cs, hcs, rfl⟩ := h
        intro c
        rw [loadContexts_some _ _ _ hcs c]
        simp
    exact ⟨hx, fun hne hin => by rw [hd, if_neg hne, hx]; exact hin⟩

/-- The hypotheses: two contexts, the first is current. -/
example : ∃ x, findConf false exFiles = some x ∧ x.clusters = [lit "a", lit "b"] ∧ (initConfig x.conf).defaultCluster ∈ x.clusters :=
  ⟨_, rfl, by decide, by decide⟩

/-- **C69 is false** for a kube config without current context: it is loaded, and every request without cluster is told that the cluster `default` does
not exist. -/
theorem C69_false_no_context : ∃ w, bootWorld false { exFiles with kube := some ⟨[], [lit "a"]⟩ } = some w
    ∧ proxy (Proc.env ⟨w, .idle⟩) ⟨fun _ => false, fun _ _ _ _ => none, fun _ _ => none⟩ (fun _ m => m) []
        { method := lit "GET", path := lit "/version" } = .noCluster (lit "default") :=
  ⟨_, rfl, by decide +kernel⟩

/-! ## C65 -/

/-- **C65**: while watched files are only written, changed in mode, or replaced by a file that is there two seconds later, every write and every replacement is
followed by a change notice for the file, in order. Missing for the full claim: a file that stays away longer (`C65_false_late`), that is moved away
(`C65_false_moved`), and a process in a pod, which watches nothing (`C65_false_pod`). -/
theorem C65_notices_partial : ∀ (xs : List (Str × FileOp)) (watched : List Str),
    (∀ x ∈ xs, x.1 ∈ watched ∧ x.2 ≠ .moveAway ∧ x.2 ≠ .replace false) →
    fsRun watched xs = xs.map (fun x => if x.2 = .chmod then none else some (.changed x.1))
  | [], _, _ => rfl
  | (f, op) :: xs, watched, h => by
    obtain ⟨h1, h2, h3⟩ := h (f, op) (by simp)
    simp only at h1 h2 h3
    have ih := fun ws hws => C65_notices_partial xs ws hws
    have hrest : ∀ x ∈ xs, x.1 ∈ watched ∧ x.2 ≠ .moveAway ∧ x.2 ≠ .replace false := fun x hx => h x (by simp [hx])
    rw [fsRun, List.map_cons]
    cases op with
    | write => simp [fsHappens, h1, FileOp.event, fsStep, ih watched hrest]
    | moveAway => exact absurd rfl h2
    | chmod => simp [fsHappens, h1, FileOp.event, fsStep, ih watched hrest]
    | replace back =>
      cases back with
      | false => exact absurd rfl h3
      | true =>
        have e : fsHappens watched (f, .replace true) = (watched.filter (· ≠ f) ++ [f], some (.changed f)) := by
          simp [fsHappens, h1, FileOp.event, fsStep]
          exact List.filter_congr (fun x _ => by by_cases hx : x = f <;> simp [hx])
        rw [e, ih]
        · simp
        · intro x hx
          obtain ⟨g1, g2⟩ := hrest x hx
          refine ⟨?_, g2⟩
          by_cases hf : x.1 = f
          · simp [hf]
          · simp [g1, hf]

/-- A write, a replacement and a change of mode. -/
example : fsRun [lit "a", lit "k"] [(lit "a", .write), (lit "k", .replace true), (lit "k", .chmod), (lit "k", .write)]
    = [some (.changed (lit "a")), some (.changed (lit "k")), none, some (.changed (lit "k"))] := by
  decide

/-- After this the file is not watched any more. -/
def Spec.Loses (op : FileOp) : Prop := op = .moveAway ∨ op = .replace false

/-- What is told about something that happens to a watched file. -/
def Spec.toldOf (f : Str) : FileOp → Option FsNotice
  | .write => some (.changed f)
  | .replace true => some (.changed f)
  | .replace false => some (.error f)
  | .moveAway => none
  | .chmod => none

/-- **C65**, exactly: whatever happens to whatever files, what happens to a file is told (a write and a quick replacement as a change, a late
replacement as an error) if the file was to be watched and nothing that loses it happened before; otherwise nothing is told. -/
theorem C65_exact (f : Str) (op : FileOp) (post : List (Str × FileOp)) : ∀ (pre : List (Str × FileOp)) (watched : List Str),
    ((f ∈ watched ∧ ∀ x ∈ pre, x.1 = f → ¬ Loses x.2) →
      (fsRun watched (pre ++ (f, op) :: post))[pre.length]? = some (toldOf f op))
    ∧ (¬ (f ∈ watched ∧ ∀ x ∈ pre, x.1 = f → ¬ Loses x.2) →
      (fsRun watched (pre ++ (f, op) :: post))[pre.length]? = some none)
  | [], watched => by
    simp only [List.nil_append, fsRun, List.length_nil, List.getElem?_cons_zero, List.not_mem_nil, false_imp_iff, implies_true,
      and_true, Option.some.injEq]
    constructor
    · intro hf
      cases op with
      | replace back => cases back <;> simp [fsHappens, hf, FileOp.event, fsStep, toldOf]
      | _ => simp [fsHappens, hf, FileOp.event, fsStep, toldOf]
    · intro hf; simp [fsHappens, hf]
  | (g, q) :: pre, watched => by
    have ih := C65_exact f op post pre (fsHappens watched (g, q)).1
    have hw : f ∈ (fsHappens watched (g, q)).1 ↔ f ∈ watched ∧ (g = f → ¬ Loses q) := by
      by_cases hg : g ∈ watched
      · unfold Loses
        cases q with
        | replace back =>
          cases back <;> by_cases hfg : f = g <;>
            simp [fsHappens, hg, FileOp.event, fsStep, hfg, eq_comm (a := g)]
        | _ =>
          by_cases hfg : f = g <;> simp [fsHappens, hg, FileOp.event, fsStep, hfg, eq_comm (a := g)]
      · have : (fsHappens watched (g, q)).1 = watched := by simp [fsHappens, hg]
        rw [this]
        constructor
        · intro hf; exact ⟨hf, fun h => absurd (h ▸ hf) hg⟩
        · exact fun h => h.1
    have hc : (f ∈ watched ∧ ∀ x ∈ (g, q) :: pre, x.1 = f → ¬ Loses x.2)
        ↔ (f ∈ (fsHappens watched (g, q)).1 ∧ ∀ x ∈ pre, x.1 = f → ¬ Loses x.2) := by
      rw [hw]; simp only [List.mem_cons, forall_eq_or_imp]; tauto
    rw [hc]
    simpa only [List.cons_append, fsRun, List.length_cons, List.getElem?_cons_succ] using ih

/-- A file that was replaced too late is lost, another one is not. -/
example : Loses (.replace false) ∧ ¬ Loses .write
    ∧ fsRun [lit "a", lit "k"] [(lit "k", .write), (lit "a", .replace false), (lit "a", .write), (lit "k", .write)]
      = [some (.changed (lit "k")), some (.error (lit "a")), none, some (.changed (lit "k"))] := by
  unfold Loses; decide

/-- **C65 is false** when a replaced file is away for more than two seconds: its later changes are not noticed. -/
theorem C65_false_late : fsRun [lit "a"] [(lit "a", .replace false), (lit "a", .write)] = [some (.error (lit "a")), none] := by
  decide

/-- **C65 is false** when the file is moved away and made anew: nothing is noticed from then on. -/
theorem C65_false_moved : fsRun [lit "a"] [(lit "a", .moveAway), (lit "a", .write)] = [none, none] := by
  decide

/-- **C65 is false** in a pod: without `-k` the file `~/.kube/config` is to be watched too; where it does not exist, as with a service account, there is
no file watcher at all. -/
theorem C65_false_pod : fsStart (fun f => f = lit "/config.json") (watchedFiles (lit "/config.json") [] (lit "/root/.kube/config")) = none
    ∧ (findConf false { config := some {}, home := false, account := true }).isSome = true := by
  decide

end Ckube

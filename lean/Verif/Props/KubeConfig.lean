import Verif.Spec.KubeConfig
import Verif.Lemmas.JsonPrefix
import Verif.Props.ConfigFile
import Verif.Props.Reload

/-! # C115, C116: the kube config -/

namespace Ckube
open Spec Json

/-! ## C115 -/

theorem isTLS_iff (s : Str) : isTLS s = true ↔ Encrypted s := by
  have hmap : ∀ s : Str, asciiLower s = s.map (fun c => if 65 ≤ c ∧ c ≤ 90 then c + 32 else c) := fun s => rfl
  have hl : (lit "https://").length = 8 := by decide
  unfold isTLS
  rw [decide_eq_true_iff]
  constructor
  · intro h
    refine ⟨asciiLower (s.drop 8), ?_⟩
    rw [← h, hmap, hmap, hmap, ← List.map_append, List.take_append_drop]
  · rintro ⟨t, h⟩
    have : (asciiLower s).take 8 = lit "https://" := by rw [h, List.take_left' hl]
    rw [hmap] at this ⊢
    rw [List.map_take]
    exact this

theorem keys_insertKV {ν : Type} (c : Str) (v : ν) : ∀ acc : List (Str × ν),
    (insertKV c v acc).map Prod.fst = if c ∈ acc.map Prod.fst then acc.map Prod.fst else acc.map Prod.fst ++ [c]
  | [] => by simp [insertKV]
  | (k, w) :: acc => by
    rw [insertKV]
    by_cases hk : k = c
    · subst hk; simp
    · rw [if_neg hk, List.map_cons, keys_insertKV c v acc]
      simp only [List.map_cons, List.mem_cons]
      by_cases hin : c ∈ acc.map Prod.fst
      · rw [if_pos hin, if_pos (Or.inr hin)]
      · rw [if_neg hin, if_neg (by rintro (h | h); exacts [hk h.symm, hin h])]; rfl

/-- A load that sees the same kube config all the time does not panic; it fails exactly if a context has no configuration or no client can be made of it. -/
theorem loadEach_still {see : Str → Option RestConf} {mk : RestConf → Bool} : ∀ (cs : List Str) (n : Nat) (acc : List (Str × RestConf × RestConf)),
    (∃ confs, loadEach (fun _ => see) mk n acc cs = .found confs
      ∧ (∀ c ∈ cs, (see c).any mk = true)
      ∧ (∀ c, lookup c confs = if c ∈ cs then (see c).map fun r => (r, r) else lookup c acc)
      ∧ (confs.map Prod.fst) = cs.foldl (fun a c => if c ∈ a then a else a ++ [c]) (acc.map Prod.fst))
    ∨ (loadEach (fun _ => see) mk n acc cs = .failed ∧ ∃ c ∈ cs, (see c).any mk = false)
  | [], n, acc => Or.inl ⟨acc, rfl, by simp, by simp, rfl⟩
  | c :: cs, n, acc => by
    rw [loadEach]
    cases hs : see c with
    | none => exact Or.inr ⟨rfl, c, by simp, by rw [hs]; rfl⟩
    | some r =>
      cases hm : mk r with
      | false => exact Or.inr ⟨by simp [hm], c, by simp, by rw [hs]; exact hm⟩
      | true =>
        simp only [hm, Bool.not_true, Bool.false_eq_true, if_false]
        rcases loadEach_still cs (n + 2) (insertKV c (r, r) acc) with ⟨confs, h1, h2, h3, h4⟩ | ⟨h1, c', h2, h3⟩
        · refine Or.inl ⟨confs, h1, ?_, ?_, ?_⟩
          · intro c' hc'
            rcases List.mem_cons.mp hc' with rfl | hc'
            · rw [hs]; exact hm
            · exact h2 c' hc'
          · intro c'
            rw [h3 c']
            by_cases hin : c' ∈ cs
            · rw [if_pos hin, if_pos (List.mem_cons_of_mem _ hin)]
            · rw [if_neg hin, lookup_insertKV]
              by_cases he : c' = c
              · subst he
                simp [hs]
              · rw [if_neg (by simpa [eq_comm] using he), if_neg (by simp [he, hin])]
          · rw [h4, List.foldl_cons]
            rw [keys_insertKV]
        · exact Or.inr ⟨h1, c', List.mem_cons_of_mem _ h2, h3⟩

theorem fileConf_some (e : KubeEnv) {readKube : Str → Option KubeDoc} {bs : Str} {d : KubeDoc} (hb : bs ≠ []) (hk : readKube bs = some d) (c : Str) :
    fileConf e readKube (some bs) c = clientConf e d c := by
  cases bs with
  | nil => exact absurd rfl hb
  | cons b bs => simp only [fileConf, hk, Option.bind_some]

theorem loadKubeFile_still (e : KubeEnv) {readKube : Str → Option KubeDoc} (mk : RestConf → Bool) {bs : Str} {d : KubeDoc} (hb : bs ≠ []) (hk : readKube bs = some d) :
    loadKubeFile e readKube mk (fun _ => some bs) = loadEach (fun _ => clientConf e d) mk 0 [] (d.contexts.map Prod.fst) := by
  unfold loadKubeFile
  simp only [Option.bind_some, hk]
  congr 1
  funext n c
  exact fileConf_some e hb hk c

theorem clientConf_nodup {e : KubeEnv} {d : KubeDoc} {c : Str} {r : RestConf} (h : clientConf e d c = some r) :
    (d.contexts.map Prod.fst).Nodup ∧ (d.clusters.map Prod.fst).Nodup ∧ (d.users.map Prod.fst).Nodup := by
  by_contra hn
  unfold clientConf directConf at h
  rw [if_pos hn] at h
  cases h

/-- The configuration that client-go makes for a context of a kube config. -/
theorem directConf_entry {e : KubeEnv} {d : KubeDoc} {c : Str} {k : KubeContext} {cl : KubeCluster} {u : KubeUser} (hc : c ≠ []) (hk : (c, k) ∈ d.contexts)
    (hn : (d.contexts.map Prod.fst).Nodup ∧ (d.clusters.map Prod.fst).Nodup ∧ (d.users.map Prod.fst).Nodup)
    (hcl : (lookup k.cluster d.clusters).getD {} = cl) (hu : (lookup k.user d.users).getD {} = u) :
    directConf e d c = if u.sound = true ∧ cl.sound = true then
      some (if isTLS (if cl.server = [] then e.defaultServer else cl.server) = true then
        ⟨if cl.server = [] then e.defaultServer else cl.server, u.credentials, cl.ca, u.impersonate⟩
        else ⟨if cl.server = [] then e.defaultServer else cl.server, [], [], u.impersonate⟩) else none := by
  have hl := lookup_eq_some_of_mem hn.1 hk
  unfold directConf
  rw [if_neg (not_not.mpr hn)]
  simp only [if_neg hc, hl, reduceCtorEq, and_false, if_false, Option.getD_some, hcl, hu]
  generalize (if cl.server = [] then e.defaultServer else cl.server) = s
  cases u.sound <;> cases cl.sound <;> cases isTLS s <;> simp

theorem user_of {d : KubeDoc} {c : Str} {k : KubeContext} {u : KubeUser} (hn : (d.contexts.map Prod.fst).Nodup) (hu' : (d.users.map Prod.fst).Nodup)
    (hk : (c, k) ∈ d.contexts) (hu : GivesUser d c u) : (lookup k.user d.users).getD {} = u := by
  obtain ⟨k', hk', h⟩ := hu
  have : k' = k := Option.some.inj (by rw [← lookup_eq_some_of_mem hn hk', ← lookup_eq_some_of_mem hn hk])
  subst this
  rcases h with h | ⟨rfl, h⟩
  · rw [lookup_eq_some_of_mem hu' h]; rfl
  · rw [lookup_eq_none.mpr]
    · rfl
    · exact h

/-- **C115**: when the kube config has been loaded, the clusters are its contexts, and for each context with a name whose cluster has an address in the kube config, the watcher and the client
send their requests to this address, with the user's credentials. Missing for the full claim: contexts whose cluster is not in the kube config, or in a pod is at the default address
(`C115_false_dangling`, `C115_false_local`), a context without a name (`C115_false_unnamed`), a process without any kube config (`C115_false_nowhere`). -/
theorem C115_servers_partial {e : KubeEnv} {readKube : Str → Option KubeDoc} {mk : RestConf → Bool} {bs : Str} {d : KubeDoc} {confs : List (Str × RestConf × RestConf)}
    (hb : bs ≠ []) (hk : readKube bs = some d) (hload : loadKubeFile e readKube mk (fun _ => some bs) = .found confs) :
    (∀ c, (lookup c confs).isSome = true ↔ ∃ k, (c, k) ∈ d.contexts)
    ∧ ∀ c cl u, c ≠ [] → Gives d c cl → GivesUser d c u → cl.server ≠ [] → (cl.server ≠ e.defaultServer ∨ e.inCluster = none) →
      ∃ r, lookup c confs = some (r, r) ∧ Reaches r cl u := by
  rw [loadKubeFile_still e mk hb hk] at hload
  rcases loadEach_still (see := clientConf e d) (mk := mk) (d.contexts.map Prod.fst) 0 [] with ⟨confs', h1, h2, h3, h4⟩ | ⟨h1, _⟩
  swap
  · rw [h1] at hload; cases hload
  rw [h1] at hload
  cases hload
  have hsome : ∀ c ∈ d.contexts.map Prod.fst, ∃ r, clientConf e d c = some r := by
    intro c hc
    have := h2 c hc
    cases hr : clientConf e d c with
    | none => rw [hr] at this; cases this
    | some r => exact ⟨r, rfl⟩
  constructor
  · intro c
    rw [h3 c]
    by_cases hc : c ∈ d.contexts.map Prod.fst
    · rw [if_pos hc]
      obtain ⟨r, hr⟩ := hsome c hc
      obtain ⟨⟨n, k⟩, hm, rfl⟩ := List.mem_map.mp hc
      rw [hr]
      exact ⟨fun _ => ⟨k, hm⟩, fun _ => rfl⟩
    · rw [if_neg hc]
      refine ⟨fun h => absurd h (by simp [lookup]), ?_⟩
      rintro ⟨k, hm⟩
      exact absurd (List.mem_map.mpr ⟨_, hm, rfl⟩) hc
  · rintro c cl u hc ⟨k, hm, hcl⟩ hu hs hdef
    have hin : c ∈ d.contexts.map Prod.fst := List.mem_map.mpr ⟨_, hm, rfl⟩
    obtain ⟨r, hr⟩ := hsome c hin
    refine ⟨r, by rw [h3 c, if_pos hin, hr]; rfl, ?_⟩
    have hn := clientConf_nodup hr
    have hd := directConf_entry (e := e) (cl := cl) hc hm hn (by rw [lookup_eq_some_of_mem hn.2.1 hcl]; rfl) (user_of hn.1 hn.2.2 hm hu)
    simp only [if_neg hs] at hd
    unfold clientConf at hr
    rw [hd] at hr
    by_cases hok : u.sound = true ∧ cl.sound = true
    · rw [if_pos hok, Option.map_some, Option.some.injEq] at hr
      have hx : ∀ x : RestConf, x.host = cl.server → (if x = ⟨e.defaultServer, [], [], []⟩ then e.inCluster.getD x else x) = x := by
        intro x hx
        split
        · rename_i h
          rcases hdef with hdef | hdef
          · rw [h] at hx; exact absurd hx.symm hdef
          · rw [hdef]; rfl
        · rfl
      by_cases ht : isTLS cl.server = true
      · rw [if_pos ht, hx _ rfl] at hr
        subst hr
        exact ⟨rfl, rfl, fun _ => ⟨rfl, rfl⟩, fun h => absurd ((isTLS_iff _).mp ht) h⟩
      · rw [if_neg ht, hx _ rfl] at hr
        subst hr
        exact ⟨rfl, rfl, fun h => absurd ((isTLS_iff _).mpr h) ht, fun _ => ⟨rfl, rfl⟩⟩
    · rw [if_neg hok] at hr
      cases hr

/-- **C115**: a kube config in which a context, a cluster or a user is written twice is refused. -/
theorem C115_repeated {e : KubeEnv} {readKube : Str → Option KubeDoc} {mk : RestConf → Bool} {bs : Str} {d : KubeDoc} (hb : bs ≠ []) (hk : readKube bs = some d)
    (hr : Repeats d) (hc : d.contexts ≠ []) : loadKubeFile e readKube mk (fun _ => some bs) = .failed := by
  rw [loadKubeFile_still e mk hb hk]
  obtain ⟨⟨n, k⟩, ds, hds⟩ := List.exists_cons_of_ne_nil hc
  rw [hds, List.map_cons, loadEach]
  cases hs : clientConf e d n with
  | none => simp [hs]
  | some r =>
    obtain ⟨h1, h2, h3⟩ := clientConf_nodup hs
    rcases hr with hr | hr | hr
    exacts [absurd h1 hr, absurd h2 hr, absurd h3 hr]

/-- **C115**: these are the clusters of the processes of C53 to C55 and C66, C69. -/
theorem C115_clusters {e : KubeEnv} {readKube : Str → Option KubeDoc} {mk : RestConf → Bool} {bs : Str} {d : KubeDoc} {kubeArg home : Bool} {cfg : Config}
    (hb : bs ≠ []) (hk : readKube bs = some d) (hbr : kubeArg = true ∨ home = true) :
    (∃ confs, loadKubeFile e readKube mk (fun _ => some bs) = .found confs
      ∧ findConf kubeArg (filesOf e mk (some cfg) home (some d)) = some ⟨{ cfg with defaultCluster := d.currentContext }, confs.map Prod.fst⟩)
    ∨ (loadKubeFile e readKube mk (fun _ => some bs) = .failed ∧ findConf kubeArg (filesOf e mk (some cfg) home (some d)) = none) := by
  have hbr : (!kubeArg && !home) = false := by rcases hbr with h | h <;> simp [h]
  rw [loadKubeFile_still e mk hb hk]
  have hfind : findConf kubeArg (filesOf e mk (some cfg) home (some d))
      = (loadContexts (filesOf e mk (some cfg) home (some d)) [] (d.contexts.map Prod.fst)).map fun cs => ⟨{ cfg with defaultCluster := d.currentContext }, cs⟩ := by
    unfold findConf
    simp only [filesOf, hbr, Bool.false_eq_true, if_false, loadKube, Option.map_some]
  rw [hfind]
  have hload : ∀ (cs acc : List Str), (∀ c ∈ cs, (clientConf e d c).any mk = true) →
      loadContexts (filesOf e mk (some cfg) home (some d)) acc cs = some (cs.foldl (fun a c => if c ∈ a then a else a ++ [c]) acc) := by
    intro cs
    induction cs with
    | nil => intro acc _; rfl
    | cons c cs ih =>
      intro acc h
      have hc := h c (by simp)
      have hs : (clientConf e d c).isSome = true := by
        cases hr : clientConf e d c with
        | none => rw [hr] at hc; cases hc
        | some r => rfl
      rw [loadContexts]
      simp only [filesOf, Option.bind_some, hc, hs, Bool.not_true, Bool.false_eq_true, if_false, List.foldl_cons]
      exact ih _ fun c' hc' => h c' (List.mem_cons_of_mem _ hc')
  rcases loadEach_still (see := clientConf e d) (mk := mk) (d.contexts.map Prod.fst) 0 [] with ⟨confs, h1, h2, _, h4⟩ | ⟨h1, c, h2, h3⟩
  · refine Or.inl ⟨confs, h1, ?_⟩
    rw [hload _ _ h2, h4]
    rfl
  · refine Or.inr ⟨h1, ?_⟩
    rw [(loadContexts_none _ _).mpr ⟨c, h2, Or.inr ?_⟩]
    · rfl
    · simp only [filesOf, Option.bind_some]; exact h3

/-- Two contexts, one of which names a cluster that is not written down. -/
def exKube : KubeDoc :=
  { currentContext := lit "prod"
    contexts := [(lit "prod", ⟨lit "p", lit "alice"⟩), (lit "lost", ⟨lit "gone", lit "alice"⟩), (lit "proxy", ⟨lit "local", lit "alice"⟩)]
    clusters := [(lit "p", { server := lit "https://10.0.0.1:6443", ca := lit "CA" }), (lit "local", { server := lit "http://localhost:8080" })]
    users := [(lit "alice", { credentials := lit "token" })] }

/-- The API server of the cluster in which ckube runs. -/
def exInPod : KubeEnv := { inCluster := some { host := lit "https://10.96.0.1:443", credentials := lit "account" } }

/-- The hypotheses of `C115_servers_partial`, and what it says: the context `prod` has its address, in a pod and elsewhere. -/
example : Gives exKube (lit "prod") { server := lit "https://10.0.0.1:6443", ca := lit "CA" } ∧ GivesUser exKube (lit "prod") { credentials := lit "token" }
    ∧ loadKubeFile exInPod (fun _ => some exKube) (fun _ => true) (fun _ => some [1])
      = .found ([(lit "prod", ⟨lit "https://10.0.0.1:6443", lit "token", lit "CA", []⟩), (lit "lost", ⟨lit "https://10.96.0.1:443", lit "account", [], []⟩),
          (lit "proxy", ⟨lit "https://10.96.0.1:443", lit "account", [], []⟩)].map fun e => (e.1, e.2, e.2)) := by
  refine ⟨⟨⟨lit "p", lit "alice"⟩, by simp [exKube], by simp [exKube]⟩, ⟨⟨lit "p", lit "alice"⟩, by simp [exKube], Or.inl (by simp [exKube])⟩, ?_⟩
  decide +kernel

/-- **C115 is false** for a context whose cluster is not in the kube config: nothing is refused. In a pod the API server of the cluster in which ckube runs is watched and shown under the name
of the context, elsewhere whatever listens at `http://localhost:8080`. -/
theorem C115_false_dangling {e : KubeEnv} {d : KubeDoc} {c : Str} {k : KubeContext} {u : KubeUser} (hc : c ≠ []) (hk : (c, k) ∈ d.contexts) (hr : ¬ Repeats d)
    (hcl : ∀ cl, (k.cluster, cl) ∉ d.clusters) (hu : GivesUser d c u) (hs : u.sound = true) (hi : u.impersonate = []) (ht : ¬ Encrypted e.defaultServer) :
    clientConf e d c = some (e.inCluster.getD ⟨e.defaultServer, [], [], []⟩) := by
  have hn : (d.contexts.map Prod.fst).Nodup ∧ (d.clusters.map Prod.fst).Nodup ∧ (d.users.map Prod.fst).Nodup := by
    unfold Repeats at hr
    push Not at hr
    exact hr
  have hd := directConf_entry (e := e) (cl := {}) hc hk hn (by rw [lookup_eq_none.mpr hcl]; rfl) (user_of hn.1 hn.2.2 hk hu)
  have ht' : ¬ isTLS e.defaultServer = true := fun h => ht ((isTLS_iff _).mp h)
  simp only [hs, hi, if_true, and_self, if_neg ht'] at hd
  unfold clientConf
  rw [hd, Option.map_some, if_pos rfl]

/-- The hypotheses. -/
example : clientConf exInPod exKube (lit "lost") = some { host := lit "https://10.96.0.1:443", credentials := lit "account" }
    ∧ clientConf {} exKube (lit "lost") = some { host := lit "http://localhost:8080" } := by decide +kernel

/-- **C115 is false** in a pod for a context at the address `http://localhost:8080`, where a proxy may listen: the API server of the pod's cluster is used instead. -/
theorem C115_false_local : Gives exKube (lit "proxy") { server := lit "http://localhost:8080" }
    ∧ clientConf exInPod exKube (lit "proxy") = some { host := lit "https://10.96.0.1:443", credentials := lit "account" } :=
  ⟨⟨⟨lit "local", lit "alice"⟩, by simp [exKube], by simp [exKube]⟩, by decide +kernel⟩

/-- **C115 is false** for a context without a name: it gets the API server of the current context. -/
theorem C115_false_unnamed : ∃ d : KubeDoc, Gives d [] { server := lit "https://b" }
    ∧ (clientConf {} d []).map RestConf.host = some (lit "https://a") :=
  ⟨⟨lit "a", [(lit "a", ⟨lit "a", []⟩), ([], ⟨lit "b", []⟩)], [(lit "a", { server := lit "https://a" }), (lit "b", { server := lit "https://b" })], []⟩,
    ⟨⟨lit "b", []⟩, by simp, by simp⟩, by decide +kernel⟩

/-- **C115 is false** without any kube config outside of a pod: ckube does not give up, but watches whatever listens at `http://localhost:8080`. -/
theorem C115_false_nowhere (mk : RestConf → Bool) (hm : mk { host := lit "http://localhost:8080" } = true) (cfg : Config) :
    accountConf {} = some { host := lit "http://localhost:8080" } ∧ (findConf false (filesOf {} mk (some cfg) false none)).isSome = true := by
  have h : accountConf {} = some { host := lit "http://localhost:8080" } := by decide +kernel
  refine ⟨h, ?_⟩
  simp [findConf, filesOf, loadAccount, h, hm]

/-! ## C116 -/

/-- **C116**, the configuration file: while a new configuration is written to the file from its beginning, what is in the file so far is refused, unless it already means the same. -/
theorem C116_config {new p : Str} (hn : (configText new).isSome = true) (hp : p <+: new) : configText p = none ∨ configText p = configText new := by
  obtain ⟨q, rfl⟩ := hp
  cases hv : parse p with
  | none => exact Or.inl (by unfold configText; rw [hv]; rfl)
  | some v =>
    cases hw : parse (p ++ q) with
    | none => unfold configText at hn; rw [hw] at hn; cases hn
    | some w =>
      have hnum : ∀ x, w ≠ .num x := by
        rintro x rfl
        unfold configText at hn
        rw [hw] at hn
        cases hn
      refine Or.inr ?_
      unfold configText
      rw [hv, hw, (parse_cut hv hw hnum).1]

/-- **C116**, the configuration file: however many reloads happen while the new configuration is written, the process has the old configuration or the new one afterwards, and has not
panicked. -/
theorem C116_rewrite {kubeArg : Bool} {f : Files} {new : Str} (hn : (configText new).isSome = true) : ∀ (ps : List Str) (w : World), OneWatcher w → (∀ p ∈ ps, p <+: new) →
    ∃ w', w.reloads kubeArg (ps.map fun p => { f with config := configText p }) = some w' ∧ OneWatcher w'
      ∧ ((w'.conf = w.conf ∧ w'.clients = w.clients ∧ w'.served = w.served)
        ∨ ∃ x, findConf kubeArg { f with config := configText new } = some x ∧ w'.conf = initConfig x.conf ∧ w'.clients = x.clusters)
  | [], w, hw, _ => ⟨w, rfl, hw, Or.inl ⟨rfl, rfl, rfl⟩⟩
  | p :: ps, w, hw, h => by
    rw [List.map_cons, World.reloads]
    cases hf : findConf kubeArg { f with config := configText p } with
    | none =>
      rw [C53_failed_reload w (findConf_none.mp hf), Option.bind_some]
      exact C116_rewrite hn ps { w with failed := w.failed + 1 } ⟨hw.current, hw.running, hw.store⟩ fun p hp => h p (List.mem_cons_of_mem _ hp)
    | some x =>
      obtain ⟨w1, g1, g2, g3, g4, g5, g6, g7, g8⟩ := reload_one hw hf
      rw [g1, Option.bind_some]
      obtain ⟨w', h1, h2, h3⟩ := C116_rewrite hn ps w1 g2 fun p hp => h p (List.mem_cons_of_mem _ hp)
      refine ⟨w', h1, h2, Or.inr ?_⟩
      have hnew : findConf kubeArg { f with config := configText new } = some x := by
        rcases C116_config hn (h p (by simp)) with hc | hc
        · rw [hc] at hf; cases hf
        · rw [← hc]; exact hf
      rcases h3 with ⟨e1, e2, _⟩ | h3
      · exact ⟨x, hnew, by rw [e1, g5], by rw [e2, g6]⟩
      · exact h3

/-- A file of which half is written, and a state of the process to reload from. -/
example : (configText (lit "{\"proxies\": [], \"token\": \"secret\"}\n")).isSome = true
    ∧ (configText (lit "{\"proxies\": [], \"token\": \"se")).isNone = true ∧ (configText []).isNone = true
    ∧ (configText (lit "{\"proxies\": [], \"token\": \"secret\"}")).map Config.token = some (lit "secret")
    ∧ ∃ w, bootWorld false exFiles = some w ∧ OneWatcher w :=
  ⟨by decide +kernel, by decide +kernel, by decide +kernel, by decide +kernel, _, rfl, boot_one (f := exFiles) (kubeArg := false) rfl⟩

/-- **C116**, the kube config: a load during which the file does not change, whatever it holds and even if it is not there, does not panic, and each watcher has the API server of the client. Missing for the
full claim: files that change in the meantime (`C116_panics`, `C116_false_mixed`), and a file that is seen when it is empty (`C116_false_empty`). -/
theorem C116_kube_partial (e : KubeEnv) (readKube : Str → Option KubeDoc) (mk : RestConf → Bool) (bs : Option Str) :
    loadKubeFile e readKube mk (fun _ => bs) ≠ .panicked
    ∧ ∀ confs, loadKubeFile e readKube mk (fun _ => bs) = .found confs → ∀ c w r, lookup c confs = some (w, r) → w = r := by
  unfold loadKubeFile
  cases hd : bs.bind readKube with
  | none => exact ⟨(fun h => by cases h), (fun _ h => by cases h)⟩
  | some d =>
    simp only
    rcases loadEach_still (see := fileConf e readKube bs) (mk := mk) (d.contexts.map Prod.fst) 0 [] with ⟨confs, h1, _, h3, _⟩ | ⟨h1, _⟩
    · rw [h1]
      refine ⟨(fun h => by cases h), fun _ h => ?_⟩
      cases h
      intro c w r hl
      rw [h3 c] at hl
      split at hl
      · obtain ⟨x, _, hx⟩ := Option.map_eq_some_iff.mp hl
        cases hx; rfl
      · cases hl
    · rw [h1]
      exact ⟨(fun h => by cases h), (fun _ h => by cases h)⟩

theorem loadEach_panics {see : Nat → Str → Option RestConf} {mk : RestConf → Bool} : ∀ (cs : List Str) (n : Nat) (acc : List (Str × RestConf × RestConf)),
    loadEach see mk n acc cs = .panicked ↔ ∃ pre c post, cs = pre ++ c :: post ∧ (see (n + 2 * pre.length) c).isSome = true ∧ see (n + 2 * pre.length + 1) c = none
      ∧ ∀ i c', pre[i]? = some c' → (see (n + 2 * i) c').isSome = true ∧ (see (n + 2 * i + 1) c').any mk = true
  | [], n, acc => by simp [loadEach]
  | c :: cs, n, acc => by
    rw [loadEach]
    constructor
    · intro h
      cases h1 : see n c with
      | none => rw [h1] at h; cases h
      | some w =>
        rw [h1] at h
        cases h2 : see (n + 1) c with
        | none => exact ⟨[], c, cs, rfl, by simp [h1], by simpa using h2, by simp⟩
        | some r =>
          rw [h2] at h
          cases hm : mk r with
          | false => simp [hm] at h
          | true =>
            simp only [hm, Bool.not_true, Bool.false_eq_true, if_false] at h
            obtain ⟨pre, c', post, rfl, g1, g2, g3⟩ := (loadEach_panics cs (n + 2) _).mp h
            refine ⟨c :: pre, c', post, rfl, ?_, ?_, ?_⟩
            · rw [List.length_cons, show n + 2 * (pre.length + 1) = n + 2 + 2 * pre.length by omega]; exact g1
            · rw [List.length_cons, show n + 2 * (pre.length + 1) + 1 = n + 2 + 2 * pre.length + 1 by omega]; exact g2
            · intro i c'' hi
              cases i with
              | zero =>
                cases hi
                exact ⟨by simp [h1], by simp [h2, hm]⟩
              | succ i =>
                rw [show n + 2 * (i + 1) = n + 2 + 2 * i by omega]
                exact g3 i c'' hi
    · rintro ⟨pre, c', post, hcs, g1, g2, g3⟩
      cases pre with
      | nil =>
        cases hcs
        simp only [List.length_nil, Nat.mul_zero, Nat.add_zero] at g1 g2
        obtain ⟨w, hw⟩ := Option.isSome_iff_exists.mp g1
        simp [hw, g2]
      | cons c0 pre =>
        cases hcs
        obtain ⟨k1, k2⟩ := g3 0 c rfl
        simp only [Nat.mul_zero, Nat.add_zero] at k1 k2
        obtain ⟨w, hw⟩ := Option.isSome_iff_exists.mp k1
        cases h2 : see (n + 1) c with
        | none => rw [h2] at k2; cases k2
        | some r =>
          rw [h2] at k2
          have k2 : mk r = true := k2
          simp only [hw, k2, Bool.not_true, Bool.false_eq_true, if_false]
          rw [loadEach_panics]
          rw [List.length_cons] at g1 g2
          refine ⟨pre, c', post, rfl, ?_, ?_, ?_⟩
          · rw [show n + 2 + 2 * pre.length = n + 2 * (pre.length + 1) by omega]; exact g1
          · rw [show n + 2 + 2 * pre.length = n + 2 * (pre.length + 1) by omega]; exact g2
          · intro i c'' hi
            rw [show n + 2 + 2 * i = n + 2 * (i + 1) by omega]
            exact g3 (i + 1) c'' hi

/-- **C116**, exactly when a load panics, and with it the process: the configuration of some context can be made for the watcher, but not any more when the file is read again for the client; nothing was
wrong before. -/
theorem C116_panics (e : KubeEnv) (readKube : Str → Option KubeDoc) (mk : RestConf → Bool) (file : Nat → Option Str) :
    loadKubeFile e readKube mk file = .panicked ↔ ∃ d pre c post, (file 0).bind readKube = some d ∧ d.contexts.map Prod.fst = pre ++ c :: post
      ∧ (fileConf e readKube (file (2 * pre.length + 1)) c).isSome = true ∧ fileConf e readKube (file (2 * pre.length + 2)) c = none
      ∧ ∀ i c', pre[i]? = some c' → (fileConf e readKube (file (2 * i + 1)) c').isSome = true ∧ (fileConf e readKube (file (2 * i + 2)) c').any mk = true := by
  unfold loadKubeFile
  cases hd : (file 0).bind readKube with
  | none => simp
  | some d =>
    simp only [Option.some.injEq]
    rw [loadEach_panics]
    simp only [Nat.zero_add]
    constructor
    · rintro ⟨pre, c, post, h⟩
      exact ⟨d, pre, c, post, rfl, h⟩
    · rintro ⟨_, pre, c, post, rfl, h⟩
      exact ⟨pre, c, post, h⟩

/-- **C116 is false**: an editor empties the kube config and writes it anew. When the file is emptied between the two times that it is read for the context `prod`, the process panics. -/
theorem C116_false_panic (readKube : Str → Option KubeDoc) {bs : Str} (hb : bs ≠ []) (hr : readKube bs = some exKube) :
    loadKubeFile {} readKube (fun _ => true) (fun n => if n ≤ 1 then some bs else some []) = .panicked := by
  refine (C116_panics _ _ _ _).mpr ⟨exKube, [], lit "prod", [lit "lost", lit "proxy"], by simpa using hr, by decide +kernel, ?_, ?_, by simp⟩
  · simp only [List.length_nil, Nat.mul_zero, Nat.zero_add, le_refl, if_true]
    rw [fileConf_some {} hb hr]
    decide +kernel
  · simp only [List.length_nil, Nat.mul_zero, Nat.zero_add, show ¬ (2 ≤ 1) by omega, if_false, fileConf]
    decide +kernel

/-- **C116 is false**: when the file is seen while it is empty (an empty file is a kube config without contexts), the reload succeeds: ckube has no cluster any more, the running watcher is stopped, and requests
without cluster are for a cluster `default` that nobody has mentioned. -/
theorem C116_false_empty (e : KubeEnv) (readKube : Str → Option KubeDoc) (mk : RestConf → Bool) (h0 : readKube [] = some {}) {w : World} (hw : OneWatcher w) (cfg : Config) :
    loadKubeFile e readKube mk (fun _ => some []) = .found []
    ∧ ∃ w', w.reload true (filesOf e mk (some cfg) true (some {})) = some w' ∧ w'.clients = [] ∧ w'.conf.defaultCluster = lit "default"
      ∧ ∃ x, w'.watchers[w'.current]? = some x ∧ x.fills = w'.served ∧ x.clusters = [] := by
  refine ⟨by simp [loadKubeFile, h0, loadEach], ?_⟩
  have hf : findConf true (filesOf e mk (some cfg) true (some {})) = some ⟨{ cfg with defaultCluster := [] }, []⟩ := by
    simp [findConf, filesOf, loadKube, loadContexts]
  obtain ⟨w1, g1, g2, g3, g4, g5, g6, g7, g8⟩ := reload_one hw hf
  obtain ⟨x, k1, k2, k3, k4⟩ := g2.current
  exact ⟨w1, g1, g6, by rw [g5]; rfl, x, k1, k2, by rw [k4, g6]⟩

/-- **C116 is false**: when the file is replaced by one with another address for `prod` between the two times, the objects of `prod` come from the old API server, while writes go to the new one. -/
theorem C116_false_mixed (readKube : Str → Option KubeDoc) {old new : Str} (ho : old ≠ []) (hn : new ≠ [])
    (h1 : readKube old = some { exKube with contexts := [(lit "prod", ⟨lit "p", lit "alice"⟩)] })
    (h2 : readKube new = some { exKube with
      contexts := [(lit "prod", ⟨lit "p", lit "alice"⟩)]
      clusters := [(lit "p", { server := lit "https://10.0.0.2:6443" })] }) :
    ∃ w r, loadKubeFile {} readKube (fun _ => true) (fun n => if n ≤ 1 then some old else some new) = .found [(lit "prod", w, r)]
      ∧ w.host = lit "https://10.0.0.1:6443" ∧ r.host = lit "https://10.0.0.2:6443" := by
  refine ⟨⟨lit "https://10.0.0.1:6443", lit "token", lit "CA", []⟩, ⟨lit "https://10.0.0.2:6443", lit "token", [], []⟩, ?_, rfl, rfl⟩
  unfold loadKubeFile
  simp only [Nat.zero_le, if_true, Option.bind_some, h1, List.map_cons, List.map_nil, loadEach, Nat.zero_add, le_refl, show ¬ (1 + 1 ≤ 1) by omega, if_false]
  rw [fileConf_some {} ho h1, fileConf_some {} hn h2]
  have e1 : clientConf {} { exKube with contexts := [(lit "prod", ⟨lit "p", lit "alice"⟩)] } (lit "prod") = some ⟨lit "https://10.0.0.1:6443", lit "token", lit "CA", []⟩ := by decide +kernel
  have e2 : clientConf {} { exKube with
      contexts := [(lit "prod", ⟨lit "p", lit "alice"⟩)]
      clusters := [(lit "p", { server := lit "https://10.0.0.2:6443" })] } (lit "prod") = some ⟨lit "https://10.0.0.2:6443", lit "token", [], []⟩ := by decide +kernel
  rw [e1, e2]
  rfl

/-- **C116 is false**: when the file is gone or empty after its contexts have been read, which is so for a moment while it is replaced, the contexts are looked up in the kube config of the user
who runs ckube. Its `prod` may be another cluster; ckube serves that under the name of the one that was asked for. -/
theorem C116_false_other (readKube : Str → Option KubeDoc) {bs : Str} {gone : Option Str} (hg : gone = none ∨ gone = some [])
    (hr : readKube bs = some { exKube with contexts := [(lit "prod", ⟨lit "p", lit "alice"⟩)] }) :
    ∃ home : KubeDoc, ∃ r, loadKubeFile { elsewhere := home } readKube (fun _ => true) (fun n => if n = 0 then some bs else gone) = .found [(lit "prod", r, r)]
      ∧ r.host = lit "https://10.9.9.9:6443" := by
  refine ⟨{ contexts := [(lit "prod", ⟨lit "q", []⟩)], clusters := [(lit "q", { server := lit "https://10.9.9.9:6443" })] },
    ⟨lit "https://10.9.9.9:6443", [], [], []⟩, ?_, rfl⟩
  unfold loadKubeFile
  simp only [if_true, Option.bind_some, hr, List.map_cons, List.map_nil, loadEach, Nat.zero_add, show ¬ (1 = 0) by omega, show ¬ (1 + 1 = 0) by omega, if_false]
  rcases hg with rfl | rfl <;> (simp only [fileConf]; decide +kernel)

end Ckube

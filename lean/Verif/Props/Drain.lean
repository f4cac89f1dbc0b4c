import Verif.Lemmas.Drain
import Verif.Props.Conc
import Verif.Props.World

/-! # C107: when the API servers stop changing, ckube shows what they have -/

namespace Ckube
open Spec

variable {env : Env} {st : StoreI} {tord : Nat → List (Str × Str) → List (Str × Str)} {ord : Values} {r : HReq}
variable {isPrint : Nat → Bool} {eval : Str → Obj → Str} {alg : SliceSort} {pf : Str → Option GoFloat}
  {conf : List (GVR × List (Str × Str))} {cs : List (GVR × Str)} {past : List World} {w w' : World}

theorem drain_keeps (h : Drain isPrint eval alg pf conf cs w w') (g : GVR) (c : Str) :
    (w'.comp g c).sys.objs = (w.comp g c).sys.objs ∧ ((w.comp g c).sys.phase ≠ .done → (w'.comp g c).sys.phase ≠ .done) := by
  have set_ : ∀ {v : World} {g' : GVR} {c' : Str} {k : Comp}, k.sys.objs = (v.comp g' c').sys.objs →
      ((v.comp g' c').sys.phase ≠ .done → k.sys.phase ≠ .done) →
      ((v.set g' c' k).comp g c).sys.objs = (v.comp g c).sys.objs
        ∧ ((v.comp g c).sys.phase ≠ .done → ((v.set g' c' k).comp g c).sys.phase ≠ .done) := by
    intro v g' c' k h1 h2
    show (if g = g' ∧ c = c' then k else v.comp g c).sys.objs = _
      ∧ (_ → (if g = g' ∧ c = c' then k else v.comp g c).sys.phase ≠ .done)
    by_cases h : g = g' ∧ c = c'
    · rw [if_pos h]
      obtain ⟨rfl, rfl⟩ := h
      exact ⟨h1, h2⟩
    · rw [if_neg h]; exact ⟨rfl, id⟩
  cases h with
  | run h => exact ⟨rfl, id⟩
  | opened _ _ _ _ hws =>
    refine set_ rfl ?_
    intro hd
    cases hp : (w.comp _ _).sys.phase with
    | connecting => rw [hp] at hws; simp only [wstep, Option.some.injEq, Prod.mk.injEq] at hws; simp [← hws.1]
    | streaming f => rw [hp] at hws; simp [wstep] at hws
    | done => exact absurd hp hd
  | deliver _ _ _ _ hws =>
    refine set_ rfl ?_
    intro hd
    cases hp : (w.comp _ _).sys.phase with
    | connecting => rw [hp] at hws; simp [wstep] at hws
    | streaming f => rw [hp] at hws; simp only [wstep, Option.some.injEq, Prod.mk.injEq] at hws; simp [← hws.1]
    | done => exact absurd hp hd
  | @invoke g' c' n rest =>
    exact set_ (v := { w with store := w.store.call eval conf (.notice n) }) rfl id
  | returned => exact set_ rfl id

/-- When nothing is left to be done, the watchers that have not ended wait, and there is nothing to be received. -/
theorem drained_waits (hw : WRun isPrint eval alg pf conf past w) (hd : Drained isPrint eval alg pf conf cs w) {g : GVR} {c : Str}
    (hm : (g, c) ∈ cs) (hg : (lookup g conf).isSome = true) (hp : (w.comp g c).sys.phase ≠ .done) :
    Waiting (w.comp g c).sys (w.comp g c) ∧ (w.comp g c).sys.pending = [] ∧ ∃ f, (w.comp g c).sys.phase = .streaming f := by
  obtain ⟨states, he, _, hci⟩ := hw.exec
  have htr := TrInv.exec he
  have hcall : (w.comp g c).calling = none := by
    cases hcl : (w.comp g c).calling with
    | none => rfl
    | some i =>
      exfalso
      have hi := calling_made hw g c i hcl
      have ht : w.store.thrs[i]? = some w.store.thrs[i] := List.getElem?_eq_getElem hi
      cases hr : w.store.thrs[i].returned with
      | true => exact hd _ (.returned hm hcl ht hr)
      | false =>
        have hdu : During i w.store := by
          refine ⟨⟨_, (htr.call i _).mpr ⟨_, ht, rfl⟩⟩, ?_⟩
          intro a ha
          obtain ⟨u, h1, h2, _⟩ := htr.ret i a ha
          rw [ht, Option.some.injEq] at h1
          rw [← h1, hr] at h2; simp at h2
        obtain ⟨j, σ', _, hs, _⟩ := C34_progress he hdu
        exact hd _ (.run hs)
  have htodo : (w.comp g c).todo = [] := by
    cases ht : (w.comp g c).todo with
    | nil => rfl
    | cons n rest => exact absurd (.invoke hm hg ht hcall) (hd _)
  have hstr : ∃ f, (w.comp g c).sys.phase = .streaming f := by
    cases hph : (w.comp g c).sys.phase with
    | streaming f => exact ⟨f, rfl⟩
    | done => exact absurd hph hp
    | connecting =>
      exact absurd (.opened hm htodo hcall (List.Perm.refl _) (p := .streaming true) (out := []) (by rw [hph]; rfl)) (hd _)
  refine ⟨⟨rfl, htodo, hcall⟩, ?_, hstr⟩
  obtain ⟨f, hf⟩ := hstr
  cases hpd : (w.comp g c).sys.pending with
  | nil => rfl
  | cons e rest =>
    obtain ⟨t, o⟩ := e
    exact absurd (.deliver hm htodo hcall hpd (p := .streaming false) (out := cleanFirst g c f ++ evNotice g c t o) (by rw [hf]; rfl)) (hd _)

theorem drains_run {n : Nat} (h : Drains isPrint eval alg pf conf cs n w w') :
    ∀ {past : List World}, WRun isPrint eval alg pf conf past w → (∃ past', WRun isPrint eval alg pf conf past' w')
      ∧ ∀ g c, (w'.comp g c).sys.objs = (w.comp g c).sys.objs
        ∧ ((w.comp g c).sys.phase ≠ .done → (w'.comp g c).sys.phase ≠ .done) := by
  induction h with
  | refl => exact fun hw => ⟨⟨_, hw⟩, fun _ _ => ⟨rfl, id⟩⟩
  | step h1 _ ih =>
    intro past hw
    obtain ⟨e1, e2⟩ := ih (.step hw h1.step)
    refine ⟨e1, fun g c => ?_⟩
    obtain ⟨a1, a2⟩ := drain_keeps h1 g c
    obtain ⟨b1, b2⟩ := e2 g c
    exact ⟨b1.trans a1, fun h => b2 (a2 h)⟩

theorem drain_recovers (h : Drain isPrint eval alg pf conf cs w w') (g : GVR) (c : Str)
    (hr : (w.comp g c).sys.phase = .streaming false ∨ Emptied (w.comp g c).sys.out) :
    (w'.comp g c).sys.phase = .streaming false ∨ Emptied (w'.comp g c).sys.out := by
  have set_ : ∀ {v : World} {g' : GVR} {c' : Str} {k : Comp}, v.comp = w.comp →
      ((w.comp g' c').sys.phase = .streaming false ∨ Emptied (w.comp g' c').sys.out → k.sys.phase = .streaming false ∨ Emptied k.sys.out) →
      ((v.set g' c' k).comp g c).sys.phase = .streaming false ∨ Emptied ((v.set g' c' k).comp g c).sys.out := by
    intro v g' c' k hv hk
    show (if g = g' ∧ c = c' then k else v.comp g c).sys.phase = _ ∨ Emptied (if g = g' ∧ c = c' then k else v.comp g c).sys.out
    by_cases h : g = g' ∧ c = c'
    · rw [if_pos h]
      obtain ⟨rfl, rfl⟩ := h
      exact hk hr
    · rw [if_neg h, hv]; exact hr
  cases h with
  | run h => exact hr
  | opened _ _ _ _ hws =>
    refine set_ rfl ?_
    intro hd
    cases hp : (w.comp _ _).sys.phase with
    | connecting =>
      rw [hp] at hws
      simp only [wstep, Option.some.injEq, Prod.mk.injEq] at hws
      right
      rw [← hws.2, List.append_nil]
      rcases hd with hd | hd
      · rw [hp] at hd; simp at hd
      · exact hd
    | streaming f => rw [hp] at hws; simp [wstep] at hws
    | done => rw [hp] at hws; simp [wstep] at hws
  | deliver _ _ _ _ hws =>
    refine set_ rfl ?_
    intro hd
    cases hp : (w.comp _ _).sys.phase with
    | connecting => rw [hp] at hws; simp [wstep] at hws
    | streaming f => rw [hp] at hws; simp only [wstep, Option.some.injEq, Prod.mk.injEq] at hws; exact Or.inl hws.1.symm
    | done => rw [hp] at hws; simp [wstep] at hws
  | @invoke g' c' n rest => exact set_ (v := { w with store := w.store.call eval conf (.notice n) }) rfl id
  | returned => exact set_ rfl id

theorem drains_recovers {n : Nat} (h : Drains isPrint eval alg pf conf cs n w w') (g : GVR) (c : Str)
    (hr : (w.comp g c).sys.phase = .streaming false ∨ Emptied (w.comp g c).sys.out) :
    (w'.comp g c).sys.phase = .streaming false ∨ Emptied (w'.comp g c).sys.out := by
  induction h with
  | refl => exact hr
  | step h1 _ ih => exact ih (drain_recovers h1 g c hr)

/-- **C107**: at any time let the API servers stop changing, let no stream break and no further request arrive. Whatever the order in which the
goroutines go on, the watchers `cs` and the calls of the store can make only a bounded number of steps. When none is left, each watcher of
`cs` that has not ended waits on an open stream on which everything has been received, and its API server has the objects it had. -/
theorem C107_drain (hw : WRun isPrint eval alg pf conf past w) (hg : ∀ p ∈ cs, (lookup p.1 conf).isSome = true) :
    ∃ N, ∀ n w', Drains isPrint eval alg pf conf cs n w w' → n ≤ N ∧ (Drained isPrint eval alg pf conf cs w' →
      ∀ g c, (g, c) ∈ cs → (w.comp g c).sys.phase ≠ .done →
        ∃ S, Waiting S (w'.comp g c) ∧ S.objs = (w.comp g c).sys.objs ∧ (Recovers (w.comp g c).sys → Received S)) := by
  refine ⟨w.work (w.room cs.dedup) cs.dedup, ?_⟩
  intro n w' hd
  have key : ∀ (n : Nat) (v u : World), Drains isPrint eval alg pf conf cs n v u → ∀ pst, WRun isPrint eval alg pf conf pst v →
      v.room cs.dedup ≤ w.room cs.dedup → n ≤ v.work (w.room cs.dedup) cs.dedup := by
    intro n v u hst
    induction hst with
    | refl => intro _ _ _; exact Nat.zero_le _
    | @step m v v' u h1 _ ih =>
      intro pst hv hroom
      have h1' : Drain isPrint eval alg pf conf cs.dedup v v' := by
        cases h1 with
        | run h => exact .run h
        | opened hm a b d e => exact .opened (List.mem_dedup.mpr hm) a b d e
        | deliver hm a b d e => exact .deliver (List.mem_dedup.mpr hm) a b d e
        | invoke hm a b d => exact .invoke (List.mem_dedup.mpr hm) a b d
        | returned hm a b d => exact .returned (List.mem_dedup.mpr hm) a b d
      obtain ⟨l1, l2⟩ := h1'.less cs.nodup_dedup hv hroom
      have := ih _ (.step hv h1.step) (by omega)
      omega
  refine ⟨key n w w' hd past hw (Nat.le_refl _), ?_⟩
  intro hst g c hm hp
  obtain ⟨⟨past', hw'⟩, hk⟩ := drains_run hd hw
  obtain ⟨h1, h2, f, h3⟩ := drained_waits hw' hst hm (hg _ hm) ((hk g c).2 hp)
  refine ⟨_, h1, (hk g c).1, fun ho => ⟨h2, f, h3, ?_⟩⟩
  rcases ho with ho | ho
  · exact Or.inr (Or.inl (by rw [(hk g c).1]; exact ho))
  · rcases drains_recovers hd g c ho with ho | ho
    · rw [h3] at ho
      simp only [WPhase.streaming.injEq] at ho
      exact Or.inl ho
    · exact Or.inr (Or.inr ho)

theorem drains_snoc {n : Nat} {v u : World} (h : Drains isPrint eval alg pf conf cs n w v) (hs : Drain isPrint eval alg pf conf cs v u) :
    Drains isPrint eval alg pf conf cs (n + 1) w u := by
  induction h with
  | refl => exact .step hs .refl
  | step h1 _ ih => exact .step h1 (ih hs)

/-- **C107**: such a state is reached. -/
theorem C107_reached (hw : WRun isPrint eval alg pf conf past w) (hg : ∀ p ∈ cs, (lookup p.1 conf).isSome = true) :
    ∃ n w', Drains isPrint eval alg pf conf cs n w w' ∧ Drained isPrint eval alg pf conf cs w' := by
  obtain ⟨N, hN⟩ := C107_drain hw hg
  by_contra hno
  have hall : ∀ n, ∃ v, Drains isPrint eval alg pf conf cs n w v := by
    intro n
    induction n with
    | zero => exact ⟨w, .refl⟩
    | succ n ih =>
      obtain ⟨v, hv⟩ := ih
      by_contra hno'
      exact hno ⟨n, v, hv, fun u hu => hno' ⟨u, drains_snoc hv hu⟩⟩
  obtain ⟨v, hv⟩ := hall (N + 1)
  have := (hN _ _ hv).1
  omega

/-- **C107**, the cache: the store then has exactly the objects of the API servers (with ckube's marks). -/
theorem C107_cache_partial (hw : WRun isPrint eval alg pf conf past w) (hg : ∀ p ∈ cs, (lookup p.1 conf).isSome = true) {n : Nat}
    (hd : Drains isPrint eval alg pf conf cs n w w') (hst : Drained isPrint eval alg pf conf cs w') {g : GVR} {c : Str}
    (hm : (g, c) ∈ cs) (hp : (w.comp g c).sys.phase ≠ .done) (ho : Recovers (w.comp g c).sys) (ns name : Str) :
    match lookup (ns, name) (w.comp g c).sys.objs with
    | some o => ∃ so, w'.store.heap.abs ⟨g, c, ns, name⟩ = some so ∧ SameButMarks o so.obj
    | none => w'.store.heap.abs ⟨g, c, ns, name⟩ = none := by
  obtain ⟨N, hN⟩ := C107_drain hw hg
  obtain ⟨S, hS, hobj, hrec⟩ := (hN n w' hd).2 hst g c hm hp
  obtain ⟨⟨past', hw'⟩, _⟩ := drains_run hd hw
  obtain ⟨hpend, f, hf1, hf2⟩ := hrec ho
  have hlat := world_latest (id := ⟨g, c, ns, name⟩) hw' hS
  have hrun : SysRun g c {} S := by
    obtain ⟨_, _, _, hci⟩ := hw'.exec
    have := (hci g c).run
    rw [hS.1] at this
    exact this
  have hcu : CaughtUp g c S.out S.objs := ⟨S, f, hrun, hf1, hpend, hf2, List.filter_eq_self.mpr (sysRun_about hrun), rfl⟩
  have hmir := (CaughtUp.mirrors (eval := eval) (conf := conf) hcu).1 ns name
  rw [← hobj]
  cases hl : lookup (ns, name) S.objs with
  | none =>
    show w'.store.heap.abs _ = none
    cases ha : w'.store.heap.abs ⟨g, c, ns, name⟩ with
    | none => rfl
    | some so =>
      obtain ⟨o, ho, _⟩ := (hlat so).mp ha
      rw [hmir o, hl] at ho; simp at ho
  | some o => exact ⟨_, (hlat _).mpr ⟨o, (hmir o).mpr hl, rfl⟩, build_same eval (confAt conf g) c o⟩

/-- A state in which nothing has reached the store yet: the watcher of `c1` has a clean up to tell the store and two events before it, the one of
`c2` has opened its stream. -/
def exDrainWorld : WHist := wsched (fun _ => true) exEval insertionSort exFloat exConf
  [.put exPods (lit "c1") (exPod "web" "n1"), .opened exPods (lit "c1"), .put exPods (lit "c1") (exPod "db" "n2"),
   .deliver exPods (lit "c1"), .put exPods (lit "c2") (exPod "web" "n9"), .opened exPods (lit "c2"),
   .remove exPods (lit "c1") (exPod "web" "n1")] (wstart exConf)

set_option maxRecDepth 100000 in
example : ∃ n w', Drains (fun _ => true) exEval insertionSort exFloat exConf [(exPods, lit "c1"), (exPods, lit "c2")] n exDrainWorld.2 w'
    ∧ exDrainWorld.2.store.heap.abs ⟨exPods, lit "c1", lit "prod", lit "db"⟩ = none
    ∧ (∃ so, w'.store.heap.abs ⟨exPods, lit "c1", lit "prod", lit "db"⟩ = some so ∧ SameButMarks (exPod "db" "n2") so.obj)
    ∧ (∃ so, w'.store.heap.abs ⟨exPods, lit "c2", lit "prod", lit "web"⟩ = some so ∧ SameButMarks (exPod "web" "n9") so.obj)
    ∧ w'.store.heap.abs ⟨exPods, lit "c1", lit "prod", lit "web"⟩ = none := by
  have hw : WRun (fun _ => true) exEval insertionSort exFloat exConf exDrainWorld.1 exDrainWorld.2 := wsched_run _ _ .start
  have hg : ∀ p ∈ [(exPods, lit "c1"), (exPods, lit "c2")], (lookup p.1 exConf).isSome = true := by decide +kernel
  obtain ⟨n, w', h1, h2⟩ := C107_reached hw hg
  have key := fun (c : Str) (hm : (exPods, c) ∈ [(exPods, lit "c1"), (exPods, lit "c2")]) hp ho name =>
    C107_cache_partial hw hg h1 h2 (c := c) hm hp ho (lit "prod") name
  refine ⟨n, w', h1, by decide +kernel, ?_, ?_, ?_⟩
  · have := key (lit "c1") (by simp) (by decide +kernel) (Or.inl (by decide +kernel)) (lit "db")
    have e : lookup (lit "prod", lit "db") (exDrainWorld.2.comp exPods (lit "c1")).sys.objs = some (exPod "db" "n2") := by decide +kernel
    rwa [e] at this
  · have := key (lit "c2") (by simp) (by decide +kernel) (Or.inl (by decide +kernel)) (lit "web")
    have e : lookup (lit "prod", lit "web") (exDrainWorld.2.comp exPods (lit "c2")).sys.objs = some (exPod "web" "n9") := by decide +kernel
    rwa [e] at this
  · have := key (lit "c1") (by simp) (by decide +kernel) (Or.inl (by decide +kernel)) (lit "web")
    have e : lookup (lit "prod", lit "web") (exDrainWorld.2.comp exPods (lit "c1")).sys.objs = none := by decide +kernel
    rwa [e] at this

/-- Nothing is left to be done when all calls have returned and the watchers have nothing to tell and nothing to receive. -/
theorem drained_of (ht : ∀ t ∈ w.store.thrs, t.prog = [] ∧ t.returned = true)
    (hc : ∀ p ∈ cs, (w.comp p.1 p.2).todo = [] ∧ (w.comp p.1 p.2).calling = none ∧ (w.comp p.1 p.2).sys.pending = []
      ∧ (w.comp p.1 p.2).sys.phase ≠ .connecting) : Drained isPrint eval alg pf conf cs w := by
  intro w' h
  cases h with
  | run h =>
    have no : ∀ {i : Nat} {t : Thr} {ins : Instr} {rest : List Instr}, w.store.thrs[i]? = some t → t.prog = ins :: rest → False := by
      intro i t ins rest h1 h2
      have := (ht t (List.mem_of_getElem? h1)).1
      rw [h2] at this; simp at this
    cases h with
    | ret t h1 h2 h3 =>
      have := (ht t (List.mem_of_getElem? h1)).2
      rw [h3] at this; simp at this
    | _ => exact no ‹_› ‹_›
  | opened hm _ _ _ hws =>
    cases hp : (w.comp _ _).sys.phase with
    | connecting => exact (hc _ hm).2.2.2 hp
    | streaming f => rw [hp] at hws; simp [wstep] at hws
    | done => rw [hp] at hws; simp [wstep] at hws
  | deliver hm _ _ hp => rw [(hc _ hm).2.2.1] at hp; simp at hp
  | invoke hm _ hp => rw [(hc _ hm).1] at hp; simp at hp
  | returned hm hp => rw [(hc _ hm).2.1] at hp; simp at hp

def exStaleWorld : WHist := wsched (fun _ => true) exEval insertionSort exFloat exConf
  [.put exPods (lit "c1") (exPod "web" "n1"), .opened exPods (lit "c1"), .deliver exPods (lit "c1"),
   .invoke exPods (lit "c1"), .go 0 99, .returned exPods (lit "c1"), .invoke exPods (lit "c1"), .go 1 99, .returned exPods (lit "c1"),
   .closed exPods (lit "c1"), .remove exPods (lit "c1") (exPod "web" "n1"), .opened exPods (lit "c1")] (wstart exConf)

set_option maxRecDepth 100000 in
/-- **C107 is false** for an API server without objects: when the last pod of a cluster is deleted while the stream is down, ckube shows the
pod as long as no new one is made and the new stream stays open (for up to an hour, C129). -/
theorem C107_false : ∃ past w, WRun (fun _ => true) exEval insertionSort exFloat exConf past w
    ∧ Drained (fun _ => true) exEval insertionSort exFloat exConf [(exPods, lit "c1")] w
    ∧ (w.comp exPods (lit "c1")).sys.phase ≠ .done ∧ (w.comp exPods (lit "c1")).sys.objs = []
    ∧ (w.store.heap.abs ⟨exPods, lit "c1", lit "prod", lit "web"⟩).isSome = true :=
  ⟨exStaleWorld.1, exStaleWorld.2, wsched_run _ _ .start, drained_of (by decide +kernel) (by decide +kernel), by decide +kernel,
    by decide +kernel, by decide +kernel⟩

/-! ## Requests served afterwards -/

theorem Spec.Serving.run_ {l : List World} {v : World} (h : Serving isPrint eval alg pf conf w l v) (hw : WRun isPrint eval alg pf conf past w) :
    WRun isPrint eval alg pf conf (past ++ l) v ∧ v.comp = w.comp ∧ ∀ u ∈ l, u.comp = w.comp := by
  induction h with
  | start => rw [List.append_nil]; exact ⟨hw, rfl, by simp⟩
  | @run l v i σ _ hs ih =>
    obtain ⟨a, b, d⟩ := ih
    rw [← List.append_assoc]
    refine ⟨.step a (.run hs), b, fun u hu => ?_⟩
    rcases List.mem_append.mp hu with hu | hu
    · exact d u hu
    · rw [List.mem_singleton] at hu; subst hu; exact b
  | @client l v op _ hv hn ih =>
    obtain ⟨a, b, d⟩ := ih
    rw [← List.append_assoc]
    refine ⟨.step a (.client hv hn), b, fun u hu => ?_⟩
    rcases List.mem_append.mp hu with hu | hu
    · exact d u hu
    · rw [List.mem_singleton] at hu; subst hu; exact b

theorem trace_grows (hw : WRun isPrint eval alg pf conf past w) : ∀ v ∈ past, ∀ e ∈ v.store.trace, e ∈ w.store.trace := by
  induction hw with
  | start => simp
  | @step past w w' _ hs ih =>
    have h1 : ∀ e ∈ w.store.trace, e ∈ w'.store.trace := by
      cases hs with
      | @run i σ h =>
        rcases h.cases with ⟨t, _, _, _, _, e, _⟩ | ⟨_, e, _⟩ | ⟨t, u, _, _, _, _, _, e⟩ <;> simp_all
      | client => intro e he; exact List.mem_append_left _ he
      | server | watch | returned => exact fun e he => he
      | invoke => intro e he; exact List.mem_append_left _ he
    intro v hv e he
    rcases List.mem_append.mp hv with hv | hv
    · exact h1 e (ih v hv e he)
    · rw [List.mem_singleton] at hv; subst hv; exact h1 e he

/-- The watcher waits whenever the call runs. -/
theorem serving_waits (hw : WRun isPrint eval alg pf conf past w) {l : List World} {v : World}
    (h : Serving isPrint eval alg pf conf w l v) {i : Nat} (hnew : ∀ op, Event.call i op ∉ w.store.trace) {g : GVR} {c : Str} {S : Sys}
    (hS : Waiting S (w.comp g c)) : ∀ u ∈ (past ++ l) ++ [v], During i u.store → Waiting S (u.comp g c) := by
  obtain ⟨_, hv, hl⟩ := h.run_ hw
  intro u hu ⟨⟨op, hd⟩, _⟩
  rw [List.mem_append, List.mem_append, List.mem_singleton] at hu
  rcases hu with (hu | hu) | rfl
  · exact absurd (trace_grows hw u hu _ hd) (hnew op)
  · rw [hl u hu]; exact hS
  · rw [hv]; exact hS

/-- **C107**, single objects: every request for one object that is served afterwards gives the object that the API server of the selected cluster
has, and 404 exactly if it has none. -/
theorem C107_get_partial (hw : WRun isPrint eval alg pf conf past w) (hg : ∀ p ∈ cs, (lookup p.1 conf).isSome = true) {n : Nat}
    (hd : Drains isPrint eval alg pf conf cs n w w') (hst : Drained isPrint eval alg pf conf cs w') {l : List World} {v : World}
    (hsv : Serving isPrint eval alg pf conf w' l v) (hord : ord.Perm (parseQuery r.rawQuery)) (hc : Cacheable st r)
    (hr : r.resource ≠ []) {c : Str} (hq : OnlyGets env tord ord r c) {i : Nat} (hnew : ∀ op, Event.call i op ∉ w'.store.trace)
    (hcall : Event.call i (.get r.gvr c r.ns r.resource) ∈ v.store.trace)
    (hret : Event.ret i (.got (st.get r.gvr c r.ns r.resource)) ∈ v.store.trace)
    (hm : (r.gvr, c) ∈ cs) (hp : (w.comp r.gvr c).sys.phase ≠ .done) (ho : Recovers (w.comp r.gvr c).sys) :
    (∃ o o', lookup (r.ns, r.resource) (w.comp r.gvr c).sys.objs = some o ∧ SameButMarks o o' ∧ proxy env st tord ord r = .object o')
     ∨ (lookup (r.ns, r.resource) (w.comp r.gvr c).sys.objs = none ∧ proxy env st tord ord r = .refused .notFound) := by
  obtain ⟨N, hN⟩ := C107_drain hw hg
  obtain ⟨S, hS, hobj, hrec⟩ := (hN n w' hd).2 hst _ _ hm hp
  obtain ⟨⟨past', hw'⟩, _⟩ := drains_run hd hw
  obtain ⟨hv, _, _⟩ := hsv.run_ hw'
  obtain ⟨_, u, hu, hdu, hh⟩ := C106_get hv hord hc hr hq hcall hret
  rw [← hobj]
  exact hh S (serving_waits hw' hsv hnew hS u hu hdu) (hrec ho)

/-- **C107**, lists: every list request for the default cluster that is served afterwards and asks for nothing special shows exactly the
objects that the API server of the default cluster has in the namespace and that satisfy the label selector. -/
theorem C107_list_partial (hconf : ConfOK conf) (hw : WRun isPrint eval alg pf conf past w) (hg : ∀ p ∈ cs, (lookup p.1 conf).isSome = true) {n : Nat}
    (hdr : Drains isPrint eval alg pf conf cs n w w') (hst : Drained isPrint eval alg pf conf cs w') {l : List World} {v : World}
    (hsv : Serving isPrint eval alg pf conf w' l v) (ht : TypesOf conf st) (hord : ord.Perm (parseQuery r.rawQuery))
    (hc : Cacheable st r) (hr : r.resource = []) {q : Query} (hq : OnlyAsks env tord ord r q) {i : Nat}
    (hnew : ∀ op, Event.call i op ∉ w'.store.trace) (hcall : Event.call i (.query r.gvr q) ∈ v.store.trace)
    (hret : Event.ret i (.result (st.query r.gvr q)) ∈ v.store.trace)
    (hm : (r.gvr, env.defaultCluster) ∈ cs) (hp : (w.comp r.gvr env.defaultCluster).sys.phase ≠ .done)
    (ho : Recovers (w.comp r.gvr env.defaultCluster).sys)
    {info : SelInfo} (hi : Reads r info) (hpg : info.paginate = {})
    (hd : env.defaultCluster ≠ []) (hl : validLabelValue env.defaultCluster = true) (he : EmptyNoNaN pf) :
    ∃ (shown : List ((Str × Str) × Obj)) (items : List Obj),
      (∀ e, e ∈ shown ↔ e ∈ (w.comp r.gvr env.defaultCluster).sys.objs ∧ (r.ns = [] ∨ r.ns = e.1.1) ∧ Satisfies info.labels e.2)
      ∧ (shown.map Prod.fst).Nodup ∧ (shown.map Prod.fst).Pairwise NsNameLe
      ∧ List.Forall₂ (fun e o => SameButMarks e.2 o) shown items
      ∧ Shows tord items (proxy env st tord ord r)
      ∧ ∀ v k l rc its, proxy env st tord ord r = .list v k l rc its → rc = 0 := by
  obtain ⟨N, hN⟩ := C107_drain hw hg
  obtain ⟨S, hS, hobj, hrec⟩ := (hN n w' hdr).2 hst _ _ hm hp
  obtain ⟨⟨past', hw'⟩, _⟩ := drains_run hdr hw
  obtain ⟨hv, _, _⟩ := hsv.run_ hw'
  have := C106_list (env := env) (tord := tord) hconf hv ht hord hc hr hq hcall hret (hrec ho)
    (serving_waits hw' hsv hnew hS) hi hpg hd hl he
  rw [hobj] at this
  exact this

/-- **C107**, any search and order: every list request that is served afterwards with a search for the clusters `css` (named by it or the default
cluster) and an order that distinguishes objects shows its page of the list of the objects the API servers of these clusters have. -/
theorem C107_any_partial (hconf : ConfOK conf) (hw : WRun isPrint eval alg pf conf past w) (hg : ∀ p ∈ cs, (lookup p.1 conf).isSome = true) {n : Nat}
    (hdr : Drains isPrint eval alg pf conf cs n w w') (hst : Drained isPrint eval alg pf conf cs w') {l : List World} {v : World}
    (hsv : Serving isPrint eval alg pf conf w' l v) (ht : TypesOf conf st) (hord : ord.Perm (parseQuery r.rawQuery))
    (hc : Cacheable st r) (hr : r.resource = []) {q : Query} (hq : OnlyAsks env tord ord r q) {i : Nat}
    (hnew : ∀ op, Event.call i op ∉ w'.store.trace) (hcall : Event.call i (.query r.gvr q) ∈ v.store.trace)
    (hret : Event.ret i (.result (st.query r.gvr q)) ∈ v.store.trace) {css : List Str} (hm : ∀ c ∈ css, (r.gvr, c) ∈ cs)
    (hp : ∀ c ∈ css, (w.comp r.gvr c).sys.phase ≠ .done) (ho : ∀ c ∈ css, Recovers (w.comp r.gvr c).sys)
    {info : SelInfo} (hi : Reads r info) {search : Str} {qs : List Req} (hset : Restricted env search qs css info.paginate.search)
    (hadv : FirstReqs search qs) (hplain : Separable (lit "cluster") search qs) {ks : List SortKey} (hks : SortMeans info.paginate.sort ks)
    (htot : TotalKeys ks) (hv : ValidPaging info.paginate) (he : EmptyNoNaN pf)
    (hnan : ∀ c ∈ css, ∀ e ∈ (w.comp r.gvr c).sys.objs, ∀ k ∈ ks, k.num = true →
      pf (valueUnder eval (confAt conf r.gvr) ((c, e.1.1, e.1.2), e.2) k.key) ≠ some .nan)
    (hev : ∀ c o idx, o.om.isSome = true → IsIndex eval (confAt conf r.gvr) c o idx →
      ∀ p ∈ searchParts search, ¬ advPrefix <+: p → matchParts isPrint idx [p] ≠ none)
    (hkey : ∀ k ∈ ks, k.key ∈ (confAt conf r.gvr).map Prod.fst ∨ k.key ∈ [lit "cluster", lit "is_deleted", lit "namespace", lit "name"])
    (hnum : ∀ c ∈ css, ∀ e ∈ (w.comp r.gvr c).sys.objs, ∀ k ∈ ks, k.num = true →
      ∃ v, indexValueOf eval (confAt conf r.gvr) c e.2 k.key = some v ∧ (number pf v).isSome = true) :
    ∃ (all : List ((Str × Str × Str) × Obj)) (items : List Obj),
      (∀ e, e ∈ all ↔ e.1.1 ∈ css ∧ (e.1.2, e.2) ∈ (w.comp r.gvr e.1.1).sys.objs ∧ (r.ns = [] ∨ r.ns = e.1.2.1) ∧ Satisfies info.labels e.2
        ∧ ∃ idx, IsIndex eval (confAt conf r.gvr) e.1.1 e.2 idx ∧ KeptConstraints isPrint (lit "cluster") search qs idx)
      ∧ all.Pairwise (KeysLt pf (valueUnder eval (confAt conf r.gvr)) ks)
      ∧ List.Forall₂ (fun e o => SameButMarks e.2 o) all items
      ∧ (proxy env st tord ord r = .refused .outOfPage
          ∨ Shows tord (pageOf info.paginate.page info.paginate.pageSize items) (proxy env st tord ord r))
      ∧ (1 ≤ info.paginate.page → 1 ≤ info.paginate.pageSize → info.paginate.page * info.paginate.pageSize < 9223372036854775808 →
          (all.length : Int) < 9223372036854775808 →
          (proxy env st tord ord r = .refused .outOfPage ↔
            info.paginate.page ≠ 1 ∧ (all.length : Int) ≤ (info.paginate.page - 1) * info.paginate.pageSize)
          ∧ ∀ v k l rc its, proxy env st tord ord r = .list v k l rc its →
              makeupTotal (some rc) its.length info.paginate = all.length) := by
  obtain ⟨N, hN⟩ := C107_drain hw hg
  have hall : ∀ c ∈ css, Waiting (w'.comp r.gvr c).sys (w'.comp r.gvr c) ∧ (w'.comp r.gvr c).sys.objs = (w.comp r.gvr c).sys.objs
      ∧ Received (w'.comp r.gvr c).sys := by
    intro c hcs
    obtain ⟨S, hS, hobj, hrec⟩ := (hN n w' hdr).2 hst _ _ (hm c hcs) (hp c hcs)
    have : S = (w'.comp r.gvr c).sys := hS.1.symm
    subst this
    exact ⟨hS, hobj, hrec (ho c hcs)⟩
  obtain ⟨⟨past', hw'⟩, _⟩ := drains_run hdr hw
  obtain ⟨hv', _, _⟩ := hsv.run_ hw'
  obtain ⟨all, items, h1, h2⟩ := C106_any (env := env) (tord := tord) hconf hv' ht hord hc hr hq hcall hret
    (S := fun c => (w'.comp r.gvr c).sys) (fun c hcs => (hall c hcs).2.2)
    (fun u hu hdu c hcs => serving_waits hw' hsv hnew (hall c hcs).1 u hu hdu) hi hset hadv hplain hks htot hv he
    (fun c hcs e hem => hnan c hcs e (by rw [← (hall c hcs).2.1]; exact hem)) hev hkey
    (fun c hcs e hem => hnum c hcs e (by rw [← (hall c hcs).2.1]; exact hem))
  refine ⟨all, items, fun e => ?_, h2⟩
  rw [h1 e]
  constructor
  · rintro ⟨a, b, c'⟩; exact ⟨a, by rw [← (hall _ a).2.1]; exact b, c'⟩
  · rintro ⟨a, b, c'⟩; exact ⟨a, by rw [(hall _ a).2.1]; exact b, c'⟩

theorem goW_serving {i k : Nat} {x : WHist} (h : Serving isPrint eval alg pf conf w x.1 x.2) :
    Serving isPrint eval alg pf conf w (goW isPrint alg pf i k x).1 (goW isPrint alg pf i k x).2 := by
  induction k generalizing x with
  | zero => exact h
  | succ k ih =>
    obtain ⟨past, v⟩ := x
    unfold goW
    split
    · exact h
    · rename_i σ hs
      exact ih (.run h (CState.stepFn_sound hs))

/-- The store has everything. -/
def exDrained : WHist := wsched (fun _ => true) exEval insertionSort exFloat exConf
  [.invoke exPods (lit "c1"), .go 0 99, .returned exPods (lit "c1"), .invoke exPods (lit "c1"), .go 1 99, .returned exPods (lit "c1"),
   .deliver exPods (lit "c1"), .invoke exPods (lit "c1"), .go 2 99, .returned exPods (lit "c1"),
   .deliver exPods (lit "c1"), .invoke exPods (lit "c1"), .go 3 99, .returned exPods (lit "c1")] exDrainWorld

/-- A request arrives and is served. -/
def exServed (op : COp) : WHist :=
  goW (fun _ => true) insertionSort exFloat 4 99 ([exDrained.2], { exDrained.2 with store := exDrained.2.store.call exEval exConf op })

set_option maxRecDepth 100000 in
example : WRun (fun _ => true) exEval insertionSort exFloat exConf exDrained.1 exDrained.2
    ∧ Drained (fun _ => true) exEval insertionSort exFloat exConf [(exPods, lit "c1")] exDrained.2
    ∧ (exDrained.2.comp exPods (lit "c1")).sys.phase ≠ .done
    ∧ (exDrained.2.comp exPods (lit "c1")).sys.objs = [((lit "prod", lit "db"), exPod "db" "n2")]
    ∧ (let op := COp.get exPods (lit "c1") (lit "prod") (lit "db")
       let x := exServed op
       Serving (fun _ => true) exEval insertionSort exFloat exConf exDrained.2 x.1 x.2
       ∧ Event.call 4 op ∉ exDrained.2.store.trace ∧ Event.call 4 op ∈ x.2.store.trace
       ∧ (answerOf 4 x).map (fun a => match a with | .got v => v.map Obj.body | _ => none) = some (some (lit "n2")))
    ∧ (let op := COp.query exPods exWorldQuery
       let x := exServed op
       let st := answersI exConf (answerOf 4 x)
       Serving (fun _ => true) exEval insertionSort exFloat exConf exDrained.2 x.1 x.2
       ∧ Event.call 4 op ∉ exDrained.2.store.trace ∧ Event.call 4 op ∈ x.2.store.trace
       ∧ Event.ret 4 (.result (st.query exPods exWorldQuery)) ∈ x.2.store.trace
       ∧ (match proxy exEnv st (fun _ m => m) (parseQuery exPlain.rawQuery) exPlain with
          | .list _ _ _ rc items => some (rc, items.map fun o => (o.om.map ObjMeta.name, o.body)) | _ => none)
        = some (0, [(some (lit "db"), lit "n2")])) :=
  ⟨wsched_run _ _ (wsched_run _ _ .start), drained_of (by decide +kernel) (by decide +kernel), by decide +kernel, by decide +kernel,
    ⟨goW_serving (x := ([exDrained.2], _)) (.client .start trivial (by simp)), by decide +kernel, by decide +kernel, by decide +kernel⟩,
    ⟨goW_serving (x := ([exDrained.2], _)) (.client .start (show (lookup exPods exConf).isSome = true by decide +kernel) (by simp)), by decide +kernel, by decide +kernel,
      by decide +kernel, by decide +kernel⟩⟩

end Ckube

import Verif.Lemmas.Twins
import Verif.Props.Watcher

/-! # C124: naming a resource type more than once in the configuration makes no difference -/

namespace Ckube
open Spec

variable {eval : Str → Obj → Str} {conf : List (GVR × List (Str × Str))} {h : List Notice} {s : Store}

/-- **C124**, for any number of watchers of one type of a cluster that tell the same store, however they interleave with each other and with the server: whenever
all of them have an open stream that has delivered something, or the server has an object, and everything sent has been received, the store holds exactly the
objects of the server. Missing for the full claim: a single watcher needs only itself to be connected (`C36_converges_partial`), here one that is not can spoil
what the others keep right (`C124_false`). -/
theorem C124_converges_partial (r : GVR) (c : Str) {n : Nat} (hn : n ≠ 0) {t : Twins} (hsys : TwinRun r c (twins n) t)
    (hopen : ∀ w ∈ t.ws, w.pending = [] ∧ (w.phase = .streaming false ∨ (t.objs ≠ [] ∧ w.phase = .streaming true)))
    (hrun : (newStore conf).run eval h = some s) (hh : h.filter (aboutB r c) = t.out) :
    Holds s r c (fun k => lookup k t.objs) := by
  have hi := (TwinInv.init (key := objKey eval (confAt conf r)) r c n).run (fun o k hk => objKey_of_meta hk) hsys
  have hne : t.ws ≠ [] := by
    have hlen : t.ws.length = n := by
      clear hopen hh hi
      induction hsys with
      | refl => simp [twins]
      | step _ h ih => cases h <;> simpa using ih
    intro hc
    rw [hc] at hlen
    exact hn hlen.symm
  have hfalse : ∀ w ∈ t.ws, w.phase = .streaming false := by
    intro w hw
    obtain ⟨hp, hf | ⟨ho, ht⟩⟩ := hopen w hw
    · exact hf
    · have hs := hi.streams w hw
      unfold StreamOK at hs
      rw [ht, hp] at hs
      cases hob : t.objs with
      | nil => exact absurd hob ho
      | cons e l =>
        have := hs e.1
        rw [hob] at this
        simp [replay, replayOn, lookup] at this
  have hs : ∀ k, cached (objKey eval (confAt conf r)) t.out k = lookup k t.objs := by
    intro k
    rcases hi.cache hne hfalse k with h | ⟨w, hw, e, he, _⟩
    · exact h
    · rw [(hopen w hw).1] at he; cases he
  have hho := holds_cached hrun r c hh hi.about
  have : (fun k => lookup k t.objs) = cached (objKey eval (confAt conf r)) t.out := funext fun k => (hs k).symm
  rw [this]
  exact hho

theorem TwinRun.trans {r : GVR} {c : Str} {s t u : Twins} (h1 : TwinRun r c s t) (h2 : TwinRun r c t u) : TwinRun r c s u := by
  induction h2 with
  | refl => exact h1
  | step _ h ih => exact .step ih h

theorem sum_zero_iff {l : List Nat} : l.sum = 0 ↔ ∀ x ∈ l, x = 0 := by
  induction l with
  | nil => simp
  | cons a l ih => simp [ih]

/-- Everything that the open streams carry can be received, by any number of watchers: they do not block each other. -/
theorem C124_drains (r : GVR) (c : Str) : ∀ (t : Twins), (∀ w ∈ t.ws, ∃ f, w.phase = .streaming f) →
    ∃ u, TwinRun r c t u ∧ u.objs = t.objs ∧ u.ws.length = t.ws.length ∧ ∀ w ∈ u.ws, w.pending = [] ∧ ∃ f, w.phase = .streaming f := by
  suffices key : ∀ (n : Nat) (t : Twins), (t.ws.map fun w => w.pending.length).sum = n → (∀ w ∈ t.ws, ∃ f, w.phase = .streaming f) →
      ∃ u, TwinRun r c t u ∧ u.objs = t.objs ∧ u.ws.length = t.ws.length ∧ ∀ w ∈ u.ws, w.pending = [] ∧ ∃ f, w.phase = .streaming f from
    fun t ht => key _ t rfl ht
  intro n
  induction n with
  | zero =>
    intro t hn ht
    refine ⟨t, .refl t, rfl, rfl, fun w hw => ⟨?_, ht w hw⟩⟩
    have := sum_zero_iff.mp hn w.pending.length (List.mem_map.mpr ⟨w, hw, rfl⟩)
    exact List.length_eq_zero_iff.mp this
  | succ n ih =>
    intro t hn ht
    have hex : ∃ w ∈ t.ws, w.pending ≠ [] := by
      by_contra hc
      push Not at hc
      have : (t.ws.map fun w => w.pending.length).sum = 0 := by
        rw [sum_zero_iff]
        intro x hx
        obtain ⟨w, hw, rfl⟩ := List.mem_map.mp hx
        rw [hc w hw]; rfl
      omega
    obtain ⟨w, hw, hp⟩ := hex
    obtain ⟨i, hi⟩ := List.getElem?_of_mem hw
    have hilt : i < t.ws.length := (List.getElem?_eq_some_iff.mp hi).1
    obtain ⟨f, hf⟩ := ht w hw
    cases hpe : w.pending with
    | nil => exact absurd hpe hp
    | cons e rest =>
      obtain ⟨ty, o⟩ := e
      have hstep : TwinStep r c t ⟨t.objs, t.ws.set i ⟨.streaming false, rest⟩,
          t.out ++ (cleanFirst r c f ++ evNotice r c ty o)⟩ :=
        .own hi (.deliver hpe (by rw [hf]; rfl))
      obtain ⟨u, h1, h2, h3, h4⟩ := ih ⟨t.objs, t.ws.set i ⟨.streaming false, rest⟩, t.out ++ (cleanFirst r c f ++ evNotice r c ty o)⟩ (by
        show ((t.ws.set i ⟨.streaming false, rest⟩).map fun w => w.pending.length).sum = n
        have hsplit : t.ws = t.ws.take i ++ w :: t.ws.drop (i + 1) := by
          have hw' : t.ws[i] = w := by
            have := List.getElem?_eq_getElem hilt
            rw [hi] at this
            exact (Option.some.inj this).symm
          rw [← hw', List.getElem_cons_drop, List.take_append_drop]
        rw [List.set_eq_take_append_cons_drop, if_pos hilt]
        rw [hsplit] at hn
        simp only [List.map_append, List.map_cons, List.sum_append, List.sum_cons, hpe, List.length_cons] at hn ⊢
        omega) (by
        intro x hx
        rcases mem_set_or hx with hx | rfl
        · exact ht x hx
        · exact ⟨false, rfl⟩)
      exact ⟨u, TwinRun.trans (.step (.refl t) hstep) h1, h2, by simpa using h3, h4⟩

/-- Two watchers of pods, a run in which the second reconnects: it empties the cache that the first had filled, and fills it again. -/
example : ∃ t : Twins, TwinRun exPods (lit "c1") (twins 2) t ∧ (∀ w ∈ t.ws, w.pending = [] ∧ w.phase = .streaming false)
    ∧ t.objs.length = 1 ∧ t.out.length = 6 := by
  have k1 : metaKey (exPod "web" "n1") = some (lit "prod", lit "web") := rfl
  have s1 := TwinRun.step (.refl (twins 2)) (TwinStep.create (r := exPods) (c := lit "c1") k1 rfl)
  have s2 := TwinRun.step s1 (.own (i := 0) rfl (.opened (p := .streaming true) (out := []) (List.Perm.refl _) rfl))
  have s3 := TwinRun.step s2 (.own (i := 0) rfl (.deliver (p := .streaming false) rfl rfl))
  have s4 := TwinRun.step s3 (.own (i := 1) rfl (.opened (p := .streaming true) (out := []) (List.Perm.refl _) rfl))
  have s5 := TwinRun.step s4 (.own (i := 1) rfl (.deliver (p := .streaming false) rfl rfl))
  have s6 := TwinRun.step s5 (.own (i := 1) rfl (.closed (p := .connecting) (out := []) rfl))
  have s7 := TwinRun.step s6 (.own (i := 1) rfl (.opened (p := .streaming true) (out := []) (List.Perm.refl _) rfl))
  have s8 := TwinRun.step s7 (.own (i := 1) rfl (.deliver (p := .streaming false) rfl rfl))
  refine ⟨_, s8, ?_, rfl, rfl⟩
  intro w hw
  rcases List.mem_cons.mp hw with rfl | hw
  · exact ⟨rfl, rfl⟩
  · obtain rfl := List.mem_singleton.mp hw
    exact ⟨rfl, rfl⟩

/-- **C124 is false** without the condition on all watchers: both have shown a pod, the pod is changed and deleted, the first watcher has received everything, and the
second one receives the change and then loses its stream. The deleted pod is back in the cache, although the first watcher is connected and up to date; with the
first watcher alone it would not be there. -/
theorem C124_false : ∃ (t : Twins) (s : Store) (w : Watched), TwinRun exPods (lit "c1") (twins 2) t
    ∧ t.ws[0]? = some w ∧ w.pending = [] ∧ w.phase = .streaming false ∧ t.objs.length = 1
    ∧ (newStore exConf).run exEval t.out = some s ∧ lookup (lit "prod", lit "web") t.objs = none
    ∧ (s.get exPods (lit "c1") (lit "prod") (lit "web")).isSome = true := by
  have k1 : metaKey (exPod "web" "n1") = some (lit "prod", lit "web") := rfl
  have k2 : metaKey (exPod "web" "n2") = some (lit "prod", lit "web") := rfl
  have k3 : metaKey (exPod "db" "n1") = some (lit "prod", lit "db") := rfl
  have s1 := TwinRun.step (.refl (twins 2)) (TwinStep.create (r := exPods) (c := lit "c1") k1 rfl)
  have s2 := TwinRun.step s1 (.own (i := 0) rfl (.opened (p := .streaming true) (out := []) (List.Perm.refl _) rfl))
  have s3 := TwinRun.step s2 (.own (i := 1) rfl (.opened (p := .streaming true) (out := []) (List.Perm.refl _) rfl))
  have s4 := TwinRun.step s3 (.own (i := 0) rfl (.deliver (p := .streaming false) rfl rfl))
  have s5 := TwinRun.step s4 (.own (i := 1) rfl (.deliver (p := .streaming false) rfl rfl))
  have s6 := TwinRun.step s5 (.create k3 (by decide +kernel))
  have s7 := TwinRun.step s6 (.update k2 (old := exPod "web" "n1") (by decide +kernel))
  have s8 := TwinRun.step s7 (.delete k2 (old := exPod "web" "n2") (by decide +kernel))
  have s9 := TwinRun.step s8 (.own (i := 0) rfl (.deliver (p := .streaming false) rfl rfl))
  have s10 := TwinRun.step s9 (.own (i := 0) rfl (.deliver (p := .streaming false) rfl rfl))
  have s11 := TwinRun.step s10 (.own (i := 0) rfl (.deliver (p := .streaming false) rfl rfl))
  have s12 := TwinRun.step s11 (.own (i := 1) rfl (.deliver (p := .streaming false) rfl rfl))
  have s13 := TwinRun.step s12 (.own (i := 1) rfl (.deliver (p := .streaming false) rfl rfl))
  have s14 := TwinRun.step s13 (.own (i := 1) rfl (.closed (p := .connecting) (out := []) rfl))
  have hrun : ((newStore exConf).run exEval [.clean exPods (lit "c1"), .added exPods (lit "c1") (exPod "web" "n1"),
      .clean exPods (lit "c1"), .added exPods (lit "c1") (exPod "web" "n1"), .added exPods (lit "c1") (exPod "db" "n1"),
      .modified exPods (lit "c1") (exPod "web" "n2"), .deleted exPods (lit "c1") (exPod "web" "n2"),
      .added exPods (lit "c1") (exPod "db" "n1"), .modified exPods (lit "c1") (exPod "web" "n2")]).map
      (fun s => (s.get exPods (lit "c1") (lit "prod") (lit "web")).isSome) = some true := by decide +kernel
  rw [Option.map_eq_some_iff] at hrun
  obtain ⟨s, hs, hget⟩ := hrun
  exact ⟨_, s, _, s14, rfl, rfl, rfl, by decide +kernel, hs, by decide +kernel, hget⟩

end Ckube

import Verif.Lemmas.Fleet
import Verif.Props.Watcher

/-! # C73, C74, and C35 for all goroutines of a watcher -/

namespace Ckube
open Spec

/-! ## C73 -/

/-- **C73**, partial (missing: that no event is handled): wherever a watcher's goroutines are when `Stop` is called, and whatever
they all do after it in any order (`post`), a goroutine opens at most one more connection, and none unless it was connecting when `Stop` was
called; does at most three things besides receiving events; makes at most one call per event, and one more; does nothing at all
after it found `stop` closed, and after its connection broke or could not be opened nothing but find `stop` closed. Whenever it is not
waiting for a connection it can return at once, without a call. -/
theorem C73_ends_partial {post : List FIn} {f f' : Fleet} {out' : List (Nat × Notice)} (hpost : f.run (.stop :: post) = some (f', out'))
    {i : Nat} {k : GVR × Str} {p : GPhase} (hi : f.gs[i]? = some (k, p)) :
    (doneBy i post).count .opened ≤ (if p = .dialing then 1 else 0)
    ∧ (doneBy i post).length ≤ 3 + eventCount (doneBy i post)
    ∧ (callsBy i out').length ≤ 1 + eventCount (doneBy i post)
    ∧ (∀ a x b, doneBy i post = a ++ x :: b → x = .check ∨ x = .seen → b = [])
    ∧ (∀ a x b, doneBy i post = a ++ x :: b → x = .fail ∨ x = .closed → b = [] ∨ b = [.check])
    ∧ ∃ p', f'.gs[i]? = some (k, p') ∧ (p' = .done ∨ p' = .dialing
      ∨ ∃ x f'', f'.step (.go i x) = some (f'', []) ∧ f''.gs[i]? = some (k, .done)) := by
  rw [Fleet.run] at hpost
  have hns : f.stopped = false := by
    cases hs : f.stopped with
    | false => rfl
    | true => simp [Fleet.step, hs] at hpost
  simp only [Fleet.step, hns, Bool.false_eq_true, if_false, Option.map_eq_some_iff, Prod.mk.injEq, List.nil_append] at hpost
  obtain ⟨⟨f1, o1⟩, hrun, rfl, rfl⟩ := hpost
  obtain ⟨p', e1, e2⟩ := Fleet.after post hrun rfl hi
  have hE := Ends.all e2
  refine ⟨hE.conns, hE.steps, hE.calls, hE.last, hE.broke, p', e1, ?_⟩
  have hst : f1.stopped = true := by
    have : ∀ (xs : List FIn) {g g' : Fleet} {o : List (Nat × Notice)}, g.run xs = some (g', o) → g.stopped = true → g'.stopped = true := by
      intro xs
      induction xs with
      | nil => intro g g' o h hg; simp only [Fleet.run, Option.some.injEq, Prod.mk.injEq] at h; rw [← h.1]; exact hg
      | cons x xs ih =>
        intro g g' o h hg
        rw [Fleet.run] at h
        cases hs : g.step x with
        | none => rw [hs] at h; cases h
        | some y =>
          obtain ⟨g1, o1⟩ := y
          rw [hs] at h
          simp only [Option.map_eq_some_iff, Prod.mk.injEq] at h
          obtain ⟨⟨g2, o2⟩, hz, rfl, _⟩ := h
          refine ih hz ?_
          cases x with
          | stop => simp [Fleet.step, hg] at hs
          | go j y =>
            simp only [Fleet.step] at hs
            split at hs
            · cases hs
            · simp only [Option.map_eq_some_iff, Prod.mk.injEq] at hs
              obtain ⟨_, _, rfl, _⟩ := hs
              exact hg
    exact this post hrun rfl
  have hlt := (List.getElem?_eq_some_iff.mp e1).1
  cases p' with
  | done => exact Or.inl rfl
  | dialing => exact Or.inr (Or.inl rfl)
  | head =>
    refine Or.inr (Or.inr ⟨.check, { f1 with gs := f1.gs.set i (k, .done) }, ?_, ?_⟩)
    · simp only [Fleet.step, e1, gstep, hst, if_true, Option.map_some, List.map_nil]
    · simp [hlt]
  | streaming first =>
    refine Or.inr (Or.inr ⟨.seen, { f1 with gs := f1.gs.set i (k, .done) }, ?_, ?_⟩)
    · simp only [Fleet.step, e1, gstep, hst, if_true, Option.map_some, List.map_nil]
    · simp [hlt]

/-- Two types of two clusters: when `Stop` is called one goroutine is connecting, one has a stream, one could not connect, one has
not begun; afterwards the first opens its stream and receives an event. -/
def exFleetPre : List FIn :=
  [.go 0 .check, .go 1 .check, .go 1 .opened, .go 2 .check, .go 1 (.event .added (exPod "web" "n1")), .go 2 .fail]
def exFleetPost : List FIn :=
  [.go 0 .opened, .go 3 .check, .go 1 .closed, .go 0 (.event .added (exPod "web" "n2")), .go 2 .check, .go 0 .seen, .go 1 .check]

example : (((startFleet [exPods, exNodes] [lit "c1", lit "c2"]).run exFleetPre).bind fun x => x.1.run (.stop :: exFleetPost)).map
      (fun y => (y.1.gs.map Prod.snd, (callsBy 0 y.2).length, (doneBy 0 exFleetPost).count .opened, eventCount (doneBy 0 exFleetPost)))
    = some ([.done, .done, .done, .done], 2, 1, 1) := by decide +kernel

/-- **C73 is false**: Go takes either ready case of a `select`, so a goroutine may handle any number of events that come
after `Stop`. -/
theorem C73_false (n : Nat) : ∃ f out, (startFleet [exPods] [lit "c1"]).run
      ([.go 0 .check, .go 0 .opened, .stop] ++ List.replicate n (.go 0 (.event .added (exPod "web" "n1")))) = some (f, out)
    ∧ n ≤ (callsBy 0 out).length := by
  have hgen : ∀ (n : Nat) (first : Bool), ∃ f out, (Fleet.mk true [((exPods, lit "c1"), .streaming first)]).run
      (List.replicate n (.go 0 (.event .added (exPod "web" "n1")))) = some (f, out) ∧ n ≤ (callsBy 0 out).length := by
    intro n
    induction n with
    | zero => intro first; exact ⟨_, [], rfl, Nat.zero_le _⟩
    | succ n ih =>
      intro first
      obtain ⟨f, out, h1, h2⟩ := ih false
      refine ⟨f, (cleanFirst exPods (lit "c1") first ++ evNotice exPods (lit "c1") .added (exPod "web" "n1")).map (fun x => (0, x)) ++ out,
        ?_, ?_⟩
      · simp only [List.replicate_succ, Fleet.run, Fleet.step, List.getElem?_cons_zero, gstep, Option.map_some, List.set_cons_zero]
        rw [h1]
        rfl
      · rw [callsBy_append, callsBy_map, if_pos rfl, List.length_append, List.length_append]
        simp only [evNotice, List.length_cons, List.length_nil]
        omega
  obtain ⟨f, out, h1, h2⟩ := hgen n true
  refine ⟨f, out, ?_, h2⟩
  rw [Fleet.run_append]
  have : (startFleet [exPods] [lit "c1"]).run [.go 0 .check, .go 0 .opened, .stop]
      = some (⟨true, [((exPods, lit "c1"), .streaming true)]⟩, []) := rfl
  rw [this]
  simp only [Option.bind_some, h1, Option.map_some, List.nil_append]

/-! ## C35 for a whole watcher -/

variable {eval : Str → Obj → Str} {conf : List (GVR × List (Str × Str))} {s : Store}

/-- **C35** for a started watcher: no type is listed twice, and the goroutines of all types and clusters run in any order and are
stopped or not. For each listed type and each cluster there is one goroutine; once the stream it opened last has delivered something
(`cur`), the cache of the type and cluster is exactly the replay of the events of this stream on an empty cache, whatever all
other goroutines do. -/
theorem C35_fleet {types : List GVR} {clusters : List Str} (ht : types.Nodup) (hc : clusters.Nodup) {r : GVR} {c : Str}
    (hr : r ∈ types) (hcl : c ∈ clusters) :
    ∃ i : Nat, (startFleet types clusters).gs[i]? = some ((r, c), .head)
    ∧ (∀ (j : Nat) q, (startFleet types clusters).gs[j]? = some ((r, c), q) → j = i)
    ∧ ∀ (ins : List FIn) (f : Fleet) (out : List (Nat × Notice)), (startFleet types clusters).run ins = some (f, out) →
      (newStore conf).run eval (out.map Prod.snd) = some s →
      ∀ (pre post : List GIn) (cur : List (EvType × Obj)), cur ≠ [] →
      doneBy i ins = pre ++ .opened :: (cur.map fun e => GIn.event e.1 e.2) ++ post →
      (∀ x ∈ post, x = .check ∨ x = .fail ∨ x = .closed ∨ x = .seen) →
      Holds s r c (replay (objKey eval (confAt conf r)) cur) := by
  obtain ⟨i, hi⟩ := startFleet_exists hr hcl
  have hu : ∀ (j : Nat) q, (startFleet types clusters).gs[j]? = some ((r, c), q) → j = i :=
    fun j q hj => startFleet_unique ht hc hj hi
  refine ⟨i, hi, hu, ?_⟩
  intro ins f out hrun hst pre post cur hcur hdone hpost
  obtain ⟨p', ws, _, hws, hw⟩ := Fleet.goroutine ins hrun hi
  have hcur' : (cur.map fun e => GIn.event e.1 e.2).filterMap GIn.plain = cur.map fun e => WIn.event e.1 e.2 := by
    clear hcur hdone
    induction cur with
    | nil => rfl
    | cons e cur ih => simp only [List.map_cons, List.filterMap_cons, GIn.plain, ih]
  have hfm : (doneBy i ins).filterMap GIn.plain = pre.filterMap GIn.plain ++ .opened :: (cur.map fun e => WIn.event e.1 e.2)
      ++ post.filterMap GIn.plain := by
    rw [hdone, List.filterMap_append, List.filterMap_append, List.filterMap_cons, ← hcur']
    rfl
  have hpost' : ∀ w ∈ post.filterMap GIn.plain, w = .fail ∨ w = .closed ∨ w = .stop := by
    intro w hw
    obtain ⟨x, hx, hxw⟩ := List.mem_filterMap.mp hw
    rcases hpost x hx with rfl | rfl | rfl | rfl <;> simp [GIn.plain] at hxw <;> simp [← hxw]
  have hh := Fleet.calls_about hrun hi hu
  rcases hws with rfl | rfl
  · rw [hfm] at hw
    exact C35_replay hst r c _ _ cur hcur hpost' hw hh
  · rw [hfm, List.append_assoc] at hw
    refine C35_replay hst r c _ _ cur hcur ?_ hw hh
    intro w hw
    rcases List.mem_append.mp hw with hw | hw
    · exact hpost' w hw
    · simp only [List.mem_singleton] at hw; subst hw; exact Or.inr (Or.inr rfl)

/-- The example above: the first goroutine's last stream delivered one event, among the calls of two goroutines. -/
example : ((startFleet [exPods, exNodes] [lit "c1", lit "c2"]).run (exFleetPre ++ .stop :: exFleetPost)).map
      (fun y => (y.2.map Prod.fst)) = some [1, 1, 0, 0]
    ∧ doneBy 0 (exFleetPre ++ .stop :: exFleetPost) = [.check] ++ .opened :: ([(EvType.added, exPod "web" "n2")].map
      fun e => GIn.event e.1 e.2) ++ [.seen] := by
  refine ⟨by decide +kernel, by decide +kernel⟩

/-! ## C74 -/

/-- **C74**, partial (missing: a stream that has delivered nothing, of a server without objects of the type, as in C36; and that
reads do not change meanwhile): any number of watchers of one type and cluster with a stream of their own, an API server with any history of
creations, updates and deletions, broken streams and failed connections. Whenever all streams are open, all their events have been
consumed, and each delivered something or the server has an object, the cache of the type and cluster holds exactly the objects
of the server. -/
theorem C74_converges_partial (r : GVR) (c : Str) (n : Nat) {t : Crowd}
    (hsys : CrowdRun r c { peers := List.replicate (n + 1) {} } t)
    (hopen : ∀ w ∈ t.peers, w.pending = [] ∧ ∃ f, w.phase = .streaming f ∧ (f = false ∨ t.objs ≠ [] ∨ Emptied t.out))
    {h : List Notice} (hrun : (newStore conf).run eval h = some s) (hh : h.filter (aboutB r c) = t.out) :
    Holds s r c (fun k => lookup k t.objs) := by
  have hinit : CrowdInv (objKey eval (confAt conf r)) r c { peers := List.replicate (n + 1) {} } (fun _ _ => none) := by
    refine ⟨isMap_nil, by simp, by simp, ?_, ?_⟩
    · intro i w f hw hf
      rw [List.getElem?_replicate] at hw
      split at hw
      · cases hw; cases hf
      · cases hw
    · intro k; exact ⟨0, rfl, by simp⟩
  obtain ⟨v, hi⟩ := hinit.run (fun o k hk => objKey_of_meta hk) hsys
  have hho := holds_cached hrun r c hh hi.about
  have : cached (objKey eval (confAt conf r)) t.out = fun k => lookup k t.objs := by
    funext k
    obtain ⟨i, h1, h2⟩ := hi.cache k
    rw [h1]
    obtain ⟨hp, f, hf, hsome⟩ := hopen t.peers[i] (List.getElem_mem h2)
    have hs := fun k => hi.stream i t.peers[i] f (List.getElem?_eq_getElem h2) hf k
    rw [hp] at hs
    cases f with
    | false => simpa [replayOn] using hs k
    | true =>
      rcases hsome with hsome | hne | he
      · cases hsome
      · cases ho : t.objs with
        | nil => exact absurd ho hne
        | cons e l =>
          have := hs e.1
          rw [ho] at this
          simp [replayOn, lookup] at this
      · rw [← h1, emptied_cached he, ← hs k]
        rfl
  rw [this] at hho
  exact hho

/-- Two watchers; a pod is changed after the first has received it and before the second has. -/
example : ∃ t : Crowd, CrowdRun exPods (lit "c1") { peers := List.replicate 2 {} } t
    ∧ (t.peers.all fun w => w.pending.isEmpty && decide (w.phase = .streaming false)) = true ∧ t.objs.length = 1 ∧ t.out.length = 6 := by
  have k1 : metaKey (exPod "web" "n1") = some (lit "prod", lit "web") := rfl
  have k2 : metaKey (exPod "web" "n2") = some (lit "prod", lit "web") := rfl
  have s1 := CrowdRun.step (.refl { peers := List.replicate 2 {} }) (CrowdStep.create (r := exPods) (c := lit "c1") k1 rfl)
  have s2 := CrowdRun.step s1 (.opened (i := 0) (w := {}) (p := .streaming true) (out := []) rfl (List.Perm.refl _) rfl)
  have s3 := CrowdRun.step s2 (.opened (i := 1) (w := {}) (p := .streaming true) (out := []) rfl (List.Perm.refl _) rfl)
  have s4 := CrowdRun.step s3 (.deliver (i := 0) (w := ⟨.streaming true, [(.added, exPod "web" "n1")]⟩) (p := .streaming false)
    (t := .added) (o := exPod "web" "n1") (rest := []) rfl rfl rfl)
  have s5 := CrowdRun.step s4 (.update k2 (old := exPod "web" "n1") rfl)
  have s6 := CrowdRun.step s5 (.deliver (i := 0) (w := ⟨.streaming false, [(.modified, exPod "web" "n2")]⟩) (p := .streaming false)
    (t := .modified) (o := exPod "web" "n2") (rest := []) rfl rfl rfl)
  have s7 := CrowdRun.step s6 (.deliver (i := 1) (w := ⟨.streaming true, [(.added, exPod "web" "n1"), (.modified, exPod "web" "n2")]⟩)
    (p := .streaming false) (t := .added) (o := exPod "web" "n1") (rest := [(.modified, exPod "web" "n2")]) rfl rfl rfl)
  have s8 := CrowdRun.step s7 (.deliver (i := 1) (w := ⟨.streaming false, [(.modified, exPod "web" "n2")]⟩)
    (p := .streaming false) (t := .modified) (o := exPod "web" "n2") (rest := []) rfl rfl rfl)
  exact ⟨_, s8, by decide +kernel, by decide +kernel, by decide +kernel⟩

/-- **C74 is false** for the time in between: two pods exist and the first watcher has cached both; when the second watcher receives
its first event it clears the cache, and a pod that exists and whose stream never broke can not be read. -/
theorem C74_false : ∃ (t u : Crowd) (s s' : Store), CrowdRun exPods (lit "c1") { peers := List.replicate 2 {} } t
    ∧ CrowdStep exPods (lit "c1") t u ∧ u.objs = t.objs ∧ (lookup (lit "prod", lit "db") u.objs).isSome = true
    ∧ (newStore exConf).run exEval t.out = some s ∧ (s.get exPods (lit "c1") (lit "prod") (lit "db")).isSome = true
    ∧ (newStore exConf).run exEval u.out = some s' ∧ s'.get exPods (lit "c1") (lit "prod") (lit "db") = none := by
  have k1 : metaKey (exPod "web" "n1") = some (lit "prod", lit "web") := rfl
  have k2 : metaKey (exPod "db" "n1") = some (lit "prod", lit "db") := rfl
  have s1 := CrowdRun.step (.refl { peers := List.replicate 2 {} }) (CrowdStep.create (r := exPods) (c := lit "c1") k1 rfl)
  have s2 := CrowdRun.step s1 (CrowdStep.create (r := exPods) (c := lit "c1") k2 (by decide +kernel))
  have s3 := CrowdRun.step s2 (.opened (i := 0) (w := {}) (p := .streaming true) (out := []) rfl (List.Perm.refl _) rfl)
  have s4 := CrowdRun.step s3 (.opened (i := 1) (w := {}) (p := .streaming true) (out := []) rfl (List.Perm.refl _) rfl)
  have s5 := CrowdRun.step s4 (.deliver (i := 0) (w := ⟨.streaming true, [(.added, exPod "web" "n1"), (.added, exPod "db" "n1")]⟩)
    (p := .streaming false) (t := .added) (o := exPod "web" "n1") (rest := [(.added, exPod "db" "n1")]) rfl rfl rfl)
  have s6 := CrowdRun.step s5 (.deliver (i := 0) (w := ⟨.streaming false, [(.added, exPod "db" "n1")]⟩)
    (p := .streaming false) (t := .added) (o := exPod "db" "n1") (rest := []) rfl rfl rfl)
  refine ⟨_, _, _, _, s6, .deliver (i := 1) (w := ⟨.streaming true, [(.added, exPod "web" "n1"), (.added, exPod "db" "n1")]⟩)
      (p := .streaming false) (t := .added) (o := exPod "web" "n1") (rest := [(.added, exPod "db" "n1")]) rfl rfl rfl,
    rfl, by decide +kernel, Option.some_get (show ((newStore exConf).run exEval
      [.clean exPods (lit "c1"), .added exPods (lit "c1") (exPod "web" "n1"), .added exPods (lit "c1") (exPod "db" "n1")]).isSome = true
      by decide +kernel) |>.symm, by decide +kernel, Option.some_get (show ((newStore exConf).run exEval
      [.clean exPods (lit "c1"), .added exPods (lit "c1") (exPod "web" "n1"), .added exPods (lit "c1") (exPod "db" "n1"),
       .clean exPods (lit "c1"), .added exPods (lit "c1") (exPod "web" "n1")]).isSome = true by decide +kernel) |>.symm,
    by decide +kernel⟩

end Ckube

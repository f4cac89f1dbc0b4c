import Verif.Spec.Generations
import Verif.Lemmas.World
import Verif.Props.Reload

/-! # Generations: each of them is a run of its own -/

namespace Ckube
open Spec

variable {kubeArg : Bool} {isPrint : Nat → Bool} {eval : Str → Obj → Str} {alg : SliceSort} {pf : Str → Option GoFloat}

theorem set_comp (w : Spec.World) (g : GVR) (c : Str) (k : Comp) (g' : GVR) (c' : Str) :
    (w.set g c k).comp g' c' = if g' = g ∧ c' = c then k else w.comp g' c' := rfl

/-- A change of an API server is a step of a generation. -/
theorem changed_step {conf : List (GVR × List (Str × Str))} {w : Spec.World} {g : GVR} {c : Str} {l : List ((Str × Str) × Obj)}
    {e : EvType × Obj} (h : Change (w.comp g c).sys.objs l e) : WStep isPrint eval alg pf conf w (w.changed g c l e) := by
  generalize ho : (w.comp g c).sys.objs = l0 at h
  cases h with
  | create hk hn => subst ho; exact .server (.create hk hn) rfl rfl
  | update hk hn => subst ho; exact .server (.update hk hn) rfl rfl
  | delete hk hn => subst ho; exact .server (.delete hk hn) rfl rfl

theorem newWorld_changed (conf : List (GVR × List (Str × Str))) (api : GVR → Str → List ((Str × Str) × Obj)) (g : GVR) (c : Str)
    (l : List ((Str × Str) × Obj)) (e : EvType × Obj) :
    (newWorld conf api).changed g c l e = newWorld conf fun g' c' => if g' = g ∧ c' = c then l else api g' c' := by
  unfold newWorld World.changed World.set
  congr 1
  funext g' c'
  by_cases h : g' = g ∧ c' = c
  · simp only [if_pos h]; rfl
  · simp only [if_neg h]

theorem changed_objs (w : Spec.World) (g : GVR) (c : Str) (l : List ((Str × Str) × Obj)) (e : EvType × Obj) (g' : GVR) (c' : Str) :
    ((w.changed g c l e).comp g' c').sys.objs = if g' = g ∧ c' = c then l else (w.comp g' c').sys.objs := by
  unfold World.changed
  rw [set_comp]
  split <;> rfl

theorem changed_phase (w : Spec.World) (g : GVR) (c : Str) (l : List ((Str × Str) × Obj)) (e : EvType × Obj) (g' : GVR) (c' : Str) :
    ((w.changed g c l e).comp g' c').sys.phase = (w.comp g' c').sys.phase := by
  unfold World.changed
  rw [set_comp]
  split
  · rename_i h; rw [h.1, h.2]
  · rfl

/-- Generation `i` has made a run of its own, whose states are those the whole has passed through. -/
def GenOk (isPrint : Nat → Bool) (eval : Str → Obj → Str) (alg : SliceSort) (pf : Str → Option GoFloat) (past : List Whole) (W : Whole)
    (i : Nat) (x : Gen) : Prop :=
  (∀ g c, (x.world.comp g c).sys.objs = W.api g c)
  ∧ ∃ own, WRun isPrint eval alg pf x.conf own x.world
    ∧ ∀ u ∈ own, u.store.trace = [] ∨ ∃ V ∈ past, V.gens[i]? = some ⟨x.conf, u⟩

structure WholeInv (isPrint : Nat → Bool) (eval : Str → Obj → Str) (alg : SliceSort) (pf : Str → Option GoFloat) (past : List Whole)
    (W : Whole) : Prop where
  gens : ∀ i x, W.gens[i]? = some x → GenOk isPrint eval alg pf past W i x
  fresh : ∀ conf, ∃ own, WRun isPrint eval alg pf conf own (newWorld conf W.api) ∧ ∀ u ∈ own, u.store.trace = []

theorem wholeInv (h : WholeRun kubeArg isPrint eval alg pf past W) : WholeInv isPrint eval alg pf past W := by
  induction h with
  | start hb =>
    have hnew : ∀ conf, WRun isPrint eval alg pf conf [] (newWorld conf fun _ _ => []) := fun conf => .start
    refine ⟨?_, fun conf => ⟨[], hnew conf, by simp⟩⟩
    intro i x hx
    cases i with
    | succ i => simp [bootWhole] at hx
    | zero =>
      simp only [bootWhole, List.getElem?_cons_zero, Option.some.injEq] at hx
      subst hx
      exact ⟨fun _ _ => rfl, [], hnew _, by simp⟩
  | @step past W W' h hs ih =>
    -- the states passed through
    have keep : ∀ {i : Nat} {x x' : Gen}, W.gens[i]? = some x → GenOk isPrint eval alg pf past W i x → x'.conf = x.conf →
        WStep isPrint eval alg pf x.conf x.world x'.world →
        ∃ own, WRun isPrint eval alg pf x'.conf own x'.world
          ∧ ∀ u ∈ own, u.store.trace = [] ∨ ∃ V ∈ past ++ [W], V.gens[i]? = some ⟨x'.conf, u⟩ := by
      intro i x x' hx ⟨_, own, h1, h2⟩ hc hst
      rw [hc]
      refine ⟨own ++ [x.world], .step h1 hst, ?_⟩
      intro u hu
      rw [List.mem_append, List.mem_singleton] at hu
      rcases hu with hu | rfl
      · rcases h2 u hu with h2 | ⟨V, hV, hg⟩
        · exact Or.inl h2
        · exact Or.inr ⟨V, List.mem_append_left _ hV, hg⟩
      · exact Or.inr ⟨W, by simp, hx⟩
    have same : ∀ {i : Nat} {x : Gen}, GenOk isPrint eval alg pf past W i x →
        ∃ own, WRun isPrint eval alg pf x.conf own x.world
          ∧ ∀ u ∈ own, u.store.trace = [] ∨ ∃ V ∈ past ++ [W], V.gens[i]? = some ⟨x.conf, u⟩ := by
      intro i x ⟨_, own, h1, h2⟩
      refine ⟨own, h1, fun u hu => ?_⟩
      rcases h2 u hu with h2 | ⟨V, hV, hg⟩
      · exact Or.inl h2
      · exact Or.inr ⟨V, List.mem_append_left _ hV, hg⟩
    cases hs with
    | @change g c l e hch =>
      refine ⟨?_, ?_⟩
      · intro i x' hx'
        simp only [Whole.changed, List.getElem?_map, Option.map_eq_some_iff] at hx'
        obtain ⟨x, hx, rfl⟩ := hx'
        have ok := ih.gens i x hx
        refine ⟨?_, keep hx ok rfl (changed_step (by rw [ok.1]; exact hch))⟩
        intro g' c'
        show ((x.world.changed g c l e).comp g' c').sys.objs = if g' = g ∧ c' = c then l else W.api g' c'
        rw [changed_objs, ok.1]
      · intro conf
        obtain ⟨own, h1, h2⟩ := ih.fresh conf
        refine ⟨own ++ [newWorld conf W.api], ?_, ?_⟩
        · have := WRun.step h1 (changed_step (g := g) (c := c) (l := l) (e := e) hch)
          rwa [newWorld_changed] at this
        · intro u hu
          rw [List.mem_append, List.mem_singleton] at hu
          rcases hu with hu | rfl
          · exact h2 u hu
          · rfl
    | @act j x w hj hst ho hd =>
      refine ⟨?_, ih.fresh⟩
      intro i x' hx'
      simp only [List.getElem?_set] at hx'
      split at hx'
      · rename_i hji
        subst hji
        split at hx'
        · simp only [Option.some.injEq] at hx'
          subst hx'
          have ok := ih.gens j x hj
          exact ⟨fun g c => (ho g c).trans (ok.1 g c), keep hj ok rfl hst⟩
        · simp at hx'
      · have ok := ih.gens i x' hx'
        exact ⟨ok.1, same ok⟩
    | reload hp hn =>
      refine ⟨?_, ih.fresh⟩
      intro i x hx
      have ok := ih.gens i x hx
      exact ⟨ok.1, same ok⟩
    | make hp hc =>
      refine ⟨?_, ih.fresh⟩
      intro i x hx
      simp only [List.getElem?_append] at hx
      split at hx
      · have ok := ih.gens i x hx
        exact ⟨ok.1, same ok⟩
      · generalize i - W.gens.length = k at hx
        cases k with
        | succ k => simp at hx
        | zero =>
          simp only [List.getElem?_cons_zero, Option.some.injEq] at hx
          subst hx
          obtain ⟨own, h1, h2⟩ := ih.fresh W.proc.w.conf.indexConf
          exact ⟨fun _ _ => rfl, own, h1, fun u hu => Or.inl (h2 u hu)⟩

/-! ## The process -/

/-- The store `i` is filled by a watcher that has not been stopped, for these clusters, and was made for this configuration. -/
def Fills (W : Whole) (i : Nat) (cs : List Str) : Prop :=
  W.proc.w.watchers[i]? = some ⟨i, W.proc.w.conf.types, cs, 0⟩ ∧ ∃ x, W.gens[i]? = some x ∧ x.conf = W.proc.w.conf.indexConf

structure ProcInv (W : Whole) : Prop where
  lenG : W.gens.length = W.proc.w.stores.length
  lenW : W.proc.w.watchers.length = W.proc.w.stores.length
  fills : ∀ (i : Nat) (y : WatcherS), W.proc.w.watchers[i]? = some y → y.fills = i
  running : ∃ y, W.proc.w.watchers[W.proc.w.current]? = some y ∧ y.stops = 0
  at_ : match W.proc.pc with
    | .idle => W.proc.w.current = W.proc.w.served ∧ Fills W W.proc.w.served W.proc.w.clients
    | .configured _ => True
    | .started cs rw rs => rw = rs ∧ W.proc.w.current ≠ rs ∧ Fills W rs cs
    | .stopped cs rs => W.proc.w.current = rs ∧ Fills W rs cs
    | .stored cs => W.proc.w.current = W.proc.w.served ∧ Fills W W.proc.w.served cs
  alive : ∀ (i : Nat) (y : WatcherS) (x : Gen), W.proc.w.watchers[i]? = some y → y.stops = 0 → W.gens[i]? = some x → ∀ g c, (x.world.comp g c).sys.phase ≠ .done

theorem procInv (h : WholeRun kubeArg isPrint eval alg pf past W) : ProcInv W := by
  induction h with
  | @start f w hb =>
    unfold bootWorld at hb
    cases hf : findConf kubeArg f with
    | none => simp [hf] at hb
    | some x =>
      simp [hf] at hb
      subst hb
      refine ⟨rfl, rfl, ?_, ⟨_, rfl, rfl⟩, ⟨rfl, rfl, _, rfl, rfl⟩, ?_⟩
      · intro i y hy
        cases i with
        | zero => simp [bootWhole] at hy; simp [← hy]
        | succ i => simp [bootWhole] at hy
      · intro i y z _ _ hz g c
        cases i with
        | zero =>
          simp only [bootWhole, List.getElem?_cons_zero, Option.some.injEq] at hz
          subst hz
          simp [newWorld]
        | succ i => simp [bootWhole] at hz
  | @step past W W' h hs ih =>
    -- generations that keep their configuration
    have fl : ∀ {V : Whole} {i : Nat} {cs : List Str}, V.proc.w.watchers = W.proc.w.watchers → V.proc.w.conf = W.proc.w.conf →
        (∀ x, W.gens[i]? = some x → ∃ x', V.gens[i]? = some x' ∧ x'.conf = x.conf) → Fills W i cs → Fills V i cs := by
      intro V i cs h1 h2 h3 ⟨f1, x, f2, f3⟩
      obtain ⟨x', g1, g2⟩ := h3 x f2
      exact ⟨by rw [h1, h2]; exact f1, x', g1, by rw [g2, f3, h2]⟩
    have moved : ∀ {V : Whole}, V.proc = W.proc → V.gens.length = W.gens.length →
        (∀ (i : Nat) x, W.gens[i]? = some x → ∃ x', V.gens[i]? = some x' ∧ x'.conf = x.conf) →
        (∀ (i : Nat) (y : WatcherS) (x' : Gen), W.proc.w.watchers[i]? = some y → y.stops = 0 → V.gens[i]? = some x' → ∃ x, W.gens[i]? = some x ∧
          ∀ g c, (x'.world.comp g c).sys.phase = .done → (x.world.comp g c).sys.phase = .done) → ProcInv V := by
      intro V hp hl hk hal
      refine ⟨by rw [hl, hp]; exact ih.lenG, by rw [hp]; exact ih.lenW, by rw [hp]; exact ih.fills, by rw [hp]; exact ih.running, ?_, ?_⟩
      · have := ih.at_
        rw [hp]
        cases hpc : W.proc.pc with
        | idle => rw [hpc] at this; exact ⟨this.1, fl (by rw [hp]) (by rw [hp]) (hk _) this.2⟩
        | configured cs => trivial
        | started cs rw' rs => rw [hpc] at this; exact ⟨this.1, this.2.1, fl (by rw [hp]) (by rw [hp]) (hk _) this.2.2⟩
        | stopped cs rs => rw [hpc] at this; exact ⟨this.1, fl (by rw [hp]) (by rw [hp]) (hk _) this.2⟩
        | stored cs => rw [hpc] at this; exact ⟨this.1, fl (by rw [hp]) (by rw [hp]) (hk _) this.2⟩
      · intro i y x' hy h0 hx' g c hd
        rw [hp] at hy
        obtain ⟨x, hx, hb⟩ := hal i y x' hy h0 hx'
        exact ih.alive i y x hy h0 hx g c (hb g c hd)
    cases hs with
    | @change g c l e hch =>
      refine moved rfl (by simp [Whole.changed]) ?_ ?_
      · intro i x hx
        exact ⟨{ x with world := x.world.changed g c l e }, by simp only [Whole.changed, List.getElem?_map, hx, Option.map_some], rfl⟩
      · intro i y x' _ _ hx'
        simp only [Whole.changed, List.getElem?_map, Option.map_eq_some_iff] at hx'
        obtain ⟨x, hx, rfl⟩ := hx'
        refine ⟨x, hx, fun g' c' hd => ?_⟩
        have : ((x.world.changed g c l e).comp g' c').sys.phase = .done := hd
        rwa [changed_phase] at this
    | @act j x w hj hst ho hd =>
      have hjl : j < W.gens.length := by
        rcases Nat.lt_or_ge j W.gens.length with h | h
        · exact h
        · rw [List.getElem?_eq_none h] at hj; simp at hj
      refine moved rfl (by simp) ?_ ?_
      · intro i z hz
        by_cases hij : j = i
        · subst hij
          rw [hj, Option.some.injEq] at hz
          subst hz
          exact ⟨{ x with world := w }, by simp [hjl], rfl⟩
        · exact ⟨z, by rw [List.getElem?_set, if_neg hij]; exact hz, rfl⟩
      · intro i y z hy h0 hz
        simp only [List.getElem?_set] at hz
        split at hz
        · rename_i hji
          subst hji
          simp only [Option.some.injEq] at hz
          subst hz
          exact ⟨x, hj, hd y (List.mem_of_getElem? hy) (ih.fills _ _ hy) h0⟩
        · exact ⟨z, hz, fun _ _ => id⟩
    | @reload f p hp hn =>
      have hat := ih.at_
      unfold Proc.step at hp
      cases hpc : W.proc.pc with
      | idle =>
        rw [hpc] at hp hat
        simp only at hp hat
        split at hp
        · simp only [Option.some.injEq] at hp
          subst hp
          exact ⟨ih.lenG, ih.lenW, ih.fills, ih.running, by simp only [hpc]; exact hat, ih.alive⟩
        · simp only [Option.some.injEq] at hp
          subst hp
          exact ⟨ih.lenG, ih.lenW, ih.fills, ih.running, trivial, ih.alive⟩
      | configured cs => exact absurd hpc (hn cs)
      | started cs rw' rs =>
        rw [hpc] at hp hat
        simp only at hp hat
        obtain ⟨rfl, hne, hfl⟩ := hat
        rw [Option.map_eq_some_iff] at hp
        obtain ⟨ws, hws, rfl⟩ := hp
        obtain ⟨y, hy, hy0⟩ := ih.running
        obtain ⟨ws', k1, k2, k3, k4⟩ := stopAt_some _ _ _ hy hy0
        rw [hws, Option.some.injEq] at k1
        subst k1
        refine ⟨ih.lenG, k2.trans ih.lenW, ?_, ?_, ⟨rfl, ?_⟩, ?_⟩
        · intro i z hz
          by_cases hi : i = W.proc.w.current
          · subst hi
            have hz : ws[W.proc.w.current]? = some z := hz
            rw [k3, Option.some.injEq] at hz
            subst hz
            exact ih.fills _ y hy
          · exact ih.fills i z (by rw [← k4 i hi]; exact hz)
        · exact ⟨_, by show ws[_]? = _; rw [k4 _ (Ne.symm hne)]; exact hfl.1, rfl⟩
        · exact ⟨by show ws[_]? = _; rw [k4 _ (Ne.symm hne)]; exact hfl.1, hfl.2⟩
        · intro i z x hz h0 hx
          by_cases hi : i = W.proc.w.current
          · subst hi
            have hz : ws[W.proc.w.current]? = some z := hz
            rw [k3, Option.some.injEq] at hz
            subst hz
            simp at h0
          · exact ih.alive i z x (by rw [← k4 i hi]; exact hz) h0 hx
      | stopped cs rs =>
        rw [hpc] at hp hat
        simp only [Option.some.injEq] at hp hat
        subst hp
        exact ⟨ih.lenG, ih.lenW, ih.fills, ih.running, hat, ih.alive⟩
      | stored cs =>
        rw [hpc] at hp hat
        simp only [Option.some.injEq] at hp hat
        subst hp
        exact ⟨ih.lenG, ih.lenW, ih.fills, ih.running, hat, ih.alive⟩
    | @make f p cs hp hc =>
      unfold Proc.step at hp
      rw [hc] at hp
      simp only [Option.some.injEq] at hp
      subst hp
      have hl := ih.lenG
      have hlw := ih.lenW
      obtain ⟨y, hy, hy0⟩ := ih.running
      have hcur : W.proc.w.current < W.proc.w.watchers.length := by
        rcases Nat.lt_or_ge W.proc.w.current W.proc.w.watchers.length with h | h
        · exact h
        · rw [List.getElem?_eq_none h] at hy; simp at hy
      refine ⟨by simp [hl], by simp [hlw], ?_, ⟨y, by rw [List.getElem?_append_left hcur]; exact hy, hy0⟩,
        ⟨hlw, by show W.proc.w.current ≠ W.proc.w.stores.length; omega, ?_, ?_⟩, ?_⟩
      · intro i z hz
        simp only [List.getElem?_append] at hz
        split at hz
        · exact ih.fills i z hz
        · cases hk : i - W.proc.w.watchers.length with
          | succ k => rw [hk] at hz; simp at hz
          | zero =>
            rw [hk] at hz
            simp only [List.getElem?_cons_zero, Option.some.injEq] at hz
            subst hz
            show W.proc.w.stores.length = i
            omega
      · show (W.proc.w.watchers ++ [_])[W.proc.w.stores.length]? = _
        rw [← hlw]
        simp
      · refine ⟨⟨W.proc.w.conf.indexConf, newWorld W.proc.w.conf.indexConf W.api⟩, ?_, rfl⟩
        show (W.gens ++ [_])[W.proc.w.stores.length]? = _
        rw [← hl]
        simp
      · intro i z x hz h0 hx
        simp only [List.getElem?_append] at hz hx
        split at hx
        · rename_i hi
          rw [if_pos (by omega)] at hz
          exact ih.alive i z x hz h0 hx
        · generalize i - W.gens.length = k at hx
          cases k with
          | succ k => simp at hx
          | zero =>
            simp only [List.getElem?_cons_zero, Option.some.injEq] at hx
            subst hx
            intro g c
            simp [newWorld]

/-- The goroutine never panics. -/
theorem whole_step (h : WholeRun kubeArg isPrint eval alg pf past W) (f : Files) : (W.proc.step kubeArg f).isSome = true := by
  have hi := procInv h
  unfold Proc.step
  cases hpc : W.proc.pc with
  | idle => simp only; split <;> rfl
  | configured | stopped | stored => rfl
  | started cs rw' rs =>
    simp only
    obtain ⟨y, hy, hy0⟩ := hi.running
    obtain ⟨ws', k1, _⟩ := stopAt_some _ _ _ hy hy0
    rw [k1]; rfl

theorem mem_indexConf (ps : List ProxyConf) (g : GVR) (m : List (GVR × List (Str × Str))) :
    (lookup g (ps.foldl (fun m p => insertKV ⟨p.group, p.version, p.resource⟩ p.index m) m)).isSome = true
      ↔ (lookup g m).isSome = true ∨ g ∈ ps.map fun p => (⟨p.group, p.version, p.resource⟩ : GVR) := by
  induction ps generalizing m with
  | nil => simp
  | cons p ps ih =>
    rw [List.foldl_cons, ih, lookup_insertKV, List.map_cons, List.mem_cons]
    by_cases hg : g = ⟨p.group, p.version, p.resource⟩
    · simp [hg]
    · simp [hg, Ne.symm hg]

end Ckube

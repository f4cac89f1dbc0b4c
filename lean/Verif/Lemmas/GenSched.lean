import Verif.Lemmas.Generations
import Verif.Lemmas.WorldSched

/-! # Schedules with reloads, for examples -/

namespace Ckube
open Spec

/-- What may happen in a schedule. -/
inductive GAct where
  | put (g : GVR) (c : Str) (o : Obj)
  | remove (g : GVR) (c : Str) (o : Obj)
  /-- something other than a change of an API server happens in generation `i` -/
  | on (i : Nat) (a : WAct)
  /-- call `j` of generation `i` makes up to `k` steps -/
  | go (i j k : Nat)
  | reload (f : Files)

abbrev GHist := List Whole × Whole

/-- The act is possible in a generation. -/
def WAct.inside : WAct → Bool
  | .put .. | .remove .. | .go .. => false
  | _ => true

def goG (isPrint : Nat → Bool) (alg : SliceSort) (pf : Str → Option GoFloat) (i j : Nat) : Nat → GHist → GHist
  | 0, y => y
  | k + 1, (past, W) => match W.gens[i]? with
    | none => (past, W)
    | some x => match x.world.store.stepFn isPrint alg pf j with
      | none => (past, W)
      | some σ => goG isPrint alg pf i j k (past ++ [W], { W with gens := W.gens.set i { x with world := { x.world with store := σ } } })

/-- One act other than `go`; `none` if it is not possible. -/
def GAct.next (kubeArg : Bool) (eval : Str → Obj → Str) (W : Whole) : GAct → Option Whole
  | .put g c o => (metaKey o).map fun k =>
      W.changed g c (insertKV k o (W.api g c)) ((if (lookup k (W.api g c)).isSome then .modified else .added), o)
  | .remove g c o => (metaKey o).bind fun k => (lookup k (W.api g c)).map fun _ => W.changed g c (eraseKV k (W.api g c)) (.deleted, o)
  | .on i a => W.gens[i]?.bind fun x =>
      if a.inside then (a.next eval x.conf x.world).map fun w => { W with gens := W.gens.set i { x with world := w } } else none
  | .reload f => (W.proc.step kubeArg f).map fun p => match W.proc.pc with
    | .configured _ => { W with
        proc := p
        gens := W.gens ++ [⟨W.proc.w.conf.indexConf, newWorld W.proc.w.conf.indexConf W.api⟩] }
    | _ => { W with proc := p }
  | .go .. => none

def gsched (kubeArg : Bool) (isPrint : Nat → Bool) (eval : Str → Obj → Str) (alg : SliceSort) (pf : Str → Option GoFloat) :
    List GAct → GHist → GHist
  | [], y => y
  | .go i j k :: l, y => gsched kubeArg isPrint eval alg pf l (goG isPrint alg pf i j k y)
  | a :: l, (past, W) => match a.next kubeArg eval W with
    | none => gsched kubeArg isPrint eval alg pf l (past, W)
    | some W' => gsched kubeArg isPrint eval alg pf l (past ++ [W], W')

variable {kubeArg : Bool} {isPrint : Nat → Bool} {eval : Str → Obj → Str} {alg : SliceSort} {pf : Str → Option GoFloat}

theorem goG_run {i j k : Nat} {y : GHist} (h : WholeRun kubeArg isPrint eval alg pf y.1 y.2) :
    WholeRun kubeArg isPrint eval alg pf (goG isPrint alg pf i j k y).1 (goG isPrint alg pf i j k y).2 := by
  induction k generalizing y with
  | zero => exact h
  | succ k ih =>
    obtain ⟨past, W⟩ := y
    unfold goG
    split
    · exact h
    · rename_i x hx
      split
      · exact h
      · rename_i σ hs
        exact ih (.step h (.act hx (.run (CState.stepFn_sound hs)) (fun _ _ => rfl) (fun _ _ _ _ _ _ hd => hd)))

theorem inside_keeps {conf : List (GVR × List (Str × Str))} {a : WAct} {w w' : Spec.World} (ha : a.inside = true)
    (h : a.next eval conf w = some w') (g : GVR) (c : Str) :
    (w'.comp g c).sys.objs = (w.comp g c).sys.objs ∧ ((w'.comp g c).sys.phase = .done → (w.comp g c).sys.phase = .done) := by
  have set_ : ∀ {v : Spec.World} {g' : GVR} {c' : Str} {k : Comp}, v.comp = w.comp → k.sys.objs = (w.comp g' c').sys.objs →
      (k.sys.phase = .done → (w.comp g' c').sys.phase = .done) →
      ((v.set g' c' k).comp g c).sys.objs = (w.comp g c).sys.objs
        ∧ (((v.set g' c' k).comp g c).sys.phase = .done → (w.comp g c).sys.phase = .done) := by
    intro v g' c' k hv h1 h2
    rw [set_comp]
    by_cases h : g = g' ∧ c = c'
    · rw [if_pos h]
      obtain ⟨rfl, rfl⟩ := h
      exact ⟨h1, h2⟩
    · rw [if_neg h, hv]; exact ⟨rfl, id⟩
  have ph : ∀ {g' : GVR} {c' : Str} {p : WPhase} {inp : WIn} {y : WPhase × List Notice}, inp ≠ .stop → wstep g' c' p inp = some y → y.1 ≠ .done := by
    intro g' c' p inp y hs hy
    cases p <;> cases inp <;> simp only [wstep, Option.some.injEq, reduceCtorEq] at hy <;> first | exact absurd rfl hs | (rw [← hy]; simp)
  cases a with
  | put | remove | go => simp [WAct.inside] at ha
  | opened g' c' =>
    simp only [WAct.next] at h
    split at h
    · rw [Option.map_eq_some_iff] at h
      obtain ⟨y, hy, rfl⟩ := h
      exact set_ rfl rfl (fun hd => absurd hd (ph (by simp) hy))
    · simp at h
  | deliver g' c' =>
    simp only [WAct.next] at h
    split at h
    · split at h
      · simp at h
      · rw [Option.map_eq_some_iff] at h
        obtain ⟨y, hy, rfl⟩ := h
        exact set_ rfl rfl (fun hd => absurd hd (ph (by simp) hy))
    · simp at h
  | closed g' c' =>
    simp only [WAct.next] at h
    split at h
    · rw [Option.map_eq_some_iff] at h
      obtain ⟨y, hy, rfl⟩ := h
      exact set_ rfl rfl (fun hd => absurd hd (ph (by simp) hy))
    · simp at h
  | invoke g' c' =>
    simp only [WAct.next] at h
    split at h
    · split at h
      · simp at h
      · simp only [Option.some.injEq] at h
        subst h
        exact set_ rfl rfl id
    · simp at h
  | returned g' c' =>
    simp only [WAct.next, Option.bind_eq_some_iff] at h
    obtain ⟨i, hi, t, ht, h⟩ := h
    split at h
    · simp only [Option.some.injEq] at h
      subst h
      exact set_ rfl rfl id
    · simp at h
  | client op =>
    cases op with
    | notice n => simp [WAct.next] at h
    | get g c n m =>
      simp only [WAct.next, Option.some.injEq] at h
      subst h
      exact ⟨rfl, id⟩
    | query g q =>
      simp only [WAct.next] at h
      split at h
      · simp only [Option.some.injEq] at h
        subst h
        exact ⟨rfl, id⟩
      · simp at h

theorem gnext_step {a : GAct} {W W' : Whole} (h : a.next kubeArg eval W = some W') : WholeStep kubeArg isPrint eval alg pf W W' := by
  cases a with
  | put g c o =>
    simp only [GAct.next, Option.map_eq_some_iff] at h
    obtain ⟨k, hk, rfl⟩ := h
    cases hl : lookup k (W.api g c) with
    | none => exact .change (.create hk hl)
    | some old => exact .change (.update hk hl)
  | remove g c o =>
    simp only [GAct.next, Option.bind_eq_some_iff, Option.map_eq_some_iff] at h
    obtain ⟨k, hk, old, hl, rfl⟩ := h
    exact .change (.delete hk hl)
  | on i a =>
    simp only [GAct.next, Option.bind_eq_some_iff] at h
    obtain ⟨x, hx, h⟩ := h
    split at h
    · rename_i ha
      rw [Option.map_eq_some_iff] at h
      obtain ⟨w, hw, rfl⟩ := h
      exact .act hx (next_step hw) (fun g c => (inside_keeps ha hw g c).1) (fun _ _ _ _ g c => (inside_keeps ha hw g c).2)
    · simp at h
  | go => simp [GAct.next] at h
  | reload f =>
    simp only [GAct.next, Option.map_eq_some_iff] at h
    obtain ⟨p, hp, rfl⟩ := h
    cases hpc : W.proc.pc with
    | configured cs => exact .make hp hpc
    | idle | started | stopped | stored => exact .reload hp (by rw [hpc]; simp)

/-- Every schedule is a run. -/
theorem gsched_run : ∀ (l : List GAct) (y : GHist), WholeRun kubeArg isPrint eval alg pf y.1 y.2 →
    WholeRun kubeArg isPrint eval alg pf (gsched kubeArg isPrint eval alg pf l y).1 (gsched kubeArg isPrint eval alg pf l y).2
  | [], y, h => h
  | a :: l, (past, W), h => by
    have key : ∀ o, a.next kubeArg eval W = o → WholeRun kubeArg isPrint eval alg pf
        (match o with | none => gsched kubeArg isPrint eval alg pf l (past, W) | some W' => gsched kubeArg isPrint eval alg pf l (past ++ [W], W')).1
        (match o with | none => gsched kubeArg isPrint eval alg pf l (past, W) | some W' => gsched kubeArg isPrint eval alg pf l (past ++ [W], W')).2 := by
      intro o ho
      cases o with
      | none => exact gsched_run l (past, W) h
      | some W' => exact gsched_run l (past ++ [W], W') (.step h (gnext_step ho))
    cases a with
    | go i j k => exact gsched_run l _ (goG_run h)
    | put | remove | on | reload => exact key _ rfl

end Ckube

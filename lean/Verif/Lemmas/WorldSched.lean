import Verif.Lemmas.Sched
import Verif.Spec.World

/-! # Schedules of the whole, for examples -/

namespace Ckube
open Spec

/-- What may happen in a schedule. -/
inductive WAct where
  /-- the API server gets an object, or a new version of one -/
  | put (g : GVR) (c : Str) (o : Obj)
  /-- the API server loses an object -/
  | remove (g : GVR) (c : Str) (o : Obj)
  | opened (g : GVR) (c : Str)
  | deliver (g : GVR) (c : Str)
  /-- the stream ends -/
  | closed (g : GVR) (c : Str)
  | invoke (g : GVR) (c : Str)
  | returned (g : GVR) (c : Str)
  | client (op : COp)
  /-- thread `i` makes up to `k` steps -/
  | go (i k : Nat)

/-- The states passed through, and the current one. -/
abbrev WHist := List World × World

def goW (isPrint : Nat → Bool) (alg : SliceSort) (pf : Str → Option GoFloat) (i : Nat) : Nat → WHist → WHist
  | 0, x => x
  | k + 1, (past, w) => match w.store.stepFn isPrint alg pf i with
    | none => (past, w)
    | some σ => goW isPrint alg pf i k (past ++ [w], { w with store := σ })

/-- One act other than `go`; `none` if it is not possible. -/
def WAct.next (eval : Str → Obj → Str) (conf : List (GVR × List (Str × Str))) (w : World) : WAct → Option World
  | .put g c o => (metaKey o).map fun k =>
      let s := (w.comp g c).sys
      w.set g c { w.comp g c with sys :=
        { s with objs := insertKV k o s.objs, pending := s.report ((if (lookup k s.objs).isSome then .modified else .added), o) } }
  | .remove g c o => (metaKey o).bind fun k =>
      let s := (w.comp g c).sys
      (lookup k s.objs).map fun _ =>
        w.set g c { w.comp g c with sys := { s with objs := eraseKV k s.objs, pending := s.report (.deleted, o) } }
  | .opened g c =>
      let s := (w.comp g c).sys
      if (w.comp g c).todo.isEmpty && (w.comp g c).calling.isNone then
        (wstep g c s.phase .opened).map fun x =>
          w.set g c { sys := { s with phase := x.1, out := s.out ++ x.2, pending := s.objs.map fun e => (.added, e.2) }, todo := x.2 }
      else none
  | .deliver g c =>
      let s := (w.comp g c).sys
      if (w.comp g c).todo.isEmpty && (w.comp g c).calling.isNone then
        match s.pending with
        | [] => none
        | (t, o) :: rest => (wstep g c s.phase (.event t o)).map fun x =>
          w.set g c { sys := { s with phase := x.1, out := s.out ++ x.2, pending := rest }, todo := x.2 }
      else none
  | .closed g c =>
      let s := (w.comp g c).sys
      if (w.comp g c).todo.isEmpty && (w.comp g c).calling.isNone then
        (wstep g c s.phase .closed).map fun x =>
          w.set g c { sys := { s with phase := x.1, out := s.out ++ x.2, pending := [] }, todo := x.2 }
      else none
  | .invoke g c =>
      if (lookup g conf).isSome && (w.comp g c).calling.isNone then
        match (w.comp g c).todo with
        | [] => none
        | n :: rest => some (({ w with store := w.store.call eval conf (.notice n) } : World).set g c
            { sys := (w.comp g c).sys, todo := rest, calling := some w.store.thrs.length })
      else none
  | .returned g c => (w.comp g c).calling.bind fun i => w.store.thrs[i]?.bind fun t =>
      if t.returned then some (w.set g c { w.comp g c with calling := none }) else none
  | .client op => match op with
    | .notice _ => none
    | .get .. => some { w with store := w.store.call eval conf op }
    | .query g _ => if (lookup g conf).isSome then some { w with store := w.store.call eval conf op } else none
  | .go _ _ => none

/-- A schedule; acts that are not possible are left out. -/
def wsched (isPrint : Nat → Bool) (eval : Str → Obj → Str) (alg : SliceSort) (pf : Str → Option GoFloat)
    (conf : List (GVR × List (Str × Str))) : List WAct → WHist → WHist
  | [], x => x
  | .go i k :: l, x => wsched isPrint eval alg pf conf l (goW isPrint alg pf i k x)
  | a :: l, (past, w) => match a.next eval conf w with
    | none => wsched isPrint eval alg pf conf l (past, w)
    | some w' => wsched isPrint eval alg pf conf l (past ++ [w], w')

/-- The start. -/
def wstart (conf : List (GVR × List (Str × Str))) : WHist := ([], { store := { heap := newHeap conf } })

variable {isPrint : Nat → Bool} {eval : Str → Obj → Str} {alg : SliceSort} {pf : Str → Option GoFloat}
  {conf : List (GVR × List (Str × Str))}

theorem goW_run {i k : Nat} {x : WHist} (h : WRun isPrint eval alg pf conf x.1 x.2) :
    WRun isPrint eval alg pf conf (goW isPrint alg pf i k x).1 (goW isPrint alg pf i k x).2 := by
  induction k generalizing x with
  | zero => exact h
  | succ k ih =>
    obtain ⟨past, w⟩ := x
    unfold goW
    split
    · exact h
    · rename_i σ hs
      exact ih (.step h (.run (CState.stepFn_sound hs)))

theorem next_step {a : WAct} {w w' : World} (h : a.next eval conf w = some w') : WStep isPrint eval alg pf conf w w' := by
  cases a with
  | put g c o =>
    simp only [WAct.next, Option.map_eq_some_iff] at h
    obtain ⟨k, hk, rfl⟩ := h
    cases hl : lookup k (w.comp g c).sys.objs with
    | none => exact .server (.create hk hl) rfl rfl
    | some old => exact .server (.update hk hl) rfl rfl
  | remove g c o =>
    simp only [WAct.next, Option.bind_eq_some_iff, Option.map_eq_some_iff] at h
    obtain ⟨k, hk, old, hl, rfl⟩ := h
    exact .server (.delete hk hl) rfl rfl
  | opened g c =>
    simp only [WAct.next] at h
    split at h
    · rename_i hc
      simp only [Bool.and_eq_true, List.isEmpty_iff, Option.isNone_iff_eq_none] at hc
      rw [Option.map_eq_some_iff] at h
      obtain ⟨x, hx, rfl⟩ := h
      exact .watch (.opened (List.Perm.refl _) hx) hc.1 hc.2 rfl
    · simp at h
  | deliver g c =>
    simp only [WAct.next] at h
    split at h
    · rename_i hc
      simp only [Bool.and_eq_true, List.isEmpty_iff, Option.isNone_iff_eq_none] at hc
      split at h
      · simp at h
      · rename_i t o rest hp
        rw [Option.map_eq_some_iff] at h
        obtain ⟨x, hx, rfl⟩ := h
        exact .watch (.deliver hp hx) hc.1 hc.2 rfl
    · simp at h
  | closed g c =>
    simp only [WAct.next] at h
    split at h
    · rename_i hc
      simp only [Bool.and_eq_true, List.isEmpty_iff, Option.isNone_iff_eq_none] at hc
      rw [Option.map_eq_some_iff] at h
      obtain ⟨x, hx, rfl⟩ := h
      exact .watch (.closed hx) hc.1 hc.2 rfl
    · simp at h
  | invoke g c =>
    simp only [WAct.next] at h
    split at h
    · rename_i hc
      simp only [Bool.and_eq_true, Option.isNone_iff_eq_none] at hc
      split at h
      · simp at h
      · rename_i n rest hp
        simp only [Option.some.injEq] at h
        subst h
        exact .invoke hc.1 hp hc.2
    · simp at h
  | returned g c =>
    simp only [WAct.next, Option.bind_eq_some_iff] at h
    obtain ⟨i, hi, t, ht, h⟩ := h
    split at h
    · rename_i hr
      simp only [Option.some.injEq] at h
      subst h
      exact .returned hi ht hr
    · simp at h
  | client op =>
    cases op with
    | notice n => simp [WAct.next] at h
    | get g c n m =>
      simp only [WAct.next, Option.some.injEq] at h
      subst h
      exact .client trivial (by simp)
    | query g q =>
      simp only [WAct.next] at h
      split at h
      · rename_i hg
        simp only [Option.some.injEq] at h
        subst h
        exact .client hg (by simp)
      · simp at h
  | go i k => simp [WAct.next] at h

/-- Every schedule is a run. -/
theorem wsched_run : ∀ (l : List WAct) (x : WHist), WRun isPrint eval alg pf conf x.1 x.2 →
    WRun isPrint eval alg pf conf (wsched isPrint eval alg pf conf l x).1 (wsched isPrint eval alg pf conf l x).2
  | [], x, h => h
  | a :: l, (past, w), h => by
    have key : ∀ o, a.next eval conf w = o → WRun isPrint eval alg pf conf
        (match o with | none => wsched isPrint eval alg pf conf l (past, w) | some w' => wsched isPrint eval alg pf conf l (past ++ [w], w')).1
        (match o with | none => wsched isPrint eval alg pf conf l (past, w) | some w' => wsched isPrint eval alg pf conf l (past ++ [w], w')).2 := by
      intro o ho
      cases o with
      | none => exact wsched_run l (past, w) h
      | some w' => exact wsched_run l (past ++ [w], w') (.step h (next_step ho))
    cases a with
    | go i k => exact wsched_run l _ (goW_run h)
    | put | remove | opened | deliver | closed | invoke | returned | client => exact key _ rfl

/-! ## Checking the hypotheses of claims about a run -/

deriving instance DecidableEq for Spec.Sys

/-- While call `i` runs, the watcher waits in the state `S`. -/
def waits (i : Nat) (g : GVR) (c : Str) (S : Sys) (x : WHist) : Bool :=
  (x.1 ++ [x.2]).all fun v =>
    (v.store.trace.all fun e => match e with | .call j _ => i != j | _ => true)
      || (v.store.trace.any fun e => match e with | .ret j _ => i == j | _ => false)
      || (decide ((v.comp g c).sys = S) && (v.comp g c).todo.isEmpty && (v.comp g c).calling.isNone)

theorem waits_of {i : Nat} {g : GVR} {c : Str} {S : Sys} {x : WHist} (h : waits i g c S x = true) :
    ∀ v ∈ x.1 ++ [x.2], During i v.store → Waiting S (v.comp g c) := by
  intro v hv ⟨⟨op, h1⟩, h2⟩
  unfold waits at h
  rw [List.all_eq_true] at h
  have := h v hv
  simp only [Bool.or_eq_true, Bool.and_eq_true, decide_eq_true_eq, List.isEmpty_iff, Option.isNone_iff_eq_none] at this
  rcases this with (h | h) | ⟨⟨h, h'⟩, h''⟩
  · rw [List.all_eq_true] at h
    have := h _ h1
    simp at this
  · rw [List.any_eq_true] at h
    obtain ⟨e, he, hh⟩ := h
    cases e with
    | call => simp at hh
    | ret j a => rw [beq_iff_eq] at hh; subst hh; exact absurd he (h2 a)
  · exact ⟨h, h', h''⟩

end Ckube

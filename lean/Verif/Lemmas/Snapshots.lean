import Verif.Spec.Snapshots
import Verif.Lemmas.Watcher

/-! # The cache is part of a past state of the server -/

namespace Ckube
open Spec

variable {key : Obj → Str × Str} {g : GVR} {c : Str} {e : Nat → Sys}

/-- The events `l` lead from the state of the server after `b` steps to that after `m` steps; each of them leads to the state after some step. -/
inductive Leads (key : Obj → Str × Str) (e : Nat → Sys) (m : Nat) : Nat → List (EvType × Obj) → Prop
  | nil {b : Nat} (hb : b ≤ m) (h : ∀ k, lookup k (e m).objs = lookup k (e b).objs) : Leads key e m b []
  | cons {b p : Nat} {ev : EvType × Obj} {l : List (EvType × Obj)} (hp : b ≤ p)
      (h : ∀ k, lookup k (e p).objs = applyEvent key (fun k => lookup k (e b).objs) ev k) (hl : Leads key e m p l) : Leads key e m b (ev :: l)

theorem Leads.same {m b : Nat} {l : List (EvType × Obj)} (h : Leads key e m b l) (hs : (e (m + 1)).objs = (e m).objs) : Leads key e (m + 1) b l := by
  induction h with
  | nil hb h => exact .nil (by omega) (fun k => by rw [hs, h])
  | cons hp h _ ih => exact .cons hp h ih

theorem Leads.snoc {m b : Nat} {l : List (EvType × Obj)} {ev : EvType × Obj} (h : Leads key e m b l)
    (hs : ∀ k, lookup k (e (m + 1)).objs = applyEvent key (fun k => lookup k (e m).objs) ev k) : Leads key e (m + 1) b (l ++ [ev]) := by
  induction h with
  | nil hb h =>
    refine .cons (p := m + 1) (by omega) (fun k => ?_) (.nil (le_refl _) fun _ => rfl)
    rw [hs, funext h]
  | cons hp h _ ih => exact .cons hp h ih

/-- What is on the way of an open stream: the rest of the objects `inits` it begins with, and changes. -/
def OnWay (inits : List ((Str × Str) × Obj)) (changes : List (EvType × Obj)) : List (EvType × Obj) :=
  (inits.map fun x => (.added, x.2)) ++ changes

/-- After `m` steps the cache is part of the state of the server after `b` steps. -/
structure Snap (key : Obj → Str × Str) (e : Nat → Sys) (m b : Nat) : Prop where
  past : b ≤ m
  part : ∀ k o, cached key (e m).out k = some o → lookup k (e b).objs = some o
  fresh : (e m).phase = .streaming true → ∃ q inits changes, b ≤ q ∧ q ≤ m ∧ (e m).pending = OnWay inits changes ∧ inits.Perm (e q).objs
    ∧ Leads key e m q changes
  going : (e m).phase = .streaming false → ∃ inits changes, (e m).pending = OnWay inits changes
    ∧ (∀ x ∈ inits, lookup x.1 (e b).objs = some x.2 ∧ key x.2 = x.1)
    ∧ (∀ k o, lookup k (e b).objs = some o → cached key (e m).out k = some o ∨ (k, o) ∈ inits)
    ∧ Leads key e m b changes

theorem applyEvent_congr {m m' : Objs} (h : ∀ k, m k = m' k) (ev : EvType × Obj) (k : Str × Str) : applyEvent key m ev k = applyEvent key m' ev k := by
  rw [funext h]

/-- A change that the watcher has not been told about, and does not hear about. -/
theorem Snap.changed {m b : Nat} (hs : Snap key e m b) {ev : EvType × Obj} (hout : (e (m + 1)).out = (e m).out) (hph : (e (m + 1)).phase = (e m).phase)
    (hpend : (e (m + 1)).pending = (e m).report ev)
    (hobjs : ∀ k, lookup k (e (m + 1)).objs = applyEvent key (fun k => lookup k (e m).objs) ev k) : Snap key e (m + 1) b := by
  have hrep : ∀ f, (e m).phase = .streaming f → (e (m + 1)).pending = (e m).pending ++ [ev] := by
    intro f hf
    rw [hpend, Sys.report, hf]
  refine ⟨by have := hs.past; omega, by rw [hout]; exact hs.part, ?_, ?_⟩
  · intro hp
    rw [hph] at hp
    obtain ⟨q, inits, changes, h1, h2, h3, h4, h5⟩ := hs.fresh hp
    refine ⟨q, inits, changes ++ [ev], h1, by omega, ?_, h4, h5.snoc hobjs⟩
    rw [hrep _ hp, h3, OnWay, OnWay, List.append_assoc]
  · intro hp
    rw [hph] at hp
    obtain ⟨inits, changes, h3, h4, h5, h6⟩ := hs.going hp
    refine ⟨inits, changes ++ [ev], ?_, h4, by rw [hout]; exact h5, h6.snoc hobjs⟩
    rw [hrep _ hp, h3, OnWay, OnWay, List.append_assoc]

/-- The watcher takes the next event. -/
theorem Snap.delivered {m b : Nat} {f : Bool} {t : EvType} {o : Obj} {rest : List (EvType × Obj)} (hs : Snap key e m b)
    (hinv : ∀ q, SysInv key g c (e q)) (hph : (e m).phase = .streaming f) (hp : (e m).pending = (t, o) :: rest)
    (hobjs : (e (m + 1)).objs = (e m).objs) (hph' : (e (m + 1)).phase = .streaming false) (hp' : (e (m + 1)).pending = rest)
    (hout : cached key (e (m + 1)).out = applyEvent key (if f then (fun _ => none) else cached key (e m).out) (t, o)) :
    ∃ b', b ≤ b' ∧ Snap key e (m + 1) b' := by
  have hnot : ¬ ((e (m + 1)).phase = .streaming true) := by rw [hph']; simp
  cases f with
  | false =>
    obtain ⟨inits, changes, h3, h4, h5, h6⟩ := hs.going hph
    simp only [Bool.false_eq_true, if_false] at hout
    cases inits with
    | cons x xs =>
      rw [hp, OnWay, List.map_cons, List.cons_append, List.cons.injEq, Prod.mk.injEq] at h3
      obtain ⟨⟨rfl, rfl⟩, rfl⟩ := h3
      obtain ⟨hx1, hx2⟩ := h4 x (by simp)
      have hc : ∀ k, cached key (e (m + 1)).out k = if x.1 = k then some x.2 else cached key (e m).out k := by
        intro k; rw [hout]; simp only [applyEvent, hx2]
      refine ⟨b, le_refl _, by have := hs.past; omega, ?_, fun h => absurd h hnot, ?_⟩
      · intro k o hk
        rw [hc] at hk
        split at hk
        · rename_i hxk
          subst hxk
          rw [← hk]; exact hx1
        · exact hs.part k o hk
      · intro _
        refine ⟨xs, changes, hp', fun y hy => h4 y (by simp [hy]), ?_, h6.same hobjs⟩
        intro k o hk
        rw [hc]
        by_cases hxk : x.1 = k
        · subst hxk
          rw [hx1] at hk
          rw [if_pos rfl]; exact Or.inl hk
        · rw [if_neg hxk]
          rcases h5 k o hk with h | h
          · exact Or.inl h
          · rcases List.mem_cons.mp h with h | h
            · exact absurd (congrArg Prod.fst h).symm hxk
            · exact Or.inr h
    | nil =>
      rw [hp, OnWay, List.map_nil, List.nil_append] at h3
      have heq : ∀ k, cached key (e m).out k = lookup k (e b).objs := by
        intro k
        cases hl : lookup k (e b).objs with
        | some o => exact (h5 k o hl).resolve_right (by simp)
        | none =>
          cases hcd : cached key (e m).out k with
          | none => rfl
          | some o => rw [hs.part k o hcd] at hl; cases hl
      subst h3
      cases h6 with
      | @cons _ p _ _ hbp h hl =>
        have hnew : ∀ k, cached key (e (m + 1)).out k = lookup k (e p).objs := by
          intro k
          rw [hout, h]
          exact applyEvent_congr heq _ k
        have hpm : p ≤ m := by
          have : ∀ {p : Nat} {l : List (EvType × Obj)}, Leads key e m p l → p ≤ m := by
            intro p l hl
            induction hl with
            | nil hb _ => exact hb
            | cons hp _ _ ih => omega
          exact this hl
        refine ⟨p, hbp, by omega, fun k o hk => by rw [← hnew]; exact hk, fun h => absurd h hnot, fun _ => ?_⟩
        exact ⟨[], rest, by rw [hp']; rfl, by simp, fun k o hk => by rw [hnew]; exact Or.inl hk, hl.same hobjs⟩
  | true =>
    obtain ⟨q, inits, changes, h1, h2, h3, h4, h5⟩ := hs.fresh hph
    simp only [if_true] at hout
    have hq := hinv q
    have hmem : ∀ x ∈ inits, lookup x.1 (e q).objs = some x.2 ∧ key x.2 = x.1 := fun x hx =>
      ⟨lookup_eq_some_of_mem hq.map (h4.mem_iff.mp hx), hq.keys x (h4.mem_iff.mp hx)⟩
    cases inits with
    | cons x xs =>
      rw [hp, OnWay, List.map_cons, List.cons_append, List.cons.injEq, Prod.mk.injEq] at h3
      obtain ⟨⟨rfl, rfl⟩, rfl⟩ := h3
      obtain ⟨hx1, hx2⟩ := hmem x (by simp)
      have hc : ∀ k, cached key (e (m + 1)).out k = if x.1 = k then some x.2 else none := by
        intro k; rw [hout]; simp only [applyEvent, hx2]
      refine ⟨q, h1, by omega, ?_, fun h => absurd h hnot, ?_⟩
      · intro k o hk
        rw [hc] at hk
        split at hk
        · rename_i hxk
          subst hxk
          rw [← hk]; exact hx1
        · cases hk
      · intro _
        refine ⟨xs, changes, hp', fun y hy => hmem y (by simp [hy]), ?_, h5.same hobjs⟩
        intro k o hk
        rw [hc]
        by_cases hxk : x.1 = k
        · subst hxk
          rw [hx1] at hk
          rw [if_pos rfl]; exact Or.inl hk
        · have := h4.mem_iff.mpr (mem_of_lookup hk)
          rcases List.mem_cons.mp this with h | h
          · exact absurd (congrArg Prod.fst h).symm hxk
          · exact Or.inr h
    | nil =>
      have hnil : (e q).objs = [] := List.perm_nil.mp h4.symm
      rw [hp, OnWay, List.map_nil, List.nil_append] at h3
      subst h3
      cases h5 with
      | @cons _ p _ _ hbp h hl =>
        have hnew : ∀ k, cached key (e (m + 1)).out k = lookup k (e p).objs := by
          intro k
          rw [hout, h]
          refine applyEvent_congr (fun k => ?_) _ k
          rw [hnil]; rfl
        have hpm : p ≤ m := by
          have : ∀ {p : Nat} {l : List (EvType × Obj)}, Leads key e m p l → p ≤ m := by
            intro p l hl
            induction hl with
            | nil hb _ => exact hb
            | cons hp _ _ ih => omega
          exact this hl
        refine ⟨p, by omega, by omega, fun k o hk => by rw [← hnew]; exact hk, fun h => absurd h hnot, fun _ => ?_⟩
        exact ⟨[], rest, by rw [hp']; rfl, by simp, fun k o hk => by rw [hnew]; exact Or.inl hk, hl.same hobjs⟩

theorem Snap.step (hkey : ∀ o k, metaKey o = some k → key o = k) (hinv : ∀ q, SysInv key g c (e q)) {m b : Nat} (hs : Snap key e m b)
    (h : e (m + 1) = e m ∨ SysStep g c (e m) (e (m + 1))) : ∃ b', b ≤ b' ∧ Snap key e (m + 1) b' := by
  rcases h with h | h
  · refine ⟨b, le_refl _, by have := hs.past; omega, by rw [h]; exact hs.part, ?_, ?_⟩
    · rw [h]
      intro hp
      obtain ⟨q, inits, changes, h1, h2, h3, h4, h5⟩ := hs.fresh hp
      exact ⟨q, inits, changes, h1, by omega, h3, h4, h5.same (by rw [h])⟩
    · rw [h]
      intro hp
      obtain ⟨inits, changes, h3, h4, h5, h6⟩ := hs.going hp
      exact ⟨inits, changes, h3, h4, h5, h6.same (by rw [h])⟩
  · have hmap := (hinv m).map
    generalize hn : e (m + 1) = t at h
    cases h with
    | @create k o hk hn' =>
      refine ⟨b, le_refl _, hs.changed (ev := (.added, o)) (by rw [hn]) (by rw [hn]) (by rw [hn]) fun k' => ?_⟩
      rw [hn]; simp only [lookup_insertKV, applyEvent, hkey _ _ hk]
    | @update k o old hk ho =>
      refine ⟨b, le_refl _, hs.changed (ev := (.modified, o)) (by rw [hn]) (by rw [hn]) (by rw [hn]) fun k' => ?_⟩
      rw [hn]; simp only [lookup_insertKV, applyEvent, hkey _ _ hk]
    | @delete k o old hk ho =>
      refine ⟨b, le_refl _, hs.changed (ev := (.deleted, o)) (by rw [hn]) (by rw [hn]) (by rw [hn]) fun k' => ?_⟩
      rw [hn]; simp only [lookup_eraseKV hmap, applyEvent, hkey _ _ hk]
    | @fail p out hw =>
      cases hph : (e m).phase <;> rw [hph] at hw <;> simp only [wstep, Option.some.injEq, Prod.mk.injEq, reduceCtorEq] at hw
      obtain ⟨rfl, rfl⟩ := hw
      refine ⟨b, le_refl _, by have := hs.past; omega, by rw [hn, List.append_nil]; exact hs.part, ?_, ?_⟩ <;>
        (rw [hn]; simp)
    | @opened p out l hl hw =>
      cases hph : (e m).phase <;> rw [hph] at hw <;> simp only [wstep, Option.some.injEq, Prod.mk.injEq, reduceCtorEq] at hw
      obtain ⟨rfl, rfl⟩ := hw
      refine ⟨b, le_refl _, by have := hs.past; omega, by rw [hn, List.append_nil]; exact hs.part, ?_, ?_⟩
      · intro _
        refine ⟨m + 1, l, [], by have := hs.past; omega, le_refl _, by rw [hn]; simp [OnWay], by rw [hn]; exact hl, .nil (le_refl _) fun _ => rfl⟩
      · rw [hn]; simp
    | @deliver p out ty o rest hp hw =>
      cases hph : (e m).phase <;> rw [hph] at hw <;> simp only [wstep, Option.some.injEq, Prod.mk.injEq, reduceCtorEq] at hw
      obtain ⟨rfl, rfl⟩ := hw
      refine hs.delivered hinv hph hp (by rw [hn]) (by rw [hn]) (by rw [hn]) ?_
      rw [hn]
      simp only
      rw [cached_append, List.foldl_append, foldl_cleanFirst, foldl_evNotice]
    | @other p out ty o ht hw =>
      cases hph : (e m).phase with
      | connecting => rw [hph] at hw; simp [wstep] at hw
      | done => rw [hph] at hw; simp [wstep] at hw
      | streaming f =>
        rw [hph] at hw
        simp only [wstep, Option.some.injEq, Prod.mk.injEq] at hw
        obtain ⟨rfl, rfl⟩ := hw
        have hcd : cached key (e (m + 1)).out = if f then (fun _ => none) else cached key (e m).out := by
          rw [hn]
          simp only
          rw [cached_append, List.foldl_append, foldl_cleanFirst, foldl_evNotice]
          rcases ht with rfl | rfl <;> rfl
        have hnot : ¬ ((e (m + 1)).phase = .streaming true) := by rw [hn]; simp
        cases f with
        | false =>
          simp only [Bool.false_eq_true, if_false] at hcd
          obtain ⟨inits, changes, h3, h4, h5, h6⟩ := hs.going hph
          refine ⟨b, le_refl _, by have := hs.past; omega, by rw [hcd]; exact hs.part, fun h => absurd h hnot, fun _ => ?_⟩
          exact ⟨inits, changes, by rw [hn]; exact h3, h4, by rw [hcd]; exact h5, h6.same (by rw [hn])⟩
        | true =>
          simp only [if_true] at hcd
          obtain ⟨q, inits, changes, h1, h2, h3, h4, h5⟩ := hs.fresh hph
          refine ⟨q, h1, by omega, by rw [hcd]; simp, fun h => absurd h hnot, fun _ => ?_⟩
          refine ⟨inits, changes, by rw [hn]; exact h3, fun x hx => ?_, fun k o hk => Or.inr (h4.mem_iff.mpr (mem_of_lookup hk)), h5.same (by rw [hn])⟩
          exact ⟨lookup_eq_some_of_mem (hinv q).map (h4.mem_iff.mp hx), (hinv q).keys x (h4.mem_iff.mp hx)⟩
    | @closed p out hw =>
      cases hph : (e m).phase with
      | connecting => rw [hph] at hw; simp [wstep] at hw
      | done => rw [hph] at hw; simp [wstep] at hw
      | streaming f =>
        rw [hph] at hw
        simp only [wstep, Option.some.injEq, Prod.mk.injEq] at hw
        obtain ⟨rfl, rfl⟩ := hw
        refine ⟨b, le_refl _, by have := hs.past; omega, ?_, ?_, ?_⟩
        · rw [hn]
          simp only
          rw [cached_append, foldl_cleanFirst]
          cases f
          · simpa using hs.part
          · simp
        · rw [hn]; simp
        · rw [hn]; simp
    | @stop p out hw =>
      have hw' : p = .done ∧ out = [] := by
        cases hph : (e m).phase <;> rw [hph] at hw <;> simp only [wstep, Option.some.injEq, Prod.mk.injEq, reduceCtorEq] at hw <;>
          exact ⟨hw.1.symm, hw.2.symm⟩
      obtain ⟨rfl, rfl⟩ := hw'
      refine ⟨b, le_refl _, by have := hs.past; omega, by rw [hn, List.append_nil]; exact hs.part, ?_, ?_⟩ <;>
        (rw [hn]; simp)

theorem unfolds_inv (hkey : ∀ o k, metaKey o = some k → key o = k) (h : Unfolds g c e) (m : Nat) : SysInv key g c (e m) := by
  induction m with
  | zero => rw [h.1]; exact SysInv.init g c
  | succ m ih =>
    rcases h.2 m with h' | h'
    · rw [h']; exact ih
    · exact ih.step hkey h'

/-- For every execution there are moments that only go forward, and the cache is always part of what the server had at the moment. -/
theorem snapshots (hkey : ∀ o k, metaKey o = some k → key o = k) (h : Unfolds g c e) :
    ∃ pos : Nat → Nat, Monotone pos ∧ ∀ m, Snap key e m (pos m) := by
  have h0 : Snap key e 0 0 := by
    refine ⟨le_refl _, ?_, ?_, ?_⟩ <;> rw [h.1] <;> simp [cached]
  have hstep : ∀ m (b : { b // Snap key e m b }), ∃ b' : { b' // Snap key e (m + 1) b' }, b.1 ≤ b'.1 := by
    rintro m ⟨b, hb⟩
    obtain ⟨b', h1, h2⟩ := hb.step hkey (unfolds_inv hkey h) (h.2 m)
    exact ⟨⟨b', h2⟩, h1⟩
  let f : (m : Nat) → { b // Snap key e m b } := fun m => Nat.rec ⟨0, h0⟩ (fun m b => (hstep m b).choose) m
  refine ⟨fun m => (f m).1, monotone_nat_of_le_succ fun m => ?_, fun m => (f m).2⟩
  exact (hstep m (f m)).choose_spec

end Ckube

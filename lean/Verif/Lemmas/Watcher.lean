import Verif.Spec.Watch
import Verif.Lemmas.Store
import Verif.Lemmas.Search

/-! # Watch streams and the cache -/

namespace Ckube
open Spec

section
variable {eval : Str → Obj → Str} {cf : GVR → List (Str × Str)}

theorem writes_about {n : Notice} {id : Ident} {o : Obj} (hw : Writes eval cf n id o) :
    aboutB id.gvr id.cluster n = true := by
  cases n with
  | added g c o' => obtain ⟨_, rfl⟩ := hw; simp [aboutB, identOf]
  | modified g c o' => obtain ⟨_, rfl⟩ := hw; simp [aboutB, identOf]
  | deleted g c o' => exact hw.elim
  | clean g c => exact hw.elim

theorem removes_about {n : Notice} {id : Ident} (hw : Removes eval cf n id) :
    aboutB id.gvr id.cluster n = true := by
  cases n with
  | added g c o' => exact hw.elim
  | modified g c o' => exact hw.elim
  | deleted g c o' =>
    have hw' : identOf eval cf g c o' = id := hw
    subst hw'; simp [aboutB, identOf]
  | clean g c => obtain ⟨rfl, rfl⟩ := hw; simp [aboutB]

/-- What is cached under an identity depends only on the calls about its type and cluster. -/
theorem latest_filter (h : List Notice) (id : Ident) (o : Obj) :
    Latest eval cf h id o ↔ Latest eval cf (h.filter (aboutB id.gvr id.cluster)) id o := by
  induction h using List.reverseRecOn generalizing o with
  | nil => rfl
  | append_singleton h n ih =>
    rw [List.filter_append, latest_concat]
    by_cases ha : aboutB id.gvr id.cluster n = true
    · rw [List.filter_cons_of_pos ha, List.filter_nil, latest_concat, ih]
    · rw [List.filter_cons_of_neg ha, List.filter_nil, List.append_nil, ← ih]
      constructor
      · rintro (hw | hw)
        · exact absurd (writes_about hw) ha
        · exact hw.1
      · intro hl
        exact Or.inr ⟨hl, fun o' hw => ha (writes_about hw), fun hr => ha (removes_about hr)⟩

/-- The objects of a type and cluster after calls about them. -/
def applyNotice (key : Obj → Str × Str) (m : Objs) : Notice → Objs
  | .added _ _ o => applyEvent key m (.added, o)
  | .modified _ _ o => applyEvent key m (.modified, o)
  | .deleted _ _ o => applyEvent key m (.deleted, o)
  | .clean _ _ => fun _ => none

def cached (key : Obj → Str × Str) (h : List Notice) : Objs := h.foldl (applyNotice key) (fun _ => none)

theorem cached_latest (r : GVR) (c : Str) (h : List Notice) (ha : ∀ n ∈ h, aboutB r c n = true) (ns name : Str) (o : Obj) :
    Latest eval cf h ⟨r, c, ns, name⟩ o ↔ cached (objKey eval (cf r)) h (ns, name) = some o := by
  induction h using List.reverseRecOn generalizing o with
  | nil =>
    constructor
    · rintro ⟨a, n, b, e, _⟩
      cases a <;> cases e
    · intro h; exact absurd h (by simp [cached])
  | append_singleton h n ih =>
    have ih := ih (fun n hn => ha n (by simp [hn]))
    have hn := ha n (by simp)
    rw [latest_concat]
    unfold cached
    rw [List.foldl_append, List.foldl_cons, List.foldl_nil]
    change _ ↔ applyNotice _ (cached (objKey eval (cf r)) h) n (ns, name) = some o
    have hput : ∀ (g : GVR) (d : Str) (o' : Obj), (g = r ∧ d = c) →
        ((o' = o ∧ identOf eval cf g d o' = ⟨r, c, ns, name⟩) ∨ (Latest eval cf h ⟨r, c, ns, name⟩ o
          ∧ (∀ x, ¬ (o' = x ∧ identOf eval cf g d o' = ⟨r, c, ns, name⟩)) ∧ ¬ False)
        ↔ (if objKey eval (cf r) o' = (ns, name) then some o' else cached (objKey eval (cf r)) h (ns, name)) = some o) := by
      rintro g d o' ⟨rfl, rfl⟩
      have hid : identOf eval cf g d o' = ⟨g, d, ns, name⟩ ↔ objKey eval (cf g) o' = (ns, name) := by
        unfold identOf
        rw [Ident.mk.injEq, Prod.ext_iff]
        simp
      rw [hid]
      split <;> rename_i hk
      · constructor
        · rintro (h1 | h1)
          · rw [h1.1]
          · exact absurd ⟨rfl, hk⟩ (h1.2.1 o')
        · intro h1; exact Or.inl ⟨Option.some.inj h1, hk⟩
      · rw [← ih]
        constructor
        · rintro (h1 | h1)
          · exact absurd h1.2 hk
          · exact h1.1
        · intro h1; exact Or.inr ⟨h1, fun x hx => hk hx.2, id⟩
    cases n with
    | added g d o' =>
      simp only [aboutB, Bool.and_eq_true, decide_eq_true_eq] at hn
      exact hput g d o' hn
    | modified g d o' =>
      simp only [aboutB, Bool.and_eq_true, decide_eq_true_eq] at hn
      exact hput g d o' hn
    | deleted g d o' =>
      simp only [aboutB, Bool.and_eq_true, decide_eq_true_eq] at hn
      obtain ⟨rfl, rfl⟩ := hn
      have hid : identOf eval cf g d o' = ⟨g, d, ns, name⟩ ↔ objKey eval (cf g) o' = (ns, name) := by
        unfold identOf
        rw [Ident.mk.injEq, Prod.ext_iff]
        simp
      show (False ∨ (Latest eval cf h _ o ∧ (∀ x, ¬ False) ∧ ¬ (identOf eval cf g d o' = _)))
        ↔ (if objKey eval (cf g) o' = (ns, name) then none else cached (objKey eval (cf g)) h (ns, name)) = some o
      rw [hid, ih]
      split <;> rename_i hk <;> simp [hk]
    | clean g d =>
      simp only [aboutB, Bool.and_eq_true, decide_eq_true_eq] at hn
      obtain ⟨rfl, rfl⟩ := hn
      constructor
      · rintro (h1 | h1)
        · exact h1.elim
        · exact absurd ⟨rfl, rfl⟩ h1.2.2
      · intro h1; exact absurd h1 (by simp [applyNotice])

end

/-- The calls a watcher makes are about its type and cluster. -/
theorem wstep_about {r : GVR} {c : Str} {p p' : WPhase} {i : WIn} {out : List Notice}
    (h : wstep r c p i = some (p', out)) : ∀ n ∈ out, aboutB r c n = true := by
  have hc : ∀ f, ∀ n ∈ cleanFirst r c f, aboutB r c n = true := by
    intro f n hn
    cases f <;> simp only [cleanFirst, if_true, Bool.false_eq_true, if_false, List.mem_cons, List.not_mem_nil, or_false] at hn
    subst hn; simp [aboutB]
  have he : ∀ t o, ∀ n ∈ evNotice r c t o, aboutB r c n = true := by
    intro t o n hn
    cases t <;> simp only [evNotice, List.mem_cons, List.not_mem_nil, or_false] at hn
    all_goals subst hn; simp [aboutB]
  cases p with
  | connecting => cases i <;> simp only [wstep, Option.some.injEq, Prod.mk.injEq, reduceCtorEq] at h <;>
      (obtain ⟨_, rfl⟩ := h; simp)
  | done => cases i <;> simp [wstep] at h
  | streaming f =>
    cases i <;> simp only [wstep, Option.some.injEq, Prod.mk.injEq, reduceCtorEq] at h <;> obtain ⟨_, rfl⟩ := h
    · intro n hn
      rcases List.mem_append.mp hn with hn | hn
      · exact hc _ n hn
      · exact he _ _ n hn
    · exact hc _
    · simp

theorem wrun_about {r : GVR} {c : Str} {is : List WIn} : ∀ {p p' : WPhase} {out : List Notice},
    wrun r c p is = some (p', out) → ∀ n ∈ out, aboutB r c n = true := by
  induction is with
  | nil => intro p p' out h; simp only [wrun, Option.some.injEq, Prod.mk.injEq] at h; obtain ⟨_, rfl⟩ := h; simp
  | cons i is ih =>
    intro p p' out h
    rw [wrun] at h
    cases hs : wstep r c p i with
    | none => rw [hs] at h; simp at h
    | some x =>
      rw [hs] at h
      simp only [Option.map_eq_some_iff, Prod.mk.injEq] at h
      obtain ⟨y, hy, _, rfl⟩ := h
      intro n hn
      rcases List.mem_append.mp hn with hn | hn
      · exact wstep_about hs n hn
      · exact ih hy n hn

theorem wrun_append {r : GVR} {c : Str} (is js : List WIn) : ∀ (p : WPhase),
    wrun r c p (is ++ js) = (wrun r c p is).bind fun x => (wrun r c x.1 js).map fun y => (y.1, x.2 ++ y.2) := by
  induction is with
  | nil => intro p; simp [wrun]
  | cons i is ih =>
    intro p
    simp only [List.cons_append, wrun]
    cases wstep r c p i with
    | none => rfl
    | some x =>
      simp only [ih]
      cases wrun r c x.1 is with
      | none => rfl
      | some y => simp [Option.map_map, Function.comp_def]

variable {key : Obj → Str × Str}

theorem replayOn_append (a b : List (EvType × Obj)) : ∀ m, replayOn key m (a ++ b) = replayOn key (replayOn key m a) b := by
  induction a with
  | nil => intro m; rfl
  | cons e a ih => intro m; exact ih _

theorem cached_append (a b : List Notice) : cached key (a ++ b) = b.foldl (applyNotice key) (cached key a) := by
  unfold cached; rw [List.foldl_append]

/-- Nothing is cached after a clean up. -/
theorem emptied_cached {out : List Notice} (h : Emptied out) (k : Str × Str) : cached key out k = none := by
  rcases h with rfl | ⟨r, c, h⟩
  · rfl
  · obtain ⟨l, rfl⟩ := List.getLast?_eq_some_iff.mp h
    rw [cached_append]
    rfl

theorem foldl_evNotice (r : GVR) (c : Str) (t : EvType) (o : Obj) (m : Objs) :
    (evNotice r c t o).foldl (applyNotice key) m = applyEvent key m (t, o) := by
  cases t <;> rfl

theorem foldl_cleanFirst (r : GVR) (c : Str) (f : Bool) (m : Objs) :
    (cleanFirst r c f).foldl (applyNotice key) m = if f then (fun _ => none) else m := by
  cases f <;> rfl

/-- The events of an open stream. -/
theorem wrun_events {r : GVR} {c : Str} (cur : List (EvType × Obj)) : ∀ (f : Bool), ∃ out,
    wrun r c (.streaming f) (cur.map fun e => WIn.event e.1 e.2) = some (.streaming (f && cur.isEmpty), out)
    ∧ ∀ m : Objs, out.foldl (applyNotice key) m = replayOn key (if f && !cur.isEmpty then (fun _ => none) else m) cur := by
  induction cur with
  | nil => intro f; refine ⟨[], by simp [wrun], by simp [replayOn]⟩
  | cons e cur ih =>
    intro f
    obtain ⟨out, h1, h2⟩ := ih false
    refine ⟨(cleanFirst r c f ++ evNotice r c e.1 e.2) ++ out, ?_, ?_⟩
    · simp only [List.map_cons, wrun, wstep, h1]
      simp
    · intro m
      rw [List.foldl_append, List.foldl_append, foldl_cleanFirst, foldl_evNotice, h2]
      cases f <;> simp [replayOn]

/-- From the phase after a delivery, inputs that are no new stream and no event make no call. -/
theorem wrun_quiet {r : GVR} {c : Str} (post : List WIn) (hq : ∀ i ∈ post, i = .fail ∨ i = .closed ∨ i = .stop) :
    ∀ {p p' : WPhase} {out : List Notice}, p ≠ .streaming true → wrun r c p post = some (p', out) → out = [] := by
  induction post with
  | nil => intro p p' out _ h; simp only [wrun, Option.some.injEq, Prod.mk.injEq] at h; exact h.2.symm
  | cons i post ih =>
    intro p p' out hp h
    rw [wrun] at h
    cases hs : wstep r c p i with
    | none => rw [hs] at h; simp at h
    | some x =>
      rw [hs] at h
      simp only [Option.map_eq_some_iff, Prod.mk.injEq] at h
      obtain ⟨y, hy, _, rfl⟩ := h
      have hx : x.2 = [] ∧ x.1 ≠ .streaming true := by
        rcases hq i (by simp) with rfl | rfl | rfl <;> cases p with
        | connecting =>
          simp only [wstep, Option.some.injEq, reduceCtorEq] at hs
          try (rw [← hs]; simp)
        | done => simp [wstep] at hs
        | streaming f =>
          cases f
          · simp only [wstep, cleanFirst, Option.some.injEq, reduceCtorEq] at hs
            try (rw [← hs]; simp)
          · exact absurd rfl hp
      rw [hx.1, List.nil_append]
      exact ih (fun i hi => hq i (by simp [hi])) hx.2 hy

/-! ## The API server -/

theorem objKey_of_meta {eval : Str → Obj → Str} {cf : List (Str × Str)} {o : Obj} {k : Str × Str}
    (h : metaKey o = some k) : objKey eval cf o = k := by
  unfold metaKey at h
  unfold objKey
  cases hm : o.om with
  | none => rw [hm] at h; simp at h
  | some m => rw [hm] at h; simpa using h

/-- The `Added` events of the existing objects. -/
theorem replayOn_initial (l : List ((Str × Str) × Obj)) (hk : ∀ e ∈ l, key e.2 = e.1) : ∀ (m : Objs) (k : Str × Str),
    IsMap l → replayOn key m (l.map fun e => (.added, e.2)) k = match lookup k l with | some o => some o | none => m k := by
  induction l with
  | nil => intro m k _; rfl
  | cons e l ih =>
    intro m k hm
    obtain ⟨k', o⟩ := e
    have hke : key o = k' := hk _ List.mem_cons_self
    have hm' : IsMap l := by unfold IsMap at hm ⊢; simp only [List.map_cons, List.nodup_cons] at hm; exact hm.2
    have hnot : ∀ v, (k', v) ∉ l := by
      intro v hv
      unfold IsMap at hm
      simp only [List.map_cons, List.nodup_cons] at hm
      exact hm.1 (List.mem_map.mpr ⟨_, hv, rfl⟩)
    simp only [List.map_cons, replayOn]
    rw [ih (fun e he => hk e (by simp [he])) _ _ hm']
    simp only [lookup, applyEvent, hke]
    by_cases hkk : k' = k
    · subst hkk
      rw [lookup_eq_none.mpr hnot]
      simp
    · simp only [if_neg hkk]

/-- The connection between server, stream and cache. -/
structure SysInv (key : Obj → Str × Str) (r : GVR) (c : Str) (s : Sys) : Prop where
  map : IsMap s.objs
  keys : ∀ e ∈ s.objs, key e.2 = e.1
  about : ∀ n ∈ s.out, aboutB r c n = true
  stream : ∀ f, s.phase = .streaming f → ∀ k,
    replayOn key (if f then (fun _ => none) else cached key s.out) s.pending k = lookup k s.objs

/-- A stream on which everything has been received. -/
theorem received_cached {out : List Notice} {objs : List ((Str × Str) × Obj)} {f : Bool}
    (hs : ∀ k, replayOn key (if f then (fun _ => none) else cached key out) [] k = lookup k objs)
    (h : f = false ∨ objs ≠ [] ∨ Emptied out) (k : Str × Str) : cached key out k = lookup k objs := by
  cases f with
  | false => simpa [replayOn] using hs k
  | true =>
    rcases h with h | hne | he
    · cases h
    · cases ho : objs with
      | nil => exact absurd ho hne
      | cons e l =>
        have := hs e.1
        rw [ho] at this
        simp [replayOn, lookup] at this
    · rw [emptied_cached he, ← hs k]
      rfl

theorem SysInv.step {r : GVR} {c : Str} (hkey : ∀ o k, metaKey o = some k → key o = k) {s t : Sys}
    (hi : SysInv key r c s) (h : SysStep r c s t) : SysInv key r c t := by
  have hab : ∀ {p p' : WPhase} {i : WIn} {out : List Notice}, wstep r c p i = some (p', out) →
      ∀ n ∈ s.out ++ out, aboutB r c n = true := by
    intro p p' i out hw n hn
    rcases List.mem_append.mp hn with hn | hn
    · exact hi.about n hn
    · exact wstep_about hw n hn
  have hrep : ∀ (e : EvType × Obj) f, s.phase = .streaming f → ∀ k,
      replayOn key (if f then (fun _ => none) else cached key s.out) (s.report e) k
        = applyEvent key (fun k => lookup k s.objs) e k := by
    intro e f hf k
    unfold Sys.report
    rw [hf]
    simp only
    rw [replayOn_append]
    have : replayOn key (if f then (fun _ => none) else cached key s.out) s.pending = fun k => lookup k s.objs :=
      funext (hi.stream f hf)
    rw [this]
    rfl
  cases h with
  | @create k o hk hn =>
    refine ⟨isMap_insertKV hi.map, ?_, hi.about, ?_⟩
    · intro e he
      rcases mem_insertKV he with rfl | he
      · exact hkey _ _ hk
      · exact hi.keys e he
    · intro f hf k'
      simp only at hf ⊢
      rw [hrep _ f hf, lookup_insertKV]
      simp only [applyEvent, hkey _ _ hk]
  | @update k o old hk ho =>
    refine ⟨isMap_insertKV hi.map, ?_, hi.about, ?_⟩
    · intro e he
      rcases mem_insertKV he with rfl | he
      · exact hkey _ _ hk
      · exact hi.keys e he
    · intro f hf k'
      simp only at hf ⊢
      rw [hrep _ f hf, lookup_insertKV]
      simp only [applyEvent, hkey _ _ hk]
  | @delete k o old hk ho =>
    refine ⟨isMap_eraseKV hi.map, fun e he => hi.keys e (mem_eraseKV_of he), hi.about, ?_⟩
    intro f hf k'
    simp only at hf ⊢
    rw [hrep _ f hf, lookup_eraseKV hi.map]
    simp only [applyEvent, hkey _ _ hk]
  | @fail p out hw =>
    refine ⟨hi.map, hi.keys, hab hw, ?_⟩
    intro f hf
    simp only at hf
    subst hf
    cases hp : s.phase <;> rw [hp] at hw <;> simp [wstep] at hw
  | @opened p out l hl hw =>
    refine ⟨hi.map, hi.keys, hab hw, ?_⟩
    intro f hf k
    simp only at hf
    subst hf
    have hf : f = true := by
      cases hp : s.phase <;> rw [hp] at hw <;> simp [wstep] at hw
      exact hw.1
    subst hf
    simp only [if_true]
    have hlm : IsMap l := by unfold IsMap; exact ((hl.map Prod.fst).nodup_iff).mpr hi.map
    rw [replayOn_initial l (fun e he => hi.keys e (hl.mem_iff.mp he)) _ _ hlm, ← lookup_perm hlm hl k]
    cases lookup k l <;> rfl
  | @deliver p out ty o rest hp hw =>
    refine ⟨hi.map, hi.keys, hab hw, ?_⟩
    intro f hf k
    simp only at hf
    subst hf
    cases hph : s.phase with
    | connecting => rw [hph] at hw; simp [wstep] at hw
    | done => rw [hph] at hw; simp [wstep] at hw
    | streaming f0 =>
      rw [hph] at hw
      simp only [wstep, Option.some.injEq, Prod.mk.injEq, WPhase.streaming.injEq] at hw
      obtain ⟨rfl, rfl⟩ := hw
      rw [← hi.stream f0 hph k, hp]
      simp only [Bool.false_eq_true, if_false, replayOn]
      rw [cached_append, List.foldl_append, foldl_cleanFirst, foldl_evNotice]
  | @other p out ty o ht hw =>
    refine ⟨hi.map, hi.keys, hab hw, ?_⟩
    intro f hf k
    simp only at hf
    subst hf
    cases hph : s.phase with
    | connecting => rw [hph] at hw; simp [wstep] at hw
    | done => rw [hph] at hw; simp [wstep] at hw
    | streaming f0 =>
      rw [hph] at hw
      simp only [wstep, Option.some.injEq, Prod.mk.injEq, WPhase.streaming.injEq] at hw
      obtain ⟨rfl, rfl⟩ := hw
      rw [← hi.stream f0 hph k]
      simp only [Bool.false_eq_true, if_false]
      rw [cached_append, List.foldl_append, foldl_cleanFirst, foldl_evNotice]
      rcases ht with rfl | rfl <;> rfl
  | @closed p out hw =>
    refine ⟨hi.map, hi.keys, hab hw, ?_⟩
    intro f hf
    simp only at hf
    subst hf
    cases hp : s.phase <;> rw [hp] at hw <;> simp [wstep] at hw
  | @stop p out hw =>
    refine ⟨hi.map, hi.keys, hab hw, ?_⟩
    intro f hf
    simp only at hf
    subst hf
    cases hp : s.phase <;> rw [hp] at hw <;> simp [wstep] at hw

theorem SysInv.run {r : GVR} {c : Str} (hkey : ∀ o k, metaKey o = some k → key o = k) {s t : Sys}
    (hi : SysInv key r c s) (h : SysRun r c s t) : SysInv key r c t := by
  induction h with
  | refl => exact hi
  | step _ hs ih => exact ih.step hkey hs

theorem SysInv.init (r : GVR) (c : Str) : SysInv key r c {} :=
  ⟨isMap_nil, by simp, by simp, by intro f hf; cases hf⟩

end Ckube

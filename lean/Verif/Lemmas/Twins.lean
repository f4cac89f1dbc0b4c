import Verif.Lemmas.Watcher
import Verif.Spec.Twins

/-! # Helper lemmas for several watchers of the same type -/

namespace Ckube
open Spec

variable {key : Obj → Str × Str}

/-- The event says something about the object of this name. -/
def touches (key : Obj → Str × Str) (k : Str × Str) (e : EvType × Obj) : Prop :=
  (e.1 = .added ∨ e.1 = .modified ∨ e.1 = .deleted) ∧ key e.2 = k

theorem applyEvent_untouched {m : Objs} {e : EvType × Obj} {k : Str × Str} (h : ¬ touches key k e) : applyEvent key m e k = m k := by
  obtain ⟨t, o⟩ := e
  have : t = .error ∨ t = .bookmark ∨ key o ≠ k := by
    by_contra hc
    push Not at hc
    apply h
    cases t with
    | error => exact absurd rfl hc.1
    | bookmark => exact absurd rfl hc.2.1
    | _ => exact ⟨by simp, hc.2.2⟩
  cases t with
  | error => rfl
  | bookmark => rfl
  | _ =>
    have hk : key o ≠ k := by simpa using this
    simp [applyEvent, hk]

theorem applyEvent_touched {m m' : Objs} {e : EvType × Obj} {k : Str × Str} (h : touches key k e) : applyEvent key m e k = applyEvent key m' e k := by
  obtain ⟨t, o⟩ := e
  obtain ⟨ht, hk⟩ := h
  simp only at ht hk
  rcases ht with rfl | rfl | rfl <;> simp [applyEvent, hk]

theorem replayOn_congr {k : Str × Str} (es : List (EvType × Obj)) : ∀ {m m' : Objs}, m k = m' k → replayOn key m es k = replayOn key m' es k := by
  induction es with
  | nil => intro m m' h; exact h
  | cons e es ih =>
    intro m m' h
    refine ih ?_
    by_cases ht : touches key k e
    · exact applyEvent_touched ht
    · rw [applyEvent_untouched ht, applyEvent_untouched ht, h]

theorem replayOn_untouched {k : Str × Str} (es : List (EvType × Obj)) : ∀ {m : Objs}, (∀ e ∈ es, ¬ touches key k e) → replayOn key m es k = m k := by
  induction es with
  | nil => intro m _; rfl
  | cons e es ih =>
    intro m h
    rw [replayOn, ih (fun x hx => h x (by simp [hx])), applyEvent_untouched (h e (by simp))]

theorem replayOn_touched {k : Str × Str} (es : List (EvType × Obj)) : ∀ {m m' : Objs}, (∃ e ∈ es, touches key k e) →
    replayOn key m es k = replayOn key m' es k := by
  induction es with
  | nil => intro m m' h; simp at h
  | cons e es ih =>
    intro m m' h
    by_cases ht : touches key k e
    · exact replayOn_congr es (applyEvent_touched ht)
    · obtain ⟨x, hx, hxt⟩ := h
      rcases List.mem_cons.mp hx with rfl | hx
      · exact absurd hxt ht
      · exact ih ⟨x, hx, hxt⟩

/-- The stream of one watcher ends at the objects of the server: from nothing if it has delivered nothing yet, and otherwise for every name that
still comes. -/
def StreamOK (key : Obj → Str × Str) (objs : List ((Str × Str) × Obj)) (w : Watched) : Prop :=
  match w.phase with
  | .streaming true => ∀ k, replay key w.pending k = lookup k objs
  | .streaming false => ∀ k, (∃ e ∈ w.pending, touches key k e) → replay key w.pending k = lookup k objs
  | _ => True

/-- The connection between the server, the streams and the cache. -/
structure TwinInv (key : Obj → Str × Str) (r : GVR) (c : Str) (t : Twins) : Prop where
  map : IsMap t.objs
  keys : ∀ e ∈ t.objs, key e.2 = e.1
  about : ∀ n ∈ t.out, aboutB r c n = true
  streams : ∀ w ∈ t.ws, StreamOK key t.objs w
  cache : t.ws ≠ [] → (∀ w ∈ t.ws, w.phase = .streaming false) → ∀ k,
    cached key t.out k = lookup k t.objs ∨ ∃ w ∈ t.ws, ∃ e ∈ w.pending, touches key k e

/-- A change of the server is heard on all streams. -/
theorem hears_streams {objs objs' : List ((Str × Str) × Obj)} {e : EvType × Obj} {k0 : Str × Str} (he : touches key k0 e)
    (hl : ∀ k, lookup k objs' = applyEvent key (fun k => lookup k objs) e k) {w : Watched} (hw : StreamOK key objs w) :
    StreamOK key objs' (w.hears e) := by
  have hother : ∀ k, k ≠ k0 → ¬ touches key k e := fun k hk ht => hk (ht.2.symm.trans he.2)
  have happ : ∀ es, replay key (es ++ [e]) = applyEvent key (replay key es) e := by
    intro es; unfold replay; rw [replayOn_append]; rfl
  unfold StreamOK Watched.hears
  unfold StreamOK at hw
  cases hp : w.phase with
  | connecting => simp [hp]
  | done => simp [hp]
  | streaming f =>
    rw [hp] at hw
    simp only [hp]
    cases f with
    | true =>
      simp only at hw ⊢
      intro k
      rw [happ, hl]
      by_cases hk : touches key k e
      · exact applyEvent_touched hk
      · rw [applyEvent_untouched hk, applyEvent_untouched hk, hw k]
    | false =>
      simp only at hw ⊢
      intro k ht
      rw [happ, hl]
      by_cases hk : touches key k e
      · exact applyEvent_touched hk
      · rw [applyEvent_untouched hk, applyEvent_untouched hk]
        refine hw k ?_
        obtain ⟨x, hx, hxt⟩ := ht
        rcases List.mem_append.mp hx with hx | hx
        · exact ⟨x, hx, hxt⟩
        · rw [List.mem_singleton.mp hx] at hxt; exact absurd hxt hk

theorem hears_phase (e : EvType × Obj) (w : Watched) : (w.hears e).phase = w.phase := by
  unfold Watched.hears
  cases hp : w.phase <;> simp [hp]

/-- A change of the server keeps the connection. -/
theorem TwinInv.change {r : GVR} {c : Str} {t : Twins} (hi : TwinInv key r c t) {objs' : List ((Str × Str) × Obj)} {e : EvType × Obj} {k0 : Str × Str}
    (he : touches key k0 e) (hm : IsMap objs') (hk : ∀ x ∈ objs', key x.2 = x.1)
    (hl : ∀ k, lookup k objs' = applyEvent key (fun k => lookup k t.objs) e k) :
    TwinInv key r c { t with objs := objs', ws := t.ws.map (Watched.hears e) } := by
  refine ⟨hm, hk, hi.about, ?_, ?_⟩
  · intro w hw
    obtain ⟨w0, hw0, rfl⟩ := List.mem_map.mp hw
    exact hears_streams he hl (hi.streams w0 hw0)
  · intro hne hall k
    have hne : t.ws ≠ [] := by intro hc; apply hne; simp [hc]
    have hall : ∀ w ∈ t.ws, w.phase = .streaming false := by
      intro w hw
      have := hall _ (List.mem_map.mpr ⟨w, hw, rfl⟩)
      rwa [hears_phase] at this
    have hpend : ∀ w ∈ t.ws, (w.hears e).pending = w.pending ++ [e] := by
      intro w hw
      unfold Watched.hears
      rw [hall w hw]
    by_cases hkt : touches key k e
    · obtain ⟨w, hw⟩ := List.exists_mem_of_ne_nil _ hne
      exact Or.inr ⟨_, List.mem_map.mpr ⟨w, hw, rfl⟩, e, by rw [hpend w hw]; simp, hkt⟩
    · rcases hi.cache hne hall k with h | ⟨w, hw, x, hx, hxt⟩
      · left
        simp only
        rw [hl, applyEvent_untouched hkt, h]
      · exact Or.inr ⟨_, List.mem_map.mpr ⟨w, hw, rfl⟩, x, by rw [hpend w hw]; simp [hx], hxt⟩

/-- What one watcher does keeps its stream. -/
theorem does_stream {r : GVR} {c : Str} {objs : List ((Str × Str) × Obj)} (hm : IsMap objs) (hk : ∀ x ∈ objs, key x.2 = x.1)
    {w w' : Watched} {out : List Notice} (hw : StreamOK key objs w) (hd : Does r c objs w w' out) : StreamOK key objs w' := by
  cases hd with
  | fail h => cases hp : w.phase <;> rw [hp] at h <;> simp [wstep] at h; simp [StreamOK, ← h.1]
  | @opened p _ l hl h =>
    cases hp : w.phase <;> rw [hp] at h <;> simp [wstep] at h
    obtain ⟨rfl, rfl⟩ := h
    intro k
    have hlm : IsMap l := by unfold IsMap; exact ((hl.map Prod.fst).nodup_iff).mpr hm
    unfold replay
    simp only
    rw [replayOn_initial l (fun e he => hk e (hl.mem_iff.mp he)) _ _ hlm, ← lookup_perm hlm hl k]
    cases lookup k l <;> rfl
  | @deliver p _ ty o rest hpe h =>
    cases hp : w.phase with
    | connecting => rw [hp] at h; simp [wstep] at h
    | done => rw [hp] at h; simp [wstep] at h
    | streaming f =>
      rw [hp] at h
      simp only [wstep, Option.some.injEq, Prod.mk.injEq] at h
      obtain ⟨rfl, rfl⟩ := h
      unfold StreamOK at hw ⊢
      rw [hp, hpe] at hw
      intro k ht
      have hrest : replay key rest k = replay key ((ty, o) :: rest) k := replayOn_touched rest ht
      simp only
      rw [hrest]
      cases f with
      | true => exact hw k
      | false => exact hw k (by obtain ⟨x, hx, hxt⟩ := ht; exact ⟨x, by simp [hx], hxt⟩)
  | @other p _ ty o hty h =>
    cases hp : w.phase with
    | connecting => rw [hp] at h; simp [wstep] at h
    | done => rw [hp] at h; simp [wstep] at h
    | streaming f =>
      rw [hp] at h
      simp only [wstep, Option.some.injEq, Prod.mk.injEq] at h
      obtain ⟨rfl, rfl⟩ := h
      unfold StreamOK at hw ⊢
      rw [hp] at hw
      intro k ht
      cases f with
      | true => exact hw k
      | false => exact hw k ht
  | closed h => cases hp : w.phase <;> rw [hp] at h <;> simp [wstep] at h; simp [StreamOK, ← h.1]
  | stop h => cases hp : w.phase <;> rw [hp] at h <;> simp [wstep] at h <;> simp [StreamOK, ← h.1]

/-- The cache after the calls of an event that a watcher received as the first of its stream, or later. -/
theorem does_cache {r : GVR} {c : Str} {objs : List ((Str × Str) × Obj)} {w w' : Watched} {out : List Notice}
    (hw : StreamOK key objs w) (hd : Does r c objs w w' out) (h' : w'.phase = .streaming false) (m : Objs) (k : Str × Str) :
    (∃ e ∈ w'.pending, touches key k e) ∨ out.foldl (applyNotice key) m k = lookup k objs
      ∨ (w.phase = .streaming false ∧ out.foldl (applyNotice key) m k = m k ∧ ∀ e ∈ w.pending, ¬ touches key k e) := by
  by_cases ht : ∃ e ∈ w'.pending, touches key k e
  · exact Or.inl ht
  right
  cases hd with
  | fail h =>
    simp only at h'
    cases hp : w.phase <;> rw [hp] at h <;> simp [wstep] at h
    rw [h'] at h; cases h.1
  | opened hl h =>
    simp only at h'
    cases hp : w.phase <;> rw [hp] at h <;> simp [wstep] at h
    rw [h'] at h; cases h.1
  | @deliver p _ ty o rest hpe h =>
    cases hp : w.phase with
    | connecting => rw [hp] at h; simp [wstep] at h
    | done => rw [hp] at h; simp [wstep] at h
    | streaming f =>
      rw [hp] at h
      simp only [wstep, Option.some.injEq, Prod.mk.injEq] at h
      obtain ⟨rfl, rfl⟩ := h
      unfold StreamOK at hw
      rw [hp, hpe] at hw
      simp only at ht
      push Not at ht
      have hrest : replay key ((ty, o) :: rest) k = applyEvent key (fun _ => none) (ty, o) k := by
        unfold replay
        rw [replayOn, replayOn_untouched rest ht]
      rw [List.foldl_append, foldl_cleanFirst, foldl_evNotice]
      cases f with
      | true =>
        left
        simp only [if_true]
        rw [← hrest]
        exact hw k
      | false =>
        by_cases hk : touches key k (ty, o)
        · left
          rw [← hw k ⟨_, by simp, hk⟩, hrest]
          exact applyEvent_touched hk
        · right
          refine ⟨rfl, ?_, ?_⟩
          · simp only [Bool.false_eq_true, if_false]
            exact applyEvent_untouched hk
          · rw [hpe]
            intro e he
            rcases List.mem_cons.mp he with rfl | he
            · exact hk
            · exact ht e he
  | @other p _ ty o hty h =>
    cases hp : w.phase with
    | connecting => rw [hp] at h; simp [wstep] at h
    | done => rw [hp] at h; simp [wstep] at h
    | streaming f =>
      rw [hp] at h
      simp only [wstep, Option.some.injEq, Prod.mk.injEq] at h
      obtain ⟨rfl, rfl⟩ := h
      unfold StreamOK at hw
      rw [hp] at hw
      simp only at ht
      push Not at ht
      rw [List.foldl_append, foldl_cleanFirst, foldl_evNotice]
      have hne : ∀ m : Objs, applyEvent key m (ty, o) k = m k := by
        intro m; rcases hty with rfl | rfl <;> rfl
      rw [hne]
      cases f with
      | true =>
        left
        have := hw k
        unfold replay at this
        rw [replayOn_untouched _ ht] at this
        simpa using this
      | false => exact Or.inr ⟨rfl, rfl, ht⟩
  | closed h =>
    simp only at h'
    cases hp : w.phase <;> rw [hp] at h <;> simp [wstep] at h
    rw [h'] at h; cases h.1
  | stop h =>
    simp only at h'
    cases hp : w.phase <;> rw [hp] at h <;> simp [wstep] at h <;> (rw [h'] at h; cases h.1)

theorem does_about {r : GVR} {c : Str} {objs : List ((Str × Str) × Obj)} {w w' : Watched} {out : List Notice}
    (hd : Does r c objs w w' out) : ∀ n ∈ out, aboutB r c n = true := by
  cases hd with
  | fail h => exact wstep_about h
  | opened _ h => exact wstep_about h
  | deliver _ h => exact wstep_about h
  | other _ h => exact wstep_about h
  | closed h => exact wstep_about h
  | stop h => exact wstep_about h

theorem mem_set_or {α : Type} {l : List α} {i : Nat} {a b : α} (h : b ∈ l.set i a) : b ∈ l ∨ b = a := by
  rcases List.mem_or_eq_of_mem_set h with h | h
  · exact Or.inl h
  · exact Or.inr h

theorem TwinInv.step {r : GVR} {c : Str} (hkey : ∀ o k, metaKey o = some k → key o = k) {s t : Twins}
    (hi : TwinInv key r c s) (h : TwinStep r c s t) : TwinInv key r c t := by
  cases h with
  | @create k o hk hn =>
    refine hi.change (k0 := k) ⟨Or.inl rfl, hkey _ _ hk⟩ (isMap_insertKV hi.map) ?_ ?_
    · intro e he
      rcases mem_insertKV he with rfl | he
      · exact hkey _ _ hk
      · exact hi.keys e he
    · intro k'
      rw [lookup_insertKV]
      simp only [applyEvent, hkey _ _ hk]
  | @update k o old hk ho =>
    refine hi.change (k0 := k) ⟨Or.inr (Or.inl rfl), hkey _ _ hk⟩ (isMap_insertKV hi.map) ?_ ?_
    · intro e he
      rcases mem_insertKV he with rfl | he
      · exact hkey _ _ hk
      · exact hi.keys e he
    · intro k'
      rw [lookup_insertKV]
      simp only [applyEvent, hkey _ _ hk]
  | @delete k o old hk ho =>
    refine hi.change (k0 := k) ⟨Or.inr (Or.inr rfl), hkey _ _ hk⟩ (isMap_eraseKV hi.map) (fun e he => hi.keys e (mem_eraseKV_of he)) ?_
    intro k'
    rw [lookup_eraseKV hi.map]
    simp only [applyEvent, hkey _ _ hk]
  | @own i w w' out hw hd =>
    have hmem : w ∈ s.ws := List.mem_of_getElem? hw
    have hilt : i < s.ws.length := (List.getElem?_eq_some_iff.mp hw).1
    have hmem' : w' ∈ s.ws.set i w' := List.mem_iff_getElem?.mpr ⟨i, by rw [List.getElem?_set_self hilt]⟩
    refine ⟨hi.map, hi.keys, ?_, ?_, ?_⟩
    · intro n hn
      rcases List.mem_append.mp hn with hn | hn
      · exact hi.about n hn
      · exact does_about hd n hn
    · intro x hx
      rcases mem_set_or hx with hx | rfl
      · exact hi.streams x hx
      · exact does_stream hi.map hi.keys (hi.streams w hmem) hd
    · intro _ hall k
      have h' : w'.phase = .streaming false := hall w' hmem'
      rw [cached_append]
      rcases does_cache (hi.streams w hmem) hd h' (cached key s.out) k with h | h | ⟨h1, h2, h3⟩
      · exact Or.inr ⟨w', hmem', h⟩
      · exact Or.inl h
      · have hall0 : ∀ x ∈ s.ws, x.phase = .streaming false := by
          intro x hx
          obtain ⟨j, hj⟩ := List.getElem?_of_mem hx
          by_cases hij : i = j
          · subst hij
            rw [hw] at hj
            exact Option.some.inj hj ▸ h1
          · refine hall x (List.mem_of_getElem? (i := j) ?_)
            rw [List.getElem?_set_ne hij, hj]
        rw [h2]
        rcases hi.cache (List.ne_nil_of_mem hmem) hall0 k with h | ⟨x, hx, e, he, het⟩
        · exact Or.inl h
        · right
          obtain ⟨j, hj⟩ := List.getElem?_of_mem hx
          by_cases hij : i = j
          · subst hij
            rw [hw] at hj
            obtain rfl := Option.some.inj hj
            exact absurd het (h3 e he)
          · exact ⟨x, List.mem_of_getElem? (i := j) (by rw [List.getElem?_set_ne hij, hj]), e, he, het⟩

theorem TwinInv.run {r : GVR} {c : Str} (hkey : ∀ o k, metaKey o = some k → key o = k) {s t : Twins}
    (hi : TwinInv key r c s) (h : TwinRun r c s t) : TwinInv key r c t := by
  induction h with
  | refl => exact hi
  | step _ h ih => exact ih.step hkey h

theorem TwinInv.init (r : GVR) (c : Str) (n : Nat) : TwinInv key r c (twins n) := by
  refine ⟨by unfold IsMap twins; simp, by simp [twins], by simp [twins], ?_, ?_⟩
  · intro w hw
    obtain rfl := List.eq_of_mem_replicate hw
    simp [StreamOK]
  · intro hne hall
    obtain ⟨w, hw⟩ := List.exists_mem_of_ne_nil _ hne
    have h1 := hall w hw
    obtain rfl := List.eq_of_mem_replicate hw
    cases h1

end Ckube

import Verif.Lemmas.FakeConc
import Verif.Props.FakeSession

/-! # C103: writes to the fake server from several goroutines -/

namespace Ckube
open Spec

variable {eval : Str → Obj → Str} {dec : Str → Option FBody} {enc : Obj → Str} {dflt : Str} {ops : List (Values × HReq)}

/-- The events of one object. -/
def Spec.ofObject (id : Ident) (es : List FEvent) : List FEvent := es.filter fun e => about e = id

theorem ofObject_append (id : Ident) (a b : List FEvent) : ofObject id (a ++ b) = ofObject id a ++ ofObject id b := by
  simp [ofObject]

theorem perm_short {α : Type} {a b : List α} (h : a.Perm b) (hb : b.length ≤ 1) : a = b := by
  match b, hb with
  | [], _ => exact List.perm_nil.mp h
  | [x], _ => exact List.perm_singleton.mp h

/-- One step and the events of an object. -/
theorem step_object {w w' : FWorld} {x : FStep} (h : w.step eval dec enc dflt ops x = some w') (hp : Prompt w x)
    (ht : ∀ id, (ofObject id (unsent w)).length ≤ 1) :
    (∀ id, (ofObject id (unsent w')).length ≤ 1) ∧ ∀ id, ofObject id w'.events ++ ofObject id (unsent w')
      = ofObject id w.events ++ ofObject id (unsent w) ++ ofObject id (newEvents w' x) := by
  have key : ∀ id, (ofObject id (unsent w')).length ≤ 1 ∧ ofObject id w'.events ++ ofObject id (unsent w')
      = ofObject id w.events ++ ofObject id (unsent w) ++ ofObject id (newEvents w' x) := by
    intro id
    rcases step_events h with ⟨a1, a2, _, a4⟩ | ⟨e, a1, a2, a3, _⟩
    · have hperm : (ofObject id (unsent w')).Perm (ofObject id (newEvents w' x) ++ ofObject id (unsent w)) := by
        rw [← ofObject_append]; exact a2.filter _
      have hn : ofObject id (newEvents w' x) = [] ∨ ((ofObject id (newEvents w' x)).length = 1 ∧ ofObject id (unsent w) = []) := by
        unfold newEvents at a4 ⊢
        generalize (writerOf x).bind (replyOf w') = z at a4 ⊢
        cases z with
        | none => exact Or.inl rfl
        | some y =>
          cases y with
          | done m e =>
            simp only [Option.map_some, Option.getD_some, FReply.sent] at a4 ⊢
            by_cases he : about e = id
            · refine Or.inr ⟨by simp [ofObject, he], ?_⟩
              unfold ofObject
              rw [List.filter_eq_nil_iff]
              intro e' he'
              have := a4 e (by simp) hp e' he'
              rw [he] at this
              simp [this]
            · exact Or.inl (by simp [ofObject, he])
          | _ => exact Or.inl rfl
      rcases hn with hn | ⟨hn, hu⟩
      · rw [hn, List.nil_append] at hperm
        have he := perm_short hperm (ht id)
        rw [hn, a1, he, List.append_nil]
        exact ⟨ht id, rfl⟩
      · rw [hu, List.append_nil] at hperm
        have he := perm_short hperm (by omega)
        rw [he, a1, hu, List.append_nil]
        exact ⟨by omega, rfl⟩
    · have hperm : (ofObject id (unsent w)).Perm (ofObject id [e] ++ ofObject id (unsent w')) := by
        rw [← ofObject_append]; exact a3.filter _
      have he := perm_short hperm.symm (ht id)
      have hlen := ht id
      rw [← he, List.length_append] at hlen
      rw [a1, a2, ofObject_append, ← he]
      refine ⟨by omega, ?_⟩
      simp [ofObject]
  exact ⟨fun id => (key id).1, fun id => (key id).2⟩

theorem run_serial : ∀ {steps : List FStep} {w w' : FWorld}, Fresh dec enc dflt ops w → AllPolite eval dec enc dflt ops w steps →
    w.run eval dec enc dflt ops steps = some w' →
    (∀ j y, replyOf w j = some y → replyOf w' j = some y) ∧
    ∃ L : List FStep, L.Sublist steps ∧ (L.filterMap writerOf).Nodup
      ∧ (∀ i, i ∈ L.filterMap writerOf ↔ replyOf w i = none ∧ (replyOf w' i).isSome = true)
      ∧ fakeSession eval dec enc dflt w.store (L.map (callOf ops)) = (L.map fun x => (writerOf x).bind (replyOf w'), w'.store)
      ∧ (AllPrompt eval dec enc dflt ops w steps → (∀ id, (ofObject id (unsent w)).length ≤ 1) →
          ∀ id, ofObject id w'.events ++ ofObject id (unsent w') = ofObject id w.events ++ ofObject id (unsent w)
            ++ ofObject id ((L.map fun x => (writerOf x).bind (replyOf w')).flatMap fun x => (x.map FReply.sent).getD [])) := by
  intro steps
  induction steps with
  | nil =>
    intro w w' _ _ h
    simp only [FWorld.run, Option.some.injEq] at h
    subst h
    refine ⟨fun j y h => h, [], List.Sublist.slnil, by simp, fun i => ?_, rfl, fun _ _ id => by simp [ofObject]⟩
    constructor
    · intro h; simp at h
    · rintro ⟨h1, h2⟩; rw [h1] at h2; simp at h2
  | cons x xs ih =>
    intro w w' hf hp h
    simp only [FWorld.run] at h
    cases h1 : w.step eval dec enc dflt ops x with
    | none => rw [h1] at h; simp at h
    | some w1 =>
      rw [h1, Option.bind_some] at h
      obtain ⟨hf1, hs⟩ := step_serial hf hp.1 h1
      obtain ⟨hk, L, a1, a2, a3, a4, a5⟩ := ih hf1 (hp.2 w1 h1) h
      rcases hs with (⟨i, y, b1, b2, b3, b4⟩ | ⟨b1, _, b3, b4⟩) | ⟨b3, b4, b5⟩
      · have hy : replyOf w' i = some y := hk i y (by rw [b3, if_pos rfl])
        have hni : i ∉ L.filterMap writerOf := by
          rw [a3, b3, if_pos rfl]; simp
        refine ⟨fun j z hz => hk j z ?_, x :: L, a1.cons_cons x, ?_, ?_, ?_, ?_⟩
        · rw [b3]
          split
          · rename_i hj; subst hj; rw [b2] at hz; simp at hz
          · exact hz
        · rw [List.filterMap_cons_some b1]
          exact List.nodup_cons.mpr ⟨hni, a2⟩
        · intro j
          rw [List.filterMap_cons_some b1, List.mem_cons, a3, b3]
          by_cases hj : j = i
          · subst hj; simp [b2, hy]
          · simp [hj]
        · simp only [List.map_cons, fakeSession, b4, a4, b1, Option.bind_some, hy]
        · intro hpr ht id
          obtain ⟨c1, c2⟩ := step_object h1 hpr.1 ht
          have hn : newEvents w1 x = y.sent := by
            unfold newEvents; rw [b1, Option.bind_some, b3, if_pos rfl]; rfl
          rw [a5 (hpr.2 w1 h1) c1 id, c2 id, hn]
          simp only [List.map_cons, List.flatMap_cons, b1, Option.bind_some, hy, Option.map_some, Option.getD_some, ofObject_append,
            List.append_assoc]
      · refine ⟨fun j z hz => hk j z (by rw [b3, hz]), x :: L, a1.cons_cons x, ?_, ?_, ?_, ?_⟩
        · rw [List.filterMap_cons_none b1]; exact a2
        · intro j; rw [List.filterMap_cons_none b1, a3, b3]
        · simp only [List.map_cons, fakeSession, b4, a4, b1, Option.bind_none]
        · intro hpr ht id
          obtain ⟨c1, c2⟩ := step_object h1 hpr.1 ht
          have hn : newEvents w1 x = [] := by unfold newEvents; rw [b1]; rfl
          rw [a5 (hpr.2 w1 h1) c1 id, c2 id, hn]
          simp [b1, ofObject]
      · refine ⟨fun j z hz => hk j z (by rw [b3, hz]), L, a1.cons x, a2, ?_, ?_, ?_⟩
        · intro j; rw [a3, b3]
        · rw [← b4, a4]
        · intro hpr ht id
          obtain ⟨c1, c2⟩ := step_object h1 hpr.1 ht
          rw [a5 (hpr.2 w1 h1) c1 id, c2 id, b5]
          simp [ofObject]

theorem fresh_start (s : Store) : Fresh dec enc dflt ops (fakeStart s ops) := by
  intro i p raw hi
  simp only [fakeStart, List.getElem?_map] at hi
  cases ops[i]? <;> simp at hi

theorem start_reply (s : Store) (i : Nat) : replyOf (fakeStart s ops) i = none := by
  unfold replyOf fakeStart
  simp only [List.getElem?_map]
  cases ops[i]? <;> rfl

theorem start_unsent (s : Store) : unsent (fakeStart s ops) = [] := by
  unfold unsent fakeStart
  rw [List.flatMap_eq_nil_iff]
  intro x hx
  simp only [List.mem_map] at hx
  obtain ⟨_, _, rfl⟩ := hx
  rfl

theorem start_events (s : Store) : eventsOf (fakeStart s ops) = [] := by
  unfold eventsOf fakeStart
  rw [List.flatMap_eq_nil_iff]
  intro x hx
  simp only [List.mem_map] at hx
  obtain ⟨_, _, rfl⟩ := hx
  rfl

/-- **C103**, for goroutines that do not write the object another one is about to write: whatever the interleaving of the writes, with
`Clean` in between, they have been answered, and have changed the store, as if they had been made one after the other, in the order `L` in
which the answers were decided. Each write stands once in `L`, when it has been decided, and `L` is a part of the run, so that a write that was
answered before another one arrived comes before it. What the answers and the store are is said by C99. If, moreover, nobody writes
an object before the event of the previous write of this object has been sent, then the events of each object are sent in that order,
too. Missing for the full claim: writes of the same object at the same time, for which it is false (`C103_false_create`,
`C103_false_delete`, `C103_false_events`). -/
theorem C103_serial_partial {s : Store} {steps : List FStep} {w : FWorld}
    (hrun : (fakeStart s ops).run eval dec enc dflt ops steps = some w) (hpolite : AllPolite eval dec enc dflt ops (fakeStart s ops) steps) :
    ∃ L : List FStep, L.Sublist steps ∧ (L.filterMap writerOf).Nodup
      ∧ (∀ i, i ∈ L.filterMap writerOf ↔ (replyOf w i).isSome = true)
      ∧ fakeSession eval dec enc dflt s (L.map (callOf ops)) = (L.map fun x => (writerOf x).bind (replyOf w), w.store)
      ∧ (AllPrompt eval dec enc dflt ops (fakeStart s ops) steps → ∀ id, ofObject id w.events ++ ofObject id (unsent w)
          = ofObject id ((fakeSession eval dec enc dflt s (L.map (callOf ops))).1.flatMap fun x => (x.map FReply.sent).getD [])) := by
  obtain ⟨_, L, a1, a2, a3, a4, a5⟩ := run_serial (fresh_start s) hpolite hrun
  refine ⟨L, a1, a2, fun i => ?_, a4, fun hpr id => ?_⟩
  · rw [a3, start_reply]
    simp
  · have hs : (fakeStart s ops).store = s := rfl
    rw [hs] at a4
    rw [a5 hpr (fun id => by rw [start_unsent]; simp [ofObject]) id, a4, start_unsent]
    simp [ofObject, fakeStart]

theorem run_events : ∀ {steps : List FStep} {w w' : FWorld}, w.run eval dec enc dflt ops steps = some w' →
    (w.events ++ unsent w).Perm (eventsOf w) → (w'.events ++ unsent w').Perm (eventsOf w') := by
  intro steps
  induction steps with
  | nil =>
    intro w w' h hp
    simp only [FWorld.run, Option.some.injEq] at h
    subst h
    exact hp
  | cons x xs ih =>
    intro w w' h hp
    simp only [FWorld.run] at h
    cases h1 : w.step eval dec enc dflt ops x with
    | none => rw [h1] at h; simp at h
    | some w1 =>
      rw [h1, Option.bind_some] at h
      refine ih h ?_
      rcases step_events h1 with ⟨a1, a2, a3, _⟩ | ⟨e, _, a2, a3, a4⟩
      · rw [a1]
        have h2 : (w.events ++ (newEvents w1 x ++ unsent w)).Perm (newEvents w1 x ++ (w.events ++ unsent w)) := by
          rw [← List.append_assoc, ← List.append_assoc]
          exact List.Perm.append_right _ List.perm_append_comm
        exact (List.Perm.append_left _ a2).trans (h2.trans ((List.Perm.append_left _ hp).trans a3.symm))
      · rw [a2, List.append_assoc]
        exact (List.Perm.append_left _ a3.symm).trans (hp.trans a4.symm)

/-- **C103**, events, whatever the interleaving: every write that has been carried out sends its event once, and nothing else is
sent. -/
theorem C103_events {s : Store} {steps : List FStep} {w : FWorld} (hrun : (fakeStart s ops).run eval dec enc dflt ops steps = some w) :
    (w.events ++ unsent w).Perm (eventsOf w) :=
  run_events hrun (by rw [start_unsent, start_events]; exact List.Perm.refl _)

/-- A goroutine that has asked the store does what its request says. -/
def Planned (dec : Str → Option FBody) (dflt : Str) (ops : List (Values × HReq)) (w : FWorld) : Prop :=
  ∀ (i : Nat) p raw, w.phases[i]? = some (.passed p raw) → ∃ op, ops[i]? = some op ∧ fakePlan dec dflt op.1 op.2 = .inr p

theorem perform_run {s : Store} {p : FPlan} {raw : Str} {m : ObjMeta} {e : FEvent} (h : (p.perform eval s raw).1 = .done m e) :
    s.run eval (noticeOf p) = some (p.perform eval s raw).2 := by
  have hd : ∀ (n : Notice), (fakeDone eval s (s.step eval n) p.gvr p.cluster p.b (p.event raw)).1 = .done m e →
      s.run eval [n] = some (fakeDone eval s (s.step eval n) p.gvr p.cluster p.b (p.event raw)).2 := by
    intro n h
    simp only [Store.run]
    cases hs : s.step eval n with
    | none => rw [hs] at h; simp [fakeDone] at h
    | some s' => rfl
  unfold FPlan.perform at h ⊢
  unfold noticeOf
  cases hp : p.action <;> simp only [hp] at h ⊢
  · rfl
  · exact hd (.added p.gvr p.cluster p.b.toObj) h
  · exact hd (.modified p.gvr p.cluster p.b.toObj) h
  · exact hd (.deleted p.gvr p.cluster p.b.toObj) h

theorem run_split {s : Store} {a b : List Notice} : s.run eval (a ++ b) = (s.run eval a).bind fun s => s.run eval b := by
  induction a generalizing s with
  | nil => rfl
  | cons n a ih =>
    simp only [List.cons_append, Store.run]
    cases s.step eval n with
    | none => rfl
    | some s' => simp only [Option.bind_some, ih]

/-- The goroutine that changes the store in a step. -/
def Spec.actorOf : FStep → Option Nat
  | .act i => some i
  | _ => none

theorem run_acts : ∀ {steps : List FStep} {w w' : FWorld}, Planned dec dflt ops w → (∀ conf, FStep.clean conf ∉ steps) →
    w.run eval dec enc dflt ops steps = some w' →
    ∃ L : List (Nat × FPlan), (L.map Prod.fst).Sublist (steps.filterMap actorOf)
      ∧ (∀ e ∈ L, ∃ op, ops[e.1]? = some op ∧ fakePlan dec dflt op.1 op.2 = .inr e.2)
      ∧ (∀ i m e, replyOf w i = some (.done m e) → replyOf w' i = some (.done m e))
      ∧ (∀ i, i ∈ L.map Prod.fst ↔ (∀ m e, replyOf w i ≠ some (.done m e)) ∧ ∃ m e, replyOf w' i = some (.done m e))
      ∧ (L.map Prod.fst).Nodup
      ∧ w.store.run eval (L.flatMap fun e => noticeOf e.2) = some w'.store := by
  intro steps
  induction steps with
  | nil =>
    intro w w' _ _ h
    simp only [FWorld.run, Option.some.injEq] at h
    subst h
    refine ⟨[], by simp, by simp, fun i m e h => h, fun i => ⟨fun h => by simp at h, ?_⟩, by simp, rfl⟩
    rintro ⟨h1, m, e, h2⟩
    exact absurd h2 (h1 m e)
  | cons x xs ih =>
    intro w w' hpl hcl h
    simp only [FWorld.run] at h
    cases h1 : w.step eval dec enc dflt ops x with
    | none => rw [h1] at h; simp at h
    | some w1 =>
      rw [h1, Option.bind_some] at h
      have hcl' : ∀ conf, FStep.clean conf ∉ xs := fun conf hm => hcl conf (List.mem_cons_of_mem _ hm)
      have quiet : Planned dec dflt ops w1 → (∀ i m e, replyOf w1 i = some (.done m e) ↔ replyOf w i = some (.done m e)) →
          w1.store = w.store →
          ∃ L : List (Nat × FPlan), (L.map Prod.fst).Sublist ((x :: xs).filterMap actorOf)
            ∧ (∀ e ∈ L, ∃ op, ops[e.1]? = some op ∧ fakePlan dec dflt op.1 op.2 = .inr e.2)
            ∧ (∀ i m e, replyOf w i = some (.done m e) → replyOf w' i = some (.done m e))
            ∧ (∀ i, i ∈ L.map Prod.fst ↔ (∀ m e, replyOf w i ≠ some (.done m e)) ∧ ∃ m e, replyOf w' i = some (.done m e))
            ∧ (L.map Prod.fst).Nodup
            ∧ w.store.run eval (L.flatMap fun e => noticeOf e.2) = some w'.store := fun hp1 hr hs => by
        obtain ⟨L, a1, a2, a3, a4, a5, a6⟩ := ih hp1 hcl' h
        have hsub : (L.map Prod.fst).Sublist ((x :: xs).filterMap actorOf) := by
          cases hx : actorOf x with
          | none => rw [List.filterMap_cons_none hx]; exact a1
          | some i => rw [List.filterMap_cons_some hx]; exact a1.cons i
        refine ⟨L, hsub, a2, fun i m e hi => a3 i m e ((hr i m e).mpr hi), fun i => ?_, a5, by rw [← hs]; exact a6⟩
        rw [a4]
        simp only [ne_eq, hr]
      cases x with
      | clean conf => exact absurd (List.mem_cons_self ..) (hcl conf)
      | send i =>
        simp only [FWorld.step] at h1
        split at h1
        · rename_i m e hi
          simp only [Option.some.injEq] at h1
          subst h1
          refine quiet ?_ ?_ rfl
          · intro j p raw hj
            rcases phases_set hj with ⟨_, h2⟩ | ⟨_, h2⟩
            · simp at h2
            · exact hpl j p raw h2
          · intro j m' e'
            rw [replyOf_set hi]
            split
            · rename_i hj; subst hj; unfold replyOf; rw [hi]
            · rfl
        · simp at h1
      | check i =>
        simp only [FWorld.step] at h1
        split at h1
        · rename_i ord r hi hop
          have hno : replyOf w i = none := by unfold replyOf; rw [hi]
          split at h1
          · rename_i y hp
            simp only [Option.some.injEq] at h1
            subst h1
            refine quiet ?_ ?_ rfl
            · intro j p raw hj
              rcases phases_set hj with ⟨_, h2⟩ | ⟨_, h2⟩
              · simp at h2
              · exact hpl j p raw h2
            · intro j m' e'
              rw [replyOf_set hi]
              split
              · rename_i hj; subst hj; rw [hno]
                constructor
                · intro hy
                  simp only [Option.some.injEq] at hy
                  have := plan_sent hp
                  rw [hy] at this
                  simp [FReply.sent] at this
                · intro hy; simp at hy
              · rfl
          · rename_i p hp
            split at h1
            · simp only [Option.some.injEq] at h1
              subst h1
              refine quiet ?_ ?_ rfl
              · intro j p raw hj
                rcases phases_set hj with ⟨_, h2⟩ | ⟨_, h2⟩
                · simp at h2
                · exact hpl j p raw h2
              · intro j m' e'
                rw [replyOf_set hi]
                split
                · rename_i hj; subst hj; rw [hno]; simp
                · rfl
            · simp only [Option.some.injEq] at h1
              subst h1
              refine quiet ?_ ?_ rfl
              · intro j p' raw' hj
                rcases phases_set hj with ⟨rfl, h2⟩ | ⟨_, h2⟩
                · simp only [FPhase.passed.injEq] at h2
                  obtain ⟨rfl, rfl⟩ := h2
                  exact ⟨_, hop, hp⟩
                · exact hpl j p' raw' h2
              · intro j m' e'
                rw [replyOf_set hi]
                split
                · rename_i hj; subst hj; rw [hno]
                · rfl
        · simp at h1
      | act i =>
        simp only [FWorld.step] at h1
        split at h1
        · rename_i p raw hi
          have hno : replyOf w i = none := by unfold replyOf; rw [hi]
          split at h1
          · rename_i m e hx
            simp only [Option.some.injEq] at h1
            subst h1
            obtain ⟨op, hop, hp⟩ := hpl i p raw hi
            have hp1 : Planned dec dflt ops ⟨(p.perform eval w.store raw).2, w.phases.set i (.acted m e), w.events⟩ := by
              intro j p' raw' hj
              rcases phases_set hj with ⟨_, h2⟩ | ⟨_, h2⟩
              · simp at h2
              · exact hpl j p' raw' h2
            obtain ⟨L, a1, a2, a3, a4, a5, a6⟩ := ih hp1 hcl' h
            have hi' : replyOf w' i = some (.done m e) := a3 i m e (by rw [replyOf_set hi, if_pos rfl])
            have hni : i ∉ L.map Prod.fst := by
              rw [a4, replyOf_set hi, if_pos rfl]
              rintro ⟨h2, _⟩
              exact h2 m e rfl
            refine ⟨(i, p) :: L, ?_, ?_, ?_, ?_, ?_, ?_⟩
            · rw [List.map_cons, List.filterMap_cons_some (f := actorOf) (a := .act i) (b := i) rfl]
              exact a1.cons_cons i
            · intro e' he'
              rcases List.mem_cons.mp he' with rfl | he'
              · exact ⟨op, hop, hp⟩
              · exact a2 e' he'
            · intro j m' e' hj
              refine a3 j m' e' ?_
              rw [replyOf_set hi]
              split
              · rename_i hji; subst hji; rw [hno] at hj; simp at hj
              · exact hj
            · intro j
              rw [List.map_cons, List.mem_cons, a4, replyOf_set hi]
              by_cases hji : j = i
              · subst hji
                simp only [true_or, true_iff]
                exact ⟨by rw [hno]; simp, m, e, hi'⟩
              · simp [hji]
            · exact List.nodup_cons.mpr ⟨hni, a5⟩
            · rw [List.flatMap_cons, run_split, perform_run hx, Option.bind_some]
              exact a6
          · rename_i y hx
            simp only [Option.some.injEq] at h1
            subst h1
            refine quiet ?_ ?_ rfl
            · intro j p' raw' hj
              rcases phases_set hj with ⟨_, h2⟩ | ⟨_, h2⟩
              · simp at h2
              · exact hpl j p' raw' h2
            · intro j m' e'
              rw [replyOf_set hi]
              split
              · rename_i hj; subst hj; rw [hno]
                constructor
                · intro hy
                  simp only [Option.some.injEq] at hy
                  exact absurd hy (hx m' e')
                · intro hy; simp at hy
              · rfl
        · simp at h1

/-- **C103**, store, whatever the interleaving: as long as there is no `Clean`, the store has gone through the changes of exactly those writes
that have been (or will be) answered with success, each once, in some order; by C20 it holds for every object what the last of them said. -/
theorem C103_store {s : Store} {steps : List FStep} {w : FWorld} (hrun : (fakeStart s ops).run eval dec enc dflt ops steps = some w)
    (hclean : ∀ conf, FStep.clean conf ∉ steps) :
    ∃ L : List (Nat × FPlan), (L.map Prod.fst).Sublist (steps.filterMap actorOf) ∧ (L.map Prod.fst).Nodup
      ∧ (∀ e ∈ L, ∃ op, ops[e.1]? = some op ∧ fakePlan dec dflt op.1 op.2 = .inr e.2)
      ∧ (∀ i, i ∈ L.map Prod.fst ↔ ∃ m e, replyOf w i = some (.done m e))
      ∧ s.run eval (L.flatMap fun e => noticeOf e.2) = some w.store := by
  have hp : Planned dec dflt ops (fakeStart s ops) := by
    intro i p raw hi
    obtain ⟨op, a, b, _⟩ := fresh_start (enc := enc) s i p raw hi
    exact ⟨op, a, b⟩
  obtain ⟨L, a1, a2, a3, a4, a5, a6⟩ := run_acts hp hclean hrun
  refine ⟨L, a1, a5, a2, fun i => ?_, a6⟩
  rw [a4, start_reply]
  simp

/-! ## The hypotheses are met -/

/-- A test for `Polite` and `Prompt`, for the example. -/
def politeB (w : FWorld) : FStep → Bool
  | .act i => match w.phases[i]? with
    | some (.passed p _) => (List.range w.phases.length).all fun j => match w.phases[j]? with
      | some (.passed p' _) => j = i || asked p' ≠ changed p
      | some (.acted _ e) => about e ≠ asked p
      | _ => true
    | _ => true
  | .clean _ => w.phases.all fun x => match x with | .passed _ _ => false | _ => true
  | _ => true

def allPoliteB (ops : List (Values × HReq)) : FWorld → List FStep → Bool
  | _, [] => true
  | w, x :: xs => politeB w x && match w.step exEval exDec exEnc (lit "default") ops x with
    | some w' => allPoliteB ops w' xs
    | none => true

theorem politeB_sound {w : FWorld} {x : FStep} (h : politeB w x = true) : Polite w x ∧ Prompt w x := by
  cases x with
  | check i => exact ⟨trivial, trivial⟩
  | send i => exact ⟨trivial, trivial⟩
  | clean conf =>
    refine ⟨?_, trivial⟩
    intro j p raw hj
    simp only [politeB, List.all_eq_true] at h
    have := h _ (List.mem_of_getElem? hj)
    simp at this
  | act i =>
    have key : ∀ p raw, w.phases[i]? = some (.passed p raw) → ∀ (j : Nat) y, w.phases[j]? = some y → (match y with
        | .passed p' _ => decide (j = i) || decide (asked p' ≠ changed p)
        | .acted _ e => decide (about e ≠ asked p)
        | _ => true) = true := by
      intro p raw hi j y hj
      have hlt : j < w.phases.length := by
        rcases Nat.lt_or_ge j w.phases.length with h | h
        · exact h
        · rw [List.getElem?_eq_none h] at hj; simp at hj
      simp only [politeB, hi, List.all_eq_true] at h
      have := h j (List.mem_range.mpr hlt)
      rw [hj] at this
      cases y <;> simp_all
    constructor
    · intro p raw hi j p' raw' hne hj
      have := key p raw hi j _ hj
      simpa [hne] using this
    · intro p raw hi j m e hj
      have := key p raw hi j _ hj
      simpa using this

theorem allPoliteB_sound {ops : List (Values × HReq)} : ∀ {steps : List FStep} {w : FWorld}, allPoliteB ops w steps = true →
    AllPolite exEval exDec exEnc (lit "default") ops w steps ∧ AllPrompt exEval exDec exEnc (lit "default") ops w steps := by
  intro steps
  induction steps with
  | nil => intro w _; exact ⟨trivial, trivial⟩
  | cons x xs ih =>
    intro w h
    simp only [allPoliteB, Bool.and_eq_true] at h
    obtain ⟨h1, h2⟩ := h
    refine ⟨⟨(politeB_sound h1).1, fun w' hw => ?_⟩, (politeB_sound h1).2, fun w' hw => ?_⟩
    · rw [hw] at h2; exact (ih h2).1
    · rw [hw] at h2; exact (ih h2).2

/-- A run of the fake server of the examples. -/
def exConc (ops : List (Values × HReq)) (steps : List FStep) : Option FWorld :=
  (fakeStart (newStore exConf) ops).run exEval exDec exEnc (lit "default") ops steps

/-- The answers, the names in the events, and which of two objects are there. -/
def exConcSeen (w : FWorld) : List Nat × List Str × List Bool :=
  (w.phases.map fun x => match x with | .answered (.done _ _) => 200 | .answered (.refused c) => c | _ => 0, w.events.map FEvent.name,
   [lit "a", lit "b"].map fun n => (readAt w.store ⟨exPods, lit "c1", lit "prod", n⟩).isSome)

/-- Two goroutines create the pods `a` and `b`, a third one replaces `b` and comes too early; their steps alternate. -/
def exConcOps : List (Values × HReq) := [(exFOrd, exFReq "POST" "" "a"), (exFOrd, exFReq "POST" "" "b"), (exFOrd, exFReq "PUT" "b" "b")]
def exConcSteps : List FStep := [.check 0, .check 1, .check 2, .act 1, .act 0, .send 0, .send 1]

example : allPoliteB exConcOps (fakeStart (newStore exConf) exConcOps) exConcSteps = true
    ∧ (exConc exConcOps exConcSteps).map exConcSeen = some ([200, 200, 404], [lit "a", lit "b"], [true, true]) := by
  decide +kernel

/-- **C103 is false** for creations of the same object: both goroutines are told that they have created it. One after the other, the
second one is refused. -/
theorem C103_false_create : ∃ (op : Values × HReq) (steps : List FStep),
    (exConc [op, op] steps).map exConcSeen = some ([200, 200], [lit "a", lit "a"], [true, false])
    ∧ ((exTested [.write op.1 op.2, .write op.1 op.2]).1.map fun x => decide (x = some (.refused 400))) = [false, true] :=
  ⟨(exFOrd, exFReq "POST" "" "a"), [.check 0, .check 1, .act 0, .act 1, .send 0, .send 1], by decide +kernel, by decide +kernel⟩

/-- **C103 is false** for deletions of the same object: both goroutines are told that they have deleted it, and there are two events. -/
theorem C103_false_delete : ∃ (op op' : Values × HReq) (steps : List FStep),
    (exConc [op, op', op'] steps).map exConcSeen = some ([200, 200, 200], [lit "a", lit "a", lit "a"], [false, false])
    ∧ ((exTested [.write op.1 op.2, .write op'.1 op'.2, .write op'.1 op'.2]).1.map fun x => decide (x = some (.refused 404))) = [false, false, true] :=
  ⟨(exFOrd, exFReq "POST" "" "a"), (exFOrd, exFReq "DELETE" "a" ""),
    [.check 0, .act 0, .send 0, .check 1, .check 2, .act 1, .act 2, .send 1, .send 2], by decide +kernel, by decide +kernel⟩

/-- The whole body is content, the name is always `a`. -/
def exDecA : Str → Option FBody := fun t => some { om := { name := lit "a" }, body := t }

/-- **C103 is false** for events, even if the object is asked for and changed without interruption: the goroutine that changed the object last may
send first, and whoever follows the events ends with content that the store no longer has. -/
theorem C103_false_events : ∃ (op op' : Values × HReq) (steps : List FStep),
    ((fakeStart (newStore exConf) [op, op']).run exEval exDecA exEnc (lit "default") [op, op'] steps).map
      (fun w => (w.events.map FEvent.raw, (readAt w.store ⟨exPods, lit "c1", lit "prod", lit "a"⟩).map Obj.body))
      = some ([lit "new", lit "old"], some (lit "new")) :=
  ⟨(exFOrd, exFReq "POST" "" "old"), (exFOrd, exFReq "PUT" "a" "new"), [.check 0, .act 0, .check 1, .act 1, .send 1, .send 0],
    by decide +kernel⟩

end Ckube

import Verif.Spec.FakeConc
import Verif.Lemmas.Store

/-! # Lemmas about writes at the same time -/

namespace Ckube
open Spec

variable {eval : Str → Obj → Str} {dec : Str → Option FBody} {enc : Obj → Str} {dflt : Str} {ops : List (Values × HReq)}

/-- The three parts of a write, one after the other, are the write. -/
theorem fakeProxy_split (s : Store) (ord : Values) (r : HReq) :
    fakeProxy eval dec enc dflt s ord r = match fakePlan dec dflt ord r with
      | .inl x => (x, s)
      | .inr p => match p.check enc s with
        | .inl c => (.refused c, s)
        | .inr raw => p.perform eval s raw := by
  unfold fakeProxy fakePlan
  by_cases hw : fakeWatch ord = true
  · simp [hw]
  · simp only [hw, Bool.false_eq_true, if_false]
    cases dec r.body with
    | none => rfl
    | some b0 =>
      simp only
      by_cases h1 : r.method = lit "POST"
      · simp only [h1, if_true, FPlan.check, FPlan.perform, FPlan.event]
        cases s.get r.gvr (fakeCluster dflt ord) r.ns (if r.resource = [] then b0.om.name else r.resource) <;> rfl
      · simp only [h1, if_false]
        by_cases h2 : r.method = lit "PUT"
        · simp only [h2, if_true, FPlan.check, FPlan.perform, FPlan.event]
          cases s.get r.gvr (fakeCluster dflt ord) r.ns (if r.resource = [] then b0.om.name else r.resource) <;> rfl
        · simp only [h2, if_false]
          by_cases h3 : r.method = lit "DELETE"
          · simp only [h3, if_true, FPlan.check, FPlan.perform, FPlan.event]
            cases s.get r.gvr (fakeDelCluster r.body (fakeCluster dflt ord)) r.ns (if r.resource = [] then b0.om.name else r.resource) <;> rfl
          · simp only [h3, if_false, FPlan.check, FPlan.perform, FPlan.event]

theorem notify_get {s s' : Store} {g g' : GVR} {c ns k c' ns' k' : Str} {f : Leaf → Leaf} (h : s.notify g c ns f = some s')
    (hf : ∀ l, k' ≠ k → lookup k' (f l) = lookup k' l) (hid : (⟨g', c', ns', k'⟩ : Ident) ≠ ⟨g, c, ns, k⟩) :
    s'.get g' c' ns' k' = s.get g' c' ns' k' := by
  obtain ⟨cm, hl, _, hd, _⟩ := notify_some h
  rw [get_eq, get_eq, hd, lookup_insertKV]
  by_cases hg : g = g'
  · subst hg
    simp only [if_true, hl, Option.bind_some]
    rw [leafOf_updLeaf, leafOf_initNs]
    by_cases hc : c = c' ∧ ns = ns'
    · obtain ⟨rfl, rfl⟩ := hc
      have hk : k' ≠ k := by rintro rfl; exact hid rfl
      simp only [and_self, if_true]
      rw [hf _ hk]
    · rw [if_neg hc, leafOf_initNs]
  · simp [hg]

theorem lookup_eraseKV_other {κ ν : Type} [DecidableEq κ] {k k' : κ} (m : List (κ × ν)) (h : k' ≠ k) :
    lookup k' (eraseKV k m) = lookup k' m := by
  induction m with
  | nil => rfl
  | cons e m ih =>
    obtain ⟨a, v⟩ := e
    simp only [eraseKV]
    by_cases ha : a = k
    · subst ha
      simp [lookup, Ne.symm h]
    · simp only [ha, if_false, lookup, ih]

theorem perform_get {s : Store} {p : FPlan} {raw : Str} {g : GVR} {c ns k : Str} (hid : (⟨g, c, ns, k⟩ : Ident) ≠ changed p) :
    (p.perform eval s raw).2.get g c ns k = s.get g c ns k := by
  have key : ∀ (f : Leaf → Leaf) s', (∀ l, k ≠ p.b.om.name → lookup k (f l) = lookup k l) →
      s.notify p.gvr p.cluster p.b.om.ns f = some s' → s'.get g c ns k = s.get g c ns k :=
    fun f s' hf h => notify_get h hf hid
  have hput : ∀ s', s.put eval p.gvr p.cluster p.b.toObj = some s' → s'.get g c ns k = s.get g c ns k := by
    intro s' h
    unfold Store.put at h
    simp only [FBody.toObj, build] at h
    exact key _ s' (fun l hk => by rw [lookup_insertKV, if_neg (Ne.symm hk)]) h
  have hdel : ∀ s', s.onDeleted eval p.gvr p.cluster p.b.toObj = some s' → s'.get g c ns k = s.get g c ns k := by
    intro s' h
    unfold Store.onDeleted at h
    simp only [FBody.toObj, build] at h
    exact key _ s' (fun l hk => lookup_eraseKV_other l hk) h
  unfold FPlan.perform
  cases p.action with
  | error => rfl
  | add =>
    simp only [fakeDone, Store.onAdded]
    cases h : s.put eval p.gvr p.cluster p.b.toObj with
    | none => rfl
    | some s' => exact hput s' h
  | update =>
    simp only [fakeDone, Store.onModified]
    cases h : s.put eval p.gvr p.cluster p.b.toObj with
    | none => rfl
    | some s' => exact hput s' h
  | delete =>
    simp only [fakeDone]
    cases h : s.onDeleted eval p.gvr p.cluster p.b.toObj with
    | none => rfl
    | some s' => exact hdel s' h

theorem perform_check {s : Store} {p p' : FPlan} {raw : Str} (hid : asked p' ≠ changed p) :
    p'.check enc (p.perform eval s raw).2 = p'.check enc s := by
  unfold FPlan.check
  rw [perform_get (eval := eval) (s := s) (p := p) (raw := raw) (g := p'.gvr) (c := p'.cluster) (ns := p'.ns) (k := p'.name) hid]

/-- A write that does not succeed changes nothing. -/
theorem perform_same {s : Store} {p : FPlan} {raw : Str} (h : ∀ m e, (p.perform eval s raw).1 ≠ .done m e) :
    (p.perform eval s raw).2 = s := by
  have hd : ∀ (s' : Option Store) e, (∀ m e', (fakeDone eval s s' p.gvr p.cluster p.b e).1 ≠ .done m e') →
      (fakeDone eval s s' p.gvr p.cluster p.b e).2 = s := by
    intro s' e h
    cases s' with
    | none => rfl
    | some s' => exact absurd rfl (h _ _)
  unfold FPlan.perform at h ⊢
  cases hp : p.action <;> simp only [hp] at h ⊢
  · exact hd _ _ h
  · exact hd _ _ h
  · exact hd _ _ h

/-- Every goroutine that has asked the store would get the same answer now. -/
def Fresh (dec : Str → Option FBody) (enc : Obj → Str) (dflt : Str) (ops : List (Values × HReq)) (w : FWorld) : Prop :=
  ∀ (i : Nat) p raw, w.phases[i]? = some (.passed p raw) →
    ∃ op, ops[i]? = some op ∧ fakePlan dec dflt op.1 op.2 = .inr p ∧ p.check enc w.store = .inr raw

theorem phases_set {l : List FPhase} {i j : Nat} {x y : FPhase} (h : (l.set i x)[j]? = some y) :
    (j = i ∧ y = x) ∨ (j ≠ i ∧ l[j]? = some y) := by
  rw [List.getElem?_set] at h
  split at h
  · rename_i he
    split at h
    · exact Or.inl ⟨he.symm, (Option.some.inj h).symm⟩
    · simp at h
  · rename_i he
    exact Or.inr ⟨fun e => he e.symm, h⟩

theorem replyOf_set {w : FWorld} {s : Store} {es : List FEvent} {i : Nat} {x y : FPhase} (hi : w.phases[i]? = some y) (j : Nat) :
    replyOf ⟨s, w.phases.set i x, es⟩ j = if j = i then (match x with
      | .acted m e => some (.done m e) | .answered x => some x | _ => none) else replyOf w j := by
  unfold replyOf
  simp only [List.getElem?_set]
  by_cases hj : j = i
  · subst hj
    have hlt : j < w.phases.length := by
      rcases Nat.lt_or_ge j w.phases.length with h | h
      · exact h
      · rw [List.getElem?_eq_none h] at hi; simp at hi
    simp only [if_true, hlt]
    cases x <;> rfl
  · rw [if_neg (fun e => hj e.symm), if_neg hj]

theorem getD_ops {i : Nat} {op : Values × HReq} (h : ops[i]? = some op) : ops.getD i ([], { method := [] }) = op := by
  rw [List.getD_eq_getElem?_getD, h]; rfl

/-- The event of the write that the step decides. -/
def newEvents (w' : FWorld) (x : FStep) : List FEvent := (((writerOf x).bind (replyOf w')).map FReply.sent).getD []

/-- One step: either it decides the answer of a write (or is `Clean`), and does what the call does, or it decides nothing. -/
theorem step_serial {w w' : FWorld} {x : FStep} (hf : Fresh dec enc dflt ops w) (hp : Polite w x)
    (h : w.step eval dec enc dflt ops x = some w') :
    Fresh dec enc dflt ops w' ∧
    (((∃ i y, writerOf x = some i ∧ replyOf w i = none ∧ (∀ j, replyOf w' j = if j = i then some y else replyOf w j)
        ∧ fakeOp eval dec enc dflt w.store (callOf ops x) = (some y, w'.store))
      ∨ (writerOf x = none ∧ (∃ conf, x = .clean conf) ∧ (∀ j, replyOf w' j = replyOf w j)
        ∧ fakeOp eval dec enc dflt w.store (callOf ops x) = (none, w'.store)))
     ∨ ((∀ j, replyOf w' j = replyOf w j) ∧ w'.store = w.store ∧ newEvents w' x = [])) := by
  cases x with
  | clean conf =>
    simp only [FWorld.step, Option.some.injEq] at h
    subst h
    exact ⟨fun i p raw hi => absurd hi (hp i p raw), Or.inl (Or.inr ⟨rfl, ⟨conf, rfl⟩, fun j => rfl, rfl⟩)⟩
  | send i =>
    simp only [FWorld.step] at h
    split at h
    · rename_i m e hi
      simp only [Option.some.injEq] at h
      subst h
      refine ⟨?_, Or.inr ⟨fun j => ?_, rfl, rfl⟩⟩
      · intro j p raw hj
        rcases phases_set hj with ⟨_, h2⟩ | ⟨_, h2⟩
        · simp at h2
        · exact hf j p raw h2
      · rw [replyOf_set hi]
        split
        · rename_i hj; subst hj; unfold replyOf; rw [hi]
        · rfl
    · simp at h
  | check i =>
    simp only [FWorld.step] at h
    split at h
    · rename_i ord r hi hop
      have hcall : callOf ops (.check i) = .write ord r := by simp only [callOf, getD_ops hop]
      have hno : replyOf w i = none := by unfold replyOf; rw [hi]
      split at h
      · rename_i y hpl
        simp only [Option.some.injEq] at h
        subst h
        refine ⟨?_, Or.inl (Or.inl ⟨i, y, rfl, hno, fun j => replyOf_set hi j, ?_⟩)⟩
        · intro j p raw hj
          rcases phases_set hj with ⟨_, h2⟩ | ⟨_, h2⟩
          · simp at h2
          · exact hf j p raw h2
        · rw [hcall]; simp only [fakeOp, fakeProxy_split, hpl]
      · rename_i p hpl
        split at h
        · rename_i c hc
          simp only [Option.some.injEq] at h
          subst h
          refine ⟨?_, Or.inl (Or.inl ⟨i, .refused c, rfl, hno, fun j => replyOf_set hi j, ?_⟩)⟩
          · intro j p raw hj
            rcases phases_set hj with ⟨_, h2⟩ | ⟨_, h2⟩
            · simp at h2
            · exact hf j p raw h2
          · rw [hcall]; simp only [fakeOp, fakeProxy_split, hpl, hc]
        · rename_i raw hc
          simp only [Option.some.injEq] at h
          subst h
          refine ⟨?_, Or.inr ⟨fun j => ?_, rfl, by
            simp only [newEvents, writerOf, Option.bind_some, replyOf_set hi, if_true, Option.map_none, Option.getD_none]⟩⟩
          · intro j p' raw' hj
            rcases phases_set hj with ⟨rfl, h2⟩ | ⟨_, h2⟩
            · simp only [FPhase.passed.injEq] at h2
              obtain ⟨rfl, rfl⟩ := h2
              exact ⟨_, hop, hpl, hc⟩
            · exact hf j p' raw' h2
          · rw [replyOf_set hi]
            split
            · rename_i hj; subst hj; rw [hno]
            · rfl
    · simp at h
  | act i =>
    simp only [FWorld.step] at h
    split at h
    · rename_i p raw hi
      obtain ⟨⟨ord, r⟩, hop, hpl, hc⟩ := hf i p raw hi
      have hcall : callOf ops (.act i) = .write ord r := by simp only [callOf, getD_ops hop]
      have hno : replyOf w i = none := by unfold replyOf; rw [hi]
      have hfp : fakeOp eval dec enc dflt w.store (.write ord r) = (some (p.perform eval w.store raw).1, (p.perform eval w.store raw).2) := by
        simp only [fakeOp, fakeProxy_split, hpl, hc]
      split at h
      · rename_i m e hx
        simp only [Option.some.injEq] at h
        subst h
        refine ⟨?_, Or.inl (Or.inl ⟨i, .done m e, rfl, hno, fun j => replyOf_set hi j, ?_⟩)⟩
        · intro j p' raw' hj
          rcases phases_set hj with ⟨_, h2⟩ | ⟨hne, h2⟩
          · simp at h2
          · obtain ⟨op, a1, a2, a3⟩ := hf j p' raw' h2
            exact ⟨op, a1, a2, by
              show p'.check enc (p.perform eval w.store raw).2 = _
              rw [perform_check (hp p raw hi j p' raw' hne h2), a3]⟩
        · rw [hcall, hfp, hx]
      · rename_i y hx
        simp only [Option.some.injEq] at h
        subst h
        have hs := perform_same (eval := eval) (s := w.store) (p := p) (raw := raw) (fun m e he => hx m e he)
        refine ⟨?_, Or.inl (Or.inl ⟨i, (p.perform eval w.store raw).1, rfl, hno, fun j => replyOf_set hi j, ?_⟩)⟩
        · intro j p' raw' hj
          rcases phases_set hj with ⟨_, h2⟩ | ⟨_, h2⟩
          · simp at h2
          · exact hf j p' raw' h2
        · rw [hcall, hfp, hs]
    · simp at h

theorem flatMap_set {α β : Type} (f : α → List β) : ∀ {l : List α} {i : Nat} {y : α} (x : α), l[i]? = some y →
    (f y ++ (l.set i x).flatMap f).Perm (f x ++ l.flatMap f) := by
  intro l
  induction l with
  | nil => intro i y x h; simp at h
  | cons a l ih =>
    intro i y x h
    cases i with
    | zero =>
      simp only [List.getElem?_cons_zero, Option.some.injEq] at h
      subst h
      simp only [List.set_cons_zero, List.flatMap_cons]
      rw [← List.append_assoc, ← List.append_assoc]
      exact List.Perm.append_right _ List.perm_append_comm
    | succ i =>
      simp only [List.getElem?_cons_succ] at h
      simp only [List.set_cons_succ, List.flatMap_cons]
      have h1 := ih x h
      have h2 : (f y ++ (f a ++ (l.set i x).flatMap f)).Perm (f a ++ (f y ++ (l.set i x).flatMap f)) := by
        rw [← List.append_assoc, ← List.append_assoc]
        exact List.Perm.append_right _ List.perm_append_comm
      have h3 : (f a ++ (f x ++ l.flatMap f)).Perm (f x ++ (f a ++ l.flatMap f)) := by
        rw [← List.append_assoc, ← List.append_assoc]
        exact List.Perm.append_right _ List.perm_append_comm
      exact h2.trans ((List.Perm.append_left _ h1).trans h3)

/-- What a plan that has been refused or has crashed sends. -/
theorem plan_sent {ord : Values} {r : HReq} {x : FReply} (h : fakePlan dec dflt ord r = .inl x) : x.sent = [] := by
  unfold fakePlan at h
  by_cases h0 : fakeWatch ord = true
  · simp only [h0, if_true, Sum.inl.injEq] at h; subst h; rfl
  · simp only [h0, Bool.false_eq_true, if_false] at h
    cases hd : dec r.body with
    | none => simp only [hd, Sum.inl.injEq] at h; subst h; rfl
    | some b0 =>
      simp only [hd] at h
      by_cases h1 : r.method = lit "POST"
      · rw [if_pos h1] at h; cases h
      · rw [if_neg h1] at h
        by_cases h2 : r.method = lit "PUT"
        · rw [if_pos h2] at h; cases h
        · rw [if_neg h2] at h
          by_cases h3 : r.method = lit "DELETE"
          · rw [if_pos h3] at h; cases h
          · rw [if_neg h3] at h; cases h

theorem perform_event {s : Store} {p : FPlan} {raw : Str} {m : ObjMeta} {e : FEvent} (h : (p.perform eval s raw).1 = .done m e) :
    e = p.event raw := by
  have hd : ∀ s', (fakeDone eval s s' p.gvr p.cluster p.b (p.event raw)).1 = .done m e → e = p.event raw := by
    intro s' h
    cases s' with
    | none => simp [fakeDone] at h
    | some s' => simp only [fakeDone, FReply.done.injEq] at h; exact h.2.symm
  unfold FPlan.perform at h
  cases hp : p.action <;> simp only [hp] at h
  · simp only [FReply.done.injEq] at h; exact h.2.symm
  · exact hd _ h
  · exact hd _ h
  · exact hd _ h

theorem perform_crash {s : Store} {p : FPlan} {raw : Str} (h : ∀ m e, (p.perform eval s raw).1 ≠ .done m e) :
    (p.perform eval s raw).1 = .crash := by
  have hd : ∀ s', (∀ m e, (fakeDone eval s s' p.gvr p.cluster p.b (p.event raw)).1 ≠ .done m e) →
      (fakeDone eval s s' p.gvr p.cluster p.b (p.event raw)).1 = .crash := by
    intro s' h
    cases s' with
    | none => rfl
    | some s' => exact absurd rfl (h _ _)
  unfold FPlan.perform at h ⊢
  cases hp : p.action <;> simp only [hp] at h ⊢
  · exact absurd rfl (h _ _)
  · exact hd _ h
  · exact hd _ h
  · exact hd _ h

/-- What a step does to the events: it decides a write and the event waits, or it sends one. -/
theorem step_events {w w' : FWorld} {x : FStep} (h : w.step eval dec enc dflt ops x = some w') :
    (w'.events = w.events ∧ (unsent w').Perm (newEvents w' x ++ unsent w) ∧ (eventsOf w').Perm (newEvents w' x ++ eventsOf w)
      ∧ ∀ e ∈ newEvents w' x, Prompt w x → ∀ e' ∈ unsent w, about e' ≠ about e)
    ∨ (∃ e, newEvents w' x = [] ∧ w'.events = w.events ++ [e] ∧ (unsent w).Perm (e :: unsent w') ∧ (eventsOf w').Perm (eventsOf w)) := by
  have hset : ∀ {i : Nat} {y : FPhase} (z : FPhase) (s : Store) (es : List FEvent), w.phases[i]? = some y →
      (∀ m e, y ≠ .acted m e) → (∀ m e, z ≠ .acted m e) → (unsent ⟨s, w.phases.set i z, es⟩).Perm (unsent w) := by
    intro i y z s es hi hy hz
    have := flatMap_set (fun x : FPhase => match x with | .acted _ e => [e] | _ => []) z hi
    cases y <;> cases z <;> first | exact this | exact absurd rfl (hy _ _) | exact absurd rfl (hz _ _)
  have hset2 : ∀ {i : Nat} {y : FPhase} (z : FPhase) (s : Store) (es : List FEvent), w.phases[i]? = some y →
      (y = .begun ∨ ∃ p raw, y = .passed p raw) → (∀ m e, z ≠ .acted m e) → (∀ m e, z ≠ .answered (.done m e)) →
      (eventsOf ⟨s, w.phases.set i z, es⟩).Perm (eventsOf w) := by
    intro i y z s es hi hy hz hz'
    have := flatMap_set (fun x : FPhase => match x with | .acted _ e => [e] | .answered (.done _ e) => [e] | _ => []) z hi
    rcases hy with rfl | ⟨p, raw, rfl⟩ <;>
    · cases z with
      | acted m e => exact absurd rfl (hz _ _)
      | answered x =>
        cases x with
        | done m e => exact absurd rfl (hz' _ _)
        | _ => exact this
      | _ => exact this
  cases x with
  | clean conf =>
    simp only [FWorld.step, Option.some.injEq] at h
    subst h
    exact Or.inl ⟨rfl, List.Perm.refl _, List.Perm.refl _, by simp [newEvents, writerOf]⟩
  | send i =>
    simp only [FWorld.step] at h
    split at h
    · rename_i m e hi
      simp only [Option.some.injEq] at h
      subst h
      refine Or.inr ⟨e, rfl, rfl, ?_, ?_⟩
      · exact (flatMap_set (fun x : FPhase => match x with | .acted _ e => [e] | _ => []) (.answered (.done m e)) hi).symm
      · have := flatMap_set (fun x : FPhase => match x with | .acted _ e => [e] | .answered (.done _ e) => [e] | _ => [])
          (.answered (.done m e)) hi
        exact (List.perm_append_left_iff [e]).mp this
    · simp at h
  | check i =>
    simp only [FWorld.step] at h
    split at h
    · rename_i ord r hi hop
      have hb : ∀ m e, FPhase.begun ≠ .acted m e := by intro m e h; cases h
      split at h
      · rename_i y hpl
        simp only [Option.some.injEq] at h
        subst h
        have hn : newEvents ⟨w.store, w.phases.set i (.answered y), w.events⟩ (.check i) = [] := by
          simp only [newEvents, writerOf, Option.bind_some, replyOf_set hi, if_true, Option.map_some, Option.getD_some, plan_sent hpl]
        rw [hn]
        have hy : ∀ m e, y ≠ .done m e := by
          intro m e he; have := plan_sent hpl; rw [he] at this; simp [FReply.sent] at this
        exact Or.inl ⟨rfl, hset _ _ _ hi hb (by intro m e h; cases h),
          hset2 _ _ _ hi (Or.inl rfl) (by intro m e h; cases h) (by intro m e h; cases h; exact hy _ _ rfl), by simp⟩
      · rename_i p hpl
        split at h
        · rename_i c hc
          simp only [Option.some.injEq] at h
          subst h
          have hn : newEvents ⟨w.store, w.phases.set i (.answered (.refused c)), w.events⟩ (.check i) = [] := by
            simp only [newEvents, writerOf, Option.bind_some, replyOf_set hi, if_true, Option.map_some, Option.getD_some, FReply.sent]
          rw [hn]
          exact Or.inl ⟨rfl, hset _ _ _ hi hb (by intro m e h; cases h),
            hset2 _ _ _ hi (Or.inl rfl) (by intro m e h; cases h) (by intro m e h; cases h), by simp⟩
        · rename_i raw hc
          simp only [Option.some.injEq] at h
          subst h
          have hn : newEvents ⟨w.store, w.phases.set i (.passed p raw), w.events⟩ (.check i) = [] := by
            simp only [newEvents, writerOf, Option.bind_some, replyOf_set hi, if_true, Option.map_none, Option.getD_none]
          rw [hn]
          exact Or.inl ⟨rfl, hset _ _ _ hi hb (by intro m e h; cases h),
            hset2 _ _ _ hi (Or.inl rfl) (by intro m e h; cases h) (by intro m e h; cases h), by simp⟩
    · simp at h
  | act i =>
    simp only [FWorld.step] at h
    split at h
    · rename_i p raw hi
      split at h
      · rename_i m e hx
        simp only [Option.some.injEq] at h
        subst h
        have hn : newEvents ⟨(p.perform eval w.store raw).2, w.phases.set i (.acted m e), w.events⟩ (.act i) = [e] := by
          simp only [newEvents, writerOf, Option.bind_some, replyOf_set hi, if_true, Option.map_some, Option.getD_some, FReply.sent]
        rw [hn]
        refine Or.inl ⟨rfl, ?_, ?_, ?_⟩
        · exact flatMap_set (fun x : FPhase => match x with | .acted _ e => [e] | _ => []) (.acted m e) hi
        · exact flatMap_set (fun x : FPhase => match x with | .acted _ e => [e] | .answered (.done _ e) => [e] | _ => []) (.acted m e) hi
        · intro e1 he1 hp e' he'
          rw [List.mem_singleton] at he1
          subst he1
          rw [perform_event hx]
          unfold unsent at he'
          rw [List.mem_flatMap] at he'
          obtain ⟨y, hy, hye⟩ := he'
          obtain ⟨j, hj⟩ := List.getElem?_of_mem hy
          cases y with
          | acted m' e'' =>
            simp only [List.mem_singleton] at hye
            subst hye
            exact hp p raw hi j m' e' hj
          | _ => simp at hye
      · rename_i y hx
        simp only [Option.some.injEq] at h
        subst h
        have hc := perform_crash (eval := eval) (s := w.store) (p := p) (raw := raw) (fun m e he => hx m e he)
        have hn : newEvents ⟨w.store, w.phases.set i (.answered (p.perform eval w.store raw).1), w.events⟩ (.act i) = [] := by
          simp only [newEvents, writerOf, Option.bind_some, replyOf_set hi, if_true, Option.map_some, Option.getD_some, hc, FReply.sent]
        rw [hn]
        exact Or.inl ⟨rfl, hset _ _ _ hi (by intro m e h; cases h) (by intro m e h; cases h),
          hset2 _ _ _ hi (Or.inr ⟨_, _, rfl⟩) (by intro m e h; cases h) (by intro m e h; rw [hc] at h; cases h), by simp⟩
    · simp at h

end Ckube

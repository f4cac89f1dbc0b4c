import Verif.Spec.Upstream
import Verif.Lemmas.Prelude
import Verif.Lemmas.Proxy

namespace Ckube
open Spec

theorem parseQuery_wire (q : Str) {secs : Nat} (k : Str) (h : secs ≠ 0) :
    lookup k (parseQuery (wireQuery q secs)) = lookup k (insertKV (lit "timeout") [durText secs] (parseQuery q)) := by
  obtain ⟨h1, h2⟩ := parseQuery_ok q
  have m1 : IsMap (insertKV (lit "timeout") [durText secs] (parseQuery q)) := isMap_insertKV h1
  have v1 : ∀ e ∈ insertKV (lit "timeout") [durText secs] (parseQuery q), e.2 ≠ [] := by
    intro e he
    rcases mem_insertKV he with rfl | he
    · simp
    · exact h2 e he
  unfold wireQuery
  rw [if_neg h, parseQuery_encode m1 v1, lookup_sortBy m1]

theorem lookup_wireQuery (q : Str) (secs : Nat) {k : Str} (hk : k ≠ lit "timeout") :
    lookup k (parseQuery (wireQuery q secs)) = lookup k (parseQuery q) := by
  by_cases h : secs = 0
  · obtain ⟨h1, h2⟩ := parseQuery_ok q
    unfold wireQuery
    rw [if_pos h, parseQuery_encode h1 h2, lookup_sortBy h1]
  · rw [parseQuery_wire q k h, lookup_insertKV, if_neg (Ne.symm hk)]

theorem lookup_wireQuery_timeout (q : Str) {secs : Nat} (h : secs ≠ 0) :
    lookup (lit "timeout") (parseQuery (wireQuery q secs)) = some [durText secs] := by
  rw [parseQuery_wire q _ h, lookup_insertKV, if_pos rfl]

/-! ## Timeouts -/

def SendReq.key (r : SendReq) : Bool × Str := (r.watch, r.cluster)

theorem SendState.run_append (s : SendState) : ∀ (xs ys : List SendStep), s.run (xs ++ ys) = (s.run xs).bind (·.run ys)
  | [], ys => by simp [run]
  | x :: xs, ys => by
    simp only [List.cons_append, run]
    cases s.step x with
    | none => rfl
    | some s' => simpa using run_append s' xs ys

theorem map_set_same {α β : Type} (f : α → β) {l : List α} {i : Nat} {a b : α} (h : l[i]? = some a) (e : f b = f a) :
    (l.set i b).map f = l.map f := by
  apply List.ext_getElem?
  intro n
  rw [List.getElem?_map, List.getElem?_map, List.getElem?_set]
  split
  · next hn =>
    subst hn
    split
    · simp [h, e]
    · next hl => rw [List.getElem?_eq_none (by omega)]
  · rfl

theorem SendState.step_keys {s s' : SendState} {x : SendStep} (h : s.step x = some s') :
    s'.reqs.map SendReq.key = s.reqs.map SendReq.key ++ started [x] := by
  cases x with
  | start w c => simp only [step, Option.some.injEq] at h; subst h; simp [started, SendReq.key]
  | store i | build i | send i =>
    simp only [step] at h
    split at h
    · next hi =>
      simp only [Option.some.injEq] at h; subst h
      simp only [started, List.filterMap_cons_none, List.filterMap_nil, List.append_nil]
      exact map_set_same _ hi rfl
    · simp at h

theorem started_append (xs ys : List SendStep) : started (xs ++ ys) = started xs ++ started ys := by
  simp [started]

theorem SendState.run_keys {s s' : SendState} : ∀ {xs : List SendStep}, s.run xs = some s' →
    s'.reqs.map SendReq.key = s.reqs.map SendReq.key ++ started xs
  | [], h => by simp only [run, Option.some.injEq] at h; subst h; simp [started]
  | x :: xs, h => by
    simp only [run, Option.bind_eq_some_iff] at h
    obtain ⟨s1, h1, h2⟩ := h
    rw [run_keys h2, step_keys h1, show x :: xs = [x] ++ xs from rfl, started_append, List.append_assoc]

/-- A step changes a request only if it is a step of that request. -/
theorem SendState.step_other {s s' : SendState} {x : SendStep} {i : Nat} {r : SendReq} (h : s.step x = some s') (hi : s.reqs[i]? = some r)
    (h1 : x ≠ .store i) (h2 : x ≠ .build i) (h3 : x ≠ .send i) : s'.reqs[i]? = some r := by
  have hlt := (List.getElem?_eq_some_iff.mp hi).1
  cases x with
  | start w c => simp only [step, Option.some.injEq] at h; subst h; simp [List.getElem?_append_left hlt, hi]
  | store j | build j | send j =>
    simp only [step] at h
    split at h
    · simp only [Option.some.injEq] at h; subst h
      have : j ≠ i := by rintro rfl; simp at h1 h2 h3
      simp [List.getElem?_set_ne this, hi]
    · simp at h

theorem SendState.step_sent {s s' : SendState} {x : SendStep} {i p d : Nat} {w : Bool} {c : Str} (h : s.step x = some s')
    (hi : s.reqs[i]? = some ⟨w, c, .sent p d⟩) : s'.reqs[i]? = some ⟨w, c, .sent p d⟩ := by
  apply step_other h hi <;> rintro rfl <;> simp [step, hi] at h

theorem SendState.run_sent {s s' : SendState} {i p d : Nat} {w : Bool} {c : Str} : ∀ {xs : List SendStep}, s.run xs = some s' →
    s.reqs[i]? = some ⟨w, c, .sent p d⟩ → s'.reqs[i]? = some ⟨w, c, .sent p d⟩
  | [], h, hi => by simp only [run, Option.some.injEq] at h; subst h; exact hi
  | x :: xs, h, hi => by
    simp only [run, Option.bind_eq_some_iff] at h
    obtain ⟨s1, h1, h2⟩ := h
    exact run_sent h2 (step_sent h1 hi)

/-- The timeout of a cluster after a step. -/
theorem SendState.step_cell {s s' : SendState} {x : SendStep} (h : s.step x = some s') (c : Str) :
    s'.cell c = s.cell c ∨ ∃ i w, x = .store i ∧ (s.reqs.map SendReq.key)[i]? = some (w, c) ∧ s'.cell c = ownTimeout w := by
  cases x with
  | start w c => simp only [step, Option.some.injEq] at h; subst h; exact .inl rfl
  | build i | send i =>
    simp only [step] at h
    split at h
    · simp only [Option.some.injEq] at h; subst h; exact .inl rfl
    · simp at h
  | store i =>
    simp only [step] at h
    split at h
    · next w c' hi =>
      simp only [Option.some.injEq] at h; subst h
      by_cases hc : c = c'
      · subst hc; exact .inr ⟨i, w, rfl, by simp [hi, SendReq.key], by simp⟩
      · exact .inl (by simp [hc])
    · simp at h

theorem SendState.prefix_key {s s' : SendState} {xs : List SendStep} {i : Nat} {k : Bool × Str} (h : s.run xs = some s')
    (hi : (s.reqs.map SendReq.key)[i]? = some k) : (s'.reqs.map SendReq.key)[i]? = some k := by
  rw [run_keys h, List.getElem?_append_left (List.getElem?_eq_some_iff.mp hi).1, hi]

/-- What holds from the `store` of request `i` on while the timeout of its cluster is its own. -/
def SendState.Own (i : Nat) (w : Bool) (c : Str) (s : SendState) : Prop :=
  ∃ ph, s.reqs[i]? = some ⟨w, c, ph⟩ ∧
    ((ph = .stored ∧ s.cell c = ownTimeout w) ∨ (ph = .built (ownTimeout w) ∧ s.cell c = ownTimeout w)
      ∨ ph = .sent (ownTimeout w) (ownTimeout w))

theorem SendState.Own.step {s s' : SendState} {x : SendStep} {i : Nat} {w : Bool} {c : Str} (ho : s.Own i w c) (h : s.step x = some s')
    (hx : ∀ j, x = .store j → ∀ w', (s.reqs.map SendReq.key)[j]? = some (w', c) → w' = w) : s'.Own i w c := by
  obtain ⟨ph, hi, hp⟩ := ho
  have hcell : s.cell c = ownTimeout w → s'.cell c = ownTimeout w := by
    intro e
    rcases step_cell h c with e' | ⟨j, w', e1, e2, e3⟩
    · rw [e', e]
    · rw [e3, hx j e1 w' e2]
  have hlt := (List.getElem?_eq_some_iff.mp hi).1
  rcases hp with ⟨rfl, hc⟩ | ⟨rfl, hc⟩ | rfl
  · by_cases hb : x = .build i
    · subst hb
      simp only [SendState.step, hi, Option.some.injEq] at h
      subst h
      exact ⟨.built (ownTimeout w), by simp [List.getElem?_set_self hlt, hc], .inr (.inl ⟨rfl, hc⟩)⟩
    · refine ⟨_, step_other h hi ?_ hb ?_, .inl ⟨rfl, hcell hc⟩⟩ <;> rintro rfl <;> simp [SendState.step, hi] at h
  · by_cases hb : x = .send i
    · subst hb
      simp only [SendState.step, hi, Option.some.injEq] at h
      subst h
      refine ⟨.sent (ownTimeout w) (ownTimeout w), ?_, .inr (.inr rfl)⟩
      simp only [List.getElem?_set_self hlt, hc]
      cases w <;> rfl
    · refine ⟨_, step_other h hi ?_ ?_ hb, .inr (.inl ⟨rfl, hcell hc⟩)⟩ <;> rintro rfl <;> simp [SendState.step, hi] at h
  · exact ⟨_, step_sent h hi, .inr (.inr rfl)⟩

theorem SendState.Own.run {s s' : SendState} {i : Nat} {w : Bool} {c : Str} : ∀ {xs : List SendStep}, s.Own i w c → s.run xs = some s' →
    (∀ j, .store j ∈ xs → ∀ w', (s'.reqs.map SendReq.key)[j]? = some (w', c) → w' = w) → s'.Own i w c
  | [], ho, h, _ => by simp only [SendState.run, Option.some.injEq] at h; subst h; exact ho
  | x :: xs, ho, h, hx => by
    simp only [SendState.run, Option.bind_eq_some_iff] at h
    obtain ⟨s1, h1, h2⟩ := h
    refine (ho.step h1 ?_).run h2 (fun j hj => hx j (List.mem_cons_of_mem _ hj))
    intro j e w' hk
    refine hx j (e ▸ List.mem_cons_self) w' (SendState.prefix_key (s := s) (xs := x :: xs) ?_ hk)
    simp [SendState.run, h1, h2]

/-- The timeouts are one minute or thirty. -/
def Sane (n : Nat) : Prop := n = 60 ∨ n = 1800

theorem sane_own (w : Bool) : Sane (ownTimeout w) := by cases w <;> simp [Sane, ownTimeout]

/-- What holds of every request at any time. -/
def SendReq.Ok (cell : Str → Nat) (r : SendReq) : Prop :=
  match r.phase with
  | .begun => True
  | .stored => Sane (cell r.cluster)
  | .built p => Sane p ∧ Sane (cell r.cluster)
  | .sent p d => Sane p ∧ (if r.watch then Sane d else d = 60)

theorem SendReq.Ok.cell {cell cell' : Str → Nat} {r : SendReq} (h : r.Ok cell) (hc : ∀ c, Sane (cell c) → Sane (cell' c)) : r.Ok cell' := by
  rcases r with ⟨w, c, _ | _ | p | ⟨p, d⟩⟩
  · trivial
  · exact hc _ h
  · exact ⟨h.1, hc _ h.2⟩
  · exact h

theorem SendState.ok_step {s s' : SendState} {x : SendStep} (h : s.step x = some s') (ho : ∀ r ∈ s.reqs, r.Ok s.cell) :
    ∀ r ∈ s'.reqs, r.Ok s'.cell := by
  have hcell : ∀ c, Sane (s.cell c) → Sane (s'.cell c) := by
    intro c e
    rcases step_cell h c with e' | ⟨j, w', _, _, e3⟩
    · rwa [e']
    · rw [e3]; exact sane_own w'
  intro r hr
  cases x with
  | start w c =>
    simp only [step, Option.some.injEq] at h; subst h
    rcases List.mem_append.mp hr with hr | hr
    · exact ho r hr
    · simp only [List.mem_singleton] at hr; subst hr; trivial
  | store i =>
    simp only [step] at h
    split at h
    · next w c hi =>
      simp only [Option.some.injEq] at h; subst h
      rcases List.mem_or_eq_of_mem_set hr with hr | hr
      · exact (ho r hr).cell hcell
      · subst hr; simp only [SendReq.Ok, if_true]; exact sane_own w
    · simp at h
  | build i =>
    simp only [step] at h
    split at h
    · next w c hi =>
      simp only [Option.some.injEq] at h; subst h
      rcases List.mem_or_eq_of_mem_set hr with hr | hr
      · exact (ho r hr).cell hcell
      · subst hr
        have := ho _ (List.mem_of_getElem? hi)
        exact ⟨this, this⟩
    · simp at h
  | send i =>
    simp only [step] at h
    split at h
    · next w c p hi =>
      simp only [Option.some.injEq] at h; subst h
      rcases List.mem_or_eq_of_mem_set hr with hr | hr
      · exact (ho r hr).cell hcell
      · subst hr
        obtain ⟨h1, h2⟩ := ho _ (List.mem_of_getElem? hi)
        refine ⟨h1, ?_⟩
        rcases h1 with h1 | h1 <;> rcases h2 with h2 | h2 <;> cases w <;> simp_all [Sane, capped, ownTimeout]
    · simp at h

theorem SendState.ok_run {s s' : SendState} : ∀ {xs : List SendStep}, s.run xs = some s' → (∀ r ∈ s.reqs, r.Ok s.cell) →
    ∀ r ∈ s'.reqs, r.Ok s'.cell
  | [], h, ho => by simp only [run, Option.some.injEq] at h; subst h; exact ho
  | x :: xs, h, ho => by
    simp only [run, Option.bind_eq_some_iff] at h
    obtain ⟨s1, h1, h2⟩ := h
    exact ok_run h2 (ok_step h1 ho)

end Ckube

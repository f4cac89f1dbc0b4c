import Verif.Lemmas.Linear
import Verif.Lemmas.Visit
import Verif.Lemmas.Terminate
import Verif.Lemmas.Sched
import Verif.Props.Store

/-! # C32–C34: the cache used by many goroutines

`Exec … P past σ`: an execution that makes any number of calls that satisfy `P`, in any interleaving, has passed
through the states `past` and is in state `σ`. -/

namespace Ckube
open Spec

variable {isPrint : Nat → Bool} {eval : Str → Obj → Str} {alg : SliceSort} {pf : Str → Option GoFloat}
  {conf : List (GVR × List (Str × Str))} {past : List CState} {σ : CState}

/-- What the calls of a trace returned, in the order of their returns: the bodies of the objects. -/
def answersOf (tr : List Event) : List (Nat × List Str) :=
  tr.filterMap fun e => match e with
    | .call _ _ => none
    | .ret i (.got o) => some (i, o.toList.map Obj.body)
    | .ret i (.result r) => some (i, (r.map fun r => r.items.map Obj.body).getD [])
    | .ret i _ => some (i, [])

/-! ## C32 -/

/-- **C32**: in every execution that makes any number of adds, modifies, deletes, gets and queries of configured
types concurrently, the adds, modifies, deletes and gets have a sequential order that respects real time and
explains every answer. -/
theorem C32_linearizable (he : Exec isPrint eval alg pf conf
      (fun op => op.Valid conf ∧ ∀ g c, op ≠ .notice (.clean g c)) past σ) :
    ∃ L, Linearization Point eval (newStore conf) σ.trace L := by
  obtain ⟨⟨L, s, hl⟩, _⟩ := LinInv.exec (conf := conf) he
  exact ⟨L, hl.linearization⟩

/-- Nothing crashes in these executions, with cleans as well. -/
theorem C32_no_crash (he : Exec isPrint eval alg pf conf (fun op => op.Valid conf) past σ) : σ.crashed = false :=
  (Good.exec (fun _ h => h) he).alive

/-- Two goroutines: an add is in the middle when a get of the same object starts; it waits for nobody and returns
nothing; a second get after the add stored the object, but before the add returned, returns it. -/
def exSched : List Act :=
  [.call (.notice (.added exPods (lit "c1") (exPod "web" "n1"))), .go 0 12,
   .call (.get exPods (lit "c1") (lit "prod") (lit "web")), .go 1 50, .go 0 9,
   .call (.get exPods (lit "c1") (lit "prod") (lit "web")), .go 2 50, .go 0 50]

example : ∃ past σ, Exec (fun _ => true) exEval insertionSort (fun _ => none) exConf
      (fun op => op.Valid exConf ∧ ∀ g c, op ≠ .notice (.clean g c)) past σ
    ∧ answersOf σ.trace = [(1, []), (2, [lit "n1"]), (0, [])] := by
  obtain ⟨past, he⟩ := sched_exec (isPrint := fun _ => true) (eval := exEval) (alg := insertionSort)
    (pf := fun _ => none) (conf := exConf) (P := fun op => op.Valid exConf ∧ ∀ g c, op ≠ .notice (.clean g c))
    exSched _ _ (by
      intro op h
      simp only [exSched, List.mem_cons, Act.call.injEq, reduceCtorEq, false_or, List.not_mem_nil, or_false] at h
      rcases h with rfl | rfl | rfl
      · exact ⟨by show (lookup exPods exConf).isSome = true; decide +kernel, by simp⟩
      · exact ⟨trivial, by simp⟩
      · exact ⟨trivial, by simp⟩) .start
  exact ⟨past, _, he, by decide +kernel⟩

/-! ## C33 -/

/-- **C33**: a query that returns without error, in any execution with notifications, cleans, gets and other queries
at the same time: the answer consists of different objects, each of which matches and was in the cache at some
moment while the query ran; every matching object that was in the cache, unchanged, at all moments while it ran is
among them; `total` is their number and the items are a part of them, all when no page size is given. -/
theorem C33_query_stable (he : Exec isPrint eval alg pf conf (fun op => op.Valid conf) past σ) {i : Nat} {g : GVR}
    {q : Query} {res : QueryResult} (hcall : Event.call i (.query g q) ∈ σ.trace)
    (hret : Event.ret i (.result (some res)) ∈ σ.trace) (hok : res.error = false) :
    ∃ found : List (Ident × SObj), (found.map Prod.fst).Nodup
      ∧ (∀ e ∈ found, e.1.gvr = g ∧ (q.ns = [] ∨ q.ns = e.1.ns) ∧ q.page.matches isPrint e.2.index = some true
          ∧ ∃ τ ∈ past ++ [σ], During i τ ∧ τ.heap.abs e.1 = some e.2)
      ∧ (∀ id so, id.gvr = g → (q.ns = [] ∨ q.ns = id.ns) → q.page.matches isPrint so.index = some true →
          (∀ τ ∈ past ++ [σ], During i τ → τ.heap.abs id = some so) → (id, so) ∈ found)
      ∧ res.total = found.length
      ∧ (∃ a b, res.items = ((found.map fun e => e.2.obj).drop a).take b)
      ∧ (q.page.pageSize = 0 → res.items = found.map fun e => e.2.obj) := by
  obtain ⟨found, f1, f2, f3, f4, f5⟩ := query_found (fun _ h => h) he hcall hret hok
  refine ⟨found, f1, f2, f3, f4, ?_, ?_⟩
  · rcases f5 with ⟨rfl, hi⟩ | ⟨items, hs, hi⟩
    · exact ⟨0, 0, by simpa using hi⟩
    · unfold slice at hs
      split at hs
      · simp only [Option.some.injEq] at hs
        refine ⟨(bounds q.page.page q.page.pageSize found.length).1.toNat,
          ((bounds q.page.page q.page.pageSize found.length).2
            - (bounds q.page.page q.page.pageSize found.length).1).toNat, ?_⟩
        rw [hi, ← hs, List.map_take, List.map_drop, List.map_map]
        rfl
      · simp at hs
  · intro hsize
    rcases f5 with ⟨rfl, hi⟩ | ⟨items, hs, hi⟩
    · simpa using hi
    · have hl : ((found.map Prod.snd).length : Int) = found.length := by simp
      unfold bounds at hs
      rw [if_pos hsize, ← hl, slice_all] at hs
      simp only [Option.some.injEq] at hs
      rw [hi, ← hs, List.map_map]
      rfl

/-- While a query of all pods is between its first and its second cluster, the pod of the second cluster is deleted
and a pod is added to the first: the answer has only the pod that was there all the time. -/
def exQuerySched : List Act :=
  [.call (.notice (.added exPods (lit "c1") (exPod "web" "n1"))), .go 0 99,
   .call (.notice (.added exPods (lit "c2") (exPod "web" "n2"))), .go 1 99,
   .call (.notice (.deleted exPods (lit "c2") (exPod "web" "n2"))), .go 2 12,
   .call (.notice (.added exPods (lit "c1") (exPod "db" "n3"))), .go 3 12,
   .call (.query exPods {}), .go 4 9, .go 2 99, .go 3 99, .go 4 99]

example : ∃ past σ, Exec (fun _ => true) exEval insertionSort (fun _ => none) exConf (fun op => op.Valid exConf) past σ
    ∧ answersOf σ.trace = [(0, []), (1, []), (2, []), (3, []), (4, [lit "n1"])] := by
  obtain ⟨past, he⟩ := sched_exec (isPrint := fun _ => true) (eval := exEval) (alg := insertionSort)
    (pf := fun _ => none) (conf := exConf) (P := fun op => op.Valid exConf)
    exQuerySched _ _ (by
      intro op h
      simp only [exQuerySched, List.mem_cons, Act.call.injEq, reduceCtorEq, false_or, List.not_mem_nil, or_false] at h
      rcases h with rfl | rfl | rfl | rfl | rfl <;> show (lookup exPods exConf).isSome = true <;> decide +kernel) .start
  exact ⟨past, _, he, by decide +kernel⟩

/-! ## C34 -/

/-- **C34**: in every execution of adds, modifies, deletes, cleans, gets and queries, as long as some call has
not returned, some call that has not returned can do a step. -/
theorem C34_progress (he : Exec isPrint eval alg pf conf (fun op => op.Valid conf) past σ) {i : Nat}
    (hi : During i σ) : ∃ j σ', During j σ ∧ TStep isPrint alg pf j σ σ' ∧ σ'.crashed = false := by
  have hg := Good.exec (fun _ h => h) he
  have hl := LockInv.exec (fun _ h => h) he
  have htr := TrInv.exec he
  obtain ⟨op, hc⟩ := hi.1
  obtain ⟨t, ht, _⟩ := (htr.call i op).mp hc
  have hr : t.returned = false := by
    cases hx : t.returned with
    | false => rfl
    | true => exact absurd (htr.ret' i t ht hx).2 (hi.2 _)
  obtain ⟨j, σ', hs⟩ := progress (isPrint := isPrint) (alg := alg) (pf := pf) hg hl ht hr
  refine ⟨j, σ', ?_, hs, (hg.step hs).alive⟩
  have hj : ∃ u, σ.thrs[j]? = some u ∧ u.returned = false := by
    rcases hs.cases with ⟨u, hu, _, hur, _⟩ | hcr | ⟨u, _, hu, hne, _⟩
    · exact ⟨u, hu, hur⟩
    · cases hs with
      | crash u ins rest hu hp _ _ =>
        refine ⟨u, hu, ?_⟩
        cases hx : u.returned with
        | false => rfl
        | true => rw [(htr.ret' j u hu hx).1] at hp; simp at hp
      | ret u hu hp hr => exact ⟨u, hu, hr⟩
      | announce u ins rest n hu hp _ _ _ _ | acquire u ins rest n hu hp _ _ _ _ | rlock u ins rest n hu hp _ _ _ _
      | write u ins rest n hu hp _ _ _ | read u ins rest n t' hu hp _ _ _ _ | hold u ins rest n t' hu hp _ _ _ _ =>
        refine ⟨u, hu, ?_⟩
        cases hx : u.returned with
        | false => rfl
        | true => rw [(htr.ret' j u hu hx).1] at hp; simp at hp
      | unlock u rest n hu hp | gauge u rest n hu hp | finish u rest n hu hp =>
        refine ⟨u, hu, ?_⟩
        cases hx : u.returned with
        | false => rfl
        | true => rw [(htr.ret' j u hu hx).1] at hp; simp at hp
    · refine ⟨u, hu, ?_⟩
      cases hx : u.returned with
      | false => rfl
      | true => exact absurd (htr.ret' j u hu hx).1 hne
  obtain ⟨u, hu, hur⟩ := hj
  refine ⟨⟨u.op, (htr.call j u.op).mpr ⟨u, hu, rfl⟩⟩, ?_⟩
  intro a ha
  obtain ⟨v, h1, h2, _⟩ := htr.ret j a ha
  rw [hu] at h1; cases h1
  rw [hur] at h2; simp at h2

/-- **C34**, every call returns: without new calls, the number of steps the calls in progress can do is bounded,
and when no more steps are possible all of them have returned. -/
theorem C34_all_return (he : Exec isPrint eval alg pf conf (fun op => op.Valid conf) past σ) :
    ∃ N, ∀ n σ', Steps isPrint alg pf n σ σ' → n ≤ N
      ∧ ((∀ j σ'', ¬ TStep isPrint alg pf j σ' σ'') → ∀ i, ¬ During i σ') := by
  refine ⟨σ.weight σ.size, ?_⟩
  have key : ∀ (n : Nat) (τ σ' : CState), Steps isPrint alg pf n τ σ' → ∀ pst, Exec isPrint eval alg pf conf
      (fun op => op.Valid conf) pst τ → τ.size ≤ σ.size →
      n ≤ τ.weight σ.size ∧ ∃ pst', Exec isPrint eval alg pf conf (fun op => op.Valid conf) pst' σ' := by
    intro n τ σ' hst
    induction hst with
    | refl => intro pst h _; exact ⟨Nat.zero_le _, pst, h⟩
    | step h1 _ ih =>
      intro pst h hsz
      have hg := Good.exec (fun _ h => h) h
      have hl := LockInv.exec (fun _ h => h) h
      obtain ⟨w1, w2⟩ := step_weight hg hl hsz h1
      obtain ⟨w3, w4⟩ := ih _ (h.step _ h1) (by omega)
      exact ⟨by omega, w4⟩
  intro n σ' hst
  obtain ⟨h1, pst', h2⟩ := key n σ σ' hst past he (Nat.le_refl _)
  refine ⟨h1, ?_⟩
  intro hno i hi
  obtain ⟨j, σ'', _, hs, _⟩ := C34_progress h2 hi
  exact hno j σ'' hs

/-- A query that holds the read lock of the resource type while a notification waits for the write lock. -/
def exBlockSched : List Act :=
  [.call (.notice (.added exPods (lit "c1") (exPod "web" "n1"))), .go 0 99,
   .call (.query exPods {}), .go 1 5,
   .call (.notice (.deleted exPods (lit "c1") (exPod "web" "n1"))), .go 2 99]

/-- Call `i` has been made and has not returned, as a test. -/
def runsIn (i : Nat) (tr : List Event) : Bool :=
  (tr.any fun e => match e with | .call j _ => i == j | _ => false)
    && !(tr.any fun e => match e with | .ret j _ => i == j | _ => false)

theorem during_of {i : Nat} {σ : CState} (h : runsIn i σ.trace = true) : During i σ := by
  unfold runsIn at h
  rw [Bool.and_eq_true, List.any_eq_true, Bool.not_eq_true', List.any_eq_false] at h
  obtain ⟨⟨e, he, h1⟩, h2⟩ := h
  refine ⟨?_, ?_⟩
  · cases e with
    | call j op => exact ⟨op, by rw [beq_iff_eq.mp h1]; exact he⟩
    | ret j a => simp at h1
  · intro a ha
    exact absurd (h2 _ ha) (by simp)

example : ∃ past σ, Exec (fun _ => true) exEval insertionSort (fun _ => none) exConf (fun op => op.Valid exConf) past σ
    ∧ During 1 σ ∧ During 2 σ ∧ (σ.stepFn (fun _ => true) insertionSort (fun _ => none) 2).isNone = true := by
  obtain ⟨past, he⟩ := sched_exec (isPrint := fun _ => true) (eval := exEval) (alg := insertionSort)
    (pf := fun _ => none) (conf := exConf) (P := fun op => op.Valid exConf)
    exBlockSched _ _ (by
      intro op h
      simp only [exBlockSched, List.mem_cons, Act.call.injEq, reduceCtorEq, false_or, List.not_mem_nil, or_false] at h
      rcases h with rfl | rfl | rfl <;> show (lookup exPods exConf).isSome = true <;> decide +kernel) .start
  exact ⟨past, _, he, during_of (by decide +kernel), during_of (by decide +kernel), by decide +kernel⟩

end Ckube

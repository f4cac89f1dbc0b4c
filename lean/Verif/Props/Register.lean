import Mathlib.Data.List.Permutation
import Verif.Lemmas.Register
import Verif.Lemmas.Sched
import Verif.Props.Conc

/-! # C72: every object by itself, with cleans -/

namespace Ckube
open Spec

variable {isPrint : Nat → Bool} {eval : Str → Obj → Str} {alg : SliceSort} {pf : Str → Option GoFloat}
  {conf : List (GVR × List (Str × Str))} {past : List CState} {σ : CState}

/-- **C72** for each object by itself: in every execution that makes any number of adds, modifies, deletes, cleans, gets and queries of
configured types concurrently, the calls about any one object, cleans included, have a sequential order that
respects real time and explains every answer. -/
theorem C72_object_partial (he : Exec isPrint eval alg pf conf (fun op => op.Valid conf) past σ) (id : Ident) :
    ∃ L, RegLinearization eval (confAt conf) id σ.trace L := by
  obtain ⟨L, hl⟩ := RegInv.exec (fun _ h => h) he id
  exact ⟨L, hl.linearization (TrInv.exec he)⟩


/-- A pod in a namespace. -/
def exPodIn (ns name body : String) : Obj := { om := some { name := lit name, ns := lit ns }, body := lit body }

/-- A pod in each of two namespaces; a clean has cleared the first one when both are read. -/
def exCleanSched : List Act :=
  [.call (.notice (.added exPods (lit "c1") (exPodIn "prod" "web" "n1"))), .go 0 99,
   .call (.notice (.added exPods (lit "c1") (exPodIn "test" "web" "n2"))), .go 1 99,
   .call (.notice (.clean exPods (lit "c1"))), .go 2 13,
   .call (.get exPods (lit "c1") (lit "prod") (lit "web")), .go 3 99,
   .call (.get exPods (lit "c1") (lit "test") (lit "web")), .go 4 99, .go 2 99]

/-- The calls of the schedule with their answers. -/
def exCleanCall : Nat → COp × Ans
  | 0 => (.notice (.added exPods (lit "c1") (exPodIn "prod" "web" "n1")), .ok)
  | 1 => (.notice (.added exPods (lit "c1") (exPodIn "test" "web" "n2")), .ok)
  | 2 => (.notice (.clean exPods (lit "c1")), .cleaned false)
  | 3 => (.get exPods (lit "c1") (lit "prod") (lit "web"), .got none)
  | _ => (.get exPods (lit "c1") (lit "test") (lit "web"),
      .got (some (build exEval (confAt exConf exPods) (lit "c1") (exPodIn "test" "web" "n2")).2.2.obj))

/-- What the callers see. -/
def exCleanTrace : List Event :=
  let c := fun i => Event.call i (exCleanCall i).1
  let r := fun i => Event.ret i (exCleanCall i).2
  [c 0, r 0, c 1, r 1, c 2, c 3, r 3, c 4, r 4, r 2]

theorem exClean_trace :
    (sched (fun _ => true) exEval insertionSort (fun _ => none) exConf exCleanSched { heap := newHeap exConf }).trace
      = exCleanTrace := by decide +kernel

/-- A call with its answer, if this is the answer of a store used by one goroutine. -/
def seqFn (eval : Str → Obj → Str) (s : Store) : COp × Ans → Option Store
  | (.notice (.clean g c), .cleaned e) => (s.clean g c).bind fun r => if r.2 = e then some r.1 else none
  | (.notice n, .ok) => s.step eval n
  | (.get g c ns name, .got o) => if s.get g c ns name = o then some s else none
  | _ => none

def serialFn (eval : Str → Obj → Str) : Store → List (COp × Ans) → Option Store
  | s, [] => some s
  | s, e :: l => (seqFn eval s e).bind fun s' => serialFn eval s' l

theorem serialFn_of {s s' : Store} {l : List (COp × Ans)} (h : Serial eval s l s') : serialFn eval s l = some s' := by
  induction h with
  | nil => rfl
  | @cons s s' s'' op a l h1 _ ih =>
    have : seqFn eval s (op, a) = some s' := by
      cases h1 with
      | @notice _ n hn h =>
        cases n with
        | clean g c => exact absurd rfl (hn g c)
        | _ => exact h
      | clean h => simp [seqFn, h]
      | get => simp [seqFn]
    simp only [serialFn, this, Option.bind_some]
    exact ih

theorem exClean_called {i : Nat} {op : COp} (h : Event.call i op ∈ exCleanTrace) : i < 5 ∧ op = (exCleanCall i).1 := by
  simp only [exCleanTrace, List.mem_cons, Event.call.injEq, reduceCtorEq, List.not_mem_nil, or_false, false_or] at h
  rcases h with ⟨rfl, rfl⟩ | ⟨rfl, rfl⟩ | ⟨rfl, rfl⟩ | ⟨rfl, rfl⟩ | ⟨rfl, rfl⟩ <;> exact ⟨by omega, rfl⟩

/-- **C72 is false** for several objects: two pods of one cluster have been
added; while a clean of the cluster runs, a reader finds the first gone and afterwards the second still there. No order of
the calls explains this. -/
theorem C72_false : ∃ past σ, Exec (fun _ => true) exEval insertionSort (fun _ => none) exConf
      (fun op => op.Valid exConf) past σ
    ∧ ¬ ∃ L, Linearization (fun op => ∀ g q, op ≠ .query g q) exEval (newStore exConf) σ.trace L := by
  obtain ⟨past, he⟩ := sched_exec (isPrint := fun _ => true) (eval := exEval) (alg := insertionSort)
    (pf := fun _ => none) (conf := exConf) (P := fun op => op.Valid exConf)
    exCleanSched _ _ (by
      intro op h
      simp only [exCleanSched, List.mem_cons, Act.call.injEq, reduceCtorEq, false_or, List.not_mem_nil, or_false] at h
      rcases h with rfl | rfl | rfl | rfl | rfl <;> trivial) .start
  refine ⟨past, _, he, ?_⟩
  rw [exClean_trace]
  rintro ⟨L, hL⟩
  -- the calls of `L` are the five calls
  have hall : ∀ i < 5, (i, exCleanCall i) ∈ L := by
    intro i hi
    refine hL.answered i (exCleanCall i).1 (exCleanCall i).2 ?_ ?_ ?_
    · interval_cases i <;> simp [exCleanTrace]
    · interval_cases i <;> simp [exCleanCall]
    · interval_cases i <;> simp [exCleanTrace]
  have hin : ∀ e ∈ L, e.1 < 5 := fun e he => (exClean_called (hL.called e he).1).1
  have hperm : (L.map Prod.fst).Perm [0, 1, 2, 3, 4] := by
    rw [List.perm_ext_iff_of_nodup hL.once (by decide)]
    intro i
    constructor
    · intro h
      obtain ⟨e, he, rfl⟩ := List.mem_map.mp h
      have := hin e he
      simp only [List.mem_cons, List.not_mem_nil, or_false]; omega
    · intro h
      simp only [List.mem_cons, List.not_mem_nil, or_false] at h
      exact List.mem_map.mpr ⟨_, hall i (by omega), rfl⟩
  have huniq : ∀ e ∈ L, e.2 = exCleanCall e.1 := by
    intro e he
    have h2 := hall e.1 (hin e he)
    have := List.inj_on_of_nodup_map hL.once he h2 rfl
    rw [this]
  have hmap : L.map Prod.snd = (L.map Prod.fst).map exCleanCall := by
    rw [List.map_map]
    exact List.map_congr_left huniq
  -- the order of real time
  have hord : (L.map Prod.fst).Pairwise fun i j => (j, i) ∉ [(0, 1), (1, 2), (1, 3), (3, 4)] := by
    rw [List.pairwise_map]
    refine hL.order.imp ?_
    intro e f hb hm
    apply hb
    simp only [List.mem_cons, Prod.mk.injEq, List.not_mem_nil, or_false] at hm
    rcases hm with ⟨h1, h2⟩ | ⟨h1, h2⟩ | ⟨h1, h2⟩ | ⟨h1, h2⟩ <;> rw [h1, h2]
    · exact ⟨exCleanTrace.take 1, [], exCleanTrace.drop 3, _, _, rfl⟩
    · exact ⟨exCleanTrace.take 3, [], exCleanTrace.drop 5, _, _, rfl⟩
    · exact ⟨exCleanTrace.take 3, [.call 2 (exCleanCall 2).1], exCleanTrace.drop 6, _, _, rfl⟩
    · exact ⟨exCleanTrace.take 6, [], exCleanTrace.drop 8, _, _, rfl⟩
  obtain ⟨s, hs⟩ := hL.serial
  have hrun := serialFn_of hs
  rw [hmap] at hrun
  have key : ∀ p ∈ List.permutations' [0, 1, 2, 3, 4],
      (p.Pairwise fun i j => (j, i) ∉ [(0, 1), (1, 2), (1, 3), (3, 4)]) →
      (serialFn exEval (newStore exConf) (p.map exCleanCall)).isSome = false := by decide +kernel
  have := key _ (List.mem_permutations'.mpr hperm) hord
  rw [hrun] at this
  simp at this

/-- The execution makes all these calls; by itself the first pod was added, cleaned, read, and the second was added,
read, cleaned. -/
example : (∃ past σ, Exec (fun _ => true) exEval insertionSort (fun _ => none) exConf (fun op => op.Valid exConf) past σ
      ∧ σ.trace = exCleanTrace)
    ∧ RegSerial exEval (confAt exConf) ⟨exPods, lit "c1", lit "prod", lit "web"⟩ none ([0, 2, 3].map exCleanCall) none
    ∧ RegSerial exEval (confAt exConf) ⟨exPods, lit "c1", lit "test", lit "web"⟩ none ([1, 4, 2].map exCleanCall) none := by
  obtain ⟨past, he⟩ := sched_exec (isPrint := fun _ => true) (eval := exEval) (alg := insertionSort)
    (pf := fun _ => none) (conf := exConf) (P := fun op => op.Valid exConf)
    exCleanSched _ _ (by
      intro op h
      simp only [exCleanSched, List.mem_cons, Act.call.injEq, reduceCtorEq, false_or, List.not_mem_nil, or_false] at h
      rcases h with rfl | rfl | rfl | rfl | rfl <;> trivial) .start
  refine ⟨⟨past, _, he, exClean_trace⟩, ?_, ?_⟩
  · exact .cons (.write ⟨rfl, by decide +kernel⟩ (build_same exEval (confAt exConf exPods) (lit "c1") _)) (.cons (.clean (by simp)) (.cons .get .nil))
  · exact .cons (.write ⟨rfl, by decide +kernel⟩ (build_same exEval (confAt exConf exPods) (lit "c1") _)) (.cons .get (.cons (.clean (by simp)) .nil))

end Ckube

import Verif.Model.Conc

/-! # Specification: linearizability -/

namespace Ckube.Spec

/-- One call of the store used by one goroutine: store before, call, answer, store after. -/
inductive SeqStep (eval : Str → Obj → Str) : Store → COp → Ans → Store → Prop
  | notice {s s' : Store} {n : Notice} (hn : ∀ g c, n ≠ .clean g c) (h : s.step eval n = some s') :
      SeqStep eval s (.notice n) .ok s'
  | clean {s s' : Store} {g : GVR} {c : Str} {e : Bool} (h : s.clean g c = some (s', e)) :
      SeqStep eval s (.notice (.clean g c)) (.cleaned e) s'
  | get {s : Store} {g : GVR} {c ns name : Str} : SeqStep eval s (.get g c ns name) (.got (s.get g c ns name)) s

/-- A sequence of calls with their answers, made one after the other. -/
inductive Serial (eval : Str → Obj → Str) : Store → List (COp × Ans) → Store → Prop
  | nil {s : Store} : Serial eval s [] s
  | cons {s s' s'' : Store} {op : COp} {a : Ans} {l : List (COp × Ans)} (h1 : SeqStep eval s op a s')
      (h2 : Serial eval s' l s'') : Serial eval s ((op, a) :: l) s''

/-- In the observed trace, call `i` returned before call `j` was made. -/
def Before (tr : List Event) (i j : Nat) : Prop :=
  ∃ t₁ t₂ t₃ a op, tr = t₁ ++ .ret i a :: (t₂ ++ .call j op :: t₃)

/-- Call `i` has been made and has not returned. -/
def During (i : Nat) (σ : CState) : Prop := (∃ op, Event.call i op ∈ σ.trace) ∧ ∀ a, Event.ret i a ∉ σ.trace

/-- A call that is about one object: add, modify, delete, get. -/
def Point : COp → Prop
  | .notice (.clean _ _) | .query _ _ => False
  | _ => True

/-- `L` is a sequential order of the calls of kind `K` of a trace: calls that were made, each at most once, every
call that has returned with the answer it returned, in an order that respects real time, and
the answers are those of a store used by one goroutine. (Calls that have not returned may or may not
have taken effect.) -/
structure Linearization (K : COp → Prop) (eval : Str → Obj → Str) (s₀ : Store) (tr : List Event)
    (L : List (Nat × COp × Ans)) : Prop where
  once : (L.map Prod.fst).Nodup
  called : ∀ e ∈ L, Event.call e.1 e.2.1 ∈ tr ∧ K e.2.1
  answered : ∀ i op a, Event.call i op ∈ tr → K op → Event.ret i a ∈ tr → (i, op, a) ∈ L
  order : L.Pairwise fun e f => ¬ Before tr f.1 e.1
  serial : ∃ s, Serial eval s₀ (L.map Prod.snd) s

/-- `n` steps of the calls in progress, in any interleaving, without new calls. -/
inductive Steps (isPrint : Nat → Bool) (alg : SliceSort) (pf : Str → Option GoFloat) : Nat → CState → CState → Prop
  | refl {σ : CState} : Steps isPrint alg pf 0 σ σ
  | step {n i : Nat} {σ σ' σ'' : CState} (h1 : TStep isPrint alg pf i σ σ') (h2 : Steps isPrint alg pf n σ' σ'') :
      Steps isPrint alg pf (n + 1) σ σ''

end Ckube.Spec

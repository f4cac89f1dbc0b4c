import Verif.Spec.Linear
import Verif.Spec.Cache

/-! # Specification: one object by itself, used by many goroutines -/

namespace Ckube.Spec

/-- The call is about the object `id`: it writes or removes it (alone or with others), or reads it. -/
def Concerns (eval : Str → Obj → Str) (conf : GVR → List (Str × Str)) (id : Ident) : COp → Prop
  | .notice n => (∃ o, Writes eval conf n id o) ∨ Removes eval conf n id
  | .get g c ns name => id = ⟨g, c, ns, name⟩
  | .query _ _ => False

/-- One call about `id`: what is stored under `id` before, call, answer, what is stored after. -/
inductive RegStep (eval : Str → Obj → Str) (conf : GVR → List (Str × Str)) (id : Ident) :
    Option Obj → COp → Ans → Option Obj → Prop
  | write {v : Option Obj} {n : Notice} {o o' : Obj} (h : Writes eval conf n id o) (hs : SameButMarks o o') :
      RegStep eval conf id v (.notice n) .ok (some o')
  | delete {v : Option Obj} {g : GVR} {c : Str} {o : Obj} (h : identOf eval conf g c o = id) :
      RegStep eval conf id v (.notice (.deleted g c o)) .ok none
  /-- `Clean` fails only when nothing is stored -/
  | clean {v : Option Obj} {e : Bool} (he : e = true → v = none) :
      RegStep eval conf id v (.notice (.clean id.gvr id.cluster)) (.cleaned e) none
  | get {v : Option Obj} : RegStep eval conf id v (.get id.gvr id.cluster id.ns id.name) (.got v) v

/-- A sequence of calls about `id`, made one after the other. -/
inductive RegSerial (eval : Str → Obj → Str) (conf : GVR → List (Str × Str)) (id : Ident) :
    Option Obj → List (COp × Ans) → Option Obj → Prop
  | nil {v : Option Obj} : RegSerial eval conf id v [] v
  | cons {v v' v'' : Option Obj} {op : COp} {a : Ans} {l : List (COp × Ans)} (h1 : RegStep eval conf id v op a v')
      (h2 : RegSerial eval conf id v' l v'') : RegSerial eval conf id v ((op, a) :: l) v''

/-- `L` is a sequential order of the calls about `id` of a trace: calls that were made, each at most once, every
call that has returned with the answer it returned, in an order that respects real time, and the answers are
those of one place that holds an object or nothing, at first nothing. -/
structure RegLinearization (eval : Str → Obj → Str) (conf : GVR → List (Str × Str)) (id : Ident) (tr : List Event)
    (L : List (Nat × COp × Ans)) : Prop where
  once : (L.map Prod.fst).Nodup
  called : ∀ e ∈ L, Event.call e.1 e.2.1 ∈ tr ∧ Concerns eval conf id e.2.1
  answered : ∀ i op a, Event.call i op ∈ tr → Concerns eval conf id op → Event.ret i a ∈ tr → (i, op, a) ∈ L
  order : L.Pairwise fun e f => ¬ Before tr f.1 e.1
  serial : ∃ v, RegSerial eval conf id none (L.map Prod.snd) v

end Ckube.Spec

import Verif.Spec.Watch
import Verif.Spec.Linear
import Verif.Spec.Proxy
import Verif.Lemmas.Conc

/-! # Everything running at once: API servers, watchers, the store and its clients

The store is the machine of `Model/Conc.lean`. For every resource type and cluster there is an API server and a watcher
goroutine (`Spec/Watch.lean`). The watcher makes its store calls one after the other and takes no event while it is in one
(watcher/watcher.go:158-178). Clients call `Get` and `Query` at any time.

Simplifications: one watcher for each type and cluster, none of them replaced by a reload (`Spec/Generations.lean` adds reloads). -/

namespace Ckube.Spec

/-- An API server with its watcher, the store calls the watcher still has to make for the event it has taken, and the
call it is in. -/
structure Comp where
  sys : Sys := {}
  todo : List Notice := []
  calling : Option Nat := none

/-- The whole. -/
structure World where
  store : CState
  comp : GVR → Str → Comp := fun _ _ => {}

/-- Replace one API server with its watcher. -/
def World.set (w : World) (g : GVR) (c : Str) (k : Comp) : World :=
  { w with comp := fun g' c' => if g' = g ∧ c' = c then k else w.comp g' c' }

/-- One step of the whole. -/
inductive WStep (isPrint : Nat → Bool) (eval : Str → Obj → Str) (alg : SliceSort) (parseFloat : Str → Option GoFloat)
    (conf : List (GVR × List (Str × Str))) : World → World → Prop
  /-- a goroutine inside a store call makes a step -/
  | run {w : World} {i : Nat} {σ : CState} (h : TStep isPrint alg parseFloat i w.store σ) :
      WStep isPrint eval alg parseFloat conf w { w with store := σ }
  /-- a request reads from the store -/
  | client {w : World} {op : COp} (hv : op.Valid conf) (hn : ∀ n, op ≠ .notice n) :
      WStep isPrint eval alg parseFloat conf w { w with store := w.store.call eval conf op }
  /-- the objects of an API server change -/
  | server {w : World} {g : GVR} {c : Str} {s : Sys} (h : SysStep g c (w.comp g c).sys s)
      (hp : s.phase = (w.comp g c).sys.phase) (ho : s.out = (w.comp g c).sys.out) :
      WStep isPrint eval alg parseFloat conf w (w.set g c { w.comp g c with sys := s })
  /-- a watcher that is in no store call takes an event, opens or loses a stream, or ends -/
  | watch {w : World} {g : GVR} {c : Str} {s : Sys} {new : List Notice} (h : SysStep g c (w.comp g c).sys s)
      (ht : (w.comp g c).todo = []) (hc : (w.comp g c).calling = none) (ho : s.out = (w.comp g c).sys.out ++ new) :
      WStep isPrint eval alg parseFloat conf w (w.set g c { sys := s, todo := new })
  /-- a watcher makes its next store call -/
  | invoke {w : World} {g : GVR} {c : Str} {n : Notice} {rest : List Notice} (hg : (lookup g conf).isSome = true)
      (ht : (w.comp g c).todo = n :: rest) (hc : (w.comp g c).calling = none) :
      WStep isPrint eval alg parseFloat conf w
        (({ w with store := w.store.call eval conf (.notice n) } : World).set g c
          { sys := (w.comp g c).sys, todo := rest, calling := some w.store.thrs.length })
  /-- the store call of a watcher has returned -/
  | returned {w : World} {g : GVR} {c : Str} {i : Nat} {t : Thr} (hc : (w.comp g c).calling = some i)
      (ht : w.store.thrs[i]? = some t) (hr : t.returned = true) :
      WStep isPrint eval alg parseFloat conf w (w.set g c { w.comp g c with calling := none })

/-- What can happen after the start with empty API servers and an empty store: the states passed through, and the current one. -/
inductive WRun (isPrint : Nat → Bool) (eval : Str → Obj → Str) (alg : SliceSort) (parseFloat : Str → Option GoFloat)
    (conf : List (GVR × List (Str × Str))) : List World → World → Prop
  | start : WRun isPrint eval alg parseFloat conf [] { store := { heap := newHeap conf } }
  | step {past : List World} {w w' : World} (h : WRun isPrint eval alg parseFloat conf past w)
      (hs : WStep isPrint eval alg parseFloat conf w w') : WRun isPrint eval alg parseFloat conf (past ++ [w]) w'

/-- The watcher waits for events, and its API server and the stream are in the state `S`. -/
def Waiting (S : Sys) (k : Comp) : Prop := k.sys = S ∧ k.todo = [] ∧ k.calling = none

/-- The stream is open and everything that was sent on it has been received (see C36 for the last condition). -/
def Received (S : Sys) : Prop := S.pending = [] ∧ ∃ f, S.phase = .streaming f ∧ (f = false ∨ S.objs ≠ [] ∨ Emptied S.out)

/-- The answer to the request depends on the store only through its resource types and its answer to the query `q`. -/
def OnlyAsks (env : Env) (tord : Nat → List (Str × Str) → List (Str × Str)) (ord : Values) (r : HReq) (q : Query) : Prop :=
  ∀ st st' : StoreI, (∀ g, st.isStoreGVR g = st'.isStoreGVR g) → st.query r.gvr q = st'.query r.gvr q →
    proxy env st tord ord r = proxy env st' tord ord r

/-- The answer to the request depends on the store only through its resource types and what it has in cluster `c` under the namespace
and name of the request. -/
def OnlyGets (env : Env) (tord : Nat → List (Str × Str) → List (Str × Str)) (ord : Values) (r : HReq) (c : Str) : Prop :=
  ∀ st st' : StoreI, (∀ g, st.isStoreGVR g = st'.isStoreGVR g) → st.get r.gvr c r.ns r.resource = st'.get r.gvr c r.ns r.resource →
    proxy env st tord ord r = proxy env st' tord ord r

end Ckube.Spec

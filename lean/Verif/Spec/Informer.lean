import Verif.Spec.Watch
import Verif.Spec.Proxy

/-! # Specification: a client that lists and then watches -/

namespace Ckube.Spec

/-- The query of the watch that goes with a list: the parameters of the list, and `watch=true`. -/
def WatchQuery (list watch : Str) : Prop := (parseQuery watch).Perm ((lit "watch", [lit "true"]) :: parseQuery list)

/-- The objects of an API server change. The events are those it sends on an open watch. -/
inductive Changes : List ((Str × Str) × Obj) → List (EvType × Obj) → List ((Str × Str) × Obj) → Prop
  | nil (m) : Changes m [] m
  | create {m k o es m'} (hk : metaKey o = some k) (hn : lookup k m = none) (t : Changes (insertKV k o m) es m') : Changes m ((.added, o) :: es) m'
  | update {m k o old es m'} (hk : metaKey o = some k) (ho : lookup k m = some old) (t : Changes (insertKV k o m) es m') :
      Changes m ((.modified, o) :: es) m'
  | delete {m k o old es m'} (hk : metaKey o = some k) (ho : lookup k m = some old) (t : Changes (eraseKV k m) es m') :
      Changes m ((.deleted, o) :: es) m'

/-- The key under which a client keeps an object. -/
def nameKey (o : Obj) : Str × Str := (metaKey o).getD ([], [])

/-- What a client holds that has listed `items` and received the events `es` of its watch. -/
def clientHolds (items : List Obj) (es : List (EvType × Obj)) : Objs := replay nameKey (items.map (fun o => (.added, o)) ++ es)

/-- The events of a watch without resource version on a server that has `objs`: an `Added` for every object, in any order, then the changes `es`. -/
def FreshWatch (objs : List ((Str × Str) × Obj)) (es stream : List (EvType × Obj)) : Prop :=
  ∃ l : List ((Str × Str) × Obj), l.Perm objs ∧ stream = l.map (fun e => (.added, e.2)) ++ es

end Ckube.Spec

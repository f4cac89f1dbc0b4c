import Verif.Spec.Watch
import Verif.Spec.Proxy
import Verif.Spec.Cache
import Verif.Spec.Sort

/-! # A cluster whose objects the cache has caught up with -/

namespace Ckube.Spec

/-- The store calls `h` are those of a watcher of type `g` and cluster `c` (and of others) that has received everything its API server,
which now has the objects `objs`, has sent: the stream is open, no event is on the way, and the stream delivered something, the
server has an object, or the cache was empty when the stream was opened (see C36). The server may have had any history, and any number of streams may have broken. -/
def CaughtUp (g : GVR) (c : Str) (h : List Notice) (objs : List ((Str × Str) × Obj)) : Prop :=
  ∃ (t : Sys) (f : Bool), SysRun g c {} t ∧ t.phase = .streaming f ∧ t.pending = [] ∧ (f = false ∨ t.objs ≠ [] ∨ Emptied t.out)
    ∧ h.filter (aboutB g c) = t.out ∧ t.objs = objs

/-- After the history `h` the cache has, for type `g` and cluster `c`, the objects `objs`. -/
def Mirrors (eval : Str → Obj → Str) (conf : List (GVR × List (Str × Str))) (g : GVR) (c : Str) (h : List Notice)
    (objs : List ((Str × Str) × Obj)) : Prop :=
  (∀ ns name o, Latest eval (confAt conf) h ⟨g, c, ns, name⟩ o ↔ lookup (ns, name) objs = some o)
    ∧ IsMap objs ∧ ∀ e ∈ objs, objKey eval (confAt conf g) e.2 = e.1

/-- Order of a list of one cluster: by namespace, then by name. -/
def NsNameLe (a b : Str × Str) : Prop :=
  strLt a.1 b.1 = true ∨ (a.1 = b.1 ∧ (strLt a.2 b.2 = true ∨ a.2 = b.2))

/-- Strict order of a list of several clusters: by cluster, then by namespace, then by name. -/
def PlaceLt (a b : Str × Str × Str) : Prop :=
  strLt a.1 b.1 = true ∨ (a.1 = b.1 ∧ (strLt a.2.1 b.2.1 = true ∨ (a.2.1 = b.2.1 ∧ strLt a.2.2 b.2.2 = true)))

/-- Strict lexicographic order by the values under the keys, each in its direction: as numbers under a numeric key, where values that are
not numbers come first, and as text otherwise. -/
def KeysLt {α : Type} (parseFloat : Str → Option GoFloat) (val : α → Str → Str) : List SortKey → α → α → Prop
  | [], _, _ => False
  | k :: ks, a, b =>
    (match k.num, k.reverse with
      | false, false => strLt (val a k.key) (val b k.key) = true
      | false, true => strLt (val b k.key) (val a k.key) = true
      | true, false => NumLt (number parseFloat (val a k.key)) (number parseFloat (val b k.key))
      | true, true => NumLt (number parseFloat (val b k.key)) (number parseFloat (val a k.key)))
      ∨ ((if k.num then number parseFloat (val a k.key) = number parseFloat (val b k.key) else val a k.key = val b k.key)
        ∧ KeysLt parseFloat val ks a b)

/-- The value of an object of cluster `e.1.1` under an index; empty if it has none. -/
def valueUnder (eval : Str → Obj → Str) (conf : List (Str × Str)) (e : (Str × Str × Str) × Obj) (k : Str) : Str :=
  (indexValueOf eval conf e.1.1 e.2 k).getD []

end Ckube.Spec

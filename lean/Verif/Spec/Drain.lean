import Verif.Spec.World

/-! # The whole when nothing new happens -/

namespace Ckube.Spec

/-- A step that only works off what is there: a goroutine inside a store call goes on, or one of the watchers `cs` opens its stream, takes
the next event, makes its next store call or comes back from one. No request arrives, no API server changes, no stream breaks. -/
inductive Drain (isPrint : Nat → Bool) (eval : Str → Obj → Str) (alg : SliceSort) (parseFloat : Str → Option GoFloat)
    (conf : List (GVR × List (Str × Str))) (cs : List (GVR × Str)) : World → World → Prop
  | run {w : World} {i : Nat} {σ : CState} (h : TStep isPrint alg parseFloat i w.store σ) :
      Drain isPrint eval alg parseFloat conf cs w { w with store := σ }
  | opened {w : World} {g : GVR} {c : Str} {p : WPhase} {out : List Notice} {l : List ((Str × Str) × Obj)} (hm : (g, c) ∈ cs)
      (ht : (w.comp g c).todo = []) (hc : (w.comp g c).calling = none) (hl : l.Perm (w.comp g c).sys.objs)
      (hw : wstep g c (w.comp g c).sys.phase .opened = some (p, out)) :
      Drain isPrint eval alg parseFloat conf cs w (w.set g c
        { sys := { (w.comp g c).sys with phase := p, out := (w.comp g c).sys.out ++ out, pending := l.map fun e => (.added, e.2) },
          todo := out })
  | deliver {w : World} {g : GVR} {c : Str} {p : WPhase} {out : List Notice} {t : EvType} {o : Obj} {rest : List (EvType × Obj)}
      (hm : (g, c) ∈ cs) (ht : (w.comp g c).todo = []) (hc : (w.comp g c).calling = none)
      (hp : (w.comp g c).sys.pending = (t, o) :: rest) (hw : wstep g c (w.comp g c).sys.phase (.event t o) = some (p, out)) :
      Drain isPrint eval alg parseFloat conf cs w (w.set g c
        { sys := { (w.comp g c).sys with phase := p, out := (w.comp g c).sys.out ++ out, pending := rest }, todo := out })
  | invoke {w : World} {g : GVR} {c : Str} {n : Notice} {rest : List Notice} (hm : (g, c) ∈ cs)
      (hg : (lookup g conf).isSome = true) (ht : (w.comp g c).todo = n :: rest) (hc : (w.comp g c).calling = none) :
      Drain isPrint eval alg parseFloat conf cs w
        (({ w with store := w.store.call eval conf (.notice n) } : World).set g c
          { sys := (w.comp g c).sys, todo := rest, calling := some w.store.thrs.length })
  | returned {w : World} {g : GVR} {c : Str} {i : Nat} {t : Thr} (hm : (g, c) ∈ cs) (hc : (w.comp g c).calling = some i)
      (ht : w.store.thrs[i]? = some t) (hr : t.returned = true) :
      Drain isPrint eval alg parseFloat conf cs w (w.set g c { w.comp g c with calling := none })

/-- The watcher notices what was deleted while its stream was down: the API server has an object, the open stream has delivered something, or the watcher has told the store
nothing since its last clean up. -/
def Recovers (s : Sys) : Prop := s.objs ≠ [] ∨ s.phase = .streaming false ∨ Emptied s.out

/-- `n` such steps, in any order. -/
inductive Drains (isPrint : Nat → Bool) (eval : Str → Obj → Str) (alg : SliceSort) (parseFloat : Str → Option GoFloat)
    (conf : List (GVR × List (Str × Str))) (cs : List (GVR × Str)) : Nat → World → World → Prop
  | refl {w : World} : Drains isPrint eval alg parseFloat conf cs 0 w w
  | step {n : Nat} {w v u : World} (h1 : Drain isPrint eval alg parseFloat conf cs w v)
      (h2 : Drains isPrint eval alg parseFloat conf cs n v u) : Drains isPrint eval alg parseFloat conf cs (n + 1) w u

/-- Nothing is left to be done. -/
def Drained (isPrint : Nat → Bool) (eval : Str → Obj → Str) (alg : SliceSort) (parseFloat : Str → Option GoFloat)
    (conf : List (GVR × List (Str × Str))) (cs : List (GVR × Str)) (w : World) : Prop :=
  ∀ w', ¬ Drain isPrint eval alg parseFloat conf cs w w'

/-- From `w` on only requests are served: the states passed through, and the current one. -/
inductive Serving (isPrint : Nat → Bool) (eval : Str → Obj → Str) (alg : SliceSort) (parseFloat : Str → Option GoFloat)
    (conf : List (GVR × List (Str × Str))) (w : World) : List World → World → Prop
  | start : Serving isPrint eval alg parseFloat conf w [] w
  | run {l : List World} {v : World} {i : Nat} {σ : CState} (h : Serving isPrint eval alg parseFloat conf w l v)
      (hs : TStep isPrint alg parseFloat i v.store σ) :
      Serving isPrint eval alg parseFloat conf w (l ++ [v]) { v with store := σ }
  | client {l : List World} {v : World} {op : COp} (h : Serving isPrint eval alg parseFloat conf w l v) (hv : op.Valid conf)
      (hn : ∀ n, op ≠ .notice n) :
      Serving isPrint eval alg parseFloat conf w (l ++ [v]) { v with store := v.store.call eval conf op }

end Ckube.Spec

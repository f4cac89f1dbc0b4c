import Verif.Spec.Drain
import Verif.Model.Reload

/-! # Everything running at once while the configuration is reloaded

Every load that succeeds makes a store and a watcher, which starts at once; the old watcher is stopped, and then the new store is
served (cmd/cacheproxy/main.go:158-161, 205-217). A store with its watchers is a generation. All generations watch the same API servers. Old
generations go on: a request that has read the pointer to the store reads the old one, and a watcher that was stopped may still be in a call.

Simplification: the types of a configuration are distinct, so that each generation has one watcher for each type and cluster. -/

namespace Ckube.Spec

/-- A store and its watchers, with the index configuration the store was made for. -/
structure Gen where
  conf : List (GVR × List (Str × Str))
  world : World

/-- The process, the objects of the API servers, and the generations in the order in which they were made. -/
structure Whole where
  proc : Proc
  api : GVR → Str → List ((Str × Str) × Obj) := fun _ _ => []
  gens : List Gen

/-- A new store with watchers that have not connected yet. -/
def newWorld (conf : List (GVR × List (Str × Str))) (api : GVR → Str → List ((Str × Str) × Obj)) : World :=
  { store := { heap := newHeap conf }, comp := fun g c => { sys := { objs := api g c } } }

/-- An API server creates, replaces or deletes an object, and what it reports. -/
inductive Change : List ((Str × Str) × Obj) → List ((Str × Str) × Obj) → EvType × Obj → Prop
  | create {l k o} (hk : metaKey o = some k) (hn : lookup k l = none) : Change l (insertKV k o l) (.added, o)
  | update {l k o old} (hk : metaKey o = some k) (ho : lookup k l = some old) : Change l (insertKV k o l) (.modified, o)
  | delete {l k o old} (hk : metaKey o = some k) (ho : lookup k l = some old) : Change l (eraseKV k l) (.deleted, o)

/-- The API server of cluster `c` now has the objects `l` of type `g`, and reports `e` to the watcher. -/
def World.changed (w : World) (g : GVR) (c : Str) (l : List ((Str × Str) × Obj)) (e : EvType × Obj) : World :=
  w.set g c { w.comp g c with sys := { (w.comp g c).sys with objs := l, pending := (w.comp g c).sys.report e } }

/-- The objects of one API server change, which reports it to the watchers of all generations. -/
def Whole.changed (W : Whole) (g : GVR) (c : Str) (l : List ((Str × Str) × Obj)) (e : EvType × Obj) : Whole :=
  { W with
    api := fun g' c' => if g' = g ∧ c' = c then l else W.api g' c'
    gens := W.gens.map fun x => { x with world := x.world.changed g c l e } }

/-- One step. -/
inductive WholeStep (kubeArg : Bool) (isPrint : Nat → Bool) (eval : Str → Obj → Str) (alg : SliceSort) (parseFloat : Str → Option GoFloat) :
    Whole → Whole → Prop
  /-- the objects of an API server change -/
  | change {W : Whole} {g : GVR} {c : Str} {l : List ((Str × Str) × Obj)} {e : EvType × Obj} (h : Change (W.api g c) l e) :
      WholeStep kubeArg isPrint eval alg parseFloat W (W.changed g c l e)
  /-- something happens in a generation: a step of a store call, a request, or a step of a watcher; watchers end only after `Stop` -/
  | act {W : Whole} {i : Nat} {x : Gen} {w : World} (hi : W.gens[i]? = some x) (h : WStep isPrint eval alg parseFloat x.conf x.world w)
      (ho : ∀ g c, (w.comp g c).sys.objs = (x.world.comp g c).sys.objs)
      (hs : ∀ y ∈ W.proc.w.watchers, y.fills = i → y.stops = 0 → ∀ g c, (w.comp g c).sys.phase = .done → (x.world.comp g c).sys.phase = .done) :
      WholeStep kubeArg isPrint eval alg parseFloat W { W with gens := W.gens.set i { x with world := w } }
  /-- the goroutine that reloads makes a step other than the next one; `f`: what the files contain -/
  | reload {W : Whole} {f : Files} {p : Proc} (h : W.proc.step kubeArg f = some p) (hn : ∀ cs, W.proc.pc ≠ .configured cs) :
      WholeStep kubeArg isPrint eval alg parseFloat W { W with proc := p }
  /-- it makes a store and starts a watcher -/
  | make {W : Whole} {f : Files} {p : Proc} {cs : List Str} (h : W.proc.step kubeArg f = some p) (hp : W.proc.pc = .configured cs) :
      WholeStep kubeArg isPrint eval alg parseFloat W
        { W with
          proc := p
          gens := W.gens ++ [⟨W.proc.w.conf.indexConf, newWorld W.proc.w.conf.indexConf W.api⟩] }

/-- The start of the process. -/
def bootWhole (w : Ckube.World) : Whole := { proc := ⟨w, .idle⟩, gens := [⟨w.conf.indexConf, newWorld w.conf.indexConf fun _ _ => []⟩] }

/-- What can happen after the start: the states passed through, and the current one. -/
inductive WholeRun (kubeArg : Bool) (isPrint : Nat → Bool) (eval : Str → Obj → Str) (alg : SliceSort) (parseFloat : Str → Option GoFloat) :
    List Whole → Whole → Prop
  | start {f : Files} {w : Ckube.World} (h : bootWorld kubeArg f = some w) :
      WholeRun kubeArg isPrint eval alg parseFloat [] (bootWhole w)
  | step {past : List Whole} {W W' : Whole} (h : WholeRun kubeArg isPrint eval alg parseFloat past W)
      (hs : WholeStep kubeArg isPrint eval alg parseFloat W W') : WholeRun kubeArg isPrint eval alg parseFloat (past ++ [W]) W'

end Ckube.Spec

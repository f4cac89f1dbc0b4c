import Verif.Model.Store

/-! # The in-memory store used by any number of goroutines (store/memory/memory.go)

A small-step machine. The four kinds of `syncResourceStore` objects live in a heap and are reached through
pointers. Every call of a public method of the store is a thread; a thread runs a list of
instructions, one per call of a method of `syncResourceStore`, in the order of the Go source. Each
instruction first takes the read or write lock of its object, with the blocking rules of
`sync.RWMutex`, then runs its body in one step and releases the lock. `ForEach` keeps its read lock while the
callbacks run.

Simplifications: the body of a `syncResourceStore` method is one step (it runs under the lock, and
everything it touches is only touched under that lock); `buildResourceWithIndex` and the evaluation of a
query work on goroutine-local data and are done when the call starts and ends; releasing a write lock lets
waiting writers and readers compete (Go releases waiting readers first, which only removes
interleavings). -/

namespace Ckube

/-- Pointer to a `syncResourceStore`: the one of the store itself, of a resource type, of a cluster, of a
namespace (store/memory/memory.go:100-114). -/
inductive Node where
  | root
  | cl (a : Nat)
  | ns (a : Nat)
  | leaf (a : Nat)
  deriving DecidableEq

/-- The `syncResourceStore` objects: `resources` of each, with pointers as indexes
(store/memory/memory.go:25-28). -/
structure Heap where
  root : List (GVR × Nat) := []
  cls : List (List (Str × Nat)) := []
  nss : List (List (Str × Nat)) := []
  leaves : List Leaf := []

namespace Heap

/-- The clusters of the resource type object at `a`. -/
def clAt (h : Heap) (a : Nat) : List (Str × Nat) := (h.cls[a]?).getD []
/-- The namespaces of the cluster object at `a`. -/
def nsAt (h : Heap) (a : Nat) : List (Str × Nat) := (h.nss[a]?).getD []
/-- The objects of the namespace object at `a`. -/
def leafAt (h : Heap) (a : Nat) : Leaf := (h.leaves[a]?).getD []

/-- `m.resourceMap.Init(k)` (store/memory/memory.go:39-49,121). -/
def rootInit (h : Heap) (g : GVR) : Heap :=
  match lookup g h.root with
  | some _ => h
  | none => { h with root := insertKV g h.cls.length h.root, cls := h.cls ++ [[]] }

/-- `Init` on a resource type object: `new(V)` only when the key is absent
(store/memory/memory.go:39-49,127). -/
def clInit (h : Heap) (a : Nat) (c : Str) : Heap :=
  match lookup c (h.clAt a) with
  | some _ => h
  | none => { h with cls := h.cls.set a (insertKV c h.nss.length (h.clAt a)), nss := h.nss ++ [[]] }

/-- `Init` on a cluster object (store/memory/memory.go:39-49,128). -/
def nsInit (h : Heap) (a : Nat) (n : Str) : Heap :=
  match lookup n (h.nsAt a) with
  | some _ => h
  | none => { h with nss := h.nss.set a (insertKV n h.leaves.length (h.nsAt a)), leaves := h.leaves ++ [[]] }

/-- `Set`, `Delete` and `Clean` on a namespace object (store/memory/memory.go:30-37,51-55,70-74). -/
def leafUpd (h : Heap) (a : Nat) (f : Leaf → Leaf) : Heap :=
  { h with leaves := h.leaves.set a (f (h.leafAt a)) }

end Heap

/-- The heap after `NewMemoryStore` (store/memory/memory.go:116-124). -/
def newHeap (conf : List (GVR × List (Str × Str))) : Heap := conf.foldl (fun h e => h.rootInit e.1) {}

/-- A call of the store interface (store/interface.go:15-23). -/
inductive COp where
  | notice (n : Notice)
  | get (g : GVR) (c ns name : Str)
  | query (g : GVR) (q : Query)

/-- What a call returns: nil error, an object or nil, whether `Clean` returns an error, a query
result (`none`: `Query` panics). -/
inductive Ans where
  | ok
  | got (o : Option Obj)
  | cleaned (err : Bool)
  | result (r : Option QueryResult)

/-- One call of a method of `syncResourceStore`, or a local step. Instructions work on the object the last
`…Get` returned; those with an address work on that object (the cluster and namespace they carry beside it
only label it). -/
inductive Instr where
  | rootGet (g : GVR)
  | rootExists (g : GVR)
  | clInit (c : Str)
  /-- with the answer to return when the cluster does not exist -/
  | clExists (c : Str) (absent : Ans)
  | clGet (c : Str)
  | nsInit (n : Str)
  | nsExists (n : Str)
  | nsGet (n : Str)
  | nsValues
  | leafSet (name : Str) (o : SObj)
  | leafDel (name : Str)
  | leafGet (name : Str)
  | leafLen
  | leafClean (n : Str) (a : Nat)
  /-- `ForEach` on a resource type object, for the namespace filter -/
  | eachCl (f : Str)
  | eachNs (f : Str) (c : Str) (a : Nat)
  | eachLeaf (c n : Str) (a : Nat)
  /-- set the gauge to the length read last -/
  | gauge (k : Str × GVR × Str)
  /-- the end of a `ForEach`: `RUnlock` -/
  | unlock (n : Node)
  /-- match, sort and page what has been visited -/
  | finish (q : Query)

/-- `m.initResourceNamespace(gvr, cluster, ns)` (store/memory/memory.go:126-129). -/
def initProg (g : GVR) (c ns : Str) : List Instr :=
  [.rootGet g, .clInit c, .rootGet g, .clGet c, .nsInit ns]

/-- `OnResourceAdded`, `OnResourceModified` and `OnResourceDeleted` after `buildResourceWithIndex`; `leafOp` is
the `Set` or `Delete` (store/memory/memory.go:145-170). -/
def notifyProg (g : GVR) (c ns : Str) (leafOp : Instr) : List Instr :=
  initProg g c ns ++ [.rootGet g, .clGet c, .nsGet ns, leafOp,
    .rootGet g, .clGet c, .nsGet ns, .leafLen, .gauge (c, g, ns)]

/-- `Clean` (store/memory/memory.go:135-143). -/
def cleanProg (g : GVR) (c : Str) : List Instr :=
  [.rootGet g, .clExists c (.cleaned true), .rootGet g, .clGet c, .nsValues]

/-- `Get` (store/memory/memory.go:274-287). -/
def getProg (g : GVR) (c ns name : Str) : List Instr :=
  [.rootExists g, .rootGet g, .clExists c (.got none), .rootGet g, .clGet c, .nsExists ns,
    .rootGet g, .clGet c, .nsGet ns, .leafGet name]

/-- `Query` (store/memory/memory.go:289-337). -/
def queryProg (g : GVR) (q : Query) : List Instr := [.rootGet g, .eachCl q.ns, .finish q]

/-- The instructions of a call. -/
def COp.prog (eval : Str → Obj → Str) (conf : List (GVR × List (Str × Str))) : COp → List Instr
  | .notice (.added g c o) | .notice (.modified g c o) =>
    let b := build eval ((lookup g conf).getD []) c o
    notifyProg g c b.1 (.leafSet b.2.1 b.2.2)
  | .notice (.deleted g c o) =>
    let b := build eval ((lookup g conf).getD []) c o
    notifyProg g c b.1 (.leafDel b.2.1)
  | .notice (.clean g c) => cleanProg g c
  | .get g c ns name => getProg g c ns name
  | .query g q => queryProg g q

/-- What a call returns unless an instruction decides otherwise. -/
def COp.ans0 : COp → Ans
  | .notice (.clean _ _) => .cleaned false
  | .notice _ => .ok
  | .get .. => .got none
  | .query .. => .result none

/-- Where a thread is in the execution of its first instruction: not started, waiting for the readers to
leave, holding the lock. -/
inductive Phase where
  | ready
  | announced
  | locked
  deriving DecidableEq

/-- A goroutine inside a call. -/
structure Thr where
  op : COp
  prog : List Instr
  phase : Phase := .ready
  /-- the pointer returned by the last `…Get`; `none` is nil -/
  reg : Option Node := none
  /-- the result of the last `Len` -/
  len : Nat := 0
  /-- the namespaces a query has visited, with cluster and contents -/
  acc : List (Str × Str × Leaf) := []
  ans : Ans
  returned : Bool := false

/-- A `sync.RWMutex`: the writer that holds it or waits for the readers to leave, and the readers. -/
structure RWLock where
  writer : Option Nat := none
  readers : List Nat := []

/-- What the callers observe: call `i` starts, call `i` returns. -/
inductive Event where
  | call (i : Nat) (op : COp)
  | ret (i : Nat) (a : Ans)

/-- State of the machine. -/
structure CState where
  heap : Heap
  gauge : List ((Str × GVR × Str) × Nat) := []
  locks : Node → RWLock := fun _ => {}
  thrs : List Thr := []
  trace : List Event := []
  /-- a nil pointer has been dereferenced -/
  crashed : Bool := false

/-- The object whose lock an instruction takes; `none`: the pointer is nil. -/
def Instr.target (reg : Option Node) : Instr → Option Node
  | .rootGet _ | .rootExists _ => some .root
  | .clInit _ | .clExists _ _ | .clGet _ | .eachCl _ => match reg with | some (.cl a) => some (.cl a) | _ => none
  | .nsInit _ | .nsExists _ | .nsGet _ | .nsValues => match reg with | some (.ns a) => some (.ns a) | _ => none
  | .leafSet _ _ | .leafDel _ | .leafGet _ | .leafLen => match reg with | some (.leaf a) => some (.leaf a) | _ => none
  | .leafClean _ a => some (.leaf a)
  | .eachNs _ _ a => some (.ns a)
  | .eachLeaf _ _ a => some (.leaf a)
  | .gauge _ | .unlock _ | .finish _ => none

/-- Which lock a method takes (store/memory/memory.go:30-94); local steps take none. -/
inductive Mode where
  | read
  | write
  | loc
  deriving DecidableEq

def Instr.mode : Instr → Mode
  | .clInit _ | .nsInit _ | .leafSet _ _ | .leafDel _ | .leafClean _ _ => .write
  | .gauge _ | .unlock _ | .finish _ => .loc
  | _ => .read

/-- Body of a method that writes. -/
def Instr.write (n : Node) (h : Heap) : Instr → Heap
  | .clInit c => match n with | .cl a => h.clInit a c | _ => h
  | .nsInit c => match n with | .ns a => h.nsInit a c | _ => h
  | .leafSet name o => match n with | .leaf a => h.leafUpd a (insertKV name o) | _ => h
  | .leafDel name => match n with | .leaf a => h.leafUpd a (eraseKV name) | _ => h
  | .leafClean _ _ => match n with | .leaf a => h.leafUpd a (fun _ => []) | _ => h
  | _ => h

/-- Body of a method that reads, and what the caller does with the result; the first instruction of the
thread has been removed. -/
inductive Instr.Read (h : Heap) : Node → Instr → Thr → Thr → Prop
  | rootGet (g : GVR) (t : Thr) : Read h .root (.rootGet g) t { t with reg := (lookup g h.root).map .cl }
  | rootExists (g : GVR) (t : Thr) : Read h .root (.rootExists g) t
      (if (lookup g h.root).isSome then t else { t with prog := [], ans := .got none })
  | clExists (a : Nat) (c : Str) (absent : Ans) (t : Thr) : Read h (.cl a) (.clExists c absent) t
      (if (lookup c (h.clAt a)).isSome then t else { t with prog := [], ans := absent })
  | clGet (a : Nat) (c : Str) (t : Thr) : Read h (.cl a) (.clGet c) t
      { t with reg := (lookup c (h.clAt a)).map .ns }
  | nsExists (a : Nat) (n : Str) (t : Thr) : Read h (.ns a) (.nsExists n) t
      (if (lookup n (h.nsAt a)).isSome then t else { t with prog := [], ans := .got none })
  | nsGet (a : Nat) (n : Str) (t : Thr) : Read h (.ns a) (.nsGet n) t
      { t with reg := (lookup n (h.nsAt a)).map .leaf }
  /-- `Values` lists the map in any order -/
  | nsValues (a : Nat) (es : List (Str × Nat)) (t : Thr) (hp : es.Perm (h.nsAt a)) : Read h (.ns a) .nsValues t
      { t with prog := es.map (fun e => .leafClean e.1 e.2) ++ t.prog }
  | leafGet (a : Nat) (name : Str) (t : Thr) : Read h (.leaf a) (.leafGet name) t
      { t with ans := .got ((lookup name (h.leafAt a)).map SObj.obj) }
  | leafLen (a : Nat) (t : Thr) : Read h (.leaf a) .leafLen t { t with len := (h.leafAt a).length }
  /-- the innermost `ForEach`, in any order -/
  | eachLeaf (a : Nat) (c n : Str) (es : Leaf) (t : Thr) (hp : es.Perm (h.leafAt a)) :
      Read h (.leaf a) (.eachLeaf c n a) t { t with acc := t.acc ++ [(c, n, es)] }

/-- The start of an outer `ForEach`: the map is listed in any order; the callbacks follow, then the read
lock is released (store/memory/memory.go:82-88,292-307). -/
inductive Instr.Hold (h : Heap) : Node → Instr → Thr → Thr → Prop
  | eachCl (a : Nat) (f : Str) (es : List (Str × Nat)) (t : Thr) (hp : es.Perm (h.clAt a)) :
      Hold h (.cl a) (.eachCl f) t
        { t with prog := es.map (fun e => .eachNs f e.1 e.2) ++ .unlock (.cl a) :: t.prog }
  | eachNs (a : Nat) (f c : Str) (es : List (Str × Nat)) (t : Thr) (hp : es.Perm (h.nsAt a)) :
      Hold h (.ns a) (.eachNs f c a) t
        { t with prog := (es.filter fun e => f = [] ∨ f = e.1).map (fun e => .eachLeaf c e.1 e.2)
            ++ .unlock (.ns a) :: t.prog }

/-- The objects in what a query has visited. -/
def Thr.seen (t : Thr) : List SObj := t.acc.flatMap fun b => b.2.2.map Prod.snd

namespace CState

/-- Replace the lock of one object. -/
def setLock (σ : CState) (n : Node) (l : RWLock) : CState :=
  { σ with locks := fun m => if m = n then l else σ.locks m }

/-- Replace thread `i`. -/
def setThr (σ : CState) (i : Nat) (t : Thr) : CState := { σ with thrs := σ.thrs.set i t }

end CState

/-- One step of thread `i`. `RLock` waits while a writer holds the lock or waits for it; `Lock` waits for other
writers, then for the readers to leave. -/
inductive TStep (isPrint : Nat → Bool) (alg : SliceSort) (parseFloat : Str → Option GoFloat) (i : Nat) :
    CState → CState → Prop
  | ret (σ : CState) (t : Thr) (ht : σ.thrs[i]? = some t) (hp : t.prog = []) (hr : t.returned = false) :
      TStep isPrint alg parseFloat i σ
        { σ.setThr i { t with returned := true } with trace := σ.trace ++ [.ret i t.ans] }
  | crash (σ : CState) (t : Thr) (ins : Instr) (rest : List Instr) (ht : σ.thrs[i]? = some t)
      (hp : t.prog = ins :: rest) (hm : ins.mode ≠ .loc) (hn : ins.target t.reg = none) :
      TStep isPrint alg parseFloat i σ { σ with crashed := true }
  | announce (σ : CState) (t : Thr) (ins : Instr) (rest : List Instr) (n : Node) (ht : σ.thrs[i]? = some t)
      (hp : t.prog = ins :: rest) (hm : ins.mode = .write) (hn : ins.target t.reg = some n)
      (hph : t.phase = .ready) (hw : (σ.locks n).writer = none) :
      TStep isPrint alg parseFloat i σ
        ((σ.setLock n { σ.locks n with writer := some i }).setThr i { t with phase := .announced })
  | acquire (σ : CState) (t : Thr) (ins : Instr) (rest : List Instr) (n : Node) (ht : σ.thrs[i]? = some t)
      (hp : t.prog = ins :: rest) (hm : ins.mode = .write) (hn : ins.target t.reg = some n)
      (hph : t.phase = .announced) (hr : (σ.locks n).readers = []) :
      TStep isPrint alg parseFloat i σ (σ.setThr i { t with phase := .locked })
  | write (σ : CState) (t : Thr) (ins : Instr) (rest : List Instr) (n : Node) (ht : σ.thrs[i]? = some t)
      (hp : t.prog = ins :: rest) (hm : ins.mode = .write) (hn : ins.target t.reg = some n)
      (hph : t.phase = .locked) :
      TStep isPrint alg parseFloat i σ
        { (σ.setLock n { σ.locks n with writer := none }).setThr i { t with phase := .ready, prog := rest } with
          heap := ins.write n σ.heap }
  | rlock (σ : CState) (t : Thr) (ins : Instr) (rest : List Instr) (n : Node) (ht : σ.thrs[i]? = some t)
      (hp : t.prog = ins :: rest) (hm : ins.mode = .read) (hn : ins.target t.reg = some n)
      (hph : t.phase = .ready) (hw : (σ.locks n).writer = none) :
      TStep isPrint alg parseFloat i σ
        ((σ.setLock n { σ.locks n with readers := i :: (σ.locks n).readers }).setThr i { t with phase := .locked })
  | read (σ : CState) (t : Thr) (ins : Instr) (rest : List Instr) (n : Node) (t' : Thr)
      (ht : σ.thrs[i]? = some t)
      (hp : t.prog = ins :: rest) (hm : ins.mode = .read) (hn : ins.target t.reg = some n)
      (hph : t.phase = .locked) (hb : Instr.Read σ.heap n ins { t with phase := .ready, prog := rest } t') :
      TStep isPrint alg parseFloat i σ
        ((σ.setLock n { σ.locks n with readers := (σ.locks n).readers.erase i }).setThr i t')
  | hold (σ : CState) (t : Thr) (ins : Instr) (rest : List Instr) (n : Node) (t' : Thr)
      (ht : σ.thrs[i]? = some t)
      (hp : t.prog = ins :: rest) (hm : ins.mode = .read) (hn : ins.target t.reg = some n)
      (hph : t.phase = .locked) (hb : Instr.Hold σ.heap n ins { t with phase := .ready, prog := rest } t') :
      TStep isPrint alg parseFloat i σ (σ.setThr i t')
  | unlock (σ : CState) (t : Thr) (rest : List Instr) (n : Node) (ht : σ.thrs[i]? = some t)
      (hp : t.prog = .unlock n :: rest) :
      TStep isPrint alg parseFloat i σ
        ((σ.setLock n { σ.locks n with readers := (σ.locks n).readers.erase i }).setThr i { t with prog := rest })
  | gauge (σ : CState) (t : Thr) (rest : List Instr) (k : Str × GVR × Str) (ht : σ.thrs[i]? = some t)
      (hp : t.prog = .gauge k :: rest) :
      TStep isPrint alg parseFloat i σ
        { σ.setThr i { t with prog := rest } with gauge := insertKV k t.len σ.gauge }
  | finish (σ : CState) (t : Thr) (rest : List Instr) (q : Query) (ht : σ.thrs[i]? = some t)
      (hp : t.prog = .finish q :: rest) :
      TStep isPrint alg parseFloat i σ
        (σ.setThr i { t with prog := rest, ans := .result (queryList isPrint alg parseFloat t.seen q) })

/-- A new call. -/
def CState.call (eval : Str → Obj → Str) (conf : List (GVR × List (Str × Str))) (σ : CState) (op : COp) : CState :=
  { σ with thrs := σ.thrs ++ [{ op := op, prog := op.prog eval conf, ans := op.ans0 }],
           trace := σ.trace ++ [.call σ.thrs.length op] }

/-- Executions in which only calls that satisfy `P` are made: the states passed through, in order,
and the current state. -/
inductive Exec (isPrint : Nat → Bool) (eval : Str → Obj → Str) (alg : SliceSort) (parseFloat : Str → Option GoFloat)
    (conf : List (GVR × List (Str × Str))) (P : COp → Prop) : List CState → CState → Prop
  | start : Exec isPrint eval alg parseFloat conf P [] { heap := newHeap conf }
  | call {past : List CState} {σ : CState} (he : Exec isPrint eval alg parseFloat conf P past σ) (op : COp) (hP : P op) :
      Exec isPrint eval alg parseFloat conf P (past ++ [σ]) (σ.call eval conf op)
  | step {past : List CState} {σ σ' : CState} (he : Exec isPrint eval alg parseFloat conf P past σ) (i : Nat)
      (hs : TStep isPrint alg parseFloat i σ σ') : Exec isPrint eval alg parseFloat conf P (past ++ [σ]) σ'

end Ckube

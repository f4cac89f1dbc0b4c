import Verif.Model.Sort

/-! # `sort.Slice` of Go 1.19 (src/sort/slice.go, src/sort/zsortfunc.go)

The Dockerfile and go.mod of ckube name Go 1.19, whose `sort.Slice` is a pattern-defeating quicksort. It is not part of /repo; it is written down here
from memory of its source, function by function, because ckube gives it a comparison function for which nothing is promised: it answers
`true` for equal elements (store/memory/memory.go:269). An algorithm is a tree of comparisons and swaps (`Prog`), so that it can look at the elements only
through `less` and change them only through `swap`. Loops have a bound on the number of rounds that they do not reach (this is proved
along with the rest). The random numbers of `breakPatterns_func` are a parameter. -/

namespace Ckube.GoSort

/-- A computation that compares elements by index (`data.Less(i, j)`) and swaps them (`data.Swap(i, j)`). -/
inductive Prog (β : Type) where
  | ret (b : β)
  | less (i j : Nat) (k : Bool → Prog β)
  | swap (i j : Nat) (k : Prog β)

def Prog.bind {β γ : Type} : Prog β → (β → Prog γ) → Prog γ
  | .ret b, f => f b
  | .less i j k, f => .less i j fun c => (k c).bind f
  | .swap i j k, f => .swap i j (k.bind f)

instance : Monad Prog where
  pure := .ret
  bind := .bind

/-- `data.Less(i, j)`. -/
def lessAt (i j : Nat) : Prog Bool := .less i j .ret

/-- `data.Swap(i, j)`. -/
def swapAt (i j : Nat) : Prog Unit := .swap i j (.ret ())

/-- The inner loop of `insertionSort_func`: `for j := i; j > a && data.Less(j, j-1); j--`. -/
def sink (a : Nat) : Nat → Prog Unit
  | 0 => .ret ()
  | j + 1 =>
    if j + 1 > a then do
      if ← lessAt (j + 1) j then
        swapAt (j + 1) j
        sink a j
    else .ret ()

/-- `insertionSort_func`, from index `i` on for `k` rounds. -/
def insertionFrom (a : Nat) : Nat → Nat → Prog Unit
  | _, 0 => .ret ()
  | i, k + 1 => do
    sink a i
    insertionFrom a (i + 1) k

/-- `insertionSort_func`. -/
def insertion (a b : Nat) : Prog Unit := insertionFrom a (a + 1) (b - (a + 1))

/-- `siftDown_func`. -/
def siftDown (first hi : Nat) : Nat → Nat → Prog Unit
  | 0, _ => .ret ()
  | fuel + 1, root =>
    let child := 2 * root + 1
    if child ≥ hi then .ret ()
    else do
      let child ← (if child + 1 < hi then do
        if ← lessAt (first + child) (first + child + 1) then pure (child + 1) else pure child
        else pure child)
      if !(← lessAt (first + root) (first + child)) then pure ()
      else
        swapAt (first + root) (first + child)
        siftDown first hi fuel child

/-- `for i := (hi - 1) / 2; i >= 0; i--` of `heapSort_func`, from `i = k - 1` on. -/
def heapify (first hi : Nat) : Nat → Prog Unit
  | 0 => .ret ()
  | k + 1 => do
    siftDown first hi (hi + 1) k
    heapify first hi k

/-- `for i := hi - 1; i >= 0; i--` of `heapSort_func`, from `i = k - 1` on. -/
def heapPop (first : Nat) : Nat → Prog Unit
  | 0 => .ret ()
  | k + 1 => do
    swapAt first (first + k)
    siftDown first k (k + 1) 0
    heapPop first k

/-- `heapSort_func`. -/
def heapSort (a b : Nat) : Prog Unit := do
  heapify a (b - a) ((b - a - 1) / 2 + 1)
  heapPop a (b - a)

/-- `nextPowerOfTwo`. -/
def nextPow2 (length : Nat) : Nat := 2 ^ (Nat.log2 length + 1)

/-- `breakPatterns_func`; `rnd length i` is the `i`-th random number. -/
def breakPatterns (rnd : Nat → Nat → Nat) (a b : Nat) : Prog Unit :=
  let length := b - a
  if length ≥ 8 then do
    let idx := a + (length / 4) * 2 - 1
    let other (i : Nat) :=
      let o := rnd length i % nextPow2 length
      if o ≥ length then o - length else o
    swapAt (idx - 1) (a + other 0)
    swapAt idx (a + other 1)
    swapAt (idx + 1) (a + other 2)
  else .ret ()

/-- `order2_func`; the last component is `swaps`. -/
def order2 (a b swaps : Nat) : Prog (Nat × Nat × Nat) := do
  if ← lessAt b a then pure (b, a, swaps + 1) else pure (a, b, swaps)

/-- `median_func`. -/
def median (a b c swaps : Nat) : Prog (Nat × Nat) := do
  let (a, b, swaps) ← order2 a b swaps
  let (b, _, swaps) ← order2 b c swaps
  let (_, b, swaps) ← order2 a b swaps
  pure (b, swaps)

/-- `medianAdjacent_func`. -/
def medianAdjacent (a swaps : Nat) : Prog (Nat × Nat) := median (a - 1) a (a + 1) swaps

/-- `sortedHint`. -/
inductive Hint where
  | unknown | increasing | decreasing
deriving DecidableEq

/-- `choosePivot_func`. -/
def choosePivot (a b : Nat) : Prog (Nat × Hint) := do
  let l := b - a
  let i := a + l / 4 * 1
  let j := a + l / 4 * 2
  let k := a + l / 4 * 3
  let (j, swaps) ← (if l ≥ 8 then do
    let (i, j, k, swaps) ← (if l ≥ 50 then do
      let (i, swaps) ← medianAdjacent i 0
      let (j, swaps) ← medianAdjacent j swaps
      let (k, swaps) ← medianAdjacent k swaps
      pure (i, j, k, swaps)
      else pure (i, j, k, 0))
    median i j k swaps
    else pure (j, 0))
  pure (j, if swaps = 0 then .increasing else if swaps = 12 then .decreasing else .unknown)

/-- `reverseRange_func`, with `j` for the last index. -/
def reverseLoop : Nat → Nat → Nat → Prog Unit
  | 0, _, _ => .ret ()
  | fuel + 1, i, j =>
    if i < j then do
      swapAt i j
      reverseLoop fuel (i + 1) (j - 1)
    else .ret ()

/-- `reverseRange_func`. -/
def reverseRange (a b : Nat) : Prog Unit := reverseLoop (b - a) a (b - 1)

/-- `for i <= j && data.Less(i, a) { i++ }`; with `eq`, `for i <= j && !data.Less(a, i) { i++ }`. -/
def goUp (eq : Bool) (a j : Nat) : Nat → Nat → Prog Nat
  | 0, i => .ret i
  | fuel + 1, i =>
    if i ≤ j then do
      if ← (if eq then (do return !(← lessAt a i)) else lessAt i a) then goUp eq a j fuel (i + 1) else pure i
    else .ret i

/-- `for i <= j && !data.Less(j, a) { j-- }`; with `eq`, `for i <= j && data.Less(a, j) { j-- }`. -/
def goDown (eq : Bool) (a i : Nat) : Nat → Nat → Prog Nat
  | 0, j => .ret j
  | fuel + 1, j =>
    if i ≤ j then do
      if ← (if eq then lessAt a j else (do return !(← lessAt j a))) then goDown eq a i fuel (j - 1) else pure j
    else .ret j

/-- The loop of `partition_func` and `partitionEqual_func` (`eq`), from `i` and `j` on: the last `i` and `j`. -/
def partLoop (eq : Bool) (a : Nat) : Nat → Nat → Nat → Prog (Nat × Nat)
  | 0, i, j => .ret (i, j)
  | fuel + 1, i, j => do
    let i ← goUp eq a j (j + 1 - i) i
    let j ← goDown eq a i (j + 1 - i) j
    if i > j then pure (i, j)
    else
      swapAt i j
      partLoop eq a fuel (i + 1) (j - 1)

/-- `partition_func`. -/
def partition (a b pivot : Nat) : Prog (Nat × Bool) := do
  swapAt a pivot
  let i ← goUp false a (b - 1) (b - (a + 1)) (a + 1)
  let j ← goDown false a i (b - i) (b - 1)
  if i > j then
    swapAt j a
    pure (j, true)
  else
    swapAt i j
    let (_, j) ← partLoop false a (b - a) (i + 1) (j - 1)
    swapAt j a
    pure (j, false)

/-- `partitionEqual_func`. -/
def partitionEqual (a b pivot : Nat) : Prog Nat := do
  swapAt a pivot
  let (i, _) ← partLoop true a (b - a) (a + 1) (b - 1)
  pure i

/-- `for i < b && !data.Less(i, i-1) { i++ }`. -/
def skipSorted (b : Nat) : Nat → Nat → Prog Nat
  | 0, i => .ret i
  | fuel + 1, i =>
    if i < b then do
      if !(← lessAt i (i - 1)) then skipSorted b fuel (i + 1) else pure i
    else .ret i

/-- `for j := i - 1; j >= 1; j-- { if !data.Less(j, j-1) { break }; data.Swap(j, j-1) }`, from `j` on. The bound is 1, not `a`. -/
def shiftLeft : Nat → Prog Unit
  | 0 => .ret ()
  | j + 1 => do
    if !(← lessAt (j + 1) j) then pure ()
    else
      swapAt (j + 1) j
      shiftLeft j

/-- `for j := i + 1; j < b; j++ { if !data.Less(j, j-1) { break }; data.Swap(j, j-1) }`, from `j` on. -/
def shiftRight (b : Nat) : Nat → Nat → Prog Unit
  | 0, _ => .ret ()
  | fuel + 1, j =>
    if j < b then do
      if !(← lessAt j (j - 1)) then pure ()
      else
        swapAt j (j - 1)
        shiftRight b fuel (j + 1)
    else .ret ()

/-- The loop of `partialInsertionSort_func` for the remaining steps. -/
def partialLoop (a b : Nat) : Nat → Nat → Prog Bool
  | 0, _ => .ret false
  | steps + 1, i => do
    let i ← skipSorted b (b - i) i
    if i = b then pure true
    else if b - a < 50 then pure false
    else
      swapAt i (i - 1)
      (if i - a ≥ 2 then shiftLeft (i - 1) else pure ())
      (if b - i ≥ 2 then shiftRight b (b - (i + 1)) (i + 1) else pure ())
      partialLoop a b steps i

/-- `partialInsertionSort_func`. -/
def partialInsertion (a b : Nat) : Prog Bool := partialLoop a b 5 (a + 1)

/-- `pdqsort_func`: one round of its loop, then the rest. `fuel` bounds `b - a`; `bal` and `part` are `wasBalanced` and
`wasPartitioned`. -/
def pdqsort (rnd : Nat → Nat → Nat) : Nat → Nat → Nat → Nat → Bool → Bool → Prog Unit
  | 0, _, _, _, _, _ => .ret ()
  | fuel + 1, a, b, limit, bal, part => do
    let length := b - a
    if length ≤ 12 then insertion a b
    else if limit = 0 then heapSort a b
    else
      (if !bal then breakPatterns rnd a b else pure ())
      let limit := if !bal then limit - 1 else limit
      let (pivot, hint) ← choosePivot a b
      let (pivot, hint) ← (if hint = .decreasing then do
        reverseRange a b
        pure ((b - 1) - (pivot - a), Hint.increasing)
        else pure (pivot, hint))
      let done ← (if bal && part && decide (hint = .increasing) then partialInsertion a b else pure false)
      if done then pure ()
      else
        let same ← (if a > 0 then (do return !(← lessAt (a - 1) pivot)) else pure false)
        if same then
          let mid ← partitionEqual a b pivot
          pdqsort rnd fuel mid b limit bal part
        else
          let (mid, already) ← partition a b pivot
          let leftLen := mid - a
          let rightLen := b - mid
          let threshold := length / 8
          if leftLen < rightLen then
            pdqsort rnd fuel a mid limit true true
            pdqsort rnd fuel (mid + 1) b limit (decide (leftLen ≥ threshold)) already
          else
            pdqsort rnd fuel (mid + 1) b limit true true
            pdqsort rnd fuel a mid limit (decide (rightLen ≥ threshold)) already

/-- `sort.Slice` on `n` elements: `limit` is `bits.Len(n)`. -/
def sortSlice (rnd : Nat → Nat → Nat) (n : Nat) : Prog Unit :=
  pdqsort rnd (n + 1) 0 n (if n = 0 then 0 else Nat.log2 n + 1) true true

/-! ## Running it -/

variable {α : Type}

/-- The slice after `Swap(i, j)`. -/
def swapped (i j : Nat) (d : Nat → α) : Nat → α := fun k => if k = i then d j else if k = j then d i else d k

/-- The slice, and the pairs compared so far. -/
structure Mem (α : Type) where
  d : Nat → α
  tr : List (α × α) := []

def Prog.run {β : Type} (less : α → α → Bool) : Prog β → Mem α → β × Mem α
  | .ret b, s => (b, s)
  | .less i j k, s => (k (less (s.d i) (s.d j))).run less { s with tr := s.tr ++ [(s.d i, s.d j)] }
  | .swap i j k, s => k.run less { s with d := swapped i j s.d }

/-- `sort.Slice(l, less)`: the slice afterwards, and the pairs that were compared. -/
def goSlice [Inhabited α] (rnd : Nat → Nat → Nat) (less : α → α → Bool) (l : List α) : SortRun α :=
  let s := ((sortSlice rnd l.length).run less { d := fun i => l.getD i default }).2
  ⟨(List.range l.length).map s.d, s.tr⟩

end Ckube.GoSort

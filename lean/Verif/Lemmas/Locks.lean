import Verif.Lemmas.Conc

/-! # Invariants of the locks of the concurrent store: progress and termination -/

namespace Ckube
open Spec

variable {isPrint : Nat → Bool} {eval : Str → Obj → Str} {alg : SliceSort} {pf : Str → Option GoFloat}
  {conf : List (GVR × List (Str × Str))}

/-- Depth of an object in the store. -/
def Node.level : Node → Nat
  | .root => 0
  | .cl _ => 1
  | .ns _ => 2
  | .leaf _ => 3

/-- Depth of the object whose lock an instruction takes. -/
def Instr.level : Instr → Nat
  | .rootGet _ | .rootExists _ => 0
  | .clInit _ | .clExists _ _ | .clGet _ | .eachCl _ => 1
  | .nsInit _ | .nsExists _ | .nsGet _ | .nsValues | .eachNs _ _ _ => 2
  | .leafSet _ _ | .leafDel _ | .leafGet _ | .leafLen | .leafClean _ _ | .eachLeaf _ _ _ => 3
  | .gauge _ | .unlock _ | .finish _ => 4

theorem target_level {reg : Option Node} {ins : Instr} {n : Node} (h : ins.target reg = some n) :
    n.level = ins.level := by
  cases ins <;> simp only [Instr.target, Option.some.injEq, reduceCtorEq] at h <;> first
    | (subst h; rfl)
    | (split at h <;> first | (simp only [Option.some.injEq] at h; subst h; rfl) | simp at h)

/-- The read locks a `ForEach` in progress will release. -/
def unlocks (prog : List Instr) : List Node :=
  prog.filterMap fun | .unlock n => some n | _ => none

theorem mem_unlocks {prog : List Instr} {n : Node} : n ∈ unlocks prog ↔ Instr.unlock n ∈ prog := by
  unfold unlocks
  rw [List.mem_filterMap]
  constructor
  · rintro ⟨i, hi, he⟩
    cases i <;> simp only [Option.some.injEq, reduceCtorEq] at he
    subst he; exact hi
  · intro h; exact ⟨_, h, rfl⟩

/-- The read lock of the instruction in progress. -/
def Thr.cur (t : Thr) : List Node :=
  match t.phase, t.prog with
  | .locked, ins :: _ => if ins.mode = .read then (ins.target t.reg).toList else []
  | _, _ => []

/-- The read locks a thread holds. -/
def Thr.held (t : Thr) : List Node := t.cur ++ unlocks t.prog

theorem cur_ready {t : Thr} (h : t.phase = .ready) : t.cur = [] := by
  unfold Thr.cur; rw [h]

/-- Instructions that run while a `ForEach` holds its read lock. -/
def Instr.inner : Instr → Bool
  | .eachNs _ _ _ | .eachLeaf _ _ _ | .unlock _ | .finish _ => true
  | _ => false

/-- Locks are taken from the outside to the inside, and only a query takes one while it holds another. -/
def Nested (prog : List Instr) : Prop :=
  prog.Pairwise fun x y => ∀ n, y = .unlock n → n.level < x.level ∧ x.inner = true

/-- Invariant of the locks. -/
structure LockInv (σ : CState) : Prop where
  readers : ∀ (n : Node) (i : Nat) (t : Thr), σ.thrs[i]? = some t → (σ.locks n).readers.count i = t.held.count n
  readers' : ∀ n i, σ.thrs[i]? = none → (σ.locks n).readers.count i = 0
  writer : ∀ n i, (σ.locks n).writer = some i → ∃ t ins rest, σ.thrs[i]? = some t ∧ t.prog = ins :: rest
    ∧ ins.mode = .write ∧ ins.target t.reg = some n ∧ t.phase ≠ .ready
  phs : ∀ (i : Nat) (t : Thr), σ.thrs[i]? = some t → t.phase ≠ .ready → ∃ ins rest, t.prog = ins :: rest ∧ ins.mode ≠ .loc
    ∧ (t.phase = .announced → ins.mode = .write)
  nested : ∀ (i : Nat) (t : Thr), σ.thrs[i]? = some t → Nested t.prog

theorem LockInv.start : LockInv { heap := newHeap conf } := by
  constructor <;> simp

theorem prog_nested (op : COp) : Nested (op.prog eval conf) ∧ unlocks (op.prog eval conf) = [] := by
  have key : ∀ l : List Instr, (∀ n, Instr.unlock n ∉ l) → Nested l ∧ unlocks l = [] := by
    intro l hl
    refine ⟨?_, ?_⟩
    · unfold Nested
      rw [List.pairwise_iff_forall_sublist]
      intro a b hs n hb
      subst hb
      exact absurd (hs.subset (by simp)) (hl n)
    · cases hu : unlocks l with
      | nil => rfl
      | cons n ns => exact absurd (mem_unlocks.mp (by rw [hu]; exact List.mem_cons_self)) (hl n)
  apply key
  intro n
  cases op with
  | notice nt => cases nt <;> simp [COp.prog, notifyProg, initProg, cleanProg]
  | get g c ns name => simp [COp.prog, getProg]
  | query g q => simp [COp.prog, queryProg]

theorem LockInv.call {σ : CState} (hl : LockInv σ) (op : COp) : LockInv (σ.call eval conf op) := by
  have hsplit : ∀ (i : Nat) (t : Thr), (σ.call eval conf op).thrs[i]? = some t → σ.thrs[i]? = some t ∨
      (σ.thrs[i]? = none ∧ t = { op := op, prog := op.prog eval conf, ans := op.ans0 }) := by
    intro i t hi
    have hi' : (σ.thrs ++ [{ op := op, prog := op.prog eval conf, ans := op.ans0 }])[i]? = some t := hi
    rw [List.getElem?_append] at hi'
    split at hi'
    · exact Or.inl hi'
    · rename_i hlt
      right
      refine ⟨List.getElem?_eq_none (by omega), ?_⟩
      cases hx : i - σ.thrs.length with
      | zero => rw [hx] at hi'; simp only [List.getElem?_cons_zero, Option.some.injEq] at hi'; exact hi'.symm
      | succ k => rw [hx] at hi'; simp at hi'
  have hold : ∀ (i : Nat) (t : Thr), σ.thrs[i]? = some t → (σ.call eval conf op).thrs[i]? = some t := by
    intro i t hi
    show (σ.thrs ++ [_])[i]? = some t
    rw [List.getElem?_append_left (List.getElem?_eq_some_iff.mp hi).1]; exact hi
  constructor
  · intro n i t hi
    rcases hsplit i t hi with h | ⟨h, rfl⟩
    · exact hl.readers n i t h
    · show (σ.locks n).readers.count i = _
      rw [hl.readers' n i h]
      unfold Thr.held
      rw [cur_ready rfl, (prog_nested op).2]
      rfl
  · intro n i hi
    apply hl.readers' n i
    cases h : σ.thrs[i]? with
    | none => rfl
    | some t => rw [hold i t h] at hi; simp at hi
  · intro n i hw
    obtain ⟨t, ins, rest, h1, h2⟩ := hl.writer n i hw
    exact ⟨t, ins, rest, hold i t h1, h2⟩
  · intro i t hi
    rcases hsplit i t hi with h | ⟨h, rfl⟩
    · exact hl.phs i t h
    · intro hp; exact absurd rfl hp
  · intro i t hi
    rcases hsplit i t hi with h | ⟨h, rfl⟩
    · exact hl.nested i t h
    · exact (prog_nested op).1

/-- Replacing thread `i` and the lock of `n`. -/
theorem LockInv.set {σ σ' : CState} (hl : LockInv σ) {i : Nat} {t t' : Thr} (ht : σ.thrs[i]? = some t)
    (e1 : σ'.thrs = σ.thrs.set i t')
    (hr : ∀ n j, j ≠ i → (σ'.locks n).readers.count j = (σ.locks n).readers.count j)
    (hri : ∀ n, (σ'.locks n).readers.count i = t'.held.count n)
    (hw : ∀ n j, (σ'.locks n).writer = some j → (j ≠ i ∧ (σ.locks n).writer = some j) ∨
      (j = i ∧ ∃ ins rest, t'.prog = ins :: rest ∧ ins.mode = .write ∧ ins.target t'.reg = some n ∧ t'.phase ≠ .ready))
    (hph : t'.phase ≠ .ready → ∃ ins rest, t'.prog = ins :: rest ∧ ins.mode ≠ .loc
      ∧ (t'.phase = .announced → ins.mode = .write))
    (hn : Nested t'.prog) : LockInv σ' := by
  have hlen : i < σ.thrs.length := (List.getElem?_eq_some_iff.mp ht).1
  have hii : σ'.thrs[i]? = some t' := by rw [e1, List.getElem?_set]; simp [hlen]
  have hne : ∀ j, j ≠ i → σ'.thrs[j]? = σ.thrs[j]? := by
    intro j hj; rw [e1, List.getElem?_set, if_neg (fun e => hj e.symm)]
  constructor
  · intro n j s hj
    by_cases hji : j = i
    · subst hji; rw [hii] at hj; cases hj; exact hri n
    · rw [hr n j hji]; rw [hne j hji] at hj; exact hl.readers n j s hj
  · intro n j hj
    by_cases hji : j = i
    · subst hji; rw [hii] at hj; simp at hj
    · rw [hr n j hji]; rw [hne j hji] at hj; exact hl.readers' n j hj
  · intro n j hj
    rcases hw n j hj with ⟨hji, hjw⟩ | ⟨rfl, ins, rest, h2⟩
    · obtain ⟨s, ins, rest, h1, h2⟩ := hl.writer n j hjw
      exact ⟨s, ins, rest, by rw [hne j hji]; exact h1, h2⟩
    · exact ⟨t', ins, rest, hii, h2⟩
  · intro j s hj
    by_cases hji : j = i
    · subst hji; rw [hii] at hj; cases hj; exact hph
    · rw [hne j hji] at hj; exact hl.phs j s hj
  · intro j s hj
    by_cases hji : j = i
    · subst hji; rw [hii] at hj; cases hj; exact hn
    · rw [hne j hji] at hj; exact hl.nested j s hj

theorem unlocks_cons {ins : Instr} {rest : List Instr} (hm : ins.mode ≠ .loc) : unlocks (ins :: rest) = unlocks rest := by
  cases ins <;> first | rfl | exact absurd rfl hm

theorem unlocks_append (a b : List Instr) : unlocks (a ++ b) = unlocks a ++ unlocks b := by
  unfold unlocks; exact List.filterMap_append

theorem unlocks_none {a : List Instr} (h : ∀ n, Instr.unlock n ∉ a) : unlocks a = [] := by
  cases hu : unlocks a with
  | nil => rfl
  | cons n ns => exact absurd (mem_unlocks.mp (by rw [hu]; exact List.mem_cons_self)) (h n)

theorem nested_append {a b : List Instr} (ha : ∀ n, Instr.unlock n ∉ a) (hb : Nested b)
    (hab : ∀ x ∈ a, ∀ n, Instr.unlock n ∈ b → n.level < x.level ∧ x.inner = true) : Nested (a ++ b) := by
  unfold Nested
  rw [List.pairwise_append]
  refine ⟨?_, hb, ?_⟩
  · rw [List.pairwise_iff_forall_sublist]
    intro x y hs n hy
    subst hy
    exact absurd (hs.subset (by simp)) (ha n)
  · intro x hx y hy n hyn
    subst hyn
    exact hab x hx n hy

theorem nested_none {ins : Instr} {rest : List Instr} (h : Nested (ins :: rest)) (hi : ins.inner = false) (n : Node) :
    Instr.unlock n ∉ rest := by
  intro hm
  have := ((List.pairwise_cons.mp h).1 _ hm n rfl).2
  rw [hi] at this; simp at this

theorem read_unlocks {h : Heap} {n : Node} {ins : Instr} {t t' : Thr} (hb : Instr.Read h n ins t t')
    (hnest : Nested (ins :: t.prog)) : unlocks t'.prog = unlocks t.prog ∧ Nested t'.prog := by
  have ht : Nested t.prog := (List.pairwise_cons.mp hnest).2
  cases hb with
  | rootGet | clGet | nsGet | leafGet | leafLen | eachLeaf => exact ⟨rfl, ht⟩
  | rootExists g =>
    split
    · exact ⟨rfl, ht⟩
    · exact ⟨(unlocks_none (nested_none hnest rfl)).symm, List.Pairwise.nil⟩
  | clExists a c absent =>
    split
    · exact ⟨rfl, ht⟩
    · exact ⟨(unlocks_none (nested_none hnest rfl)).symm, List.Pairwise.nil⟩
  | nsExists a c =>
    split
    · exact ⟨rfl, ht⟩
    · exact ⟨(unlocks_none (nested_none hnest rfl)).symm, List.Pairwise.nil⟩
  | nsValues a es hp =>
    have hnone : ∀ m, Instr.unlock m ∉ es.map (fun e => Instr.leafClean e.1 e.2) := by
      intro m hm; obtain ⟨e, _, he⟩ := List.mem_map.mp hm; cases he
    refine ⟨?_, nested_append hnone ht ?_⟩
    · rw [unlocks_append, unlocks_none hnone]; rfl
    · intro x _ m hm
      exact absurd hm (nested_none hnest rfl m)

theorem hold_unlocks {h : Heap} {n : Node} {ins : Instr} {t t' : Thr} (hb : Instr.Hold h n ins t t')
    (hnest : Nested (ins :: t.prog)) :
    unlocks t'.prog = n :: unlocks t.prog ∧ Nested t'.prog := by
  have ht : Nested t.prog := (List.pairwise_cons.mp hnest).2
  have hlv : ∀ m, Instr.unlock m ∈ t.prog → m.level < ins.level ∧ ins.inner = true :=
    fun m hm => (List.pairwise_cons.mp hnest).1 _ hm m rfl
  cases hb with
  | eachCl a f es hp =>
    have hnone : ∀ m, Instr.unlock m ∉ es.map (fun e => Instr.eachNs f e.1 e.2) := by
      intro m hm; obtain ⟨e, _, he⟩ := List.mem_map.mp hm; cases he
    have hrest := nested_none hnest rfl
    refine ⟨?_, nested_append hnone (List.pairwise_cons.mpr ⟨?_, ht⟩) ?_⟩
    · rw [unlocks_append, unlocks_none hnone]; rfl
    · intro y hy m hym
      subst hym
      exact absurd hy (hrest m)
    · intro x hx m hm
      obtain ⟨e, _, rfl⟩ := List.mem_map.mp hx
      rcases List.mem_cons.mp hm with hm | hm
      · cases hm; exact ⟨by simp [Node.level, Instr.level], rfl⟩
      · exact absurd hm (hrest m)
  | eachNs a f c es hp =>
    have hnone : ∀ m, Instr.unlock m ∉ (es.filter fun e => f = [] ∨ f = e.1).map (fun e => Instr.eachLeaf c e.1 e.2) := by
      intro m hm; obtain ⟨e, _, he⟩ := List.mem_map.mp hm; cases he
    refine ⟨?_, nested_append hnone (List.pairwise_cons.mpr ⟨?_, ht⟩) ?_⟩
    · rw [unlocks_append, unlocks_none hnone]; rfl
    · intro y hy m hym
      subst hym
      have := (hlv m hy).1
      simp only [Instr.level] at this ⊢; exact ⟨by omega, rfl⟩
    · intro x hx m hm
      obtain ⟨e, _, rfl⟩ := List.mem_map.mp hx
      simp only [Instr.level]
      rcases List.mem_cons.mp hm with hm | hm
      · cases hm; exact ⟨by simp [Node.level], rfl⟩
      · have := (hlv m hm).1
        simp only [Instr.level] at this; exact ⟨by omega, rfl⟩

theorem count_setLock (σ : CState) (n m : Node) (l : RWLock) :
    ((σ.setLock n l).locks m) = if m = n then l else σ.locks m := rfl

theorem LockInv.step {σ σ' : CState} {i : Nat} (hg : Good eval conf σ) (hl : LockInv σ)
    (hs : TStep isPrint alg pf i σ σ') : LockInv σ' := by
  cases hs with
  | ret t ht hp hr =>
    refine hl.set ht (t' := { t with returned := true }) rfl (fun _ _ _ => rfl) ?_ ?_ (hl.phs i t ht) (hl.nested i t ht)
    · intro n; exact hl.readers n i t ht
    · intro n j hj
      by_cases hji : j = i
      · subst hji
        obtain ⟨s, ins, rest, h1, h2, _⟩ := hl.writer n j hj
        rw [ht] at h1; cases h1; rw [hp] at h2; simp at h2
      · exact Or.inl ⟨hji, hj⟩
  | crash t ins rest ht hp hm hn =>
    have := hg.thr i t ht
    rw [hp] at this
    obtain ⟨m, hm'⟩ := this.target hm
    rw [hm'] at hn; simp at hn
  | announce t ins rest n ht hp hm hn hph hw =>
    have hcur : t.cur = [] := cur_ready hph
    have hcur' : ({ t with phase := .announced } : Thr).cur = [] := by unfold Thr.cur; rfl
    refine hl.set ht (t' := { t with phase := .announced }) rfl ?_ ?_ ?_ ?_ (hl.nested i t ht)
    · intro m j _
      show (((σ.setLock n _).locks m).readers).count j = _
      rw [count_setLock]; split
      · rename_i h; subst h; rfl
      · rfl
    · intro m
      have h0 : (((σ.setLock n { σ.locks n with writer := some i }).locks m).readers) = (σ.locks m).readers := by
        rw [count_setLock]; split
        · rename_i h; subst h; rfl
        · rfl
      show (((σ.setLock n _).locks m).readers).count i = _
      rw [h0, hl.readers m i t ht]
      unfold Thr.held
      rw [hcur, hcur']
    · intro m j hj
      have hj' : ((σ.setLock n { σ.locks n with writer := some i }).locks m).writer = some j := hj
      rw [count_setLock] at hj'
      split at hj'
      · rename_i h; subst h
        simp only [Option.some.injEq] at hj'
        exact Or.inr ⟨hj'.symm, ins, rest, hp, hm, hn, by simp⟩
      · by_cases hji : j = i
        · subst hji
          obtain ⟨s, _, _, h1, _, _, _, h5⟩ := hl.writer m j hj'
          rw [ht] at h1; cases h1; exact absurd hph h5
        · exact Or.inl ⟨hji, hj'⟩
    · intro _; exact ⟨ins, rest, hp, by rw [hm]; simp, fun _ => hm⟩
  | acquire t ins rest n ht hp hm hn hph hr =>
    have hcur : t.cur = [] := by unfold Thr.cur; rw [hph]
    have hcur' : ({ t with phase := .locked } : Thr).cur = [] := by
      unfold Thr.cur; simp only [hp]; rw [if_neg (by rw [hm]; simp)]
    refine hl.set ht (t' := { t with phase := .locked }) rfl (fun _ _ _ => rfl) ?_ ?_ ?_ (hl.nested i t ht)
    · intro m
      show ((σ.locks m).readers).count i = _
      rw [hl.readers m i t ht]
      unfold Thr.held
      rw [hcur, hcur']
    · intro m j hj
      by_cases hji : j = i
      · subst hji
        obtain ⟨s, ins', rest', h1, h2, h3, h4, h5⟩ := hl.writer m j hj
        rw [ht] at h1; cases h1
        exact Or.inr ⟨rfl, ins', rest', h2, h3, h4, by simp⟩
      · exact Or.inl ⟨hji, hj⟩
    · intro _; exact ⟨ins, rest, hp, by rw [hm]; simp, fun _ => hm⟩
  | write t ins rest n ht hp hm hn hph =>
    have hml : ins.mode ≠ .loc := by rw [hm]; simp
    have hcur : t.cur = [] := by unfold Thr.cur; rw [hph, hp]; simp [hm]
    refine hl.set ht (t' := { t with phase := .ready, prog := rest }) rfl ?_ ?_ ?_ (fun h => absurd rfl h) ?_
    · intro m j _
      show (((σ.setLock n _).locks m).readers).count j = _
      rw [count_setLock]; split
      · rename_i h; subst h; rfl
      · rfl
    · intro m
      have h0 : (((σ.setLock n { σ.locks n with writer := none }).locks m).readers) = (σ.locks m).readers := by
        rw [count_setLock]; split
        · rename_i h; subst h; rfl
        · rfl
      show (((σ.setLock n _).locks m).readers).count i = _
      rw [h0, hl.readers m i t ht]
      unfold Thr.held
      rw [hcur, cur_ready rfl, hp, unlocks_cons hml]
    · intro m j hj
      have hj' : ((σ.setLock n { σ.locks n with writer := none }).locks m).writer = some j := hj
      rw [count_setLock] at hj'
      split at hj'
      · simp at hj'
      · rename_i hmn
        by_cases hji : j = i
        · subst hji
          obtain ⟨s, ins', rest', h1, h2, h3, h4, h5⟩ := hl.writer m j hj'
          rw [ht] at h1; cases h1
          rw [hp] at h2; cases h2
          rw [hn] at h4; cases h4; exact absurd rfl hmn
        · exact Or.inl ⟨hji, hj'⟩
    · have := hl.nested i t ht
      rw [hp] at this
      exact (List.pairwise_cons.mp this).2
  | rlock t ins rest n ht hp hm hn hph hw =>
    have hcur : t.cur = [] := cur_ready hph
    have hcur' : ({ t with phase := .locked } : Thr).cur = [n] := by
      unfold Thr.cur; simp only [hp]; rw [if_pos hm, hn]; rfl
    refine hl.set ht (t' := { t with phase := .locked }) rfl ?_ ?_ ?_ ?_ (hl.nested i t ht)
    · intro m j hji
      show (((σ.setLock n _).locks m).readers).count j = _
      rw [count_setLock]; split
      · rename_i h; subst h
        exact List.count_cons_of_ne (fun e => hji e.symm)
      · rfl
    · intro m
      show (((σ.setLock n _).locks m).readers).count i = _
      have := hl.readers m i t ht
      unfold Thr.held at this ⊢
      rw [hcur] at this
      rw [hcur', count_setLock]
      show _ = List.count m ([n] ++ unlocks t.prog)
      rw [List.count_append]
      simp only [List.nil_append] at this
      split
      · rename_i h; subst h
        rw [List.count_cons_self, this]; simp; omega
      · rename_i hmn
        rw [this, List.count_singleton]
        have hnm : ¬ n = m := fun e => hmn e.symm
        simp [hnm]
    · intro m j hj
      have hj' : ((σ.setLock n { σ.locks n with readers := i :: (σ.locks n).readers }).locks m).writer = some j := hj
      rw [count_setLock] at hj'
      have hj2 : (σ.locks m).writer = some j := by
        split at hj'
        · rename_i h; subst h; exact hj'
        · exact hj'
      by_cases hji : j = i
      · subst hji
        obtain ⟨s, ins', rest', h1, h2, h3, h4, h5⟩ := hl.writer m j hj2
        rw [ht] at h1; cases h1; exact absurd hph h5
      · exact Or.inl ⟨hji, hj2⟩
    · intro _; exact ⟨ins, rest, hp, by rw [hm]; simp, fun h => by simp at h⟩
  | read t ins rest n t' ht hp hm hn hph hb =>
    have hml : ins.mode ≠ .loc := by rw [hm]; simp
    have hcur : t.cur = [n] := by unfold Thr.cur; rw [hph, hp]; simp [hm, hn]
    have hnest := hl.nested i t ht
    rw [hp] at hnest
    obtain ⟨hu, hn'⟩ := read_unlocks (t := { t with phase := .ready, prog := rest }) hb hnest
    have hph' : t'.phase = .ready := (Read.op hb).2.1
    refine hl.set ht (t' := t') rfl ?_ ?_ ?_ (fun h => absurd hph' h) hn'
    · intro m j hji
      show (((σ.setLock n _).locks m).readers).count j = _
      rw [count_setLock]; split
      · rename_i h; subst h; exact List.count_erase_of_ne hji
      · rfl
    · intro m
      show (((σ.setLock n _).locks m).readers).count i = _
      have := hl.readers m i t ht
      unfold Thr.held at this ⊢
      rw [hcur, hp, unlocks_cons hml, List.count_append] at this
      rw [cur_ready hph', hu, count_setLock]
      simp only [List.nil_append]
      split
      · rename_i h; subst h
        simp only [List.count_singleton_self] at this
        show ((σ.locks m).readers.erase i).count i = _
        rw [List.count_erase_self, this]; omega
      · rename_i hmn
        rw [this, List.count_singleton]
        have hnm : ¬ n = m := fun e => hmn e.symm
        simp [hnm]
    · intro m j hj
      have hj' : ((σ.setLock n { σ.locks n with readers := (σ.locks n).readers.erase i }).locks m).writer = some j := hj
      rw [count_setLock] at hj'
      have hj2 : (σ.locks m).writer = some j := by
        split at hj'
        · rename_i h; subst h; exact hj'
        · exact hj'
      by_cases hji : j = i
      · subst hji
        obtain ⟨s, ins', rest', h1, h2, h3, h4, h5⟩ := hl.writer m j hj2
        rw [ht] at h1; cases h1; rw [hp] at h2; cases h2; rw [hm] at h3; simp at h3
      · exact Or.inl ⟨hji, hj2⟩
  | hold t ins rest n t' ht hp hm hn hph hb =>
    have hml : ins.mode ≠ .loc := by rw [hm]; simp
    have hcur : t.cur = [n] := by unfold Thr.cur; rw [hph, hp]; simp [hm, hn]
    have hnest := hl.nested i t ht
    rw [hp] at hnest
    obtain ⟨hu, hn'⟩ := hold_unlocks (t := { t with phase := .ready, prog := rest }) hb hnest
    have hph' : t'.phase = .ready := (Hold.op hb).2.1
    refine hl.set ht (t' := t') rfl (fun _ _ _ => rfl) ?_ ?_ (fun h => absurd hph' h) hn'
    · intro m
      show ((σ.locks m).readers).count i = _
      rw [hl.readers m i t ht]
      unfold Thr.held
      rw [hcur, hp, unlocks_cons hml, cur_ready hph', hu]
      rfl
    · intro m j hj
      by_cases hji : j = i
      · subst hji
        obtain ⟨s, ins', rest', h1, h2, h3, h4, h5⟩ := hl.writer m j hj
        rw [ht] at h1; cases h1; rw [hp] at h2; cases h2; rw [hm] at h3; simp at h3
      · exact Or.inl ⟨hji, hj⟩
  | unlock t rest n ht hp =>
    have hph : t.phase = .ready := by
      by_contra h
      obtain ⟨ins, rest', h1, h2, _⟩ := hl.phs i t ht h
      rw [hp] at h1; cases h1; exact h2 rfl
    refine hl.set ht (t' := { t with prog := rest }) rfl ?_ ?_ ?_ (fun h => absurd hph h) ?_
    · intro m j hji
      show (((σ.setLock n _).locks m).readers).count j = _
      rw [count_setLock]; split
      · rename_i h; subst h; exact List.count_erase_of_ne hji
      · rfl
    · intro m
      show (((σ.setLock n _).locks m).readers).count i = _
      have := hl.readers m i t ht
      unfold Thr.held at this ⊢
      rw [cur_ready hph, hp] at this
      rw [cur_ready (t := { t with prog := rest }) hph, count_setLock]
      have hu : unlocks (Instr.unlock n :: rest) = n :: unlocks rest := rfl
      rw [hu] at this
      simp only [List.nil_append] at this ⊢
      split
      · rename_i h; subst h
        rw [List.count_cons_self] at this
        show ((σ.locks m).readers.erase i).count i = _
        rw [List.count_erase_self, this]; omega
      · rename_i hmn
        rw [this, List.count_cons_of_ne (fun e => hmn e.symm)]
    · intro m j hj
      have hj' : ((σ.setLock n { σ.locks n with readers := (σ.locks n).readers.erase i }).locks m).writer = some j := hj
      rw [count_setLock] at hj'
      have hj2 : (σ.locks m).writer = some j := by
        split at hj'
        · rename_i h; subst h; exact hj'
        · exact hj'
      by_cases hji : j = i
      · subst hji
        obtain ⟨s, ins', rest', h1, h2, h3, h4, h5⟩ := hl.writer m j hj2
        rw [ht] at h1; cases h1; exact absurd hph h5
      · exact Or.inl ⟨hji, hj2⟩
    · have := hl.nested i t ht
      rw [hp] at this
      exact (List.pairwise_cons.mp this).2
  | gauge t rest k ht hp =>
    have hph : t.phase = .ready := by
      by_contra h
      obtain ⟨ins, rest', h1, h2, _⟩ := hl.phs i t ht h
      rw [hp] at h1; cases h1; exact h2 rfl
    refine hl.set ht (t' := { t with prog := rest }) rfl (fun _ _ _ => rfl) ?_ ?_ (fun h => absurd hph h) ?_
    · intro m
      show ((σ.locks m).readers).count i = _
      rw [hl.readers m i t ht]
      unfold Thr.held
      rw [cur_ready hph, cur_ready (t := { t with prog := rest }) hph, hp]; rfl
    · intro m j hj
      by_cases hji : j = i
      · subst hji
        obtain ⟨s, ins', rest', h1, h2, h3, h4, h5⟩ := hl.writer m j hj
        rw [ht] at h1; cases h1; exact absurd hph h5
      · exact Or.inl ⟨hji, hj⟩
    · have := hl.nested i t ht
      rw [hp] at this
      exact (List.pairwise_cons.mp this).2
  | finish t rest q ht hp =>
    have hph : t.phase = .ready := by
      by_contra h
      obtain ⟨ins, rest', h1, h2, _⟩ := hl.phs i t ht h
      rw [hp] at h1; cases h1; exact h2 rfl
    refine hl.set ht (t' := { t with prog := rest, ans := .result (queryList isPrint alg pf t.seen q) }) rfl
      (fun _ _ _ => rfl) ?_ ?_ (fun h => absurd hph h) ?_
    · intro m
      show ((σ.locks m).readers).count i = _
      rw [hl.readers m i t ht]
      unfold Thr.held
      rw [cur_ready hph, cur_ready (t := { t with prog := rest, ans := .result (queryList isPrint alg pf t.seen q) }) hph, hp]; rfl
    · intro m j hj
      by_cases hji : j = i
      · subst hji
        obtain ⟨s, ins', rest', h1, h2, h3, h4, h5⟩ := hl.writer m j hj
        rw [ht] at h1; cases h1; exact absurd hph h5
      · exact Or.inl ⟨hji, hj⟩
    · have := hl.nested i t ht
      rw [hp] at this
      exact (List.pairwise_cons.mp this).2

theorem LockInv.exec {P : COp → Prop} (hP : ∀ op, P op → op.Valid conf) {past : List CState} {σ : CState}
    (he : Exec isPrint eval alg pf conf P past σ) : LockInv σ := by
  induction he with
  | start => exact LockInv.start
  | call _ op hp ih => exact ih.call op
  | step he' i hs ih => exact ih.step (Good.exec hP he') hs

/-! ## Progress -/

theorem exists_body (h : Heap) {ins : Instr} {t : Thr} {n : Node} (hm : ins.mode = .read)
    (hn : ins.target t.reg = some n) : ∃ t', Instr.Read h n ins t t' ∨ Instr.Hold h n ins t t' := by
  have hreg : ∀ {m : Node}, (match t.reg with | some (.cl a) => some (Node.cl a) | _ => none) = some m → ∃ a, m = .cl a := by
    intro m h; split at h
    · cases h; exact ⟨_, rfl⟩
    · simp at h
  have hreg2 : ∀ {m : Node}, (match t.reg with | some (.ns a) => some (Node.ns a) | _ => none) = some m → ∃ a, m = .ns a := by
    intro m h; split at h
    · cases h; exact ⟨_, rfl⟩
    · simp at h
  have hreg3 : ∀ {m : Node}, (match t.reg with | some (.leaf a) => some (Node.leaf a) | _ => none) = some m → ∃ a, m = .leaf a := by
    intro m h; split at h
    · cases h; exact ⟨_, rfl⟩
    · simp at h
  cases ins <;> simp only [Instr.mode, reduceCtorEq] at hm <;> simp only [Instr.target] at hn
  case rootGet => cases hn; exact ⟨_, Or.inl (.rootGet _ _)⟩
  case rootExists => cases hn; exact ⟨_, Or.inl (.rootExists _ _)⟩
  case clExists => obtain ⟨a, rfl⟩ := hreg hn; exact ⟨_, Or.inl (.clExists _ _ _ _)⟩
  case clGet => obtain ⟨a, rfl⟩ := hreg hn; exact ⟨_, Or.inl (.clGet _ _ _)⟩
  case nsExists => obtain ⟨a, rfl⟩ := hreg2 hn; exact ⟨_, Or.inl (.nsExists _ _ _)⟩
  case nsGet => obtain ⟨a, rfl⟩ := hreg2 hn; exact ⟨_, Or.inl (.nsGet _ _ _)⟩
  case nsValues => obtain ⟨a, rfl⟩ := hreg2 hn; exact ⟨_, Or.inl (.nsValues _ _ _ (List.Perm.refl _))⟩
  case leafGet => obtain ⟨a, rfl⟩ := hreg3 hn; exact ⟨_, Or.inl (.leafGet _ _ _)⟩
  case leafLen => obtain ⟨a, rfl⟩ := hreg3 hn; exact ⟨_, Or.inl (.leafLen _ _)⟩
  case eachCl => obtain ⟨a, rfl⟩ := hreg hn; exact ⟨_, Or.inr (.eachCl _ _ _ _ (List.Perm.refl _))⟩
  case eachNs => cases hn; exact ⟨_, Or.inr (.eachNs _ _ _ _ _ (List.Perm.refl _))⟩
  case eachLeaf => cases hn; exact ⟨_, Or.inl (.eachLeaf _ _ _ _ _ (List.Perm.refl _))⟩

/-- A thread with something left to do can step, or waits for a lock that somebody holds or waits for. -/
theorem step_or_block {σ : CState} (hg : Good eval conf σ) (hl : LockInv σ) {i : Nat} {t : Thr} {ins : Instr}
    {rest : List Instr} (ht : σ.thrs[i]? = some t) (hp : t.prog = ins :: rest) :
    (∃ σ', TStep isPrint alg pf i σ σ') ∨
    (ins.mode ≠ .loc ∧ ∃ n, ins.target t.reg = some n ∧ ((σ.locks n).writer ≠ none ∨ (σ.locks n).readers ≠ [])) := by
  by_cases hm : ins.mode = .loc
  · left
    cases ins <;> simp only [Instr.mode, reduceCtorEq] at hm
    case gauge => exact ⟨_, .gauge σ t rest _ ht hp⟩
    case unlock => exact ⟨_, .unlock σ t rest _ ht hp⟩
    case finish => exact ⟨_, .finish σ t rest _ ht hp⟩
  · have hto := hg.thr i t ht
    rw [hp] at hto
    obtain ⟨n, hn⟩ := hto.target hm
    by_cases hfree : (σ.locks n).writer = none ∧ (σ.locks n).readers = []
    · left
      cases hph : t.phase with
      | ready =>
        cases hmm : ins.mode with
        | read => exact ⟨_, .rlock σ t ins rest n ht hp hmm hn hph hfree.1⟩
        | write => exact ⟨_, .announce σ t ins rest n ht hp hmm hn hph hfree.1⟩
        | loc => exact absurd hmm hm
      | announced =>
        obtain ⟨ins', rest', h1, h2, h3⟩ := hl.phs i t ht (by rw [hph]; simp)
        rw [hp] at h1; cases h1
        exact ⟨_, .acquire σ t ins rest n ht hp (h3 hph) hn hph hfree.2⟩
      | locked =>
        cases hmm : ins.mode with
        | read =>
          obtain ⟨t', hb | hb⟩ := exists_body σ.heap (t := { t with phase := .ready, prog := rest }) hmm hn
          · exact ⟨_, .read σ t ins rest n t' ht hp hmm hn hph hb⟩
          · exact ⟨_, .hold σ t ins rest n t' ht hp hmm hn hph hb⟩
        | write => exact ⟨_, .write σ t ins rest n ht hp hmm hn hph⟩
        | loc => exact absurd hmm hm
    · right
      refine ⟨hm, n, hn, ?_⟩
      by_cases hw : (σ.locks n).writer = none
      · exact Or.inr (fun hr => hfree ⟨hw, hr⟩)
      · exact Or.inl hw

/-- If an object's lock is held or waited for by a writer, somebody can step. -/
theorem busy_progress {σ : CState} (hg : Good eval conf σ) (hl : LockInv σ) : ∀ (d : Nat) (n : Node),
    n.level + d = 3 → (σ.locks n).writer ≠ none ∨ (σ.locks n).readers ≠ [] →
    ∃ i σ', TStep isPrint alg pf i σ σ' := by
  intro d
  induction d using Nat.strongRecOn with
  | ind d ih =>
    intro n hd hbusy
    have readers : (σ.locks n).readers ≠ [] → ∃ i σ', TStep isPrint alg pf i σ σ' := by
      intro hr
      obtain ⟨j, hj⟩ := List.exists_mem_of_ne_nil _ hr
      have hcount : 0 < (σ.locks n).readers.count j := List.count_pos_iff.mpr hj
      cases htj : σ.thrs[j]? with
      | none => rw [hl.readers' n j htj] at hcount; omega
      | some t =>
        rw [hl.readers n j t htj] at hcount
        have hmem : n ∈ t.held := List.count_pos_iff.mp hcount
        unfold Thr.held at hmem
        rcases List.mem_append.mp hmem with hc | hu
        · unfold Thr.cur at hc
          split at hc
          · rename_i ins rest hph hp
            split at hc
            · rename_i hm
              simp only [Option.mem_toList] at hc
              obtain ⟨t', hb | hb⟩ := exists_body σ.heap (t := { t with phase := .ready, prog := rest }) hm hc
              · exact ⟨j, _, .read σ t ins rest n t' htj hp hm hc hph hb⟩
              · exact ⟨j, _, .hold σ t ins rest n t' htj hp hm hc hph hb⟩
            · simp at hc
          · simp at hc
        · have hun := mem_unlocks.mp hu
          cases hp : t.prog with
          | nil => rw [hp] at hun; simp at hun
          | cons ins rest =>
            rcases step_or_block (isPrint := isPrint) (alg := alg) (pf := pf) hg hl htj hp with ⟨σ', hs⟩ | ⟨hm, m, hmt, hb⟩
            · exact ⟨j, σ', hs⟩
            · rw [hp] at hun
              rcases List.mem_cons.mp hun with he | hun
              · subst he; exact absurd rfl hm
              · have hnest := hl.nested j t htj
                rw [hp] at hnest
                have hlt := ((List.pairwise_cons.mp hnest).1 _ hun n rfl).1
                have hml := target_level hmt
                have h3 : m.level ≤ 3 := by cases m <;> simp [Node.level]
                exact ih (3 - m.level) (by omega) m (by omega) hb
    rcases hbusy with hw | hr
    · cases hwn : (σ.locks n).writer with
      | none => exact absurd hwn hw
      | some i =>
        obtain ⟨t, ins, rest, h1, h2, h3, h4, h5⟩ := hl.writer n i hwn
        cases hph : t.phase with
        | ready => exact absurd hph h5
        | announced =>
          by_cases hr : (σ.locks n).readers = []
          · exact ⟨i, _, .acquire σ t ins rest n h1 h2 h3 h4 hph hr⟩
          · exact readers hr
        | locked => exact ⟨i, _, .write σ t ins rest n h1 h2 h3 h4 hph⟩
    · exact readers hr

theorem progress {σ : CState} (hg : Good eval conf σ) (hl : LockInv σ) {i : Nat} {t : Thr}
    (ht : σ.thrs[i]? = some t) (hr : t.returned = false) : ∃ j σ', TStep isPrint alg pf j σ σ' := by
  cases hp : t.prog with
  | nil => exact ⟨i, _, .ret σ t ht hp hr⟩
  | cons ins rest =>
    rcases step_or_block (isPrint := isPrint) (alg := alg) (pf := pf) hg hl ht hp with ⟨σ', hs⟩ | ⟨hm, m, hmt, hb⟩
    · exact ⟨i, σ', hs⟩
    · have h3 : m.level ≤ 3 := by cases m <;> simp [Node.level]
      exact busy_progress hg hl (3 - m.level) m (by omega) hb

end Ckube

import Verif.Model.Conc

/-! # Running a schedule of the concurrent store, for examples

Maps are iterated in list order. -/

namespace Ckube

deriving instance DecidableEq for Query, Notice, COp, Ans, Event

variable {isPrint : Nat → Bool} {eval : Str → Obj → Str} {alg : SliceSort} {pf : Str → Option GoFloat}
  {conf : List (GVR × List (Str × Str))}

/-- The body of a reading instruction; the boolean says that the lock is kept. -/
def Instr.readFn (h : Heap) (n : Node) (t : Thr) : Instr → Option (Bool × Thr)
  | .rootGet g => match n with
    | .root => some (false, { t with reg := (lookup g h.root).map .cl })
    | _ => none
  | .rootExists g => match n with
    | .root => some (false, if (lookup g h.root).isSome then t else { t with prog := [], ans := .got none })
    | _ => none
  | .clExists c ab => match n with
    | .cl a => some (false, if (lookup c (h.clAt a)).isSome then t else { t with prog := [], ans := ab })
    | _ => none
  | .clGet c => match n with
    | .cl a => some (false, { t with reg := (lookup c (h.clAt a)).map .ns })
    | _ => none
  | .nsExists x => match n with
    | .ns a => some (false, if (lookup x (h.nsAt a)).isSome then t else { t with prog := [], ans := .got none })
    | _ => none
  | .nsGet x => match n with
    | .ns a => some (false, { t with reg := (lookup x (h.nsAt a)).map .leaf })
    | _ => none
  | .nsValues => match n with
    | .ns a => some (false, { t with prog := (h.nsAt a).map (fun e => .leafClean e.1 e.2) ++ t.prog })
    | _ => none
  | .leafGet x => match n with
    | .leaf a => some (false, { t with ans := .got ((lookup x (h.leafAt a)).map SObj.obj) })
    | _ => none
  | .leafLen => match n with
    | .leaf a => some (false, { t with len := (h.leafAt a).length })
    | _ => none
  | .eachLeaf c x b => match n with
    | .leaf a => if a = b then some (false, { t with acc := t.acc ++ [(c, x, h.leafAt a)] }) else none
    | _ => none
  | .eachCl f => match n with
    | .cl a => some (true, { t with prog := (h.clAt a).map (fun e => .eachNs f e.1 e.2) ++ .unlock (.cl a) :: t.prog })
    | _ => none
  | .eachNs f c b => match n with
    | .ns a =>
      let p : List Instr := ((h.nsAt a).filter fun e => f = [] ∨ f = e.1).map (fun e => .eachLeaf c e.1 e.2)
      if a = b then some (true, { t with prog := p ++ .unlock (.ns a) :: t.prog }) else none
    | _ => none
  | _ => none

theorem Instr.readFn_sound {h : Heap} {n : Node} {t t' : Thr} {ins : Instr} {b : Bool}
    (hr : ins.readFn h n t = some (b, t')) :
    (b = false ∧ Instr.Read h n ins t t') ∨ (b = true ∧ Instr.Hold h n ins t t') := by
  cases ins <;> cases n <;> simp only [readFn, Option.some.injEq, Prod.mk.injEq, reduceCtorEq] at hr
  case rootGet.root => obtain ⟨rfl, rfl⟩ := hr; exact Or.inl ⟨rfl, .rootGet _ _⟩
  case rootExists.root => obtain ⟨rfl, rfl⟩ := hr; exact Or.inl ⟨rfl, .rootExists _ _⟩
  case clExists.cl => obtain ⟨rfl, rfl⟩ := hr; exact Or.inl ⟨rfl, .clExists _ _ _ _⟩
  case clGet.cl => obtain ⟨rfl, rfl⟩ := hr; exact Or.inl ⟨rfl, .clGet _ _ _⟩
  case nsExists.ns => obtain ⟨rfl, rfl⟩ := hr; exact Or.inl ⟨rfl, .nsExists _ _ _⟩
  case nsGet.ns => obtain ⟨rfl, rfl⟩ := hr; exact Or.inl ⟨rfl, .nsGet _ _ _⟩
  case nsValues.ns => obtain ⟨rfl, rfl⟩ := hr; exact Or.inl ⟨rfl, .nsValues _ _ _ (.refl _)⟩
  case leafGet.leaf => obtain ⟨rfl, rfl⟩ := hr; exact Or.inl ⟨rfl, .leafGet _ _ _⟩
  case leafLen.leaf => obtain ⟨rfl, rfl⟩ := hr; exact Or.inl ⟨rfl, .leafLen _ _⟩
  case eachLeaf.leaf =>
    split at hr
    · rename_i e; subst e
      simp only [Option.some.injEq, Prod.mk.injEq] at hr
      obtain ⟨rfl, rfl⟩ := hr; exact Or.inl ⟨rfl, .eachLeaf _ _ _ _ _ (.refl _)⟩
    · simp at hr
  case eachCl.cl => obtain ⟨rfl, rfl⟩ := hr; exact Or.inr ⟨rfl, .eachCl _ _ _ _ (.refl _)⟩
  case eachNs.ns =>
    split at hr
    · rename_i e; subst e
      simp only [Option.some.injEq, Prod.mk.injEq] at hr
      obtain ⟨rfl, rfl⟩ := hr; exact Or.inr ⟨rfl, .eachNs _ _ _ _ _ (.refl _)⟩
    · simp at hr

/-- One step of thread `i`; `none`: it is blocked or has returned. -/
def CState.stepFn (isPrint : Nat → Bool) (alg : SliceSort) (pf : Str → Option GoFloat) (i : Nat) (σ : CState) :
    Option CState :=
  match σ.thrs[i]? with
  | none => none
  | some t =>
    match t.prog with
    | [] => if t.returned then none
      else some { σ.setThr i { t with returned := true } with trace := σ.trace ++ [.ret i t.ans] }
    | .unlock n :: rest =>
      some ((σ.setLock n { σ.locks n with readers := (σ.locks n).readers.erase i }).setThr i { t with prog := rest })
    | .gauge k :: rest => some { σ.setThr i { t with prog := rest } with gauge := insertKV k t.len σ.gauge }
    | .finish q :: rest =>
      some (σ.setThr i { t with prog := rest, ans := .result (queryList isPrint alg pf t.seen q) })
    | ins :: rest =>
      match ins.target t.reg with
      | none => none
      | some n =>
        match ins.mode, t.phase with
        | .write, .ready => if (σ.locks n).writer = none then
            some ((σ.setLock n { σ.locks n with writer := some i }).setThr i { t with phase := .announced }) else none
        | .write, .announced => if (σ.locks n).readers = [] then some (σ.setThr i { t with phase := .locked }) else none
        | .write, .locked =>
          some { (σ.setLock n { σ.locks n with writer := none }).setThr i { t with phase := .ready, prog := rest } with
            heap := ins.write n σ.heap }
        | .read, .ready => if (σ.locks n).writer = none then
            some ((σ.setLock n { σ.locks n with readers := i :: (σ.locks n).readers }).setThr i { t with phase := .locked })
          else none
        | .read, .locked => match ins.readFn σ.heap n { t with phase := .ready, prog := rest } with
          | some (false, t') =>
            some ((σ.setLock n { σ.locks n with readers := (σ.locks n).readers.erase i }).setThr i t')
          | some (true, t') => some (σ.setThr i t')
          | none => none
        | _, _ => none

theorem CState.stepFn_sound {i : Nat} {σ σ' : CState} (h : σ.stepFn isPrint alg pf i = some σ') :
    TStep isPrint alg pf i σ σ' := by
  unfold stepFn at h
  split at h
  · simp at h
  · rename_i t ht
    split at h
    · rename_i hp
      split at h
      · simp at h
      · rename_i hr
        simp only [Option.some.injEq] at h; subst h
        exact .ret σ t ht hp (by simpa using hr)
    · rename_i hp; simp only [Option.some.injEq] at h; subst h; exact .unlock σ t _ _ ht hp
    · rename_i hp; simp only [Option.some.injEq] at h; subst h; exact .gauge σ t _ _ ht hp
    · rename_i hp; simp only [Option.some.injEq] at h; subst h; exact .finish σ t _ _ ht hp
    · rename_i ins rest _ _ _ hp
      split at h
      · simp at h
      · rename_i n hn
        split at h
        · rename_i hm hph
          split at h
          · rename_i hw; simp only [Option.some.injEq] at h; subst h; exact .announce σ t _ _ n ht hp hm hn hph hw
          · simp at h
        · rename_i hm hph
          split at h
          · rename_i hw; simp only [Option.some.injEq] at h; subst h; exact .acquire σ t _ _ n ht hp hm hn hph hw
          · simp at h
        · rename_i hm hph
          simp only [Option.some.injEq] at h; subst h; exact .write σ t _ _ n ht hp hm hn hph
        · rename_i hm hph
          split at h
          · rename_i hw; simp only [Option.some.injEq] at h; subst h; exact .rlock σ t _ _ n ht hp hm hn hph hw
          · simp at h
        · rename_i hm hph
          split at h
          · rename_i t' hr
            simp only [Option.some.injEq] at h; subst h
            rcases Instr.readFn_sound hr with ⟨_, hb⟩ | ⟨hb, _⟩
            · exact .read σ t _ _ n t' ht hp hm hn hph hb
            · simp at hb
          · rename_i t' hr
            simp only [Option.some.injEq] at h; subst h
            rcases Instr.readFn_sound hr with ⟨hb, _⟩ | ⟨_, hb⟩
            · simp at hb
            · exact .hold σ t _ _ n t' ht hp hm hn hph hb
          · simp at h
        · simp at h

/-- A schedule: calls, and steps of threads (`go i k`: thread `i` does up to `k` steps until it blocks). -/
inductive Act where
  | call (op : COp)
  | go (i : Nat) (k : Nat)

/-- Up to `k` steps of thread `i`. -/
def CState.goFn (isPrint : Nat → Bool) (alg : SliceSort) (pf : Str → Option GoFloat) (i : Nat) : Nat → CState → CState
  | 0, σ => σ
  | k + 1, σ => match σ.stepFn isPrint alg pf i with
    | none => σ
    | some σ' => goFn isPrint alg pf i k σ'

def sched (isPrint : Nat → Bool) (eval : Str → Obj → Str) (alg : SliceSort) (pf : Str → Option GoFloat)
    (conf : List (GVR × List (Str × Str))) : List Act → CState → CState
  | [], σ => σ
  | .call op :: r, σ => sched isPrint eval alg pf conf r (σ.call eval conf op)
  | .go i k :: r, σ => sched isPrint eval alg pf conf r (σ.goFn isPrint alg pf i k)

/-- Every schedule is an execution. -/
theorem sched_exec {P : COp → Prop} : ∀ (l : List Act) (σ : CState) (past : List CState),
    (∀ op, Act.call op ∈ l → P op) → Exec isPrint eval alg pf conf P past σ →
    ∃ past', Exec isPrint eval alg pf conf P past' (sched isPrint eval alg pf conf l σ)
  | [], σ, past, _, he => ⟨past, he⟩
  | .call op :: r, σ, past, hP, he =>
    sched_exec r _ _ (fun op h => hP op (List.mem_cons_of_mem _ h)) (he.call op (hP op List.mem_cons_self))
  | .go i k :: r, σ, past, hP, he => by
    have : ∃ past', Exec isPrint eval alg pf conf P past' (σ.goFn isPrint alg pf i k) := by
      clear hP
      induction k generalizing σ past with
      | zero => exact ⟨past, he⟩
      | succ k ih =>
        unfold CState.goFn
        split
        · exact ⟨past, he⟩
        · rename_i σ' hs; exact ih σ' _ (he.step i (CState.stepFn_sound hs))
    obtain ⟨past', he'⟩ := this
    exact sched_exec r _ _ (fun op h => hP op (List.mem_cons_of_mem _ h)) he'

end Ckube

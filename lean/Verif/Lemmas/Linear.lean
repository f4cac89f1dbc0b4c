import Verif.Spec.Linear
import Verif.Lemmas.Conc
import Verif.Lemmas.Query

/-! # Linearization points of the concurrent store -/

namespace Ckube
open Spec

variable {isPrint : Nat → Bool} {eval : Str → Obj → Str} {alg : SliceSort} {pf : Str → Option GoFloat}
  {conf : List (GVR × List (Str × Str))}

/-- The instruction at which a call about one object takes effect. -/
def Instr.lin : Instr → Bool
  | .leafSet _ _ | .leafDel _ | .leafGet _ => true
  | _ => false

/-- The call has not taken effect yet. -/
def Thr.pending (t : Thr) : Prop := 0 < t.prog.countP Instr.lin

/-- The calls of the executions considered here. -/
def NoClean (conf : List (GVR × List (Str × Str))) (op : COp) : Prop :=
  op.Valid conf ∧ ∀ g c, op ≠ .notice (.clean g c)

theorem prog_lin {op : COp} (hp : Point op) : (op.prog eval conf).countP Instr.lin = 1 := by
  cases op with
  | notice n =>
    cases n with
    | added | modified | deleted => rfl
    | clean => exact hp.elim
  | get => rfl
  | query => exact hp.elim

/-- Store and heap hold the same objects. -/
structure Same (eval : Str → Obj → Str) (conf : List (GVR × List (Str × Str))) (h : Heap) (s : Store) : Prop where
  wf : s.WF eval
  cfg : s.conf = conf
  types : ∀ g, (lookup g s.data).isSome = (lookup g conf).isSome
  eq : ∀ id, look s id = h.abs id

structure LinInv (eval : Str → Obj → Str) (conf : List (GVR × List (Str × Str))) (s₀ : Store) (σ : CState)
    (L : List (Nat × COp × Ans)) (s : Store) : Prop where
  serial : Serial eval s₀ (L.map Prod.snd) s
  same : Same eval conf σ.heap s
  once : (L.map Prod.fst).Nodup
  inL : ∀ e ∈ L, Point e.2.1 ∧ ∃ t, σ.thrs[e.1]? = some t ∧ t.op = e.2.1 ∧ ¬ t.pending
  done : ∀ (i : Nat) (t : Thr), σ.thrs[i]? = some t → Point t.op → ¬ t.pending → (i, t.op, t.ans) ∈ L
  suffix : ∀ (i : Nat) (t : Thr), σ.thrs[i]? = some t → Point t.op → t.prog <:+ t.op.prog eval conf
  noClean : ∀ (i : Nat) (t : Thr), σ.thrs[i]? = some t → ∀ g c, t.op ≠ .notice (.clean g c)
  ret : ∀ i a, Event.ret i a ∈ σ.trace → ∃ t, σ.thrs[i]? = some t ∧ t.returned = true ∧ t.prog = [] ∧ t.ans = a
  call : ∀ (i : Nat) (t : Thr), σ.thrs[i]? = some t → Event.call i t.op ∈ σ.trace
  call' : ∀ i op, Event.call i op ∈ σ.trace → ∃ t, σ.thrs[i]? = some t ∧ t.op = op
  order : L.Pairwise fun e f => ¬ Before σ.trace f.1 e.1

theorem serial_snoc {s s' s'' : Store} {l : List (COp × Ans)} {op : COp} {a : Ans} (h : Serial eval s l s')
    (hs : SeqStep eval s' op a s'') : Serial eval s (l ++ [(op, a)]) s'' := by
  induction h with
  | nil => exact .cons hs .nil
  | cons h1 _ ih => exact .cons h1 (ih hs)

section
variable {s₀ : Store} {σ σ' : CState} {L : List (Nat × COp × Ans)} {s : Store}

theorem LinInv.start : LinInv eval conf (newStore conf) { heap := newHeap conf } [] (newStore conf) := by
  refine ⟨.nil, ?_, List.nodup_nil, by simp, by simp, by simp, by simp, by simp, by simp, by simp, .nil⟩
  obtain ⟨hw, hc, _⟩ := run_look (eval := eval) (conf := conf) (s := newStore conf) [] rfl
  refine ⟨hw, hc, ?_, ?_⟩
  · intro g
    rw [Bool.eq_iff_iff, newStore_types]
    constructor
    · intro hm
      obtain ⟨e, he, rfl⟩ := List.mem_map.mp hm
      cases hn : lookup e.1 conf with
      | some _ => rfl
      | none => exact absurd he (lookup_eq_none.mp hn e.2)
    · intro hs
      obtain ⟨v, hv⟩ := Option.isSome_iff_exists.mp hs
      exact List.mem_map.mpr ⟨(g, v), mem_of_lookup hv, rfl⟩
  · intro id
    rw [Heap.newHeap_abs]; exact newStore_look conf id

theorem before_ret {tr : List Event} {i j k : Nat} {a : Ans} (h : Before (tr ++ [.ret k a]) i j) : Before tr i j := by
  obtain ⟨t1, t2, t3, b, op, he⟩ := h
  rcases List.eq_nil_or_concat t3 with rfl | ⟨t3', x, rfl⟩
  · have he' : tr ++ [.ret k a] = (t1 ++ .ret i b :: t2) ++ [.call j op] := by rw [he]; simp
    have := List.append_inj_right' he' rfl
    simp at this
  · refine ⟨t1, t2, t3', b, op, ?_⟩
    have he' : tr ++ [.ret k a] = (t1 ++ .ret i b :: (t2 ++ .call j op :: t3')) ++ [x] := by rw [he]; simp
    exact List.append_inj_left' he' rfl

theorem before_call {tr : List Event} {i j k : Nat} {op : COp} (h : Before (tr ++ [.call k op]) i j) :
    Before tr i j ∨ j = k := by
  obtain ⟨t1, t2, t3, b, op', he⟩ := h
  rcases List.eq_nil_or_concat t3 with rfl | ⟨t3', x, rfl⟩
  · right
    have he' : tr ++ [.call k op] = (t1 ++ .ret i b :: t2) ++ [.call j op'] := by rw [he]; simp
    have := List.append_inj_right' he' rfl
    simp at this
    exact this.1.symm
  · left
    refine ⟨t1, t2, t3', b, op', ?_⟩
    have he' : tr ++ [.call k op] = (t1 ++ .ret i b :: (t2 ++ .call j op' :: t3')) ++ [x] := by rw [he]; simp
    exact List.append_inj_left' he' rfl

theorem before_mem {tr : List Event} {i j : Nat} (h : Before tr i j) : ∃ a, Event.ret i a ∈ tr := by
  obtain ⟨t1, t2, t3, b, op', rfl⟩ := h
  exact ⟨b, by simp⟩

theorem set_get {l : List Thr} {i : Nat} {t t' : Thr} (ht : l[i]? = some t) (j : Nat) :
    (l.set i t')[j]? = if i = j then some t' else l[j]? := by
  rw [List.getElem?_set]
  have := (List.getElem?_eq_some_iff.mp ht).1
  split
  · rename_i h; subst h; simp
  · rfl

theorem LinInv.call_ {op : COp} (hl : LinInv eval conf s₀ σ L s) (hv : NoClean conf op) :
    LinInv eval conf s₀ (σ.call eval conf op) L s := by
  have hget : ∀ (i : Nat) (t : Thr), (σ.call eval conf op).thrs[i]? = some t → σ.thrs[i]? = some t ∨
      (i = σ.thrs.length ∧ t = { op := op, prog := op.prog eval conf, ans := op.ans0 }) := by
    intro i t hi
    have hi' : (σ.thrs ++ [{ op := op, prog := op.prog eval conf, ans := op.ans0 }])[i]? = some t := hi
    rw [List.getElem?_append] at hi'
    split at hi'
    · exact Or.inl hi'
    · rename_i hlt
      right
      cases hx : i - σ.thrs.length with
      | zero =>
        rw [hx] at hi'; simp only [List.getElem?_cons_zero, Option.some.injEq] at hi'
        exact ⟨by omega, hi'.symm⟩
      | succ k => rw [hx] at hi'; simp at hi'
  have hold : ∀ (i : Nat) (t : Thr), σ.thrs[i]? = some t → (σ.call eval conf op).thrs[i]? = some t := by
    intro i t hi
    show (σ.thrs ++ [_])[i]? = some t
    rw [List.getElem?_append_left (List.getElem?_eq_some_iff.mp hi).1]; exact hi
  refine ⟨hl.serial, ⟨hl.same.wf, hl.same.cfg, hl.same.types, hl.same.eq⟩, hl.once, ?_, ?_, ?_, ?_, ?_, ?_, ?_, ?_⟩
  · intro e he
    obtain ⟨h1, t, h2, h3⟩ := hl.inL e he
    exact ⟨h1, t, hold _ _ h2, h3⟩
  · intro i t hi hp hnp
    rcases hget i t hi with h | ⟨rfl, rfl⟩
    · exact hl.done i t h hp hnp
    · exfalso; apply hnp
      unfold Thr.pending
      rw [prog_lin hp]; omega
  · intro i t hi hp
    rcases hget i t hi with h | ⟨rfl, rfl⟩
    · exact hl.suffix i t h hp
    · exact List.suffix_refl _
  · intro i t hi
    rcases hget i t hi with h | ⟨rfl, rfl⟩
    · exact hl.noClean i t h
    · exact hv.2
  · intro i a ha
    have ha' : Event.ret i a ∈ σ.trace ++ [.call σ.thrs.length op] := ha
    simp only [List.mem_append, List.mem_singleton, reduceCtorEq, or_false] at ha'
    obtain ⟨t, h1, h2⟩ := hl.ret i a ha'
    exact ⟨t, hold i t h1, h2⟩
  · intro i t hi
    show Event.call i t.op ∈ σ.trace ++ [.call σ.thrs.length op]
    rcases hget i t hi with h | ⟨rfl, rfl⟩
    · exact List.mem_append_left _ (hl.call i t h)
    · simp
  · intro i op' ha
    have ha' : Event.call i op' ∈ σ.trace ++ [.call σ.thrs.length op] := ha
    simp only [List.mem_append, List.mem_singleton, Event.call.injEq] at ha'
    rcases ha' with ha' | ⟨rfl, rfl⟩
    · obtain ⟨t, h1, h2⟩ := hl.call' i op' ha'
      exact ⟨t, hold i t h1, h2⟩
    · exact ⟨{ op := op', prog := op'.prog eval conf, ans := op'.ans0 },
        by show (σ.thrs ++ [_])[σ.thrs.length]? = _; simp, rfl⟩
  · have hlt : ∀ e ∈ L, e.1 < σ.thrs.length := by
      intro e he
      obtain ⟨_, t, h2, _⟩ := hl.inL e he
      exact (List.getElem?_eq_some_iff.mp h2).1
    refine List.Pairwise.imp_of_mem ?_ hl.order
    intro e f he hf hnb hb
    rcases before_call hb with h | h
    · exact hnb h
    · have := hlt e he; omega

/-- A step of thread `i` that is not its linearization point. -/
theorem LinInv.silent (hl : LinInv eval conf s₀ σ L s) {i : Nat} {t t' : Thr} (ht : σ.thrs[i]? = some t)
    (e1 : σ'.thrs = σ.thrs.set i t') (e2 : ∀ id, σ'.heap.abs id = σ.heap.abs id) (e3 : σ'.trace = σ.trace)
    (hop : t'.op = t.op) (hpend : Point t.op → (t'.pending ↔ t.pending)) (hans : Point t.op → ¬ t.pending → t'.ans = t.ans)
    (hsuf : Point t.op → t'.prog <:+ t.prog) (hret : t.returned = true → t.prog = [] → t'.returned = true ∧ t'.prog = [] ∧ t'.ans = t.ans) :
    LinInv eval conf s₀ σ' L s := by
  have hg : ∀ j, σ'.thrs[j]? = if i = j then some t' else σ.thrs[j]? := by intro j; rw [e1]; exact set_get ht j
  have hcase : ∀ (j : Nat) (u : Thr), σ'.thrs[j]? = some u → (i = j ∧ u = t') ∨ (i ≠ j ∧ σ.thrs[j]? = some u) := by
    intro j u hj; rw [e1] at hj; exact getElem?_set_some hj
  refine ⟨hl.serial, ⟨hl.same.wf, hl.same.cfg, hl.same.types, fun id => by rw [e2]; exact hl.same.eq id⟩, hl.once,
    ?_, ?_, ?_, ?_, ?_, ?_, ?_, by rw [e3]; exact hl.order⟩
  · intro e he
    obtain ⟨h1, u, h2, h3, h4⟩ := hl.inL e he
    refine ⟨h1, ?_⟩
    rw [hg]
    split
    · rename_i hie
      rw [← hie, ht] at h2; cases h2
      exact ⟨t', rfl, by rw [hop]; exact h3, fun h => h4 ((hpend (by rw [h3]; exact h1)).mp h)⟩
    · exact ⟨u, h2, h3, h4⟩
  · intro j u hj hp hnp
    rcases hcase j u hj with ⟨rfl, rfl⟩ | ⟨_, h⟩
    · rw [hop] at hp ⊢
      have hnt : ¬ t.pending := fun h => hnp ((hpend hp).mpr h)
      rw [hans hp hnt]
      exact hl.done i t ht hp hnt
    · exact hl.done j u h hp hnp
  · intro j u hj hp
    rcases hcase j u hj with ⟨rfl, rfl⟩ | ⟨_, h⟩
    · rw [hop] at hp ⊢; exact (hsuf hp).trans (hl.suffix i t ht hp)
    · exact hl.suffix j u h hp
  · intro j u hj
    rcases hcase j u hj with ⟨rfl, rfl⟩ | ⟨_, h⟩
    · rw [hop]; exact hl.noClean i t ht
    · exact hl.noClean j u h
  · intro j a ha
    rw [e3] at ha
    obtain ⟨u, h1, h2, h3, h4⟩ := hl.ret j a ha
    rw [hg]
    split
    · rename_i hij
      subst hij; rw [ht] at h1; cases h1
      obtain ⟨r1, r2, r3⟩ := hret h2 h3
      exact ⟨t', rfl, r1, r2, r3.trans h4⟩
    · exact ⟨u, h1, h2, h3, h4⟩
  · intro j u hj
    rw [e3]
    rcases hcase j u hj with ⟨rfl, rfl⟩ | ⟨_, h⟩
    · rw [hop]; exact hl.call i t ht
    · exact hl.call j u h
  · intro j op hj
    rw [e3] at hj
    obtain ⟨u, h1, h2⟩ := hl.call' j op hj
    rw [hg]
    split
    · rename_i hij
      subst hij; rw [ht] at h1; cases h1
      exact ⟨t', rfl, by rw [hop]; exact h2⟩
    · exact ⟨u, h1, h2⟩

/-- The linearization point of thread `i`. -/
theorem LinInv.point (hl : LinInv eval conf s₀ σ L s) {i : Nat} {t t' : Thr} {s' : Store} (ht : σ.thrs[i]? = some t)
    (e1 : σ'.thrs = σ.thrs.set i t') (e3 : σ'.trace = σ.trace) (hop : t'.op = t.op) (hp : Point t.op)
    (hpend : t.pending) (hpend' : ¬ t'.pending) (hsuf : t'.prog <:+ t.prog)
    (hstep : SeqStep eval s t.op t'.ans s') (hsame : Same eval conf σ'.heap s') :
    LinInv eval conf s₀ σ' (L ++ [(i, t.op, t'.ans)]) s' := by
  have hg : ∀ j, σ'.thrs[j]? = if i = j then some t' else σ.thrs[j]? := by intro j; rw [e1]; exact set_get ht j
  have hcase : ∀ (j : Nat) (u : Thr), σ'.thrs[j]? = some u → (i = j ∧ u = t') ∨ (i ≠ j ∧ σ.thrs[j]? = some u) := by
    intro j u hj; rw [e1] at hj; exact getElem?_set_some hj
  have hnot : ∀ e ∈ L, e.1 ≠ i := by
    intro e he hei
    obtain ⟨_, u, h2, _, h4⟩ := hl.inL e he
    rw [hei, ht] at h2; cases h2; exact h4 hpend
  have hne : t.prog ≠ [] := by
    intro h; unfold Thr.pending at hpend; rw [h] at hpend; simp at hpend
  refine ⟨?_, hsame, ?_, ?_, ?_, ?_, ?_, ?_, ?_, ?_, ?_⟩
  · rw [List.map_append]; exact serial_snoc hl.serial hstep
  · rw [List.map_append, List.nodup_append]
    refine ⟨hl.once, by simp, ?_⟩
    intro a ha b hb
    obtain ⟨e, he, rfl⟩ := List.mem_map.mp ha
    simp only [List.map_cons, List.map_nil, List.mem_singleton] at hb
    rw [hb]; exact hnot e he
  · intro e he
    rcases List.mem_append.mp he with he | he
    · obtain ⟨h1, u, h2, h3, h4⟩ := hl.inL e he
      refine ⟨h1, ?_⟩
      rw [hg, if_neg (fun h => hnot e he h.symm)]
      exact ⟨u, h2, h3, h4⟩
    · simp only [List.mem_singleton] at he; subst he
      exact ⟨hp, t', by rw [hg, if_pos rfl], hop, hpend'⟩
  · intro j u hj hpu hnp
    rcases hcase j u hj with ⟨rfl, rfl⟩ | ⟨_, h⟩
    · rw [hop]; simp
    · exact List.mem_append_left _ (hl.done j u h hpu hnp)
  · intro j u hj hpu
    rcases hcase j u hj with ⟨rfl, rfl⟩ | ⟨_, h⟩
    · rw [hop]; exact hsuf.trans (hl.suffix i t ht hp)
    · exact hl.suffix j u h hpu
  · intro j u hj
    rcases hcase j u hj with ⟨rfl, rfl⟩ | ⟨_, h⟩
    · rw [hop]; exact hl.noClean i t ht
    · exact hl.noClean j u h
  · intro j a ha
    rw [e3] at ha
    obtain ⟨u, h1, h2, h3, h4⟩ := hl.ret j a ha
    rw [hg]
    split
    · rename_i hij
      subst hij; rw [ht] at h1; cases h1
      exact absurd h3 hne
    · exact ⟨u, h1, h2, h3, h4⟩
  · intro j u hj
    rw [e3]
    rcases hcase j u hj with ⟨rfl, rfl⟩ | ⟨_, h⟩
    · rw [hop]; exact hl.call i t ht
    · exact hl.call j u h
  · intro j op hj
    rw [e3] at hj
    obtain ⟨u, h1, h2⟩ := hl.call' j op hj
    rw [hg]
    split
    · rename_i hij
      subst hij; rw [ht] at h1; cases h1
      exact ⟨t', rfl, by rw [hop]; exact h2⟩
    · exact ⟨u, h1, h2⟩
  · rw [e3, List.pairwise_append]
    refine ⟨hl.order, List.pairwise_singleton _ _, ?_⟩
    intro e _ f hf hb
    simp only [List.mem_singleton] at hf; subst hf
    obtain ⟨a, ha⟩ := before_mem hb
    obtain ⟨u, h1, h2, h3, _⟩ := hl.ret i a ha
    rw [ht] at h1; cases h1
    exact hne h3

theorem LinInv.ret_ (hl : LinInv eval conf s₀ σ L s) {i : Nat} {t : Thr} (ht : σ.thrs[i]? = some t) (hp : t.prog = [])
    : LinInv eval conf s₀
      { σ.setThr i { t with returned := true } with trace := σ.trace ++ [.ret i t.ans] } L s := by
  have h1 : LinInv eval conf s₀ (σ.setThr i { t with returned := true }) L s :=
    hl.silent ht rfl (fun _ => rfl) rfl rfl (fun _ => Iff.rfl) (fun _ _ => rfl) (fun _ => List.suffix_refl _)
      (fun _ h => ⟨rfl, h, rfl⟩)
  refine ⟨h1.serial, ⟨h1.same.wf, h1.same.cfg, h1.same.types, h1.same.eq⟩, h1.once, h1.inL, h1.done, h1.suffix,
    h1.noClean, ?_, ?_, ?_, ?_⟩
  · intro j a ha
    have ha' : Event.ret j a ∈ σ.trace ++ [.ret i t.ans] := ha
    rcases List.mem_append.mp ha' with ha' | ha'
    · exact h1.ret j a ha'
    · simp only [List.mem_singleton, Event.ret.injEq] at ha'
      obtain ⟨rfl, rfl⟩ := ha'
      refine ⟨{ t with returned := true }, ?_, rfl, hp, rfl⟩
      show (σ.thrs.set j _)[j]? = _
      rw [set_get ht, if_pos rfl]
  · intro j u hj
    exact List.mem_append_left _ (h1.call j u hj)
  · intro j op hj
    have hj' : Event.call j op ∈ σ.trace ++ [.ret i t.ans] := hj
    simp only [List.mem_append, List.mem_singleton, reduceCtorEq, or_false] at hj'
    exact h1.call' j op hj'
  · exact List.Pairwise.imp (fun hnb hb => hnb (before_ret hb)) h1.order

end

/-! ## What the instructions of a call can be -/

theorem suffix_lin {op : COp} (hp : Point op) {ins : Instr} {rest : List Instr}
    (hs : ins :: rest <:+ op.prog eval conf) (hl : ins.lin = true) : rest.countP Instr.lin = 0 := by
  have h1 := hs.sublist.countP_le (p := Instr.lin)
  rw [prog_lin hp, List.countP_cons, hl] at h1
  simp only [if_true] at h1
  omega

theorem same_notify {h : Heap} {s s' : Store} (hs : Same eval conf h s) (hk : h.OK) {g : GVR} {c n : Str} {a : Nat}
    (hpath : h.pathLeaf g c n = some a) {f : Leaf → Leaf}
    (hf : ∀ k l l', IsMap l → IsMap l' → lookup k l = lookup k l' → lookup k (f l) = lookup k (f l'))
    (hn : s.notify g c n f = some s') (hw : s'.WF eval) : Same eval conf (h.leafUpd a f) s' := by
  obtain ⟨cm, hl, hcf, hd, _⟩ := notify_some hn
  refine ⟨hw, hcf.trans hs.cfg, ?_, ?_⟩
  · intro g'
    rw [hd, lookup_insertKV, ← hs.types g']
    split
    · rename_i e; subst e; rw [hl]; rfl
    · rfl
  · intro id
    rw [notify_look hn, Heap.leafUpd_abs (hk.pathLeaf_lt hpath)]
    by_cases hid : g = id.gvr ∧ c = id.cluster ∧ n = id.ns
    · obtain ⟨rfl, rfl, rfl⟩ := hid
      rw [if_pos ⟨rfl, rfl, rfl⟩, if_pos hpath, hl]
      show lookup id.name (f (leafOf cm id.cluster id.ns)) = lookup id.name (f (h.leafAt a))
      apply hf
      · exact ((hs.wf.cl _ cm (mem_of_lookup hl)).leaf _ _).1
      · exact hk.leafM a
      · have := hs.eq id
        unfold look Heap.abs at this
        rw [hl, hpath] at this
        exact this
    · rw [if_neg hid, if_neg, hs.eq]
      intro hp
      obtain ⟨e1, e2, e3⟩ := Heap.pathLeaf_inj hk hpath hp
      exact hid ⟨e1, e2, e3⟩

theorem notify_exists {s : Store} (g : GVR) (c n : Str) (f : Leaf → Leaf) (h : (lookup g s.data).isSome = true) :
    ∃ s', s.notify g c n f = some s' := by
  obtain ⟨cm, hcm⟩ := Option.isSome_iff_exists.mp h
  unfold Store.notify; rw [hcm]; exact ⟨_, rfl⟩

/-- The effect of a notification on the heap is that on the store. -/
theorem same_step {h : Heap} {s : Store} (hs : Same eval conf h s) (hk : h.OK) {n : Notice} {ins : Instr}
    (hn : ∀ g c, n ≠ .clean g c) (hv : (lookup n.gvr conf).isSome = true) (hm : ins.mode = .write) (hlin : ins.lin = true)
    (hmem : ins ∈ (COp.notice n).prog eval conf) {a : Nat}
    (hpath : h.pathLeaf ((COp.notice n).path eval conf).1 ((COp.notice n).path eval conf).2.1
      ((COp.notice n).path eval conf).2.2 = some a) :
    ∃ s', s.step eval n = some s' ∧ Same eval conf (ins.write (.leaf a) h) s' := by
  have hcf : ∀ g, s.confOf g = (lookup g conf).getD [] := fun g => by unfold Store.confOf; rw [hs.cfg]
  have put : ∀ g c o, (lookup g conf).isSome = true →
      h.pathLeaf g c (build eval ((lookup g conf).getD []) c o).1 = some a →
      ∃ s', s.put eval g c o = some s' ∧ (s'.WF eval → Same eval conf (h.leafUpd a
        (insertKV (build eval ((lookup g conf).getD []) c o).2.1 (build eval ((lookup g conf).getD []) c o).2.2)) s') := by
    intro g c o hg hp
    rw [← hs.types] at hg
    obtain ⟨s', hs'⟩ := notify_exists g c (build eval (s.confOf g) c o).1
      (insertKV (build eval (s.confOf g) c o).2.1 (build eval (s.confOf g) c o).2.2) hg
    refine ⟨s', hs', fun hw => ?_⟩
    rw [hcf] at hs'
    refine same_notify hs hk hp ?_ hs' hw
    intro k l l' _ _ he
    rw [lookup_insertKV, lookup_insertKV, he]
  cases n with
  | clean g c => exact absurd rfl (hn g c)
  | added g c o =>
    obtain ⟨s', h1, h2⟩ := put g c o hv hpath
    have hst : s.step eval (.added g c o) = some s' := h1
    refine ⟨s', hst, ?_⟩
    have he : ins = .leafSet (build eval ((lookup g conf).getD []) c o).2.1 (build eval ((lookup g conf).getD []) c o).2.2 := by
      simp only [COp.prog, notifyProg, initProg, List.mem_append, List.mem_cons, List.not_mem_nil, or_false] at hmem
      rcases hmem with h | h
      · rcases h with rfl | rfl | rfl | rfl | rfl <;> simp [Instr.lin] at hlin
      · rcases h with rfl | rfl | rfl | rfl | rfl | rfl | rfl | rfl | rfl <;> first | rfl | simp [Instr.lin] at hlin
    rw [he]
    exact h2 (step_look hs.wf hst).1
  | modified g c o =>
    obtain ⟨s', h1, h2⟩ := put g c o hv hpath
    have hst : s.step eval (.modified g c o) = some s' := h1
    refine ⟨s', hst, ?_⟩
    have he : ins = .leafSet (build eval ((lookup g conf).getD []) c o).2.1 (build eval ((lookup g conf).getD []) c o).2.2 := by
      simp only [COp.prog, notifyProg, initProg, List.mem_append, List.mem_cons, List.not_mem_nil, or_false] at hmem
      rcases hmem with h | h
      · rcases h with rfl | rfl | rfl | rfl | rfl <;> simp [Instr.lin] at hlin
      · rcases h with rfl | rfl | rfl | rfl | rfl | rfl | rfl | rfl | rfl <;> first | rfl | simp [Instr.lin] at hlin
    rw [he]
    exact h2 (step_look hs.wf hst).1
  | deleted g c o =>
    have hg := hv
    rw [← hs.types] at hg
    obtain ⟨s', hs'⟩ := notify_exists g c (build eval (s.confOf g) c o).1
      (eraseKV (build eval (s.confOf g) c o).2.1) hg
    have hst : s.step eval (.deleted g c o) = some s' := hs'
    refine ⟨s', hst, ?_⟩
    have he : ins = .leafDel (build eval ((lookup g conf).getD []) c o).2.1 := by
      simp only [COp.prog, notifyProg, initProg, List.mem_append, List.mem_cons, List.not_mem_nil, or_false] at hmem
      rcases hmem with h | h
      · rcases h with rfl | rfl | rfl | rfl | rfl <;> simp [Instr.lin] at hlin
      · rcases h with rfl | rfl | rfl | rfl | rfl | rfl | rfl | rfl | rfl <;> first | rfl | simp [Instr.lin] at hlin
    rw [he]
    have hw := (step_look hs.wf hst).1
    rw [hcf] at hs'
    refine same_notify hs hk hpath ?_ hs' hw
    intro k l l' h1 h2 he
    rw [lookup_eraseKV h1, lookup_eraseKV h2, he]

/-- The head of a program that checks. -/
theorem lin_head {h : Heap} {g : GVR} {c n : Str} {ins : Instr} {rest : List Instr} {reg : Option Node}
    (ht : ThrOK h g c n (ins :: rest) reg) (hl : ins.lin = true) {m : Node} (hn : ins.target reg = some m) :
    ∃ a, m = .leaf a ∧ h.pathLeaf g c n = some a := by
  obtain ⟨⟨k, rk, hc, _, hr⟩, _⟩ := ht
  cases ins <;> simp only [Instr.lin, Bool.false_eq_true] at hl <;> simp only [Chk] at hc <;>
    (obtain ⟨a, rfl, ha⟩ := hr.leaf hc.1
     simp only [Instr.target, Option.some.injEq] at hn
     exact ⟨a, hn.symm, ha⟩)

theorem notice_no_read_lin {n : Notice} {ins : Instr} (hmem : ins ∈ (COp.notice n).prog eval conf)
    (hl : ins.lin = true) : ins.mode = .write := by
  cases ins <;> simp only [Instr.lin, Bool.false_eq_true] at hl <;> try rfl
  cases n <;> simp [COp.prog, notifyProg, initProg, cleanProg] at hmem

theorem notice_no_exists {n : Notice} {ins : Instr} (hc : ∀ g c, n ≠ .clean g c)
    (hmem : ins ∈ (COp.notice n).prog eval conf) :
    (∀ g, ins ≠ .rootExists g) ∧ (∀ c a, ins ≠ .clExists c a) ∧ (∀ x, ins ≠ .nsExists x) ∧ ins ≠ .nsValues
      ∧ (∀ c x a, ins ≠ .eachLeaf c x a) := by
  cases n with
  | clean g c => exact absurd rfl (hc g c)
  | added | modified | deleted =>
    refine ⟨?_, ?_, ?_, ?_, ?_⟩ <;> intros <;> rintro rfl <;> simp [COp.prog, notifyProg, initProg] at hmem

theorem get_mem {g : GVR} {c ns name : Str} {ins : Instr} (hmem : ins ∈ (COp.get g c ns name).prog eval conf) :
    (∀ g', ins = .rootExists g' → g' = g) ∧ (∀ c' a, ins = .clExists c' a → c' = c ∧ a = .got none)
      ∧ (∀ x, ins = .nsExists x → x = ns) ∧ (∀ x, ins = .leafGet x → x = name) ∧ ins ≠ .nsValues
      ∧ (∀ c x a, ins ≠ .eachLeaf c x a) ∧ ins.mode ≠ .write ∧ ins.mode ≠ .loc := by
  refine ⟨?_, ?_, ?_, ?_, ?_, ?_, ?_⟩
  · rintro g' rfl; simpa [COp.prog, getProg] using hmem
  · rintro c' a rfl; simpa [COp.prog, getProg] using hmem
  · rintro x rfl; simpa [COp.prog, getProg] using hmem
  · rintro x rfl; simpa [COp.prog, getProg] using hmem
  · rintro rfl; simp [COp.prog, getProg] at hmem
  · rintro c x a rfl; simp [COp.prog, getProg] at hmem
  · simp only [COp.prog, getProg, List.mem_cons, List.not_mem_nil, or_false] at hmem
    rcases hmem with rfl | rfl | rfl | rfl | rfl | rfl | rfl | rfl | rfl | rfl <;> simp [Instr.mode]

theorem get_pending {g : GVR} {c ns name : Str} {p : List Instr} (hs : p <:+ (COp.get g c ns name).prog eval conf)
    (hne : p ≠ []) : 0 < p.countP Instr.lin := by
  rw [List.countP_pos_iff]
  obtain ⟨q, hq⟩ := hs
  refine ⟨.leafGet name, ?_, rfl⟩
  have h1 : (q ++ p).getLast (by simp [hne]) = p.getLast hne := List.getLast_append_of_ne_nil _ hne
  have h2 : (q ++ p).getLast? = some (.leafGet name) := by rw [hq]; rfl
  rw [List.getLast?_eq_some_getLast (by simp [hne]), h1, Option.some.injEq] at h2
  rw [← h2]
  exact List.getLast_mem hne

theorem COp.kinds (op : COp) : (∃ n, op = .notice n) ∨ (∃ g c x name, op = .get g c x name) ∨ ∃ g q, op = .query g q := by
  cases op <;> simp

/-- What the threads of the calls keep. -/
structure Aux (conf : List (GVR × List (Str × Str))) (t : Thr) : Prop where
  valid : t.op.Valid conf
  ro : ∀ g q, t.op = .query g q → ∀ ins ∈ t.prog, ins.mode ≠ .write ∧ ins ≠ .nsValues
  ans : ∀ n, t.op = .notice n → (∀ g c, n ≠ .clean g c) → t.ans = .ok

theorem Point.of_notice {n : Notice} (h : ∀ g c, n ≠ .clean g c) : Point (.notice n) := by
  cases n with
  | clean g c => exact absurd rfl (h g c)
  | _ => trivial

theorem Aux.init {op : COp} (hv : op.Valid conf) :
    Aux conf { op := op, prog := op.prog eval conf, ans := op.ans0 } := by
  refine ⟨hv, ?_, ?_⟩
  · rintro g q h ins hi
    simp only at h; subst h
    simp only [COp.prog, queryProg, List.mem_cons, List.not_mem_nil, or_false] at hi
    rcases hi with rfl | rfl | rfl <;> exact ⟨by simp [Instr.mode], by simp⟩
  · rintro n h hc
    simp only at h; subst h
    cases n with
    | clean g c => exact absurd rfl (hc g c)
    | _ => rfl

theorem Aux.step {σ σ' : CState} {i : Nat} (ha : ∀ (j : Nat) (t : Thr), σ.thrs[j]? = some t → Aux conf t)
    (hsuf : ∀ (j : Nat) (t : Thr), σ.thrs[j]? = some t → Point t.op → t.prog <:+ t.op.prog eval conf)
    (hs : TStep isPrint alg pf i σ σ') : ∀ (j : Nat) (t : Thr), σ'.thrs[j]? = some t → Aux conf t := by
  have key : ∀ {t t' : Thr}, σ.thrs[i]? = some t → Aux conf t' →
      ∀ (j : Nat) (u : Thr), (σ.thrs.set i t')[j]? = some u → Aux conf u := by
    intro t t' _ h j u hj
    rcases getElem?_set_some hj with ⟨rfl, rfl⟩ | ⟨_, hj⟩
    · exact h
    · exact ha j u hj
  have tail : ∀ {t : Thr} {ins : Instr} {rest : List Instr}, σ.thrs[i]? = some t → t.prog = ins :: rest →
      ∀ g q, t.op = .query g q → ∀ x ∈ rest, x.mode ≠ .write ∧ x ≠ .nsValues := by
    intro t ins rest ht hp g q hq x hx
    exact (ha i t ht).ro g q hq x (by rw [hp]; exact List.mem_cons_of_mem _ hx)
  cases hs with
  | ret t ht hp hr => exact key ht ⟨(ha i t ht).valid, (ha i t ht).ro, (ha i t ht).ans⟩
  | crash t ins rest ht hp hm hn => exact ha
  | announce t ins rest n ht hp hm hn hph hw => exact key ht ⟨(ha i t ht).valid, (ha i t ht).ro, (ha i t ht).ans⟩
  | acquire t ins rest n ht hp hm hn hph hr => exact key ht ⟨(ha i t ht).valid, (ha i t ht).ro, (ha i t ht).ans⟩
  | write t ins rest n ht hp hm hn hph => exact key ht ⟨(ha i t ht).valid, tail (t := t) ht hp, (ha i t ht).ans⟩
  | rlock t ins rest n ht hp hm hn hph hw => exact key ht ⟨(ha i t ht).valid, (ha i t ht).ro, (ha i t ht).ans⟩
  | unlock t rest n ht hp => exact key ht ⟨(ha i t ht).valid, tail (t := t) ht hp, (ha i t ht).ans⟩
  | gauge t rest k ht hp => exact key ht ⟨(ha i t ht).valid, tail (t := t) ht hp, (ha i t ht).ans⟩
  | finish t rest q ht hp =>
    refine key ht ⟨(ha i t ht).valid, tail (t := t) ht hp, ?_⟩
    intro n hn hc
    have := (hsuf i t ht (by rw [show t.op = .notice n from hn]; exact Point.of_notice hc)).mem (a := .finish q)
      (by rw [hp]; simp)
    rw [show t.op = .notice n from hn] at this
    cases n <;> simp [COp.prog, notifyProg, initProg, cleanProg] at this
  | read t ins rest n t' ht hp hm hn hph hb =>
    have hop := (Read.op hb).1
    refine key ht ⟨by rw [hop]; exact (ha i t ht).valid, ?_, ?_⟩
    · intro g q hq
      rw [hop] at hq
      have h0 := tail ht hp g q hq
      have h1 := (ha i t ht).ro g q hq ins (by rw [hp]; simp)
      cases hb <;> first | exact h0 | (split <;> first | exact h0 | (intro x hx; simp at hx)) | exact absurd rfl h1.2
    · intro m hm' hc
      rw [hop] at hm'
      have h0 := (ha i t ht).ans m hm' hc
      have h1 : ins ∈ (COp.notice m).prog eval conf := by
        have := hsuf i t ht (by rw [show t.op = .notice m from hm']; exact Point.of_notice hc)
        rw [show t.op = .notice m from hm'] at this
        exact this.mem (by rw [hp]; simp)
      obtain ⟨n1, n2, n3, n4, n5⟩ := notice_no_exists hc h1
      cases hb with
      | rootExists => exact absurd rfl (n1 _)
      | clExists => exact absurd rfl (n2 _ _)
      | nsExists => exact absurd rfl (n3 _)
      | leafGet => exact absurd (notice_no_read_lin h1 rfl) (by simp [Instr.mode])
      | _ => exact h0
  | hold t ins rest n t' ht hp hm hn hph hb =>
    have hop := (Hold.op hb).1
    refine key ht ⟨by rw [hop]; exact (ha i t ht).valid, ?_, ?_⟩
    · intro g q hq
      rw [hop] at hq
      have h0 := tail ht hp g q hq
      cases hb <;>
        (intro x hx
         simp only [List.mem_append, List.mem_cons, List.mem_map] at hx
         rcases hx with ⟨e, _, rfl⟩ | rfl | hx
         · exact ⟨by simp [Instr.mode], by simp⟩
         · exact ⟨by simp [Instr.mode], by simp⟩
         · exact h0 x hx)
    · intro m hm' hc
      rw [hop] at hm'
      have h0 := (ha i t ht).ans m hm' hc
      cases hb <;> exact h0

/-- A call about one object takes effect at one step; other steps change nothing a caller can see. -/
theorem LinInv.step {s₀ s : Store} {σ σ' : CState} {L : List (Nat × COp × Ans)} {i : Nat} (hg : Good eval conf σ)
    (ha : ∀ (j : Nat) (t : Thr), σ.thrs[j]? = some t → Aux conf t) (hl : LinInv eval conf s₀ σ L s)
    (hs : TStep isPrint alg pf i σ σ') : ∃ L' s', LinInv eval conf s₀ σ' L' s' := by
  -- steps that do not finish an instruction
  have phase : ∀ {t : Thr} {ph : Phase}, σ.thrs[i]? = some t → σ'.thrs = σ.thrs.set i { t with phase := ph } →
      σ'.heap = σ.heap → σ'.trace = σ.trace → ∃ L' s', LinInv eval conf s₀ σ' L' s' := by
    intro t ph ht e1 e2 e3
    exact ⟨L, s, hl.silent ht e1 (fun id => by rw [e2]) e3 rfl (fun _ => Iff.rfl) (fun _ _ => rfl)
      (fun _ => List.suffix_refl _) (fun h1 h2 => ⟨h1, h2, rfl⟩)⟩
  -- steps that finish an instruction without effect
  have quiet : ∀ {t t' : Thr} {ins : Instr} {rest : List Instr}, σ.thrs[i]? = some t → t.prog = ins :: rest →
      σ'.thrs = σ.thrs.set i t' → (∀ id, σ'.heap.abs id = σ.heap.abs id) → σ'.trace = σ.trace → t'.op = t.op →
      (Point t.op → t'.prog = rest ∧ t'.ans = t.ans ∧ ins.lin = false) →
      ∃ L' s', LinInv eval conf s₀ σ' L' s' := by
    intro t t' ins rest ht hp e1 e2 e3 e4 h
    refine ⟨L, s, hl.silent ht e1 e2 e3 e4 ?_ (fun hpt _ => (h hpt).2.1) ?_ ?_⟩
    · intro hpt
      obtain ⟨h1, _, h2⟩ := h hpt
      unfold Thr.pending
      rw [h1, hp, List.countP_cons, h2]; simp
    · intro hpt
      rw [(h hpt).1, hp]; exact List.suffix_cons _ _
    · intro _ h2; rw [hp] at h2; simp at h2
  -- what is known about the program of a call about one object
  have memOf : ∀ {t : Thr} {ins : Instr} {rest : List Instr}, σ.thrs[i]? = some t → t.prog = ins :: rest →
      Point t.op → ins ∈ t.op.prog eval conf := by
    intro t ins rest ht hp hpt
    exact (hl.suffix i t ht hpt).mem (by rw [hp]; simp)
  cases hs with
  | ret t ht hp hr => exact ⟨L, s, hl.ret_ ht hp⟩
  | crash t ins rest ht hp hm hn =>
    have := hg.thr i t ht
    rw [hp] at this
    obtain ⟨m, hm'⟩ := this.target hm
    rw [hm'] at hn; simp at hn
  | announce t ins rest n ht hp hm hn hph hw => exact phase ht rfl rfl rfl
  | acquire t ins rest n ht hp hm hn hph hr => exact phase ht rfl rfl rfl
  | rlock t ins rest n ht hp hm hn hph hw => exact phase ht rfl rfl rfl
  | unlock t rest n ht hp =>
    refine quiet (t' := { t with prog := rest }) ht hp rfl (fun _ => rfl) rfl rfl (fun _ => ⟨rfl, rfl, rfl⟩)
  | gauge t rest k ht hp =>
    refine quiet (t' := { t with prog := rest }) ht hp rfl (fun _ => rfl) rfl rfl (fun _ => ⟨rfl, rfl, rfl⟩)
  | finish t rest q ht hp =>
    refine quiet (t' := { t with prog := rest, ans := .result (queryList isPrint alg pf t.seen q) }) ht hp rfl
      (fun _ => rfl) rfl rfl (fun hpt => ?_)
    have := memOf ht hp hpt
    revert this
    cases hop : t.op with
    | notice n => cases n <;> intro this <;> simp [COp.prog, notifyProg, initProg, cleanProg] at this
    | get => intro this; simp [COp.prog, getProg] at this
    | query => rw [hop] at hpt; exact hpt.elim
  | hold t ins rest n t' ht hp hm hn hph hb =>
    refine quiet (t' := t') ht hp rfl (fun _ => rfl) rfl (Hold.op hb).1 (fun hpt => ?_)
    have := memOf ht hp hpt
    revert this
    cases hop : t.op with
    | notice n => cases hb <;> cases n <;> intro this <;> simp [COp.prog, notifyProg, initProg, cleanProg] at this
    | get => cases hb <;> intro this <;> simp [COp.prog, getProg] at this
    | query => rw [hop] at hpt; exact hpt.elim
  | write t ins rest n ht hp hm hn hph =>
    have hto := hg.thr i t ht
    rw [hp] at hto
    obtain ⟨hok', hgrow, _, heff⟩ := hto.write hg.ok hm hn
    by_cases hlin : ins.lin = true
    · -- the point of a notification
      obtain ⟨a, rfl, hpath⟩ := lin_head hto hlin hn
      rcases t.op.kinds with ⟨nt, hop⟩ | ⟨g, c, x, name, hop⟩ | ⟨g, q, hop⟩
      · have hnc : ∀ g c, nt ≠ .clean g c := fun g c h => hl.noClean i t ht g c (by rw [hop, h])
        have hpt : Point t.op := by rw [hop]; exact Point.of_notice hnc
        have hmem := memOf ht hp hpt
        rw [hop] at hmem hpath
        have hv := (ha i t ht).valid
        rw [hop] at hv
        obtain ⟨s', h1, h2⟩ := same_step hl.same hg.ok hnc hv hm hlin hmem hpath
        refine ⟨_, s', hl.point ht (t' := { t with phase := .ready, prog := rest }) rfl rfl rfl hpt ?_ ?_ ?_ ?_ h2⟩
        · unfold Thr.pending; rw [hp, List.countP_cons, hlin]; simp
        · have := hl.suffix i t ht hpt
          rw [hp] at this
          unfold Thr.pending
          show ¬ 0 < rest.countP Instr.lin
          rw [suffix_lin hpt this hlin]; simp
        · rw [hp]; exact List.suffix_cons _ _
        · show SeqStep eval s t.op t.ans s'
          rw [(ha i t ht).ans nt hop hnc, hop]
          exact .notice hnc h1
      · have hmem := memOf ht hp (by rw [hop]; trivial)
        rw [hop] at hmem
        exact absurd hm (get_mem hmem).2.2.2.2.2.2.1
      · exact absurd hm ((ha i t ht).ro g q hop ins (by rw [hp]; simp)).1
    · refine quiet (t' := { t with phase := .ready, prog := rest }) ht hp rfl ?_ rfl rfl
        (fun _ => ⟨rfl, rfl, by simpa using hlin⟩)
      show ∀ id, (ins.write n σ.heap).abs id = _
      cases ins <;> simp only [Instr.mode, reduceCtorEq] at hm <;>
        first
        | exact heff
        | exact absurd rfl hlin
        | skip
      -- `leafClean` belongs to no call
      exfalso
      rcases t.op.kinds with ⟨nt, hop⟩ | ⟨g, c, x, name, hop⟩ | ⟨g, q, hop⟩
      · have hnc : ∀ g c, nt ≠ .clean g c := fun g c h => hl.noClean i t ht g c (by rw [hop, h])
        have hmem := memOf ht hp (by rw [hop]; exact Point.of_notice hnc)
        rw [hop] at hmem
        cases nt with
        | clean g c => exact absurd rfl (hnc g c)
        | _ => simp [COp.prog, notifyProg, initProg] at hmem
      · have hmem := memOf ht hp (by rw [hop]; trivial)
        rw [hop] at hmem
        exact (get_mem hmem).2.2.2.2.2.2.1 rfl
      · exact ((ha i t ht).ro g q hop _ (by rw [hp]; exact List.mem_cons_self)).1 rfl
  | read t ins rest n t' ht hp hm hn hph hb =>
    have hto := hg.thr i t ht
    rw [hp] at hto
    have hopq : t'.op = t.op := (Read.op hb).1
    rcases t.op.kinds with ⟨nt, hop⟩ | ⟨g, c, x, name, hop⟩ | ⟨g, q, hop⟩
    · have hnc : ∀ g c, nt ≠ .clean g c := fun g c h => hl.noClean i t ht g c (by rw [hop, h])
      have hmem := memOf ht hp (by rw [hop]; exact Point.of_notice hnc)
      rw [hop] at hmem
      obtain ⟨n1, n2, n3, n4, n5⟩ := notice_no_exists hnc hmem
      refine quiet (t' := t') ht hp rfl (fun _ => rfl) rfl hopq (fun hpt => ?_)
      cases hb with
      | rootExists => exact absurd rfl (n1 _)
      | clExists => exact absurd rfl (n2 _ _)
      | nsExists => exact absurd rfl (n3 _)
      | nsValues => exact absurd rfl n4
      | eachLeaf => exact absurd rfl (n5 _ _ _)
      | leafGet => exact absurd (notice_no_read_lin hmem rfl) (by simp [Instr.mode])
      | _ => exact ⟨rfl, rfl, rfl⟩
    · have hpt : Point t.op := by rw [hop]; trivial
      have hmem := memOf ht hp hpt
      have hsuf := hl.suffix i t ht hpt
      have hpend : t.pending := get_pending (by rw [hop] at hsuf; exact hsuf) (by rw [hp]; simp)
      rw [hop] at hmem hto
      obtain ⟨g1, g2, g3, g4, g5, g6, _, _⟩ := get_mem hmem
      have hget : s.get g c x name = (σ.heap.abs ⟨g, c, x, name⟩).map SObj.obj := by
        rw [get_look, hl.same.eq]
      -- the call ends here with an answer
      have fin : t'.prog = [] ∨ t'.prog = rest ∧ ins.lin = true →
          t'.ans = .got ((σ.heap.abs ⟨g, c, x, name⟩).map SObj.obj) →
          ∃ L' s', LinInv eval conf s₀
            ((σ.setLock n { σ.locks n with readers := (σ.locks n).readers.erase i }).setThr i t') L' s' := by
        intro hprog hans
        refine ⟨_, s, hl.point ht (t' := t') rfl rfl hopq hpt hpend ?_ ?_ ?_ ?_⟩
        · rcases hprog with h | ⟨h, hlin⟩
          · unfold Thr.pending; rw [h]; simp
          · rw [hp] at hsuf
            unfold Thr.pending; rw [h, suffix_lin hpt hsuf hlin]; simp
        · rcases hprog with h | ⟨h, _⟩
          · rw [h]; exact List.nil_suffix
          · rw [h, hp]; exact List.suffix_cons _ _
        · rw [hans, hop, ← hget]; exact .get
        · exact ⟨hl.same.wf, hl.same.cfg, hl.same.types, hl.same.eq⟩
      obtain ⟨⟨k, rk, hc, hkn, hr⟩, _⟩ := hto
      simp only [COp.path] at hc hkn hr
      cases hb with
      | rootGet g' => exact quiet ht hp rfl (fun _ => rfl) rfl rfl (fun _ => ⟨rfl, rfl, rfl⟩)
      | clGet => exact quiet ht hp rfl (fun _ => rfl) rfl rfl (fun _ => ⟨rfl, rfl, rfl⟩)
      | nsGet => exact quiet ht hp rfl (fun _ => rfl) rfl rfl (fun _ => ⟨rfl, rfl, rfl⟩)
      | leafLen => exact quiet ht hp rfl (fun _ => rfl) rfl rfl (fun _ => ⟨rfl, rfl, rfl⟩)
      | nsValues => exact absurd rfl g5
      | eachLeaf => exact absurd rfl (g6 _ _ _)
      | rootExists g' =>
        cases hx : (lookup g' σ.heap.root).isSome with
        | true =>
          simp only [hx, if_true] at quiet ⊢
          exact quiet ht hp rfl (fun _ => rfl) rfl rfl (fun _ => ⟨rfl, rfl, rfl⟩)
        | false =>
          have e := g1 g' rfl
          subst e
          simp only [hx, Bool.false_eq_true, if_false] at fin ⊢
          refine fin (Or.inl (by trivial)) ?_
          have : lookup g' σ.heap.root = none := by simpa using hx
          simp [Heap.abs, Heap.pathLeaf, Heap.pathNs, this]
      | clExists a c' ab =>
        obtain ⟨rfl, rfl⟩ := g2 c' ab rfl
        simp only [Chk] at hc
        obtain ⟨_, hrk, _⟩ := hc
        obtain ⟨a', hreg, hra⟩ := hr.cl hrk
        simp only [hreg, Instr.target, Option.some.injEq, Node.cl.injEq] at hn; subst hn
        cases hx : (lookup c' (σ.heap.clAt a')).isSome with
        | true =>
          simp only [hx, if_true] at quiet ⊢
          exact quiet ht hp rfl (fun _ => rfl) rfl rfl (fun _ => ⟨rfl, rfl, rfl⟩)
        | false =>
          simp only [hx, Bool.false_eq_true, if_false] at fin ⊢
          refine fin (Or.inl (by trivial)) ?_
          have : lookup c' (σ.heap.clAt a') = none := by simpa using hx
          simp [Heap.abs, Heap.pathLeaf, Heap.pathNs_of hra, this]
      | nsExists a x' =>
        have e := g3 x' rfl
        subst e
        simp only [Chk] at hc
        obtain ⟨_, hrk, _⟩ := hc
        obtain ⟨a', hreg, hra⟩ := hr.ns hrk
        simp only [hreg, Instr.target, Option.some.injEq, Node.ns.injEq] at hn; subst hn
        cases hx : (lookup x' (σ.heap.nsAt a')).isSome with
        | true =>
          simp only [hx, if_true] at quiet ⊢
          exact quiet ht hp rfl (fun _ => rfl) rfl rfl (fun _ => ⟨rfl, rfl, rfl⟩)
        | false =>
          simp only [hx, Bool.false_eq_true, if_false] at fin ⊢
          refine fin (Or.inl (by trivial)) ?_
          have : lookup x' (σ.heap.nsAt a') = none := by simpa using hx
          simp [Heap.abs, Heap.pathLeaf_of hra, this]
      | leafGet a x' =>
        have e := g4 x' rfl
        subst e
        simp only [Chk] at hc
        obtain ⟨a', hreg, hra⟩ := hr.leaf hc.1
        simp only [hreg, Instr.target, Option.some.injEq, Node.leaf.injEq] at hn; subst hn
        refine fin (Or.inr ⟨rfl, rfl⟩) ?_
        simp [Heap.abs, hra]
    ·
      exact quiet (t' := t') ht hp rfl (fun _ => rfl) rfl hopq (fun hpt => by rw [hop] at hpt; exact hpt.elim)

/-- Executions without `Clean` have linearizations. -/
theorem LinInv.exec {past : List CState} {σ : CState} (he : Exec isPrint eval alg pf conf (NoClean conf) past σ) :
    (∃ L s, LinInv eval conf (newStore conf) σ L s) ∧ ∀ (j : Nat) (t : Thr), σ.thrs[j]? = some t → Aux conf t := by
  induction he with
  | start => exact ⟨⟨[], _, LinInv.start⟩, by simp⟩
  | call _ op hp ih =>
    obtain ⟨⟨L, s, hl⟩, ha⟩ := ih
    refine ⟨⟨L, s, hl.call_ hp⟩, ?_⟩
    intro j t hj
    have hj' : (_ ++ [{ op := op, prog := op.prog eval conf, ans := op.ans0 }])[j]? = some t := hj
    rw [List.getElem?_append] at hj'
    split at hj'
    · exact ha j t hj'
    · rw [List.getElem?_singleton] at hj'
      split at hj'
      · simp only [Option.some.injEq] at hj'; subst hj'; exact Aux.init hp.1
      · simp at hj'
  | step he i hs ih =>
    obtain ⟨⟨L, s, hl⟩, ha⟩ := ih
    exact ⟨hl.step (Good.exec (fun op h => h.1) he) ha hs, Aux.step ha hl.suffix hs⟩

theorem LinInv.linearization {s₀ s : Store} {σ : CState} {L : List (Nat × COp × Ans)}
    (hl : LinInv eval conf s₀ σ L s) : Linearization Point eval s₀ σ.trace L := by
  refine ⟨hl.once, ?_, ?_, hl.order, s, hl.serial⟩
  · intro e he
    obtain ⟨h1, t, h2, h3, _⟩ := hl.inL e he
    refine ⟨?_, h1⟩
    rw [← h3]; exact hl.call e.1 t h2
  · intro i op a hcall hp hret
    obtain ⟨t, h1, h2⟩ := hl.call' i op hcall
    obtain ⟨t', h3, h4, h5, h6⟩ := hl.ret i a hret
    rw [h1] at h3; cases h3
    have := hl.done i t h1 (by rw [h2]; exact hp) (by unfold Thr.pending; rw [h5]; simp)
    rw [h2, h6] at this
    exact this

end Ckube

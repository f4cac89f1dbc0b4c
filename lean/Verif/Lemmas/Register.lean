import Verif.Spec.Register
import Verif.Lemmas.Linear
import Verif.Lemmas.Visit

/-! # Linearization points of the calls about one object -/

namespace Ckube
open Spec

variable {isPrint : Nat → Bool} {eval : Str → Obj → Str} {alg : SliceSort} {pf : Str → Option GoFloat}
  {conf : List (GVR × List (Str × Str))}

/-- The instruction at which a call may take effect on an object of namespace `ns`. -/
def Instr.linAt (ns : Str) : Instr → Prop
  | .leafSet _ _ | .leafDel _ | .leafGet _ | .nsValues => True
  | .leafClean n _ => n = ns
  | _ => False

/-- The call has not taken effect yet on the objects of namespace `ns`. -/
def Thr.pend (ns : Str) (t : Thr) : Prop := ∃ ins ∈ t.prog, ins.linAt ns

/-! ## Programs of the threads -/

/-- What the programs of the threads look like. -/
structure Shape (eval : Str → Obj → Str) (conf : List (GVR × List (Str × Str))) (t : Thr) : Prop where
  point : Point t.op → t.prog <:+ t.op.prog eval conf
  clean : ∀ g c, t.op = .notice (.clean g c) →
    (t.ans = .cleaned false ∧ t.prog <:+ cleanProg g c ∧ t.prog ≠ [])
    ∨ (t.ans = .cleaned false ∧ ∃ es : List (Str × Nat), t.prog = es.map (fun e => .leafClean e.1 e.2)
        ∧ (es.map Prod.fst).Nodup)
    ∨ t.prog = []

theorem clean_suffix {g : GVR} {c : Str} {p : List Instr} (h : p <:+ cleanProg g c) (hne : p ≠ []) :
    p = cleanProg g c ∨ p = [.clExists c (.cleaned true), .rootGet g, .clGet c, .nsValues]
      ∨ p = [.rootGet g, .clGet c, .nsValues] ∨ p = [.clGet c, .nsValues] ∨ p = [.nsValues] := by
  simp only [cleanProg, List.suffix_cons_iff, List.suffix_nil] at h
  rcases h with h | h | h | h | h | h
  · exact Or.inl h
  · exact Or.inr (Or.inl h)
  · exact Or.inr (Or.inr (Or.inl h))
  · exact Or.inr (Or.inr (Or.inr (Or.inl h)))
  · exact Or.inr (Or.inr (Or.inr (Or.inr h)))
  · exact absurd h hne

theorem Shape.of_eq {t t' : Thr} (h : Shape eval conf t) (h1 : t'.op = t.op) (h2 : t'.prog = t.prog)
    (h3 : t'.ans = t.ans) : Shape eval conf t' := by
  refine ⟨?_, ?_⟩
  · rw [h1, h2]; exact h.point
  · rw [h1, h2, h3]; exact h.clean

/-- The instructions of a running clean. -/
theorem Shape.clean_ins {t : Thr} (h : Shape eval conf t) {g : GVR} {c : Str} (hop : t.op = .notice (.clean g c))
    {ins : Instr} {rest : List Instr} (hp : t.prog = ins :: rest) :
    t.ans = .cleaned false ∧ ((∃ n a, ins = .leafClean n a ∧ ∃ es : List (Str × Nat),
        rest = es.map (fun e => .leafClean e.1 e.2) ∧ (es.map Prod.fst).Nodup ∧ n ∉ es.map Prod.fst)
      ∨ (ins = .nsValues ∧ rest = [])
      ∨ ((ins = .rootGet g ∨ ins = .clGet c ∨ ins = .clExists c (.cleaned true))
          ∧ rest <:+ cleanProg g c ∧ rest ≠ [])) := by
  rcases h.clean g c hop with ⟨h1, h2, h3⟩ | ⟨h1, es, h2, h3⟩ | h1
  · refine ⟨h1, Or.inr ?_⟩
    have hs : rest <:+ cleanProg g c := by
      rw [hp] at h2; exact (List.suffix_cons _ _).trans h2
    rcases clean_suffix h2 h3 with h | h | h | h | h <;> rw [hp] at h <;>
      simp only [cleanProg, List.cons.injEq] at h <;> obtain ⟨rfl, rfl⟩ := h
    · exact Or.inr ⟨Or.inl rfl, hs, by simp⟩
    · exact Or.inr ⟨Or.inr (Or.inr rfl), hs, by simp⟩
    · exact Or.inr ⟨Or.inl rfl, hs, by simp⟩
    · exact Or.inr ⟨Or.inr (Or.inl rfl), hs, by simp⟩
    · exact Or.inl ⟨rfl, rfl⟩
  · refine ⟨h1, Or.inl ?_⟩
    cases es with
    | nil => rw [hp] at h2; simp at h2
    | cons e es =>
      rw [hp, List.map_cons, List.cons.injEq] at h2
      rw [List.map_cons, List.nodup_cons] at h3
      exact ⟨e.1, e.2, h2.1, es, h2.2, h3.2, h3.1⟩
  · rw [hp] at h1; simp at h1

theorem Shape.init {op : COp} : Shape eval conf { op := op, prog := op.prog eval conf, ans := op.ans0 } := by
  refine ⟨fun _ => List.suffix_refl _, ?_⟩
  rintro g c h
  simp only at h; subst h
  exact Or.inl ⟨rfl, List.suffix_refl _, by simp [COp.prog, cleanProg]⟩

theorem point_no_list {op : COp} (hp : Point op) {ins : Instr} (hm : ins ∈ op.prog eval conf) :
    ins ≠ .nsValues ∧ (∀ f, ins ≠ .eachCl f) ∧ (∀ f c a, ins ≠ .eachNs f c a) ∧ (∀ n a, ins ≠ .leafClean n a) := by
  cases op with
  | notice n =>
    cases n with
    | clean => exact hp.elim
    | added | modified | deleted =>
      refine ⟨?_, ?_, ?_, ?_⟩ <;> intros <;> rintro rfl <;> simp [COp.prog, notifyProg, initProg] at hm
  | get => refine ⟨?_, ?_, ?_, ?_⟩ <;> intros <;> rintro rfl <;> simp [COp.prog, getProg] at hm
  | query => exact hp.elim

theorem Shape.step {σ σ' : CState} {i : Nat} (hg : Good eval conf σ)
    (ha : ∀ (j : Nat) (t : Thr), σ.thrs[j]? = some t → Shape eval conf t)
    (hs : TStep isPrint alg pf i σ σ') : ∀ (j : Nat) (t : Thr), σ'.thrs[j]? = some t → Shape eval conf t := by
  have key : ∀ {t t' : Thr}, σ.thrs[i]? = some t → Shape eval conf t' →
      ∀ (j : Nat) (u : Thr), (σ.thrs.set i t')[j]? = some u → Shape eval conf u := by
    intro t t' _ h j u hj
    rcases getElem?_set_some hj with ⟨rfl, rfl⟩ | ⟨_, hj⟩
    · exact h
    · exact ha j u hj
  have tail : ∀ {t : Thr} {ins : Instr} {rest : List Instr}, σ.thrs[i]? = some t → t.prog = ins :: rest →
      Point t.op → rest <:+ t.op.prog eval conf := by
    intro t ins rest ht hp hpt
    have := (ha i t ht).point hpt
    rw [hp] at this
    exact (List.suffix_cons _ _).trans this
  have mem : ∀ {t : Thr} {ins : Instr} {rest : List Instr}, σ.thrs[i]? = some t → t.prog = ins :: rest →
      Point t.op → ins ∈ t.op.prog eval conf := by
    intro t ins rest ht hp hpt
    exact ((ha i t ht).point hpt).mem (by rw [hp]; simp)
  cases hs with
  | ret t ht hp hr => exact key ht ((ha i t ht).of_eq rfl rfl rfl)
  | crash t ins rest ht hp hm hn => exact ha
  | announce t ins rest n ht hp hm hn hph hw => exact key ht ((ha i t ht).of_eq rfl rfl rfl)
  | acquire t ins rest n ht hp hm hn hph hr => exact key ht ((ha i t ht).of_eq rfl rfl rfl)
  | rlock t ins rest n ht hp hm hn hph hw => exact key ht ((ha i t ht).of_eq rfl rfl rfl)
  | write t ins rest n ht hp hm hn hph =>
    refine key ht ⟨tail (t := t) ht hp, ?_⟩
    intro g c hop
    obtain ⟨h1, ⟨n, a, rfl, es, h2, h3, _⟩ | ⟨rfl, _⟩ | ⟨rfl | rfl | rfl, _⟩⟩ := (ha i t ht).clean_ins hop hp
    · exact Or.inr (Or.inl ⟨h1, es, h2, h3⟩)
    all_goals simp [Instr.mode] at hm
  | unlock t rest n ht hp =>
    refine key ht ⟨tail (t := t) ht hp, ?_⟩
    intro g c hop
    obtain ⟨h1, ⟨n, a, h, _⟩ | ⟨h, _⟩ | ⟨h | h | h, _⟩⟩ := (ha i t ht).clean_ins hop hp <;> simp at h
  | gauge t rest k ht hp =>
    refine key ht ⟨tail (t := t) ht hp, ?_⟩
    intro g c hop
    obtain ⟨h1, ⟨n, a, h, _⟩ | ⟨h, _⟩ | ⟨h | h | h, _⟩⟩ := (ha i t ht).clean_ins hop hp <;> simp at h
  | finish t rest q ht hp =>
    refine key ht ⟨tail (t := t) ht hp, ?_⟩
    intro g c hop
    obtain ⟨h1, ⟨n, a, h, _⟩ | ⟨h, _⟩ | ⟨h | h | h, _⟩⟩ := (ha i t ht).clean_ins hop hp <;> simp at h
  | hold t ins rest n t' ht hp hm hn hph hb =>
    have hop := (Hold.op hb).1
    refine key ht ⟨?_, ?_⟩
    · rw [hop]
      intro hpt
      obtain ⟨_, n2, n3, _⟩ := point_no_list (eval := eval) (conf := conf) hpt (mem (t := t) ht hp hpt)
      cases hb with
      | eachCl => exact absurd rfl (n2 _)
      | eachNs => exact absurd rfl (n3 _ _ _)
    · rw [hop]
      intro g c hop
      obtain ⟨h1, ⟨n, a, h, _⟩ | ⟨h, _⟩ | ⟨h | h | h, _⟩⟩ := (ha i t ht).clean_ins hop hp <;> subst h <;> cases hb
  | read t ins rest n t' ht hp hm hn hph hb =>
    have hop := (Read.op hb).1
    refine key ht ⟨?_, ?_⟩
    · rw [hop]
      intro hpt
      have h0 := tail (t := t) ht hp hpt
      obtain ⟨n1, _⟩ := point_no_list (eval := eval) (conf := conf) hpt (mem (t := t) ht hp hpt)
      cases hb <;> first | exact h0 | (split <;> first | exact h0 | exact List.nil_suffix) | exact absurd rfl n1
    · rw [hop]
      intro g c hop
      have hns : ∀ a, IsMap (σ.heap.nsAt a) := hg.ok.nsM
      obtain ⟨h1, ⟨n, a, h, _⟩ | ⟨h, h2⟩ | ⟨h | h | h, h2⟩⟩ := (ha i t ht).clean_ins hop hp <;> subst h <;> cases hb
      · rename_i a es hperm
        subst h2
        refine Or.inr (Or.inl ⟨h1, es, by simp, ?_⟩)
        exact (hperm.map Prod.fst).nodup_iff.mpr (hns a)
      · exact Or.inl ⟨h1, h2⟩
      · exact Or.inl ⟨h1, h2⟩
      · split
        · exact Or.inl ⟨h1, h2⟩
        · exact Or.inr (Or.inr rfl)

theorem Shape.exec {P : COp → Prop} (hP : ∀ op, P op → op.Valid conf) {past : List CState} {σ : CState}
    (he : Exec isPrint eval alg pf conf P past σ) :
    (∀ (j : Nat) (t : Thr), σ.thrs[j]? = some t → Shape eval conf t)
    ∧ ∀ (j : Nat) (t : Thr), σ.thrs[j]? = some t → Aux conf t := by
  induction he with
  | start => exact ⟨by simp, by simp⟩
  | call _ op hp ih =>
    refine ⟨?_, ?_⟩ <;> intro j t hj <;> rcases thrs_call hj with h | ⟨rfl, rfl⟩
    · exact ih.1 j t h
    · exact Shape.init
    · exact ih.2 j t h
    · exact Aux.init (hP _ hp)
  | step he i hs ih =>
    exact ⟨Shape.step (Good.exec hP he) ih.1 hs, Aux.step ih.2 (fun j t ht => (ih.1 j t ht).point) hs⟩

/-! ## Effects on one object -/

theorem upd_abs_same {h : Heap} (hk : h.OK) {g : GVR} {c n name : Str} {a : Nat} {f : Leaf → Leaf}
    (hp : h.pathLeaf g c n = some a) :
    (h.leafUpd a f).abs ⟨g, c, n, name⟩ = lookup name (f (h.leafAt a)) := by
  rw [Heap.leafUpd_abs (hk.pathLeaf_lt hp), if_pos hp]

theorem upd_abs_other {h : Heap} (hk : h.OK) {g : GVR} {c n name : Str} {a : Nat} {f : Leaf → Leaf}
    (hp : h.pathLeaf g c n = some a) (hf : ∀ k l, IsMap l → k ≠ name → lookup k (f l) = lookup k l) {id : Ident}
    (hid : id ≠ ⟨g, c, n, name⟩) : (h.leafUpd a f).abs id = h.abs id := by
  rw [Heap.leafUpd_abs (hk.pathLeaf_lt hp)]
  split
  · rename_i hp'
    obtain ⟨e1, e2, e3⟩ := Heap.pathLeaf_inj hk hp hp'
    rw [hf _ _ (hk.leafM a)]
    · unfold Heap.abs; rw [hp']; rfl
    · intro e; apply hid; cases id; simp_all
  · rfl

/-- The identity of a notification, and what its instruction stores. -/
theorem notice_lin {n : Notice} (hn : ∀ g c, n ≠ .clean g c) :
    ∃ name, (∀ id, Concerns eval (confAt conf) id (.notice n) ↔
        id = ⟨((COp.notice n).path eval conf).1, ((COp.notice n).path eval conf).2.1, ((COp.notice n).path eval conf).2.2, name⟩)
      ∧ ∀ ins ∈ (COp.notice n).prog eval conf, ins.lin = true →
        (∃ so o, ins = .leafSet name so
          ∧ ∀ id, Concerns eval (confAt conf) id (.notice n) → Writes eval (confAt conf) n id o
              ∧ so = (build eval (confAt conf id.gvr) id.cluster o).2.2)
        ∨ (ins = .leafDel name ∧ ∃ g c o, n = .deleted g c o
            ∧ ∀ id, Concerns eval (confAt conf) id (.notice n) → identOf eval (confAt conf) g c o = id) := by
  have hident : ∀ g c o, identOf eval (confAt conf) g c o = ⟨g, c, (build eval ((lookup g conf).getD []) c o).1,
      (build eval ((lookup g conf).getD []) c o).2.1⟩ := by
    intro g c o
    have := build_key eval ((lookup g conf).getD []) c o
    unfold identOf confAt
    rw [← this]
  cases n with
  | clean g c => exact absurd rfl (hn g c)
  | added g c o =>
    refine ⟨(build eval ((lookup g conf).getD []) c o).2.1, ?_, ?_⟩
    · intro id
      simp only [Concerns, Writes, Removes, or_false, exists_eq_left', COp.path, hident]
      exact eq_comm
    · intro ins hm hl
      refine Or.inl ⟨(build eval ((lookup g conf).getD []) c o).2.2, o, ?_, ?_⟩
      · simp only [COp.prog, notifyProg, initProg, List.mem_append, List.mem_cons, List.not_mem_nil, or_false] at hm
        rcases hm with h | h
        · rcases h with rfl | rfl | rfl | rfl | rfl <;> simp [Instr.lin] at hl
        · rcases h with rfl | rfl | rfl | rfl | rfl | rfl | rfl | rfl | rfl <;> first | rfl | simp [Instr.lin] at hl
      · intro id hc
        have hid : identOf eval (confAt conf) g c o = id := by
          simpa only [Concerns, Writes, Removes, or_false, exists_eq_left', true_and] using hc
        refine ⟨⟨rfl, hid⟩, ?_⟩
        subst hid
        rfl
  | modified g c o =>
    refine ⟨(build eval ((lookup g conf).getD []) c o).2.1, ?_, ?_⟩
    · intro id
      simp only [Concerns, Writes, Removes, or_false, exists_eq_left', COp.path, hident]
      exact eq_comm
    · intro ins hm hl
      refine Or.inl ⟨(build eval ((lookup g conf).getD []) c o).2.2, o, ?_, ?_⟩
      · simp only [COp.prog, notifyProg, initProg, List.mem_append, List.mem_cons, List.not_mem_nil, or_false] at hm
        rcases hm with h | h
        · rcases h with rfl | rfl | rfl | rfl | rfl <;> simp [Instr.lin] at hl
        · rcases h with rfl | rfl | rfl | rfl | rfl | rfl | rfl | rfl | rfl <;> first | rfl | simp [Instr.lin] at hl
      · intro id hc
        have hid : identOf eval (confAt conf) g c o = id := by
          simpa only [Concerns, Writes, Removes, or_false, exists_eq_left', true_and] using hc
        refine ⟨⟨rfl, hid⟩, ?_⟩
        subst hid
        rfl
  | deleted g c o =>
    refine ⟨(build eval ((lookup g conf).getD []) c o).2.1, ?_, ?_⟩
    · intro id
      simp only [Concerns, Writes, Removes, exists_false, false_or, COp.path, hident]
      exact eq_comm
    · intro ins hm hl
      refine Or.inr ⟨?_, g, c, o, rfl, ?_⟩
      · simp only [COp.prog, notifyProg, initProg, List.mem_append, List.mem_cons, List.not_mem_nil, or_false] at hm
        rcases hm with h | h
        · rcases h with rfl | rfl | rfl | rfl | rfl <;> simp [Instr.lin] at hl
        · rcases h with rfl | rfl | rfl | rfl | rfl | rfl | rfl | rfl | rfl <;> first | rfl | simp [Instr.lin] at hl
      · intro id hc
        simpa only [Concerns, Writes, Removes, exists_false, false_or] using hc

theorem linAt_iff {op : COp} (hp : Point op) {ins : Instr} (hm : ins ∈ op.prog eval conf) (ns : Str) :
    ins.linAt ns ↔ ins.lin = true := by
  obtain ⟨n1, _, _, n4⟩ := point_no_list hp hm
  cases ins <;> first | exact absurd rfl n1 | exact absurd rfl (n4 _ _) | simp [Instr.linAt, Instr.lin]

/-! ## The invariant -/

/-- One call about `id`, with what is stored under `id`. -/
inductive SRegStep (eval : Str → Obj → Str) (cf : GVR → List (Str × Str)) (id : Ident) :
    Option SObj → COp → Ans → Option SObj → Prop
  | write {v : Option SObj} {n : Notice} {o : Obj} (h : Writes eval cf n id o) :
      SRegStep eval cf id v (.notice n) .ok (some (build eval (cf id.gvr) id.cluster o).2.2)
  | delete {v : Option SObj} {g : GVR} {c : Str} {o : Obj} (h : identOf eval cf g c o = id) :
      SRegStep eval cf id v (.notice (.deleted g c o)) .ok none
  | clean {v : Option SObj} {e : Bool} (he : e = true → v = none) :
      SRegStep eval cf id v (.notice (.clean id.gvr id.cluster)) (.cleaned e) none
  | get {v : Option SObj} : SRegStep eval cf id v (.get id.gvr id.cluster id.ns id.name) (.got (v.map SObj.obj)) v

/-- A sequence of calls about `id`, with what is stored under `id`. -/
inductive SRegSerial (eval : Str → Obj → Str) (cf : GVR → List (Str × Str)) (id : Ident) :
    Option SObj → List (COp × Ans) → Option SObj → Prop
  | nil {v : Option SObj} : SRegSerial eval cf id v [] v
  | cons {v v' v'' : Option SObj} {op : COp} {a : Ans} {l : List (COp × Ans)} (h1 : SRegStep eval cf id v op a v')
      (h2 : SRegSerial eval cf id v' l v'') : SRegSerial eval cf id v ((op, a) :: l) v''

theorem SRegStep.got {cf : GVR → List (Str × Str)} {id : Ident} {v v' : Option SObj} {op : COp} {x : Option Obj}
    (h : SRegStep eval cf id v op (.got x) v') : x = v.map SObj.obj := by
  cases h
  rfl

theorem SRegSerial.reg {cf : GVR → List (Str × Str)} {id : Ident} {v v' : Option SObj} {l : List (COp × Ans)}
    (h : SRegSerial eval cf id v l v') : RegSerial eval cf id (v.map SObj.obj) l (v'.map SObj.obj) := by
  induction h with
  | nil => exact .nil
  | cons h1 _ ih =>
    refine .cons ?_ ih
    cases h1 with
    | write h => exact .write h (build_same _ _ _ _)
    | delete h => exact .delete h
    | clean he => exact .clean fun h => by rw [he h]; rfl
    | get => exact .get

theorem regSerial_snoc {cf : GVR → List (Str × Str)} {id : Ident} {v v' v'' : Option SObj} {l : List (COp × Ans)}
    {op : COp} {a : Ans} (h : SRegSerial eval cf id v l v') (hs : SRegStep eval cf id v' op a v'') :
    SRegSerial eval cf id v (l ++ [(op, a)]) v'' := by
  induction h with
  | nil => exact .cons hs .nil
  | cons h1 _ ih => exact .cons h1 (ih hs)

structure RegInv (eval : Str → Obj → Str) (conf : List (GVR × List (Str × Str))) (id : Ident) (σ : CState)
    (L : List (Nat × COp × Ans)) : Prop where
  serial : SRegSerial eval (confAt conf) id none (L.map Prod.snd) (σ.heap.abs id)
  once : (L.map Prod.fst).Nodup
  inL : ∀ e ∈ L, Concerns eval (confAt conf) id e.2.1 ∧ ∃ t, σ.thrs[e.1]? = some t ∧ t.op = e.2.1 ∧ ¬ t.pend id.ns
  done : ∀ (i : Nat) (t : Thr), σ.thrs[i]? = some t → Concerns eval (confAt conf) id t.op → ¬ t.pend id.ns →
    (i, t.op, t.ans) ∈ L
  order : L.Pairwise fun e f => ¬ Before σ.trace f.1 e.1

section
variable {id : Ident} {σ σ' : CState} {L : List (Nat × COp × Ans)}

theorem RegInv.start : RegInv eval conf id { heap := newHeap conf } [] := by
  refine ⟨?_, List.nodup_nil, by simp, by simp, .nil⟩
  show SRegSerial eval (confAt conf) id none [] ((newHeap conf).abs id)
  rw [Heap.newHeap_abs]; exact .nil

theorem pend_new {op : COp} (hc : Concerns eval (confAt conf) id op) :
    ∃ ins ∈ op.prog eval conf, ins.linAt id.ns := by
  cases op with
  | notice n =>
    cases n with
    | added g c o | modified g c o =>
      exact ⟨.leafSet (build eval ((lookup g conf).getD []) c o).2.1 (build eval ((lookup g conf).getD []) c o).2.2,
        by simp [COp.prog, notifyProg], trivial⟩
    | deleted g c o =>
      exact ⟨.leafDel (build eval ((lookup g conf).getD []) c o).2.1, by simp [COp.prog, notifyProg], trivial⟩
    | clean g c => exact ⟨.nsValues, by simp [COp.prog, cleanProg], trivial⟩
  | get g c ns name => exact ⟨.leafGet name, by simp [COp.prog, getProg], trivial⟩
  | query => exact hc.elim

theorem RegInv.call_ {op : COp} (hl : RegInv eval conf id σ L) : RegInv eval conf id (σ.call eval conf op) L := by
  refine ⟨hl.serial, hl.once, ?_, ?_, ?_⟩
  · intro e he
    obtain ⟨h1, t, h2, h3⟩ := hl.inL e he
    exact ⟨h1, t, thrs_call_old h2, h3⟩
  · intro i t hi hp hnp
    rcases thrs_call hi with h | ⟨rfl, rfl⟩
    · exact hl.done i t h hp hnp
    · exact absurd (pend_new hp) hnp
  · have hlt : ∀ e ∈ L, e.1 < σ.thrs.length := by
      intro e he
      obtain ⟨_, t, h2, _⟩ := hl.inL e he
      exact (List.getElem?_eq_some_iff.mp h2).1
    refine List.Pairwise.imp_of_mem ?_ hl.order
    intro e f he hf hnb hb
    rcases before_call hb with h | h
    · exact hnb h
    · have := hlt e he; omega

/-- A step of thread `i` that changes nothing for `id`. -/
theorem RegInv.silent (hl : RegInv eval conf id σ L) {i : Nat} {t t' : Thr} (ht : σ.thrs[i]? = some t)
    (e1 : σ'.thrs = σ.thrs.set i t') (e2 : σ'.heap.abs id = σ.heap.abs id)
    (e3 : σ'.trace = σ.trace ∨ ∃ a, σ'.trace = σ.trace ++ [.ret i a])
    (hop : t'.op = t.op) (hpend : Concerns eval (confAt conf) id t.op → (t'.pend id.ns ↔ t.pend id.ns))
    (hans : Concerns eval (confAt conf) id t.op → ¬ t.pend id.ns → t'.ans = t.ans) :
    RegInv eval conf id σ' L := by
  have hg : ∀ j, σ'.thrs[j]? = if i = j then some t' else σ.thrs[j]? := by intro j; rw [e1]; exact set_get ht j
  have hcase : ∀ (j : Nat) (u : Thr), σ'.thrs[j]? = some u → (i = j ∧ u = t') ∨ (i ≠ j ∧ σ.thrs[j]? = some u) := by
    intro j u hj; rw [e1] at hj; exact getElem?_set_some hj
  refine ⟨by rw [e2]; exact hl.serial, hl.once, ?_, ?_, ?_⟩
  · intro e he
    obtain ⟨h1, u, h2, h3, h4⟩ := hl.inL e he
    refine ⟨h1, ?_⟩
    rw [hg]
    split
    · rename_i hie
      rw [← hie, ht] at h2; cases h2
      exact ⟨t', rfl, by rw [hop]; exact h3, fun h => h4 ((hpend (by rw [h3]; exact h1)).mp h)⟩
    · exact ⟨u, h2, h3, h4⟩
  · intro j u hj hp hnp
    rcases hcase j u hj with ⟨rfl, rfl⟩ | ⟨_, h⟩
    · rw [hop] at hp ⊢
      have hnt : ¬ t.pend id.ns := fun h => hnp ((hpend hp).mpr h)
      rw [hans hp hnt]
      exact hl.done i t ht hp hnt
    · exact hl.done j u h hp hnp
  · rcases e3 with e3 | ⟨a, e3⟩
    · rw [e3]; exact hl.order
    · rw [e3]; exact List.Pairwise.imp (fun hnb hb => hnb (before_ret hb)) hl.order

/-- The linearization point of thread `i`. -/
theorem RegInv.point (hl : RegInv eval conf id σ L) (htr : TrInv σ) {i : Nat} {t t' : Thr}
    (ht : σ.thrs[i]? = some t)
    (e1 : σ'.thrs = σ.thrs.set i t') (e3 : σ'.trace = σ.trace) (hop : t'.op = t.op)
    (hp : Concerns eval (confAt conf) id t.op) (hpend : t.pend id.ns) (hpend' : ¬ t'.pend id.ns)
    (hstep : SRegStep eval (confAt conf) id (σ.heap.abs id) t.op t'.ans (σ'.heap.abs id)) :
    RegInv eval conf id σ' (L ++ [(i, t.op, t'.ans)]) := by
  have hg : ∀ j, σ'.thrs[j]? = if i = j then some t' else σ.thrs[j]? := by intro j; rw [e1]; exact set_get ht j
  have hcase : ∀ (j : Nat) (u : Thr), σ'.thrs[j]? = some u → (i = j ∧ u = t') ∨ (i ≠ j ∧ σ.thrs[j]? = some u) := by
    intro j u hj; rw [e1] at hj; exact getElem?_set_some hj
  have hnot : ∀ e ∈ L, e.1 ≠ i := by
    intro e he hei
    obtain ⟨_, u, h2, _, h4⟩ := hl.inL e he
    rw [hei, ht] at h2; cases h2; exact h4 hpend
  have hne : t.prog ≠ [] := by
    intro h; obtain ⟨x, hx, _⟩ := hpend; rw [h] at hx; simp at hx
  refine ⟨?_, ?_, ?_, ?_, ?_⟩
  · rw [List.map_append]; exact regSerial_snoc hl.serial hstep
  · rw [List.map_append, List.nodup_append]
    refine ⟨hl.once, by simp, ?_⟩
    intro a ha b hb
    obtain ⟨e, he, rfl⟩ := List.mem_map.mp ha
    simp only [List.map_cons, List.map_nil, List.mem_singleton] at hb
    rw [hb]; exact hnot e he
  · intro e he
    rcases List.mem_append.mp he with he | he
    · obtain ⟨h1, u, h2, h3, h4⟩ := hl.inL e he
      refine ⟨h1, ?_⟩
      rw [hg, if_neg (fun h => hnot e he h.symm)]
      exact ⟨u, h2, h3, h4⟩
    · simp only [List.mem_singleton] at he; subst he
      exact ⟨hp, t', by rw [hg, if_pos rfl], hop, hpend'⟩
  · intro j u hj hpu hnp
    rcases hcase j u hj with ⟨rfl, rfl⟩ | ⟨_, h⟩
    · rw [hop]; simp
    · exact List.mem_append_left _ (hl.done j u h hpu hnp)
  · rw [e3, List.pairwise_append]
    refine ⟨hl.order, List.pairwise_singleton _ _, ?_⟩
    intro e _ f hf hb
    simp only [List.mem_singleton] at hf; subst hf
    obtain ⟨a, ha⟩ := before_mem hb
    obtain ⟨u, h1, h2, _⟩ := htr.ret i a ha
    rw [ht] at h1; cases h1
    exact hne (htr.ret' i t ht h2).1

/-- The order after a step of thread `i`: as before, or with the call of this thread at the end. -/
def RegNext (eval : Str → Obj → Str) (conf : List (GVR × List (Str × Str))) (id : Ident) (σ : CState) (i : Nat)
    (L : List (Nat × COp × Ans)) (σ' : CState) : Prop :=
  ∃ L', RegInv eval conf id σ' L' ∧ (L' = L ∨ ∃ t a, σ.thrs[i]? = some t ∧ t.pend id.ns ∧ L' = L ++ [(i, t.op, a)]
    ∧ SRegStep eval (confAt conf) id (σ.heap.abs id) t.op a (σ'.heap.abs id))

theorem RegInv.same {i : Nat} (h : RegInv eval conf id σ' L) : RegNext eval conf id σ i L σ' := ⟨L, h, Or.inl rfl⟩

theorem RegInv.next (hl : RegInv eval conf id σ L) (htr : TrInv σ) {i : Nat} {t t' : Thr}
    (ht : σ.thrs[i]? = some t)
    (e1 : σ'.thrs = σ.thrs.set i t') (e3 : σ'.trace = σ.trace) (hop : t'.op = t.op)
    (hp : Concerns eval (confAt conf) id t.op) (hpend : t.pend id.ns) (hpend' : ¬ t'.pend id.ns)
    (hstep : SRegStep eval (confAt conf) id (σ.heap.abs id) t.op t'.ans (σ'.heap.abs id)) :
    RegNext eval conf id σ i L σ' :=
  ⟨_, hl.point htr ht e1 e3 hop hp hpend hpend' hstep, Or.inr ⟨t, t'.ans, ht, hpend, rfl, hstep⟩⟩

theorem concerns_kinds {op : COp} (h : Concerns eval (confAt conf) id op) :
    Point op ∨ op = .notice (.clean id.gvr id.cluster) := by
  cases op with
  | notice n =>
    cases n with
    | clean g c =>
      obtain ⟨_, h⟩ | ⟨rfl, rfl⟩ := h
      · exact h.elim
      · exact Or.inr rfl
    | _ => exact Or.inl trivial
  | get => exact Or.inl trivial
  | query => exact h.elim

/-- A call takes effect on `id` at one step; other steps change nothing for `id`. -/
theorem RegInv.step {i : Nat} (hg : Good eval conf σ) (htr : TrInv σ)
    (hsh : ∀ (j : Nat) (t : Thr), σ.thrs[j]? = some t → Shape eval conf t)
    (ha : ∀ (j : Nat) (t : Thr), σ.thrs[j]? = some t → Aux conf t) (hl : RegInv eval conf id σ L)
    (hs : TStep isPrint alg pf i σ σ') : RegNext eval conf id σ i L σ' := by
  -- steps that do not finish an instruction
  have phase : ∀ {t : Thr} {ph : Phase}, σ.thrs[i]? = some t → σ'.thrs = σ.thrs.set i { t with phase := ph } →
      σ'.heap = σ.heap → σ'.trace = σ.trace → RegNext eval conf id σ i L σ' := by
    intro t ph ht e1 e2 e3
    exact RegInv.same (hl.silent ht e1 (by rw [e2]) (Or.inl e3) rfl (fun _ => Iff.rfl) (fun _ _ => rfl))
  -- steps that finish an instruction without effect
  have quiet : ∀ {t t' : Thr} {ins : Instr} {rest : List Instr}, σ.thrs[i]? = some t → t.prog = ins :: rest →
      σ'.thrs = σ.thrs.set i t' → σ'.heap.abs id = σ.heap.abs id → σ'.trace = σ.trace → t'.op = t.op →
      (Concerns eval (confAt conf) id t.op → t'.prog = rest ∧ t'.ans = t.ans ∧ ¬ ins.linAt id.ns) →
      RegNext eval conf id σ i L σ' := by
    intro t t' ins rest ht hp e1 e2 e3 e4 h
    refine RegInv.same (hl.silent ht e1 e2 (Or.inl e3) e4 ?_ (fun hpt _ => (h hpt).2.1))
    intro hpt
    obtain ⟨h1, _, h2⟩ := h hpt
    unfold Thr.pend
    rw [h1, hp]
    simp only [List.mem_cons, exists_eq_or_imp, h2, false_or]
  have memOf : ∀ {t : Thr} {ins : Instr} {rest : List Instr}, σ.thrs[i]? = some t → t.prog = ins :: rest →
      Point t.op → ins ∈ t.op.prog eval conf := by
    intro t ins rest ht hp hpt
    exact ((hsh i t ht).point hpt).mem (by rw [hp]; simp)
  -- after its point a call about one object has no other
  have after : ∀ {t : Thr} {ins : Instr} {rest : List Instr}, σ.thrs[i]? = some t → t.prog = ins :: rest →
      Point t.op → ins.lin = true → ∀ x ∈ rest, ¬ x.linAt id.ns := by
    intro t ins rest ht hp hpt hlin x hx hxl
    have hsuf := (hsh i t ht).point hpt
    rw [hp] at hsuf
    have h0 := suffix_lin hpt hsuf hlin
    rw [linAt_iff hpt (hsuf.mem (List.mem_cons_of_mem _ hx))] at hxl
    rw [List.countP_eq_zero] at h0
    exact h0 x hx hxl
  cases hs with
  | ret t ht hp hr =>
    exact RegInv.same (hl.silent ht (t' := { t with returned := true }) rfl rfl (Or.inr ⟨_, rfl⟩) rfl (fun _ => Iff.rfl)
      (fun _ _ => rfl))
  | crash t ins rest ht hp hm hn =>
    have := hg.thr i t ht
    rw [hp] at this
    obtain ⟨m, hm'⟩ := this.target hm
    rw [hm'] at hn; simp at hn
  | announce t ins rest n ht hp hm hn hph hw => exact phase ht rfl rfl rfl
  | acquire t ins rest n ht hp hm hn hph hr => exact phase ht rfl rfl rfl
  | rlock t ins rest n ht hp hm hn hph hw => exact phase ht rfl rfl rfl
  | unlock t rest n ht hp =>
    exact quiet (t' := { t with prog := rest }) ht hp rfl rfl rfl rfl (fun _ => ⟨rfl, rfl, fun h => h⟩)
  | gauge t rest k ht hp =>
    exact quiet (t' := { t with prog := rest }) ht hp rfl rfl rfl rfl (fun _ => ⟨rfl, rfl, fun h => h⟩)
  | finish t rest q ht hp =>
    refine quiet (t' := { t with prog := rest, ans := .result (queryList isPrint alg pf t.seen q) }) ht hp rfl
      rfl rfl rfl (fun hc => ?_)
    rcases concerns_kinds hc with hpt | hop
    · have := memOf (t := t) ht hp hpt
      exfalso
      revert this
      cases hop : t.op with
      | notice n => cases n <;> intro this <;> simp [COp.prog, notifyProg, initProg, cleanProg] at this
      | get => intro this; simp [COp.prog, getProg] at this
      | query => rw [hop] at hpt; exact hpt.elim
    · obtain ⟨_, ⟨n, a, h, _⟩ | ⟨h, _⟩ | ⟨h | h | h, _⟩⟩ := (hsh i t ht).clean_ins hop hp <;> simp at h
  | hold t ins rest n t' ht hp hm hn hph hb =>
    refine quiet (t' := t') ht hp rfl rfl rfl (Hold.op hb).1 (fun hc => ?_)
    exfalso
    rcases concerns_kinds hc with hpt | hop
    · obtain ⟨_, n2, n3, _⟩ := point_no_list (eval := eval) (conf := conf) hpt (memOf (t := t) ht hp hpt)
      generalize ht0 : ({ t with phase := .ready, prog := rest } : Thr) = t0 at hb
      cases hb with
      | eachCl => exact absurd rfl (n2 _)
      | eachNs => exact absurd rfl (n3 _ _ _)
    · obtain ⟨h1, ⟨n, a, h, _⟩ | ⟨h, _⟩ | ⟨h | h | h, _⟩⟩ := (hsh i t ht).clean_ins hop hp <;> subst h <;> cases hb
  | write t ins rest n ht hp hm hn hph =>
    have hto := hg.thr i t ht
    rw [hp] at hto
    rcases t.op.kinds with ⟨nt, hop⟩ | ⟨g, c, x, name, hop⟩ | ⟨g, q, hop⟩
    · rw [hop] at hto
      obtain ⟨_, _, _, heff⟩ := hto.write hg.ok hm hn
      by_cases hcl : ∃ g c, nt = .clean g c
      · obtain ⟨g, c, rfl⟩ := hcl
        obtain ⟨hans, ⟨n', a, rfl, es, hrest, hnd, hnot⟩ | ⟨rfl, _⟩ | ⟨rfl | rfl | rfl, _⟩⟩ := (hsh i t ht).clean_ins hop hp
        · obtain ⟨hpath, hw⟩ := heff
          simp only [COp.path] at hpath
          by_cases hK : (g = id.gvr ∧ c = id.cluster) ∧ n' = id.ns
          · obtain ⟨⟨rfl, rfl⟩, rfl⟩ := hK
            have hc : Concerns eval (confAt conf) id t.op := by rw [hop]; exact Or.inr ⟨rfl, rfl⟩
            refine (hl.next htr ht (t' := { t with phase := .ready, prog := rest }) rfl rfl rfl hc ?_ ?_ ?_)
            · exact ⟨.leafClean id.ns a, by rw [hp]; exact List.mem_cons_self, rfl⟩
            · rintro ⟨x, hx, hxl⟩
              have hx' : x ∈ rest := hx
              rw [hrest] at hx'
              obtain ⟨e, he, rfl⟩ := List.mem_map.mp hx'
              exact hnot (List.mem_map.mpr ⟨e, he, hxl⟩)
            · show SRegStep eval (confAt conf) id _ t.op t.ans (((Instr.leafClean id.ns a).write n σ.heap).abs id)
              rw [hw, hans, hop, show (σ.heap.leafUpd a fun _ => []).abs id = lookup id.name [] from upd_abs_same hg.ok hpath]
              exact .clean (by simp)
          · refine quiet (t' := { t with phase := .ready, prog := rest }) ht hp rfl ?_ rfl rfl ?_
            · show ((Instr.leafClean n' a).write n σ.heap).abs id = _
              rw [hw, Heap.leafUpd_abs (hg.ok.pathLeaf_lt hpath), if_neg]
              intro hp'
              obtain ⟨e1, e2, e3⟩ := Heap.pathLeaf_inj hg.ok hpath hp'
              exact hK ⟨⟨e1, e2⟩, e3⟩
            · intro hc
              refine ⟨rfl, rfl, ?_⟩
              rw [hop] at hc
              obtain ⟨_, h⟩ | hgc := hc
              · exact h.elim
              · exact fun h => hK ⟨hgc, h⟩
        all_goals simp [Instr.mode] at hm
      · have hnc : ∀ g c, nt ≠ .clean g c := fun g c h => hcl ⟨g, c, h⟩
        have hpt : Point t.op := by rw [hop]; exact Point.of_notice hnc
        have hmem := memOf (t := t) ht hp hpt
        by_cases hlin : ins.lin = true
        · have haft := after ht hp hpt hlin
          obtain ⟨name, hid, hins⟩ := notice_lin (eval := eval) (conf := conf) hnc
          have hmem' := hmem
          rw [hop] at hmem'
          have hpend : t.pend id.ns := ⟨ins, by rw [hp]; exact List.mem_cons_self, (linAt_iff hpt hmem _).mpr hlin⟩
          by_cases hc : Concerns eval (confAt conf) id t.op
          · refine (hl.next htr ht (t' := { t with phase := .ready, prog := rest }) rfl rfl rfl hc hpend ?_ ?_)
            · rintro ⟨x, hx, hxl⟩; exact haft x hx hxl
            · show SRegStep eval (confAt conf) id _ t.op t.ans ((ins.write n σ.heap).abs id)
              rw [hop] at hc
              have hidq := (hid id).mp hc
              rw [(ha i t ht).ans nt hop hnc, hop]
              rcases hins ins hmem' hlin with ⟨so, o, rfl, h2⟩ | ⟨rfl, g, c, o, rfl, h2⟩
              · obtain ⟨a, rfl, hpath, hw⟩ := heff
                have hab : ((Instr.leafSet name so).write (.leaf a) σ.heap).abs id = some so := by
                  rw [hw, hidq, upd_abs_same hg.ok hpath, lookup_insertKV, if_pos rfl]
                rw [hab]
                rw [(h2 id hc).2]
                exact .write (h2 id hc).1
              · obtain ⟨a, rfl, hpath, hw⟩ := heff
                have hab : ((Instr.leafDel name).write (.leaf a) σ.heap).abs id = none := by
                  rw [hw, hidq, upd_abs_same hg.ok hpath, lookup_eraseKV (hg.ok.leafM a), if_pos rfl]
                rw [hab]
                exact .delete (h2 id hc)
          · refine quiet (t' := { t with phase := .ready, prog := rest }) ht hp rfl ?_ rfl rfl (fun h => absurd h hc)
            show (ins.write n σ.heap).abs id = _
            rw [hop] at hc
            rw [hid] at hc
            rcases hins ins hmem' hlin with ⟨so, o, rfl, h2⟩ | ⟨rfl, g, c, o, rfl, h2⟩
            · obtain ⟨a, rfl, hpath, hw⟩ := heff
              rw [hw]
              refine upd_abs_other hg.ok hpath ?_ hc
              intro k l _ hk
              rw [lookup_insertKV, if_neg (fun h => hk h.symm)]
            · obtain ⟨a, rfl, hpath, hw⟩ := heff
              rw [hw]
              refine upd_abs_other hg.ok hpath ?_ hc
              intro k l hm hk
              rw [lookup_eraseKV hm, if_neg (fun h => hk h.symm)]
        · have hnl : ¬ ins.linAt id.ns := fun h => hlin ((linAt_iff hpt hmem _).mp h)
          refine quiet (t' := { t with phase := .ready, prog := rest }) ht hp rfl ?_ rfl rfl (fun _ => ⟨rfl, rfl, hnl⟩)
          show (ins.write n σ.heap).abs id = _
          obtain ⟨_, _, _, n4⟩ := point_no_list hpt hmem
          cases ins <;> simp only [Instr.mode, reduceCtorEq] at hm <;>
            first
            | exact heff id
            | exact absurd rfl hlin
            | exact absurd rfl (n4 _ _)
    · have hmem := memOf (t := t) ht hp (by rw [hop]; trivial)
      rw [hop] at hmem
      exact absurd hm (get_mem hmem).2.2.2.2.2.2.1
    · exact absurd hm ((ha i t ht).ro g q hop ins (by rw [hp]; simp)).1
  | read t ins rest n t' ht hp hm hn hph hb =>
    have hto := hg.thr i t ht
    rw [hp] at hto
    have hopq : t'.op = t.op := (Read.op hb).1
    by_cases hc : Concerns eval (confAt conf) id t.op
    swap
    · exact quiet (t' := t') ht hp rfl rfl rfl hopq (fun h => absurd h hc)
    rcases t.op.kinds with ⟨nt, hop⟩ | ⟨g, c, x, name, hop⟩ | ⟨g, q, hop⟩
    · by_cases hcl : ∃ g c, nt = .clean g c
      · obtain ⟨g, c, rfl⟩ := hcl
        have hgc : g = id.gvr ∧ c = id.cluster := by
          rw [hop] at hc
          obtain ⟨_, h⟩ | hgc := hc
          · exact h.elim
          · exact hgc
        obtain ⟨rfl, rfl⟩ := hgc
        rw [hop] at hto
        obtain ⟨⟨k, rk, hchk, hkn, hr⟩, _⟩ := hto
        simp only [COp.path] at hchk hkn hr
        obtain ⟨hans, ⟨n', a, rfl, _⟩ | ⟨rfl, rfl⟩ | ⟨h, hrest, hne⟩⟩ := (hsh i t ht).clean_ins hop hp
        · simp [Instr.mode] at hm
        · -- the list of the namespaces is read
          have hpend : t.pend id.ns := ⟨.nsValues, by rw [hp]; exact List.mem_cons_self, trivial⟩
          cases hb with
          | nsValues a es _ hperm =>
            simp only [Chk] at hchk
            obtain ⟨a', hreg, hra⟩ := hr.ns hchk.1
            simp only [hreg, Instr.target, Option.some.injEq, Node.ns.injEq] at hn; subst hn
            by_cases hin : ∃ b, (id.ns, b) ∈ es
            · obtain ⟨b, hb⟩ := hin
              refine RegInv.same (hl.silent ht rfl rfl (Or.inl rfl) rfl (fun _ => ⟨fun _ => hpend, fun _ => ?_⟩)
                (fun _ h => absurd hpend h))
              refine ⟨.leafClean id.ns b, ?_, rfl⟩
              exact List.mem_append_left _ (List.mem_map.mpr ⟨(id.ns, b), hb, rfl⟩)
            · refine (hl.next htr ht rfl rfl rfl hc hpend ?_ ?_)
              · rintro ⟨x, hx, hxl⟩
                have hx' : x ∈ es.map (fun e => Instr.leafClean e.1 e.2) ++ [] := hx
                rw [List.append_nil] at hx'
                obtain ⟨e, he, rfl⟩ := List.mem_map.mp hx'
                have he1 : e.1 = id.ns := hxl
                exact hin ⟨e.2, by rw [← he1]; exact he⟩
              · have hab : σ.heap.abs id = none := by
                  unfold Heap.abs
                  rw [Heap.pathLeaf_of hra, lookup_eq_none.mpr (fun v hv => hin ⟨v, hperm.mem_iff.mpr hv⟩)]
                  rfl
                show SRegStep eval (confAt conf) id _ t.op t.ans (σ.heap.abs id)
                rw [hab, hans, hop]
                exact .clean (by simp)
        · have hpend : ∀ p : List Instr, p <:+ cleanProg id.gvr id.cluster → p ≠ [] → Instr.nsValues ∈ p := by
            intro p h1 h2
            rcases clean_suffix h1 h2 with rfl | rfl | rfl | rfl | rfl <;> simp [cleanProg]
          rcases h with rfl | rfl | rfl
          · cases hb with
            | rootGet => exact quiet ht hp rfl rfl rfl rfl (fun _ => ⟨rfl, rfl, fun h => h⟩)
          · cases hb with
            | clGet => exact quiet ht hp rfl rfl rfl rfl (fun _ => ⟨rfl, rfl, fun h => h⟩)
          · cases hb with
            | clExists a =>
              simp only [Chk] at hchk
              obtain ⟨a', hreg, hra⟩ := hr.cl hchk.2.1
              simp only [hreg, Instr.target, Option.some.injEq, Node.cl.injEq] at hn; subst hn
              cases hx : (lookup id.cluster (σ.heap.clAt a')).isSome with
              | true =>
                simp only [hx, if_true] at quiet ⊢
                exact quiet ht hp rfl rfl rfl rfl (fun _ => ⟨rfl, rfl, fun h => h⟩)
              | false =>
                simp only [Bool.false_eq_true, if_false]
                have hab : σ.heap.abs id = none := by
                  have : lookup id.cluster (σ.heap.clAt a') = none := by simpa using hx
                  unfold Heap.abs Heap.pathLeaf
                  rw [Heap.pathNs_of hra, this]
                  rfl
                refine (hl.next htr ht rfl rfl rfl hc ?_ ?_ ?_)
                · exact ⟨.nsValues, by rw [hp]; exact List.mem_cons_of_mem _ (hpend rest hrest hne), trivial⟩
                · rintro ⟨x, hx, _⟩; simp at hx
                · show SRegStep eval (confAt conf) id _ t.op (.cleaned true) (σ.heap.abs id)
                  rw [hab, hop]
                  exact .clean (fun _ => rfl)
      · have hnc : ∀ g c, nt ≠ .clean g c := fun g c h => hcl ⟨g, c, h⟩
        have hpt : Point t.op := by rw [hop]; exact Point.of_notice hnc
        have hmem := memOf (t := t) ht hp hpt
        have hnl := linAt_iff hpt hmem id.ns
        rw [hop] at hmem
        obtain ⟨n1, n2, n3, n4, n5⟩ := notice_no_exists hnc hmem
        refine quiet (t' := t') ht hp rfl rfl rfl hopq (fun _ => ?_)
        cases hb with
        | rootExists => exact absurd rfl (n1 _)
        | clExists => exact absurd rfl (n2 _ _)
        | nsExists => exact absurd rfl (n3 _)
        | nsValues => exact absurd rfl n4
        | eachLeaf => exact absurd rfl (n5 _ _ _)
        | leafGet => exact absurd (notice_no_read_lin hmem rfl) (by simp [Instr.mode])
        | _ => exact ⟨rfl, rfl, fun h => h⟩
    · have hpt : Point t.op := by rw [hop]; trivial
      have hmem := memOf (t := t) ht hp hpt
      have hsuf := (hsh i t ht).point hpt
      have hidq : id = ⟨g, c, x, name⟩ := by rw [hop] at hc; exact hc
      have hpend : t.pend id.ns := by
        have h := get_pending (p := t.prog) (by rw [hop] at hsuf; exact hsuf) (by rw [hp]; simp)
        rw [List.countP_pos_iff] at h
        obtain ⟨y, hy, hyl⟩ := h
        exact ⟨y, hy, (linAt_iff hpt (hsuf.mem hy) _).mpr hyl⟩
      have haft := fun h => after (t := t) ht hp hpt h
      rw [hop] at hmem hto
      obtain ⟨g1, g2, g3, g4, g5, g6, _, _⟩ := get_mem hmem
      -- the call ends here with an answer
      have fin : t'.prog = [] ∨ t'.prog = rest ∧ ins.lin = true →
          t'.ans = .got ((σ.heap.abs ⟨g, c, x, name⟩).map SObj.obj) →
          RegNext eval conf id σ i L
            ((σ.setLock n { σ.locks n with readers := (σ.locks n).readers.erase i }).setThr i t') := by
        intro hprog hans
        refine (hl.next htr ht (t' := t') rfl rfl hopq hc hpend ?_ ?_)
        · rintro ⟨y, hy, hyl⟩
          rcases hprog with h | ⟨h, hlin⟩
          · rw [h] at hy; simp at hy
          · rw [h] at hy; exact haft hlin y hy hyl
        · show SRegStep eval (confAt conf) id _ t.op t'.ans (σ.heap.abs id)
          rw [hans, hop, hidq]
          exact .get (id := ⟨g, c, x, name⟩)
      obtain ⟨⟨k, rk, hc, hkn, hr⟩, _⟩ := hto
      simp only [COp.path] at hc hkn hr
      cases hb with
      | rootGet g' => exact quiet ht hp rfl rfl rfl rfl (fun _ => ⟨rfl, rfl, fun h => h⟩)
      | clGet => exact quiet ht hp rfl rfl rfl rfl (fun _ => ⟨rfl, rfl, fun h => h⟩)
      | nsGet => exact quiet ht hp rfl rfl rfl rfl (fun _ => ⟨rfl, rfl, fun h => h⟩)
      | leafLen => exact quiet ht hp rfl rfl rfl rfl (fun _ => ⟨rfl, rfl, fun h => h⟩)
      | nsValues => exact absurd rfl g5
      | eachLeaf => exact absurd rfl (g6 _ _ _)
      | rootExists g' =>
        cases hx : (lookup g' σ.heap.root).isSome with
        | true =>
          simp only [hx, if_true] at quiet ⊢
          exact quiet ht hp rfl rfl rfl rfl (fun _ => ⟨rfl, rfl, fun h => h⟩)
        | false =>
          have e := g1 g' rfl
          subst e
          simp only [hx, Bool.false_eq_true, if_false] at fin ⊢
          refine fin (Or.inl (by trivial)) ?_
          have : lookup g' σ.heap.root = none := by simpa using hx
          simp [Heap.abs, Heap.pathLeaf, Heap.pathNs, this]
      | clExists a c' ab =>
        obtain ⟨rfl, rfl⟩ := g2 c' ab rfl
        simp only [Chk] at hc
        obtain ⟨_, hrk, _⟩ := hc
        obtain ⟨a', hreg, hra⟩ := hr.cl hrk
        simp only [hreg, Instr.target, Option.some.injEq, Node.cl.injEq] at hn; subst hn
        cases hx : (lookup c' (σ.heap.clAt a')).isSome with
        | true =>
          simp only [hx, if_true] at quiet ⊢
          exact quiet ht hp rfl rfl rfl rfl (fun _ => ⟨rfl, rfl, fun h => h⟩)
        | false =>
          simp only [hx, Bool.false_eq_true, if_false] at fin ⊢
          refine fin (Or.inl (by trivial)) ?_
          have : lookup c' (σ.heap.clAt a') = none := by simpa using hx
          simp [Heap.abs, Heap.pathLeaf, Heap.pathNs_of hra, this]
      | nsExists a x' =>
        have e := g3 x' rfl
        subst e
        simp only [Chk] at hc
        obtain ⟨_, hrk, _⟩ := hc
        obtain ⟨a', hreg, hra⟩ := hr.ns hrk
        simp only [hreg, Instr.target, Option.some.injEq, Node.ns.injEq] at hn; subst hn
        cases hx : (lookup x' (σ.heap.nsAt a')).isSome with
        | true =>
          simp only [hx, if_true] at quiet ⊢
          exact quiet ht hp rfl rfl rfl rfl (fun _ => ⟨rfl, rfl, fun h => h⟩)
        | false =>
          simp only [hx, Bool.false_eq_true, if_false] at fin ⊢
          refine fin (Or.inl (by trivial)) ?_
          have : lookup x' (σ.heap.nsAt a') = none := by simpa using hx
          simp [Heap.abs, Heap.pathLeaf_of hra, this]
      | leafGet a x' =>
        have e := g4 x' rfl
        subst e
        simp only [Chk] at hc
        obtain ⟨a', hreg, hra⟩ := hr.leaf hc.1
        simp only [hreg, Instr.target, Option.some.injEq, Node.leaf.injEq] at hn; subst hn
        refine fin (Or.inr ⟨rfl, rfl⟩) ?_
        simp [Heap.abs, hra]
    · rw [hop] at hc; exact hc.elim

/-- Every execution has a sequential order of the calls about `id`; what a read answers was stored at a time when it was running. -/
theorem RegInv.exec' {P : COp → Prop} (hP : ∀ op, P op → op.Valid conf) {past : List CState}
    (he : Exec isPrint eval alg pf conf P past σ) (id : Ident) : ∃ L, RegInv eval conf id σ L
      ∧ ∀ e ∈ L, ∀ v, e.2.2 = .got v → ∃ τ ∈ past ++ [σ], During e.1 τ ∧ v = (τ.heap.abs id).map SObj.obj := by
  induction he with
  | start => exact ⟨[], RegInv.start, by simp⟩
  | @call past σ _ op _ ih =>
    obtain ⟨L, hl, h⟩ := ih
    refine ⟨L, hl.call_, ?_⟩
    intro e he v hv
    obtain ⟨τ, hτ, h2⟩ := h e he v hv
    exact ⟨τ, List.mem_append_left _ hτ, h2⟩
  | @step past σ σ' he i hs ih =>
    obtain ⟨L, hl, h⟩ := ih
    obtain ⟨h1, h2⟩ := Shape.exec hP he
    have htr := TrInv.exec he
    obtain ⟨L', hl', hn⟩ := hl.step (Good.exec hP he) htr h1 h2 hs
    refine ⟨L', hl', ?_⟩
    intro e hm v hv
    have old : e ∈ L → ∃ τ ∈ past ++ [σ] ++ [σ'], During e.1 τ ∧ v = (τ.heap.abs id).map SObj.obj := by
      intro hm
      obtain ⟨τ, hτ, h2⟩ := h e hm v hv
      exact ⟨τ, List.mem_append_left _ hτ, h2⟩
    rcases hn with rfl | ⟨t, a, ht, hpend, rfl, hstep⟩
    · exact old hm
    · rcases List.mem_append.mp hm with hm | hm
      · exact old hm
      · rw [List.mem_singleton] at hm
        subst hm
        simp only at hv
        subst hv
        refine ⟨σ, by simp, htr.during ht ?_, ?_⟩
        · intro h0
          obtain ⟨x, hx, _⟩ := hpend
          rw [h0] at hx; simp at hx
        · exact hstep.got

theorem RegInv.exec {P : COp → Prop} (hP : ∀ op, P op → op.Valid conf) {past : List CState}
    (he : Exec isPrint eval alg pf conf P past σ) (id : Ident) : ∃ L, RegInv eval conf id σ L := by
  obtain ⟨L, h, _⟩ := RegInv.exec' hP he id
  exact ⟨L, h⟩

theorem RegInv.linearization (hl : RegInv eval conf id σ L) (htr : TrInv σ) :
    RegLinearization eval (confAt conf) id σ.trace L := by
  refine ⟨hl.once, ?_, ?_, hl.order, _, hl.serial.reg⟩
  · intro e he
    obtain ⟨h1, t, h2, h3, _⟩ := hl.inL e he
    exact ⟨(htr.call _ _).mpr ⟨t, h2, h3⟩, h1⟩
  · intro i op a hcall hp hret
    obtain ⟨t, h1, rfl⟩ := (htr.call i op).mp hcall
    obtain ⟨t', h3, h4, rfl⟩ := htr.ret i a hret
    rw [h1] at h3; cases h3
    refine hl.done i t h1 hp ?_
    rintro ⟨x, hx, _⟩
    rw [(htr.ret' i t h1 h4).1] at hx; simp at hx

end
end Ckube

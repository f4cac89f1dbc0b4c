import Verif.Lemmas.Conc
import Verif.Spec.Linear
import Verif.Lemmas.Query

/-! # What a query visits while others change the cache -/

namespace Ckube
open Spec

variable {isPrint : Nat → Bool} {eval : Str → Obj → Str} {alg : SliceSort} {pf : Str → Option GoFloat}
  {conf : List (GVR × List (Str × Str))}

/-- The instructions of a query. -/
inductive QIns (g : GVR) (q : Query) : Instr → Prop
  | rootGet : QIns g q (.rootGet g)
  | eachCl : QIns g q (.eachCl q.ns)
  | eachNs (c : Str) (a : Nat) : QIns g q (.eachNs q.ns c a)
  | eachLeaf (c n : Str) (a : Nat) (h : q.ns = [] ∨ q.ns = n) : QIns g q (.eachLeaf c n a)
  | unlock (m : Node) : QIns g q (.unlock m)
  | finish : QIns g q (.finish q)

def Instr.leafKey : Instr → Option (Str × Str)
  | .eachLeaf c n _ => some (c, n)
  | _ => none

def Instr.nsKey : Instr → Option Str
  | .eachNs _ c _ => some c
  | _ => none

def Instr.isEachCl : Instr → Bool
  | .eachCl _ => true
  | _ => false

/-- The namespaces of which a query is going to list the objects. -/
def leafKeys (p : List Instr) : List (Str × Str) := p.filterMap Instr.leafKey

/-- The clusters of which a query is going to list the namespaces. -/
def nsKeys (p : List Instr) : List Str := p.filterMap Instr.nsKey

/-- The namespaces visited. -/
def accKeys (acc : List (Str × Str × Leaf)) : List (Str × Str) := acc.map fun b => (b.1, b.2.1)

/-- The objects of the namespace will still be visited. -/
def Covered (p : List Instr) (id : Ident) : Prop :=
  (∃ f, Instr.eachCl f ∈ p) ∨ (∃ f a, Instr.eachNs f id.cluster a ∈ p) ∨ ∃ a, Instr.eachLeaf id.cluster id.ns a ∈ p

/-- The object has been visited. -/
def Visited (acc : List (Str × Str × Leaf)) (id : Ident) (so : SObj) : Prop :=
  ∃ b ∈ acc, b.1 = id.cluster ∧ b.2.1 = id.ns ∧ (id.name, so) ∈ b.2.2

/-- Invariant of a query: `Seen id so` — the cache contained `so` at `id` at some moment since the query
began; `Stable id so` — at every moment since then. -/
structure Visit (g : GVR) (q : Query) (Seen Stable : Ident → SObj → Prop) (acc : List (Str × Str × Leaf))
    (p : List Instr) : Prop where
  ins : ∀ x ∈ p, QIns g q x
  seen : ∀ b ∈ acc, (q.ns = [] ∨ q.ns = b.2.1) ∧ ∀ e ∈ b.2.2, Seen ⟨g, b.1, b.2.1, e.1⟩ e.2
  maps : ∀ b ∈ acc, IsMap b.2.2
  cover : ∀ id so, id.gvr = g → (q.ns = [] ∨ q.ns = id.ns) → Stable id so → Visited acc id so ∨ Covered p id
  keys : (accKeys acc ++ leafKeys p).Nodup
  nsk : (nsKeys p).Nodup
  disj : ∀ c ∈ nsKeys p, ∀ k ∈ accKeys acc ++ leafKeys p, k.1 ≠ c
  one : p.countP Instr.isEachCl ≤ 1
  fresh : 0 < p.countP Instr.isEachCl → acc = [] ∧ leafKeys p = [] ∧ nsKeys p = []

section
variable {g : GVR} {q : Query} {Seen Stable Seen' Stable' : Ident → SObj → Prop} {acc : List (Str × Str × Leaf)}
  {ins : Instr} {rest : List Instr}

theorem Visit.mono (h : Visit g q Seen Stable acc rest) (h1 : ∀ id so, Seen id so → Seen' id so)
    (h2 : ∀ id so, Stable' id so → Stable id so) : Visit g q Seen' Stable' acc rest :=
  { h with
    seen := fun b hb => ⟨(h.seen b hb).1, fun e he => h1 _ _ ((h.seen b hb).2 e he)⟩
    cover := fun id so a b c => h.cover id so a b (h2 _ _ c) }

theorem Visit.pop (h : Visit g q Seen Stable acc (ins :: rest)) (h1 : ins.leafKey = none) (h2 : ins.nsKey = none)
    (h3 : ins.isEachCl = false) : Visit g q Seen Stable acc rest := by
  have e1 : leafKeys (ins :: rest) = leafKeys rest := by unfold leafKeys; rw [List.filterMap_cons_none h1]
  have e2 : nsKeys (ins :: rest) = nsKeys rest := by unfold nsKeys; rw [List.filterMap_cons_none h2]
  have e3 : (ins :: rest).countP Instr.isEachCl = rest.countP Instr.isEachCl := by
    rw [List.countP_cons, h3]; simp
  refine ⟨fun x hx => h.ins x (List.mem_cons_of_mem _ hx), h.seen, h.maps, ?_, e1 ▸ h.keys, e2 ▸ h.nsk, ?_,
    e3 ▸ h.one, ?_⟩
  · intro id so a b c
    refine (h.cover id so a b c).imp (fun h => h) ?_
    rintro (⟨f, hf⟩ | ⟨f, x, hf⟩ | ⟨x, hf⟩)
    · rcases List.mem_cons.mp hf with rfl | hf
      · simp [Instr.isEachCl] at h3
      · exact Or.inl ⟨f, hf⟩
    · rcases List.mem_cons.mp hf with rfl | hf
      · simp [Instr.nsKey] at h2
      · exact Or.inr (Or.inl ⟨f, x, hf⟩)
    · rcases List.mem_cons.mp hf with rfl | hf
      · simp [Instr.leafKey] at h1
      · exact Or.inr (Or.inr ⟨x, hf⟩)
  · have := h.disj; rw [e1, e2] at this; exact this
  · have := h.fresh; rw [e1, e2, e3] at this; exact this

/-- Visiting the objects of a namespace. -/
theorem Visit.leaf {c n : Str} {a : Nat} (h : Visit g q Seen Stable acc (.eachLeaf c n a :: rest)) {es : Leaf}
    (hm : IsMap es) (h1 : ∀ e ∈ es, Seen ⟨g, c, n, e.1⟩ e.2)
    (h2 : ∀ name so, Stable ⟨g, c, n, name⟩ so → (name, so) ∈ es) :
    Visit g q Seen Stable (acc ++ [(c, n, es)]) rest := by
  have e1 : leafKeys (.eachLeaf c n a :: rest) = (c, n) :: leafKeys rest := rfl
  have e2 : nsKeys (.eachLeaf c n a :: rest) = nsKeys rest := rfl
  have e3 : (Instr.eachLeaf c n a :: rest).countP Instr.isEachCl = rest.countP Instr.isEachCl := by
    rw [List.countP_cons]; rfl
  have e4 : accKeys (acc ++ [(c, n, es)]) = accKeys acc ++ [(c, n)] := by simp [accKeys]
  have e5 : accKeys (acc ++ [(c, n, es)]) ++ leafKeys rest = accKeys acc ++ leafKeys (.eachLeaf c n a :: rest) := by
    rw [e4, e1]; simp
  refine ⟨fun x hx => h.ins x (List.mem_cons_of_mem _ hx), ?_, ?_, ?_, e5 ▸ h.keys, e2 ▸ h.nsk, ?_, e3 ▸ h.one, ?_⟩
  · intro b hb
    rcases List.mem_append.mp hb with hb | hb
    · exact h.seen b hb
    · simp only [List.mem_singleton] at hb; subst hb
      cases h.ins _ List.mem_cons_self with
      | eachLeaf _ _ _ hq => exact ⟨hq, h1⟩
  · intro b hb
    rcases List.mem_append.mp hb with hb | hb
    · exact h.maps b hb
    · simp only [List.mem_singleton] at hb; subst hb; exact hm
  · intro id so x y z
    rcases h.cover id so x y z with ⟨b, hb, hv⟩ | hc
    · exact Or.inl ⟨b, List.mem_append_left _ hb, hv⟩
    · rcases hc with ⟨f, hf⟩ | ⟨f, w, hf⟩ | ⟨w, hf⟩
      · rcases List.mem_cons.mp hf with hf | hf
        · simp at hf
        · exact Or.inr (Or.inl ⟨f, hf⟩)
      · rcases List.mem_cons.mp hf with hf | hf
        · simp at hf
        · exact Or.inr (Or.inr (Or.inl ⟨f, w, hf⟩))
      · rcases List.mem_cons.mp hf with hf | hf
        · simp only [Instr.eachLeaf.injEq] at hf
          obtain ⟨f1, f2, _⟩ := hf
          refine Or.inl ⟨(c, n, es), by simp, f1.symm, f2.symm, ?_⟩
          apply h2
          rw [← f1, ← f2, ← x]; exact z
        · exact Or.inr (Or.inr (Or.inr ⟨w, hf⟩))
  · intro c' hc' k hk
    rw [e5] at hk
    exact h.disj c' (e2 ▸ hc') k hk
  · intro hp
    have := (h.fresh (by rw [e3]; exact hp)).2.1
    rw [e1] at this; simp at this

theorem leafKeys_append (a b : List Instr) : leafKeys (a ++ b) = leafKeys a ++ leafKeys b := List.filterMap_append
theorem nsKeys_append (a b : List Instr) : nsKeys (a ++ b) = nsKeys a ++ nsKeys b := List.filterMap_append

theorem leafKeys_map (c : Str) (es : List (Str × Nat)) :
    leafKeys (es.map fun e => .eachLeaf c e.1 e.2) = es.map fun e => (c, e.1) := by
  induction es with
  | nil => rfl
  | cons e es ih =>
    show (c, e.1) :: leafKeys (es.map fun e => .eachLeaf c e.1 e.2) = _
    rw [ih]; rfl

theorem nsKeys_map (c : Str) (es : List (Str × Nat)) : nsKeys (es.map fun e => .eachLeaf c e.1 e.2) = [] := by
  induction es with
  | nil => rfl
  | cons e es ih => exact ih

theorem leafKeys_map' (f : Str) (es : List (Str × Nat)) : leafKeys (es.map fun e => .eachNs f e.1 e.2) = [] := by
  induction es with
  | nil => rfl
  | cons e es ih => exact ih

theorem nsKeys_map' (f : Str) (es : List (Str × Nat)) :
    nsKeys (es.map fun e => .eachNs f e.1 e.2) = es.map Prod.fst := by
  induction es with
  | nil => rfl
  | cons e es ih =>
    show e.1 :: nsKeys (es.map fun e => .eachNs f e.1 e.2) = _
    rw [ih]; rfl

/-- Visiting the namespaces of a cluster. -/
theorem Visit.ns {f c : Str} {a : Nat} {m : Node} (h : Visit g q Seen Stable acc (.eachNs f c a :: rest)) {es : List (Str × Nat)}
    (hm : IsMap es) (h2 : ∀ n name so, Stable ⟨g, c, n, name⟩ so → ∃ x, (n, x) ∈ es) :
    Visit g q Seen Stable acc ((es.filter fun e => f = [] ∨ f = e.1).map (fun e => .eachLeaf c e.1 e.2)
      ++ .unlock m :: rest) := by
  have hf : f = q.ns := by
    cases h.ins _ List.mem_cons_self with
    | eachNs => rfl
  subst hf
  have e1 : leafKeys (.eachNs q.ns c a :: rest) = leafKeys rest := rfl
  have e2 : nsKeys (.eachNs q.ns c a :: rest) = c :: nsKeys rest := rfl
  have e3 : (Instr.eachNs q.ns c a :: rest).countP Instr.isEachCl = rest.countP Instr.isEachCl := by
    rw [List.countP_cons]; rfl
  generalize hes : (es.filter fun e => q.ns = [] ∨ q.ns = e.1) = es'
  have k1 : leafKeys (es'.map (fun e => .eachLeaf c e.1 e.2) ++ .unlock m :: rest)
      = es'.map (fun e => (c, e.1)) ++ leafKeys rest := by
    rw [leafKeys_append, leafKeys_map]; rfl
  have k2 : nsKeys (es'.map (fun e => .eachLeaf c e.1 e.2) ++ .unlock m :: rest) = nsKeys rest := by
    rw [nsKeys_append, nsKeys_map]; rfl
  have k3 : (es'.map (fun e => Instr.eachLeaf c e.1 e.2) ++ Instr.unlock m :: rest).countP Instr.isEachCl
      = rest.countP Instr.isEachCl := by
    rw [List.countP_append, List.countP_cons, List.countP_eq_zero.mpr]
    · simp [Instr.isEachCl]
    · intro x hx
      obtain ⟨e, _, rfl⟩ := List.mem_map.mp hx
      simp [Instr.isEachCl]
  have hdisj := h.disj
  rw [e1, e2] at hdisj
  have hk := h.keys
  rw [e1] at hk
  have hn := h.nsk
  rw [e2] at hn
  refine ⟨?_, h.seen, h.maps, ?_, ?_, ?_, ?_, by rw [k3, ← e3]; exact h.one, ?_⟩
  · intro x hx
    rcases List.mem_append.mp hx with hx | hx
    · obtain ⟨e, he, rfl⟩ := List.mem_map.mp hx
      rw [← hes] at he
      exact .eachLeaf _ _ _ (by simpa using (List.mem_filter.mp he).2)
    · rcases List.mem_cons.mp hx with rfl | hx
      · exact .unlock m
      · exact h.ins x (List.mem_cons_of_mem _ hx)
  · intro id so x y z
    refine (h.cover id so x y z).imp (fun h => h) ?_
    rintro (⟨f, hf⟩ | ⟨f, w, hf⟩ | ⟨w, hf⟩)
    · rcases List.mem_cons.mp hf with hf | hf
      · simp at hf
      · exact Or.inl ⟨f, by simp [hf]⟩
    · rcases List.mem_cons.mp hf with hf | hf
      · simp only [Instr.eachNs.injEq] at hf
        obtain ⟨_, hc, _⟩ := hf
        obtain ⟨v, hv⟩ := h2 id.ns id.name so (by rw [← hc, ← x]; exact z)
        refine Or.inr (Or.inr ⟨v, List.mem_append_left _ (List.mem_map.mpr ⟨(id.ns, v), ?_, by rw [hc]⟩)⟩)
        rw [← hes]
        exact List.mem_filter.mpr ⟨hv, by simpa using y⟩
      · exact Or.inr (Or.inl ⟨f, w, by simp [hf]⟩)
    · rcases List.mem_cons.mp hf with hf | hf
      · simp at hf
      · exact Or.inr (Or.inr ⟨w, by simp [hf]⟩)
  · have hes' : (es'.map fun e => (c, e.1)).Nodup := by
      have : (es'.map Prod.fst).Nodup := by
        rw [← hes]; exact (List.filter_sublist.map _).nodup hm
      have h3 : (es'.map fun e => (c, e.1)) = (es'.map Prod.fst).map fun n => (c, n) := by
        rw [List.map_map]; rfl
      rw [h3]
      exact this.map (fun _ _ h => by simpa using h)
    rw [k1]
    obtain ⟨n1, n2, n3⟩ := List.nodup_append.mp hk
    rw [List.nodup_append]
    refine ⟨n1, ?_, ?_⟩
    · rw [List.nodup_append]
      refine ⟨hes', n2, ?_⟩
      intro x hx y hy hxy
      obtain ⟨e, _, rfl⟩ := List.mem_map.mp hx
      subst hxy
      exact hdisj c (by simp) _ (List.mem_append_right _ hy) rfl
    · intro x hx y hy hxy
      subst hxy
      rcases List.mem_append.mp hy with hy | hy
      · obtain ⟨e, _, rfl⟩ := List.mem_map.mp hy
        exact hdisj c (by simp) _ (List.mem_append_left _ hx) rfl
      · exact n3 x hx x hy rfl
  · rw [k2]; exact (List.nodup_cons.mp hn).2
  · intro c' hc' k hk'
    rw [k2] at hc'
    rw [k1] at hk'
    rcases List.mem_append.mp hk' with hk' | hk'
    · exact hdisj c' (List.mem_cons_of_mem _ hc') k (List.mem_append_left _ hk')
    · rcases List.mem_append.mp hk' with hk' | hk'
      · obtain ⟨e, _, rfl⟩ := List.mem_map.mp hk'
        intro (hcc : c = c')
        subst hcc
        exact (List.nodup_cons.mp hn).1 hc'
      · exact hdisj c' (List.mem_cons_of_mem _ hc') k (List.mem_append_right _ hk')
  · intro hp
    rw [k3, ← e3] at hp
    have := (h.fresh hp).2.2
    rw [e2] at this; simp at this

/-- Visiting the clusters of a resource type. -/
theorem Visit.cl {f : Str} {m : Node} (h : Visit g q Seen Stable acc (.eachCl f :: rest)) {es : List (Str × Nat)}
    (hm : IsMap es) (h2 : ∀ c n name so, Stable ⟨g, c, n, name⟩ so → ∃ x, (c, x) ∈ es) :
    Visit g q Seen Stable acc (es.map (fun e => .eachNs f e.1 e.2) ++ .unlock m :: rest) := by
  have hf : f = q.ns := by
    cases h.ins _ List.mem_cons_self with
    | eachCl => rfl
  subst hf
  have e3 : (Instr.eachCl q.ns :: rest).countP Instr.isEachCl = rest.countP Instr.isEachCl + 1 := by
    rw [List.countP_cons]; rfl
  obtain ⟨hacc, hlk, hnk⟩ := h.fresh (by rw [e3]; omega)
  have hone := h.one
  rw [e3] at hone
  have hz : rest.countP Instr.isEachCl = 0 := by omega
  subst hacc
  have hlk' : leafKeys rest = [] := hlk
  have hnk' : nsKeys rest = [] := hnk
  have k1 : leafKeys (es.map (fun e => .eachNs q.ns e.1 e.2) ++ .unlock m :: rest) = [] := by
    rw [leafKeys_append, leafKeys_map']; exact hlk'
  have k2 : nsKeys (es.map (fun e => .eachNs q.ns e.1 e.2) ++ .unlock m :: rest) = es.map Prod.fst := by
    rw [nsKeys_append, nsKeys_map', show nsKeys (.unlock m :: rest) = [] from hnk', List.append_nil]
  have k3 : (es.map (fun e => Instr.eachNs q.ns e.1 e.2) ++ Instr.unlock m :: rest).countP Instr.isEachCl = 0 := by
    rw [List.countP_append, List.countP_cons, hz, List.countP_eq_zero.mpr]
    · simp [Instr.isEachCl]
    · intro x hx
      obtain ⟨e, _, rfl⟩ := List.mem_map.mp hx
      simp [Instr.isEachCl]
  refine ⟨?_, h.seen, h.maps, ?_, by rw [k1]; simp [accKeys], by rw [k2]; exact hm, ?_, by rw [k3]; omega,
    by rw [k3]; intro hh; omega⟩
  · intro x hx
    rcases List.mem_append.mp hx with hx | hx
    · obtain ⟨e, he, rfl⟩ := List.mem_map.mp hx
      exact .eachNs _ _
    · rcases List.mem_cons.mp hx with rfl | hx
      · exact .unlock m
      · exact h.ins x (List.mem_cons_of_mem _ hx)
  · intro id so x y z
    right
    obtain ⟨v, hv⟩ := h2 id.cluster id.ns id.name so (by rw [← x]; exact z)
    exact Or.inr (Or.inl ⟨q.ns, v, List.mem_append_left _ (List.mem_map.mpr ⟨_, hv, rfl⟩)⟩)
  · intro c' _ k hk'
    rw [k1] at hk'
    simp [accKeys] at hk'

end

/-! ## Traces -/

/-- Threads and trace fit. -/
structure TrInv (σ : CState) : Prop where
  ret : ∀ i a, Event.ret i a ∈ σ.trace → ∃ t, σ.thrs[i]? = some t ∧ t.returned = true ∧ t.ans = a
  ret' : ∀ (i : Nat) (t : Thr), σ.thrs[i]? = some t → t.returned = true → t.prog = [] ∧ Event.ret i t.ans ∈ σ.trace
  call : ∀ i op, Event.call i op ∈ σ.trace ↔ ∃ t, σ.thrs[i]? = some t ∧ t.op = op

theorem TStep.cases {i : Nat} {σ σ' : CState} (hs : TStep isPrint alg pf i σ σ') :
    (∃ t, σ.thrs[i]? = some t ∧ t.prog = [] ∧ t.returned = false ∧ σ'.thrs = σ.thrs.set i { t with returned := true }
      ∧ σ'.trace = σ.trace ++ [.ret i t.ans] ∧ σ'.heap = σ.heap)
    ∨ (σ'.thrs = σ.thrs ∧ σ'.trace = σ.trace ∧ σ'.heap = σ.heap)
    ∨ (∃ t t', σ.thrs[i]? = some t ∧ t.prog ≠ [] ∧ σ'.thrs = σ.thrs.set i t' ∧ t'.op = t.op
        ∧ t'.returned = t.returned ∧ σ'.trace = σ.trace) := by
  cases hs with
  | ret t ht hp hr => exact Or.inl ⟨t, ht, hp, hr, rfl, rfl, rfl⟩
  | crash t ins rest ht hp hm hn => exact Or.inr (Or.inl ⟨rfl, rfl, rfl⟩)
  | read t ins rest n t' ht hp hm hn hph hb =>
    exact Or.inr (Or.inr ⟨t, t', ht, by rw [hp]; simp, rfl, (Read.op hb).1, (Read.op hb).2.2, rfl⟩)
  | hold t ins rest n t' ht hp hm hn hph hb =>
    exact Or.inr (Or.inr ⟨t, t', ht, by rw [hp]; simp, rfl, (Hold.op hb).1, (Hold.op hb).2.2, rfl⟩)
  | announce t ins rest n ht hp _ _ _ _ | acquire t ins rest n ht hp _ _ _ _ | rlock t ins rest n ht hp _ _ _ _
  | write t ins rest n ht hp _ _ _ =>
    exact Or.inr (Or.inr ⟨t, _, ht, by rw [hp]; simp, rfl, rfl, rfl, rfl⟩)
  | unlock t rest n ht hp => exact Or.inr (Or.inr ⟨t, _, ht, by rw [hp]; simp, rfl, rfl, rfl, rfl⟩)
  | gauge t rest n ht hp => exact Or.inr (Or.inr ⟨t, _, ht, by rw [hp]; simp, rfl, rfl, rfl, rfl⟩)
  | finish t rest n ht hp => exact Or.inr (Or.inr ⟨t, _, ht, by rw [hp]; simp, rfl, rfl, rfl, rfl⟩)

theorem thrs_call {σ : CState} {op : COp} {i : Nat} {t : Thr} (h : (σ.call eval conf op).thrs[i]? = some t) :
    σ.thrs[i]? = some t ∨ (i = σ.thrs.length ∧ t = { op := op, prog := op.prog eval conf, ans := op.ans0 }) := by
  have hj' : (σ.thrs ++ [{ op := op, prog := op.prog eval conf, ans := op.ans0 }])[i]? = some t := h
  rw [List.getElem?_append] at hj'
  split at hj'
  · exact Or.inl hj'
  · rename_i hge
    rw [List.getElem?_singleton] at hj'
    split at hj'
    · rename_i h0
      simp only [Option.some.injEq] at hj'; exact Or.inr ⟨by omega, hj'.symm⟩
    · simp at hj'

theorem thrs_call_old {σ : CState} {op : COp} {i : Nat} {t : Thr} (h : σ.thrs[i]? = some t) :
    (σ.call eval conf op).thrs[i]? = some t := by
  show (σ.thrs ++ _)[i]? = some t
  rw [List.getElem?_append_left (List.getElem?_eq_some_iff.mp h).1, h]

theorem thrs_call_new {σ : CState} {op : COp} :
    (σ.call eval conf op).thrs[σ.thrs.length]? = some { op := op, prog := op.prog eval conf, ans := op.ans0 } := by
  show (σ.thrs ++ _)[σ.thrs.length]? = _
  simp

theorem TrInv.exec {P : COp → Prop} {past : List CState} {σ : CState} (he : Exec isPrint eval alg pf conf P past σ) :
    TrInv σ := by
  induction he with
  | start => exact ⟨by simp, by simp, by simp⟩
  | @call past σ _ op hp ih =>
    refine ⟨?_, ?_, ?_⟩
    · intro i a ha
      have ha' : Event.ret i a ∈ σ.trace ++ [.call σ.thrs.length op] := ha
      simp only [List.mem_append, List.mem_singleton, reduceCtorEq, or_false] at ha'
      obtain ⟨t, h1, h2⟩ := ih.ret i a ha'
      exact ⟨t, thrs_call_old h1, h2⟩
    · intro i t ht hr
      rcases thrs_call ht with h | ⟨_, rfl⟩
      · exact ⟨(ih.ret' i t h hr).1, List.mem_append_left _ (ih.ret' i t h hr).2⟩
      · simp at hr
    · intro i op'
      show Event.call i op' ∈ σ.trace ++ [.call σ.thrs.length op] ↔ _
      rw [List.mem_append, ih.call]
      constructor
      · rintro (⟨t, h1, h2⟩ | h)
        · exact ⟨t, thrs_call_old h1, h2⟩
        · simp only [List.mem_singleton, Event.call.injEq] at h
          obtain ⟨rfl, rfl⟩ := h
          exact ⟨_, thrs_call_new, rfl⟩
      · rintro ⟨t, h1, h2⟩
        rcases thrs_call h1 with h | ⟨rfl, rfl⟩
        · exact Or.inl ⟨t, h, h2⟩
        · right; simp only [List.mem_singleton, Event.call.injEq, true_and]; exact h2.symm
  | @step past σ σ' he i hs ih =>
    rcases hs.cases with ⟨t, ht, hp, hr, e1, e2, _⟩ | ⟨e1, e2, _⟩ | ⟨t, t', ht, hp, e1, e3, e4, e2⟩
    · have hset : ∀ j, σ'.thrs[j]? = if i = j then some { t with returned := true } else σ.thrs[j]? := by
        intro j; rw [e1, List.getElem?_set]
        have := (List.getElem?_eq_some_iff.mp ht).1
        split
        · rename_i h; subst h; simp
        · rfl
      refine ⟨?_, ?_, ?_⟩
      · intro j a ha
        rw [e2, List.mem_append] at ha
        rcases ha with ha | ha
        · obtain ⟨u, h1, h2, h3⟩ := ih.ret j a ha
          rw [hset]
          split
          · rename_i h; subst h; rw [ht] at h1; cases h1
            rw [hr] at h2; simp at h2
          · exact ⟨u, h1, h2, h3⟩
        · simp only [List.mem_singleton, Event.ret.injEq] at ha
          obtain ⟨rfl, rfl⟩ := ha
          rw [hset, if_pos rfl]; exact ⟨_, rfl, rfl, rfl⟩
      · intro j u hu hur
        rw [e1] at hu
        rw [e2]
        rcases getElem?_set_some hu with ⟨rfl, rfl⟩ | ⟨_, hu⟩
        · exact ⟨hp, by simp⟩
        · exact ⟨(ih.ret' j u hu hur).1, List.mem_append_left _ (ih.ret' j u hu hur).2⟩
      · intro j op
        rw [e2, List.mem_append, ih.call, hset]
        simp only [List.mem_singleton, reduceCtorEq, or_false]
        split
        · rename_i h; subst h; rw [ht]; simp
        · exact Iff.rfl
    · exact ⟨by rw [e1, e2]; exact ih.ret, by rw [e1, e2]; exact ih.ret', by rw [e1, e2]; exact ih.call⟩
    · have hset : ∀ j, σ'.thrs[j]? = if i = j then some t' else σ.thrs[j]? := by
        intro j; rw [e1, List.getElem?_set]
        have := (List.getElem?_eq_some_iff.mp ht).1
        split
        · rename_i h; subst h; simp
        · rfl
      have hnr : t.returned = false := by
        cases hx : t.returned with
        | false => rfl
        | true => exact absurd (ih.ret' i t ht hx).1 hp
      refine ⟨?_, ?_, ?_⟩
      · intro j a ha
        rw [e2] at ha
        obtain ⟨u, h1, h2, h3⟩ := ih.ret j a ha
        rw [hset]
        split
        · rename_i h; subst h; rw [ht] at h1; cases h1
          rw [hnr] at h2; simp at h2
        · exact ⟨u, h1, h2, h3⟩
      · intro j u hu hur
        rw [e1] at hu
        rw [e2]
        rcases getElem?_set_some hu with ⟨rfl, rfl⟩ | ⟨_, hu⟩
        · rw [e4, hnr] at hur; simp at hur
        · exact ih.ret' j u hu hur
      · intro j op
        rw [e2, ih.call, hset]
        split
        · rename_i h; subst h; rw [ht]; simp [e3]
        · exact Iff.rfl

/-! ## The invariant -/

/-- In some of the states while call `i` was running, the cache contained `so` at `id`. -/
def SeenIn (i : Nat) (l : List CState) (id : Ident) (so : SObj) : Prop :=
  ∃ τ ∈ l, During i τ ∧ τ.heap.abs id = some so

/-- In all of the states while call `i` was running, the cache contained `so` at `id`. -/
def StableIn (i : Nat) (l : List CState) (id : Ident) (so : SObj) : Prop :=
  ∀ τ ∈ l, During i τ → τ.heap.abs id = some so

theorem SeenIn.more {i : Nat} {l l' : List CState} (h : ∀ τ ∈ l, τ ∈ l') {id : Ident} {so : SObj} (hs : SeenIn i l id so) :
    SeenIn i l' id so := by obtain ⟨τ, h1, h2⟩ := hs; exact ⟨τ, h τ h1, h2⟩

theorem StableIn.less {i : Nat} {l l' : List CState} (h : ∀ τ ∈ l, τ ∈ l') {id : Ident} {so : SObj} (hs : StableIn i l' id so) :
    StableIn i l id so := fun τ h1 h2 => hs τ (h τ h1) h2

/-- Invariant of the thread of a query. -/
structure QT (isPrint : Nat → Bool) (alg : SliceSort) (pf : Str → Option GoFloat) (i : Nat) (l : List CState) (t : Thr)
    (g : GVR) (q : Query) : Prop where
  visit : Visit g q (SeenIn i l) (StableIn i l) t.acc t.prog
  fin : (∃ p, t.prog = p ++ [.finish q] ∧ .finish q ∉ p)
    ∨ (t.prog = [] ∧ t.ans = .result (queryList isPrint alg pf t.seen q))

theorem TrInv.during {σ : CState} (h : TrInv σ) {i : Nat} {t : Thr} (ht : σ.thrs[i]? = some t) (hp : t.prog ≠ []) :
    During i σ := by
  refine ⟨⟨t.op, (h.call i t.op).mpr ⟨t, ht, rfl⟩⟩, ?_⟩
  intro a ha
  obtain ⟨u, h1, h2, _⟩ := h.ret i a ha
  rw [ht] at h1; cases h1
  exact hp (h.ret' i t ht h2).1

theorem fin_tail {q : Query} {ins : Instr} {rest p : List Instr} (h : ins :: rest = p ++ [.finish q])
    (hp : .finish q ∉ p) (hne : ins ≠ .finish q) : ∃ p', rest = p' ++ [.finish q] ∧ .finish q ∉ p' := by
  cases p with
  | nil => simp only [List.nil_append, List.cons.injEq] at h; exact absurd h.1 hne
  | cons x p =>
    simp only [List.cons_append, List.cons.injEq] at h
    exact ⟨p, h.2, fun hh => hp (List.mem_cons_of_mem _ hh)⟩

theorem QT.init {i : Nat} {l : List CState} {g : GVR} {q : Query} :
    QT isPrint alg pf i l
      { op := .query g q, prog := (COp.query g q).prog eval conf, ans := (COp.query g q).ans0 } g q := by
  refine ⟨⟨?_, by simp, by simp, ?_, ?_, ?_, ?_, ?_, ?_⟩, Or.inl ⟨[.rootGet g, .eachCl q.ns], rfl, by simp⟩⟩
  · intro x hx
    simp only [COp.prog, queryProg, List.mem_cons, List.not_mem_nil, or_false] at hx
    rcases hx with rfl | rfl | rfl
    · exact .rootGet
    · exact .eachCl
    · exact .finish
  · intro id so _ _ _
    exact Or.inr (Or.inl ⟨q.ns, by simp [COp.prog, queryProg]⟩)
  · exact List.nodup_nil
  · exact List.nodup_nil
  · intro c hc; simp [COp.prog, queryProg, nsKeys, Instr.nsKey] at hc
  · simp [COp.prog, queryProg, Instr.isEachCl, List.countP_cons]
  · intro _; exact ⟨rfl, rfl, rfl⟩

theorem QT.step {σ σ' : CState} {past : List CState} {i : Nat} {t t' : Thr} {g : GVR} {q : Query} (hg : Good eval conf σ)
    (htr : TrInv σ) (ht : σ.thrs[i]? = some t) (hop : t.op = .query g q)
    (h : QT isPrint alg pf i (past ++ [σ]) t g q) (hs : TStep isPrint alg pf i σ σ') (ht' : σ'.thrs[i]? = some t') :
    QT isPrint alg pf i (past ++ [σ]) t' g q := by
  have here : σ ∈ past ++ [σ] := by simp
  have get : ∀ {u : Thr}, (σ.thrs.set i u)[i]? = some t' → t' = u := by
    intro u hu
    rcases getElem?_set_some hu with ⟨_, h⟩ | ⟨h, _⟩
    · exact h
    · exact absurd rfl h
  have phase : ∀ {u : Thr}, t' = u → u.acc = t.acc → u.prog = t.prog → u.ans = t.ans → QT isPrint alg pf i (past ++ [σ]) t' g q := by
    intro u hu h1 h2 h3
    subst hu
    refine ⟨by rw [h1, h2]; exact h.visit, ?_⟩
    rw [h2, h3]
    have : t'.seen = t.seen := by unfold Thr.seen; rw [h1]
    rw [this]; exact h.fin
  -- the program of a running query
  have fin' : ∀ {ins : Instr} {rest : List Instr}, t.prog = ins :: rest → ins ≠ .finish q →
      ∃ p', rest = p' ++ [.finish q] ∧ .finish q ∉ p' := by
    intro ins rest hp hne
    rcases h.fin with ⟨p, h1, h2⟩ | ⟨h1, _⟩
    · exact fin_tail (by rw [← hp, h1]) h2 hne
    · rw [hp] at h1; simp at h1
  have qins : ∀ {ins : Instr} {rest : List Instr}, t.prog = ins :: rest → QIns g q ins := by
    intro ins rest hp
    exact h.visit.ins _ (by rw [hp]; simp)
  cases hs with
  | ret u hu hp hr => rw [ht] at hu; cases hu; exact phase (get ht') rfl rfl rfl
  | crash u ins rest hu hp hm hn => exact phase (u := t) (by rw [show σ.thrs[i]? = some t' from ht'] at ht; cases ht; rfl) rfl rfl rfl
  | announce u ins rest n hu hp hm hn hph hw => rw [ht] at hu; cases hu; exact phase (get ht') rfl rfl rfl
  | acquire u ins rest n hu hp hm hn hph hr => rw [ht] at hu; cases hu; exact phase (get ht') rfl rfl rfl
  | rlock u ins rest n hu hp hm hn hph hw => rw [ht] at hu; cases hu; exact phase (get ht') rfl rfl rfl
  | write u ins rest n hu hp hm hn hph =>
    rw [ht] at hu; cases hu
    exfalso
    have := qins hp
    cases this <;> simp [Instr.mode] at hm
  | unlock u rest n hu hp =>
    rw [ht] at hu; cases hu
    have e := get ht'
    have hv := h.visit
    rw [hp] at hv
    rw [e]
    exact ⟨hv.pop rfl rfl rfl, Or.inl (fin' hp (by simp))⟩
  | gauge u rest k hu hp =>
    rw [ht] at hu; cases hu
    exfalso
    have := qins hp
    cases this
  | finish u rest q' hu hp =>
    rw [ht] at hu; cases hu
    have e := get ht'
    have hq := qins hp
    cases hq
    have hv := h.visit
    rw [hp] at hv
    have hr : rest = [] := by
      rcases h.fin with ⟨p, h1, h2⟩ | ⟨h1, _⟩
      · rw [hp] at h1
        cases p with
        | nil => simpa using h1
        | cons x p =>
          simp only [List.cons_append, List.cons.injEq] at h1
          exact absurd (h1.1 ▸ List.mem_cons_self) h2
      · rw [hp] at h1; simp at h1
    rw [e]
    exact ⟨hv.pop rfl rfl rfl, Or.inr ⟨hr, rfl⟩⟩
  | read u ins rest n u' hu hp hm hn hph hb =>
    rw [ht] at hu; cases hu
    have e := get ht'
    have hv := h.visit
    have hdur := htr.during ht (by rw [hp]; simp)
    have hto := hg.thr i t ht
    have hq := qins hp
    have hf := fin' hp
    rw [hp] at hv hto
    rw [hop] at hto
    obtain ⟨⟨k, rk, hc, hkn, hr⟩, hi⟩ := hto
    simp only [COp.path] at hc hkn hr hi
    rw [e]
    cases hb with
    | rootGet g' => exact ⟨hv.pop rfl rfl rfl, Or.inl (hf (by simp))⟩
    | eachLeaf a c n es _ hperm =>
      have hpl : σ.heap.pathLeaf g c n = some a := hi _ List.mem_cons_self
      have hM := hg.ok.leafM a
      refine ⟨?_, Or.inl (hf (by simp))⟩
      refine hv.leaf ?_ ?_ ?_
      · unfold IsMap at *; exact (hperm.map Prod.fst).nodup_iff.mpr hM
      · intro e he
        refine ⟨σ, here, hdur, ?_⟩
        unfold Heap.abs
        rw [hpl]
        exact lookup_eq_some_of_mem hM (hperm.mem_iff.mp he)
      · intro name so hst
        have := hst σ here hdur
        unfold Heap.abs at this
        rw [hpl] at this
        exact hperm.mem_iff.mpr (mem_of_lookup this)
    | _ => cases hq
  | hold u ins rest n u' hu hp hm hn hph hb =>
    rw [ht] at hu; cases hu
    have e := get ht'
    have hv := h.visit
    have hdur := htr.during ht (by rw [hp]; simp)
    have hto := hg.thr i t ht
    have hf := fin' hp
    rw [hp] at hv hto
    rw [hop] at hto
    obtain ⟨⟨k, rk, hc, hkn, hr⟩, hi⟩ := hto
    simp only [COp.path] at hc hkn hr hi
    rw [e]
    have app : ∀ {l : List Instr} {m : Node}, .finish q ∉ l → (∃ p', rest = p' ++ [.finish q] ∧ .finish q ∉ p') →
        ∃ p', l ++ .unlock m :: rest = p' ++ [.finish q] ∧ .finish q ∉ p' := by
      rintro l m hl ⟨p', h1, h2⟩
      exact ⟨l ++ .unlock m :: p', by rw [h1]; simp, by simp [hl, h2]⟩
    cases hb with
    | eachCl a f es _ hperm =>
      simp only [Chk] at hc
      obtain ⟨a', hreg, hra⟩ := hr.cl hc.1
      simp only [hreg, Instr.target, Option.some.injEq, Node.cl.injEq] at hn; subst hn
      have hM := hg.ok.clM a'
      refine ⟨?_, Or.inl (app (by simp) (hf (by simp)))⟩
      refine hv.cl ?_ ?_
      · unfold IsMap at *; exact (hperm.map Prod.fst).nodup_iff.mpr hM
      · intro c n name so hst
        have := hst σ here hdur
        unfold Heap.abs Heap.pathLeaf at this
        simp only [Heap.pathNs_of hra] at this
        cases hl : lookup c (σ.heap.clAt a') with
        | none => rw [hl] at this; simp at this
        | some x => exact ⟨x, hperm.mem_iff.mpr (mem_of_lookup hl)⟩
    | eachNs a f c es _ hperm =>
      have hpl : σ.heap.pathNs g c = some a := hi _ List.mem_cons_self
      have hM := hg.ok.nsM a
      refine ⟨?_, Or.inl (app (by simp) (hf (by simp)))⟩
      refine hv.ns ?_ ?_
      · unfold IsMap at *; exact (hperm.map Prod.fst).nodup_iff.mpr hM
      · intro n name so hst
        have := hst σ here hdur
        unfold Heap.abs at this
        simp only [Heap.pathLeaf_of hpl] at this
        cases hl : lookup n (σ.heap.nsAt a) with
        | none => rw [hl] at this; simp at this
        | some x => exact ⟨x, hperm.mem_iff.mpr (mem_of_lookup hl)⟩

theorem QT.more {i : Nat} {l l' : List CState} {t : Thr} {g : GVR} {q : Query} (h : QT isPrint alg pf i l t g q)
    (hl : ∀ τ ∈ l, τ ∈ l') : QT isPrint alg pf i l' t g q :=
  ⟨h.visit.mono (fun _ _ h => h.more hl) (fun _ _ h => h.less hl), h.fin⟩

theorem QT.exec {P : COp → Prop} (hP : ∀ op, P op → op.Valid conf) {past : List CState} {σ : CState}
    (he : Exec isPrint eval alg pf conf P past σ) :
    ∀ (i : Nat) (t : Thr) (g : GVR) (q : Query), σ.thrs[i]? = some t → t.op = .query g q →
      QT isPrint alg pf i (past ++ [σ]) t g q := by
  induction he with
  | start => intro i t g q ht; simp at ht
  | @call past σ _ op hp ih =>
    intro i t g q ht hop
    rcases thrs_call ht with h | ⟨_, rfl⟩
    · exact (ih i t g q h hop).more (by simp; intro τ h; rcases h with h | h <;> simp [h])
    · simp only at hop; subst hop; exact QT.init
  | @step past σ σ' he j hs ih =>
    intro i t' g q ht' hop'
    have hmore : ∀ τ ∈ past ++ [σ], τ ∈ past ++ [σ] ++ [σ'] := fun τ h => List.mem_append_left _ h
    by_cases hij : j = i
    · subst hij
      have hex : ∃ t, σ.thrs[j]? = some t ∧ t'.op = t.op := by
        rcases hs.cases with ⟨t, ht, _, _, e1, _⟩ | ⟨e1, _⟩ | ⟨t, u, ht, _, e1, e3, _⟩
        · rw [e1] at ht'
          rcases getElem?_set_some ht' with ⟨_, rfl⟩ | ⟨h, _⟩
          · exact ⟨t, ht, rfl⟩
          · exact absurd rfl h
        · rw [e1] at ht'; exact ⟨t', ht', rfl⟩
        · rw [e1] at ht'
          rcases getElem?_set_some ht' with ⟨_, rfl⟩ | ⟨h, _⟩
          · exact ⟨t, ht, e3⟩
          · exact absurd rfl h
      obtain ⟨t, ht, hto⟩ := hex
      have hop : t.op = .query g q := by rw [← hto]; exact hop'
      exact (QT.step (Good.exec hP he) (TrInv.exec he) ht hop (ih j t g q ht hop) hs ht').more hmore
    · have : σ.thrs[i]? = some t' := by
        rcases hs.cases with ⟨t, ht, _, _, e1, _⟩ | ⟨e1, _⟩ | ⟨t, u, ht, _, e1, e3, _⟩
        · rw [e1, List.getElem?_set_ne hij] at ht'; exact ht'
        · rw [e1] at ht'; exact ht'
        · rw [e1, List.getElem?_set_ne hij] at ht'; exact ht'
      exact (ih i t' g q this hop').more hmore

/-! ## The answer -/

/-- The objects visited, with their identities. -/
def accEntries (g : GVR) (acc : List (Str × Str × Leaf)) : List (Ident × SObj) :=
  acc.flatMap fun b => b.2.2.map fun e => (⟨g, b.1, b.2.1, e.1⟩, e.2)

theorem accEntries_snd (g : GVR) (acc : List (Str × Str × Leaf)) :
    (accEntries g acc).map Prod.snd = acc.flatMap fun b => b.2.2.map Prod.snd := by
  unfold accEntries
  rw [List.map_flatMap]
  simp [List.map_map, Function.comp_def]

theorem accEntries_nodup {g : GVR} {acc : List (Str × Str × Leaf)} (hk : (accKeys acc).Nodup)
    (hm : ∀ b ∈ acc, IsMap b.2.2) : ((accEntries g acc).map Prod.fst).Nodup := by
  unfold accEntries
  rw [List.map_flatMap]
  refine nodup_flatMap_keys (fun b : Str × Str × Leaf => (b.1, b.2.1)) hk _ (fun id : Ident => (id.cluster, id.ns)) ?_ ?_
  · intro b _ id hid
    simp only [List.map_map, List.mem_map, Function.comp_apply] at hid
    obtain ⟨e, _, rfl⟩ := hid
    rfl
  · intro b hb
    have : ((b.2.2.map fun e => ((⟨g, b.1, b.2.1, e.1⟩ : Ident), e.2)).map Prod.fst)
        = (b.2.2.map Prod.fst).map fun n => (⟨g, b.1, b.2.1, n⟩ : Ident) := by
      simp [List.map_map, Function.comp_def]
    rw [this]
    exact List.Nodup.map (fun x y hxy => by simpa using hxy) (hm b hb)

theorem mem_accEntries {g : GVR} {acc : List (Str × Str × Leaf)} {id : Ident} {so : SObj} :
    (id, so) ∈ accEntries g acc ↔ id.gvr = g ∧ Visited acc id so := by
  unfold accEntries Visited
  simp only [List.mem_flatMap, List.mem_map, Prod.mk.injEq, Prod.exists]
  constructor
  · rintro ⟨c, n, es, hb, name, so', he, rfl, rfl⟩
    exact ⟨rfl, c, n, es, hb, rfl, rfl, he⟩
  · rintro ⟨rfl, c, n, es, hb, rfl, rfl, he⟩
    exact ⟨_, _, es, hb, id.name, so, he, rfl, rfl⟩

/-- The answer of a query made while others change the cache. -/
theorem query_found {P : COp → Prop} (hP : ∀ op, P op → op.Valid conf) {past : List CState} {σ : CState}
    (he : Exec isPrint eval alg pf conf P past σ) {i : Nat} {g : GVR} {q : Query} {res : QueryResult}
    (hcall : Event.call i (.query g q) ∈ σ.trace) (hret : Event.ret i (.result (some res)) ∈ σ.trace)
    (hok : res.error = false) :
    ∃ found : List (Ident × SObj), (found.map Prod.fst).Nodup
      ∧ (∀ e ∈ found, e.1.gvr = g ∧ (q.ns = [] ∨ q.ns = e.1.ns) ∧ q.page.matches isPrint e.2.index = some true
          ∧ SeenIn i (past ++ [σ]) e.1 e.2)
      ∧ (∀ id so, id.gvr = g → (q.ns = [] ∨ q.ns = id.ns) → q.page.matches isPrint so.index = some true →
          StableIn i (past ++ [σ]) id so → (id, so) ∈ found)
      ∧ res.total = found.length
      ∧ ((found = [] ∧ res.items = []) ∨
          ∃ items, slice (found.map Prod.snd) (bounds q.page.page q.page.pageSize found.length).1
              (bounds q.page.page q.page.pageSize found.length).2 = some items ∧ res.items = items.map SObj.obj) := by
  have htr := TrInv.exec he
  obtain ⟨t, ht, hop⟩ := (htr.call i _).mp hcall
  obtain ⟨t', ht', hr, hans⟩ := htr.ret i _ hret
  rw [ht] at ht'; cases ht'
  have hp := (htr.ret' i t ht hr).1
  have hqt := QT.exec hP he i t g q ht hop
  have hans' : t.ans = .result (queryList isPrint alg pf t.seen q) := by
    rcases hqt.fin with ⟨p, h1, _⟩ | ⟨_, h⟩
    · rw [hp] at h1; simp at h1
    · exact h
  rw [hans] at hans'
  simp only [Ans.result.injEq] at hans'
  obtain ⟨_, sorted, hperm, hcase, htotal⟩ := queryList_cases hans'.symm hok
  have hv := hqt.visit
  rw [hp] at hv
  have hseen : t.seen = (accEntries g t.acc).map Prod.snd := by rw [accEntries_snd]; rfl
  have hfil : (t.seen.filter fun o => q.page.matches isPrint o.index == some true)
      = ((accEntries g t.acc).filter fun e => q.page.matches isPrint e.2.index == some true).map Prod.snd := by
    rw [hseen, List.filter_map]; rfl
  rw [hfil] at hperm
  obtain ⟨es, hes1, hes2⟩ := perm_map_exists Prod.snd hperm.symm _ rfl
  have hmem : ∀ id so, (id, so) ∈ es ↔ (id.gvr = g ∧ Visited t.acc id so)
      ∧ q.page.matches isPrint so.index = some true := by
    intro id so
    rw [← hes2.mem_iff, List.mem_filter, mem_accEntries]
    simp
  refine ⟨es, ?_, ?_, ?_, ?_, ?_⟩
  · rw [← (hes2.map Prod.fst).nodup_iff]
    refine ((List.filter_sublist).map _).nodup (accEntries_nodup ?_ hv.maps)
    have := hv.keys
    simpa [leafKeys] using this
  · rintro ⟨id, so⟩ h
    obtain ⟨⟨h1, b, hb, hc, hn, hin⟩, h3⟩ := (hmem id so).mp h
    have hs := hv.seen b hb
    refine ⟨h1, by rw [hn] at hs; exact hs.1, h3, ?_⟩
    have := hs.2 _ hin
    rw [hc, hn] at this
    rw [← h1] at this
    exact this
  · intro id so h1 h2 h3 h4
    refine (hmem id so).mpr ⟨⟨h1, ?_⟩, h3⟩
    rcases hv.cover id so h1 h2 h4 with h | h
    · exact h
    · rcases h with ⟨_, h⟩ | ⟨_, _, h⟩ | ⟨_, h⟩ <;> simp at h
  · rw [htotal, ← hes1]; simp
  · have hl : (es.length : Int) = sorted.length := by rw [← hes1]; simp
    rcases hcase with ⟨_, h2, hi⟩ | ⟨_, items, h1, h2⟩
    · left
      rw [h2] at hes1
      exact ⟨by simpa using hes1, hi⟩
    · refine Or.inr ⟨items, ?_, h2⟩
      rw [hl, hes1]; exact h1

end Ckube

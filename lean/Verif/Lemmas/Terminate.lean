import Verif.Lemmas.Locks

/-! # The concurrent store: without new calls, every execution ends -/

namespace Ckube
open Spec

variable {isPrint : Nat → Bool} {eval : Str → Obj → Str} {alg : SliceSort} {pf : Str → Option GoFloat}
  {conf : List (GVR × List (Str × Str))}

/-- Steps an instruction can still cause, when no map has more than `K` entries. -/
def Instr.weight (K : Nat) : Instr → Nat
  | .nsValues => 3 + 4 * K
  | .eachCl _ => 4 + (4 + 3 * K) * K
  | .eachNs _ _ _ => 4 + 3 * K
  | .eachLeaf _ _ _ => 3
  | .gauge _ | .unlock _ | .finish _ => 1
  | .clInit _ | .nsInit _ | .leafSet _ _ | .leafDel _ | .leafClean _ _ => 4
  | _ => 3

def Phase.done : Phase → Nat
  | .ready => 0
  | .announced => 1
  | .locked => 2

def progWeight (K : Nat) (p : List Instr) : Nat := (p.map (Instr.weight K)).sum

def Thr.weight (K : Nat) (t : Thr) : Nat :=
  progWeight K t.prog + (if t.returned then 0 else 1) - t.phase.done

def Instr.isInit : Instr → Bool
  | .clInit _ | .nsInit _ => true
  | _ => false

def inits (p : List Instr) : Nat := p.countP Instr.isInit

def Heap.entries (h : Heap) : Nat := (h.cls.map List.length).sum + (h.nss.map List.length).sum

def CState.size (σ : CState) : Nat := σ.heap.entries + (σ.thrs.map fun t => inits t.prog).sum

def CState.weight (K : Nat) (σ : CState) : Nat := (σ.thrs.map (Thr.weight K)).sum

theorem sum_set {α : Type} (f : α → Nat) : ∀ {l : List α} {i : Nat} {a : α} (b : α), l[i]? = some a →
    ((l.set i b).map f).sum + f a = (l.map f).sum + f b
  | [], i, a, b, h => by simp at h
  | x :: l, 0, a, b, h => by
    simp only [List.getElem?_cons_zero, Option.some.injEq] at h; subst h
    simp only [List.set_cons_zero, List.map_cons, List.sum_cons]; omega
  | x :: l, i + 1, a, b, h => by
    simp only [List.getElem?_cons_succ] at h
    have := sum_set f b h
    simp only [List.set_cons_succ, List.map_cons, List.sum_cons]; omega

theorem length_le_sum {α : Type} : ∀ (l : List (List α)) (a : Nat), ((l[a]?).getD []).length ≤ (l.map List.length).sum
  | [], a => by simp
  | x :: l, 0 => by simp
  | x :: l, a + 1 => by
    have := length_le_sum l a
    simp only [List.getElem?_cons_succ, List.map_cons, List.sum_cons]; omega

theorem length_insertKV_le {κ ν : Type} [DecidableEq κ] (k : κ) (v : ν) : ∀ m : List (κ × ν),
    (insertKV k v m).length ≤ m.length + 1
  | [] => by simp [insertKV]
  | (a, b) :: m => by
    simp only [insertKV]
    split
    · simp
    · have := length_insertKV_le k v m
      simp only [List.length_cons]; omega

theorem sum_set_le {α : Type} {l : List (List α)} {a : Nat} {v : List α} {m : Nat}
    (hv : v.length ≤ ((l[a]?).getD []).length + m) :
    ((l.set a v).map List.length).sum ≤ (l.map List.length).sum + m := by
  cases ha : l[a]? with
  | none =>
    have : l.length ≤ a := by rw [List.getElem?_eq_none_iff] at ha; exact ha
    rw [List.set_eq_of_length_le this]; omega
  | some x =>
    rw [ha] at hv
    simp only [Option.getD_some] at hv
    have := sum_set List.length v ha
    omega

theorem entries_write (ins : Instr) (n : Node) (h : Heap) :
    (ins.write n h).entries ≤ h.entries + (if ins.isInit then 1 else 0) := by
  unfold Heap.entries
  cases ins <;> simp only [Instr.write, Instr.isInit, if_true, if_false, Bool.false_eq_true, Nat.add_zero, Nat.le_refl]
  case clInit c =>
    cases n <;> simp only [Nat.le_add_right]
    rename_i a
    unfold Heap.clInit
    split
    · omega
    · have := sum_set_le (l := h.cls) (a := a) (v := insertKV c h.nss.length (h.clAt a)) (m := 1) (length_insertKV_le _ _ _)
      simp only [List.map_append, List.map_cons, List.length_nil, List.map_nil, List.sum_append, List.sum_cons, List.sum_nil]
      omega
  case nsInit c =>
    cases n <;> simp only [Nat.le_add_right]
    rename_i a
    unfold Heap.nsInit
    split
    · omega
    · have := sum_set_le (l := h.nss) (a := a) (v := insertKV c h.leaves.length (h.nsAt a)) (m := 1) (length_insertKV_le _ _ _)
      simp only
      omega
  case leafSet => cases n <;> simp [Heap.leafUpd]
  case leafDel => cases n <;> simp [Heap.leafUpd]
  case leafClean => cases n <;> simp [Heap.leafUpd]

theorem progWeight_cons (K : Nat) (i : Instr) (p : List Instr) : progWeight K (i :: p) = i.weight K + progWeight K p := rfl

theorem progWeight_append (K : Nat) (p q : List Instr) : progWeight K (p ++ q) = progWeight K p + progWeight K q := by
  simp [progWeight]

theorem progWeight_map {α : Type} (K w : Nat) (f : α → Instr) (hf : ∀ a, (f a).weight K = w) : ∀ l : List α,
    progWeight K (l.map f) = w * l.length
  | [] => rfl
  | a :: l => by
    rw [List.map_cons, progWeight_cons, progWeight_map K w f hf l, hf, List.length_cons, Nat.mul_succ, Nat.add_comm]

theorem inits_append (p q : List Instr) : inits (p ++ q) = inits p + inits q := by simp [inits]

theorem inits_map {α : Type} (f : α → Instr) (hf : ∀ a, (f a).isInit = false) (l : List α) : inits (l.map f) = 0 := by
  unfold inits
  rw [List.countP_eq_zero]
  intro i hi
  obtain ⟨a, _, rfl⟩ := List.mem_map.mp hi
  simp [hf a]

theorem read_weight {K : Nat} {h : Heap} {n : Node} {ins : Instr} {t t' : Thr} (hK : h.entries ≤ K)
    (hb : Instr.Read h n ins t t') :
    progWeight K t'.prog + 3 ≤ ins.weight K + progWeight K t.prog ∧ inits t'.prog ≤ inits t.prog := by
  cases hb with
  | rootGet | clGet | nsGet | leafGet | leafLen | eachLeaf => simp only [Instr.weight]; exact ⟨by omega, by omega⟩
  | rootExists g =>
    split
    · simp only [Instr.weight]; exact ⟨by omega, by omega⟩
    · simp only [Instr.weight, progWeight, inits, List.map_nil, List.sum_nil, List.countP_nil]; exact ⟨by omega, by omega⟩
  | clExists a c absent =>
    split
    · simp only [Instr.weight]; exact ⟨by omega, by omega⟩
    · simp only [Instr.weight, progWeight, inits, List.map_nil, List.sum_nil, List.countP_nil]; exact ⟨by omega, by omega⟩
  | nsExists a c =>
    split
    · simp only [Instr.weight]; exact ⟨by omega, by omega⟩
    · simp only [Instr.weight, progWeight, inits, List.map_nil, List.sum_nil, List.countP_nil]; exact ⟨by omega, by omega⟩
  | nsValues a es t hp =>
    have h1 := length_le_sum h.nss a
    have h2 : es.length ≤ K := by
      rw [hp.length_eq]; unfold Heap.entries at hK; unfold Heap.nsAt; omega
    refine ⟨?_, ?_⟩
    · rw [progWeight_append, progWeight_map K 4 _ (fun _ => rfl)]
      simp only [Instr.weight]; omega
    · rw [inits_append, inits_map _ (fun _ => rfl)]; omega

theorem hold_weight {K : Nat} {h : Heap} {n : Node} {ins : Instr} {t t' : Thr} (hK : h.entries ≤ K)
    (hb : Instr.Hold h n ins t t') :
    progWeight K t'.prog + 3 ≤ ins.weight K + progWeight K t.prog ∧ inits t'.prog ≤ inits t.prog := by
  cases hb with
  | eachCl a f es t hp =>
    have h1 := length_le_sum h.cls a
    have h2 : es.length ≤ K := by
      rw [hp.length_eq]; unfold Heap.entries at hK; unfold Heap.clAt; omega
    have h3 : (4 + 3 * K) * es.length ≤ (4 + 3 * K) * K := Nat.mul_le_mul_left _ h2
    refine ⟨?_, ?_⟩
    · rw [progWeight_append, progWeight_map K (4 + 3 * K) _ (fun _ => rfl), progWeight_cons]
      simp only [Instr.weight]; omega
    · rw [inits_append, inits_map _ (fun _ => rfl)]
      simp [inits, Instr.isInit]
  | eachNs a f c es t hp =>
    have h1 := length_le_sum h.nss a
    have h2 : es.length ≤ K := by
      rw [hp.length_eq]; unfold Heap.entries at hK; unfold Heap.nsAt; omega
    have h3 := List.length_filter_le (fun e : Str × Nat => decide (f = [] ∨ f = e.1)) es
    refine ⟨?_, ?_⟩
    · rw [progWeight_append, progWeight_map K 3 _ (fun _ => rfl), progWeight_cons]
      simp only [Instr.weight]; omega
    · rw [inits_append, inits_map _ (fun _ => rfl)]
      simp [inits, Instr.isInit]

theorem measure_set {K : Nat} {σ σ' : CState} {i : Nat} {t t' : Thr} (ht : σ.thrs[i]? = some t)
    (e1 : σ'.thrs = σ.thrs.set i t') (hw : t'.weight K < t.weight K)
    (hs : σ'.heap.entries + inits t'.prog ≤ σ.heap.entries + inits t.prog) :
    σ'.size ≤ σ.size ∧ σ'.weight K < σ.weight K := by
  unfold CState.size CState.weight
  rw [e1]
  have h1 := sum_set (Thr.weight K) t' ht
  have h2 := sum_set (fun t => inits t.prog) t' ht
  exact ⟨by omega, by omega⟩

theorem inits_cons (i : Instr) (p : List Instr) : inits (i :: p) = inits p + if i.isInit then 1 else 0 := by
  unfold inits; rw [List.countP_cons]

/-- Every step of a thread decreases the weight. -/
theorem step_weight {K : Nat} {σ σ' : CState} {i : Nat} (hg : Good eval conf σ) (hl : LockInv σ) (hK : σ.size ≤ K)
    (hs : TStep isPrint alg pf i σ σ') : σ'.size ≤ σ.size ∧ σ'.weight K < σ.weight K := by
  have hKe : σ.heap.entries ≤ K := by unfold CState.size at hK; omega
  have hloc : ∀ {t : Thr} {ins rest}, σ.thrs[i]? = some t → t.prog = ins :: rest → ins.mode = .loc → t.phase = .ready := by
    intro t ins rest ht hp hm
    by_contra h
    obtain ⟨ins', rest', h1, h2, _⟩ := hl.phs i t ht h
    rw [hp] at h1; cases h1; exact h2 hm
  have hw4 : ∀ ins : Instr, ins.mode = .write → ins.weight K = 4 := by
    intro ins; cases ins <;> simp [Instr.mode, Instr.weight]
  have hr3 : ∀ ins : Instr, ins.mode = .read → 3 ≤ ins.weight K := by
    intro ins; cases ins <;> simp [Instr.mode, Instr.weight] <;> omega
  cases hs with
  | ret t ht hp hr =>
    have hph : t.phase = .ready := by
      by_contra h
      obtain ⟨ins', rest', h1, _⟩ := hl.phs i t ht h
      rw [hp] at h1; simp at h1
    refine measure_set ht (t' := { t with returned := true }) rfl ?_ (Nat.le_refl _)
    unfold Thr.weight
    simp only [hp, hph, hr, progWeight, Phase.done]; simp
  | crash t ins rest ht hp hm hn =>
    have := hg.thr i t ht
    rw [hp] at this
    obtain ⟨m, hm'⟩ := this.target hm
    rw [hm'] at hn; simp at hn
  | announce t ins rest n ht hp hm hn hph hw =>
    refine measure_set ht (t' := { t with phase := .announced }) rfl ?_ (Nat.le_refl _)
    unfold Thr.weight
    simp only [hp, hph, progWeight_cons, Phase.done, hw4 ins hm]; omega
  | acquire t ins rest n ht hp hm hn hph hr =>
    refine measure_set ht (t' := { t with phase := .locked }) rfl ?_ (Nat.le_refl _)
    unfold Thr.weight
    simp only [hp, hph, progWeight_cons, Phase.done, hw4 ins hm]; omega
  | write t ins rest n ht hp hm hn hph =>
    have he := entries_write ins n σ.heap
    refine measure_set ht (t' := { t with phase := .ready, prog := rest }) rfl ?_ ?_
    · unfold Thr.weight
      simp only [hp, hph, progWeight_cons, Phase.done, hw4 ins hm]; omega
    · simp only [hp, inits_cons]; omega
  | rlock t ins rest n ht hp hm hn hph hw =>
    have := hr3 ins hm
    refine measure_set ht (t' := { t with phase := .locked }) rfl ?_ (Nat.le_refl _)
    unfold Thr.weight
    simp only [hp, hph, progWeight_cons, Phase.done]; omega
  | read t ins rest n t' ht hp hm hn hph hb =>
    have h3 := hr3 ins hm
    obtain ⟨h1, h2⟩ := read_weight hKe hb
    simp only at h1 h2
    refine measure_set ht (t' := t') rfl ?_ ?_
    · unfold Thr.weight
      rw [hp, hph, (Read.op hb).2.1, (Read.op hb).2.2]
      simp only [progWeight_cons, Phase.done]; omega
    · simp only [hp, inits_cons]
      show σ.heap.entries + _ ≤ _
      omega
  | hold t ins rest n t' ht hp hm hn hph hb =>
    have h3 := hr3 ins hm
    obtain ⟨h1, h2⟩ := hold_weight hKe hb
    simp only at h1 h2
    refine measure_set ht (t' := t') rfl ?_ ?_
    · unfold Thr.weight
      rw [hp, hph, (Hold.op hb).2.1, (Hold.op hb).2.2]
      simp only [progWeight_cons, Phase.done]; omega
    · simp only [hp, inits_cons]
      show σ.heap.entries + _ ≤ _
      omega
  | unlock t rest n ht hp =>
    have hph := hloc ht hp rfl
    refine measure_set ht (t' := { t with prog := rest }) rfl ?_ ?_
    · unfold Thr.weight
      simp only [hp, hph, progWeight_cons, Phase.done, Instr.weight]; omega
    · simp only [hp, inits_cons]
      show σ.heap.entries + _ ≤ _
      omega
  | gauge t rest k ht hp =>
    have hph := hloc ht hp rfl
    refine measure_set ht (t' := { t with prog := rest }) rfl ?_ ?_
    · unfold Thr.weight
      simp only [hp, hph, progWeight_cons, Phase.done, Instr.weight]; omega
    · simp only [hp, inits_cons]
      show σ.heap.entries + _ ≤ _
      omega
  | finish t rest q ht hp =>
    have hph := hloc ht hp rfl
    refine measure_set ht (t' := { t with prog := rest, ans := .result (queryList isPrint alg pf t.seen q) }) rfl ?_ ?_
    · unfold Thr.weight
      simp only [hp, hph, progWeight_cons, Phase.done, Instr.weight]; omega
    · simp only [hp, inits_cons]
      show σ.heap.entries + _ ≤ _
      omega

end Ckube

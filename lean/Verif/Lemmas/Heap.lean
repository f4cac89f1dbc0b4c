import Verif.Model.Conc
import Verif.Lemmas.Store

/-! # The heap of the concurrent store -/

namespace Ckube
open Spec

namespace Heap

/-- Pointer to the cluster object of a path. -/
def pathNs (h : Heap) (g : GVR) (c : Str) : Option Nat := (lookup g h.root).bind fun a => lookup c (h.clAt a)
/-- Pointer to the namespace object of a path. -/
def pathLeaf (h : Heap) (g : GVR) (c n : Str) : Option Nat := (h.pathNs g c).bind fun b => lookup n (h.nsAt b)
/-- What is stored under an identity. -/
def abs (h : Heap) (id : Ident) : Option SObj :=
  (h.pathLeaf id.gvr id.cluster id.ns).bind fun a => lookup id.name (h.leafAt a)

/-- No object is reachable in two ways, pointers are valid, keys are distinct. -/
structure OK (h : Heap) : Prop where
  rootB : ∀ {g a}, lookup g h.root = some a → a < h.cls.length
  rootI : ∀ {g g' a}, lookup g h.root = some a → lookup g' h.root = some a → g = g'
  clB : ∀ {a c b}, lookup c (h.clAt a) = some b → b < h.nss.length
  clI : ∀ {a a' c c' b}, lookup c (h.clAt a) = some b → lookup c' (h.clAt a') = some b → a = a' ∧ c = c'
  nsB : ∀ {a c b}, lookup c (h.nsAt a) = some b → b < h.leaves.length
  nsI : ∀ {a a' c c' b}, lookup c (h.nsAt a) = some b → lookup c' (h.nsAt a') = some b → a = a' ∧ c = c'
  clM : ∀ a, IsMap (h.clAt a)
  nsM : ∀ a, IsMap (h.nsAt a)
  leafM : ∀ a, IsMap (h.leafAt a)

/-- Existing pointers stay. -/
structure Grow (h h' : Heap) : Prop where
  root : h'.root = h.root
  cl : ∀ {a c b}, lookup c (h.clAt a) = some b → lookup c (h'.clAt a) = some b
  ns : ∀ {a c b}, lookup c (h.nsAt a) = some b → lookup c (h'.nsAt a) = some b

theorem Grow.refl (h : Heap) : Grow h h := ⟨rfl, id, id⟩

theorem Grow.pathNs {h h' : Heap} (hg : Grow h h') {g : GVR} {c : Str} {b : Nat} (hp : h.pathNs g c = some b) :
    h'.pathNs g c = some b := by
  unfold Heap.pathNs at hp ⊢
  rw [hg.root]
  cases hr : lookup g h.root with
  | none => rw [hr] at hp; simp at hp
  | some a => rw [hr] at hp; exact hg.cl hp

theorem Grow.pathLeaf {h h' : Heap} (hg : Grow h h') {g : GVR} {c n : Str} {b : Nat} (hp : h.pathLeaf g c n = some b) :
    h'.pathLeaf g c n = some b := by
  unfold Heap.pathLeaf at hp ⊢
  cases hr : h.pathNs g c with
  | none => rw [hr] at hp; simp at hp
  | some a => rw [hr] at hp; rw [hg.pathNs hr]; exact hg.ns hp

theorem pathLeaf_inj {h : Heap} (hk : h.OK) {g g' : GVR} {c c' n n' : Str} {a : Nat}
    (h1 : h.pathLeaf g c n = some a) (h2 : h.pathLeaf g' c' n' = some a) : g = g' ∧ c = c' ∧ n = n' := by
  unfold pathLeaf pathNs at h1 h2
  cases e1 : lookup g h.root with
  | none => simp [e1] at h1
  | some x =>
    cases e2 : lookup g' h.root with
    | none => simp [e2] at h2
    | some y =>
      simp only [e1, e2, Option.bind_some] at h1 h2
      cases f1 : lookup c (h.clAt x) with
      | none => simp [f1] at h1
      | some u =>
        cases f2 : lookup c' (h.clAt y) with
        | none => simp [f2] at h2
        | some v =>
          simp only [f1, f2, Option.bind_some] at h1 h2
          obtain ⟨rfl, rfl⟩ := hk.nsI h1 h2
          obtain ⟨rfl, rfl⟩ := hk.clI f1 f2
          exact ⟨hk.rootI e1 e2, rfl, rfl⟩

theorem getD_set' {α : Type} (l : List (List α)) (a b : Nat) (v : List α) (ha : a < l.length) :
    ((l.set a v)[b]?).getD [] = if a = b then v else (l[b]?).getD [] := by
  rw [List.getElem?_set]
  split
  · rename_i hab; subst hab; simp
  · rfl

theorem getD_push' {α : Type} (l : List (List α)) (b : Nat) : ((l ++ [[]])[b]?).getD [] = (l[b]?).getD [] := by
  rw [List.getElem?_append]
  split
  · rfl
  · rename_i h
    rw [List.getElem?_eq_none (by omega : l.length ≤ b)]
    cases hb : b - l.length with
    | zero => simp
    | succ k => simp

theorem getD_oob {α : Type} {l : List (List α)} {b : Nat} (h : l.length ≤ b) : (l[b]?).getD [] = [] := by
  rw [List.getElem?_eq_none h]; rfl

/-! ## `Init` on a resource type object -/

theorem clInit_eq {h : Heap} {a : Nat} {c : Str} (hc : lookup c (h.clAt a) = none) :
    h.clInit a c = { h with cls := h.cls.set a (insertKV c h.nss.length (h.clAt a)), nss := h.nss ++ [[]] } := by
  unfold clInit; rw [hc]

theorem clInit_id {h : Heap} {a : Nat} {c : Str} {b : Nat} (hc : lookup c (h.clAt a) = some b) : h.clInit a c = h := by
  unfold clInit; rw [hc]

theorem nsInit_eq {h : Heap} {a : Nat} {c : Str} (hc : lookup c (h.nsAt a) = none) :
    h.nsInit a c = { h with nss := h.nss.set a (insertKV c h.leaves.length (h.nsAt a)), leaves := h.leaves ++ [[]] } := by
  unfold nsInit; rw [hc]

theorem nsInit_id {h : Heap} {a : Nat} {c : Str} {b : Nat} (hc : lookup c (h.nsAt a) = some b) : h.nsInit a c = h := by
  unfold nsInit; rw [hc]

theorem clInit_clAt {h : Heap} {a : Nat} {c : Str} (ha : a < h.cls.length) (hc : lookup c (h.clAt a) = none) (a' : Nat) :
    (h.clInit a c).clAt a' = if a = a' then insertKV c h.nss.length (h.clAt a) else h.clAt a' := by
  rw [clInit_eq hc]; exact getD_set' _ _ _ _ ha

theorem clInit_nsAt (h : Heap) (a : Nat) (c : Str) (b : Nat) : (h.clInit a c).nsAt b = h.nsAt b := by
  unfold clInit; split
  · rfl
  · exact getD_push' _ _

theorem clInit_leafAt (h : Heap) (a : Nat) (c : Str) (b : Nat) : (h.clInit a c).leafAt b = h.leafAt b := by
  unfold clInit; split <;> rfl

theorem clInit_root (h : Heap) (a : Nat) (c : Str) : (h.clInit a c).root = h.root := by
  unfold clInit; split <;> rfl

theorem clInit_lookup {h : Heap} {a : Nat} {c : Str} (ha : a < h.cls.length) (a' : Nat) (c' : Str) :
    lookup c' ((h.clInit a c).clAt a') =
      if a = a' ∧ c = c' ∧ lookup c (h.clAt a) = none then some h.nss.length else lookup c' (h.clAt a') := by
  cases hc : lookup c (h.clAt a) with
  | some b => rw [clInit_id hc]; simp
  | none =>
    rw [clInit_clAt ha hc]
    by_cases haa : a = a'
    · subst haa
      rw [if_pos rfl, lookup_insertKV]
      simp
    · rw [if_neg haa, if_neg (by simp [haa])]

theorem clInit_grow {h : Heap} {a : Nat} (c : Str) (ha : a < h.cls.length) : Grow h (h.clInit a c) := by
  refine ⟨clInit_root h a c, ?_, ?_⟩
  · intro a' c' b hb
    rw [clInit_lookup ha]
    split
    · rename_i hh
      obtain ⟨rfl, rfl, hn⟩ := hh
      rw [hn] at hb; simp at hb
    · exact hb
  · intro a' c' b hb
    rw [clInit_nsAt]; exact hb

theorem clInit_some {h : Heap} {a : Nat} {c : Str} (ha : a < h.cls.length) :
    ∃ b, lookup c ((h.clInit a c).clAt a) = some b := by
  rw [clInit_lookup ha]
  cases hc : lookup c (h.clAt a) with
  | some b => exact ⟨b, by simp⟩
  | none => exact ⟨h.nss.length, by simp⟩

theorem clInit_ok {h : Heap} (hk : h.OK) {a : Nat} {c : Str} (ha : a < h.cls.length) : (h.clInit a c).OK := by
  cases hc : lookup c (h.clAt a) with
  | some b => rw [clInit_id hc]; exact hk
  | none =>
    have hl : ∀ a' c', lookup c' ((h.clInit a c).clAt a') =
        if a = a' ∧ c = c' then some h.nss.length else lookup c' (h.clAt a') := by
      intro a' c'; rw [clInit_lookup ha]; simp [hc]
    have e1 : (h.clInit a c).cls.length = h.cls.length := by rw [clInit_eq hc]; simp
    have e2 : (h.clInit a c).nss.length = h.nss.length + 1 := by rw [clInit_eq hc]; simp
    have e3 : (h.clInit a c).leaves = h.leaves := by rw [clInit_eq hc]
    constructor
    · intro g a' h1; rw [clInit_root] at h1; rw [e1]; exact hk.rootB h1
    · intro g g' a' h1 h2; rw [clInit_root] at h1 h2; exact hk.rootI h1 h2
    · intro a' c' b h1
      rw [hl] at h1; rw [e2]
      split at h1
      · cases h1; omega
      · have := hk.clB h1; omega
    · intro a1 a2 c1 c2 b h1 h2
      rw [hl] at h1 h2
      split at h1 <;> split at h2
      · rename_i x y; exact ⟨x.1.symm.trans y.1, x.2.symm.trans y.2⟩
      · cases h1; exact absurd (hk.clB h2) (by omega)
      · cases h2; exact absurd (hk.clB h1) (by omega)
      · exact hk.clI h1 h2
    · intro a' c' b h1; rw [clInit_nsAt] at h1; rw [e3]; exact hk.nsB h1
    · intro a1 a2 c1 c2 b h1 h2; rw [clInit_nsAt] at h1 h2; exact hk.nsI h1 h2
    · intro a'
      rw [clInit_clAt ha hc]
      split
      · exact isMap_insertKV (hk.clM a)
      · exact hk.clM a'
    · intro a'; rw [clInit_nsAt]; exact hk.nsM a'
    · intro a'; rw [clInit_leafAt]; exact hk.leafM a'

theorem clInit_pathLeaf {h : Heap} {a : Nat} {c : Str} (ha : a < h.cls.length) (g : GVR) (c' n : Str) :
    (h.clInit a c).pathLeaf g c' n = h.pathLeaf g c' n := by
  unfold pathLeaf pathNs
  rw [clInit_root]
  cases hr : lookup g h.root with
  | none => rfl
  | some x =>
    simp only [Option.bind_some]
    rw [clInit_lookup ha]
    split
    · rename_i hh
      obtain ⟨rfl, rfl, hn⟩ := hh
      rw [hn]
      simp only [Option.bind_some, Option.bind_none]
      rw [clInit_nsAt, show h.nsAt h.nss.length = [] from getD_oob (Nat.le_refl _)]
      rfl
    · cases hb : lookup c' (h.clAt x) with
      | none => rfl
      | some b => simp only [Option.bind_some]; rw [clInit_nsAt]

theorem clInit_abs {h : Heap} {a : Nat} {c : Str} (ha : a < h.cls.length) (id : Ident) :
    (h.clInit a c).abs id = h.abs id := by
  unfold abs
  rw [clInit_pathLeaf ha]
  simp only [clInit_leafAt]

/-! ## `Init` on a cluster object -/

theorem nsInit_nsAt {h : Heap} {a : Nat} {c : Str} (ha : a < h.nss.length) (hc : lookup c (h.nsAt a) = none) (a' : Nat) :
    (h.nsInit a c).nsAt a' = if a = a' then insertKV c h.leaves.length (h.nsAt a) else h.nsAt a' := by
  rw [nsInit_eq hc]; exact getD_set' _ _ _ _ ha

theorem nsInit_leafAt (h : Heap) (a : Nat) (c : Str) (b : Nat) : (h.nsInit a c).leafAt b = h.leafAt b := by
  unfold nsInit; split
  · rfl
  · exact getD_push' _ _

theorem nsInit_clAt (h : Heap) (a : Nat) (c : Str) (b : Nat) : (h.nsInit a c).clAt b = h.clAt b := by
  unfold nsInit; split <;> rfl

theorem nsInit_root (h : Heap) (a : Nat) (c : Str) : (h.nsInit a c).root = h.root := by
  unfold nsInit; split <;> rfl

theorem nsInit_lookup {h : Heap} {a : Nat} {c : Str} (ha : a < h.nss.length) (a' : Nat) (c' : Str) :
    lookup c' ((h.nsInit a c).nsAt a') =
      if a = a' ∧ c = c' ∧ lookup c (h.nsAt a) = none then some h.leaves.length else lookup c' (h.nsAt a') := by
  cases hc : lookup c (h.nsAt a) with
  | some b => rw [nsInit_id hc]; simp
  | none =>
    rw [nsInit_nsAt ha hc]
    by_cases haa : a = a'
    · subst haa
      rw [if_pos rfl, lookup_insertKV]
      simp
    · rw [if_neg haa, if_neg (by simp [haa])]

theorem nsInit_grow {h : Heap} {a : Nat} (c : Str) (ha : a < h.nss.length) : Grow h (h.nsInit a c) := by
  refine ⟨nsInit_root h a c, ?_, ?_⟩
  · intro a' c' b hb
    rw [nsInit_clAt]; exact hb
  · intro a' c' b hb
    rw [nsInit_lookup ha]
    split
    · rename_i hh
      obtain ⟨rfl, rfl, hn⟩ := hh
      rw [hn] at hb; simp at hb
    · exact hb

theorem nsInit_some {h : Heap} {a : Nat} {c : Str} (ha : a < h.nss.length) :
    ∃ b, lookup c ((h.nsInit a c).nsAt a) = some b := by
  rw [nsInit_lookup ha]
  cases hc : lookup c (h.nsAt a) with
  | some b => exact ⟨b, by simp⟩
  | none => exact ⟨h.leaves.length, by simp⟩

theorem nsInit_ok {h : Heap} (hk : h.OK) {a : Nat} {c : Str} (ha : a < h.nss.length) : (h.nsInit a c).OK := by
  cases hc : lookup c (h.nsAt a) with
  | some b => rw [nsInit_id hc]; exact hk
  | none =>
    have hl : ∀ a' c', lookup c' ((h.nsInit a c).nsAt a') =
        if a = a' ∧ c = c' then some h.leaves.length else lookup c' (h.nsAt a') := by
      intro a' c'; rw [nsInit_lookup ha]; simp [hc]
    have e1 : (h.nsInit a c).cls = h.cls := by rw [nsInit_eq hc]
    have e2 : (h.nsInit a c).nss.length = h.nss.length := by rw [nsInit_eq hc]; simp
    have e3 : (h.nsInit a c).leaves.length = h.leaves.length + 1 := by rw [nsInit_eq hc]; simp
    constructor
    · intro g a' h1; rw [nsInit_root] at h1; rw [e1]; exact hk.rootB h1
    · intro g g' a' h1 h2; rw [nsInit_root] at h1 h2; exact hk.rootI h1 h2
    · intro a' c' b h1; rw [nsInit_clAt] at h1; rw [e2]; exact hk.clB h1
    · intro a1 a2 c1 c2 b h1 h2; rw [nsInit_clAt] at h1 h2; exact hk.clI h1 h2
    · intro a' c' b h1
      rw [hl] at h1; rw [e3]
      split at h1
      · cases h1; omega
      · have := hk.nsB h1; omega
    · intro a1 a2 c1 c2 b h1 h2
      rw [hl] at h1 h2
      split at h1 <;> split at h2
      · rename_i x y; exact ⟨x.1.symm.trans y.1, x.2.symm.trans y.2⟩
      · cases h1; exact absurd (hk.nsB h2) (by omega)
      · cases h2; exact absurd (hk.nsB h1) (by omega)
      · exact hk.nsI h1 h2
    · intro a'; rw [nsInit_clAt]; exact hk.clM a'
    · intro a'
      rw [nsInit_nsAt ha hc]
      split
      · exact isMap_insertKV (hk.nsM a)
      · exact hk.nsM a'
    · intro a'; rw [nsInit_leafAt]; exact hk.leafM a'

theorem nsInit_pathNs (h : Heap) (a : Nat) (c : Str) (g : GVR) (c' : Str) :
    (h.nsInit a c).pathNs g c' = h.pathNs g c' := by
  unfold pathNs; rw [nsInit_root]; simp only [nsInit_clAt]

theorem nsInit_abs {h : Heap} {a : Nat} {c : Str} (ha : a < h.nss.length) (id : Ident) :
    (h.nsInit a c).abs id = h.abs id := by
  unfold abs pathLeaf
  rw [nsInit_pathNs]
  simp only [nsInit_leafAt]
  cases hp : h.pathNs id.gvr id.cluster with
  | none => rfl
  | some x =>
    simp only [Option.bind_some]
    rw [nsInit_lookup ha]
    split
    · rename_i hh
      obtain ⟨rfl, hc, hn⟩ := hh
      rw [← hc, hn]
      simp only [Option.bind_some, Option.bind_none]
      rw [show h.leafAt h.leaves.length = [] from getD_oob (Nat.le_refl _)]
      rfl
    · rfl

/-! ## Changing a namespace object -/

theorem leafUpd_grow (h : Heap) (a : Nat) (f : Leaf → Leaf) : Grow h (h.leafUpd a f) := ⟨rfl, id, id⟩

theorem leafUpd_leafAt {h : Heap} {a : Nat} (f : Leaf → Leaf) (ha : a < h.leaves.length) (b : Nat) :
    (h.leafUpd a f).leafAt b = if a = b then f (h.leafAt a) else h.leafAt b := getD_set' _ _ _ _ ha

theorem leafUpd_ok {h : Heap} (hk : h.OK) {a : Nat} {f : Leaf → Leaf} (ha : a < h.leaves.length)
    (hf : ∀ l, IsMap l → IsMap (f l)) : (h.leafUpd a f).OK := by
  constructor
  · exact hk.rootB
  · exact hk.rootI
  · exact hk.clB
  · exact hk.clI
  · intro a' c b h1
    have := hk.nsB h1
    show b < (h.leaves.set a _).length
    simpa using this
  · exact hk.nsI
  · exact hk.clM
  · exact hk.nsM
  · intro b
    rw [leafUpd_leafAt f ha]
    split
    · exact hf _ (hk.leafM a)
    · exact hk.leafM b

theorem leafUpd_abs {h : Heap} {a : Nat} {f : Leaf → Leaf} (ha : a < h.leaves.length) (id : Ident) :
    (h.leafUpd a f).abs id = if h.pathLeaf id.gvr id.cluster id.ns = some a then lookup id.name (f (h.leafAt a))
      else h.abs id := by
  unfold abs
  rw [show (h.leafUpd a f).pathLeaf id.gvr id.cluster id.ns = h.pathLeaf id.gvr id.cluster id.ns from rfl]
  cases hp : h.pathLeaf id.gvr id.cluster id.ns with
  | none => simp
  | some b =>
    simp only [Option.bind_some, Option.some.injEq]
    rw [leafUpd_leafAt f ha]
    by_cases hab : a = b
    · subst hab; simp
    · rw [if_neg hab, if_neg (fun e => hab e.symm)]

/-! ## The new heap -/

theorem rootInit_ok {h : Heap} (hk : h.OK) (g : GVR) : (h.rootInit g).OK := by
  unfold rootInit
  cases hg : lookup g h.root with
  | some _ => exact hk
  | none =>
    have hc : ∀ a, ({ h with root := insertKV g h.cls.length h.root, cls := h.cls ++ [[]] } : Heap).clAt a = h.clAt a :=
      fun a => getD_push' _ _
    constructor
    · intro g' a h1
      rw [lookup_insertKV] at h1
      simp only [List.length_append, List.length_cons, List.length_nil]
      split at h1
      · cases h1; omega
      · have := hk.rootB h1; omega
    · intro g1 g2 a h1 h2
      rw [lookup_insertKV] at h1 h2
      split at h1 <;> split at h2
      · rename_i x y; exact x.symm.trans y
      · cases h1; exact absurd (hk.rootB h2) (by omega)
      · cases h2; exact absurd (hk.rootB h1) (by omega)
      · exact hk.rootI h1 h2
    · intro a c b h1; rw [hc] at h1; exact hk.clB h1
    · intro a a' c c' b h1 h2; rw [hc] at h1 h2; exact hk.clI h1 h2
    · exact hk.nsB
    · exact hk.nsI
    · intro a; rw [hc]; exact hk.clM a
    · exact hk.nsM
    · exact hk.leafM

theorem ok_empty : ({} : Heap).OK := by
  constructor <;> simp [lookup, clAt, nsAt, leafAt, IsMap]

theorem newHeap_ok (conf : List (GVR × List (Str × Str))) : (newHeap conf).OK
    ∧ (∀ a, (newHeap conf).clAt a = [])
    ∧ ∀ g, (lookup g (newHeap conf).root).isSome = (lookup g conf).isSome := by
  unfold newHeap
  have key : ∀ (l : List (GVR × List (Str × Str))) (h : Heap), h.OK → (∀ a, h.clAt a = []) →
      (l.foldl (fun h e => h.rootInit e.1) h).OK ∧ (∀ a, (l.foldl (fun h e => h.rootInit e.1) h).clAt a = [])
      ∧ ∀ g, (lookup g (l.foldl (fun h e => h.rootInit e.1) h).root).isSome
        = ((lookup g h.root).isSome || (lookup g l).isSome) := by
    intro l
    induction l with
    | nil => intro h hk hc; exact ⟨hk, hc, by simp [lookup]⟩
    | cons e l ih =>
      intro h hk hc
      have hc' : ∀ a, (h.rootInit e.1).clAt a = [] := by
        intro a
        unfold rootInit
        split
        · exact hc a
        · exact (getD_push' _ _).trans (hc a)
      obtain ⟨h1, h2, h3⟩ := ih (h.rootInit e.1) (rootInit_ok hk e.1) hc'
      refine ⟨h1, h2, ?_⟩
      intro g
      rw [List.foldl_cons, h3]
      obtain ⟨k, v⟩ := e
      have : (lookup g (h.rootInit k).root).isSome = ((lookup g h.root).isSome || decide (k = g)) := by
        unfold rootInit
        cases hk' : lookup k h.root with
        | some x =>
          by_cases hkg : k = g
          · subst hkg; simp [hk']
          · simp [hkg]
        | none =>
          simp only [lookup_insertKV]
          by_cases hkg : k = g
          · simp [hkg]
          · simp [hkg]
      rw [this]
      simp only [lookup]
      by_cases hkg : k = g
      · simp [hkg]
      · simp [hkg]
  obtain ⟨h1, h2, h3⟩ := key conf {} ok_empty (by simp [clAt])
  exact ⟨h1, h2, fun g => by rw [h3]; simp [lookup]⟩

theorem newHeap_abs (conf : List (GVR × List (Str × Str))) (id : Ident) : (newHeap conf).abs id = none := by
  unfold abs pathLeaf pathNs
  cases lookup id.gvr (newHeap conf).root with
  | none => rfl
  | some a => simp [(newHeap_ok conf).2.1 a, lookup]

end Heap
end Ckube

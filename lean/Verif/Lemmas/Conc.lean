import Verif.Lemmas.Heap

/-! # Invariants of the concurrent store: no nil pointer is dereferenced -/

namespace Ckube
open Spec

/-- The calls the proxy and the watchers make: notifications and queries are about configured types. -/
def COp.Valid (conf : List (GVR × List (Str × Str))) : COp → Prop
  | .notice n => (lookup n.gvr conf).isSome = true
  | .get .. => True
  | .query g _ => (lookup g conf).isSome = true

/-- Resource type, cluster and namespace a call works on. -/
def COp.path (eval : Str → Obj → Str) (conf : List (GVR × List (Str × Str))) : COp → GVR × Str × Str
  | .notice (.added g c o) | .notice (.modified g c o) | .notice (.deleted g c o) =>
    (g, c, (build eval ((lookup g conf).getD []) c o).1)
  | .notice (.clean g c) => (g, c, [])
  | .get g c ns _ => (g, c, ns)
  | .query g _ => (g, [], [])

/-- Static check of a program: `k` says down to which level the path is known to exist, `rk` at which level the
register is. -/
def Chk (g : GVR) (c n : Str) : Nat → Nat → List Instr → Prop
  | _, _, [] => True
  | k, rk, ins :: r => match ins with
    | .rootGet g' => g' = g ∧ 1 ≤ k ∧ Chk g c n k 1 r
    | .rootExists g' => g' = g ∧ Chk g c n (max k 1) rk r
    | .clInit c' => c' = c ∧ rk = 1 ∧ Chk g c n (max k 2) 1 r
    | .clExists c' _ => c' = c ∧ rk = 1 ∧ Chk g c n (max k 2) 1 r
    | .clGet c' => c' = c ∧ rk = 1 ∧ 2 ≤ k ∧ Chk g c n k 2 r
    | .nsInit n' => n' = n ∧ rk = 2 ∧ Chk g c n (max k 3) 2 r
    | .nsExists n' => n' = n ∧ rk = 2 ∧ Chk g c n (max k 3) 2 r
    | .nsGet n' => n' = n ∧ rk = 2 ∧ 3 ≤ k ∧ Chk g c n k 3 r
    | .nsValues => rk = 2 ∧ Chk g c n k 0 r
    | .leafSet _ _ | .leafDel _ | .leafGet _ | .leafLen => rk = 3 ∧ Chk g c n k 3 r
    | .eachCl _ => rk = 1 ∧ Chk g c n k 0 r
    | .leafClean _ _ | .eachNs _ _ _ | .eachLeaf _ _ _ | .gauge _ | .unlock _ | .finish _ => Chk g c n k 0 r

/-- The path exists down to level `k`. -/
structure Knows (h : Heap) (g : GVR) (c n : Str) (k : Nat) : Prop where
  root : 1 ≤ k → ∃ a, lookup g h.root = some a
  cl : 2 ≤ k → ∃ b, h.pathNs g c = some b
  ns : 3 ≤ k → ∃ a, h.pathLeaf g c n = some a

/-- The register points to the object of the path at level `rk`. -/
structure RegOK (h : Heap) (g : GVR) (c n : Str) (rk : Nat) (reg : Option Node) : Prop where
  cl : rk = 1 → ∃ a, reg = some (.cl a) ∧ lookup g h.root = some a
  ns : rk = 2 → ∃ b, reg = some (.ns b) ∧ h.pathNs g c = some b
  leaf : rk = 3 → ∃ a, reg = some (.leaf a) ∧ h.pathLeaf g c n = some a

/-- Addresses in instructions are those of their labels. -/
def InsOK (h : Heap) (g : GVR) (c : Str) : Instr → Prop
  | .leafClean n a => h.pathLeaf g c n = some a
  | .eachNs _ c' a => h.pathNs g c' = some a
  | .eachLeaf c' n a => h.pathLeaf g c' n = some a
  | _ => True

/-- Invariant of a thread. -/
structure ThrOK (h : Heap) (g : GVR) (c n : Str) (prog : List Instr) (reg : Option Node) : Prop where
  st : ∃ k rk, Chk g c n k rk prog ∧ Knows h g c n k ∧ RegOK h g c n rk reg
  ins : ∀ i ∈ prog, InsOK h g c i

theorem Knows.grow {h h' : Heap} (hg : h.Grow h') {g : GVR} {c n : Str} {k : Nat} (hk : Knows h g c n k) :
    Knows h' g c n k := by
  refine ⟨fun h1 => ?_, fun h1 => ?_, fun h1 => ?_⟩
  · rw [hg.root]; exact hk.root h1
  · obtain ⟨b, hb⟩ := hk.cl h1; exact ⟨b, hg.pathNs hb⟩
  · obtain ⟨b, hb⟩ := hk.ns h1; exact ⟨b, hg.pathLeaf hb⟩

theorem RegOK.grow {h h' : Heap} (hg : h.Grow h') {g : GVR} {c n : Str} {rk : Nat} {reg : Option Node}
    (hk : RegOK h g c n rk reg) : RegOK h' g c n rk reg := by
  refine ⟨fun h1 => ?_, fun h1 => ?_, fun h1 => ?_⟩
  · rw [hg.root]; exact hk.cl h1
  · obtain ⟨b, hr, hb⟩ := hk.ns h1; exact ⟨b, hr, hg.pathNs hb⟩
  · obtain ⟨b, hr, hb⟩ := hk.leaf h1; exact ⟨b, hr, hg.pathLeaf hb⟩

theorem InsOK.grow {h h' : Heap} (hg : h.Grow h') {g : GVR} {c : Str} {i : Instr} (hk : InsOK h g c i) :
    InsOK h' g c i := by
  cases i <;> first | trivial | exact hg.pathLeaf hk | exact hg.pathNs hk

theorem ThrOK.grow {h h' : Heap} (hg : h.Grow h') {g : GVR} {c n : Str} {prog : List Instr} {reg : Option Node}
    (hk : ThrOK h g c n prog reg) : ThrOK h' g c n prog reg := by
  obtain ⟨k, rk, h1, h2, h3⟩ := hk.st
  exact ⟨⟨k, rk, h1, h2.grow hg, h3.grow hg⟩, fun i hi => (hk.ins i hi).grow hg⟩

theorem RegOK.zero (h : Heap) (g : GVR) (c n : Str) (reg : Option Node) : RegOK h g c n 0 reg :=
  ⟨fun h => by simp at h, fun h => by simp at h, fun h => by simp at h⟩

theorem Heap.pathNs_of {h : Heap} {g : GVR} {c : Str} {a : Nat} (hr : lookup g h.root = some a) :
    h.pathNs g c = lookup c (h.clAt a) := by unfold Heap.pathNs; rw [hr]; rfl

theorem Heap.pathLeaf_of {h : Heap} {g : GVR} {c n : Str} {a : Nat} (hr : h.pathNs g c = some a) :
    h.pathLeaf g c n = lookup n (h.nsAt a) := by unfold Heap.pathLeaf; rw [hr]; rfl

theorem Heap.OK.pathNs_lt {h : Heap} (hk : h.OK) {g : GVR} {c : Str} {b : Nat} (hp : h.pathNs g c = some b) :
    b < h.nss.length := by
  unfold Heap.pathNs at hp
  cases hr : lookup g h.root with
  | none => rw [hr] at hp; simp at hp
  | some a => rw [hr] at hp; exact hk.clB hp

theorem Heap.OK.pathLeaf_lt {h : Heap} (hk : h.OK) {g : GVR} {c n : Str} {b : Nat} (hp : h.pathLeaf g c n = some b) :
    b < h.leaves.length := by
  unfold Heap.pathLeaf at hp
  cases hr : h.pathNs g c with
  | none => rw [hr] at hp; simp at hp
  | some a => rw [hr] at hp; exact hk.nsB hp

/-- The path to the namespace object exists when the path to the cluster object is extended. -/
theorem Knows.max2 {h : Heap} {g : GVR} {c n : Str} {k : Nat} (hk : Knows h g c n k) {a b : Nat}
    (hr : lookup g h.root = some a) (hb : lookup c (h.clAt a) = some b) : Knows h g c n (max k 2) := by
  refine ⟨fun _ => ⟨a, hr⟩, fun _ => ⟨b, by rw [Heap.pathNs_of hr]; exact hb⟩, fun h1 => hk.ns (by omega)⟩

theorem Knows.max3 {h : Heap} {g : GVR} {c n : Str} {k : Nat} {a b : Nat}
    (hr : h.pathNs g c = some a) (hb : lookup n (h.nsAt a) = some b) : Knows h g c n (max k 3) := by
  refine ⟨fun _ => ?_, fun _ => ⟨a, hr⟩, fun _ => ⟨b, by rw [Heap.pathLeaf_of hr]; exact hb⟩⟩
  unfold Heap.pathNs at hr
  cases hx : lookup g h.root with
  | none => rw [hx] at hr; simp at hr
  | some x => exact ⟨x, rfl⟩

section steps
variable {h : Heap} {g : GVR} {c n : Str} {reg : Option Node} {ins : Instr} {rest : List Instr}

/-- An instruction never meets a nil pointer. -/
theorem ThrOK.target (ht : ThrOK h g c n (ins :: rest) reg) (hm : ins.mode ≠ .loc) : ∃ m, ins.target reg = some m := by
  obtain ⟨⟨k, rk, hc, hk, hr⟩, _⟩ := ht
  have c1 : rk = 1 → ∃ a, reg = some (.cl a) := fun e => by obtain ⟨a, h, _⟩ := hr.cl e; exact ⟨a, h⟩
  have c2 : rk = 2 → ∃ a, reg = some (.ns a) := fun e => by obtain ⟨a, h, _⟩ := hr.ns e; exact ⟨a, h⟩
  have c3 : rk = 3 → ∃ a, reg = some (.leaf a) := fun e => by obtain ⟨a, h, _⟩ := hr.leaf e; exact ⟨a, h⟩
  cases ins <;> simp only [Chk] at hc <;> simp only [Instr.mode, ne_eq, not_true_eq_false] at hm <;>
    simp only [Instr.target, Option.some.injEq, exists_eq']
  case clInit => obtain ⟨a, rfl⟩ := c1 hc.2.1; exact ⟨_, rfl⟩
  case clExists => obtain ⟨a, rfl⟩ := c1 hc.2.1; exact ⟨_, rfl⟩
  case clGet => obtain ⟨a, rfl⟩ := c1 hc.2.1; exact ⟨_, rfl⟩
  case nsInit => obtain ⟨a, rfl⟩ := c2 hc.2.1; exact ⟨_, rfl⟩
  case nsExists => obtain ⟨a, rfl⟩ := c2 hc.2.1; exact ⟨_, rfl⟩
  case nsGet => obtain ⟨a, rfl⟩ := c2 hc.2.1; exact ⟨_, rfl⟩
  case nsValues => obtain ⟨a, rfl⟩ := c2 hc.1; exact ⟨_, rfl⟩
  case eachCl => obtain ⟨a, rfl⟩ := c1 hc.1; exact ⟨_, rfl⟩
  case leafSet => obtain ⟨a, rfl⟩ := c3 hc.1; exact ⟨_, rfl⟩
  case leafDel => obtain ⟨a, rfl⟩ := c3 hc.1; exact ⟨_, rfl⟩
  case leafGet => obtain ⟨a, rfl⟩ := c3 hc.1; exact ⟨_, rfl⟩
  case leafLen => obtain ⟨a, rfl⟩ := c3 hc.1; exact ⟨_, rfl⟩

/-- What a write does to the heap. -/
theorem ThrOK.write (hk : h.OK) (ht : ThrOK h g c n (ins :: rest) reg) (hm : ins.mode = .write) {m : Node}
    (hn : ins.target reg = some m) :
    (ins.write m h).OK ∧ h.Grow (ins.write m h) ∧ ThrOK (ins.write m h) g c n rest reg
    ∧ match ins with
      | .leafSet name o => ∃ a, m = .leaf a ∧ h.pathLeaf g c n = some a ∧ ins.write m h = h.leafUpd a (insertKV name o)
      | .leafDel name => ∃ a, m = .leaf a ∧ h.pathLeaf g c n = some a ∧ ins.write m h = h.leafUpd a (eraseKV name)
      | .leafClean n' a => h.pathLeaf g c n' = some a ∧ ins.write m h = h.leafUpd a (fun _ => [])
      | _ => ∀ id, (ins.write m h).abs id = h.abs id := by
  obtain ⟨⟨k, rk, hc, hkn, hr⟩, hi⟩ := ht
  have hi' : ∀ i ∈ rest, InsOK h g c i := fun i hh => hi i (List.mem_cons_of_mem _ hh)
  cases ins <;> simp only [Instr.mode, reduceCtorEq] at hm <;> simp only [Chk] at hc
  case clInit c' _ =>
    obtain ⟨rfl, hrk, hc⟩ := hc
    obtain ⟨a, rfl, hra⟩ := hr.cl hrk
    simp only [Instr.target, Option.some.injEq] at hn; subst hn
    have ha := hk.rootB hra
    have hg := Heap.clInit_grow c' ha
    simp only [Instr.write]
    obtain ⟨b, hb⟩ := Heap.clInit_some (c := c') ha
    have hra' : lookup g (h.clInit a c').root = some a := by rw [hg.root]; exact hra
    refine ⟨Heap.clInit_ok hk ha, hg, ⟨⟨_, _, hc, (hkn.grow hg).max2 hra' hb, ?_⟩, fun i hh => (hi' i hh).grow hg⟩,
      Heap.clInit_abs ha⟩
    have := hr.grow hg
    rw [hrk] at this; exact this
  case nsInit n' _ =>
    obtain ⟨rfl, hrk, hc⟩ := hc
    obtain ⟨a, rfl, hra⟩ := hr.ns hrk
    simp only [Instr.target, Option.some.injEq] at hn; subst hn
    have ha := hk.pathNs_lt hra
    have hg := Heap.nsInit_grow n' ha
    simp only [Instr.write]
    obtain ⟨b, hb⟩ := Heap.nsInit_some (c := n') ha
    refine ⟨Heap.nsInit_ok hk ha, hg, ⟨⟨_, _, hc, Knows.max3 (hg.pathNs hra) hb, ?_⟩, fun i hh => (hi' i hh).grow hg⟩,
      Heap.nsInit_abs ha⟩
    have := hr.grow hg
    rw [hrk] at this; exact this
  case leafSet name o _ =>
    obtain ⟨hrk, hc⟩ := hc
    obtain ⟨a, rfl, hra⟩ := hr.leaf hrk
    simp only [Instr.target, Option.some.injEq] at hn; subst hn
    have ha := hk.pathLeaf_lt hra
    have hg := Heap.leafUpd_grow h a (insertKV name o)
    refine ⟨Heap.leafUpd_ok hk ha (fun _ hh => isMap_insertKV hh), hg,
      ⟨⟨_, _, hc, hkn.grow hg, ?_⟩, fun i hh => (hi' i hh).grow hg⟩, a, rfl, hra, rfl⟩
    have := hr.grow hg
    rw [hrk] at this; exact this
  case leafDel name _ =>
    obtain ⟨hrk, hc⟩ := hc
    obtain ⟨a, rfl, hra⟩ := hr.leaf hrk
    simp only [Instr.target, Option.some.injEq] at hn; subst hn
    have ha := hk.pathLeaf_lt hra
    have hg := Heap.leafUpd_grow h a (eraseKV name)
    refine ⟨Heap.leafUpd_ok hk ha (fun _ hh => isMap_eraseKV hh), hg,
      ⟨⟨_, _, hc, hkn.grow hg, ?_⟩, fun i hh => (hi' i hh).grow hg⟩, a, rfl, hra, rfl⟩
    have := hr.grow hg
    rw [hrk] at this; exact this
  case leafClean n' a _ =>
    simp only [Instr.target, Option.some.injEq] at hn; subst hn
    have hra : h.pathLeaf g c n' = some a := hi _ List.mem_cons_self
    have ha := hk.pathLeaf_lt hra
    have hg := Heap.leafUpd_grow h a (fun _ => [])
    exact ⟨Heap.leafUpd_ok hk ha (fun _ _ => isMap_nil), hg,
      ⟨⟨_, _, hc, hkn.grow hg, RegOK.zero _ _ _ _ _⟩, fun i hh => (hi' i hh).grow hg⟩, hra, rfl⟩

theorem chk_append_leafClean {k : Nat} {g : GVR} {c n : Str} {rest : List Instr} (h : Chk g c n k 0 rest) :
    ∀ (es : List (Str × Nat)) (rk : Nat), rk = 0 → Chk g c n k rk (es.map (fun e => .leafClean e.1 e.2) ++ rest)
  | [], rk, hrk => by subst hrk; exact h
  | e :: es, rk, _ => by
    simp only [List.map_cons, List.cons_append, Chk]
    exact chk_append_leafClean h es 0 rfl

theorem chk_append_eachNs {k : Nat} {g : GVR} {c n : Str} {rest : List Instr} (h : Chk g c n k 0 rest) (f : Str) :
    ∀ (es : List (Str × Nat)), Chk g c n k 0 (es.map (fun e => .eachNs f e.1 e.2) ++ rest)
  | [] => h
  | e :: es => by
    simp only [List.map_cons, List.cons_append, Chk]
    exact chk_append_eachNs h f es

theorem chk_append_eachLeaf {k : Nat} {g : GVR} {c n : Str} {rest : List Instr} (h : Chk g c n k 0 rest) (f : Str) :
    ∀ (es : List (Str × Nat)), Chk g c n k 0 (es.map (fun e => .eachLeaf f e.1 e.2) ++ rest)
  | [] => h
  | e :: es => by
    simp only [List.map_cons, List.cons_append, Chk]
    exact chk_append_eachLeaf h f es

theorem ThrOK.nil (h : Heap) (g : GVR) (c n : Str) (reg : Option Node) : ThrOK h g c n [] reg := by
  refine ⟨⟨0, 0, trivial, ⟨fun h => by simp at h, fun h => by simp at h, fun h => by simp at h⟩, RegOK.zero _ _ _ _ _⟩, ?_⟩
  intro i hi; simp at hi

theorem ThrOK.read (hk : h.OK) {t t' : Thr} (hp : t.prog = rest) (ht : ThrOK h g c n (ins :: rest) t.reg) {m : Node}
    (hn : ins.target t.reg = some m) (hb : Instr.Read h m ins t t') : ThrOK h g c n t'.prog t'.reg := by
  obtain ⟨⟨k, rk, hc, hkn, hr⟩, hi⟩ := ht
  have hi' : ∀ i ∈ rest, InsOK h g c i := fun i hh => hi i (List.mem_cons_of_mem _ hh)
  subst hp
  cases hb <;> simp only [Chk] at hc
  case rootGet g' =>
    obtain ⟨rfl, hk1, hc⟩ := hc
    obtain ⟨a, ha⟩ := hkn.root hk1
    refine ⟨⟨_, _, hc, hkn, fun _ => ⟨a, ?_, ha⟩, fun h => by simp at h, fun h => by simp at h⟩, hi'⟩
    simp only [ha, Option.map_some]
  case rootExists g' =>
    obtain ⟨rfl, hc⟩ := hc
    split
    · rename_i hs
      refine ⟨⟨_, _, hc, ⟨fun _ => Option.isSome_iff_exists.mp hs, fun h1 => hkn.cl (by omega), fun h1 => hkn.ns (by omega)⟩, hr⟩, hi'⟩
    · exact ThrOK.nil _ _ _ _ _
  case clExists a c' absent =>
    obtain ⟨rfl, hrk, hc⟩ := hc
    obtain ⟨a', hreg, hra⟩ := hr.cl hrk
    simp only [hreg, Instr.target, Option.some.injEq, Node.cl.injEq] at hn; subst hn
    split
    · rename_i hs
      obtain ⟨b, hb⟩ := Option.isSome_iff_exists.mp hs
      subst hrk
      exact ⟨⟨_, _, hc, hkn.max2 hra hb, hr⟩, hi'⟩
    · exact ThrOK.nil _ _ _ _ _
  case clGet a c' =>
    obtain ⟨rfl, hrk, hk2, hc⟩ := hc
    obtain ⟨a', hreg, hra⟩ := hr.cl hrk
    simp only [hreg, Instr.target, Option.some.injEq, Node.cl.injEq] at hn; subst hn
    obtain ⟨b, hb⟩ := hkn.cl hk2
    refine ⟨⟨_, _, hc, hkn, fun h => by simp at h, fun _ => ⟨b, ?_, hb⟩, fun h => by simp at h⟩, hi'⟩
    rw [Heap.pathNs_of hra] at hb
    simp only [hb, Option.map_some]
  case nsExists a n' =>
    obtain ⟨rfl, hrk, hc⟩ := hc
    obtain ⟨a', hreg, hra⟩ := hr.ns hrk
    simp only [hreg, Instr.target, Option.some.injEq, Node.ns.injEq] at hn; subst hn
    split
    · rename_i hs
      obtain ⟨b, hb⟩ := Option.isSome_iff_exists.mp hs
      subst hrk
      exact ⟨⟨_, _, hc, Knows.max3 hra hb, hr⟩, hi'⟩
    · exact ThrOK.nil _ _ _ _ _
  case nsGet a n' =>
    obtain ⟨rfl, hrk, hk2, hc⟩ := hc
    obtain ⟨a', hreg, hra⟩ := hr.ns hrk
    simp only [hreg, Instr.target, Option.some.injEq, Node.ns.injEq] at hn; subst hn
    obtain ⟨b, hb⟩ := hkn.ns hk2
    refine ⟨⟨_, _, hc, hkn, fun h => by simp at h, fun h => by simp at h, fun _ => ⟨b, ?_, hb⟩⟩, hi'⟩
    rw [Heap.pathLeaf_of hra] at hb
    simp only [hb, Option.map_some]
  case nsValues a es hp =>
    obtain ⟨hrk, hc⟩ := hc
    obtain ⟨a', hreg, hra⟩ := hr.ns hrk
    simp only [hreg, Instr.target, Option.some.injEq, Node.ns.injEq] at hn; subst hn
    refine ⟨⟨_, _, chk_append_leafClean hc es 0 rfl, hkn, RegOK.zero _ _ _ _ _⟩, ?_⟩
    intro i hii
    rcases List.mem_append.mp hii with hii | hii
    · obtain ⟨e, he, rfl⟩ := List.mem_map.mp hii
      show h.pathLeaf g c e.1 = some e.2
      rw [Heap.pathLeaf_of hra]
      exact lookup_eq_some_of_mem (hk.nsM a') (hp.mem_iff.mp he)
    · exact hi' i hii
  case leafGet a name =>
    obtain ⟨hrk, hc⟩ := hc
    subst hrk
    exact ⟨⟨_, _, hc, hkn, hr⟩, hi'⟩
  case leafLen a =>
    obtain ⟨hrk, hc⟩ := hc
    subst hrk
    exact ⟨⟨_, _, hc, hkn, hr⟩, hi'⟩
  case eachLeaf a c' n' es hp =>
    exact ⟨⟨_, _, hc, hkn, RegOK.zero _ _ _ _ _⟩, hi'⟩

theorem ThrOK.hold (hk : h.OK) {t t' : Thr} (hp : t.prog = rest) (ht : ThrOK h g c n (ins :: rest) t.reg) {m : Node}
    (hn : ins.target t.reg = some m) (hb : Instr.Hold h m ins t t') : ThrOK h g c n t'.prog t'.reg := by
  obtain ⟨⟨k, rk, hc, hkn, hr⟩, hi⟩ := ht
  have hi' : ∀ i ∈ rest, InsOK h g c i := fun i hh => hi i (List.mem_cons_of_mem _ hh)
  subst hp
  cases hb <;> simp only [Chk] at hc
  case eachCl a f es hp =>
    obtain ⟨hrk, hc⟩ := hc
    obtain ⟨a', hreg, hra⟩ := hr.cl hrk
    simp only [hreg, Instr.target, Option.some.injEq, Node.cl.injEq] at hn; subst hn
    refine ⟨⟨_, _, chk_append_eachNs (rest := .unlock (.cl a') :: t.prog) (by simpa only [Chk] using hc) f es, hkn,
      RegOK.zero _ _ _ _ _⟩, ?_⟩
    intro i hii
    rcases List.mem_append.mp hii with hii | hii
    · obtain ⟨e, he, rfl⟩ := List.mem_map.mp hii
      show h.pathNs g e.1 = some e.2
      rw [Heap.pathNs_of hra]
      exact lookup_eq_some_of_mem (hk.clM a') (hp.mem_iff.mp he)
    · rcases List.mem_cons.mp hii with rfl | hii
      · trivial
      · exact hi' i hii
  case eachNs a f c' es hp =>
    have hra : h.pathNs g c' = some a := hi _ List.mem_cons_self
    refine ⟨⟨_, _, chk_append_eachLeaf (rest := .unlock (.ns a) :: t.prog) (by simpa only [Chk] using hc) c' _, hkn,
      RegOK.zero _ _ _ _ _⟩, ?_⟩
    intro i hii
    rcases List.mem_append.mp hii with hii | hii
    · obtain ⟨e, he, rfl⟩ := List.mem_map.mp hii
      show h.pathLeaf g c' e.1 = some e.2
      rw [Heap.pathLeaf_of hra]
      exact lookup_eq_some_of_mem (hk.nsM a) (hp.mem_iff.mp (List.mem_of_mem_filter he))
    · rcases List.mem_cons.mp hii with rfl | hii
      · trivial
      · exact hi' i hii

theorem ThrOK.loc (ht : ThrOK h g c n (ins :: rest) reg) (hm : ins.mode = .loc) : ThrOK h g c n rest reg := by
  obtain ⟨⟨k, rk, hc, hkn, hr⟩, hi⟩ := ht
  cases ins <;> simp only [Instr.mode, reduceCtorEq] at hm <;> simp only [Chk] at hc <;>
    exact ⟨⟨_, _, hc, hkn, RegOK.zero _ _ _ _ _⟩, fun i hh => hi i (List.mem_cons_of_mem _ hh)⟩

end steps

/-- The program of a call passes the check. -/
theorem prog_ok {eval : Str → Obj → Str} {conf : List (GVR × List (Str × Str))} {h : Heap}
    (hroot : ∀ g, (lookup g h.root).isSome = (lookup g conf).isSome) {op : COp} (hv : op.Valid conf) :
    ThrOK h (op.path eval conf).1 (op.path eval conf).2.1 (op.path eval conf).2.2 (op.prog eval conf) none := by
  have k1 : ∀ {g c n}, (lookup g conf).isSome = true → Knows h g c n 1 := by
    intro g c n hg
    rw [← hroot] at hg
    exact ⟨fun _ => Option.isSome_iff_exists.mp hg, fun h => by omega, fun h => by omega⟩
  have k0 : ∀ {g c n}, Knows h g c n 0 := ⟨fun h => by omega, fun h => by omega, fun h => by omega⟩
  cases op with
  | notice nt =>
    cases nt with
    | added g c o | modified g c o | deleted g c o =>
      refine ⟨⟨1, 0, ?_, k1 hv, RegOK.zero _ _ _ _ _⟩, ?_⟩
      · simp [COp.prog, COp.path, notifyProg, initProg, Chk]
      · simp [COp.prog, notifyProg, initProg, InsOK]
    | clean g c =>
      refine ⟨⟨1, 0, ?_, k1 hv, RegOK.zero _ _ _ _ _⟩, ?_⟩
      · simp [COp.prog, COp.path, cleanProg, Chk]
      · simp [COp.prog, cleanProg, InsOK]
  | get g c ns name =>
    refine ⟨⟨0, 0, ?_, k0, RegOK.zero _ _ _ _ _⟩, ?_⟩
    · simp [COp.prog, COp.path, getProg, Chk]
    · simp [COp.prog, getProg, InsOK]
  | query g q =>
    refine ⟨⟨1, 0, ?_, k1 hv, RegOK.zero _ _ _ _ _⟩, ?_⟩
    · simp [COp.prog, COp.path, queryProg, Chk]
    · simp [COp.prog, queryProg, InsOK]

/-- Invariant of all reachable states. -/
structure Good (eval : Str → Obj → Str) (conf : List (GVR × List (Str × Str))) (σ : CState) : Prop where
  ok : σ.heap.OK
  root : ∀ g, (lookup g σ.heap.root).isSome = (lookup g conf).isSome
  alive : σ.crashed = false
  thr : ∀ (i : Nat) (t : Thr), σ.thrs[i]? = some t →
    ThrOK σ.heap (t.op.path eval conf).1 (t.op.path eval conf).2.1 (t.op.path eval conf).2.2 t.prog t.reg

theorem Read.op {h : Heap} {m : Node} {ins : Instr} {t t' : Thr} (hb : Instr.Read h m ins t t') :
    t'.op = t.op ∧ t'.phase = t.phase ∧ t'.returned = t.returned := by
  cases hb <;> first | exact ⟨rfl, rfl, rfl⟩ | (split <;> exact ⟨rfl, rfl, rfl⟩)

theorem Hold.op {h : Heap} {m : Node} {ins : Instr} {t t' : Thr} (hb : Instr.Hold h m ins t t') :
    t'.op = t.op ∧ t'.phase = t.phase ∧ t'.returned = t.returned := by
  cases hb <;> exact ⟨rfl, rfl, rfl⟩

theorem getElem?_set_some {α : Type} {l : List α} {i j : Nat} {a b : α} (h : (l.set i a)[j]? = some b) :
    (i = j ∧ b = a) ∨ (i ≠ j ∧ l[j]? = some b) := by
  rw [List.getElem?_set] at h
  split at h
  · rename_i hij
    subst hij
    split at h
    · cases h; exact Or.inl ⟨rfl, rfl⟩
    · simp at h
  · rename_i hij; exact Or.inr ⟨hij, h⟩

variable {isPrint : Nat → Bool} {eval : Str → Obj → Str} {alg : SliceSort} {pf : Str → Option GoFloat}
  {conf : List (GVR × List (Str × Str))}

theorem Good.start : Good eval conf { heap := newHeap conf } :=
  ⟨(Heap.newHeap_ok conf).1, (Heap.newHeap_ok conf).2.2, rfl, by simp⟩

theorem Good.call {σ : CState} (hg : Good eval conf σ) {op : COp} (hv : op.Valid conf) :
    Good eval conf (σ.call eval conf op) := by
  refine ⟨hg.ok, hg.root, hg.alive, ?_⟩
  intro i t hi
  have hi' : (σ.thrs ++ [{ op := op, prog := op.prog eval conf, ans := op.ans0 }])[i]? = some t := hi
  rw [List.getElem?_append] at hi'
  split at hi'
  · exact hg.thr i t hi'
  · cases hx : i - σ.thrs.length with
    | zero =>
      rw [hx] at hi'
      simp only [List.getElem?_cons_zero, Option.some.injEq] at hi'
      subst hi'
      exact prog_ok hg.root hv
    | succ k => rw [hx] at hi'; simp at hi'

theorem Good.setThr {σ : CState} (hg : Good eval conf σ) {i : Nat} {t t' : Thr} (_ht : σ.thrs[i]? = some t)
    (hop : t'.op = t.op)
    (hok : ThrOK σ.heap (t.op.path eval conf).1 (t.op.path eval conf).2.1 (t.op.path eval conf).2.2 t'.prog t'.reg)
    {σ' : CState} (e1 : σ'.heap = σ.heap) (e2 : σ'.thrs = σ.thrs.set i t') (e3 : σ'.crashed = σ.crashed) :
    Good eval conf σ' := by
  refine ⟨by rw [e1]; exact hg.ok, by rw [e1]; exact hg.root, by rw [e3]; exact hg.alive, ?_⟩
  intro j s hj
  rw [e2] at hj
  rw [e1]
  rcases getElem?_set_some hj with ⟨rfl, rfl⟩ | ⟨_, hj⟩
  · rw [hop]; exact hok
  · exact hg.thr j s hj

theorem Good.step {σ σ' : CState} {i : Nat} (hg : Good eval conf σ) (hs : TStep isPrint alg pf i σ σ') :
    Good eval conf σ' := by
  cases hs with
  | ret t ht hp hr => exact hg.setThr ht (t' := { t with returned := true }) rfl (hg.thr i t ht) rfl rfl rfl
  | crash t ins rest ht hp hm hn =>
    have := hg.thr i t ht
    rw [hp] at this
    obtain ⟨m, hm'⟩ := this.target hm
    rw [hm'] at hn; simp at hn
  | announce t ins rest n ht hp hm hn hph hw =>
    exact hg.setThr ht (t' := { t with phase := .announced }) rfl (hg.thr i t ht) rfl rfl rfl
  | acquire t ins rest n ht hp hm hn hph hr =>
    exact hg.setThr ht (t' := { t with phase := .locked }) rfl (hg.thr i t ht) rfl rfl rfl
  | write t ins rest n ht hp hm hn hph =>
    have hto := hg.thr i t ht
    rw [hp] at hto
    obtain ⟨h1, h2, h3, _⟩ := hto.write hg.ok hm hn
    refine ⟨h1, ?_, hg.alive, ?_⟩
    · intro g
      show (lookup g (ins.write n σ.heap).root).isSome = _
      rw [h2.root]; exact hg.root g
    · intro j s hj
      rcases getElem?_set_some hj with ⟨rfl, rfl⟩ | ⟨_, hj⟩
      · exact h3
      · exact (hg.thr j s hj).grow h2
  | rlock t ins rest n ht hp hm hn hph hw =>
    exact hg.setThr ht (t' := { t with phase := .locked }) rfl (hg.thr i t ht) rfl rfl rfl
  | read t ins rest n t' ht hp hm hn hph hb =>
    have hto := hg.thr i t ht
    rw [hp] at hto
    exact hg.setThr ht (t' := t') (Read.op hb).1 (ThrOK.read (t := { t with phase := .ready, prog := rest }) hg.ok rfl hto hn hb) rfl rfl rfl
  | hold t ins rest n t' ht hp hm hn hph hb =>
    have hto := hg.thr i t ht
    rw [hp] at hto
    exact hg.setThr ht (t' := t') (Hold.op hb).1 (ThrOK.hold (t := { t with phase := .ready, prog := rest }) hg.ok rfl hto hn hb) rfl rfl rfl
  | unlock t rest n ht hp =>
    have hto := hg.thr i t ht
    rw [hp] at hto
    exact hg.setThr ht (t' := { t with prog := rest }) rfl (hto.loc rfl) rfl rfl rfl
  | gauge t rest k ht hp =>
    have hto := hg.thr i t ht
    rw [hp] at hto
    exact hg.setThr ht (t' := { t with prog := rest }) rfl (hto.loc rfl) rfl rfl rfl
  | finish t rest q ht hp =>
    have hto := hg.thr i t ht
    rw [hp] at hto
    exact hg.setThr ht (t' := { t with prog := rest, ans := .result (queryList isPrint alg pf t.seen q) }) rfl
      (hto.loc rfl) rfl rfl rfl

theorem Good.exec {P : COp → Prop} (hP : ∀ op, P op → op.Valid conf) {past : List CState} {σ : CState}
    (he : Exec isPrint eval alg pf conf P past σ) : Good eval conf σ := by
  induction he with
  | start => exact Good.start
  | call _ op hp ih => exact ih.call (hP op hp)
  | step _ i hs ih => exact ih.step hs

end Ckube

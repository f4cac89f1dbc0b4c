import Verif.Lemmas.Str
import Verif.Spec.Cache

/-! # Lemmas about the store -/

namespace Ckube
open Spec

section Maps
variable {κ ν : Type} [DecidableEq κ]

theorem lookup_initKV {k k' : κ} {z : ν} {m : List (κ × ν)} :
    lookup k' (initKV k z m) = if k = k' then some ((lookup k m).getD z) else lookup k' m := by
  unfold initKV
  cases h : lookup k m with
  | none => simp [lookup_insertKV]
  | some v =>
    simp only [Option.getD_some]
    split
    · rename_i hk; rw [← hk, h]
    · rfl

theorem isMap_initKV {k : κ} {z : ν} {m : List (κ × ν)} (h : IsMap m) : IsMap (initKV k z m) := by
  unfold initKV
  split
  · exact h
  · exact isMap_insertKV h

theorem mem_insertKV {k : κ} {v : ν} {e : κ × ν} : ∀ {m : List (κ × ν)}, e ∈ insertKV k v m → e = (k, v) ∨ e ∈ m
  | [], h => by simpa [insertKV] using h
  | (a, b) :: m, h => by
    simp only [insertKV] at h
    split at h
    · rcases List.mem_cons.mp h with h | h
      · exact Or.inl h
      · exact Or.inr (List.mem_cons_of_mem _ h)
    · rcases List.mem_cons.mp h with h | h
      · exact Or.inr (by simp [h])
      · rcases mem_insertKV h with h | h
        · exact Or.inl h
        · exact Or.inr (List.mem_cons_of_mem _ h)

theorem mem_initKV {k : κ} {z : ν} {e : κ × ν} {m : List (κ × ν)} (h : e ∈ initKV k z m) : e = (k, z) ∨ e ∈ m := by
  unfold initKV at h
  split at h
  · exact Or.inr h
  · exact mem_insertKV h

theorem lookup_map_snd {ν' : Type} (f : ν → ν') {k : κ} : ∀ m : List (κ × ν),
    lookup k (m.map fun e => (e.1, f e.2)) = (lookup k m).map f
  | [] => rfl
  | (a, b) :: m => by
    simp only [List.map_cons, lookup]
    split
    · rfl
    · exact lookup_map_snd f m

omit [DecidableEq κ] in
theorem isMap_map_snd {ν' : Type} (f : ν → ν') {m : List (κ × ν)} (h : IsMap m) :
    IsMap (m.map fun e => (e.1, f e.2)) := by
  unfold IsMap at h ⊢
  rw [List.map_map]
  exact h

omit [DecidableEq κ] in
theorem isMap_nil : IsMap ([] : List (κ × ν)) := by simp [IsMap]

end Maps

/-! ## Leaves -/

/-- The objects of a cluster and namespace. -/
def leafOf (cm : ClMap) (c ns : Str) : Leaf := (lookup ns ((lookup c cm).getD [])).getD []

theorem leafOf_initNs (c ns : Str) (cm : ClMap) (c' ns' : Str) : leafOf (initNs c ns cm) c' ns' = leafOf cm c' ns' := by
  unfold leafOf initNs
  simp only [lookup_insertKV, lookup_initKV, if_true, Option.getD_some]
  by_cases hc : c = c'
  · subst hc
    simp only [if_true, Option.getD_some, lookup_initKV]
    by_cases hn : ns = ns'
    · subst hn; simp
    · simp [hn]
  · simp [hc]

theorem leafOf_updLeaf (c ns : Str) (f : Leaf → Leaf) (cm : ClMap) (c' ns' : Str) :
    leafOf (updLeaf c ns f cm) c' ns' = if c = c' ∧ ns = ns' then f (leafOf cm c ns) else leafOf cm c' ns' := by
  unfold leafOf updLeaf
  simp only [lookup_insertKV]
  by_cases hc : c = c'
  · subst hc
    simp only [if_true, Option.getD_some, lookup_insertKV, true_and]
    by_cases hn : ns = ns'
    · subst hn; simp
    · simp [hn]
  · simp [hc]

theorem get_eq (s : Store) (g : GVR) (c ns name : Str) :
    s.get g c ns name = ((lookup g s.data).bind fun cm => lookup name (leafOf cm c ns)).map SObj.obj := by
  unfold Store.get leafOf
  cases lookup g s.data with
  | none => rfl
  | some cm =>
    simp only [Option.bind_some]
    cases lookup c cm with
    | none => simp [lookup]
    | some nm =>
      simp only [Option.bind_some, Option.getD_some]
      cases lookup ns nm with
      | none => simp [lookup]
      | some leaf => simp

/-- The stored object of an identity. -/
def look (s : Store) (id : Ident) : Option SObj :=
  (lookup id.gvr s.data).bind fun cm => lookup id.name (leafOf cm id.cluster id.ns)

theorem get_look (s : Store) (g : GVR) (c ns name : Str) :
    s.get g c ns name = (look s ⟨g, c, ns, name⟩).map SObj.obj := get_eq s g c ns name

/-! ## Well-formedness -/

/-- All the maps have distinct keys, and every entry satisfies `P`. -/
def ClMap.WF (P : Str → Str → Str → SObj → Prop) (cm : ClMap) : Prop :=
  IsMap cm ∧ ∀ c nm, (c, nm) ∈ cm → IsMap nm ∧ ∀ ns leaf, (ns, leaf) ∈ nm →
    IsMap leaf ∧ ∀ name so, (name, so) ∈ leaf → P c ns name so

variable {P : Str → Str → Str → SObj → Prop}

theorem ClMap.WF.nil : ClMap.WF P [] := ⟨isMap_nil, by simp⟩

theorem ClMap.WF.ns {cm : ClMap} (h : cm.WF P) (c : Str) : IsMap ((lookup c cm).getD []) ∧
    ∀ ns leaf, (ns, leaf) ∈ (lookup c cm).getD [] → IsMap leaf ∧ ∀ name so, (name, so) ∈ leaf → P c ns name so := by
  cases hl : lookup c cm with
  | none => exact ⟨isMap_nil, by simp⟩
  | some nm => exact h.2 c nm (mem_of_lookup hl)

theorem ClMap.WF.leaf {cm : ClMap} (h : cm.WF P) (c ns : Str) : IsMap (leafOf cm c ns) ∧
    ∀ name so, (name, so) ∈ leafOf cm c ns → P c ns name so := by
  unfold leafOf
  cases hl : lookup ns ((lookup c cm).getD []) with
  | none => exact ⟨isMap_nil, by simp⟩
  | some leaf => exact (h.ns c).2 ns leaf (mem_of_lookup hl)

theorem ClMap.WF.insert {cm : ClMap} (h : cm.WF P) {c : Str} {nm : NsMap} (h1 : IsMap nm)
    (h2 : ∀ ns leaf, (ns, leaf) ∈ nm → IsMap leaf ∧ ∀ name so, (name, so) ∈ leaf → P c ns name so) :
    ClMap.WF P (insertKV c nm cm) := by
  refine ⟨isMap_insertKV h.1, ?_⟩
  intro c' nm' hm
  rcases mem_insertKV hm with he | he
  · cases he; exact ⟨h1, h2⟩
  · exact h.2 c' nm' he

theorem ClMap.WF.initNs {cm : ClMap} (h : cm.WF P) (c ns : Str) : ClMap.WF P (initNs c ns cm) := by
  have h1 : ClMap.WF P (initKV c [] cm) := by
    refine ⟨isMap_initKV h.1, ?_⟩
    intro c' nm' hm
    rcases mem_initKV hm with he | he
    · cases he; exact ⟨isMap_nil, by simp⟩
    · exact h.2 c' nm' he
  refine h1.insert (isMap_initKV (h1.ns c).1) ?_
  intro ns' leaf hm
  rcases mem_initKV hm with he | he
  · cases he; exact ⟨isMap_nil, by simp⟩
  · exact (h1.ns c).2 ns' leaf he

theorem ClMap.WF.updLeaf {cm : ClMap} (h : cm.WF P) {c ns : Str} {f : Leaf → Leaf}
    (h1 : IsMap (f (leafOf cm c ns)))
    (h2 : ∀ name so, (name, so) ∈ f (leafOf cm c ns) → P c ns name so) : ClMap.WF P (updLeaf c ns f cm) := by
  refine h.insert (isMap_insertKV (h.ns c).1) ?_
  intro ns' leaf hm
  rcases mem_insertKV hm with he | he
  · cases he; exact ⟨h1, h2⟩
  · exact (h.ns c).2 ns' leaf he

/-- Everything stored was built from an object received for that type and cluster. -/
def Built (eval : Str → Obj → Str) (conf : List (Str × Str)) (c ns name : Str) (so : SObj) : Prop :=
  ∃ o, build eval conf c o = (ns, name, so)

structure Store.WF (eval : Str → Obj → Str) (s : Store) : Prop where
  data : IsMap s.data
  cl : ∀ g cm, (g, cm) ∈ s.data → ClMap.WF (Built eval (s.confOf g)) cm

theorem notify_some {s s' : Store} {g : GVR} {c ns : Str} {f : Leaf → Leaf} (h : s.notify g c ns f = some s') :
    ∃ cm, lookup g s.data = some cm ∧ s'.conf = s.conf
      ∧ s'.data = insertKV g (updLeaf c ns f (initNs c ns cm)) s.data
      ∧ s'.gauge = insertKV (c, g, ns) (f (leafOf cm c ns)).length s.gauge := by
  unfold Store.notify at h
  cases hl : lookup g s.data with
  | none => rw [hl] at h; simp at h
  | some cm =>
    rw [hl] at h
    simp only [Option.some.injEq] at h
    subst h
    refine ⟨cm, rfl, rfl, rfl, ?_⟩
    show insertKV _ (leafOf (updLeaf c ns f (initNs c ns cm)) c ns).length _ = _
    rw [leafOf_updLeaf, leafOf_initNs]
    simp

theorem notify_wf {eval : Str → Obj → Str} {s s' : Store} {g : GVR} {c ns : Str} {f : Leaf → Leaf} (hw : s.WF eval)
    (h : s.notify g c ns f = some s')
    (h1 : ∀ l, IsMap l → IsMap (f l))
    (h2 : ∀ l, (∀ name so, (name, so) ∈ l → Built eval (s.confOf g) c ns name so) →
      ∀ name so, (name, so) ∈ f l → Built eval (s.confOf g) c ns name so) : s'.WF eval := by
  obtain ⟨cm, hl, hc, hd, _⟩ := notify_some h
  have hcm := (hw.cl g cm (mem_of_lookup hl)).initNs c ns
  have hleaf := hcm.leaf c ns
  refine ⟨by rw [hd]; exact isMap_insertKV hw.data, ?_⟩
  intro g' cm' hm
  have hconf : s'.confOf = s.confOf := by unfold Store.confOf; rw [hc]
  rw [hconf]
  rw [hd] at hm
  rcases mem_insertKV hm with he | he
  · cases he
    exact hcm.updLeaf (h1 _ hleaf.1) (h2 _ hleaf.2)
  · exact hw.cl g' cm' he

theorem notify_look {s s' : Store} {g : GVR} {c ns : Str} {f : Leaf → Leaf}
    (h : s.notify g c ns f = some s') (id : Ident) :
    look s' id = if g = id.gvr ∧ c = id.cluster ∧ ns = id.ns
      then (lookup g s.data).bind fun cm => lookup id.name (f (leafOf cm c ns)) else look s id := by
  obtain ⟨cm, hl, _, hd, _⟩ := notify_some h
  unfold look
  rw [hd, lookup_insertKV]
  by_cases hg : g = id.gvr
  · rw [if_pos hg]
    rw [← hg, hl]
    simp only [Option.bind_some, leafOf_updLeaf, leafOf_initNs, true_and]
    split <;> rfl
  · simp [hg]

theorem clean_some {s s' : Store} {g : GVR} {c : Str} {e : Bool} (h : s.clean g c = some (s', e)) :
    ∃ cm, lookup g s.data = some cm ∧ ((lookup c cm = none ∧ s' = s ∧ e = true) ∨
      ∃ nm, lookup c cm = some nm ∧ e = false
        ∧ s' = { s with data := insertKV g (insertKV c (nm.map fun e => (e.1, ([] : Leaf))) cm) s.data }) := by
  unfold Store.clean at h
  cases hl : lookup g s.data with
  | none => rw [hl] at h; simp at h
  | some cm =>
    rw [hl] at h
    simp only at h
    cases hn : lookup c cm with
    | none =>
      rw [hn] at h
      simp only [Option.some.injEq, Prod.mk.injEq] at h
      exact ⟨cm, rfl, Or.inl ⟨hn, h.1.symm, h.2.symm⟩⟩
    | some nm =>
      rw [hn] at h
      simp only [Option.some.injEq, Prod.mk.injEq] at h
      exact ⟨cm, rfl, Or.inr ⟨nm, hn, h.2.symm, h.1.symm⟩⟩

theorem leafOf_clean {cm : ClMap} {c : Str} {nm : NsMap} (c' ns' : Str) :
    leafOf (insertKV c (nm.map fun e => (e.1, ([] : Leaf))) cm) c' ns' = if c = c' then [] else leafOf cm c' ns' := by
  unfold leafOf
  rw [lookup_insertKV]
  split
  · simp only [Option.getD_some]
    rw [lookup_map_snd (fun _ => ([] : Leaf))]
    cases lookup ns' nm <;> rfl
  · rfl

theorem clean_wf {eval : Str → Obj → Str} {s s' : Store} {g : GVR} {c : Str} {e : Bool} (hw : s.WF eval)
    (h : s.clean g c = some (s', e)) : s'.WF eval := by
  obtain ⟨cm, hl, ⟨_, rfl, _⟩ | ⟨nm, hn, _, rfl⟩⟩ := clean_some h
  · exact hw
  · have hcm := hw.cl g cm (mem_of_lookup hl)
    refine ⟨isMap_insertKV hw.data, ?_⟩
    intro g' cm' hm
    rcases mem_insertKV hm with he | he
    · cases he
      refine hcm.insert (isMap_map_snd (fun _ => ([] : Leaf)) (hcm.2 c nm (mem_of_lookup hn)).1) ?_
      intro ns leaf hm
      obtain ⟨e, _, he⟩ := List.mem_map.mp hm
      cases he
      exact ⟨isMap_nil, by simp⟩
    · exact hw.cl g' cm' he

theorem clean_look {s s' : Store} {g : GVR} {c : Str} {e : Bool} (h : s.clean g c = some (s', e)) (id : Ident) :
    look s' id = if g = id.gvr ∧ c = id.cluster then none else look s id := by
  obtain ⟨cm, hl, ⟨hn, rfl, _⟩ | ⟨nm, hn, _, rfl⟩⟩ := clean_some h
  · split
    · rename_i hc
      unfold look leafOf
      rw [← hc.1, hl, ← hc.2]
      simp only [Option.bind_some, hn, Option.getD_none]
      rfl
    · rfl
  · unfold look
    simp only [lookup_insertKV]
    by_cases hg : g = id.gvr
    · rw [if_pos hg, ← hg, hl]
      simp only [Option.bind_some, leafOf_clean, true_and]
      split
      · rfl
      · rfl
    · simp [hg]

/-! ## Built objects -/

theorem lookup_confIndex (eval : Str → Obj → Str) (conf : List (Str × Str)) (o : Obj) (k : Str) :
    lookup k (confIndex eval conf o) = (lookup k conf).map (indexValue eval o) :=
  lookup_map_snd (indexValue eval o) conf

theorem build_key (eval : Str → Obj → Str) (conf : List (Str × Str)) (c : Str) (o : Obj) :
    ((build eval conf c o).1, (build eval conf c o).2.1) = objKey eval conf o := by
  unfold build objKey
  cases ho : o.om with
  | some m => rfl
  | none =>
    simp only [lookup_confIndex]
    cases lookup (lit "namespace") conf <;> cases lookup (lit "name") conf <;> rfl

theorem build_same (eval : Str → Obj → Str) (conf : List (Str × Str)) (c : Str) (o : Obj) :
    SameButMarks o (build eval conf c o).2.2.obj := by
  unfold build SameButMarks
  cases ho : o.om with
  | none => simp [ho]
  | some m =>
    refine ⟨rfl, rfl, rfl, rfl, rfl, rfl, rfl, ?_⟩
    intro k h1 h2
    simp only [lookup_insertKV]
    rw [if_neg (fun h => h2 h.symm), if_neg (fun h => h1 h.symm)]

/-! ## Histories -/

/-- What one call does to the stored objects. -/
theorem step_look {eval : Str → Obj → Str} {s s' : Store} (hw : s.WF eval) {n : Notice} (h : s.step eval n = some s') :
    s'.WF eval ∧ s'.conf = s.conf ∧ ∀ id,
      (∀ o, Writes eval s.confOf n id o → look s' id = some (build eval (s.confOf id.gvr) id.cluster o).2.2)
      ∧ (Removes eval s.confOf n id → look s' id = none)
      ∧ ((∀ o, ¬ Writes eval s.confOf n id o) → ¬ Removes eval s.confOf n id → look s' id = look s id) := by
  have put : ∀ g c o, s.put eval g c o = some s' → s'.WF eval ∧ s'.conf = s.conf ∧ ∀ id,
      look s' id = if identOf eval s.confOf g c o = id
        then some (build eval (s.confOf id.gvr) id.cluster o).2.2 else look s id := by
    intro g c o h
    unfold Store.put at h
    have hk := build_key eval (s.confOf g) c o
    refine ⟨notify_wf hw h (fun l hl => isMap_insertKV hl) ?_, (notify_some h).choose_spec.2.1, ?_⟩
    · intro l hl name so hm
      rcases mem_insertKV hm with he | he
      · cases he; exact ⟨o, rfl⟩
      · exact hl name so he
    · intro id
      rw [notify_look h]
      obtain ⟨cm, hl, _⟩ := notify_some h
      have hid : identOf eval s.confOf g c o = id ↔ g = id.gvr ∧ c = id.cluster
          ∧ (build eval (s.confOf g) c o).1 = id.ns ∧ (build eval (s.confOf g) c o).2.1 = id.name := by
        unfold identOf
        rw [← hk]
        constructor
        · rintro rfl; exact ⟨rfl, rfl, rfl, rfl⟩
        · rintro ⟨h1, h2, h3, h4⟩; cases id; simp_all
      simp only [hid, hl, Option.bind_some, lookup_insertKV]
      by_cases h1 : g = id.gvr ∧ c = id.cluster ∧ (build eval (s.confOf g) c o).1 = id.ns
      · rw [if_pos h1]
        by_cases h2 : (build eval (s.confOf g) c o).2.1 = id.name
        · rw [if_pos h2, if_pos ⟨h1.1, h1.2.1, h1.2.2, h2⟩, ← h1.1, ← h1.2.1]
        · rw [if_neg h2, if_neg (fun h => h2 h.2.2.2)]
          unfold look
          rw [← h1.1, hl, ← h1.2.1, ← h1.2.2]
          rfl
      · rw [if_neg h1, if_neg (fun h => h1 ⟨h.1, h.2.1, h.2.2.1⟩)]
  cases n with
  | added g c o =>
    obtain ⟨h1, h2, h3⟩ := put g c o h
    refine ⟨h1, h2, fun id => ⟨?_, fun h => h.elim, ?_⟩⟩
    · rintro o' ⟨rfl, hid⟩; rw [h3, if_pos hid]
    · intro hn _; rw [h3, if_neg (fun hid => hn o ⟨rfl, hid⟩)]
  | modified g c o =>
    obtain ⟨h1, h2, h3⟩ := put g c o h
    refine ⟨h1, h2, fun id => ⟨?_, fun h => h.elim, ?_⟩⟩
    · rintro o' ⟨rfl, hid⟩; rw [h3, if_pos hid]
    · intro hn _; rw [h3, if_neg (fun hid => hn o ⟨rfl, hid⟩)]
  | deleted g c o =>
    have h' : s.onDeleted eval g c o = some s' := h
    unfold Store.onDeleted at h'
    have hk := build_key eval (s.confOf g) c o
    obtain ⟨cm, hl, hc, _⟩ := notify_some h'
    have hleaf := ((hw.cl g cm (mem_of_lookup hl)).leaf c (build eval (s.confOf g) c o).1).1
    have h3 : ∀ id, look s' id = if identOf eval s.confOf g c o = id then none else look s id := by
      intro id
      rw [notify_look h']
      have hid : identOf eval s.confOf g c o = id ↔ g = id.gvr ∧ c = id.cluster
          ∧ (build eval (s.confOf g) c o).1 = id.ns ∧ (build eval (s.confOf g) c o).2.1 = id.name := by
        unfold identOf
        rw [← hk]
        constructor
        · rintro rfl; exact ⟨rfl, rfl, rfl, rfl⟩
        · rintro ⟨h1, h2, h3, h4⟩; cases id; simp_all
      simp only [hid, hl, Option.bind_some, lookup_eraseKV hleaf]
      by_cases h1 : g = id.gvr ∧ c = id.cluster ∧ (build eval (s.confOf g) c o).1 = id.ns
      · rw [if_pos h1]
        by_cases h2 : (build eval (s.confOf g) c o).2.1 = id.name
        · rw [if_pos h2, if_pos ⟨h1.1, h1.2.1, h1.2.2, h2⟩]
        · rw [if_neg h2, if_neg (fun h => h2 h.2.2.2)]
          unfold look
          rw [← h1.1, hl, ← h1.2.1, ← h1.2.2]
          rfl
      · rw [if_neg h1, if_neg (fun h => h1 ⟨h.1, h.2.1, h.2.2.1⟩)]
    refine ⟨notify_wf hw h' (fun l hl => isMap_eraseKV hl) (fun l hl name so hm => hl name so (mem_eraseKV_of hm)),
      hc, fun id => ⟨fun _ h => h.elim, ?_, ?_⟩⟩
    · intro hid; rw [h3]; exact if_pos hid
    · intro _ hid; rw [h3]; exact if_neg hid
  | clean g c =>
    have h' : (s.clean g c).map Prod.fst = some s' := h
    rw [Option.map_eq_some_iff] at h'
    obtain ⟨⟨s2, e⟩, h', rfl⟩ := h'
    have hconf : s2.conf = s.conf := by
      obtain ⟨cm, _, ⟨_, rfl, _⟩ | ⟨nm, _, _, rfl⟩⟩ := clean_some h' <;> rfl
    refine ⟨clean_wf hw h', hconf, fun id => ⟨fun _ h => h.elim, ?_, ?_⟩⟩
    · intro hid; rw [clean_look h']; exact if_pos hid
    · intro _ hid; rw [clean_look h']; exact if_neg hid

theorem newStore_lookup (conf : List (GVR × List (Str × Str))) :
    ∀ (d : List (GVR × ClMap)), (∀ g cm, lookup g d = some cm → cm = []) →
    (∀ g cm, lookup g (conf.foldl (fun d e => initKV e.1 ([] : ClMap) d) d) = some cm → cm = [])
    ∧ (IsMap d → IsMap (conf.foldl (fun d e => initKV e.1 ([] : ClMap) d) d))
    ∧ ∀ g, (lookup g (conf.foldl (fun d e => initKV e.1 ([] : ClMap) d) d)).isSome = true ↔
        (lookup g d).isSome = true ∨ g ∈ conf.map Prod.fst := by
  induction conf with
  | nil => intro d h; exact ⟨h, id, by simp⟩
  | cons e conf ih =>
    intro d h
    have h' : ∀ g cm, lookup g (initKV e.1 ([] : ClMap) d) = some cm → cm = [] := by
      intro g cm hl
      rw [lookup_initKV] at hl
      split at hl
      · cases hd : lookup e.1 d with
        | none => rw [hd] at hl; simpa using hl.symm
        | some x => rw [hd] at hl; simp at hl; rw [← hl]; exact h _ _ hd
      · exact h _ _ hl
    obtain ⟨i1, i2, i3⟩ := ih _ h'
    refine ⟨i1, fun hd => i2 (isMap_initKV hd), ?_⟩
    intro g
    rw [List.foldl_cons, i3, lookup_initKV]
    simp only [List.map_cons, List.mem_cons]
    by_cases hg : e.1 = g
    · simp [hg]
    · simp [hg, Ne.symm hg]

theorem newStore_wf (eval : Str → Obj → Str) (conf : List (GVR × List (Str × Str))) : (newStore conf).WF eval := by
  obtain ⟨h1, h2, _⟩ := newStore_lookup conf [] (by simp [lookup])
  have h2 := h2 isMap_nil
  refine ⟨h2, ?_⟩
  intro g cm hm
  have := h1 g cm (lookup_eq_some_of_mem h2 hm)
  subst this
  exact ClMap.WF.nil

theorem newStore_look (conf : List (GVR × List (Str × Str))) (id : Ident) : look (newStore conf) id = none := by
  obtain ⟨h1, _, _⟩ := newStore_lookup conf [] (by simp [lookup])
  unfold look
  cases h : lookup id.gvr (newStore conf).data with
  | none => rfl
  | some cm =>
    have := h1 _ _ h
    subst this
    rfl

theorem run_append {eval : Str → Obj → Str} (s : Store) (h₁ h₂ : List Notice) :
    s.run eval (h₁ ++ h₂) = (s.run eval h₁).bind fun s' => s'.run eval h₂ := by
  induction h₁ generalizing s with
  | nil => rfl
  | cons n h ih =>
    simp only [List.cons_append, Store.run, Option.bind_assoc]
    congr 1
    funext s'
    exact ih s'

theorem latest_nil {eval : Str → Obj → Str} {conf : GVR → List (Str × Str)} {id : Ident} {o : Obj} :
    ¬ Latest eval conf [] id o := by
  rintro ⟨h₁, n, h₂, he, _⟩
  simp at he

theorem latest_concat {eval : Str → Obj → Str} {conf : GVR → List (Str × Str)} {h : List Notice} {n : Notice}
    {id : Ident} {o : Obj} : Latest eval conf (h ++ [n]) id o ↔ Writes eval conf n id o ∨
      (Latest eval conf h id o ∧ (∀ o', ¬ Writes eval conf n id o') ∧ ¬ Removes eval conf n id) := by
  constructor
  · rintro ⟨h₁, n', h₂, he, hw, hl⟩
    rcases List.eq_nil_or_concat h₂ with rfl | ⟨r, z, rfl⟩
    · have he : h ++ [n] = h₁ ++ [n'] := he
      have := List.append_inj' he rfl
      simp only [List.cons.injEq, and_true] at this
      exact Or.inl (this.2 ▸ hw)
    · have he' : h ++ [n] = (h₁ ++ n' :: r) ++ [z] := by rw [he]; simp
      have := List.append_inj' he' rfl
      simp only [List.cons.injEq, and_true] at this
      obtain ⟨rfl, rfl⟩ := this
      refine Or.inr ⟨⟨h₁, n', r, rfl, hw, fun x hx => hl x (by simp [hx])⟩, hl n (by simp)⟩
  · rintro (hw | ⟨⟨h₁, n', h₂, rfl, hw, hl⟩, hn⟩)
    · exact ⟨h, n, [], rfl, hw, by simp⟩
    · refine ⟨h₁, n', h₂ ++ [n], by simp, hw, ?_⟩
      intro x hx
      rcases List.mem_append.mp hx with hx | hx
      · exact hl x hx
      · rw [List.mem_singleton.mp hx]; exact hn

/-- The store after a history is the map of the latest objects. -/
theorem run_look {eval : Str → Obj → Str} {conf : List (GVR × List (Str × Str))} (h : List Notice) :
    ∀ {s : Store}, (newStore conf).run eval h = some s → s.WF eval ∧ s.conf = conf
      ∧ ∀ id, (∀ o, Latest eval s.confOf h id o → look s id = some (build eval (s.confOf id.gvr) id.cluster o).2.2)
        ∧ ((∀ o, ¬ Latest eval s.confOf h id o) → look s id = none) := by
  induction h using List.reverseRecOn with
  | nil =>
    intro s hs
    simp only [Store.run, Option.some.injEq] at hs
    subst hs
    exact ⟨newStore_wf eval conf, rfl, fun id => ⟨fun o ho => absurd ho latest_nil, fun _ => newStore_look conf id⟩⟩
  | append_singleton h n ih =>
    intro s hs
    rw [run_append, Option.bind_eq_some_iff] at hs
    obtain ⟨s1, h1, h2⟩ := hs
    simp only [Store.run, Option.bind_eq_some_iff, Option.some.injEq, exists_eq_right] at h2
    obtain ⟨hw, hconf, hl⟩ := ih h1
    obtain ⟨hw', hconf', hstep⟩ := step_look hw h2
    have hc : s.confOf = s1.confOf := by unfold Store.confOf; rw [hconf']
    refine ⟨hw', hconf'.trans hconf, ?_⟩
    intro id
    rw [hc]
    obtain ⟨i1, i2, i3⟩ := hstep id
    constructor
    · intro o ho
      rcases latest_concat.mp ho with hwr | ⟨hla, hnw, hnr⟩
      · exact i1 o hwr
      · rw [i3 hnw hnr]; exact (hl id).1 o hla
    · intro hno
      by_cases hr : Removes eval s1.confOf n id
      · exact i2 hr
      · have hnw : ∀ o, ¬ Writes eval s1.confOf n id o := fun o hw => hno o (latest_concat.mpr (Or.inl hw))
        rw [i3 hnw hr]
        exact (hl id).2 (fun o ho => hno o (latest_concat.mpr (Or.inr ⟨ho, hnw, hr⟩)))

end Ckube

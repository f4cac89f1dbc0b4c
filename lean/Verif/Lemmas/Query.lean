import Verif.Lemmas.Store
import Verif.Lemmas.Sort
import Verif.Lemmas.Search

/-! # Lemmas about queries -/

namespace Ckube
open Spec

instance {κ ν : Type} [DecidableEq κ] (m : List (κ × ν)) : Decidable (IsMap m) :=
  inferInstanceAs (Decidable (m.map Prod.fst).Nodup)

/-! ## Map iteration orders -/

section Shuffle
variable {κ ν : Type} [DecidableEq κ]

omit [DecidableEq κ] in
theorem ShuffleMap.isMap {R : ν → ν → Prop} {a b : List (κ × ν)} (h : ShuffleMap R a b) (ha : IsMap a) : IsMap b := by
  obtain ⟨l, h1, rfl, _⟩ := h
  unfold IsMap at *
  have := (h1.map Prod.fst).nodup_iff.mpr ha
  simpa [List.map_map, Function.comp_def] using this

theorem ShuffleMap.lookup {R : ν → ν → Prop} {a b : List (κ × ν)} (h : ShuffleMap R a b) (ha : IsMap a) (k : κ) :
    (lookup k a = none ∧ lookup k b = none) ∨ ∃ x y, lookup k a = some x ∧ lookup k b = some y ∧ R x y := by
  have hb := h.isMap ha
  obtain ⟨l, h1, rfl, h3⟩ := h
  have hl : IsMap (l.map fun e => (e.1, e.2.1)) := by
    unfold IsMap at *
    exact (h1.map Prod.fst).nodup_iff.mpr ha
  cases hk : Ckube.lookup k (l.map fun e => (e.1, e.2.2)) with
  | none =>
    left
    refine ⟨?_, rfl⟩
    rw [lookup_eq_none] at hk ⊢
    intro v hv
    have := h1.symm.subset hv
    obtain ⟨e, he, heq⟩ := List.mem_map.mp this
    cases heq
    exact hk e.2.2 (List.mem_map.mpr ⟨e, he, rfl⟩)
  | some y =>
    right
    obtain ⟨e, he, heq⟩ := List.mem_map.mp (mem_of_lookup hk)
    cases heq
    refine ⟨e.2.1, e.2.2, ?_, rfl, h3 e he⟩
    exact lookup_eq_some_of_mem ha (h1.subset (List.mem_map.mpr ⟨e, he, rfl⟩))

omit [DecidableEq κ] in
theorem ShuffleMap.flatMap {R : ν → ν → Prop} {β : Type} {a b : List (κ × ν)} (h : ShuffleMap R a b)
    (f : κ × ν → List β) (hf : ∀ k x y, R x y → (f (k, x)).Perm (f (k, y))) :
    (a.flatMap f).Perm (b.flatMap f) := by
  obtain ⟨l, h1, rfl, h3⟩ := h
  refine (h1.symm.flatMap_right f).trans ?_
  rw [List.flatMap_map, List.flatMap_map]
  induction l with
  | nil => exact List.Perm.refl _
  | cons e l ih =>
    simp only [List.flatMap_cons]
    refine List.Perm.append (hf _ _ _ (h3 e (by simp))) ?_
    have ih' : ∀ (l : List (κ × ν × ν)), (∀ e ∈ l, R e.2.1 e.2.2) →
        (l.flatMap fun e => f (e.1, e.2.1)).Perm (l.flatMap fun e => f (e.1, e.2.2)) := by
      intro l
      induction l with
      | nil => intro _; exact List.Perm.refl _
      | cons e l ih =>
        intro h
        simp only [List.flatMap_cons]
        exact List.Perm.append (hf _ _ _ (h e (by simp))) (ih fun e he => h e (by simp [he]))
    exact ih' l (fun e he => h3 e (by simp [he]))

omit [DecidableEq κ] in
theorem ShuffleMap.refl {R : ν → ν → Prop} (hR : ∀ x, R x x) (a : List (κ × ν)) : ShuffleMap R a a := by
  refine ⟨a.map fun e => (e.1, e.2, e.2), ?_, ?_, ?_⟩
  · simp [List.map_map, Function.comp_def]
  · simp [List.map_map, Function.comp_def]
  · intro e he
    obtain ⟨x, _, rfl⟩ := List.mem_map.mp he
    exact hR _

end Shuffle

theorem Shuffle.refl (cm : ClMap) : Shuffle cm cm :=
  ShuffleMap.refl (fun nm => ShuffleMap.refl (fun l => List.Perm.refl l) nm) cm

/-- The objects a query visits, with their identities. -/
def entries (ns : Str) (cm : ClMap) : List ((Str × Str × Str) × SObj) :=
  cm.flatMap fun c => c.2.flatMap fun n =>
    if ns = [] ∨ ns = n.1 then n.2.map fun e => ((c.1, n.1, e.1), e.2) else []

theorem visited_entries (ns : Str) (cm : ClMap) : visited ns cm = (entries ns cm).map Prod.snd := by
  unfold visited entries
  simp only [List.map_flatMap]
  congr 1
  funext c
  congr 1
  funext n
  split
  · simp [List.map_map, Function.comp_def]
  · rfl

theorem Shuffle.entries {cm cm' : ClMap} (h : Shuffle cm cm') (ns : Str) : (entries ns cm).Perm (Ckube.entries ns cm') := by
  refine ShuffleMap.flatMap h _ ?_
  intro c nm nm' h'
  refine ShuffleMap.flatMap h' _ ?_
  intro n l l' h''
  show List.Perm (if ns = [] ∨ ns = n then _ else _) (if ns = [] ∨ ns = n then _ else _)
  split
  · exact h''.map _
  · exact List.Perm.refl _

/-- Every answer in which the maps are iterated one inside the other meets the objects in some order. -/
theorem Store.answers.may {isPrint : Nat → Bool} {alg : SliceSort} {pf : Str → Option GoFloat} {s : Store} {g : GVR} {q : Query}
    {r : Option QueryResult} (h : s.answers isPrint alg pf g q r) : s.mayAnswer isPrint alg pf g q r := by
  unfold Store.answers at h
  unfold Store.mayAnswer
  cases hg : lookup g s.data with
  | none => rw [hg] at h; exact h
  | some cm =>
    rw [hg] at h
    obtain ⟨cm', hsh, hq⟩ := h
    refine ⟨visited q.ns cm', ?_, hq⟩
    rw [visited_entries, visited_entries]
    exact ((hsh.entries q.ns).symm).map Prod.snd

theorem mem_entries {P : Str → Str → Str → SObj → Prop} {cm : ClMap} (hw : cm.WF P) {ns c n name : Str} {so : SObj} :
    ((c, n, name), so) ∈ entries ns cm ↔ lookup name (leafOf cm c n) = some so ∧ (ns = [] ∨ ns = n) := by
  unfold entries
  simp only [List.mem_flatMap, Prod.exists]
  constructor
  · rintro ⟨c', nm, hc, n', leaf, hn, hm⟩
    split at hm
    · rename_i hns
      obtain ⟨e, he, heq⟩ := List.mem_map.mp hm
      cases heq
      have h1 := lookup_eq_some_of_mem hw.1 hc
      have h2 := lookup_eq_some_of_mem (hw.2 c nm hc).1 hn
      refine ⟨?_, hns⟩
      unfold leafOf
      rw [h1, Option.getD_some, h2, Option.getD_some]
      exact lookup_eq_some_of_mem ((hw.2 c nm hc).2 n leaf hn).1 he
    · simp at hm
  · rintro ⟨hl, hns⟩
    unfold leafOf at hl
    cases h1 : lookup c cm with
    | none => rw [h1] at hl; simp [lookup] at hl
    | some nm =>
      rw [h1, Option.getD_some] at hl
      cases h2 : lookup n nm with
      | none => rw [h2] at hl; simp [lookup] at hl
      | some leaf =>
        rw [h2, Option.getD_some] at hl
        refine ⟨c, nm, mem_of_lookup h1, n, leaf, mem_of_lookup h2, ?_⟩
        rw [if_pos hns]
        exact List.mem_map.mpr ⟨(name, so), mem_of_lookup hl, rfl⟩

theorem nodup_flatMap_keys {α β γ : Type} {l : List α} (key : α → γ) (hk : (l.map key).Nodup) (f : α → List β)
    (proj : β → γ) (hp : ∀ a ∈ l, ∀ b ∈ f a, proj b = key a) (hf : ∀ a ∈ l, (f a).Nodup) : (l.flatMap f).Nodup := by
  induction l with
  | nil => simp
  | cons a l ih =>
    simp only [List.map_cons, List.nodup_cons] at hk
    rw [List.flatMap_cons, List.nodup_append]
    refine ⟨hf a (by simp), ih hk.2 (fun a ha => hp a (by simp [ha])) (fun a ha => hf a (by simp [ha])), ?_⟩
    rintro x hx y hy rfl
    obtain ⟨a', ha', hx'⟩ := List.mem_flatMap.mp hy
    have h1 := hp a (by simp) x hx
    have h2 := hp a' (by simp [ha']) x hx'
    exact hk.1 (List.mem_map.mpr ⟨a', ha', h2.symm.trans h1⟩)

theorem entries_nodup {P : Str → Str → Str → SObj → Prop} {cm : ClMap} (hw : cm.WF P) (ns : Str) :
    ((entries ns cm).map Prod.fst).Nodup := by
  unfold entries
  rw [List.map_flatMap]
  refine nodup_flatMap_keys Prod.fst hw.1 _ (fun k => k.1) ?_ ?_
  · rintro ⟨c, nm⟩ _ b hb
    simp only [List.mem_map, List.mem_flatMap] at hb
    obtain ⟨e, ⟨n, _, hm⟩, rfl⟩ := hb
    split at hm
    · obtain ⟨x, _, rfl⟩ := List.mem_map.mp hm; rfl
    · simp at hm
  · rintro ⟨c, nm⟩ hc
    rw [List.map_flatMap]
    refine nodup_flatMap_keys Prod.fst (hw.2 c nm hc).1 _ (fun k => k.2.1) ?_ ?_
    · rintro ⟨n, leaf⟩ _ b hb
      simp only [List.mem_map] at hb
      obtain ⟨e, hm, rfl⟩ := hb
      split at hm
      · obtain ⟨x, _, rfl⟩ := List.mem_map.mp hm; rfl
      · simp at hm
    · rintro ⟨n, leaf⟩ hn
      split
      · rw [List.map_map]
        have h1 := ((hw.2 c nm hc).2 n leaf hn).1
        unfold IsMap at h1
        have h2 : (leaf.map (Prod.fst ∘ fun e => ((c, n, e.1), e.2))) = (leaf.map Prod.fst).map fun x => (c, n, x) := by
          simp [List.map_map, Function.comp_def]
        rw [h2]
        exact h1.map (fun a b hab => by simpa using hab)
      · simp

/-! ## The index of a stored object -/

theorem build_index (eval : Str → Obj → Str) {conf : List (Str × Str)} (hc : IsMap conf) (c : Str) (o : Obj) :
    IsIndex eval conf c o (build eval conf c o).2.2.index := by
  have h0 : IsMap (confIndex eval conf o) := isMap_map_snd (indexValue eval o) hc
  unfold build IsIndex indexValueOf
  cases ho : o.om with
  | none =>
    refine ⟨isMap_insertKV h0, ?_⟩
    intro k
    simp only [lookup_insertKV, lookup_confIndex]
    by_cases hk : lit "cluster" = k
    · simp [hk]
    · simp [hk, Ne.symm hk]
  | some m =>
    refine ⟨isMap_insertKV (isMap_insertKV (isMap_insertKV (isMap_insertKV h0))), ?_⟩
    intro k
    simp only [lookup_insertKV, lookup_confIndex]
    by_cases h1 : k = lit "cluster"
    · subst h1; rw [if_neg (by decide), if_neg (by decide), if_neg (by decide), if_pos rfl, if_pos rfl]
    · by_cases h2 : k = lit "is_deleted"
      · subst h2
        rw [if_neg (show ¬ lit "name" = lit "is_deleted" by decide),
          if_neg (show ¬ lit "namespace" = lit "is_deleted" by decide), if_pos rfl, if_neg h1, if_pos rfl]
      · by_cases h3 : k = lit "namespace"
        · subst h3; rw [if_neg (by decide), if_pos rfl, if_neg (by decide), if_neg (by decide), if_pos rfl]
        · by_cases h4 : k = lit "name"
          · subst h4; rw [if_pos rfl, if_neg (by decide), if_neg (by decide), if_neg (by decide), if_pos rfl]
          · rw [if_neg (Ne.symm h4), if_neg (Ne.symm h3), if_neg (Ne.symm h2), if_neg (Ne.symm h1), if_neg h1,
              if_neg h2, if_neg h3, if_neg h4]

theorem perm_of_lookup {κ ν : Type} [DecidableEq κ] {a b : List (κ × ν)} (ha : IsMap a) (hb : IsMap b)
    (h : ∀ k, lookup k a = lookup k b) : a.Perm b := by
  have nd : ∀ {l : List (κ × ν)}, IsMap l → l.Nodup := fun hl => List.Nodup.of_map _ hl
  rw [List.perm_ext_iff_of_nodup (nd ha) (nd hb)]
  rintro ⟨k, v⟩
  rw [← lookup_iff ha, ← lookup_iff hb, h]

theorem matches_perm {isPrint : Nat → Bool} {a b : List (Str × Str)} (ha : IsMap a) (h : a.Perm b) (p : Paginate) :
    p.matches isPrint a = p.matches isPrint b := by
  unfold Paginate.matches
  have hl : ∀ ps n, matchLoop isPrint a ps n = matchLoop isPrint b ps n := by
    intro ps
    induction ps with
    | nil => intro n; rfl
    | cons p ps ih => intro n; simp only [matchLoop, match1_perm ha h p, ih]
  generalize searchParts p.search = ps
  match ps with
  | [] => simp [matchParts, hl]
  | [q] => simp [matchParts, match1_perm ha h q]
  | q :: r :: t => simp [matchParts, hl]

theorem isIndex_matches {isPrint : Nat → Bool} {eval : Str → Obj → Str} {conf : List (Str × Str)} {c : Str} {o : Obj}
    {a b : List (Str × Str)} (ha : IsIndex eval conf c o a) (hb : IsIndex eval conf c o b) (p : Paginate) :
    p.matches isPrint a = p.matches isPrint b :=
  matches_perm ha.1 (perm_of_lookup ha.1 hb.1 fun k => (ha.2 k).trans (hb.2 k).symm) p

/-! ## The answer of a query -/

theorem queryList_cases {isPrint : Nat → Bool} {alg : SliceSort} {pf : Str → Option GoFloat} {vs : List SObj} {q : Query}
    {res : QueryResult} (h : queryList isPrint alg pf vs q = some res) (he : res.error = false) :
    (vs.any fun o => (q.page.matches isPrint o.index).isNone) = false ∧
    ∃ sorted : List SObj, sorted.Perm (vs.filter fun o => q.page.matches isPrint o.index == some true)
      ∧ (((vs.filter fun o => q.page.matches isPrint o.index == some true) = [] ∧ sorted = []
            ∧ res.items = [])
        ∨ (sortObjs alg pf (vs.filter fun o => q.page.matches isPrint o.index == some true) q.page.sort
            = (sorted, false)
          ∧ ∃ items, slice sorted (bounds q.page.page q.page.pageSize sorted.length).1
                (bounds q.page.page q.page.pageSize sorted.length).2 = some items ∧ res.items = items.map SObj.obj))
      ∧ res.total = sorted.length := by
  unfold queryList at h
  simp only at h
  generalize hr : (vs.filter fun o => q.page.matches isPrint o.index == some true) = rs at h ⊢
  split at h
  · rename_i h0
    simp only [Option.some.injEq] at h
    subst h
    have : rs = [] := List.length_eq_zero_iff.mp h0
    subst this
    exact ⟨he, [], List.Perm.refl _, Or.inl ⟨rfl, rfl, rfl⟩, rfl⟩
  · split at h
    · simp only [Option.some.injEq] at h
      subst h
      simp at he
    · rename_i hs
      rw [Option.map_eq_some_iff] at h
      obtain ⟨items, h1, rfl⟩ := h
      have hp : (sortObjs alg pf rs q.page.sort).1.Perm rs := by
        unfold sortObjs
        split
        · exact List.Perm.refl _
        · split
          · exact List.Perm.refl _
          · exact List.Perm.refl _
          · exact alg.perm _ _
      have hlen : ((sortObjs alg pf rs q.page.sort).1.length : Int) = rs.length := by rw [hp.length_eq]
      refine ⟨he, (sortObjs alg pf rs q.page.sort).1, hp, Or.inr ⟨?_, items, ?_, rfl⟩, ?_⟩
      · exact Prod.ext rfl (by simpa using hs)
      · rw [hlen]; exact h1
      · exact hlen.symm

theorem query_cases {isPrint : Nat → Bool} {alg : SliceSort} {pf : Str → Option GoFloat} {cm : ClMap} {q : Query}
    {res : QueryResult} (h : queryMap isPrint alg pf cm q = some res) (he : res.error = false) :
    ((visited q.ns cm).any fun o => (q.page.matches isPrint o.index).isNone) = false ∧
    ∃ sorted : List SObj, sorted.Perm ((visited q.ns cm).filter fun o => q.page.matches isPrint o.index == some true)
      ∧ ((((visited q.ns cm).filter fun o => q.page.matches isPrint o.index == some true) = [] ∧ sorted = []
            ∧ res.items = [])
        ∨ (sortObjs alg pf ((visited q.ns cm).filter fun o => q.page.matches isPrint o.index == some true) q.page.sort
            = (sorted, false)
          ∧ ∃ items, slice sorted (bounds q.page.page q.page.pageSize sorted.length).1
                (bounds q.page.page q.page.pageSize sorted.length).2 = some items ∧ res.items = items.map SObj.obj))
      ∧ res.total = sorted.length :=
  queryList_cases h he

theorem slice_all {α : Type} (l : List α) : slice l 0 l.length = some l := by
  unfold slice
  rw [if_pos (by omega)]
  simp

theorem perm_map_exists {α β : Type} (f : α → β) {l₁ l₂ : List β} (h : l₁.Perm l₂) :
    ∀ l : List α, l.map f = l₁ → ∃ l' : List α, l'.map f = l₂ ∧ l.Perm l' := by
  induction h with
  | nil => intro l hl; exact ⟨l, hl, List.Perm.refl _⟩
  | @cons x a b _ ih =>
    intro l hl
    cases l with
    | nil => simp at hl
    | cons y l =>
      simp only [List.map_cons, List.cons.injEq] at hl
      obtain ⟨l', h1, h2⟩ := ih l hl.2
      exact ⟨y :: l', by simp [h1, hl.1], h2.cons y⟩
  | swap x y a =>
    intro l hl
    match l with
    | [] => simp at hl
    | [_] => simp at hl
    | u :: v :: l =>
      simp only [List.map_cons, List.cons.injEq] at hl
      exact ⟨v :: u :: l, by simp [hl], List.Perm.swap _ _ _⟩
  | trans _ _ ih1 ih2 =>
    intro l hl
    obtain ⟨l', h1, h2⟩ := ih1 l hl
    obtain ⟨l'', h3, h4⟩ := ih2 l' h1
    exact ⟨l'', h3, h2.trans h4⟩

/-- The visited objects are the latest ones. -/
theorem entries_latest {eval : Str → Obj → Str} {conf : List (GVR × List (Str × Str))} {h : List Notice} {s : Store}
    (hrun : (newStore conf).run eval h = some s) {g : GVR} {cm : ClMap} (hg : lookup g s.data = some cm)
    {ns c n name : Str} {so : SObj} : ((c, n, name), so) ∈ entries ns cm ↔
      (∃ o, Latest eval (confAt conf) h ⟨g, c, n, name⟩ o ∧ so = (build eval (confAt conf g) c o).2.2)
        ∧ (ns = [] ∨ ns = n) := by
  obtain ⟨hw, hc, hl⟩ := run_look h hrun
  have hcf : s.confOf = confAt conf := by unfold Store.confOf confAt; rw [hc]
  rw [hcf] at hl
  rw [mem_entries (hw.cl g cm (mem_of_lookup hg))]
  have hk : look s ⟨g, c, n, name⟩ = lookup name (leafOf cm c n) := by unfold look; simp only; rw [hg]; rfl
  rw [← hk]
  obtain ⟨h1, h2⟩ := hl ⟨g, c, n, name⟩
  constructor
  · rintro ⟨hso, hns⟩
    refine ⟨?_, hns⟩
    by_cases hex : ∃ o, Latest eval (confAt conf) h ⟨g, c, n, name⟩ o
    · obtain ⟨o, ho⟩ := hex
      rw [h1 o ho] at hso
      exact ⟨o, ho, by simpa using hso.symm⟩
    · rw [h2 (fun o ho => hex ⟨o, ho⟩)] at hso
      simp at hso
  · rintro ⟨⟨o, ho, rfl⟩, hns⟩
    exact ⟨h1 o ho, hns⟩

theorem confAt_isMap {conf : List (GVR × List (Str × Str))} (h : ConfOK conf) (g : GVR) : IsMap (confAt conf g) := by
  unfold confAt
  cases hl : lookup g conf with
  | none => exact isMap_nil
  | some m => exact h.2 _ (mem_of_lookup hl)

/-- The matching entries are the matching identities. -/
theorem matching_entry {isPrint : Nat → Bool} {eval : Str → Obj → Str} {conf : List (GVR × List (Str × Str))}
    (hconf : ConfOK conf) {h : List Notice} {s : Store} (hrun : (newStore conf).run eval h = some s) {g : GVR}
    {cm : ClMap} (hg : lookup g s.data = some cm) (q : Query) {c n name : Str} {so : SObj} :
    (((c, n, name), so) ∈ entries q.ns cm ∧ q.page.matches isPrint so.index = some true) ↔
      ∃ o, Matching isPrint eval conf h g q ⟨g, c, n, name⟩ o ∧ so = (build eval (confAt conf g) c o).2.2 := by
  rw [entries_latest hrun hg]
  constructor
  · rintro ⟨⟨⟨o, ho, rfl⟩, hns⟩, hm⟩
    exact ⟨o, ⟨ho, rfl, hns, _, build_index eval (confAt_isMap hconf g) c o, hm⟩, rfl⟩
  · rintro ⟨o, ⟨ho, _, hns, idx, hidx, hm⟩, rfl⟩
    refine ⟨⟨⟨o, ho, rfl⟩, hns⟩, ?_⟩
    rw [← hm]
    exact isIndex_matches (build_index eval (confAt_isMap hconf g) c o) hidx q.page

/-! ## Which types and clusters exist -/

theorem step_types {eval : Str → Obj → Str} {s s' : Store} {n : Notice} (h : s.step eval n = some s') (g : GVR) :
    (lookup g s'.data).isSome = (lookup g s.data).isSome := by
  have hn : ∀ {g' c ns f}, s.notify g' c ns f = some s' → (lookup g s'.data).isSome = (lookup g s.data).isSome := by
    intro g' c ns f h
    obtain ⟨cm, hl, _, hd, _⟩ := notify_some h
    rw [hd, lookup_insertKV]
    split
    · rename_i he; rw [← he, hl]; rfl
    · rfl
  cases n with
  | added g' c o => exact hn h
  | modified g' c o => exact hn h
  | deleted g' c o => exact hn h
  | clean g' c =>
    have h' : (s.clean g' c).map Prod.fst = some s' := h
    rw [Option.map_eq_some_iff] at h'
    obtain ⟨⟨s2, e⟩, h', rfl⟩ := h'
    obtain ⟨cm, hl, ⟨_, rfl, _⟩ | ⟨nm, _, _, rfl⟩⟩ := clean_some h'
    · rfl
    · simp only [lookup_insertKV]
      split
      · rename_i he; rw [← he, hl]; rfl
      · rfl

theorem notify_isSome {s : Store} {g : GVR} {c ns : Str} {f : Leaf → Leaf} :
    (s.notify g c ns f).isSome = (lookup g s.data).isSome := by
  unfold Store.notify
  cases lookup g s.data <;> rfl

theorem clean_isSome {s : Store} {g : GVR} {c : Str} : (s.clean g c).isSome = (lookup g s.data).isSome := by
  unfold Store.clean
  cases lookup g s.data with
  | none => rfl
  | some cm => simp only; cases lookup c cm <;> rfl

theorem step_isSome {eval : Str → Obj → Str} {s : Store} {n : Notice} :
    (s.step eval n).isSome = (lookup n.gvr s.data).isSome := by
  cases n with
  | added g c o => exact notify_isSome
  | modified g c o => exact notify_isSome
  | deleted g c o => exact notify_isSome
  | clean g c =>
    show ((s.clean g c).map Prod.fst).isSome = _
    rw [Option.isSome_map]
    exact clean_isSome

theorem newStore_types (conf : List (GVR × List (Str × Str))) (g : GVR) :
    (lookup g (newStore conf).data).isSome = true ↔ g ∈ conf.map Prod.fst := by
  obtain ⟨_, _, h⟩ := newStore_lookup conf [] (by simp [lookup])
  have := h g
  simpa [lookup, newStore] using this

theorem run_types {eval : Str → Obj → Str} {s s' : Store} {h : List Notice} (hr : s.run eval h = some s') (g : GVR) :
    (lookup g s'.data).isSome = (lookup g s.data).isSome := by
  induction h generalizing s with
  | nil => simp only [Store.run, Option.some.injEq] at hr; rw [hr]
  | cons n h ih =>
    simp only [Store.run, Option.bind_eq_some_iff] at hr
    obtain ⟨s1, h1, h2⟩ := hr
    rw [ih h2, step_types h1]

theorem run_isSome {eval : Str → Obj → Str} {s : Store} {h : List Notice}
    (hh : ∀ n ∈ h, (lookup n.gvr s.data).isSome = true) : (s.run eval h).isSome = true := by
  induction h generalizing s with
  | nil => rfl
  | cons n h ih =>
    have h1 : (s.step eval n).isSome = true := by rw [step_isSome]; exact hh n (by simp)
    obtain ⟨s1, hs1⟩ := Option.isSome_iff_exists.mp h1
    simp only [Store.run, hs1, Option.bind_some]
    exact ih fun m hm => by rw [step_types hs1]; exact hh m (by simp [hm])

/-- The clusters known for a type. -/
def known (s : Store) (g : GVR) (c : Str) : Bool := ((lookup g s.data).bind (lookup c)).isSome

/-- The notification is about the type and cluster. -/
def Notice.mentions (n : Notice) (g : GVR) (c : Str) : Prop :=
  match n with
  | .added g' c' _ | .modified g' c' _ | .deleted g' c' _ => g' = g ∧ c' = c
  | .clean _ _ => False

theorem initNs_known (c ns : Str) (cm : ClMap) (c' : Str) :
    (lookup c' (initNs c ns cm)).isSome = true ↔ c = c' ∨ (lookup c' cm).isSome = true := by
  unfold initNs
  simp only [lookup_insertKV, lookup_initKV]
  by_cases hc : c = c'
  · simp [hc]
  · simp [hc]

theorem notify_known {s s' : Store} {g : GVR} {c ns : Str} {f : Leaf → Leaf} (h : s.notify g c ns f = some s')
    (g' : GVR) (c' : Str) : known s' g' c' = true ↔ (g = g' ∧ c = c') ∨ known s g' c' = true := by
  obtain ⟨cm, hl, _, hd, _⟩ := notify_some h
  unfold known
  rw [hd, lookup_insertKV]
  by_cases hg : g = g'
  · subst hg
    rw [if_pos rfl, hl]
    simp only [Option.bind_some, true_and]
    have : lookup c' (updLeaf c ns f (initNs c ns cm)) = none ↔ lookup c' (initNs c ns cm) = none := by
      unfold updLeaf
      simp only [lookup_insertKV]
      by_cases hc : c = c'
      · subst hc
        have := (initNs_known c ns cm c).mpr (Or.inl rfl)
        simp only [if_true, reduceCtorEq, false_iff]
        intro h0
        rw [h0] at this
        simp at this
      · rw [if_neg hc]
    rw [← initNs_known c ns cm c', Option.isSome_iff_ne_none, Option.isSome_iff_ne_none, ne_eq, ne_eq, this]
  · rw [if_neg hg]
    simp [hg]

theorem step_known {eval : Str → Obj → Str} {s s' : Store} {n : Notice} (h : s.step eval n = some s') (g : GVR) (c : Str) :
    known s' g c = true ↔ n.mentions g c ∨ known s g c = true := by
  cases n with
  | added g' c' o => exact notify_known h g c
  | modified g' c' o => exact notify_known h g c
  | deleted g' c' o => exact notify_known h g c
  | clean g' c' =>
    have h' : (s.clean g' c').map Prod.fst = some s' := h
    rw [Option.map_eq_some_iff] at h'
    obtain ⟨⟨s2, e⟩, h', rfl⟩ := h'
    simp only [Notice.mentions, false_or]
    obtain ⟨cm, hl, ⟨_, rfl, _⟩ | ⟨nm, hn, _, rfl⟩⟩ := clean_some h'
    · rfl
    · unfold known
      simp only [lookup_insertKV]
      by_cases hg : g' = g
      · subst hg
        rw [if_pos rfl, hl]
        simp only [Option.bind_some, lookup_insertKV]
        by_cases hc : c' = c
        · subst hc; rw [if_pos rfl, hn]; simp
        · rw [if_neg hc]
      · rw [if_neg hg]

theorem run_known {eval : Str → Obj → Str} {s s' : Store} {h : List Notice} (hr : s.run eval h = some s') (g : GVR)
    (c : Str) : known s' g c = true ↔ (∃ n ∈ h, n.mentions g c) ∨ known s g c = true := by
  induction h generalizing s with
  | nil => simp only [Store.run, Option.some.injEq] at hr; rw [hr]; simp
  | cons n h ih =>
    simp only [Store.run, Option.bind_eq_some_iff] at hr
    obtain ⟨s1, h1, h2⟩ := hr
    rw [ih h2, step_known h1]
    simp only [List.mem_cons, exists_eq_or_imp]
    rw [← or_assoc, or_comm (a := ∃ n ∈ h, _)]

theorem newStore_known (conf : List (GVR × List (Str × Str))) (g : GVR) (c : Str) : known (newStore conf) g c = false := by
  obtain ⟨h, _, _⟩ := newStore_lookup conf [] (by simp [lookup])
  unfold known
  cases hl : lookup g (newStore conf).data with
  | none => rfl
  | some cm =>
    rw [h g cm hl]
    rfl

theorem forall₂_mem {α β : Type} {R : α → β → Prop} {l : List α} {l' : List β} (h : List.Forall₂ R l l') :
    ∀ a ∈ l, ∃ b ∈ l', R a b := by
  induction h with
  | nil => simp
  | cons hr _ ih =>
    intro a ha
    rcases List.mem_cons.mp ha with rfl | ha
    · exact ⟨_, by simp, hr⟩
    · obtain ⟨b, hb, hr⟩ := ih a ha
      exact ⟨b, by simp [hb], hr⟩

/-- An item asks for one key only. -/
theorem itemMeans_det {item : Str} {k k' : SortKey} (h : ItemMeans item k) (h' : ItemMeans item k') : k = k' := by
  obtain ⟨a1, a2, typ, dir, ht, htyp, hdir⟩ := h
  obtain ⟨b1, b2, typ', dir', ht', htyp', hdir'⟩ := h'
  have e1 := sortDirection_eq (x := k.key ++ typ) (by simp [a1, typ_no_blank htyp]) hdir ht
  have e2 := sortDirection_eq (x := k'.key ++ typ') (by simp [b1, typ_no_blank htyp']) hdir' ht'
  rw [e1] at e2
  simp only [Option.some.injEq, Prod.mk.injEq] at e2
  have f1 := sortType_eq a2 htyp rfl
  have f2 := sortType_eq b2 htyp' rfl
  rw [e2.1, f2] at f1
  simp only [Option.some.injEq, Prod.mk.injEq] at f1
  cases k; cases k'
  simp_all

theorem itemMeans_key {item : Str} {k k' : SortKey} (h : ItemMeans item k) (h' : ItemMeans item k') : k.key = k'.key := by
  rw [itemMeans_det h h']

theorem matchParts_none (isPrint : Nat → Bool) (m : List (Str × Str)) (parts : List Str) :
    matchParts isPrint m parts = none ↔ ∃ p ∈ parts, match1 isPrint m p = none := by
  have gen : ∀ ps : List Str, ((matchLoop isPrint m ps 0).map (fun n => n = ps.length) : Option Bool) = none ↔
      ∃ p ∈ ps, match1 isPrint m p = none := by
    intro ps
    rw [Option.map_eq_none_iff]
    exact matchLoop_none isPrint m ps 0
  match parts with
  | [] => exact gen []
  | [p] => simp [matchParts]
  | p :: q :: ps => exact gen (p :: q :: ps)

theorem mem_visited {ns : Str} {cm : ClMap} {k : Str × Str × Str} {so : SObj} (h : (k, so) ∈ entries ns cm) :
    so ∈ visited ns cm := by
  rw [visited_entries]
  exact List.mem_map.mpr ⟨(k, so), h, rfl⟩

end Ckube

import Verif.Lemmas.Found
import Verif.Lemmas.Sort
import Verif.Lemmas.Pages
import Verif.Spec.Sort

/-! # The order of the answer of a query -/

namespace Ckube
open Spec

variable {isPrint : Nat → Bool} {eval : Str → Obj → Str} {alg : SliceSort} {pf : Str → Option GoFloat}
  {conf : List (GVR × List (Str × Str))} {h : List Notice} {s : Store}

theorem sortLoop_filter {idx : List (Str × Str)} : ∀ (items : List Str) (acc : List SortKey),
    sortLoop idx items acc = sortLoop idx (items.filter fun i => trimSpace i ≠ []) acc
  | [], _ => rfl
  | i :: is, acc => by
    by_cases hi : trimSpace i = []
    · rw [List.filter_cons_of_neg (by simpa using hi)]
      simp only [sortLoop]
      rw [sortItem_skip.mpr hi]
      exact sortLoop_filter is acc
    · rw [List.filter_cons_of_pos (by simpa using hi)]
      simp only [sortLoop]
      cases sortItem idx i <;> simp only [sortLoop_filter is]

theorem sortLoop_sortMeans {idx : List (Str × Str)} {sort : Str} {ks : List SortKey} (hm : SortMeans sort ks)
    (hk : ∀ k ∈ ks, lookup k.key idx ≠ none) : sortLoop idx (sortItems sort) [] = .keys ks := by
  rcases hm with ⟨rfl, rfl⟩ | ⟨hne, hf⟩
  · exact sortLoop_default hk
  · unfold sortItems
    rw [if_neg hne, sortLoop_filter, sortLoop_means _ ks [] hf ?_ hk]
    · simp
    · intro i hi
      simpa using (List.mem_filter.mp hi).2

theorem itemMeans_noBlank {item : Str} {k : SortKey} (hm : ItemMeans item k) :
    (splitByte 32 (trimSpace item)).length ≤ 2 := by
  obtain ⟨h32, _, typ, dir, ht, htyp, hdir⟩ := hm
  have h32' : (32 : UInt8) ∉ k.key ++ typ := by simp [h32, typ_no_blank htyp]
  rw [ht]
  rcases hdir with ⟨rfl, _⟩ | ⟨rfl, _⟩ | ⟨rfl, _⟩
  · rw [List.append_nil, splitByte_of_not_mem _ _ h32']; simp
  · have e : k.key ++ typ ++ lit " asc" = (k.key ++ typ) ++ 32 :: lit "asc" := by simp [lit]
    rw [e, splitByte_append _ _ _ h32', splitByte_of_not_mem _ _ (by decide)]; simp
  · have e : k.key ++ typ ++ lit " desc" = (k.key ++ typ) ++ 32 :: lit "desc" := by simp [lit]
    rw [e, splitByte_append _ _ _ h32', splitByte_of_not_mem _ _ (by decide)]; simp

theorem sortMeans_twoParts {sort : Str} {ks : List SortKey} (hm : SortMeans sort ks) : TwoParts sort := by
  intro i hi
  rcases hm with ⟨rfl, rfl⟩ | ⟨hne, hf⟩
  · simp only [splitByte, List.mem_singleton] at hi
    subst hi
    decide
  · by_cases hb : trimSpace i = []
    · rw [hb]; decide
    · obtain ⟨k, _, hm⟩ := forall₂_mem hf i (List.mem_filter.mpr ⟨hi, by simpa using hb⟩)
      exact itemMeans_noBlank hm

theorem forall₂_det {α β : Type} {R : α → β → Prop} (hdet : ∀ a b c, R a b → R a c → b = c) :
    ∀ {l : List α} {m n : List β}, List.Forall₂ R l m → List.Forall₂ R l n → m = n
  | [], _, _, h1, h2 => by cases h1; cases h2; rfl
  | a :: l, _, _, h1, h2 => by
    cases h1 with
    | cons a1 b1 => cases h2 with
      | cons a2 b2 => rw [hdet _ _ _ a1 a2, forall₂_det hdet b1 b2]

theorem sortMeans_det {sort : Str} {ks ks' : List SortKey} (h1 : SortMeans sort ks) (h2 : SortMeans sort ks') :
    ks = ks' := by
  rcases h1 with ⟨a, rfl⟩ | ⟨a, f1⟩ <;> rcases h2 with ⟨b, rfl⟩ | ⟨b, f2⟩
  · rfl
  · exact absurd a b
  · exact absurd b a
  · exact forall₂_det (R := ItemMeans) (fun _ _ _ => itemMeans_det) f1 f2

/-- What a sort without error means. -/
theorem sortObjs_any {rs sorted : List SObj} {sort : Str} (hs : sortObjs alg pf rs sort = (sorted, false))
    (hne : rs ≠ []) :
    (∃ o ∈ rs, PassedOver (fun k => lookup k o.index ≠ none) sort) ∨
    ∃ ks, SortMeans sort ks ∧ (alg.run (fun a b => (cmpObjs pf ks a b).1) rs).result = sorted
      ∧ ((alg.run (fun a b => (cmpObjs pf ks a b).1) rs).trace.any fun p => (cmpObjs pf ks p.1 p.2).2) = false := by
  cases rs with
  | nil => exact absurd rfl hne
  | cons o t =>
    unfold sortObjs at hs
    simp only at hs
    cases hl : sortLoop o.index (sortItems sort) [] with
    | bad => rw [hl] at hs; simp at hs
    | giveUp =>
      refine Or.inl ⟨o, by simp, ?_⟩
      obtain ⟨pre, i, post, ks, h1, h2, h3⟩ := sortLoop_giveUp_pre _ _ hl
      unfold sortItems at h1
      split at h1
      · have : ∀ i ∈ splitByte 44 (lit "cluster, namespace, name"), ¬ 2 < (splitByte 32 (trimSpace i)).length := by
          decide +kernel
        exact absurd h2 (this i (by rw [h1]; simp))
      · exact ⟨pre, i, post, ks, h1, h2, h3⟩
    | keys ks =>
      rw [hl] at hs
      simp only [Prod.mk.injEq] at hs
      refine Or.inr ⟨ks, ?_, hs.1, hs.2⟩
      obtain ⟨ks', rfl, hf, _⟩ := sortLoop_keys _ _ _ hl
      by_cases h0 : sort = []
      · refine Or.inl ⟨h0, ?_⟩
        subst h0
        have hd : ∃ ks, List.Forall₂ ItemMeans ((sortItems []).filter fun i => trimSpace i ≠ []) ks
            ∧ ks = defaultKeys := by
          have hi : ((sortItems []).filter fun i => trimSpace i ≠ []) = [lit "cluster", lit " namespace", lit " name"] := by
            decide +kernel
          rw [hi]
          exact ⟨defaultKeys, .cons ⟨by decide, by decide, [], [], by decide +kernel, Or.inl ⟨rfl, rfl⟩, Or.inl ⟨rfl, rfl⟩⟩
            (.cons ⟨by decide, by decide, [], [], by decide +kernel, Or.inl ⟨rfl, rfl⟩, Or.inl ⟨rfl, rfl⟩⟩
              (.cons ⟨by decide, by decide, [], [], by decide +kernel, Or.inl ⟨rfl, rfl⟩, Or.inl ⟨rfl, rfl⟩⟩ .nil)), rfl⟩
        obtain ⟨ks, hd1, hd2⟩ := hd
        rw [← hd2]
        exact forall₂_det (R := ItemMeans) (fun _ _ _ => itemMeans_det) hf hd1
      · refine Or.inr ⟨h0, ?_⟩
        unfold sortItems at hf
        rw [if_neg h0] at hf
        exact hf

/-- The same for expressions that are not passed over. -/
theorem sortObjs_run {rs sorted : List SObj} {sort : Str} (hs : sortObjs alg pf rs sort = (sorted, false))
    (hne : rs ≠ []) (htwo : TwoParts sort) :
    ∃ ks, SortMeans sort ks ∧ (alg.run (fun a b => (cmpObjs pf ks a b).1) rs).result = sorted
      ∧ ((alg.run (fun a b => (cmpObjs pf ks a b).1) rs).trace.any fun p => (cmpObjs pf ks p.1 p.2).2) = false := by
  rcases sortObjs_any hs hne with ⟨_, _, pre, i, post, _, h1, h2, _⟩ | h
  · have := htwo i (by rw [h1]; simp)
    omega
  · exact h

theorem sortObjs_sorted {rs sorted : List SObj} {sort : Str} (hs : sortObjs alg pf rs sort = (sorted, false))
    (hne : rs ≠ []) (htwo : TwoParts sort) :
    ∃ ks, SortMeans sort ks ∧ (NoNaN pf ks rs → sorted.Pairwise (LexLe pf ks)) := by
  obtain ⟨ks, h1, h2, h3⟩ := sortObjs_run hs hne htwo
  exact ⟨ks, h1, fun hn => h2 ▸ run_sorted alg hn h3⟩

/-- The values of the built-in keys identify the object. -/
theorem index_ident {id : Ident} {o : Obj} {m : ObjMeta} (hm : o.om = some m) {idx : List (Str × Str)} {ob : Obj}
    (hi : IsIndex eval (confAt conf id.gvr) id.cluster o idx)
    (hid : objKey eval (confAt conf id.gvr) o = (id.ns, id.name)) :
    SObj.val ⟨idx, ob⟩ (lit "cluster") = id.cluster ∧ SObj.val ⟨idx, ob⟩ (lit "namespace") = id.ns
      ∧ SObj.val ⟨idx, ob⟩ (lit "name") = id.name := by
  unfold objKey at hid
  rw [hm] at hid
  simp only [Prod.mk.injEq] at hid
  unfold SObj.val
  simp only
  refine ⟨?_, ?_, ?_⟩
  · rw [hi.2]; simp [indexValueOf]
  · rw [hi.2]
    unfold indexValueOf
    simp only [hm]
    rw [if_neg (by decide), if_neg (by decide), if_pos trivial]
    exact hid.1
  · rw [hi.2]
    unfold indexValueOf
    simp only [hm]
    rw [if_neg (by decide), if_neg (by decide), if_neg (by decide), if_pos trivial]
    exact hid.2

theorem latest_objKey {cf : GVR → List (Str × Str)} {id : Ident} {o : Obj} (hl : Latest eval cf h id o) :
    objKey eval (cf id.gvr) o = (id.ns, id.name) := by
  obtain ⟨h₁, n, h₂, rfl, hw, _⟩ := hl
  cases n with
  | added g c o' => obtain ⟨rfl, rfl⟩ := hw; rfl
  | modified g c o' => obtain ⟨rfl, rfl⟩ := hw; rfl
  | deleted _ _ _ => exact hw.elim
  | clean _ _ => exact hw.elim

/-- Two permutations of each other, sorted by a relation that is antisymmetric on them, are equal. -/
theorem eq_of_perm_sorted {α : Type} {le : α → α → Prop} : ∀ {l m : List α}, l.Perm m → l.Pairwise le → m.Pairwise le →
    (∀ a ∈ l, ∀ b ∈ l, le a b → le b a → a = b) → l = m
  | [], m, hp, _, _, _ => (List.Perm.nil_eq hp)
  | a :: l, [], hp, _, _, _ => absurd hp.symm.nil_eq (by simp)
  | a :: l, b :: m, hp, h1, h2, hanti => by
    rw [List.pairwise_cons] at h1 h2
    have hab : a = b := by
      have ha : a ∈ b :: m := hp.subset (by simp)
      have hb : b ∈ a :: l := hp.symm.subset (by simp)
      rcases List.mem_cons.mp ha with h | ha
      · exact h
      rcases List.mem_cons.mp hb with h | hb
      · exact h.symm
      exact hanti a (by simp) b (by simp [hb]) (h1.1 b hb) (h2.1 a ha)
    subst hab
    rw [eq_of_perm_sorted (hp.cons_inv) h1.2 h2.2 (fun x hx y hy => hanti x (by simp [hx]) y (by simp [hy]))]

/-- `build` of API objects: equal values of all total keys mean equal identities. -/
theorem total_keys_ident (hconf : ConfOK conf) {ks : List SortKey} (htot : TotalKeys ks) {id id' : Ident} {o o' : Obj}
    {m m' : ObjMeta} (hg : id.gvr = id'.gvr) (hm : o.om = some m) (hm' : o'.om = some m')
    (hk : objKey eval (confAt conf id.gvr) o = (id.ns, id.name))
    (hk' : objKey eval (confAt conf id'.gvr) o' = (id'.ns, id'.name))
    (h1 : LexLe pf ks (build eval (confAt conf id.gvr) id.cluster o).2.2 (build eval (confAt conf id'.gvr) id'.cluster o').2.2)
    (h2 : LexLe pf ks (build eval (confAt conf id'.gvr) id'.cluster o').2.2 (build eval (confAt conf id.gvr) id.cluster o).2.2) :
    id = id' := by
  have he := lexLe_antisymm ks _ _ h1 h2
  have i1 := index_ident (ob := (build eval (confAt conf id.gvr) id.cluster o).2.2.obj) hm
    (build_index eval (confAt_isMap hconf id.gvr) id.cluster o) hk
  have i2 := index_ident (ob := (build eval (confAt conf id'.gvr) id'.cluster o').2.2.obj) hm'
    (build_index eval (confAt_isMap hconf id'.gvr) id'.cluster o') hk'
  have hv : ∀ k ∈ [lit "cluster", lit "namespace", lit "name"],
      (build eval (confAt conf id.gvr) id.cluster o).2.2.val k
        = (build eval (confAt conf id'.gvr) id'.cluster o').2.2.val k := by
    intro k hk
    obtain ⟨r, hr⟩ := htot k hk
    have := he _ hr
    unfold ValueEq at this
    simpa using this
  obtain ⟨g, c, n, nm⟩ := id
  obtain ⟨g', c', n', nm'⟩ := id'
  simp only at *
  rw [Ident.mk.injEq]
  exact ⟨hg, i1.1.symm.trans ((hv _ (by simp)).trans i2.1), i1.2.1.symm.trans ((hv _ (by simp)).trans i2.2.1),
    i1.2.2.symm.trans ((hv _ (by simp)).trans i2.2.2)⟩

/-- The matching objects with their identities and stored objects. -/
def FoundOK (isPrint : Nat → Bool) (eval : Str → Obj → Str) (conf : List (GVR × List (Str × Str)))
    (h : List Notice) (g : GVR) (q : Query) (found : List (Ident × Obj × SObj)) : Prop :=
  (found.map Prod.fst).Nodup ∧ (∀ id o, (∃ so, (id, o, so) ∈ found) ↔ Matching isPrint eval conf h g q id o)
    ∧ ∀ e ∈ found, e.2.2 = (build eval (confAt conf g) e.1.cluster e.2.1).2.2

theorem found_mem {g : GVR} {q : Query} {found : List (Ident × Obj × SObj)}
    (hf : FoundOK isPrint eval conf h g q found) (e : Ident × Obj × SObj) :
    e ∈ found ↔ Matching isPrint eval conf h g q e.1 e.2.1 ∧ e.2.2 = (build eval (confAt conf g) e.1.cluster e.2.1).2.2 := by
  constructor
  · intro he
    exact ⟨(hf.2.1 e.1 e.2.1).mp ⟨e.2.2, he⟩, hf.2.2 e he⟩
  · rintro ⟨h1, h2⟩
    obtain ⟨so, hso⟩ := (hf.2.1 e.1 e.2.1).mpr h1
    have := hf.2.2 _ hso
    simp only at this
    rw [← this] at h2
    obtain ⟨id, o, so'⟩ := e
    simp only at h2 hso
    rw [h2]
    exact hso

theorem found_unique (hconf : ConfOK conf) {h' : List Notice} (hapi : ApiObjects h)
    (hsame : ∀ id o, Latest eval (confAt conf) h id o ↔ Latest eval (confAt conf) h' id o)
    {g : GVR} {q q' : Query} (hns : q.ns = q'.ns) (hsearch : q.page.search = q'.page.search)
    {found found' : List (Ident × Obj × SObj)}
    (hf : FoundOK isPrint eval conf h g q found) (hf' : FoundOK isPrint eval conf h' g q' found')
    {ks : List SortKey} (htot : TotalKeys ks)
    (hs : (found.map fun e => e.2.2).Pairwise (LexLe pf ks)) (hs' : (found'.map fun e => e.2.2).Pairwise (LexLe pf ks)) :
    found = found' := by
  have hm : ∀ id o, Matching isPrint eval conf h g q id o ↔ Matching isPrint eval conf h' g q' id o := by
    intro id o
    unfold Matching Paginate.matches
    rw [hsame, hns, hsearch]
  rw [List.pairwise_map] at hs hs'
  refine eq_of_perm_sorted (le := fun a b => LexLe pf ks a.2.2 b.2.2) ?_ hs hs' ?_
  · rw [List.perm_ext_iff_of_nodup (List.Nodup.of_map _ hf.1) (List.Nodup.of_map _ hf'.1)]
    intro e
    rw [found_mem hf, found_mem hf', hm]
  · intro a ha b hb h1 h2
    obtain ⟨ma, ea⟩ := (found_mem hf a).mp ha
    obtain ⟨mb, eb⟩ := (found_mem hf b).mp hb
    have ka := latest_objKey ma.1
    have kb := latest_objKey mb.1
    have meta_ : ∀ {id o}, Latest eval (confAt conf) h id o → ∃ m, o.om = some m := by
      rintro id o ⟨h₁, n, h₂, rfl, hw, _⟩
      have := hapi n (by simp)
      rw [← Option.isSome_iff_exists]
      cases n with
      | added _ _ _ => obtain ⟨rfl, _⟩ := hw; exact this
      | modified _ _ _ => obtain ⟨rfl, _⟩ := hw; exact this
      | deleted _ _ _ => exact hw.elim
      | clean _ _ => exact hw.elim
    obtain ⟨m, hma⟩ := meta_ ma.1
    obtain ⟨m', hmb⟩ := meta_ mb.1
    have ga : a.1.gvr = g := ma.2.1
    have gb : b.1.gvr = g := mb.2.1
    have hid : a.1 = b.1 := by
      refine total_keys_ident (pf := pf) hconf htot (ga.trans gb.symm) hma hmb ka kb ?_ ?_
      · rw [ga, gb, ← ea, ← eb]; exact h1
      · rw [ga, gb, ← ea, ← eb]; exact h2
    obtain ⟨i, o, so⟩ := a
    obtain ⟨i', o', so'⟩ := b
    simp only at hid ea eb ma mb
    subst hid
    have : o = o' := latest_det ma.1 mb.1
    subst this
    rw [ea, eb]

end Ckube

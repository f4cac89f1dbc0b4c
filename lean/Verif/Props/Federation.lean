import Verif.Spec.EndToEnd
import Verif.Props.EndToEnd
import Verif.Props.Informer
import Mathlib.Data.List.Sort
import Mathlib.Data.List.Forall2

/-! # C96: lists of several clusters, page by page, from the API servers to the client -/

namespace Ckube
open Spec

variable {env : Env} {st : StoreI} {tord : Nat → List (Str × Str) → List (Str × Str)} {ord : Values} {r : HReq}
variable {isPrint : Nat → Bool} {eval : Str → Obj → Str} {alg : SliceSort} {pf : Str → Option GoFloat}
  {conf : List (GVR × List (Str × Str))} {h : List Notice} {s : Store}

/-- The search that `Clusters(cs)` makes of the empty one accepts the index maps of these clusters and refuses none with an error. -/
theorem clustersSearch_plain {cs : List Str} {s' : Str} (hs' : setClusters [] cs = some s') (m : List (Str × Str)) :
    matchParts isPrint m (searchParts s') ≠ none
    ∧ (matchParts isPrint m (searchParts s') = some true ↔ ∃ c ∈ cs, lookup (lit "cluster") m = some c) := by
  have hp0 : searchParts [] = [] := by decide +kernel
  have hadv : AdvReqs [] [] := Or.inl ⟨by decide +kernel, rfl⟩
  constructor
  · obtain ⟨hset, hv⟩ := setClusters_ok hs'
    obtain ⟨ls, rs, hls, hmap, _, hrs, hne, hpr, hparts⟩ :=
      restrict_search hset hadv (by simp [hp0]) hv (by simp)
    obtain ⟨b, hb, hbm⟩ := match1_advPart (isPrint := isPrint) (m := m) hrs hne hpr hmap
    rw [hparts, Ne, matchParts_none]
    rintro ⟨p, hp, hpn⟩
    rcases List.mem_cons.mp hp with rfl | hp
    · rw [hb] at hpn; simp at hpn
    · simp [hp0] at hp
  · have := C17_clusters_partial isPrint [] s' cs [] hs' hadv ⟨by simp [hp0], by simp, by simp, by simp⟩ m
    unfold Paginate.matches at this
    rw [this]
    constructor
    · rintro ⟨h1, _⟩; exact h1
    · intro h1
      refine ⟨h1, ?_, by simp⟩
      simp [hp0]

/-- The request names clusters, so that the default cluster is not added. -/
theorem clustersSearch_default {cs : List Str} {s' : Str} (hs' : setClusters [] cs = some s') : defaultSearch env s' = s' := by
  have hp0 : searchParts [] = [] := by decide +kernel
  obtain ⟨h1, _⟩ := C19_read_back_partial [] s' cs [] hs' (Or.inl ⟨hp0, rfl⟩) ⟨by simp [hp0], by simp, by simp, by simp⟩
  obtain ⟨_, c, hc, _⟩ := setClusters_ok hs'
  unfold defaultSearch
  rw [if_neg]
  intro h0
  have := (h1 c).mpr hc
  rw [h0] at this
  simp at this

/-- A list of several clusters shows a page of what the cache has. -/
theorem mirror_clusters (hconf : ConfOK conf) (hrun : (newStore conf).run eval h = some s) (hapi : ApiObjects h)
    (hst : Serves isPrint alg pf s st) (hord : ord.Perm (parseQuery r.rawQuery)) (hc : Cacheable st r) (hr : r.resource = [])
    {i : SelInfo} (hi : Reads r i) {cs : List Str} (hset : setClusters [] cs = some i.paginate.search)
    (hsort : i.paginate.sort = []) (hv : ValidPaging i.paginate)
    {objs : Str → List ((Str × Str) × Obj)} (hu : ∀ c ∈ cs, Mirrors eval conf r.gvr c h (objs c)) (he : EmptyNoNaN pf) :
    ∃ (all : List ((Str × Str × Str) × Obj)) (items : List Obj),
      (∀ e, e ∈ all ↔ e.1.1 ∈ cs ∧ (e.1.2, e.2) ∈ objs e.1.1 ∧ (r.ns = [] ∨ r.ns = e.1.2.1) ∧ Satisfies i.labels e.2)
      ∧ (all.map Prod.fst).Pairwise PlaceLt
      ∧ List.Forall₂ (fun e o => SameButMarks e.2 o) all items
      ∧ (proxy env st tord ord r = .refused .outOfPage
          ∨ Shows tord (pageOf i.paginate.page i.paginate.pageSize items) (proxy env st tord ord r))
      ∧ (1 ≤ i.paginate.page → 1 ≤ i.paginate.pageSize → i.paginate.page * i.paginate.pageSize < 9223372036854775808 →
          (all.length : Int) < 9223372036854775808 →
          (proxy env st tord ord r = .refused .outOfPage ↔
            i.paginate.page ≠ 1 ∧ (all.length : Int) ≤ (i.paginate.page - 1) * i.paginate.pageSize)
          ∧ ∀ v k l rc its, proxy env st tord ord r = .list v k l rc its →
              makeupTotal (some rc) its.length i.paginate = all.length) := by
  have hkeys := fun c hc => (hu c hc).2
  have hsrch : (listPage env i).search = i.paginate.search := by simp only [listPage]; exact clustersSearch_default hset
  have hmatch : ∀ idx, (listPage env i).matches isPrint idx = some true ↔ ∃ c ∈ cs, lookup (lit "cluster") idx = some c := by
    intro idx; unfold Paginate.matches; rw [hsrch]; exact (clustersSearch_plain hset idx).2
  -- what the query finds
  have hiff : ∀ id o, Matching isPrint eval conf h r.gvr ⟨r.ns, listPage env i⟩ id o ↔
      id.gvr = r.gvr ∧ id.cluster ∈ cs ∧ ((id.ns, id.name), o) ∈ objs id.cluster ∧ (r.ns = [] ∨ r.ns = id.ns) := by
    intro id o
    constructor
    · rintro ⟨h1, h2, h3, idx, h4, h5⟩
      have hcl : id.cluster ∈ cs := by
        obtain ⟨c, hc', hlc⟩ := (hmatch idx).mp h5
        have := h4.2 (lit "cluster")
        rw [hlc] at this
        have hcc : c = id.cluster := by simpa [indexValueOf] using this
        rw [← hcc]; exact hc'
      refine ⟨h2, hcl, ?_, h3⟩
      obtain ⟨g, c, n, nm⟩ := id
      simp only at h2 hcl
      subst h2
      exact mem_of_lookup (((hu c hcl).1 n nm o).mp h1)
    · rintro ⟨h1, h2, h3, h4⟩
      obtain ⟨g, c, n, nm⟩ := id
      simp only at h1 h2
      subst h1
      refine ⟨((hu c h2).1 n nm o).mpr (lookup_eq_some_of_mem (hkeys c h2).1 h3), rfl, h4, ?_⟩
      refine ⟨_, build_index eval (confAt_isMap hconf r.gvr) c o, ?_⟩
      rw [hmatch]
      refine ⟨c, h2, ?_⟩
      rw [(build_index eval (confAt_isMap hconf r.gvr) c o).2]
      simp [indexValueOf]
  rcases list_outcome (env := env) (tord := tord) hconf hrun hst hord hc hr hi hv with
    ⟨_, q, res, q1, q2, q3, _, q4, q5⟩ | ⟨_, id, o, hm, hom⟩ | ⟨found, kept, f1, f2, f3, f4, f5, f6⟩
  · exfalso
    have hans := hst.query r.gvr q
    rw [q4] at hans
    have := C25_accepted hconf hrun hapi r.gvr q defaultKeys (Or.inl ⟨by rw [q2, hsort], rfl⟩)
      (by intro k hk; right; simp only [defaultKeys, List.mem_cons, List.not_mem_nil, or_false] at hk
          rcases hk with rfl | rfl | rfl <;> simp)
      (by intro id o idx _ _ _ _; unfold Paginate.matches; rw [q3, hsrch]; exact (clustersSearch_plain hset idx).1)
      (by intro id o _ k hk hn; simp only [defaultKeys, List.mem_cons, List.not_mem_nil, or_false] at hk
          rcases hk with rfl | rfl | rfl <;> simp at hn)
      res hans
    rw [q5] at this
    simp at this
  · exfalso
    have := latest_api hapi hm.1
    rw [hom] at this
    simp at this
  · have hfm : ∀ e ∈ found, e.1.gvr = r.gvr ∧ e.1.cluster ∈ cs ∧ ((e.1.ns, e.1.name), e.2.1) ∈ objs e.1.cluster
        ∧ (r.ns = [] ∨ r.ns = e.1.ns) := fun e he' => (hiff e.1 e.2.1).mp ((f1.2.1 e.1 e.2.1).mp ⟨e.2.2, he'⟩)
    have hkf : ∀ e ∈ kept, e ∈ found := fun e he' => f4.subset he'
    refine ⟨kept.map fun e => ((e.1.cluster, e.1.ns, e.1.name), e.2.1), kept.map fun e => e.2.2.obj, ?_, ?_, ?_, ?_, ?_⟩
    · rintro ⟨⟨c, n, nm⟩, o⟩
      rw [List.mem_map]
      constructor
      · rintro ⟨e, hek, heq⟩
        obtain ⟨-, e2, e3, e4⟩ := hfm e (hkf e hek)
        simp only [Prod.mk.injEq] at heq
        obtain ⟨⟨rfl, rfl, rfl⟩, rfl⟩ := heq
        exact ⟨e2, e3, e4, (f5 e (hkf e hek)).mp hek⟩
      · rintro ⟨e0, e1, e2, e3⟩
        obtain ⟨so, hso⟩ := (f1.2.1 ⟨r.gvr, c, n, nm⟩ o).mpr ((hiff _ _).mpr ⟨rfl, e0, e1, e2⟩)
        exact ⟨_, (f5 _ hso).mpr e3, rfl⟩
    · rw [List.map_map]
      have hnd : (kept.map Prod.fst).Nodup := f1.1.sublist (f4.map _)
      have hsorted : (found.map fun e => e.2.2).Pairwise (LexLe pf defaultKeys) := by
        rcases f3 with rfl | ⟨rs, hperm, hs⟩
        · simp
        · by_cases h0 : found = []
          · simp [h0]
          · have hne : rs ≠ [] := by
              rintro rfl
              have := hperm.length_eq
              simp only [List.length_nil, List.length_map] at this
              exact h0 (List.length_eq_zero_iff.mp this.symm)
            rw [hsort] at hs
            obtain ⟨ks, k1, k2⟩ := sortObjs_sorted hs hne (by intro x hx; revert x; decide +kernel)
            obtain rfl : ks = defaultKeys := by rcases k1 with ⟨_, k1⟩ | ⟨k1, _⟩; exacts [k1, absurd rfl k1]
            refine k2 (noNaN_found hconf f2 he ?_ hperm)
            intro id o _ k hk hn
            simp only [defaultKeys, List.mem_cons, List.not_mem_nil, or_false] at hk
            rcases hk with rfl | rfl | rfl <;> simp at hn
      rw [List.Nodup, List.pairwise_map] at hnd
      rw [List.pairwise_map] at hsorted ⊢
      refine ((hsorted.sublist f4).and hnd).imp_of_mem ?_
      rintro a b ha hb ⟨hab, hne⟩
      have hval : ∀ e ∈ found, e.2.2.val (lit "cluster") = e.1.cluster ∧ e.2.2.val (lit "namespace") = e.1.ns
          ∧ e.2.2.val (lit "name") = e.1.name := by
        intro e he'
        obtain ⟨e1, e2, e3, -⟩ := hfm e he'
        obtain ⟨m, hm⟩ := latest_api hapi ((f1.2.1 e.1 e.2.1).mp ⟨e.2.2, he'⟩).1
        have hk := (hkeys _ e2).2 _ e3
        simp only [objKey, hm, Prod.mk.injEq] at hk
        have hidx := (f1.2.2 e he').1.2
        unfold SObj.val
        rw [hidx, hidx, hidx]
        refine ⟨?_, ?_, ?_⟩
        · simp [indexValueOf]
        · rw [indexValueOf, hm, if_neg (by decide), ← hk.1]
          simp only
          rw [if_neg (by decide), if_pos trivial]; rfl
        · rw [indexValueOf, hm, if_neg (by decide), ← hk.2]
          simp only
          rw [if_neg (by decide), if_neg (by decide), if_pos trivial]; rfl
      obtain ⟨a1, a2, a3⟩ := hval a (hkf a ha)
      obtain ⟨b1, b2, b3⟩ := hval b (hkf b hb)
      have ga := (hfm a (hkf a ha)).1
      have gb := (hfm b (hkf b hb)).1
      simp only [LexLe, defaultKeys, ValueLt, ValueEq, a1, a2, a3, b1, b2, b3, Bool.false_eq_true, if_false, and_true] at hab
      obtain ⟨⟨g1, c1, n1, m1⟩, x⟩ := a
      obtain ⟨⟨g2, c2, n2, m2⟩, y⟩ := b
      simp only [Function.comp, PlaceLt] at *
      rcases hab with hab | ⟨rfl, hab | ⟨rfl, hab | rfl⟩⟩
      · exact Or.inl hab
      · exact Or.inr ⟨rfl, Or.inl hab⟩
      · exact Or.inr ⟨rfl, Or.inr ⟨rfl, hab⟩⟩
      · exact absurd (by rw [ga, gb]) hne
    · rw [List.forall₂_map_left_iff, List.forall₂_map_right_iff]
      apply List.forall₂_same.mpr
      intro e hek
      have hl := ((f1.2.1 e.1 e.2.1).mp ⟨e.2.2, hkf e hek⟩).1
      obtain ⟨o', g1, g2⟩ := (C20_latest hrun e.1).1 e.2.1 hl
      rw [(f1.2.2 e (hkf e hek)).2, Option.some.injEq] at g1
      rw [g1]
      exact g2
    · rw [f6]
      simp only [listAnswer]
      cases remainCount (listPage env i) kept.length
        (pageOf i.paginate.page i.paginate.pageSize (kept.map fun e => e.2.2.obj)).length with
      | none => exact Or.inl rfl
      | some rc =>
        right
        simp only
        split
        · exact .table
        · exact .list _ _ _ _
    · intro p1 p2 p3 p4
      rw [List.length_map] at p4 ⊢
      have hl := length_pageOf (kept.map fun e => e.2.2.obj) (page := i.paginate.page) (size := i.paginate.pageSize) (by omega)
      rw [List.length_map] at hl
      obtain ⟨t1, t2⟩ := remain_total (p := listPage env i) p4 p1 p2 p3 hl
      rw [f6]
      simp only [listAnswer]
      cases hrc : remainCount (listPage env i) kept.length
        (pageOf i.paginate.page i.paginate.pageSize (kept.map fun e => e.2.2.obj)).length with
      | none =>
        refine ⟨⟨fun _ => t1.mp hrc, fun _ => rfl⟩, ?_⟩
        intro v k l rc its hp
        simp at hp
      | some rc =>
        have hno : ¬ (i.paginate.page ≠ 1 ∧ (kept.length : Int) ≤ (i.paginate.page - 1) * i.paginate.pageSize) := by
          intro hx
          have := t1.mpr hx
          rw [hrc] at this
          simp at this
        refine ⟨⟨?_, fun hx => absurd hx hno⟩, ?_⟩
        · intro hp
          exfalso
          simp only at hp
          split at hp
          · unfold serverPrint at hp; split at hp <;> simp at hp
          · simp at hp
        · intro v k l rc' its hp
          simp only at hp
          split at hp
          · unfold serverPrint at hp; split at hp <;> simp at hp
          · simp only [Answer.list.injEq] at hp
            obtain ⟨-, -, -, rfl, rfl⟩ := hp
            exact t2 _ hrc

/-- **C96**: when the cache has caught up with the API servers of the clusters `cs`, a list request that names them with
`Clusters(cs)` and is answered from the cache shows a page of one list: the objects these API servers have in the namespace (in all
namespaces, if none is given) that satisfy the label selector, each once, strictly ordered by cluster, namespace and name, unchanged
except for ckube's two annotations. The list depends only on what the API servers have, so that all pages are pages of the same
list. Missing for the full claim: a server without objects before the first event (`C36_false`), pages whose bounds overflow
(`ValidPaging`), and clusters that `Clusters` refuses. -/
theorem C96_clusters_partial (hconf : ConfOK conf) (hrun : (newStore conf).run eval h = some s) (hapi : ApiObjects h)
    (hst : Serves isPrint alg pf s st) (hord : ord.Perm (parseQuery r.rawQuery)) (hc : Cacheable st r) (hr : r.resource = [])
    {i : SelInfo} (hi : Reads r i) {cs : List Str} (hset : setClusters [] cs = some i.paginate.search)
    (hsort : i.paginate.sort = []) (hv : ValidPaging i.paginate)
    {objs : Str → List ((Str × Str) × Obj)} (hu : ∀ c ∈ cs, CaughtUp r.gvr c h (objs c)) (he : EmptyNoNaN pf) :
    ∃ (all : List ((Str × Str × Str) × Obj)) (items : List Obj),
      (∀ e, e ∈ all ↔ e.1.1 ∈ cs ∧ (e.1.2, e.2) ∈ objs e.1.1 ∧ (r.ns = [] ∨ r.ns = e.1.2.1) ∧ Satisfies i.labels e.2)
      ∧ (all.map Prod.fst).Pairwise PlaceLt
      ∧ List.Forall₂ (fun e o => SameButMarks e.2 o) all items
      ∧ (proxy env st tord ord r = .refused .outOfPage
          ∨ Shows tord (pageOf i.paginate.page i.paginate.pageSize items) (proxy env st tord ord r))
      ∧ (1 ≤ i.paginate.page → 1 ≤ i.paginate.pageSize → i.paginate.page * i.paginate.pageSize < 9223372036854775808 →
          (all.length : Int) < 9223372036854775808 →
          (proxy env st tord ord r = .refused .outOfPage ↔
            i.paginate.page ≠ 1 ∧ (all.length : Int) ≤ (i.paginate.page - 1) * i.paginate.pageSize)
          ∧ ∀ v k l rc its, proxy env st tord ord r = .list v k l rc its →
              makeupTotal (some rc) its.length i.paginate = all.length) :=
  mirror_clusters hconf hrun hapi hst hord hc hr hi hset hsort hv (fun c hc' => CaughtUp.mirrors (hu c hc')) he

theorem placeLt_irrefl (a : Str × Str × Str) : ¬ PlaceLt a a := by
  rintro (h | ⟨_, h | ⟨_, h⟩⟩) <;> simp [strLt_irrefl] at h

theorem placeLt_trans {a b c : Str × Str × Str} (h1 : PlaceLt a b) (h2 : PlaceLt b c) : PlaceLt a c := by
  obtain ⟨a1, a2, a3⟩ := a
  obtain ⟨b1, b2, b3⟩ := b
  obtain ⟨c1, c2, c3⟩ := c
  simp only [PlaceLt] at *
  rcases h1 with h1 | ⟨rfl, h1 | ⟨rfl, h1⟩⟩ <;> rcases h2 with h2 | ⟨rfl, h2 | ⟨rfl, h2⟩⟩
  · exact Or.inl (strLt_trans h1 h2)
  · exact Or.inl h1
  · exact Or.inl h1
  · exact Or.inl h2
  · exact Or.inr ⟨rfl, Or.inl (strLt_trans h1 h2)⟩
  · exact Or.inr ⟨rfl, Or.inl h1⟩
  · exact Or.inl h2
  · exact Or.inr ⟨rfl, Or.inl h2⟩
  · exact Or.inr ⟨rfl, Or.inr ⟨rfl, strLt_trans h1 h2⟩⟩

/-- A strictly ordered list is determined by its members. -/
theorem place_unique {l l' : List ((Str × Str × Str) × Obj)} (h1 : (l.map Prod.fst).Pairwise PlaceLt)
    (h2 : (l'.map Prod.fst).Pairwise PlaceLt) (hm : ∀ e, e ∈ l ↔ e ∈ l') : l = l' := by
  rw [List.pairwise_map] at h1 h2
  have hd : ∀ {l : List ((Str × Str × Str) × Obj)}, l.Pairwise (fun a b => PlaceLt a.1 b.1) → l.Nodup := by
    intro l hl
    refine hl.imp ?_
    rintro a b hab rfl
    exact placeLt_irrefl _ hab
  have hp : l.Perm l' := (List.perm_ext_iff_of_nodup (hd h1) (hd h2)).mpr hm
  refine hp.eq_of_pairwise ?_ h1 h2
  intro a b _ _ hab hba
  exact absurd (placeLt_trans hab hba) (placeLt_irrefl _)

theorem forall₂_drop {α β : Type} {R : α → β → Prop} {l : List α} {l' : List β} (h : List.Forall₂ R l l') (n : Nat) :
    List.Forall₂ R (l.drop n) (l'.drop n) := by
  induction h generalizing n with
  | nil => simp
  | cons h1 h2 ih => cases n with
    | zero => exact .cons h1 h2
    | succ n => simpa using ih n

theorem forall₂_take {α β : Type} {R : α → β → Prop} {l : List α} {l' : List β} (h : List.Forall₂ R l l') (n : Nat) :
    List.Forall₂ R (l.take n) (l'.take n) := by
  induction h generalizing n with
  | nil => simp
  | cons h1 h2 ih => cases n with
    | zero => simp
    | succ n => simpa using ⟨h1, ih n⟩

/-- Any page of a list of several clusters. -/
theorem mirror_page (hconf : ConfOK conf) (hrun : (newStore conf).run eval h = some s) (hapi : ApiObjects h)
    (hst : Serves isPrint alg pf s st) (hord : ord.Perm (parseQuery r.rawQuery)) (hc : Cacheable st r) (hr : r.resource = [])
    {i : SelInfo} (hi : Reads r i) {cs : List Str} (hset : setClusters [] cs = some i.paginate.search)
    (hsort : i.paginate.sort = []) (h1 : 1 ≤ i.paginate.page) (h2 : 1 ≤ i.paginate.pageSize)
    (h3 : i.paginate.page * i.paginate.pageSize < 9223372036854775808)
    {objs : Str → List ((Str × Str) × Obj)} (hu : ∀ c ∈ cs, Mirrors eval conf r.gvr c h (objs c)) (he : EmptyNoNaN pf)
    {all : List ((Str × Str × Str) × Obj)} (hlen : (all.length : Int) < 9223372036854775808)
    (hall : ∀ e, e ∈ all ↔ e.1.1 ∈ cs ∧ (e.1.2, e.2) ∈ objs e.1.1 ∧ (r.ns = [] ∨ r.ns = e.1.2.1) ∧ Satisfies i.labels e.2)
    (hsorted : (all.map Prod.fst).Pairwise PlaceLt) :
    if i.paginate.page ≠ 1 ∧ pageOf i.paginate.page i.paginate.pageSize all = [] then proxy env st tord ord r = .refused .outOfPage
    else ∃ items, List.Forall₂ (fun e o => SameButMarks e.2 o) (pageOf i.paginate.page i.paginate.pageSize all) items
      ∧ Shows tord items (proxy env st tord ord r)
      ∧ ∀ v k l rc its, proxy env st tord ord r = .list v k l rc its → makeupTotal (some rc) its.length i.paginate = all.length := by
  obtain ⟨all', items, m1, m2, m3, m4, m5⟩ := mirror_clusters (env := env) (tord := tord) hconf hrun hapi hst hord hc hr hi hset hsort
    (Or.inr ⟨h1, h2, by omega⟩) hu he
  obtain rfl : all = all' := place_unique hsorted m2 (fun e => by rw [hall, m1])
  obtain ⟨t1, t2⟩ := m5 h1 h2 h3 hlen
  have hemp : pageOf i.paginate.page i.paginate.pageSize all = [] ↔ (all.length : Int) ≤ (i.paginate.page - 1) * i.paginate.pageSize := by
    have hl := length_pageOf all (page := i.paginate.page) (size := i.paginate.pageSize) (by omega)
    have hb0 : 0 ≤ (i.paginate.page - 1) * i.paginate.pageSize := Int.mul_nonneg (by omega) (by omega)
    rw [← List.length_eq_zero_iff, hl]
    omega
  split
  · rename_i hx; exact t1.mpr ⟨hx.1, hemp.mp hx.2⟩
  · rename_i hx
    refine ⟨pageOf i.paginate.page i.paginate.pageSize items, ?_, m4.resolve_left (fun hp => hx ⟨(t1.mp hp).1, hemp.mpr (t1.mp hp).2⟩), t2⟩
    unfold pageOf
    split
    · exact m3
    · exact forall₂_take (forall₂_drop m3 _) _

/-- **C96**, any page at any time: let `all` be the strictly ordered list of the objects the API servers of the clusters `cs` have in the
namespace and with the labels asked for. Whatever else has happened to the cache, a request for a page shows this page of `all`,
or is refused, which happens exactly for the pages after the first that have no objects. -/
theorem C96_page_partial (hconf : ConfOK conf) (hrun : (newStore conf).run eval h = some s) (hapi : ApiObjects h)
    (hst : Serves isPrint alg pf s st) (hord : ord.Perm (parseQuery r.rawQuery)) (hc : Cacheable st r) (hr : r.resource = [])
    {i : SelInfo} (hi : Reads r i) {cs : List Str} (hset : setClusters [] cs = some i.paginate.search)
    (hsort : i.paginate.sort = []) (h1 : 1 ≤ i.paginate.page) (h2 : 1 ≤ i.paginate.pageSize)
    (h3 : i.paginate.page * i.paginate.pageSize < 9223372036854775808)
    {objs : Str → List ((Str × Str) × Obj)} (hu : ∀ c ∈ cs, CaughtUp r.gvr c h (objs c)) (he : EmptyNoNaN pf)
    {all : List ((Str × Str × Str) × Obj)} (hlen : (all.length : Int) < 9223372036854775808)
    (hall : ∀ e, e ∈ all ↔ e.1.1 ∈ cs ∧ (e.1.2, e.2) ∈ objs e.1.1 ∧ (r.ns = [] ∨ r.ns = e.1.2.1) ∧ Satisfies i.labels e.2)
    (hsorted : (all.map Prod.fst).Pairwise PlaceLt) :
    if i.paginate.page ≠ 1 ∧ pageOf i.paginate.page i.paginate.pageSize all = [] then proxy env st tord ord r = .refused .outOfPage
    else ∃ items, List.Forall₂ (fun e o => SameButMarks e.2 o) (pageOf i.paginate.page i.paginate.pageSize all) items
      ∧ Shows tord items (proxy env st tord ord r)
      ∧ ∀ v k l rc its, proxy env st tord ord r = .list v k l rc its → makeupTotal (some rc) its.length i.paginate = all.length :=
  mirror_page hconf hrun hapi hst hord hc hr hi hset hsort h1 h2 h3 (fun c hc' => CaughtUp.mirrors (hu c hc')) he hlen hall hsorted

/-- **C96**: the first `n` pages together are the beginning of the list, so that the pages up to the last one are the whole list,
each object once. -/
theorem C96_together {α : Type} (all : List α) (size n : Nat) (hs : 1 ≤ size) :
    ((List.range n).flatMap fun (j : Nat) => pageOf ((j : Int) + 1) (size : Int) all) = all.take (n * size) := by
  induction n with
  | zero => simp
  | succ n ih =>
    rw [List.range_succ, List.flatMap_append, ih]
    simp only [List.flatMap_cons, List.flatMap_nil, List.append_nil, pageOf]
    rw [if_neg (by omega)]
    have e1 : (((n : Int) + 1 - 1) * (size : Int)).toNat = n * size := by
      have : ((n : Int) + 1 - 1) * (size : Int) = ((n * size : Nat) : Int) := by push_cast; congr 1; omega
      rw [this]; rfl
    rw [e1, Int.toNat_natCast, Nat.succ_mul, List.take_add]

/-! ## Any search, any total order -/

theorem Separable.semicolons {key search : Str} {qs : List Req} (h : Separable key search qs) :
    ∀ p ∈ searchParts search, ∀ r, p ≠ lit ";" ++ r := by
  intro p hp r he
  refine h.semicolon p hp ?_ r he
  rw [he]
  rintro ⟨t, ht⟩
  have := congrArg List.head? ht
  revert this
  simp [lit]

/-- `Clusters(cs)` names clusters, so that the default cluster is not added. -/
theorem clustersSearch_default' {search s' : Str} {cs : List Str} {qs : List Req} (hs' : setClusters search cs = some s')
    (hadv : FirstReqs search qs) (hplain : Separable (lit "cluster") search qs) : defaultSearch env s' = s' := by
  obtain ⟨h1, _⟩ := C19_any_search_partial search s' cs qs hs' hadv (Separable.semicolons hplain) hplain.values
  obtain ⟨_, c, hc, _⟩ := setClusters_ok hs'
  unfold defaultSearch
  rw [if_neg]
  intro h0
  have := (h1 c).mpr hc
  rw [h0] at this
  simp at this

/-- The search of a list of the clusters `cs`: `Clusters(cs)` was applied to it, or it names no cluster and `cs` is the default cluster. -/
def Spec.Restricted (env : Env) (search : Str) (qs : List Req) (cs : List Str) (s' : Str) : Prop :=
  setClusters search cs = some s'
    ∨ (s' = search ∧ cs = [env.defaultCluster] ∧ getClusters search = [] ∧ env.defaultCluster ≠ [] ∧ validLabelValue env.defaultCluster = true
      ∧ ∀ q ∈ qs, q.op ≠ .gt ∧ q.op ≠ .lt)

theorem restricted_default {search s' : Str} {qs : List Req} {cs : List Str} (h : Restricted env search qs cs s') (hadv : FirstReqs search qs)
    (hplain : Separable (lit "cluster") search qs) : setClusters search cs = some (defaultSearch env s') := by
  rcases h with h | ⟨rfl, rfl, h0, h1, h2, h3⟩
  · rw [clustersSearch_default' h hadv hplain]; exact h
  · obtain ⟨s', hs'⟩ := setClusters_some_first hadv h3 h1 h2
    unfold defaultSearch
    rw [if_pos h0, hs', Option.getD_some]

/-- The search of `Clusters(cs)` can be evaluated wherever the parts of the given search can. -/
theorem clustersSearch_evaluates {search s' : Str} {cs : List Str} {qs : List Req} (hs' : setClusters search cs = some s')
    (hadv : FirstReqs search qs) (hplain : Separable (lit "cluster") search qs) (m : List (Str × Str))
    (hp : ∀ p ∈ searchParts search, ¬ advPrefix <+: p → matchParts isPrint m [p] ≠ none) :
    matchParts isPrint m (searchParts s') ≠ none := by
  obtain ⟨hset, hv⟩ := setClusters_ok hs'
  obtain ⟨hsel0, hval0⟩ := searchSelector_first hadv
  obtain ⟨ls, rs, hls, hmap, _, hrs, hne, hpr, hparts⟩ := restrict_search_first hset hsel0 hval0
    (fun p hp _ r => by simpa [lit] using Separable.semicolons hplain p hp r) hv hplain.values
  obtain ⟨b, hb, hbm⟩ := match1_advPart (isPrint := isPrint) (m := m) hrs hne hpr hmap
  rw [hparts, Ne, matchParts_none]
  rintro ⟨p, hp', hpn⟩
  rcases List.mem_cons.mp hp' with rfl | hp'
  · rw [hb] at hpn; simp at hpn
  · rw [List.mem_filter] at hp'
    refine hp p hp'.1 ?_ ?_
    · intro hpre
      have := hasPrefix_iff.mpr hpre
      simp [this] at hp'
    · rw [matchParts_none]
      exact ⟨p, by simp, hpn⟩

theorem keysLt_irrefl {α : Type} {val : α → Str → Str} : ∀ {ks : List SortKey} {a : α}, ¬ KeysLt pf val ks a a
  | [], _ => id
  | k :: ks, a => by
    rintro (h | ⟨_, h⟩)
    · revert h
      cases k.num <;> cases k.reverse <;> simp [strLt_irrefl, numLt_irrefl]
    · exact keysLt_irrefl h

theorem keysLt_trans {α : Type} {val : α → Str → Str} : ∀ {ks : List SortKey} {a b c : α}, KeysLt pf val ks a b → KeysLt pf val ks b c →
    KeysLt pf val ks a c
  | [], _, _, _ => fun h _ => h.elim
  | ⟨k, n, rv⟩ :: ks, a, b, c => by
    rintro (h1 | ⟨h1, h1'⟩) (h2 | ⟨h2, h2'⟩)
    · left
      cases n <;> cases rv
      · exact strLt_trans h1 h2
      · exact strLt_trans h2 h1
      · exact numLt_trans h1 h2
      · exact numLt_trans h2 h1
    · left
      cases n <;> cases rv <;> simp only [Bool.false_eq_true, if_false, if_true] at h1 h2 ⊢ <;> rw [← h2] <;> exact h1
    · left
      cases n <;> cases rv <;> simp only [Bool.false_eq_true, if_false, if_true] at h1 h2 ⊢ <;> rw [h1] <;> exact h2
    · refine Or.inr ⟨?_, keysLt_trans h1' h2'⟩
      cases n <;> simp only [Bool.false_eq_true, if_false, if_true] at h1 h2 ⊢ <;> exact h1.trans h2

/-- A strictly ordered list is determined by its members. -/
theorem keys_unique {α : Type} {val : α → Str → Str} {ks : List SortKey} {l l' : List α} (h1 : l.Pairwise (KeysLt pf val ks))
    (h2 : l'.Pairwise (KeysLt pf val ks)) (hm : ∀ e, e ∈ l ↔ e ∈ l') : l = l' := by
  have hd : ∀ {l : List α}, l.Pairwise (KeysLt pf val ks) → l.Nodup := by
    intro l hl
    refine hl.imp ?_
    rintro a b hab rfl
    exact keysLt_irrefl hab
  refine ((List.perm_ext_iff_of_nodup (hd h1) (hd h2)).mpr hm).eq_of_pairwise ?_ h1 h2
  intro a b _ _ hab hba
  exact absurd (keysLt_trans hab hba) keysLt_irrefl

/-- An object that may stand before another one and does not stand strictly before it has the same values. -/
theorem lexLe_keysLt {α : Type} {val : α → Str → Str} {a b : SObj} {x y : α} : ∀ {ks : List SortKey},
    (∀ k ∈ ks, a.val k.key = val x k.key ∧ b.val k.key = val y k.key) → LexLe pf ks a b →
    KeysLt pf val ks x y ∨ ∀ k ∈ ks, k.num = false → val x k.key = val y k.key
  | [], _, _ => Or.inr (by simp)
  | ⟨k, n, rv⟩ :: ks, hv, h => by
    obtain ⟨v1, v2⟩ := hv _ (List.mem_cons_self ..)
    simp only [LexLe, ValueLt, ValueEq, v1, v2] at h
    rcases h with h | ⟨h1, h2⟩
    · left; left
      cases n <;> cases rv <;> simpa using h
    · rcases lexLe_keysLt (fun k' hk' => hv k' (List.mem_cons_of_mem _ hk')) h2 with h3 | h3
      · exact Or.inl (Or.inr ⟨h1, h3⟩)
      · right
        intro k' hk' hn
        rcases List.mem_cons.mp hk' with rfl | hk'
        · cases hn; simpa using h1
        · exact h3 k' hk' hn

/-- A list shows what the cache has; `search` restricted to `cs` is the search the server uses. -/
theorem mirror_search (hconf : ConfOK conf) (hrun : (newStore conf).run eval h = some s) (hapi : ApiObjects h)
    (hst : Serves isPrint alg pf s st) (hord : ord.Perm (parseQuery r.rawQuery)) (hc : Cacheable st r) (hr : r.resource = [])
    {i : SelInfo} (hi : Reads r i) {search : Str} {cs : List Str} {qs : List Req} (hset : setClusters search cs = some (defaultSearch env i.paginate.search))
    (hadv : FirstReqs search qs) (hplain : Separable (lit "cluster") search qs) {ks : List SortKey} (hks : SortMeans i.paginate.sort ks)
    (htot : TotalKeys ks) (hv : ValidPaging i.paginate)
    {objs : Str → List ((Str × Str) × Obj)} (hu : ∀ c ∈ cs, Mirrors eval conf r.gvr c h (objs c)) (he : EmptyNoNaN pf)
    (hnan : ∀ c ∈ cs, ∀ e ∈ objs c, ∀ k ∈ ks, k.num = true →
      pf (valueUnder eval (confAt conf r.gvr) ((c, e.1.1, e.1.2), e.2) k.key) ≠ some .nan) :
    ((∀ id o idx, Latest eval (confAt conf) h id o → id.gvr = r.gvr → (r.ns = [] ∨ r.ns = id.ns) →
        IsIndex eval (confAt conf r.gvr) id.cluster o idx →
        ∀ p ∈ searchParts search, ¬ advPrefix <+: p → matchParts isPrint idx [p] ≠ none) →
      (∀ k ∈ ks, k.key ∈ (confAt conf r.gvr).map Prod.fst ∨ k.key ∈ [lit "cluster", lit "is_deleted", lit "namespace", lit "name"]) →
      (∀ c ∈ cs, ∀ e ∈ objs c, ∀ k ∈ ks, k.num = true →
        ∃ v, indexValueOf eval (confAt conf r.gvr) c e.2 k.key = some v ∧ (number pf v).isSome = true) →
      proxy env st tord ord r ≠ .refused .query)
    ∧ (proxy env st tord ord r = .refused .query
      ∨ ∃ (all : List ((Str × Str × Str) × Obj)) (items : List Obj),
        (∀ e, e ∈ all ↔ e.1.1 ∈ cs ∧ (e.1.2, e.2) ∈ objs e.1.1 ∧ (r.ns = [] ∨ r.ns = e.1.2.1) ∧ Satisfies i.labels e.2
          ∧ ∃ idx, IsIndex eval (confAt conf r.gvr) e.1.1 e.2 idx ∧ KeptConstraints isPrint (lit "cluster") search qs idx)
        ∧ all.Pairwise (KeysLt pf (valueUnder eval (confAt conf r.gvr)) ks)
        ∧ List.Forall₂ (fun e o => SameButMarks e.2 o) all items
        ∧ (proxy env st tord ord r = .refused .outOfPage
            ∨ Shows tord (pageOf i.paginate.page i.paginate.pageSize items) (proxy env st tord ord r))
        ∧ (1 ≤ i.paginate.page → 1 ≤ i.paginate.pageSize → i.paginate.page * i.paginate.pageSize < 9223372036854775808 →
            (all.length : Int) < 9223372036854775808 →
            (proxy env st tord ord r = .refused .outOfPage ↔
              i.paginate.page ≠ 1 ∧ (all.length : Int) ≤ (i.paginate.page - 1) * i.paginate.pageSize)
            ∧ ∀ v k l rc its, proxy env st tord ord r = .list v k l rc its →
                makeupTotal (some rc) its.length i.paginate = all.length)
        ∧ (i.paginate.page = 0 → i.paginate.pageSize = 0 → (all.length : Int) < 9223372036854775808 →
            proxy env st tord ord r ≠ .refused .outOfPage
            ∧ ∀ v k l rc its, proxy env st tord ord r = .list v k l rc its →
                makeupTotal (some rc) its.length i.paginate = all.length)
        ∧ (contains r.accept (lit "application/json;as=Table") = false → proxy env st tord ord r ≠ .refused .outOfPage →
            ∃ v k l rc, proxy env st tord ord r = .list v k l rc (pageOf i.paginate.page i.paginate.pageSize items))) := by
  have hkeys := fun c hc => (hu c hc).2
  have hsrch : (listPage env i).search = defaultSearch env i.paginate.search := rfl
  have hmatch : ∀ idx, (listPage env i).matches isPrint idx = some true ↔
      (∃ c ∈ cs, lookup (lit "cluster") idx = some c) ∧ KeptConstraints isPrint (lit "cluster") search qs idx := by
    intro idx
    have := C17_any_partial isPrint search (defaultSearch env i.paginate.search) cs qs hset hadv hplain.semicolon hplain.values idx
    unfold Paginate.matches at this ⊢
    rw [hsrch]
    exact this
  -- what the query finds
  have hiff : ∀ id o, Matching isPrint eval conf h r.gvr ⟨r.ns, listPage env i⟩ id o ↔
      id.gvr = r.gvr ∧ id.cluster ∈ cs ∧ ((id.ns, id.name), o) ∈ objs id.cluster ∧ (r.ns = [] ∨ r.ns = id.ns)
        ∧ ∃ idx, IsIndex eval (confAt conf r.gvr) id.cluster o idx ∧ KeptConstraints isPrint (lit "cluster") search qs idx := by
    intro id o
    constructor
    · rintro ⟨h1, h2, h3, idx, h4, h5⟩
      obtain ⟨⟨c, hc', hlc⟩, hoth⟩ := (hmatch idx).mp h5
      have hcl : id.cluster ∈ cs := by
        have := h4.2 (lit "cluster")
        rw [hlc] at this
        have hcc : c = id.cluster := by simpa [indexValueOf] using this
        rw [← hcc]; exact hc'
      refine ⟨h2, hcl, ?_, h3, idx, h4, hoth⟩
      obtain ⟨g, c, n, nm⟩ := id
      simp only at h2 hcl
      subst h2
      exact mem_of_lookup (((hu c hcl).1 n nm o).mp h1)
    · rintro ⟨h1, h2, h3, h4, idx, h5, h6⟩
      obtain ⟨g, c, n, nm⟩ := id
      simp only at h1 h2
      subst h1
      refine ⟨((hu c h2).1 n nm o).mpr (lookup_eq_some_of_mem (hkeys c h2).1 h3), rfl, h4, idx, h5, ?_⟩
      rw [hmatch]
      refine ⟨⟨c, h2, ?_⟩, h6⟩
      rw [h5.2]
      simp [indexValueOf]
  rcases list_outcome (env := env) (tord := tord) hconf hrun hst hord hc hr hi hv with
    ⟨q0, q, res, q1, q2, q3, _, q4, q5⟩ | ⟨_, id, o, hm, hom⟩ | ⟨found, kept, f1, f2, f3, f4, f5, f6⟩
  · refine ⟨?_, Or.inl q0⟩
    intro hev hknown hnum
    exfalso
    have hans := hst.query r.gvr q
    rw [q4] at hans
    have := C25_accepted hconf hrun hapi r.gvr q ks (by rw [q2]; exact hks) hknown
      (by intro id o idx a1 a2 a3 a4; unfold Paginate.matches; rw [q3, hsrch]
          exact clustersSearch_evaluates hset hadv hplain idx (hev id o idx a1 a2 (by rw [q1] at a3; exact a3) a4))
      (by
        rintro id o ⟨a1, a2, a3, idx, a4, a5⟩ k hk hn
        have hm : Matching isPrint eval conf h r.gvr ⟨r.ns, listPage env i⟩ id o :=
          ⟨a1, a2, by rw [q1] at a3; exact a3, idx, a4, by unfold Paginate.matches at a5 ⊢; rw [q3] at a5; exact a5⟩
        obtain ⟨-, b2, b3, -⟩ := (hiff id o).mp hm
        exact hnum id.cluster b2 _ b3 k hk hn)
      res hans
    rw [q5] at this
    simp at this
  · exfalso
    have := latest_api hapi hm.1
    rw [hom] at this
    simp at this
  · have hfm : ∀ e ∈ found, e.1.gvr = r.gvr ∧ e.1.cluster ∈ cs ∧ ((e.1.ns, e.1.name), e.2.1) ∈ objs e.1.cluster
        ∧ (r.ns = [] ∨ r.ns = e.1.ns)
        ∧ ∃ idx, IsIndex eval (confAt conf r.gvr) e.1.cluster e.2.1 idx ∧ KeptConstraints isPrint (lit "cluster") search qs idx :=
      fun e he' => (hiff e.1 e.2.1).mp ((f1.2.1 e.1 e.2.1).mp ⟨e.2.2, he'⟩)
    have hkf : ∀ e ∈ kept, e ∈ found := fun e he' => f4.subset he'
    refine ⟨fun _ _ _ => ?_, Or.inr ⟨kept.map fun e => ((e.1.cluster, e.1.ns, e.1.name), e.2.1), kept.map fun e => e.2.2.obj, ?_, ?_, ?_, ?_, ?_, ?_, ?_⟩⟩
    · rw [f6]
      simp only [listAnswer]
      cases remainCount (listPage env i) kept.length
        (pageOf i.paginate.page i.paginate.pageSize (kept.map fun e => e.2.2.obj)).length with
      | none => simp
      | some rc =>
        simp only
        split
        · unfold serverPrint; split <;> simp
        · simp
    · rintro ⟨⟨c, n, nm⟩, o⟩
      rw [List.mem_map]
      constructor
      · rintro ⟨e, hek, heq⟩
        obtain ⟨-, e2, e3, e4, e5⟩ := hfm e (hkf e hek)
        simp only [Prod.mk.injEq] at heq
        obtain ⟨⟨rfl, rfl, rfl⟩, rfl⟩ := heq
        exact ⟨e2, e3, e4, (f5 e (hkf e hek)).mp hek, e5⟩
      · rintro ⟨e0, e1, e2, e3, e4⟩
        obtain ⟨so, hso⟩ := (f1.2.1 ⟨r.gvr, c, n, nm⟩ o).mpr ((hiff _ _).mpr ⟨rfl, e0, e1, e2, e4⟩)
        exact ⟨_, (f5 _ hso).mpr e3, rfl⟩
    · have hnd : (kept.map Prod.fst).Nodup := f1.1.sublist (f4.map _)
      have hsorted : (found.map fun e => e.2.2).Pairwise (LexLe pf ks) := by
        rcases f3 with rfl | ⟨rs, hperm, hs⟩
        · simp
        · by_cases h0 : found = []
          · simp [h0]
          · have hne : rs ≠ [] := by
              rintro rfl
              have := hperm.length_eq
              simp only [List.length_nil, List.length_map] at this
              exact h0 (List.length_eq_zero_iff.mp this.symm)
            obtain ⟨ks', k1, k2⟩ := sortObjs_sorted hs hne (sortMeans_twoParts hks)
            obtain rfl := sortMeans_det hks k1
            refine k2 (noNaN_found hconf f2 he ?_ hperm)
            intro id o hm k hk hn v hv'
            obtain ⟨-, b2, b3, -⟩ := (hiff id o).mp hm
            have := hnan id.cluster b2 _ b3 k hk hn
            unfold valueUnder at this
            rw [hv'] at this
            exact this
      rw [List.Nodup, List.pairwise_map] at hnd
      rw [List.pairwise_map] at hsorted ⊢
      refine ((hsorted.sublist f4).and hnd).imp_of_mem ?_
      rintro a b ha hb ⟨hab, hne⟩
      have hval : ∀ e ∈ found, ∀ k, e.2.2.val k = valueUnder eval (confAt conf r.gvr) ((e.1.cluster, e.1.ns, e.1.name), e.2.1) k := by
        intro e he' k
        unfold SObj.val valueUnder
        rw [(f1.2.2 e he').1.2]
      have hplace : ∀ e ∈ found, valueUnder eval (confAt conf r.gvr) ((e.1.cluster, e.1.ns, e.1.name), e.2.1) (lit "cluster") = e.1.cluster
          ∧ valueUnder eval (confAt conf r.gvr) ((e.1.cluster, e.1.ns, e.1.name), e.2.1) (lit "namespace") = e.1.ns
          ∧ valueUnder eval (confAt conf r.gvr) ((e.1.cluster, e.1.ns, e.1.name), e.2.1) (lit "name") = e.1.name := by
        intro e he'
        obtain ⟨e1, e2, e3, -⟩ := hfm e he'
        obtain ⟨m, hm⟩ := latest_api hapi ((f1.2.1 e.1 e.2.1).mp ⟨e.2.2, he'⟩).1
        have hk := (hkeys _ e2).2 _ e3
        simp only [objKey, hm, Prod.mk.injEq] at hk
        unfold valueUnder
        refine ⟨?_, ?_, ?_⟩
        · simp [indexValueOf]
        · rw [indexValueOf, hm, if_neg (by decide), ← hk.1]
          simp only
          rw [if_neg (by decide), if_pos trivial]; rfl
        · rw [indexValueOf, hm, if_neg (by decide), ← hk.2]
          simp only
          rw [if_neg (by decide), if_neg (by decide), if_pos trivial]; rfl
      rcases lexLe_keysLt (val := valueUnder eval (confAt conf r.gvr)) (x := ((a.1.cluster, a.1.ns, a.1.name), a.2.1))
        (y := ((b.1.cluster, b.1.ns, b.1.name), b.2.1)) (fun k _ => ⟨hval a (hkf a ha) k.key, hval b (hkf b hb) k.key⟩) hab with h1 | h1
      · exact h1
      · exfalso
        obtain ⟨a1, a2, a3⟩ := hplace a (hkf a ha)
        obtain ⟨b1, b2, b3⟩ := hplace b (hkf b hb)
        have hat : ∀ x ∈ [lit "cluster", lit "namespace", lit "name"],
            valueUnder eval (confAt conf r.gvr) ((a.1.cluster, a.1.ns, a.1.name), a.2.1) x
              = valueUnder eval (confAt conf r.gvr) ((b.1.cluster, b.1.ns, b.1.name), b.2.1) x := by
          intro x hx
          obtain ⟨rv, hk⟩ := htot x hx
          exact h1 _ hk rfl
        have c1 := hat (lit "cluster") (by simp)
        have c2 := hat (lit "namespace") (by simp)
        have c3 := hat (lit "name") (by simp)
        rw [a1, b1] at c1
        rw [a2, b2] at c2
        rw [a3, b3] at c3
        apply hne
        have ga := (hfm a (hkf a ha)).1
        have gb := (hfm b (hkf b hb)).1
        cases ea : a.1; cases eb : b.1
        simp only [ea, eb] at c1 c2 c3 ga gb
        rw [c1, c2, c3, ga, gb]
    · rw [List.forall₂_map_left_iff, List.forall₂_map_right_iff]
      apply List.forall₂_same.mpr
      intro e hek
      have hl := ((f1.2.1 e.1 e.2.1).mp ⟨e.2.2, hkf e hek⟩).1
      obtain ⟨o', g1, g2⟩ := (C20_latest hrun e.1).1 e.2.1 hl
      rw [(f1.2.2 e (hkf e hek)).2, Option.some.injEq] at g1
      rw [g1]
      exact g2
    · rw [f6]
      simp only [listAnswer]
      cases remainCount (listPage env i) kept.length
        (pageOf i.paginate.page i.paginate.pageSize (kept.map fun e => e.2.2.obj)).length with
      | none => exact Or.inl rfl
      | some rc =>
        right
        simp only
        split
        · exact .table
        · exact .list _ _ _ _
    · intro p1 p2 p3 p4
      rw [List.length_map] at p4 ⊢
      have hl := length_pageOf (kept.map fun e => e.2.2.obj) (page := i.paginate.page) (size := i.paginate.pageSize) (by omega)
      rw [List.length_map] at hl
      obtain ⟨t1, t2⟩ := remain_total (p := listPage env i) p4 p1 p2 p3 hl
      rw [f6]
      simp only [listAnswer]
      cases hrc : remainCount (listPage env i) kept.length
        (pageOf i.paginate.page i.paginate.pageSize (kept.map fun e => e.2.2.obj)).length with
      | none =>
        refine ⟨⟨fun _ => t1.mp hrc, fun _ => rfl⟩, ?_⟩
        intro v k l rc its hp
        simp at hp
      | some rc =>
        have hno : ¬ (i.paginate.page ≠ 1 ∧ (kept.length : Int) ≤ (i.paginate.page - 1) * i.paginate.pageSize) := by
          intro hx
          have := t1.mpr hx
          rw [hrc] at this
          simp at this
        refine ⟨⟨?_, fun hx => absurd hx hno⟩, ?_⟩
        · intro hp
          exfalso
          simp only at hp
          split at hp
          · unfold serverPrint at hp; split at hp <;> simp at hp
          · simp at hp
        · intro v k l rc' its hp
          simp only at hp
          split at hp
          · unfold serverPrint at hp; split at hp <;> simp at hp
          · simp only [Answer.list.injEq] at hp
            obtain ⟨-, -, -, rfl, rfl⟩ := hp
            exact t2 _ hrc
    · intro p1 p2 p4
      rw [List.length_map] at p4 ⊢
      have hrc : ∀ n, remainCount (listPage env i) kept.length n = some 0 := by simp [remainCount, listPage, p1, p2]
      rw [f6]
      simp only [listAnswer, hrc]
      refine ⟨?_, ?_⟩
      · split
        · unfold serverPrint; split <;> simp
        · simp
      · intro v k l rc its hp
        split at hp
        · unfold serverPrint at hp; split at hp <;> simp at hp
        · simp only [Answer.list.injEq] at hp
          obtain ⟨-, -, -, rfl, rfl⟩ := hp
          have hw : wrap64 (wrap64 (0 - 1) * 0) = 0 := by decide
          have hz : wrap64 ((0 : Int) + 0) = 0 := by decide
          simp only [makeupTotal, pageOf, p1, p2, List.length_map, Option.getD_some, if_true, hw, hz]
          rw [Int.zero_add]
          exact wrap64_id (by omega) (by omega)
    · intro hacc hno
      rw [f6] at hno ⊢
      simp only [listAnswer, hacc] at hno ⊢
      cases hrc : remainCount (listPage env i) kept.length
        (pageOf i.paginate.page i.paginate.pageSize (kept.map fun e => e.2.2.obj)).length with
      | none => rw [hrc] at hno; exact absurd rfl hno
      | some rc => exact ⟨_, _, _, rc, rfl⟩

/-- A list with a search for the clusters `cs` shows what the cache has. -/
theorem mirror_any (hconf : ConfOK conf) (hrun : (newStore conf).run eval h = some s) (hapi : ApiObjects h)
    (hst : Serves isPrint alg pf s st) (hord : ord.Perm (parseQuery r.rawQuery)) (hc : Cacheable st r) (hr : r.resource = [])
    {i : SelInfo} (hi : Reads r i) {search : Str} {cs : List Str} {qs : List Req} (hset : Restricted env search qs cs i.paginate.search)
    (hadv : FirstReqs search qs) (hplain : Separable (lit "cluster") search qs) {ks : List SortKey} (hks : SortMeans i.paginate.sort ks)
    (htot : TotalKeys ks) (hv : ValidPaging i.paginate)
    {objs : Str → List ((Str × Str) × Obj)} (hu : ∀ c ∈ cs, Mirrors eval conf r.gvr c h (objs c)) (he : EmptyNoNaN pf)
    (hnan : ∀ c ∈ cs, ∀ e ∈ objs c, ∀ k ∈ ks, k.num = true →
      pf (valueUnder eval (confAt conf r.gvr) ((c, e.1.1, e.1.2), e.2) k.key) ≠ some .nan) :
    ((∀ id o idx, Latest eval (confAt conf) h id o → id.gvr = r.gvr → (r.ns = [] ∨ r.ns = id.ns) →
        IsIndex eval (confAt conf r.gvr) id.cluster o idx →
        ∀ p ∈ searchParts search, ¬ advPrefix <+: p → matchParts isPrint idx [p] ≠ none) →
      (∀ k ∈ ks, k.key ∈ (confAt conf r.gvr).map Prod.fst ∨ k.key ∈ [lit "cluster", lit "is_deleted", lit "namespace", lit "name"]) →
      (∀ c ∈ cs, ∀ e ∈ objs c, ∀ k ∈ ks, k.num = true →
        ∃ v, indexValueOf eval (confAt conf r.gvr) c e.2 k.key = some v ∧ (number pf v).isSome = true) →
      proxy env st tord ord r ≠ .refused .query)
    ∧ (proxy env st tord ord r = .refused .query
      ∨ ∃ (all : List ((Str × Str × Str) × Obj)) (items : List Obj),
        (∀ e, e ∈ all ↔ e.1.1 ∈ cs ∧ (e.1.2, e.2) ∈ objs e.1.1 ∧ (r.ns = [] ∨ r.ns = e.1.2.1) ∧ Satisfies i.labels e.2
          ∧ ∃ idx, IsIndex eval (confAt conf r.gvr) e.1.1 e.2 idx ∧ KeptConstraints isPrint (lit "cluster") search qs idx)
        ∧ all.Pairwise (KeysLt pf (valueUnder eval (confAt conf r.gvr)) ks)
        ∧ List.Forall₂ (fun e o => SameButMarks e.2 o) all items
        ∧ (proxy env st tord ord r = .refused .outOfPage
            ∨ Shows tord (pageOf i.paginate.page i.paginate.pageSize items) (proxy env st tord ord r))
        ∧ (1 ≤ i.paginate.page → 1 ≤ i.paginate.pageSize → i.paginate.page * i.paginate.pageSize < 9223372036854775808 →
            (all.length : Int) < 9223372036854775808 →
            (proxy env st tord ord r = .refused .outOfPage ↔
              i.paginate.page ≠ 1 ∧ (all.length : Int) ≤ (i.paginate.page - 1) * i.paginate.pageSize)
            ∧ ∀ v k l rc its, proxy env st tord ord r = .list v k l rc its →
                makeupTotal (some rc) its.length i.paginate = all.length)) := by
  obtain ⟨h1, h2⟩ := mirror_search (env := env) (tord := tord) hconf hrun hapi hst hord hc hr hi
    (restricted_default hset hadv hplain) hadv hplain hks htot hv hu he hnan
  refine ⟨h1, h2.imp_right ?_⟩
  rintro ⟨all, items, a1, a2, a3, a4, a5, -⟩
  exact ⟨all, items, a1, a2, a3, a4, a5⟩

/-- **C96**, with any search and any order that distinguishes objects: when the cache has caught up with the API servers of the clusters `cs`,
a list request with a search to which `Clusters(cs)` was applied, or which names no cluster when `cs` is the default cluster, and with a sort expression that has cluster, namespace and name among its
keys, shows a page of one list: the objects these API servers have in the namespace that satisfy the label selector and the search, each once,
strictly ordered by the keys, numeric ones included. The list is determined by this (`keys_unique`), so that all pages are pages of the same list. The
request is refused only if a part of the search cannot be evaluated for some object, a sort key is not configured or an object has no number under a
numeric key. Missing for the full claim: values that are NaN under a numeric key, orders with ties (`C24_false_ties`), searches that cannot be taken apart (not `Separable`), and what is missing above. -/
theorem C96_any_partial (hconf : ConfOK conf) (hrun : (newStore conf).run eval h = some s) (hapi : ApiObjects h)
    (hst : Serves isPrint alg pf s st) (hord : ord.Perm (parseQuery r.rawQuery)) (hc : Cacheable st r) (hr : r.resource = [])
    {i : SelInfo} (hi : Reads r i) {search : Str} {cs : List Str} {qs : List Req} (hset : Restricted env search qs cs i.paginate.search)
    (hadv : FirstReqs search qs) (hplain : Separable (lit "cluster") search qs) {ks : List SortKey} (hks : SortMeans i.paginate.sort ks)
    (htot : TotalKeys ks) (hv : ValidPaging i.paginate)
    {objs : Str → List ((Str × Str) × Obj)} (hu : ∀ c ∈ cs, CaughtUp r.gvr c h (objs c)) (he : EmptyNoNaN pf)
    (hnan : ∀ c ∈ cs, ∀ e ∈ objs c, ∀ k ∈ ks, k.num = true →
      pf (valueUnder eval (confAt conf r.gvr) ((c, e.1.1, e.1.2), e.2) k.key) ≠ some .nan) :
    ((∀ id o idx, Latest eval (confAt conf) h id o → id.gvr = r.gvr → (r.ns = [] ∨ r.ns = id.ns) →
        IsIndex eval (confAt conf r.gvr) id.cluster o idx →
        ∀ p ∈ searchParts search, ¬ advPrefix <+: p → matchParts isPrint idx [p] ≠ none) →
      (∀ k ∈ ks, k.key ∈ (confAt conf r.gvr).map Prod.fst ∨ k.key ∈ [lit "cluster", lit "is_deleted", lit "namespace", lit "name"]) →
      (∀ c ∈ cs, ∀ e ∈ objs c, ∀ k ∈ ks, k.num = true →
        ∃ v, indexValueOf eval (confAt conf r.gvr) c e.2 k.key = some v ∧ (number pf v).isSome = true) →
      proxy env st tord ord r ≠ .refused .query)
    ∧ (proxy env st tord ord r = .refused .query
      ∨ ∃ (all : List ((Str × Str × Str) × Obj)) (items : List Obj),
        (∀ e, e ∈ all ↔ e.1.1 ∈ cs ∧ (e.1.2, e.2) ∈ objs e.1.1 ∧ (r.ns = [] ∨ r.ns = e.1.2.1) ∧ Satisfies i.labels e.2
          ∧ ∃ idx, IsIndex eval (confAt conf r.gvr) e.1.1 e.2 idx ∧ KeptConstraints isPrint (lit "cluster") search qs idx)
        ∧ all.Pairwise (KeysLt pf (valueUnder eval (confAt conf r.gvr)) ks)
        ∧ List.Forall₂ (fun e o => SameButMarks e.2 o) all items
        ∧ (proxy env st tord ord r = .refused .outOfPage
            ∨ Shows tord (pageOf i.paginate.page i.paginate.pageSize items) (proxy env st tord ord r))
        ∧ (1 ≤ i.paginate.page → 1 ≤ i.paginate.pageSize → i.paginate.page * i.paginate.pageSize < 9223372036854775808 →
            (all.length : Int) < 9223372036854775808 →
            (proxy env st tord ord r = .refused .outOfPage ↔
              i.paginate.page ≠ 1 ∧ (all.length : Int) ≤ (i.paginate.page - 1) * i.paginate.pageSize)
            ∧ ∀ v k l rc its, proxy env st tord ord r = .list v k l rc its →
                makeupTotal (some rc) its.length i.paginate = all.length)) :=
  mirror_any hconf hrun hapi hst hord hc hr hi hset hadv hplain hks htot hv (fun c hc' => CaughtUp.mirrors (hu c hc')) he hnan

/-! ## The hypotheses are met -/

/-- Pages of two of the search `__ckube_as__:cluster in (c1,c2)`: the pods of `c1`, then that of `c2`; there is no page 3. -/
def exFedPage (j : Nat) : String :=
  if j = 1 then "labelSelector=ckube.daocloud.io%2Fquery+notin+%280000.eyJwYWdlIjoxLCJwYWdlX3NpemUiOjIsInNlYXJjaCI6Il9fY2t1YmVf%2C0056.YXNfXzpjbHVzdGVyIGluIChjMSxjMikifQ%29"
  else "labelSelector=ckube.daocloud.io%2Fquery+notin+%280000.eyJwYWdlIjoyLCJwYWdlX3NpemUiOjIsInNlYXJjaCI6Il9fY2t1YmVf%2C0056.YXNfXzpjbHVzdGVyIGluIChjMSxjMikifQ%29"

example : let q := exFedPage 2
    (Cacheable exSyncedI (exInf q) ∧ ∀ c, ¬ Names (exInf q) c)
    ∧ (∃ i, Reads (exInf q) i ∧ setClusters [] [lit "c1", lit "c2"] = some i.paginate.search ∧ i.paginate.sort = []
        ∧ i.paginate.page = 2 ∧ i.paginate.pageSize = 2)
    ∧ (∀ c ∈ [lit "c1", lit "c2"], CaughtUp (exInf q).gvr c exSynced (exObjs c))
    ∧ EmptyNoNaN exFloat
    ∧ exTold (exFedPage 1) = .inl [(lit "db", lit "n1"), (lit "web", lit "n2")] ∧ exTold q = .inl [(lit "web", lit "n9")] := by
  intro q
  have h2 : ((parseSelector (lit "ckube.daocloud.io/query notin (0000.eyJwYWdlIjoyLCJwYWdlX3NpemUiOjIsInNlYXJjaCI6Il9fY2t1YmVf,0056.YXNfXzpjbHVzdGVyIGluIChjMSxjMikifQ)")).map fun i =>
        (i.paginate.search, i.paginate.sort, i.paginate.page, i.paginate.pageSize))
      = some (lit "__ckube_as__:cluster in (c1,c2)", [], 2, 2) := by decide +kernel
  have h3 : setClusters [] [lit "c1", lit "c2"] = some (lit "__ckube_as__:cluster in (c1,c2)") := by decide +kernel
  obtain ⟨i, h4, h5⟩ := Option.map_eq_some_iff.mp h2
  simp only [Prod.mk.injEq] at h5
  obtain ⟨e1, e2, e3, e4⟩ := h5
  refine ⟨exInf_cacheable q (by decide +kernel), ⟨i, Or.inl ⟨_, ⟨[], by decide +kernel⟩, h4⟩, by rw [h3, e1], e2, e3, e4⟩, ?_,
    by unfold EmptyNoNaN; decide +kernel, by decide +kernel, by decide +kernel⟩
  intro c hc
  simp only [List.mem_cons, List.not_mem_nil, or_false] at hc
  rcases hc with rfl | rfl
  · exact exSynced_caughtUp.1
  · exact exSynced_caughtUp.2

/-- Page 2 of the pods of both clusters with a `b` in their name, by name, last first. -/
def exAnyPage : String := "labelSelector=ckube.daocloud.io%2Fquery+notin+%280000.eyJwYWdlIjoyLCJwYWdlX3NpemUiOjIsInNvcnQiOiJuYW1lIGRlc2Ms%2C0056.Y2x1c3RlcixuYW1lc3BhY2UiLCJzZWFyY2giOiJfX2NrdWJlX2FzX186%2C0112.Y2x1c3RlciBpbiAoYzEsYzIpO25hbWU9YiJ9%29"

def exAnyKeys : List SortKey := [⟨lit "name", false, true⟩, ⟨lit "cluster", false, false⟩, ⟨lit "namespace", false, false⟩]

example : (Cacheable exSyncedI (exInf exAnyPage) ∧ ∀ c, ¬ Names (exInf exAnyPage) c)
    ∧ (∃ i, Reads (exInf exAnyPage) i ∧ setClusters (lit "name=b") [lit "c1", lit "c2"] = some i.paginate.search
        ∧ SortMeans i.paginate.sort exAnyKeys ∧ i.paginate.page = 2 ∧ i.paginate.pageSize = 2)
    ∧ FirstReqs (lit "name=b") [] ∧ Separable (lit "cluster") (lit "name=b") []
    ∧ TotalKeys exAnyKeys
    ∧ exTold exAnyPage = .inl [(lit "db", lit "n1")] := by
  have h2 : ((parseSelector (lit "ckube.daocloud.io/query notin (0000.eyJwYWdlIjoyLCJwYWdlX3NpemUiOjIsInNvcnQiOiJuYW1lIGRlc2Ms,0056.Y2x1c3RlcixuYW1lc3BhY2UiLCJzZWFyY2giOiJfX2NrdWJlX2FzX186,0112.Y2x1c3RlciBpbiAoYzEsYzIpO25hbWU9YiJ9)")).map fun i =>
        (i.paginate.search, i.paginate.sort, i.paginate.page, i.paginate.pageSize))
      = some (lit "__ckube_as__:cluster in (c1,c2);name=b", lit "name desc,cluster,namespace", 2, 2) := by decide +kernel
  have h3 : setClusters (lit "name=b") [lit "c1", lit "c2"] = some (lit "__ckube_as__:cluster in (c1,c2);name=b") := by decide +kernel
  have hp : searchParts (lit "name=b") = [lit "name=b"] := by decide +kernel
  obtain ⟨i, h4, h5⟩ := Option.map_eq_some_iff.mp h2
  simp only [Prod.mk.injEq] at h5
  obtain ⟨e1, e2, e3, e4⟩ := h5
  refine ⟨exInf_cacheable _ (by decide +kernel), ⟨i, Or.inl ⟨_, ⟨[], by decide +kernel⟩, h4⟩, by rw [h3, e1], ?_, e3, e4⟩,
    Or.inl ⟨?_, rfl⟩, ⟨?_, by simp⟩, ?_, by decide +kernel⟩
  · rw [e2]
    refine Or.inr ⟨by decide, ?_⟩
    have hs : ((splitByte 44 (lit "name desc,cluster,namespace")).filter fun i => trimSpace i ≠ [])
        = [lit "name desc", lit "cluster", lit "namespace"] := by decide +kernel
    rw [hs]
    refine .cons ⟨by decide, by decide, [], lit " desc", by decide +kernel, by decide, by decide⟩
      (.cons ⟨by decide, by decide, [], [], by decide +kernel, by decide, by decide⟩
        (.cons ⟨by decide, by decide, [], [], by decide +kernel, by decide, by decide⟩ .nil))
  · rw [hp]
    intro p hm
    rw [List.mem_singleton] at hm
    rw [hm]
    rintro ⟨t, ht⟩
    have := congrArg List.head? ht
    revert this
    simp [lit]
  · rw [hp]
    intro p hm _ r he
    rw [List.mem_singleton] at hm
    rw [hm] at he
    have := congrArg List.head? he
    revert this
    simp [lit]
  · intro k hk
    simp only [List.mem_cons, List.not_mem_nil, or_false] at hk
    rcases hk with rfl | rfl | rfl
    · exact ⟨false, by decide⟩
    · exact ⟨false, by decide⟩
    · exact ⟨true, by decide⟩

/-- A search with two advanced parts and two equalities on `zone`, one on `cluster`: what is kept of it. -/
def exOddSearch : Str := lit "name=b;__ckube_as__:zone=a,zone=b,cluster=c1;__ckube_as__:tier=x"

def exOddReqs : List Req := [⟨lit "cluster", .eq, [lit "c1"]⟩, ⟨lit "zone", .eq, [lit "a"]⟩, ⟨lit "zone", .eq, [lit "b"]⟩]

example : FirstReqs exOddSearch exOddReqs ∧ Separable (lit "cluster") exOddSearch exOddReqs
    ∧ setClusters exOddSearch [lit "c1", lit "c2"] = some (lit "__ckube_as__:cluster=c1,cluster in (c1,c2),zone=b;name=b")
    ∧ lastEqualities exOddReqs = [⟨lit "cluster", .eq, [lit "c1"]⟩, ⟨lit "zone", .eq, [lit "b"]⟩] := by
  have hp : searchParts exOddSearch = [lit "name=b", lit "__ckube_as__:zone=a,zone=b,cluster=c1", lit "__ckube_as__:tier=x"] := by
    decide +kernel
  refine ⟨Or.inr ⟨[lit "name=b"], lit "zone=a,zone=b,cluster=c1", [lit "__ckube_as__:tier=x"], hp, ?_, by decide +kernel⟩,
    ⟨?_, ?_⟩, by decide +kernel, by decide +kernel⟩
  · intro p hm
    rw [List.mem_singleton] at hm
    rw [hm]
    rintro ⟨t, ht⟩
    have := congrArg List.head? ht
    revert this
    simp [lit]
  · rw [hp]
    intro p hm _ r he
    simp only [List.mem_cons, List.not_mem_nil, or_false] at hm
    rcases hm with rfl | rfl | rfl <;> · have := congrArg List.head? he
                                         revert this
                                         simp [lit]
  · simp only [exOddReqs, List.mem_cons, List.not_mem_nil, or_false]
    rintro q (rfl | rfl | rfl) _ (h | h | h) <;> simp at h

/-- `n1`, `n2` and `n9` are read as the numbers. -/
def exNodeNumber : Str → Option GoFloat := fun v =>
  if v = lit "n1" then some (.num 1) else if v = lit "n2" then some (.num 2) else if v = lit "n9" then some (.num 9) else none

/-- The cache of the examples, when nodes are read as numbers. -/
def exSyncedN : StoreI := ⟨exSyncedStore.isStoreGVR, exSyncedStore.get, exSyncedStore.query (fun _ => true) insertionSort exNodeNumber⟩

/-- Page 1 of the same pods by the number of their node, greatest first. -/
def exNumPage : String := "labelSelector=ckube.daocloud.io%2Fquery+notin+%280000.eyJwYWdlIjoxLCJwYWdlX3NpemUiOjIsInNvcnQiOiJub2RlIWludCBk%2C0056.ZXNjLGNsdXN0ZXIsbmFtZXNwYWNlLG5hbWUiLCJzZWFyY2giOiJfX2Nr%2C0112.dWJlX2FzX186Y2x1c3RlciBpbiAoYzEsYzIpO25hbWU9YiJ9%29"

def exNumKeys : List SortKey := [⟨lit "node", true, true⟩, ⟨lit "cluster", false, false⟩, ⟨lit "namespace", false, false⟩, ⟨lit "name", false, false⟩]

/-- A numeric key: all pods have a number under it, and the pods on the nodes 9 and 2 come first. -/
example : Serves (fun _ => true) insertionSort exNodeNumber exSyncedStore exSyncedN ∧ Cacheable exSyncedN (exInf exNumPage)
    ∧ (∃ i, Reads (exInf exNumPage) i ∧ setClusters (lit "name=b") [lit "c1", lit "c2"] = some i.paginate.search
        ∧ SortMeans i.paginate.sort exNumKeys ∧ i.paginate.page = 1 ∧ i.paginate.pageSize = 2)
    ∧ TotalKeys exNumKeys ∧ EmptyNoNaN exNodeNumber
    ∧ (∀ c ∈ [lit "c1", lit "c2"], ∀ e ∈ exObjs c, ∀ k ∈ exNumKeys, k.num = true →
        exNodeNumber (valueUnder exEval (confAt exConf exPods) ((c, e.1.1, e.1.2), e.2) k.key) ≠ some .nan
        ∧ ∃ v, indexValueOf exEval (confAt exConf exPods) c e.2 k.key = some v ∧ (number exNodeNumber v).isSome = true)
    ∧ (match proxy exEnv exSyncedN (fun _ m => m) (parseQuery (lit exNumPage)) (exInf exNumPage) with
        | .list _ _ _ _ items => items.map fun o => o.body | _ => []) = [lit "n9", lit "n2"] := by
  have h2 : ((parseSelector (lit "ckube.daocloud.io/query notin (0000.eyJwYWdlIjoxLCJwYWdlX3NpemUiOjIsInNvcnQiOiJub2RlIWludCBk,0056.ZXNjLGNsdXN0ZXIsbmFtZXNwYWNlLG5hbWUiLCJzZWFyY2giOiJfX2Nr,0112.dWJlX2FzX186Y2x1c3RlciBpbiAoYzEsYzIpO25hbWU9YiJ9)")).map fun i =>
        (i.paginate.search, i.paginate.sort, i.paginate.page, i.paginate.pageSize))
      = some (lit "__ckube_as__:cluster in (c1,c2);name=b", lit "node!int desc,cluster,namespace,name", 1, 2) := by decide +kernel
  have h3 : setClusters (lit "name=b") [lit "c1", lit "c2"] = some (lit "__ckube_as__:cluster in (c1,c2);name=b") := by decide +kernel
  obtain ⟨i, h4, h5⟩ := Option.map_eq_some_iff.mp h2
  simp only [Prod.mk.injEq] at h5
  obtain ⟨e1, e2, e3, e4⟩ := h5
  obtain ⟨c1, c2, c3, c4⟩ := (exInf_cacheable exNumPage (by decide +kernel)).1
  refine ⟨serves_self _ _ _ _, ⟨c1, c2, c3, c4⟩, ⟨i, Or.inl ⟨_, ⟨[], by decide +kernel⟩, h4⟩, by rw [h3, e1], ?_, e3, e4⟩,
    ?_, by unfold EmptyNoNaN; decide +kernel, ?_, by decide +kernel⟩
  · rw [e2]
    refine Or.inr ⟨by decide, ?_⟩
    have hs : ((splitByte 44 (lit "node!int desc,cluster,namespace,name")).filter fun i => trimSpace i ≠ [])
        = [lit "node!int desc", lit "cluster", lit "namespace", lit "name"] := by decide +kernel
    rw [hs]
    refine .cons ⟨by decide, by decide, lit "!int", lit " desc", by decide +kernel, by decide, by decide⟩
      (.cons ⟨by decide, by decide, [], [], by decide +kernel, by decide, by decide⟩
        (.cons ⟨by decide, by decide, [], [], by decide +kernel, by decide, by decide⟩
          (.cons ⟨by decide, by decide, [], [], by decide +kernel, by decide, by decide⟩ .nil)))
  · intro k hk
    simp only [List.mem_cons, List.not_mem_nil, or_false] at hk
    rcases hk with rfl | rfl | rfl <;> exact ⟨false, by decide⟩
  · have key : ∀ c ∈ [lit "c1", lit "c2"], ∀ e ∈ exObjs c, ∀ k ∈ exNumKeys, k.num = true →
        (match indexValueOf exEval (confAt exConf exPods) c e.2 k.key with
          | some v => (number exNodeNumber v).isSome | none => false) = true := by decide +kernel
    intro c hc e he k hk hn
    have := key c hc e he k hk hn
    unfold valueUnder
    cases hv : indexValueOf exEval (confAt exConf exPods) c e.2 k.key with
    | none => rw [hv] at this; simp at this
    | some v =>
      rw [hv] at this
      simp only at this
      refine ⟨?_, v, rfl, this⟩
      intro hx
      simp only [Option.getD_some] at hx
      simp [number, hx] at this

/-- The store after a pod has been received from `c1`. -/
def exStale : Store := ((newStore exConf).run exEval [.clean exPods (lit "c1"), .added exPods (lit "c1") (exPod "web" "n1")]).getD (newStore exConf)

/-- **C96 is false** for an API server that has no objects any more when a new stream begins: no event is due, all that were sent have been
handled, and the first page still shows the pod that was deleted between the streams. -/
theorem C96_false : ∃ (t : Sys) (f : Bool), SysRun exPods (lit "c1") {} t ∧ t.phase = .streaming f ∧ t.pending = [] ∧ t.objs = []
    ∧ (newStore exConf).run exEval t.out = some exStale
    ∧ (match proxy exEnv ⟨exStale.isStoreGVR, exStale.get, exStale.query (fun _ => true) insertionSort exFloat⟩ (fun _ m => m)
          (parseQuery (lit (exFedPage 1))) (exInf (exFedPage 1)) with
        | .list _ _ _ _ items => items.map fun o => (o.om.map ObjMeta.name).getD []
        | _ => []) = [lit "web"] := by
  let o := exPod "web" "n1"
  have hk : metaKey o = some (lit "prod", lit "web") := rfl
  have s1 := SysRun.step (.refl {}) (SysStep.create (r := exPods) (c := lit "c1") (s := {}) hk rfl)
  have s2 := SysRun.step s1 (.opened (p := .streaming true) (out := []) (List.Perm.refl _) rfl)
  have s3 := SysRun.step s2 (.deliver (p := .streaming false) (t := .added) (o := o) (rest := []) rfl rfl)
  have s4 := SysRun.step s3 (.closed (p := .connecting) (out := []) rfl)
  have s5 := SysRun.step s4 (.delete hk (old := o) rfl)
  have s6 := SysRun.step s5 (.opened (p := .streaming true) (out := []) (List.Perm.refl _) rfl)
  have hr : ((newStore exConf).run exEval [.clean exPods (lit "c1"), .added exPods (lit "c1") (exPod "web" "n1")]).isSome = true := by
    decide +kernel
  obtain ⟨s, hs⟩ := Option.isSome_iff_exists.mp hr
  have hst : exStale = s := by unfold exStale; rw [hs]; rfl
  exact ⟨_, true, s6, rfl, rfl, rfl, by rw [hst]; exact hs, by decide +kernel⟩

end Ckube

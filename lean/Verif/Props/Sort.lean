import Verif.Props.Crash
import Verif.Lemmas.Sorted

/-! # C24–C27: order and pages of query results

`found` below lists the matching objects, each with its identity, the object as received and the stored
object with its index. -/

namespace Ckube
open Spec

variable {isPrint : Nat → Bool} {eval : Str → Obj → Str} {alg : SliceSort} {pf : Str → Option GoFloat}
  {conf : List (GVR × List (Str × Str))} {h : List Notice} {s : Store}

/-- `found` lists the objects of the type that are in the requested namespace and accepted by the
search, each identity once, with their index and the object that a read returns. -/
def Spec.Lists (isPrint : Nat → Bool) (eval : Str → Obj → Str) (conf : List (GVR × List (Str × Str)))
    (h : List Notice) (s : Store) (g : GVR) (q : Query) (found : List (Ident × Obj × SObj)) : Prop :=
  (found.map Prod.fst).Nodup ∧ (∀ id o, (∃ so, (id, o, so) ∈ found) ↔ Matching isPrint eval conf h g q id o)
    ∧ ∀ e ∈ found, IsIndex eval (confAt conf g) e.1.cluster e.2.1 e.2.2.index
        ∧ s.get e.1.gvr e.1.cluster e.1.ns e.1.name = some e.2.2.obj

/-- One page of a list; page size 0 is the whole list. -/
def Spec.pageOf {α : Type} (page size : Int) (l : List α) : List α :=
  if size = 0 then l else (l.drop ((page - 1) * size).toNat).take size.toNat

/-- No index value that matching objects have under a numeric sort key is NaN. -/
def Spec.NoNaNs (isPrint : Nat → Bool) (eval : Str → Obj → Str) (pf : Str → Option GoFloat)
    (conf : List (GVR × List (Str × Str))) (h : List Notice) (g : GVR) (q : Query) (ks : List SortKey) : Prop :=
  ∀ id o, Matching isPrint eval conf h g q id o → ∀ k ∈ ks, k.num = true →
    ∀ v, indexValueOf eval (confAt conf g) id.cluster o k.key = some v → pf v ≠ some .nan

/-- An index value without metadata for the key is the empty string, which is no number. -/
def Spec.EmptyNoNaN (pf : Str → Option GoFloat) : Prop := pf [] ≠ some .nan

theorem answer_lists (hconf : ConfOK conf) (hrun : (newStore conf).run eval h = some s) (g : GVR) (q : Query)
    (hp : ValidPaging q.page) (res : QueryResult) (hans : s.mayAnswer isPrint alg pf g q (some res))
    (hok : res.error = false) : ∃ found, Lists isPrint eval conf h s g q found ∧ FoundOK isPrint eval conf h g q found
      ∧ res.total = found.length
      ∧ res.items = pageOf q.page.page q.page.pageSize (found.map fun e => e.2.2.obj)
      ∧ (found = [] ∨ ∃ rs : List SObj, rs.Perm (found.map fun e => e.2.2)
          ∧ sortObjs alg pf rs q.page.sort = (found.map (fun e => e.2.2), false)) := by
  obtain ⟨found, f1, f2, f3, f4, f5⟩ := answer_found hconf hrun g q res hans hok
  have hmap : (found.map fun e => e.2.2.obj) = (found.map fun e => e.2.2).map SObj.obj := by
    simp [List.map_map, Function.comp_def]
  refine ⟨found, ⟨f1, f2, ?_⟩, ⟨f1, f2, fun e he => (f3 e he).1⟩, f4, ?_, ?_⟩
  · intro e he
    refine ⟨?_, by rw [get_look, (f3 e he).2]; rfl⟩
    rw [(f3 e he).1]
    exact build_index eval (confAt_isMap hconf g) e.1.cluster e.2.1
  · unfold pageOf
    rw [hmap]
    rcases f5 with ⟨rfl, hi⟩ | ⟨_, _, _, items, h1, h2⟩
    · rw [hi]; split <;> simp
    · have hl : ((found.map fun e => e.2.2).length : Int) = found.length := by simp
      rw [← hl] at h1
      rcases hp with h0 | ⟨p1, p2, p3⟩
      · unfold bounds at h1
        rw [if_pos h0, slice_all] at h1
        simp only [Option.some.injEq] at h1
        rw [h2, h1, if_pos h0]
      · rw [slice_page _ p1 p2 (by omega)] at h1
        simp only [Option.some.injEq] at h1
        rw [h2, ← h1, List.map_take, List.map_drop, if_neg (by omega)]
  · rcases f5 with ⟨h0, _⟩ | ⟨rs, h1, h2, _⟩
    · exact Or.inl h0
    · exact Or.inr ⟨rs, h1, h2⟩

theorem noNaN_found (hconf : ConfOK conf) {g : GVR} {q : Query} {found : List (Ident × Obj × SObj)}
    (hf : FoundOK isPrint eval conf h g q found) {ks : List SortKey} (he : EmptyNoNaN pf)
    (hn : NoNaNs isPrint eval pf conf h g q ks) {rs : List SObj} (hp : rs.Perm (found.map fun e => e.2.2)) :
    NoNaN pf ks rs := by
  intro k hk hnum so hso
  obtain ⟨e, hm, rfl⟩ := List.mem_map.mp (hp.subset hso)
  obtain ⟨m1, m2⟩ := (found_mem hf e).mp hm
  unfold SObj.val
  have hi := (build_index eval (confAt_isMap hconf g) e.1.cluster e.2.1).2 k.key
  rw [m2, hi]
  cases hv : indexValueOf eval (confAt conf g) e.1.cluster e.2.1 k.key with
  | none => exact he
  | some v => exact hn e.1 e.2.1 m1 k hk hnum v hv

/-! ## C27 and C25 -/

/-- **C27** for sort expressions whose items have at most two blank separated parts: an answer without error
consists of (the requested page of) the matching objects in the order the expression asks for. Missing for the full claim:
items with more than one blank inside are silently ignored together with the rest of the expression
(`C27_false_blanks`), and index values that are NaN (`C25_false_nan`). -/
theorem C27_honoured_partial (hconf : ConfOK conf) (hrun : (newStore conf).run eval h = some s) (g : GVR) (q : Query)
    (hp : ValidPaging q.page) (htwo : TwoParts q.page.sort) (he : EmptyNoNaN pf)
    (res : QueryResult) (hans : s.mayAnswer isPrint alg pf g q (some res)) (hok : res.error = false) :
    ∃ found, Lists isPrint eval conf h s g q found ∧ res.total = found.length
      ∧ res.items = pageOf q.page.page q.page.pageSize (found.map fun e => e.2.2.obj)
      ∧ (found = [] ∨ ∃ ks, SortMeans q.page.sort ks
          ∧ (NoNaNs isPrint eval pf conf h g q ks → (found.map fun e => e.2.2).Pairwise (LexLe pf ks))) := by
  obtain ⟨found, f1, f2, f3, f4, f5⟩ := answer_lists hconf hrun g q hp res hans hok
  refine ⟨found, f1, f3, f4, ?_⟩
  rcases f5 with f5 | ⟨rs, hperm, hs⟩
  · exact Or.inl f5
  · by_cases h0 : found = []
    · exact Or.inl h0
    · have hne : rs ≠ [] := by
        rintro rfl
        have := hperm.length_eq
        simp only [List.length_nil, List.length_map] at this
        exact h0 (List.length_eq_zero_iff.mp this.symm)
      obtain ⟨ks, k1, k2⟩ := sortObjs_sorted hs hne htwo
      exact Or.inr ⟨ks, k1, fun hn => k2 (noNaN_found hconf f2 he hn hperm)⟩

/-- **C25**: a query whose sort expression asks for the keys `ks` is answered, if without error, with the
matching objects (or the requested page of them) ordered lexicographically by these keys. Missing for the full
claim: index values that are NaN (`C25_false_nan`). -/
theorem C25_sorted_partial (hconf : ConfOK conf) (hrun : (newStore conf).run eval h = some s) (g : GVR) (q : Query)
    (hp : ValidPaging q.page) (ks : List SortKey) (hks : SortMeans q.page.sort ks) (he : EmptyNoNaN pf)
    (hn : NoNaNs isPrint eval pf conf h g q ks)
    (res : QueryResult) (hans : s.mayAnswer isPrint alg pf g q (some res)) (hok : res.error = false) :
    ∃ found, Lists isPrint eval conf h s g q found ∧ res.total = found.length
      ∧ res.items = pageOf q.page.page q.page.pageSize (found.map fun e => e.2.2.obj)
      ∧ (found.map fun e => e.2.2).Pairwise (LexLe pf ks) := by
  obtain ⟨found, f1, f2, f3, f4⟩ := C27_honoured_partial hconf hrun g q hp (sortMeans_twoParts hks) he res hans hok
  refine ⟨found, f1, f2, f3, ?_⟩
  rcases f4 with rfl | ⟨ks', k1, k2⟩
  · simp
  · obtain rfl := sortMeans_det hks k1
    exact k2 hn

/-- **C25**, acceptance: if the search of the query fails on no object, the sort keys are known and the
values under numeric keys are numbers, the answer has no error. -/
theorem C25_accepted (hconf : ConfOK conf) (hrun : (newStore conf).run eval h = some s) (hapi : ApiObjects h)
    (g : GVR) (q : Query) (ks : List SortKey) (hks : SortMeans q.page.sort ks)
    (hknown : ∀ k ∈ ks, k.key ∈ (confAt conf g).map Prod.fst
      ∨ k.key ∈ [lit "cluster", lit "is_deleted", lit "namespace", lit "name"])
    (hsearch : ∀ id o idx, Latest eval (confAt conf) h id o → id.gvr = g → (q.ns = [] ∨ q.ns = id.ns) →
      IsIndex eval (confAt conf g) id.cluster o idx → q.page.matches isPrint idx ≠ none)
    (hnum : ∀ id o, Matching isPrint eval conf h g q id o → ∀ k ∈ ks, k.num = true →
      ∃ v, indexValueOf eval (confAt conf g) id.cluster o k.key = some v ∧ (number pf v).isSome = true)
    (res : QueryResult) (hans : s.mayAnswer isPrint alg pf g q (some res)) : res.error = false := by
  unfold Store.mayAnswer at hans
  cases hg : lookup g s.data with
  | none => rw [hg] at hans; simp at hans
  | some cm =>
    rw [hg] at hans
    obtain ⟨vs, hvs, hq⟩ := hans
    have hvis : ∀ so ∈ vs, ∃ id o, Latest eval (confAt conf) h id o ∧ id.gvr = g
        ∧ (q.ns = [] ∨ q.ns = id.ns) ∧ so = (build eval (confAt conf g) id.cluster o).2.2 := by
      intro so hso
      have hso := hvs.subset hso
      rw [visited_entries] at hso
      obtain ⟨⟨⟨c, n, name⟩, so'⟩, hso', rfl⟩ := List.mem_map.mp hso
      obtain ⟨⟨o, ho, rfl⟩, hn⟩ := (entries_latest hrun hg).mp hso'
      exact ⟨_, o, ho, rfl, hn, rfl⟩
    have hidx : ∀ id o, IsIndex eval (confAt conf g) id o (build eval (confAt conf g) id o).2.2.index :=
      fun c o => build_index eval (confAt_isMap hconf g) c o
    have herr : (vs.any fun o => (q.page.matches isPrint o.index).isNone) = false := by
      rw [List.any_eq_false]
      intro so hso
      obtain ⟨id, o, l1, l2, l3, rfl⟩ := hvis so hso
      simpa using hsearch id o _ l1 l2 l3 (hidx _ _)
    unfold queryList at hq
    simp only [herr] at hq
    generalize hr : (vs.filter fun o => q.page.matches isPrint o.index == some true) = rs at hq
    split at hq
    · simp only [Option.some.injEq] at hq; rw [hq]
    · rename_i hlen
      split at hq
      · rename_i hs
        exfalso
        cases rs with
        | nil => simp at hlen
        | cons x t =>
          have hx : ∀ y ∈ x :: t, ∃ id o, Matching isPrint eval conf h g q id o
              ∧ y = (build eval (confAt conf g) id.cluster o).2.2 := by
            intro y hy
            rw [← hr] at hy
            obtain ⟨y1, y2⟩ := List.mem_filter.mp hy
            obtain ⟨id, o, l1, l2, l3, rfl⟩ := hvis y y1
            exact ⟨id, o, ⟨l1, l2, l3, _, hidx _ _, by simpa using y2⟩, rfl⟩
          have hkx : ∀ k ∈ ks, lookup k.key x.index ≠ none := by
            intro k hk
            have hv : x ∈ visited q.ns cm := by
              have : x ∈ vs := (List.mem_filter.mp (hr ▸ List.mem_cons_self : x ∈ _)).1
              exact hvs.subset this
            exact (C30_same_keys hrun hapi g cm hg q.ns x hv k.key).mpr (hknown k hk)
          unfold sortObjs at hs
          simp only [sortLoop_sortMeans hks hkx] at hs
          have hN : Numbers pf ks (x :: t) := by
            intro k hk hnumk y hy
            obtain ⟨id, o, hm, rfl⟩ := hx y hy
            obtain ⟨v, hv1, hv2⟩ := hnum id o hm k hk hnumk
            unfold SObj.val
            rw [(hidx _ _).2, hv1]
            exact hv2
          rw [run_noerr alg hN] at hs
          simp at hs
      · rw [eq_comm, Option.map_eq_some_iff] at hq
        obtain ⟨_, _, rfl⟩ := hq
        rfl

/-- Index keys that every object of the type has. -/
def KnownKey (conf : List (GVR × List (Str × Str))) (g : GVR) (k : Str) : Prop :=
  k ∈ (confAt conf g).map Prod.fst ∨ k ∈ [lit "cluster", lit "is_deleted", lit "namespace", lit "name"]

/-- **C27**, exactly when an answer without error is not sorted as the expression asks (values that are NaN aside): nothing is found, or the
expression is passed over. -/
theorem C27_exact (hconf : ConfOK conf) (hrun : (newStore conf).run eval h = some s) (g : GVR) (q : Query)
    (hp : ValidPaging q.page) (he : EmptyNoNaN pf)
    (res : QueryResult) (hans : s.mayAnswer isPrint alg pf g q (some res)) (hok : res.error = false) :
    ∃ found, Lists isPrint eval conf h s g q found ∧ res.total = found.length
      ∧ res.items = pageOf q.page.page q.page.pageSize (found.map fun e => e.2.2.obj)
      ∧ (found = [] ∨ PassedOver (KnownKey conf g) q.page.sort
          ∨ ∃ ks, SortMeans q.page.sort ks
          ∧ (NoNaNs isPrint eval pf conf h g q ks → (found.map fun e => e.2.2).Pairwise (LexLe pf ks))) := by
  obtain ⟨found, f1, f2, f3, f4, f5⟩ := answer_lists hconf hrun g q hp res hans hok
  refine ⟨found, f1, f3, f4, ?_⟩
  rcases f5 with f5 | ⟨rs, hperm, hs⟩
  · exact Or.inl f5
  · by_cases h0 : found = []
    · exact Or.inl h0
    · have hne : rs ≠ [] := by
        rintro rfl
        have := hperm.length_eq
        simp only [List.length_nil, List.length_map] at this
        exact h0 (List.length_eq_zero_iff.mp this.symm)
      rcases sortObjs_any hs hne with ⟨o, ho, pre, i, post, ks, k1, k2, k3, k4⟩ | ⟨ks, k1, k2, k3⟩
      · refine Or.inr (Or.inl ⟨pre, i, post, ks, k1, k2, k3, fun k hk => ?_⟩)
        have hk := k4 k hk
        obtain ⟨e, he', rfl⟩ := List.mem_map.mp (hperm.subset ho)
        rw [((f1.2.2 e he').1).2] at hk
        unfold indexValueOf at hk
        by_contra hun
        unfold KnownKey at hun
        rw [not_or] at hun
        have hnone : lookup k.key (confAt conf g) = none := by
          rw [lookup_eq_none]
          exact fun v hv => hun.1 (List.mem_map.mpr ⟨_, hv, rfl⟩)
        have hbuilt := hun.2
        simp only [List.mem_cons, List.not_mem_nil, or_false, not_or] at hbuilt
        rw [if_neg hbuilt.1, hnone] at hk
        cases hom : e.2.1.om with
        | none => rw [hom] at hk; exact hk rfl
        | some m =>
          rw [hom] at hk
          simp only [hbuilt.2.1, hbuilt.2.2.1, hbuilt.2.2.2, if_false] at hk
          exact hk rfl
      · exact Or.inr (Or.inr ⟨ks, k1, fun hn => k2 ▸ run_sorted alg (noNaN_found hconf f2 he hn hperm) k3⟩)

/-- **C27**, the converse: a query whose expression is passed over is answered without error (if its search fails on no object). -/
theorem C27_passed (hconf : ConfOK conf) (hrun : (newStore conf).run eval h = some s) (hapi : ApiObjects h)
    (g : GVR) (q : Query) (hpass : PassedOver (KnownKey conf g) q.page.sort)
    (hsearch : ∀ id o idx, Latest eval (confAt conf) h id o → id.gvr = g → (q.ns = [] ∨ q.ns = id.ns) →
      IsIndex eval (confAt conf g) id.cluster o idx → q.page.matches isPrint idx ≠ none)
    (res : QueryResult) (hans : s.mayAnswer isPrint alg pf g q (some res)) : res.error = false := by
  unfold Store.mayAnswer at hans
  cases hg : lookup g s.data with
  | none => rw [hg] at hans; simp at hans
  | some cm =>
    rw [hg] at hans
    obtain ⟨vs, hvs, hq⟩ := hans
    have hvis : ∀ so ∈ vs, ∃ id o, Latest eval (confAt conf) h id o ∧ id.gvr = g
        ∧ (q.ns = [] ∨ q.ns = id.ns) ∧ so = (build eval (confAt conf g) id.cluster o).2.2 := by
      intro so hso
      have hso := hvs.subset hso
      rw [visited_entries] at hso
      obtain ⟨⟨⟨c, n, name⟩, so'⟩, hso', rfl⟩ := List.mem_map.mp hso
      obtain ⟨⟨o, ho, rfl⟩, hn⟩ := (entries_latest hrun hg).mp hso'
      exact ⟨_, o, ho, rfl, hn, rfl⟩
    have hidx : ∀ id o, IsIndex eval (confAt conf g) id o (build eval (confAt conf g) id o).2.2.index :=
      fun c o => build_index eval (confAt_isMap hconf g) c o
    have herr : (vs.any fun o => (q.page.matches isPrint o.index).isNone) = false := by
      rw [List.any_eq_false]
      intro so hso
      obtain ⟨id, o, l1, l2, l3, rfl⟩ := hvis so hso
      simpa using hsearch id o _ l1 l2 l3 (hidx _ _)
    unfold queryList at hq
    simp only [herr] at hq
    generalize hr : (vs.filter fun o => q.page.matches isPrint o.index == some true) = rs at hq
    split at hq
    · simp only [Option.some.injEq] at hq; rw [hq]
    · rename_i hlen
      split at hq
      · rename_i hs
        exfalso
        cases rs with
        | nil => simp at hlen
        | cons x t =>
          obtain ⟨pre, it, post, ks, p1, p2, p3, p4⟩ := hpass
          have hkx : ∀ k ∈ ks, lookup k.key x.index ≠ none := by
            intro k hk
            have hv : x ∈ visited q.ns cm := by
              have : x ∈ vs := (List.mem_filter.mp (hr ▸ List.mem_cons_self : x ∈ _)).1
              exact hvs.subset this
            exact (C30_same_keys hrun hapi g cm hg q.ns x hv k.key).mpr (p4 k hk)
          have hsort : q.page.sort ≠ [] := by
            intro h0
            rw [h0] at p1
            have : it = [] := by
              simp only [splitByte] at p1
              have : it ∈ [([] : Str)] := by rw [p1]; simp
              simpa using this
            rw [this] at p2
            exact absurd p2 (by decide)
          unfold sortObjs at hs
          unfold sortItems at hs
          rw [if_neg hsort, p1] at hs
          simp only [sortLoop_passed p2 pre ks [] p3 hkx] at hs
          simp at hs
      · rw [eq_comm, Option.map_eq_some_iff] at hq
        obtain ⟨_, _, rfl⟩ := hq
        rfl

example : PassedOver (KnownKey exConf exPods) (lit "node!int desc, ,name  desc,nonsense")
    ∧ KnownKey exConf exPods (lit "node") := by
  have hk : KnownKey exConf exPods (lit "node") := Or.inl (by decide +kernel)
  refine ⟨⟨[lit "node!int desc", lit " "], lit "name  desc", [lit "nonsense"], [⟨lit "node", true, true⟩], by decide +kernel, by decide +kernel, ?_, ?_⟩, hk⟩
  · have : ([lit "node!int desc", lit " "].filter fun i => trimSpace i ≠ []) = [lit "node!int desc"] := by decide +kernel
    rw [this]
    exact .cons ⟨by decide, by decide, lit "!int", lit " desc", by decide +kernel, Or.inr (Or.inr ⟨rfl, rfl⟩), Or.inr (Or.inr ⟨rfl, rfl⟩)⟩ .nil
  · intro k hk'
    simp only [List.mem_singleton] at hk'
    subst hk'
    exact hk

/-! ## C26 and C24 -/

/-- **C26**: without a sort expression, two answers over the same cache contents, in whatever order the maps
were filled and are iterated, are the same, objects in the same order. -/
theorem C26_default_order (hconf : ConfOK conf) {h' : List Notice} {s' : Store}
    (hrun : (newStore conf).run eval h = some s) (hrun' : (newStore conf).run eval h' = some s')
    (hapi : ApiObjects h)
    (hsame : ∀ id o, Latest eval (confAt conf) h id o ↔ Latest eval (confAt conf) h' id o)
    (g : GVR) (q : Query) (hsort : q.page.sort = []) (r r' : Option QueryResult)
    (hans : s.mayAnswer isPrint alg pf g q r) (hans' : s'.mayAnswer isPrint alg pf g q r') : r = r' := by
  unfold Store.mayAnswer at hans hans'
  have hty : (lookup g s.data).isSome = (lookup g s'.data).isSome := by
    rw [run_types hrun, run_types hrun']
  cases hg : lookup g s.data with
  | none =>
    rw [hg] at hty
    cases hg' : lookup g s'.data with
    | none => rw [hg] at hans; rw [hg'] at hans'; rw [hans, hans']
    | some cm => rw [hg'] at hty; simp at hty
  | some cm =>
    rw [hg] at hty
    cases hg' : lookup g s'.data with
    | none => rw [hg'] at hty; simp at hty
    | some cm₂ =>
      rw [hg] at hans
      rw [hg'] at hans'
      obtain ⟨vs, hvs, rfl⟩ := hans
      obtain ⟨vs', hvs', rfl⟩ := hans'
      -- both visit the same entries
      have hw := ((run_look h hrun).1.cl g cm (mem_of_lookup hg))
      have hw' := ((run_look h' hrun').1.cl g cm₂ (mem_of_lookup hg'))
      have hp0 : (entries q.ns cm).Perm (entries q.ns cm₂) := by
        rw [List.perm_ext_iff_of_nodup (List.Nodup.of_map _ (entries_nodup hw q.ns))
          (List.Nodup.of_map _ (entries_nodup hw' q.ns))]
        rintro ⟨⟨c, n, name⟩, so⟩
        rw [entries_latest hrun hg, entries_latest hrun' hg']
        simp only [hsame]
      have hp : vs.Perm vs' := by
        rw [visited_entries] at hvs hvs'
        exact (hvs.trans (hp0.map Prod.snd)).trans hvs'.symm
      have hvis : ∀ so ∈ vs, ∃ id o m, Latest eval (confAt conf) h id o ∧ id.gvr = g
          ∧ o.om = some m ∧ so = (build eval (confAt conf g) id.cluster o).2.2 := by
        intro so hso
        have hso := hvs.subset hso
        rw [visited_entries] at hso
        obtain ⟨⟨⟨c, n, name⟩, so'⟩, hso', rfl⟩ := List.mem_map.mp hso
        obtain ⟨⟨o, ho, rfl⟩, hn⟩ := (entries_latest hrun hg).mp hso'
        obtain ⟨m, hm⟩ := latest_api hapi ho
        exact ⟨_, o, m, ho, rfl, hm, rfl⟩
      have hrs := hp.filter fun o => q.page.matches isPrint o.index == some true
      have herr : (vs.any fun o => (q.page.matches isPrint o.index).isNone)
          = (vs'.any fun o => (q.page.matches isPrint o.index).isNone) := by
        rw [Bool.eq_iff_iff, List.any_eq_true, List.any_eq_true]
        simp only [hp.mem_iff]
      unfold queryList
      simp only [herr]
      have hsub : ∀ x ∈ vs.filter (fun o => q.page.matches isPrint o.index == some true),
          x ∈ vs := fun x hx => (List.mem_filter.mp hx).1
      generalize (vs.filter fun o => q.page.matches isPrint o.index == some true) = rs at hrs hsub ⊢
      generalize (vs'.filter fun o => q.page.matches isPrint o.index == some true) = rs' at hrs ⊢
      have hlen := hrs.length_eq
      have hso : rs.length ≠ 0 → sortObjs alg pf rs q.page.sort = sortObjs alg pf rs' q.page.sort := by
        intro hne
        have hkeys : ∀ x ∈ rs, sortLoop x.index (sortItems q.page.sort) [] = .keys defaultKeys := by
          intro x hx
          refine sortLoop_sortMeans (Or.inl ⟨hsort, rfl⟩) ?_
          intro k hk
          have hv : x ∈ visited q.ns cm := by
            exact hvs.subset (hsub x hx)
          refine (C30_same_keys hrun hapi g cm hg q.ns x hv k.key).mpr (Or.inr ?_)
          have : ∀ k ∈ defaultKeys, k.key ∈ [lit "cluster", lit "is_deleted", lit "namespace", lit "name"] := by decide
          exact this k hk
        have hN : ∀ l, Numbers pf defaultKeys l := by
          intro l k hk hnum
          have : ∀ k ∈ defaultKeys, k.num = false := by decide
          rw [this k hk] at hnum
          simp at hnum
        have hsorted : ∀ l, (alg.run (fun a b => (cmpObjs pf defaultKeys a b).1) l).result.Pairwise (LexLe pf defaultKeys) :=
          fun l => run_sorted alg (numbers_noNaN (hN l)) (run_noerr alg (hN l))
        have hkeys' : ∀ x ∈ rs', sortLoop x.index (sortItems q.page.sort) [] = .keys defaultKeys :=
          fun x hx => hkeys x (hrs.symm.subset hx)
        have form : ∀ l, l ≠ [] → (∀ x ∈ l, sortLoop x.index (sortItems q.page.sort) [] = .keys defaultKeys) →
            sortObjs alg pf l q.page.sort = ((alg.run (fun a b => (cmpObjs pf defaultKeys a b).1) l).result, false) := by
          intro l hl hk
          cases l with
          | nil => exact absurd rfl hl
          | cons x t =>
            unfold sortObjs
            simp only [hk x (by simp)]
            rw [run_noerr alg (hN _)]
        rw [form rs (by rintro rfl; simp at hne) hkeys,
          form rs' (by rintro rfl; rw [hlen] at hne; simp at hne) hkeys']
        congr 1
        refine eq_of_perm_sorted ((alg.perm _ _).trans (hrs.trans (alg.perm _ _).symm)) (hsorted _) (hsorted _) ?_
        intro a ha b hb h1 h2
        obtain ⟨id, o, m, l1, l2, l3, rfl⟩ := hvis a (hsub a ((alg.perm _ _).subset ha))
        obtain ⟨id', o', m', l1', l2', l3', rfl⟩ := hvis b (hsub b ((alg.perm _ _).subset hb))
        have hid : id = id' := by
          refine total_keys_ident (pf := pf) (ks := defaultKeys) hconf ?_ (l2.trans l2'.symm) l3 l3' (latest_objKey l1)
            (latest_objKey l1') (by rw [l2, l2']; exact h1) (by rw [l2, l2']; exact h2)
          intro k hk
          refine ⟨false, ?_⟩
          simp only [List.mem_cons, List.not_mem_nil, or_false] at hk
          rcases hk with rfl | rfl | rfl <;> decide
        subst hid
        rw [latest_det l1 l1']
      rw [hlen]
      split
      · rfl
      · rename_i hne
        rw [hso (by rw [hlen]; exact hne)]

/-- **C24**: let the sort keys distinguish any two objects (the default order does). Then the pages 1, …, n, each
requested with its own map order, joined together are the first `n * size` objects of the whole sorted
result, whatever order the unpaged request saw; no page is longer than the page size, and the total is the
same on every page. Missing for the full claim: sort expressions that leave ties (`C24_false_ties`), index
values that are NaN, and pages ending past 2^63 - 1. -/
theorem C24_pages_partial (hconf : ConfOK conf) (hrun : (newStore conf).run eval h = some s) (hapi : ApiObjects h)
    (g : GVR) (q : Query) (ks : List SortKey) (hks : SortMeans q.page.sort ks) (htot : TotalKeys ks)
    (he : EmptyNoNaN pf) (hn : NoNaNs isPrint eval pf conf h g q ks)
    (whole : QueryResult)
    (hwhole : s.mayAnswer isPrint alg pf g { q with page := { q.page with pageSize := 0 } } (some whole))
    (hok : whole.error = false) (size : Nat) (hsize : 1 ≤ size) (pages : List QueryResult)
    (hmax : (pages.length : Int) * size ≤ 9223372036854775807)
    (hpages : ∀ i (hi : i < pages.length), s.mayAnswer isPrint alg pf g
      { q with page := { q.page with page := i + 1, pageSize := size } } (some pages[i]) ∧ pages[i].error = false) :
    pages.flatMap QueryResult.items = whole.items.take (pages.length * size)
      ∧ whole.items.length = whole.total
      ∧ ∀ p ∈ pages, p.items.length ≤ size ∧ p.total = whole.total := by
  obtain ⟨found, f1, f2, f3, f4, f5⟩ := answer_lists hconf hrun g _ (Or.inl rfl) whole hwhole hok
  have hsortedOf : ∀ (p : Paginate) (found : List (Ident × Obj × SObj)), p.sort = q.page.sort → p.search = q.page.search →
      FoundOK isPrint eval conf h g { q with page := p } found →
      (found = [] ∨ ∃ rs : List SObj, rs.Perm (found.map fun e => e.2.2)
          ∧ sortObjs alg pf rs p.sort = (found.map (fun e => e.2.2), false)) →
      (found.map fun e => e.2.2).Pairwise (LexLe pf ks) := by
    intro p found hps hpq hf hc
    rcases hc with rfl | ⟨rs, hperm, hs⟩
    · simp
    · by_cases h0 : rs = []
      · subst h0
        have := hperm.nil_eq
        rw [← this]; simp
      · rw [hps] at hs
        obtain ⟨ks', k1, k2⟩ := sortObjs_sorted hs h0 (sortMeans_twoParts hks)
        obtain rfl := sortMeans_det hks k1
        refine k2 (noNaN_found hconf hf he ?_ hperm)
        intro id o hm
        refine hn id o ?_
        unfold Matching Paginate.matches at hm ⊢
        simp only [hpq] at hm
        exact hm
  have hsorted := hsortedOf _ found rfl rfl f2 f5
  have hw : whole.items = found.map fun e => e.2.2.obj := by
    rw [f4]; unfold pageOf; rw [if_pos rfl]
  -- every page
  have hpg : ∀ i (hi : i < pages.length), pages[i].items = (whole.items.drop (i * size)).take size
      ∧ pages[i].total = whole.total := by
    intro i hi
    obtain ⟨ha, herr⟩ := hpages i hi
    have hle : ((i : Int) + 1) * size ≤ 9223372036854775807 := by
      have : ((i : Int) + 1) * size ≤ (pages.length : Int) * size :=
        Int.mul_le_mul_of_nonneg_right (by omega) (by omega)
      omega
    obtain ⟨found', g1, g2, g3, g4, g5⟩ := answer_lists hconf hrun g _
      (Or.inr ⟨show (1 : Int) ≤ (i : Int) + 1 by omega, show (1 : Int) ≤ (size : Int) by omega, hle⟩) _ ha herr
    have hs' := hsortedOf _ found' rfl rfl g2 g5
    have : found = found' := found_unique (isPrint := isPrint) hconf hapi (fun _ _ => Iff.rfl) rfl rfl f2 g2 htot hsorted hs'
    subst this
    refine ⟨?_, by rw [g3, f3]⟩
    rw [g4, hw]
    unfold pageOf
    rw [if_neg (by simp only; omega)]
    have e1 : (((i : Int) + 1 - 1) * (size : Int)).toNat = i * size := by
      have : ((i : Int) + 1 - 1) * (size : Int) = ((i * size : Nat) : Int) := by push_cast; congr 1; omega
      rw [this]; rfl
    simp only [e1, Int.toNat_natCast]
  refine ⟨?_, by rw [hw, f3]; simp, ?_⟩
  · have hgen : ∀ (l : List QueryResult) (k : Nat),
        (∀ i (hi : i < l.length), l[i].items = (whole.items.drop ((k + i) * size)).take size) →
        l.flatMap QueryResult.items = (whole.items.drop (k * size)).take (l.length * size) := by
      intro l
      induction l with
      | nil => intro k _; simp
      | cons p l ih =>
        intro k hk
        have h0 := hk 0 (by simp)
        simp only [List.getElem_cons_zero, Nat.add_zero] at h0
        have e2 : (l.length + 1) * size = size + l.length * size := by rw [Nat.add_mul, Nat.one_mul, Nat.add_comm]
        have e3 : (k + 1) * size = k * size + size := by rw [Nat.add_mul, Nat.one_mul]
        rw [List.flatMap_cons, h0, ih (k + 1), List.length_cons, e2, e3, List.take_add, List.drop_drop]
        intro i hi
        have := hk (i + 1) (by simp; omega)
        simp only [List.getElem_cons_succ] at this
        rw [this]
        rw [show k + (i + 1) = k + 1 + i by omega]
    have := hgen pages 0 (fun i hi => by rw [Nat.zero_add]; exact (hpg i hi).1)
    simpa using this
  · intro p hp
    obtain ⟨i, hi, rfl⟩ := List.getElem_of_mem hp
    refine ⟨?_, (hpg i hi).2⟩
    rw [(hpg i hi).1, List.length_take]
    omega

/-! ## Examples and counterexamples -/

/-- The clusters of a type with all leaves iterated backwards. -/
def backwards (cm : ClMap) : ClMap := cm.map fun c => (c.1, c.2.map fun n => (n.1, n.2.reverse))

theorem shuffle_backwards (cm : ClMap) : Shuffle cm (backwards cm) := by
  refine ⟨cm.map fun c => (c.1, c.2, c.2.map fun n => (n.1, n.2.reverse)), ?_, ?_, ?_⟩
  · simp [List.map_map, Function.comp_def]
  · simp [backwards, List.map_map, Function.comp_def]
  · intro e he
    obtain ⟨c, _, rfl⟩ := List.mem_map.mp he
    refine ⟨c.2.map fun n => (n.1, n.2, n.2.reverse), ?_, ?_, ?_⟩
    · simp [List.map_map, Function.comp_def]
    · simp [List.map_map, Function.comp_def]
    · intro e he
      obtain ⟨n, _, rfl⟩ := List.mem_map.mp he
      exact (List.reverse_perm _).symm

/-- Three pods; their bodies are their index value. -/
def exThree (a b c : String) : List Notice :=
  [.added exPods (lit "c1") (exPod "x" a), .added exPods (lit "c1") (exPod "y" b), .added exPods (lit "c1") (exPod "z" c)]

/-- `ParseFloat` on digits, with `x` for a NaN. -/
def exFloat : Str → Option GoFloat := fun v =>
  if v = lit "NaN" then some .nan else if v = lit "1" then some (.num 1) else if v = lit "2" then some (.num 2) else none

theorem exThree_api (a b c : String) : ApiObjects (exThree a b c) := by
  intro n hn
  simp only [exThree, List.mem_cons, List.not_mem_nil, or_false] at hn
  rcases hn with rfl | rfl | rfl <;> rfl

/-- What the examples run: the query on the maps as they are, or backwards. -/
def exQuery (hist : List Notice) (f : ClMap → ClMap) (p : Paginate) : Option (Option QueryResult) :=
  ((newStore exConf).run exEval hist).bind fun s => (lookup exPods s.data).map fun cm =>
    queryMap (fun _ => true) insertionSort exFloat (f cm) { page := p }

theorem exQuery_answers {hist : List Notice} {f : ClMap → ClMap} (hf : ∀ cm, Shuffle cm (f cm)) {p : Paginate}
    {r : Option QueryResult} (hq : exQuery hist f p = some r) {s : Store}
    (hs : (newStore exConf).run exEval hist = some s) :
    s.answers (fun _ => true) insertionSort exFloat exPods { page := p } r := by
  unfold exQuery at hq
  rw [hs, Option.bind_some, Option.map_eq_some_iff] at hq
  obtain ⟨cm, h1, h2⟩ := hq
  unfold Store.answers
  rw [h1]
  exact ⟨f cm, hf cm, h2.symm⟩

/-- The hypotheses are met by the sort expression `node!int desc, cluster, namespace ,name asc`: it means four keys,
which distinguish any two objects, it has at most two parts per item, and 2, 2, 1 are no NaN. The
answer is sorted: y and z (2) before x (1). -/
example : ConfOK exConf ∧ ApiObjects (exThree "1" "2" "2") ∧ EmptyNoNaN exFloat
    ∧ SortMeans (lit "node!int desc, cluster, namespace ,name asc")
        [⟨lit "node", true, true⟩, ⟨lit "cluster", false, false⟩, ⟨lit "namespace", false, false⟩, ⟨lit "name", false, false⟩]
    ∧ TotalKeys [⟨lit "node", true, true⟩, ⟨lit "cluster", false, false⟩, ⟨lit "namespace", false, false⟩,
        ⟨lit "name", false, false⟩]
    ∧ NoNaNs (fun _ => true) exEval exFloat exConf (exThree "1" "2" "2") exPods {}
        [⟨lit "node", true, true⟩, ⟨lit "cluster", false, false⟩, ⟨lit "namespace", false, false⟩, ⟨lit "name", false, false⟩]
    ∧ (exQuery (exThree "1" "2" "2") backwards { sort := lit "node!int desc, cluster, namespace ,name asc" }).bind
        (fun r => r.map fun r => (r.error, r.total, r.items.map fun o => o.om.map ObjMeta.name))
      = some (false, 3, [some (lit "y"), some (lit "z"), some (lit "x")]) := by
  refine ⟨⟨by decide +kernel, by decide +kernel⟩, exThree_api _ _ _, by unfold EmptyNoNaN; decide +kernel,
    Or.inr ⟨by decide, ?_⟩, ?_, ?_, by decide +kernel⟩
  · have : ((splitByte 44 (lit "node!int desc, cluster, namespace ,name asc")).filter fun i => trimSpace i ≠ [])
        = [lit "node!int desc", lit " cluster", lit " namespace ", lit "name asc"] := by decide +kernel
    rw [this]
    refine .cons ⟨by decide, by decide, lit "!int", lit " desc", by decide +kernel, Or.inr (Or.inr ⟨rfl, rfl⟩),
      Or.inr (Or.inr ⟨rfl, rfl⟩)⟩ (.cons ⟨by decide, by decide, [], [], by decide +kernel, Or.inl ⟨rfl, rfl⟩, Or.inl ⟨rfl, rfl⟩⟩
      (.cons ⟨by decide, by decide, [], [], by decide +kernel, Or.inl ⟨rfl, rfl⟩, Or.inl ⟨rfl, rfl⟩⟩
      (.cons ⟨by decide, by decide, [], lit " asc", by decide +kernel, Or.inl ⟨rfl, rfl⟩, Or.inr (Or.inl ⟨rfl, rfl⟩)⟩ .nil)))
  · intro k hk
    refine ⟨false, ?_⟩
    simp only [List.mem_cons, List.not_mem_nil, or_false] at hk
    rcases hk with rfl | rfl | rfl <;> decide
  · rintro id o ⟨⟨h₁, n, h₂, heq, hw, _⟩, _⟩ k hk hnum v hv
    have hn : n ∈ exThree "1" "2" "2" := by rw [heq]; simp
    simp only [List.mem_cons, List.not_mem_nil, or_false] at hk
    rcases hk with rfl | rfl | rfl | rfl
    · have hb : o.om.isSome = true ∧ (o.body = lit "1" ∨ o.body = lit "2") := by
        simp only [exThree, List.mem_cons, List.not_mem_nil, or_false] at hn
        rcases hn with rfl | rfl | rfl <;> obtain ⟨rfl, _⟩ := hw
        · exact ⟨rfl, Or.inl rfl⟩
        · exact ⟨rfl, Or.inr rfl⟩
        · exact ⟨rfl, Or.inr rfl⟩
      obtain ⟨m, hm⟩ := Option.isSome_iff_exists.mp hb.1
      have hlk : lookup (lit "node") (confAt exConf exPods) = some (lit "{.spec.nodeName}") := by decide +kernel
      have hev : indexValue exEval o (lit "{.spec.nodeName}") = o.body := by
        unfold indexValue
        rw [if_neg (by decide +kernel), if_neg (by decide +kernel)]
        rfl
      unfold indexValueOf at hv
      simp only [hm, hlk, Option.map_some, hev] at hv
      rw [if_neg (by decide), if_neg (by decide), if_neg (by decide), if_neg (by decide)] at hv
      simp only [Option.some.injEq] at hv
      rw [← hv]
      rcases hb.2 with h | h <;> rw [h] <;> decide +kernel
    all_goals simp at hnum

/-- **C24 is false** for a sort expression that leaves ties: with the three pods on the same node, page 1 seen in one
map order and page 2 in another show the same pod. -/
theorem C24_false_ties : ∃ s r₁ r₂, (newStore exConf).run exEval (exThree "1" "1" "2") = some s
    ∧ s.answers (fun _ => true) insertionSort exFloat exPods { page := { page := 1, pageSize := 1, sort := lit "node" } } (some r₁)
    ∧ s.answers (fun _ => true) insertionSort exFloat exPods { page := { page := 2, pageSize := 1, sort := lit "node" } } (some r₂)
    ∧ r₁.error = false ∧ r₂.error = false ∧ r₁.total = 3 ∧ r₁.items.length = 1 ∧ r₁.items = r₂.items := by
  have hs : ((newStore exConf).run exEval (exThree "1" "1" "2")).isSome = true := by decide +kernel
  obtain ⟨s, h⟩ := Option.isSome_iff_exists.mp hs
  have h1 : ((exQuery (exThree "1" "1" "2") id { page := 1, pageSize := 1, sort := lit "node" }).bind id).isSome = true := by
    decide +kernel
  have h2 : ((exQuery (exThree "1" "1" "2") backwards { page := 2, pageSize := 1, sort := lit "node" }).bind id).isSome = true := by
    decide +kernel
  obtain ⟨r₁, h1⟩ := Option.isSome_iff_exists.mp h1
  obtain ⟨r₂, h2⟩ := Option.isSome_iff_exists.mp h2
  rw [Option.bind_eq_some_iff] at h1 h2
  obtain ⟨x₁, h1, rfl⟩ := h1
  obtain ⟨x₂, h2, rfl⟩ := h2
  have hsame : ((exQuery (exThree "1" "1" "2") id { page := 1, pageSize := 1, sort := lit "node" }).bind id).map
        (fun r => (r.error, r.total, r.items)) =
      ((exQuery (exThree "1" "1" "2") backwards { page := 2, pageSize := 1, sort := lit "node" }).bind id).map
        (fun r => (r.error, r.total, r.items)) := by decide +kernel
  have hval : ((exQuery (exThree "1" "1" "2") id { page := 1, pageSize := 1, sort := lit "node" }).bind id).map
        (fun r => (r.error, r.total, r.items.length)) = some (false, 3, 1) := by decide +kernel
  rw [h1, h2] at hsame
  rw [h1] at hval
  simp only [Option.bind_some, id_eq, Option.map_some, Option.some.injEq, Prod.mk.injEq] at hsame hval
  exact ⟨s, r₁, r₂, h, exQuery_answers (fun cm => Shuffle.refl cm) h1 h, exQuery_answers shuffle_backwards h2 h,
    hval.1, hsame.1 ▸ hval.1, hval.2.1, hval.2.2, hsame.2.2⟩

/-- **C25 is false** when an index value is NaN: sorted by number, 2 stays before 1. -/
theorem C25_false_nan : ∃ s r, (newStore exConf).run exEval (exThree "2" "NaN" "1") = some s
    ∧ s.answers (fun _ => true) insertionSort exFloat exPods { page := { sort := lit "node!int" } } (some r)
    ∧ r.error = false ∧ r.items.map Obj.body = [lit "2", lit "NaN", lit "1"] := by
  have hs : ((newStore exConf).run exEval (exThree "2" "NaN" "1")).isSome = true := by decide +kernel
  obtain ⟨s, h⟩ := Option.isSome_iff_exists.mp hs
  have h1 : ((exQuery (exThree "2" "NaN" "1") id { sort := lit "node!int" }).bind id).isSome = true := by decide +kernel
  obtain ⟨r₁, h1⟩ := Option.isSome_iff_exists.mp h1
  rw [Option.bind_eq_some_iff] at h1
  obtain ⟨x₁, h1, rfl⟩ := h1
  have hval : ((exQuery (exThree "2" "NaN" "1") id { sort := lit "node!int" }).bind id).map
        (fun r => (r.error, r.items.map Obj.body)) = some (false, [lit "2", lit "NaN", lit "1"]) := by decide +kernel
  rw [h1] at hval
  simp only [Option.bind_some, id_eq, Option.map_some, Option.some.injEq, Prod.mk.injEq] at hval
  exact ⟨s, r₁, h, exQuery_answers (fun cm => Shuffle.refl cm) h1 h, hval.1, hval.2⟩

/-- **C27 is false** for items with two blanks inside: `name  desc` asks for nothing the specification knows, yet
it is answered without error, in the order of the map. -/
theorem C27_false_blanks : (¬ ∃ ks, SortMeans (lit "name  desc") ks)
    ∧ ∃ s r, (newStore exConf).run exEval (exThree "1" "1" "2") = some s
      ∧ s.answers (fun _ => true) insertionSort exFloat exPods { page := { sort := lit "name  desc" } } (some r)
      ∧ r.error = false
      ∧ r.items.map (fun o => o.om.map ObjMeta.name) = [some (lit "x"), some (lit "y"), some (lit "z")] := by
  constructor
  · rintro ⟨ks, hks⟩
    have := sortMeans_twoParts hks (lit "name  desc") (by decide +kernel)
    revert this
    decide +kernel
  have hs : ((newStore exConf).run exEval (exThree "1" "1" "2")).isSome = true := by decide +kernel
  obtain ⟨s, h⟩ := Option.isSome_iff_exists.mp hs
  have h1 : ((exQuery (exThree "1" "1" "2") id { sort := lit "name  desc" }).bind id).isSome = true := by decide +kernel
  obtain ⟨r₁, h1⟩ := Option.isSome_iff_exists.mp h1
  rw [Option.bind_eq_some_iff] at h1
  obtain ⟨x₁, h1, rfl⟩ := h1
  have hval : ((exQuery (exThree "1" "1" "2") id { sort := lit "name  desc" }).bind id).map
        (fun r => (r.error, r.items.map fun o => o.om.map ObjMeta.name))
      = some (false, [some (lit "x"), some (lit "y"), some (lit "z")]) := by decide +kernel
  rw [h1] at hval
  simp only [Option.bind_some, id_eq, Option.map_some, Option.some.injEq, Prod.mk.injEq] at hval
  exact ⟨s, r₁, h, exQuery_answers (fun cm => Shuffle.refl cm) h1 h, hval.1, hval.2⟩

end Ckube

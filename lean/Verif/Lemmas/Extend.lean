import Verif.Model.Extend
import Verif.Lemmas.ProxyList

/-! # Lemmas about the services of a deployment -/

namespace Ckube
open Spec

variable {st : StoreI}
variable {isPrint : Nat → Bool} {eval : Str → Obj → Str} {alg : SliceSort} {pf : Str → Option GoFloat}
  {conf : List (GVR × List (Str × Str))} {h : List Notice} {s : Store}

/-! ## Names -/

/-- The bytes of a Kubernetes name. -/
def nameByte (b : UInt8) : Bool := isAlnum b || b == 45 || b == 46

theorem nameByte_ok : ∀ b : UInt8, nameByte b = true →
    0x20 ≤ b ∧ b ≤ 0x7E ∧ b ≠ 34 ∧ b ≠ 92 ∧ b ≠ 59 ∧ b ≠ 33 ∧ visible b = true ∧ b < 0x80 :=
  forall_byte (by decide +kernel)

theorem quoteBody_name : ∀ {v : Str}, (∀ b ∈ v, nameByte b = true) → quoteBody isPrint v = v
  | [], _ => rfl
  | b :: v, hv => by
    obtain ⟨h1, h2, h3, h4, _, _, _, hlt⟩ := nameByte_ok b (hv b (by simp))
    have hq : quoteChunk isPrint (.ascii b) = [b] := by
      have h : ¬ (b = 34 ∨ b = 92) := by simp [h3, h4]
      simp only [quoteChunk]
      rw [if_neg h, if_pos ⟨h1, h2⟩]
    have ih := quoteBody_name (v := v) (fun x hx => hv x (by simp [hx]))
    have e := chunks_append_ascii hlt [] v
    rw [List.nil_append] at e
    unfold quoteBody at ih ⊢
    rw [e]
    simp only [List.flatMap_append, List.flatMap_cons, hq, ih]
    rfl

theorem searchParts_single {t : Str} (hne : t ≠ []) (h : (59 : UInt8) ∉ t) : searchParts t = [t] := by
  have hd : double t = t := by
    unfold double
    clear hne
    induction t with
    | nil => rfl
    | cons a t ih =>
      simp only [List.mem_cons, not_or] at h
      rw [List.flatMap_cons, ih h.2, if_neg (by simpa [partsSep] using Ne.symm h.1)]
      rfl
  have := searchParts_join (ps := [t]) (by simpa using hne) (by simp)
  simpa [joinParts, join, hd] using this

/-! ## A search restricted to one cluster -/

/-- The search is restricted to the cluster, and looks at the plain parts besides. -/
theorem clusterSearch_spec {search c : Str} (hc : c ≠ []) (hl : validLabelValue c = true)
    (hplain : ∀ p ∈ searchParts search, ¬ advPrefix <+: p) (hsemi : ∀ p ∈ searchParts search, ∀ t, p ≠ lit ";" ++ t)
    (m : List (Str × Str)) :
    (matchParts isPrint m (searchParts (clusterSearch search c)) = some true ↔
      lookup (lit "cluster") m = some c ∧ ∀ p ∈ searchParts search, matchParts isPrint m [p] = some true)
    ∧ (matchParts isPrint m (searchParts (clusterSearch search c)) = none ↔
      ∃ p ∈ searchParts search, matchParts isPrint m [p] = none) := by
  have hfilter : (searchParts search).filter (hasPrefix · advPrefix) = [] := by
    rw [List.filter_eq_nil_iff]
    intro p hp
    rw [Bool.not_eq_true, ← Bool.not_eq_true, hasPrefix_iff]
    exact hplain p hp
  have hadv : AdvReqs search [] := Or.inl ⟨hfilter, rfl⟩
  obtain ⟨s', hs'⟩ := setClusters_some hadv (by simp) hc hl
  unfold clusterSearch
  rw [hs', Option.getD_some]
  have hps : PlainSearch (lit "cluster") search [] := ⟨hsemi, by simp, by simp, by simp⟩
  obtain ⟨hset, hv⟩ := setClusters_ok hs'
  constructor
  · have := C17_clusters_partial isPrint search s' [c] [] hs' hadv hps m
    unfold Paginate.matches at this
    rw [this]
    unfold OtherConstraints
    simp only [List.mem_singleton, exists_eq_left, List.not_mem_nil, false_imp_iff, implies_true, and_true]
    constructor
    · rintro ⟨h1, h2⟩; exact ⟨h1, fun p hp => h2 p hp (hplain p hp)⟩
    · rintro ⟨h1, h2⟩; exact ⟨h1, fun p hp _ => h2 p hp⟩
  · obtain ⟨ls, rs, hls, hmap, _, hrs, hne, hpr, hparts⟩ :=
      restrict_search hset hadv (fun p hp r => by simpa [lit] using hsemi p hp r) hv (by simp)
    obtain ⟨b, hb, _⟩ := match1_advPart (isPrint := isPrint) (m := m) hrs hne hpr hmap
    rw [matchParts_none, hparts]
    simp only [List.mem_cons, List.mem_filter]
    constructor
    · rintro ⟨p, rfl | ⟨hp, _⟩, hn⟩
      · rw [hb] at hn; simp at hn
      · exact ⟨p, hp, by simpa [matchParts] using hn⟩
    · rintro ⟨p, hp, hn⟩
      refine ⟨p, Or.inr ⟨hp, ?_⟩, by simpa [matchParts] using hn⟩
      rw [Bool.not_eq_true', ← Bool.not_eq_true, hasPrefix_iff]
      exact hplain p hp

/-! ## A query without sort expression and page -/

theorem query_plain (hconf : ConfOK conf) (hrun : (newStore conf).run eval h = some s) (hapi : ApiObjects h)
    (hst : Serves isPrint alg pf s st) {g : GVR} (hg : s.isStoreGVR g = true) (ns search : Str)
    (hok : ∀ m, lookup (lit "name") m ≠ none → matchParts isPrint m (searchParts search) ≠ none) :
    ∃ found : List (Ident × Obj × SObj), FoundOK isPrint eval conf h g ⟨ns, { search := search }⟩ found
      ∧ (∀ e ∈ found, s.get e.1.gvr e.1.cluster e.1.ns e.1.name = some e.2.2.obj)
      ∧ (found.map fun e => e.2.2).Pairwise (LexLe pf defaultKeys)
      ∧ st.query g ⟨ns, { search := search }⟩
        = some { error := false, items := found.map fun e => e.2.2.obj, total := found.length } := by
  obtain ⟨cm, hcm⟩ : ∃ cm, lookup g s.data = some cm := Option.isSome_iff_exists.mp hg
  have hans := hst.query g ⟨ns, { search := search }⟩
  have hans0 := hans
  unfold Store.mayAnswer at hans
  rw [hcm] at hans
  obtain ⟨vs, hvs, hq⟩ := hans
  obtain ⟨res, hres⟩ := Option.isSome_iff_exists.mp
    (queryList_some (isPrint := isPrint) (alg := alg) (pf := pf) vs ⟨ns, { search := search }⟩ (Or.inl rfl))
  rw [hres] at hq
  have hkeys : ∀ x ∈ vs, ∀ k ∈ [lit "cluster", lit "is_deleted", lit "namespace", lit "name"],
      lookup k x.index ≠ none := by
    intro x hx k hk
    have hv : x ∈ visited ns cm := hvs.subset hx
    exact (C30_same_keys hrun hapi g cm hcm ns x hv k).mpr (Or.inr hk)
  have herr : res.error = false := by
    unfold queryList at hres
    simp only at hres
    have hm : (vs.any fun o => (Paginate.matches isPrint { search := search } o.index).isNone) = false := by
      rw [List.any_eq_false]
      intro x hx
      rw [Bool.not_eq_true, Option.isNone_eq_false_iff, Option.isSome_iff_ne_none]
      exact hok x.index (hkeys x hx _ (by simp))
    rw [hm] at hres
    generalize hrs : (vs.filter fun o => Paginate.matches isPrint { search := search } o.index == some true) = rs at hres
    have hsub : ∀ x ∈ rs, x ∈ vs := by
      rw [← hrs]; exact fun x hx => (List.mem_filter.mp hx).1
    split at hres
    · simp only [Option.some.injEq] at hres; rw [← hres]
    · split at hres
      · rename_i hne hbad
        exfalso
        cases rs with
        | nil => simp at hne
        | cons x t =>
          have hk : sortLoop x.index (sortItems []) [] = .keys defaultKeys := by
            refine sortLoop_default ?_
            intro k hk
            have : ∀ k ∈ defaultKeys, k.key ∈ [lit "cluster", lit "is_deleted", lit "namespace", lit "name"] := by decide
            exact hkeys x (hsub x (by simp)) k.key (this k hk)
          unfold sortObjs at hbad
          simp only [hk] at hbad
          rw [run_noerr alg (by
            intro k hk hnum
            have : ∀ k ∈ defaultKeys, k.num = false := by decide
            rw [this k hk] at hnum
            simp at hnum)] at hbad
          simp at hbad
      · rw [Option.map_eq_some_iff] at hres
        obtain ⟨_, _, rfl⟩ := hres
        rfl
  rw [hq] at hans0 ⊢
  obtain ⟨found, f1, f2, f3, f4, f5⟩ := answer_lists hconf hrun g ⟨ns, { search := search }⟩ (Or.inl rfl) res hans0 herr
  have hord : (found.map fun e => e.2.2).Pairwise (LexLe pf defaultKeys) := by
    rcases f5 with rfl | ⟨rs, hperm, hs⟩
    · simp
    · by_cases h0 : rs = []
      · subst h0
        rw [List.nil_perm.mp hperm]
        simp
      · have htwo : TwoParts [] := by unfold TwoParts; decide
        obtain ⟨ks, k1, k2⟩ := sortObjs_sorted hs h0 htwo
        obtain rfl : ks = defaultKeys := by
          rcases k1 with ⟨_, k1⟩ | ⟨k1, _⟩
          · exact k1
          · exact absurd rfl k1
        refine k2 ?_
        intro k hk hnum
        have : ∀ k ∈ defaultKeys, k.num = false := by decide
        rw [this k hk] at hnum
        simp at hnum
  refine ⟨found, f2, fun e he => (f1.2.2 e he).2, hord, ?_⟩
  have hi : res.items = found.map fun e => e.2.2.obj := by
    rw [f4]; unfold pageOf; exact if_pos rfl
  cases res
  simp_all

end Ckube

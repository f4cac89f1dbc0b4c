import Verif.Lemmas.Restrict
import Verif.Props.Search

/-! # C17–C19: restricting a search to clusters and namespaces

`setClusters search cs` is the search after `Clusters(cs)`, `none` when it reports an error. -/

namespace Ckube
open Spec

theorem isEq_iff (q : Req) : q.isEq = true ↔ q.op = .eq ∨ q.op = .deq := by
  obtain ⟨k, op, vs⟩ := q
  cases op <;> simp [Req.isEq]

theorem isEq_eq (q : Req) : q.isEq = decide (q.op = .eq ∨ q.op = .deq) := by
  rw [Bool.eq_iff_iff, isEq_iff, decide_eq_true_eq]

/-- The common part of C17 and C18. -/
theorem restrict_matches {isPrint : Nat → Bool} {key search s' : Str} {vals : List Str} {qs : List Req}
    (hset : ((searchSelector search).bind fun s => setSearchSelector search (restrictTo key vals s)) = some s')
    (hadv : AdvReqs search qs) (hplain : PlainSearch key search qs) (hvals : ∃ v ∈ vals, v ≠ [])
    (m : List (Str × Str)) :
    matchParts isPrint m (searchParts s') = some true ↔
      (∃ v, lookup key m = some v ∧ v ∈ vals) ∧ OtherConstraints isPrint key search qs m := by
  obtain ⟨ls, rs, hls, hmap, _, hrs, hne, hpr, hparts⟩ :=
    restrict_search hset hadv (fun p hp r => by simpa [lit] using hplain.semicolon p hp r) hvals hplain.values
  obtain ⟨b, hb, hbm⟩ := match1_advPart (isPrint := isPrint) (m := m) hrs hne hpr hmap
  rw [(C10_conjunction isPrint m _).2, hparts]
  rw [restrict_holds hadv.valid hls
    (by have := hplain.once; rwa [show Req.isEq = fun q => decide (q.op = .eq ∨ q.op = .deq) from funext isEq_eq])
    (fun q hq he => hplain.noEq q hq ((isEq_iff q).mp he)) m] at hbm
  simp only [List.mem_cons, List.mem_filter, forall_eq_or_imp, OtherConstraints]
  have e : matchParts isPrint m [advPrefix ++ selStr rs] = some true ↔ b = true := by
    rw [matchParts, hb, Option.some.injEq]
  have e2 : ∀ p, (!hasPrefix p advPrefix) = true ↔ ¬ advPrefix <+: p := by
    intro p; rw [Bool.not_eq_true', ← Bool.not_eq_true, hasPrefix_iff]
  rw [e, hbm]
  simp only [and_imp, e2]
  constructor
  · rintro ⟨⟨h1, h2⟩, h3⟩; exact ⟨h1, h3, h2⟩
  · rintro ⟨h1, h3, h2⟩; exact ⟨⟨h1, h2⟩, h3⟩

/-- A successful `Clusters` had a non-empty list of non-empty names. -/
theorem setClusters_ok {search s' : Str} {cs : List Str} (hset : setClusters search cs = some s') :
    ((searchSelector search).bind fun s => setSearchSelector search (restrictTo clusterKey cs s)) = some s'
      ∧ ∃ v ∈ cs, v ≠ [] := by
  unfold setClusters at hset
  have hset2 : ((searchSelector search).bind fun s => setSearchSelector search (restrictTo clusterKey cs s)) = some s'
      ∧ [] ∉ cs := by
    rw [Option.bind_eq_some_iff] at hset ⊢
    obtain ⟨s, h1, h2⟩ := hset
    split at h2
    · simp at h2
    · rename_i h; exact ⟨⟨s, h1, h2⟩, h⟩
  have hne : cs ≠ [] := by
    rintro rfl
    obtain ⟨h, _⟩ := hset2
    rw [Option.bind_eq_some_iff] at h
    obtain ⟨s, _, h2⟩ := h
    unfold setSearchSelector formatSelector at h2
    simp only [Option.map_eq_some_iff] at h2
    obtain ⟨_, ⟨rs, hrs, _⟩, _⟩ := h2
    have := ((asSelector_valid hrs).2 ⟨clusterKey, .isIn, []⟩ (by simp [restrictTo])).count
    exact this rfl
  have hv : ∃ v ∈ cs, v ≠ [] := by
    obtain ⟨c, r, rfl⟩ := List.exists_cons_of_ne_nil hne
    exact ⟨c, by simp, fun h => hset2.2 (by simp [h])⟩
  exact ⟨hset2.1, hv⟩

/-- **C17**: after `Clusters(cs)` an object matches exactly when its cluster is one of `cs` and it
satisfies every other constraint of the search. Missing for the full claim: searches with several
advanced parts, with an equality on `cluster`, with a part that starts with `;` or with a requirement
that lists only empty values; for each of them it is false (`C17_false_*`). -/
theorem C17_clusters_partial (isPrint : Nat → Bool) (search s' : Str) (cs : List Str) (qs : List Req)
    (hset : setClusters search cs = some s') (hadv : AdvReqs search qs)
    (hplain : PlainSearch (lit "cluster") search qs) (m : List (Str × Str)) :
    Paginate.matches isPrint { search := s' } m = some true ↔
      (∃ c ∈ cs, lookup (lit "cluster") m = some c)
        ∧ OtherConstraints isPrint (lit "cluster") search qs m := by
  obtain ⟨hset2, hv⟩ := setClusters_ok hset
  rw [Paginate.matches, restrict_matches hset2 hadv hplain hv m]
  constructor
  · rintro ⟨⟨v, h1, h2⟩, h3⟩; exact ⟨⟨v, h2, h1⟩, h3⟩
  · rintro ⟨⟨v, h1, h2⟩, h3⟩; exact ⟨⟨v, h2, h1⟩, h3⟩

/-- **C18**: after `Namespaces(ns)` an object matches exactly when its namespace is one of `ns` and it
satisfies every other constraint of the search. Missing for the full claim: as for C17, and namespace
lists without a non-empty name (`C18_false_empty`). -/
theorem C18_namespaces_partial (isPrint : Nat → Bool) (search s' : Str) (ns : List Str) (qs : List Req)
    (hset : setNamespaces search ns = some s') (hns : ∃ n ∈ ns, n ≠ []) (hadv : AdvReqs search qs)
    (hplain : PlainSearch (lit "namespace") search qs) (m : List (Str × Str)) :
    Paginate.matches isPrint { search := s' } m = some true ↔
      (∃ n ∈ ns, lookup (lit "namespace") m = some n)
        ∧ OtherConstraints isPrint (lit "namespace") search qs m := by
  rw [Paginate.matches, restrict_matches hset hadv hplain hns m]
  constructor
  · rintro ⟨⟨v, h1, h2⟩, h3⟩; exact ⟨⟨v, h2, h1⟩, h3⟩
  · rintro ⟨⟨v, h1, h2⟩, h3⟩; exact ⟨⟨v, h2, h1⟩, h3⟩

theorem searchSelector_first {search : Str} {qs : List Req} (h : FirstReqs search qs) :
    searchSelector search = selectorLoop qs {} ∧ ∀ q ∈ qs, q.Valid := by
  have hno : ∀ {p : Str}, ¬ lit "__ckube_as__:" <+: p → hasPrefix p advPrefix = false := by
    intro p hp
    rw [← Bool.not_eq_true, hasPrefix_iff]
    exact hp
  unfold searchSelector
  rcases h with ⟨h1, rfl⟩ | ⟨pre, text, post, h1, h2, h3⟩
  · rw [List.find?_eq_none.mpr (fun p hp => by rw [hno (h1 p hp)]; simp)]
    exact ⟨rfl, by simp⟩
  · have hf : (searchParts search).find? (hasPrefix · advPrefix) = some (advPrefix ++ text) := by
      rw [h1, List.find?_append, List.find?_eq_none.mpr (fun p hp => by rw [hno (h2 p hp)]; simp), Option.none_or, List.find?_cons]
      have : hasPrefix (lit "__ckube_as__:" ++ text) advPrefix = true := hasPrefix_iff.mpr (List.prefix_append _ _)
      rw [this]
      rfl
    rw [hf]
    simp only
    refine ⟨?_, parseReqs_valid h3⟩
    split
    · rename_i hl
      simp only [List.length_append] at hl
      have : text = [] := List.length_eq_zero_iff.mp (by omega)
      subst this
      rw [parseReqs_nil] at h3
      obtain rfl := (Option.some.inj h3)
      rfl
    · rw [List.drop_left]
      unfold parseToLabelSelector
      rw [h3, Option.bind_some]

/-- The common part of `C17_any` and `C18_any`. -/
theorem restrict_matches_any {isPrint : Nat → Bool} {key search s' : Str} {vals : List Str} {qs : List Req}
    (hset : ((searchSelector search).bind fun s => setSearchSelector search (restrictTo key vals s)) = some s')
    (hadv : FirstReqs search qs)
    (hsemi : ∀ p ∈ searchParts search, ¬ lit "__ckube_as__:" <+: p → ∀ r, p ≠ lit ";" ++ r)
    (hq : ∀ q ∈ qs, q.key ≠ key → q.op = .isIn ∨ q.op = .notIn ∨ q.op = .neq → ∃ v ∈ q.vals, v ≠ [])
    (hvals : ∃ v ∈ vals, v ≠ []) (m : List (Str × Str)) :
    matchParts isPrint m (searchParts s') = some true ↔
      (∃ v ∈ vals, lookup key m = some v)
        ∧ (∀ p ∈ searchParts search, ¬ lit "__ckube_as__:" <+: p → matchParts isPrint m [p] = some true)
        ∧ ∀ q ∈ lastEqualities qs, q.key ≠ key ∨ q.op = .eq ∨ q.op = .deq → ReqHolds q m := by
  have e2 : ∀ p, (!hasPrefix p advPrefix) = true ↔ ¬ lit "__ckube_as__:" <+: p := by
    intro p; rw [Bool.not_eq_true', ← Bool.not_eq_true, hasPrefix_iff]; rfl
  obtain ⟨hsel0, hval0⟩ := searchSelector_first hadv
  obtain ⟨ls, rs, hls, hmap, _, hrs, hne, hpr, hparts⟩ :=
    restrict_search_first hset hsel0 hval0
      (fun p hp hx r => by simpa [lit] using hsemi p hp ((e2 p).mp (by rw [hx]; rfl)) r) hvals hq
  obtain ⟨b, hb, hbm⟩ := match1_advPart (isPrint := isPrint) (m := m) hrs hne hpr hmap
  rw [(C10_conjunction isPrint m _).2, hparts]
  rw [restrict_holds_last hval0 hls m] at hbm
  simp only [List.mem_cons, List.mem_filter, forall_eq_or_imp]
  have e : matchParts isPrint m [advPrefix ++ selStr rs] = some true ↔ b = true := by
    rw [matchParts, hb, Option.some.injEq]
  rw [e, hbm]
  simp only [and_imp, e2]
  constructor
  · rintro ⟨⟨⟨v, h1, h2⟩, h4⟩, h3⟩; exact ⟨⟨v, h2, h1⟩, h3, h4⟩
  · rintro ⟨⟨v, h2, h1⟩, h3, h4⟩; exact ⟨⟨⟨v, h1, h2⟩, h4⟩, h3⟩

/-- **C17** for any search, with any number of advanced parts and any equalities: what the new search asks for. An object
matches exactly when its cluster is one of `cs`, it satisfies every plain part, the last equality of the first advanced part for every
index (`cluster` included), and every other requirement of that part that is not on `cluster`. Nothing is left of the other advanced
parts and of the other equalities. Missing: searches with a plain part that starts with `;`, and requirements that list only empty
values (`C17_false_semicolon`, `C17_false_empty_value`). -/
theorem C17_any_partial (isPrint : Nat → Bool) (search s' : Str) (cs : List Str) (qs : List Req)
    (hset : setClusters search cs = some s') (hadv : FirstReqs search qs)
    (hsemi : ∀ p ∈ searchParts search, ¬ lit "__ckube_as__:" <+: p → ∀ r, p ≠ lit ";" ++ r)
    (hvals : ∀ q ∈ qs, q.key ≠ lit "cluster" → q.op = .isIn ∨ q.op = .notIn ∨ q.op = .neq → ∃ v ∈ q.vals, v ≠ [])
    (m : List (Str × Str)) :
    Paginate.matches isPrint { search := s' } m = some true ↔
      (∃ c ∈ cs, lookup (lit "cluster") m = some c)
        ∧ (∀ p ∈ searchParts search, ¬ lit "__ckube_as__:" <+: p → matchParts isPrint m [p] = some true)
        ∧ ∀ q ∈ lastEqualities qs, q.key ≠ lit "cluster" ∨ q.op = .eq ∨ q.op = .deq → ReqHolds q m := by
  obtain ⟨hset2, hv⟩ := setClusters_ok hset
  rw [Paginate.matches]
  exact restrict_matches_any hset2 hadv hsemi hvals hv m

/-- **C18** for any search, as `C17_any_partial`. -/
theorem C18_any_partial (isPrint : Nat → Bool) (search s' : Str) (ns : List Str) (qs : List Req)
    (hset : setNamespaces search ns = some s') (hns : ∃ n ∈ ns, n ≠ []) (hadv : FirstReqs search qs)
    (hsemi : ∀ p ∈ searchParts search, ¬ lit "__ckube_as__:" <+: p → ∀ r, p ≠ lit ";" ++ r)
    (hvals : ∀ q ∈ qs, q.key ≠ lit "namespace" → q.op = .isIn ∨ q.op = .notIn ∨ q.op = .neq → ∃ v ∈ q.vals, v ≠ [])
    (m : List (Str × Str)) :
    Paginate.matches isPrint { search := s' } m = some true ↔
      (∃ n ∈ ns, lookup (lit "namespace") m = some n)
        ∧ (∀ p ∈ searchParts search, ¬ lit "__ckube_as__:" <+: p → matchParts isPrint m [p] = some true)
        ∧ ∀ q ∈ lastEqualities qs, q.key ≠ lit "namespace" ∨ q.op = .eq ∨ q.op = .deq → ReqHolds q m := by
  rw [Paginate.matches]
  exact restrict_matches_any hset hadv hsemi hvals hns m

/-- An equality on `cluster` and `Clusters` of other clusters: nothing matches any more, in whatever cluster. -/
theorem C17_equality_stays (isPrint : Nat → Bool) (search s' : Str) (cs : List Str) (qs : List Req)
    (hset : setClusters search cs = some s') (hadv : FirstReqs search qs)
    (hsemi : ∀ p ∈ searchParts search, ¬ lit "__ckube_as__:" <+: p → ∀ r, p ≠ lit ";" ++ r)
    (hvals : ∀ q ∈ qs, q.key ≠ lit "cluster" → q.op = .isIn ∨ q.op = .notIn ∨ q.op = .neq → ∃ v ∈ q.vals, v ≠ [])
    (old : Str) (hold : ⟨lit "cluster", .eq, [old]⟩ ∈ lastEqualities qs) (hno : old ∉ cs)
    (m : List (Str × Str)) : Paginate.matches isPrint { search := s' } m ≠ some true := by
  rw [ne_eq, C17_any_partial isPrint search s' cs qs hset hadv hsemi hvals m]
  rintro ⟨⟨c, hc, hl⟩, _, h⟩
  have := h _ hold (Or.inr (Or.inl rfl))
  simp only [ReqHolds, List.mem_singleton] at this
  obtain ⟨v, h1, rfl⟩ := this
  rw [hl] at h1
  exact hno (Option.some.inj h1 ▸ hc)

/-- **C17**, soundness for every search whatever: after a successful `Clusters(cs)` no object of another cluster matches, and nothing that
the first advanced part forbids about other indices. (Where `C17_any_partial` fails, too few objects match.) -/
theorem C17_sound (isPrint : Nat → Bool) (search s' : Str) (cs : List Str) (hset : setClusters search cs = some s')
    (m : List (Str × Str)) (hm : Paginate.matches isPrint { search := s' } m = some true) :
    (∃ c ∈ cs, lookup (lit "cluster") m = some c)
      ∧ ∀ qs, FirstReqs search qs → ∀ q ∈ lastEqualities qs, q.key ≠ lit "cluster" ∨ q.op = .eq ∨ q.op = .deq → ReqHolds q m := by
  obtain ⟨ls, h1, h2⟩ := restrict_sound (setClusters_ok hset).1 hm
  refine ⟨restrictTo_holds h2, fun qs hqs => ?_⟩
  obtain ⟨hsel, hval⟩ := searchSelector_first hqs
  rw [h1] at hsel
  exact ((restrict_holds_last hval hsel.symm m).mp h2).2

/-- **C18**, soundness for every search whatever, as `C17_sound`. -/
theorem C18_sound (isPrint : Nat → Bool) (search s' : Str) (ns : List Str) (hset : setNamespaces search ns = some s')
    (m : List (Str × Str)) (hm : Paginate.matches isPrint { search := s' } m = some true) :
    (∃ n ∈ ns, lookup (lit "namespace") m = some n)
      ∧ ∀ qs, FirstReqs search qs → ∀ q ∈ lastEqualities qs, q.key ≠ lit "namespace" ∨ q.op = .eq ∨ q.op = .deq → ReqHolds q m := by
  obtain ⟨ls, h1, h2⟩ := restrict_sound hset hm
  refine ⟨restrictTo_holds h2, fun qs hqs => ?_⟩
  obtain ⟨hsel, hval⟩ := searchSelector_first hqs
  rw [h1] at hsel
  exact ((restrict_holds_last hval hsel.symm m).mp h2).2

/-- The two ways in which a search cannot be restricted properly: its first plain part starts with `;`, or its first advanced part
has a requirement, not on `key`, that lists only empty values. -/
def Spec.Breaks (key search : Str) (qs : List Req) : Prop :=
  (∃ pre r post, searchParts search = pre ++ (lit ";" ++ r) :: post ∧ ∀ p ∈ pre, lit "__ckube_as__:" <+: p)
    ∨ ∃ q ∈ qs, q.key ≠ key ∧ (q.op = .isIn ∨ q.op = .notIn ∨ q.op = .neq) ∧ ∀ v ∈ q.vals, v = []

theorem restrict_broken {isPrint : Nat → Bool} {key search s' : Str} {vals : List Str} {qs : List Req}
    (hset : ((searchSelector search).bind fun s => setSearchSelector search (restrictTo key vals s)) = some s')
    (hadv : FirstReqs search qs) (hvals : ∃ v ∈ vals, v ≠ []) (hb : Breaks key search qs) (m : List (Str × Str)) :
    matchParts isPrint m (searchParts s') = none := by
  obtain ⟨ls, rs, w, rest, hls, _, hrs, hne, hparts, hw⟩ := restrict_first hset
  obtain ⟨hsel, hval⟩ := searchSelector_first hadv
  rw [hls] at hsel
  have hv := (asSelector_some hrs).2
  have h1 : match1 isPrint m ((advPrefix ++ selStr rs) ++ w) = none := by
    rcases hw with ⟨rfl, hno⟩ | ⟨⟨w', rfl⟩, _⟩
    · rw [List.append_nil]
      refine match1_unprintable hv hne ?_
      rw [printable_restricted hval hsel.symm hrs hvals]
      rcases hb with hb | ⟨q, hq, hk, hop, hall⟩
      · obtain ⟨r, hr⟩ := head_plain.mpr hb
        exact absurd rfl (hno _ hr r)
      · intro h
        obtain ⟨v, h1, h2⟩ := h q hq hk hop
        exact h2 (hall v h1)
    · exact match1_semicolon hv w'
  rw [hparts]
  cases rest with
  | nil => exact h1
  | cons q rest =>
    simp only [matchParts, Option.map_eq_none_iff]
    exact (matchLoop_none isPrint m _ 0).mpr ⟨_, List.mem_cons_self, h1⟩

/-- **C17**, where it fails: a search that breaks is an error for every object after `Clusters`. -/
theorem C17_breaks (isPrint : Nat → Bool) (search s' : Str) (cs : List Str) (qs : List Req)
    (hset : setClusters search cs = some s') (hadv : FirstReqs search qs) (hb : Breaks (lit "cluster") search qs) (m : List (Str × Str)) :
    Paginate.matches isPrint { search := s' } m = none := by
  obtain ⟨hset2, hv⟩ := setClusters_ok hset
  exact restrict_broken hset2 hadv hv hb m

/-- **C18**, where it fails, as `C17_breaks`. -/
theorem C18_breaks (isPrint : Nat → Bool) (search s' : Str) (ns : List Str) (qs : List Req)
    (hset : setNamespaces search ns = some s') (hns : ∃ n ∈ ns, n ≠ []) (hadv : FirstReqs search qs)
    (hb : Breaks (lit "namespace") search qs) (m : List (Str × Str)) :
    Paginate.matches isPrint { search := s' } m = none :=
  restrict_broken hset hadv hns hb m

theorem setList_strict (cs : List Str) : (setList cs).Pairwise (fun a b => strLt a b = true) := by
  refine ((setList_sorted cs).and (setList_nodup cs)).imp ?_
  rintro a b ⟨hab, hne⟩
  unfold strLt
  rw [Bool.not_eq_true', ← Bool.not_eq_true]
  exact fun hba => hne (strLe_antisymm _ _ hab hba)

/-- **C19**, exactly: after `Clusters(cs)`, `GetClusters` returns exactly the clusters of `cs`, in sorted order and without repetition, if the
search does not break; if it does, `GetClusters` returns nothing. -/
theorem C19_exact (search s' : Str) (cs : List Str) (qs : List Req)
    (hset : setClusters search cs = some s') (hadv : FirstReqs search qs) :
    (¬ Breaks (lit "cluster") search qs → (∀ c, c ∈ getClusters s' ↔ c ∈ cs) ∧ (getClusters s').Pairwise (fun a b => strLt a b = true))
      ∧ (Breaks (lit "cluster") search qs → getClusters s' = []) := by
  obtain ⟨hset2, hv⟩ := setClusters_ok hset
  obtain ⟨hsel, hval⟩ := searchSelector_first hadv
  obtain ⟨ls, rs, hls, hrs, _, hget⟩ := getClusters_restricted hset2
  rw [hls] at hsel
  have hpr := printable_restricted hval hsel.symm hrs hv
  rcases hget with ⟨hget, hp, hno⟩ | ⟨hget, hbad⟩
  · refine ⟨fun _ => by rw [hget]; exact ⟨fun c => mem_setList, setList_strict cs⟩, ?_⟩
    rintro (hb | ⟨q, hq, hk, hop, hall⟩)
    · obtain ⟨r, hr⟩ := head_plain.mpr hb
      exact absurd rfl (hno _ hr r)
    · obtain ⟨v, h1, h2⟩ := hpr.mp hp q hq hk hop
      exact absurd (hall v h1) h2
  · refine ⟨fun hnb => ?_, fun _ => hget⟩
    exfalso
    rcases hbad with hbad | hsemi
    · refine hbad (hpr.mpr (fun q hq hk hop => ?_))
      by_contra hcon
      refine hnb (Or.inr ⟨q, hq, hk, hop, fun v hv' => ?_⟩)
      by_contra h'
      exact hcon ⟨v, hv', h'⟩
    · exact hnb (Or.inl (head_plain.mp hsemi))

/-- **C19**: after `Clusters(cs)`, `GetClusters` returns exactly the clusters of `cs`, in sorted order and without repetition, whatever else the
search asks for. Missing for the full claim: searches with a part other than advanced ones that starts with `;`, and with a requirement that
lists only empty values (`C17_false_semicolon`, `C17_false_empty_value`); `C19_exact` says when exactly. -/
theorem C19_any_search_partial (search s' : Str) (cs : List Str) (qs : List Req)
    (hset : setClusters search cs = some s') (hadv : FirstReqs search qs)
    (hsemi : ∀ p ∈ searchParts search, ∀ r, p ≠ lit ";" ++ r)
    (hvals : ∀ q ∈ qs, q.key ≠ lit "cluster" → q.op = .isIn ∨ q.op = .notIn ∨ q.op = .neq → ∃ v ∈ q.vals, v ≠ []) :
    (∀ c, c ∈ getClusters s' ↔ c ∈ cs) ∧ (getClusters s').Pairwise (fun a b => strLt a b = true) := by
  refine (C19_exact search s' cs qs hset hadv).1 ?_
  rintro (⟨pre, r, post, h1, _⟩ | ⟨q, hq, hk, hop, hall⟩)
  · exact hsemi _ (by rw [h1]; simp) r rfl
  · obtain ⟨v, h1, h2⟩ := hvals q hq hk hop
    exact h2 (hall v h1)

theorem AdvReqs.first {search : Str} {qs : List Req} (h : AdvReqs search qs) : FirstReqs search qs := by
  have hno : ∀ {l : List Str}, l.filter (fun p => hasPrefix p (lit "__ckube_as__:")) = [] → ∀ p ∈ l, ¬ lit "__ckube_as__:" <+: p := by
    intro l hl p hp hx
    rw [List.filter_eq_nil_iff] at hl
    exact hl p hp (hasPrefix_iff.mpr hx)
  rcases h with ⟨h1, rfl⟩ | ⟨text, h1, h2⟩
  · exact Or.inl ⟨hno h1, rfl⟩
  · right
    change (searchParts search).filter (fun p => hasPrefix p (lit "__ckube_as__:")) = [lit "__ckube_as__:" ++ text] at h1
    have hm : lit "__ckube_as__:" ++ text ∈ searchParts search := by
      have : lit "__ckube_as__:" ++ text ∈ (searchParts search).filter (fun p => hasPrefix p (lit "__ckube_as__:")) := by rw [h1]; simp
      exact (List.mem_filter.mp this).1
    obtain ⟨pre, post, hpp⟩ := List.append_of_mem hm
    refine ⟨pre, text, post, hpp, ?_, h2⟩
    apply hno
    have hl := congrArg List.length h1
    rw [hpp, List.filter_append, List.filter_cons, if_pos (hasPrefix_iff.mpr (List.prefix_append _ _))] at hl
    simp only [List.length_append, List.length_cons, List.length_nil] at hl
    exact List.length_eq_zero_iff.mp (by omega)

/-- **C19** for the searches of C17. -/
theorem C19_read_back_partial (search s' : Str) (cs : List Str) (qs : List Req)
    (hset : setClusters search cs = some s') (hadv : AdvReqs search qs)
    (hplain : PlainSearch (lit "cluster") search qs) :
    (∀ c, c ∈ getClusters s' ↔ c ∈ cs) ∧ (getClusters s').Pairwise (fun a b => strLt a b = true) :=
  C19_any_search_partial search s' cs qs hset (AdvReqs.first hadv) hplain.semicolon hplain.values

/-! ## Concrete cases -/

/-- A search with a plain part and an advanced part that already names a cluster. -/
def exSearch : Str := lit "name=web;__ckube_as__:cluster in (old),zone notin (b, c),tier"

def exReqs : List Req :=
  [⟨lit "cluster", .isIn, [lit "old"]⟩, ⟨lit "tier", .exist, []⟩, ⟨lit "zone", .notIn, [lit "b", lit "c"]⟩]

theorem exSearch_adv : AdvReqs exSearch exReqs :=
  Or.inr ⟨lit "cluster in (old),zone notin (b, c),tier", by decide +kernel, by decide +kernel⟩

theorem exSearch_plain (key : Str) : PlainSearch key exSearch exReqs := by
  have hp : searchParts exSearch
      = [lit "name=web", lit "__ckube_as__:cluster in (old),zone notin (b, c),tier"] := by decide +kernel
  refine ⟨?_, ?_, by decide +kernel, ?_⟩
  · intro p hm r
    rw [hp] at hm
    simp only [List.mem_cons, List.not_mem_nil, or_false] at hm
    rcases hm with rfl | rfl <;> simp [lit]
  · intro q hq _ _
    simp only [exReqs, List.mem_cons, List.not_mem_nil, or_false] at hq
    rcases hq with rfl | rfl | rfl
    · exact ⟨lit "old", by simp, by decide⟩
    · simp_all
    · exact ⟨lit "b", by simp, by decide⟩
  · intro q hq
    simp only [exReqs, List.mem_cons, List.not_mem_nil, or_false] at hq
    rcases hq with rfl | rfl | rfl <;> simp

/-- The hypotheses of C17 and C19 hold for it. -/
example : setClusters exSearch [lit "c2", lit "c1", lit "c2"]
      = some (lit "__ckube_as__:cluster in (c1,c2,c2),tier,zone notin (b,c);name=web")
    ∧ AdvReqs exSearch exReqs ∧ PlainSearch (lit "cluster") exSearch exReqs
    ∧ getClusters (lit "__ckube_as__:cluster in (c1,c2,c2),tier,zone notin (b,c);name=web")
      = [lit "c1", lit "c2"] :=
  ⟨by decide +kernel, exSearch_adv, exSearch_plain _, by decide +kernel⟩

/-- C19 also for two advanced parts, the first of which names a cluster: the second is lost (`C17_false_second_part`). -/
example : setClusters (lit "x=1;__ckube_as__:cluster=old,a=1,a=2;__ckube_as__:b=1") [lit "c"]
      = some (lit "__ckube_as__:a=2,cluster=old,cluster in (c);x=1")
    ∧ FirstReqs (lit "x=1;__ckube_as__:cluster=old,a=1,a=2;__ckube_as__:b=1")
        [⟨lit "a", .eq, [lit "1"]⟩, ⟨lit "a", .eq, [lit "2"]⟩, ⟨lit "cluster", .eq, [lit "old"]⟩]
    ∧ getClusters (lit "__ckube_as__:a=2,cluster=old,cluster in (c);x=1") = [lit "c"] := by
  refine ⟨by decide +kernel, Or.inr ⟨[lit "x=1"], lit "cluster=old,a=1,a=2", [lit "__ckube_as__:b=1"], by decide +kernel, ?_, by decide +kernel⟩,
    by decide +kernel⟩
  intro p hp
  rw [List.mem_singleton] at hp
  subst hp
  rintro ⟨t, ht⟩
  simp [lit] at ht

/-- The hypotheses of `C17_any_partial` and of `C17_equality_stays` hold for a search with two advanced parts, a repeated equality and an equality
on `cluster`. -/
example : ∃ qs s', setClusters (lit "x=1;__ckube_as__:cluster=old,a=1,a=2;__ckube_as__:b=1") [lit "c"] = some s'
    ∧ FirstReqs (lit "x=1;__ckube_as__:cluster=old,a=1,a=2;__ckube_as__:b=1") qs
    ∧ (∀ m, Paginate.matches (fun _ => true) { search := s' } m ≠ some true) ∧ lastEqualities qs ≠ qs := by
  have hp : searchParts (lit "x=1;__ckube_as__:cluster=old,a=1,a=2;__ckube_as__:b=1")
      = [lit "x=1", lit "__ckube_as__:cluster=old,a=1,a=2", lit "__ckube_as__:b=1"] := by decide +kernel
  have hf : FirstReqs (lit "x=1;__ckube_as__:cluster=old,a=1,a=2;__ckube_as__:b=1")
      [⟨lit "a", .eq, [lit "1"]⟩, ⟨lit "a", .eq, [lit "2"]⟩, ⟨lit "cluster", .eq, [lit "old"]⟩] := by
    refine Or.inr ⟨[lit "x=1"], lit "cluster=old,a=1,a=2", [lit "__ckube_as__:b=1"], by decide +kernel, ?_, by decide +kernel⟩
    intro p hp
    rw [List.mem_singleton] at hp
    subst hp
    rintro ⟨t, ht⟩
    simp [lit] at ht
  have hs : setClusters (lit "x=1;__ckube_as__:cluster=old,a=1,a=2;__ckube_as__:b=1") [lit "c"]
      = some (lit "__ckube_as__:a=2,cluster=old,cluster in (c);x=1") := by decide +kernel
  refine ⟨_, _, hs, hf, fun m => C17_equality_stays _ _ _ _ _ hs hf ?_ (by decide +kernel) (lit "old") (by decide +kernel) (by decide +kernel) m,
    by decide +kernel⟩
  rw [hp]
  intro p hm _ r
  simp only [List.mem_cons, List.not_mem_nil, or_false] at hm
  rcases hm with rfl | rfl | rfl <;> simp [lit]

/-- The hypotheses of C18 hold for it. -/
example : setNamespaces exSearch [lit "prod", []]
      = some (lit "__ckube_as__:cluster in (old),namespace in (,prod),tier,zone notin (b,c);name=web")
    ∧ AdvReqs exSearch exReqs ∧ PlainSearch (lit "namespace") exSearch exReqs :=
  ⟨by decide +kernel, exSearch_adv, exSearch_plain _⟩

/-- **C17 is false** for a search with two advanced parts: `Clusters` drops the second one, and an
object that it excluded matches afterwards. -/
theorem C17_false_second_part :
    Paginate.matches (fun _ => true) { search := lit "__ckube_as__:a=1;__ckube_as__:b=1" }
      [(lit "cluster", lit "c"), (lit "a", lit "1"), (lit "b", lit "2")] = some false
    ∧ setClusters (lit "__ckube_as__:a=1;__ckube_as__:b=1") [lit "c"]
      = some (lit "__ckube_as__:a=1,cluster in (c)")
    ∧ Paginate.matches (fun _ => true) { search := lit "__ckube_as__:a=1,cluster in (c)" }
      [(lit "cluster", lit "c"), (lit "a", lit "1"), (lit "b", lit "2")] = some true := by
  decide +kernel

/-- **C17 is false** for a search with an equality on `cluster`: it stays, and no object of the
requested cluster matches. -/
theorem C17_false_equality :
    setClusters (lit "__ckube_as__:cluster=old") [lit "c"]
      = some (lit "__ckube_as__:cluster=old,cluster in (c)")
    ∧ Paginate.matches (fun _ => true) { search := lit "__ckube_as__:cluster=old,cluster in (c)" }
      [(lit "cluster", lit "c")] = some false := by
  decide +kernel

/-- **C17 and C19 are false** for a search that starts with `;;`: the new search cannot be parsed. -/
theorem C17_false_semicolon :
    Paginate.matches (fun _ => true) { search := lit ";;x" } [(lit "cluster", lit "c"), (lit "n", lit ";x")]
      = some true
    ∧ setClusters (lit ";;x") [lit "c"] = some (lit "__ckube_as__:cluster in (c);;;x")
    ∧ Paginate.matches (fun _ => true) { search := lit "__ckube_as__:cluster in (c);;;x" }
      [(lit "cluster", lit "c"), (lit "n", lit ";x")] = none
    ∧ getClusters (lit "__ckube_as__:cluster in (c);;;x") = [] := by
  decide +kernel

/-- **C17 and C19 are false** for a requirement that lists only the empty value: the new search
cannot be parsed. -/
theorem C17_false_empty_value :
    Paginate.matches (fun _ => true) { search := lit "__ckube_as__:a!=" }
      [(lit "cluster", lit "c"), (lit "a", lit "1")] = some true
    ∧ setClusters (lit "__ckube_as__:a!=") [lit "c"] = some (lit "__ckube_as__:a notin (),cluster in (c)")
    ∧ Paginate.matches (fun _ => true) { search := lit "__ckube_as__:a notin (),cluster in (c)" }
      [(lit "cluster", lit "c"), (lit "a", lit "1")] = none
    ∧ getClusters (lit "__ckube_as__:a notin (),cluster in (c)") = [] := by
  decide +kernel

/-- Both searches break, as `Breaks` says; and `C17_sound` applies to a search with two advanced parts, an equality on `cluster` and a later
part that starts with `;`. -/
example : FirstReqs (lit ";;x") [] ∧ Breaks (lit "cluster") (lit ";;x") []
    ∧ FirstReqs (lit "__ckube_as__:a!=") [⟨lit "a", .neq, [[]]⟩] ∧ Breaks (lit "cluster") (lit "__ckube_as__:a!=") [⟨lit "a", .neq, [[]]⟩]
    ∧ setClusters (lit "__ckube_as__:a;b=1;;__ckube_as__:c;; ;;;;d") [lit "c"] = some (lit "__ckube_as__:a,cluster in (c);b=1;;__ckube_as__:c;; ;;;;d") := by
  have h1 : searchParts (lit ";;x") = [lit ";x"] := by decide +kernel
  refine ⟨Or.inl ⟨?_, rfl⟩, Or.inl ⟨[], lit "x", [], h1, by simp⟩,
    Or.inr ⟨[], lit "a!=", [], by decide +kernel, by simp, by decide +kernel⟩, Or.inr ⟨_, List.mem_singleton_self _, by decide, by simp, by simp⟩,
    by decide +kernel⟩
  rw [h1]
  intro p hp
  rw [List.mem_singleton] at hp
  subst hp
  decide +kernel

/-- **C18 is false** for the empty namespace name (cluster-scoped objects): the new search is
rejected for every object. -/
theorem C18_false_empty :
    setNamespaces [] [[]] = some (lit "__ckube_as__:namespace in ()")
    ∧ ∀ m, Paginate.matches (fun _ => true) { search := lit "__ckube_as__:namespace in ()" } m = none := by
  refine ⟨by decide +kernel, ?_⟩
  intro m
  have hp : searchParts (lit "__ckube_as__:namespace in ()") = [lit "__ckube_as__:namespace in ()"] := by
    decide +kernel
  have ht : trimSpace (lit "__ckube_as__:namespace in ()") = lit "__ckube_as__:namespace in ()" := by
    decide +kernel
  have h1 : hasPrefix (lit "__ckube_as__:namespace in ()") advPrefix = true := by decide +kernel
  have h2 : parseToLabelSelector ((lit "__ckube_as__:namespace in ()").drop advPrefix.length) = none := by
    decide +kernel
  unfold Paginate.matches
  simp only [hp, matchParts, match1, ht]
  rw [if_neg (by decide), if_pos h1, if_neg (by decide), h2]
  rfl

end Ckube

import Verif.Props.SearchProgram
import Verif.Props.SelectorGrammar

/-! # Searches with one label selector

What `setClusters` keeps of a search whose text says conditions, when at most one of them is a label selector: all of them. -/

namespace Ckube
open Spec

/-- At most one of the conditions is a label selector. It stands in the search without white space around it (as for a search that names
clusters, `C126_false_clusters`), says nothing about clusters, and none of its requirements lists only empty values. -/
structure Spec.OneSelector (cs : List Cond) (search : Str) : Prop where
  one : cs.Pairwise fun a b => (∃ qs, a = .select qs) → ∀ qs, b ≠ .select qs
  bare : ∀ p ∈ searchParts search, ∀ a x b, Spaces a → Solid x → Spaces b → lit "__ckube_as__:" <+: x → p = a ++ x ++ b → a = [] ∧ b = []
  reqs : ∀ qs, Cond.select qs ∈ cs → ∀ q ∈ qs, q.key ≠ lit "cluster" ∧ (q.op = .isIn ∨ q.op = .notIn ∨ q.op = .neq → ∃ v ∈ q.vals, v ≠ [])

theorem byKey_same {qs out : List Req} (h : ByKey qs out) : ∀ c ∈ out, ∃ q ∈ qs, SameReq q c := by
  obtain ⟨cs, h1, h2, -, -⟩ := h
  intro c hc
  rw [h2.mem_iff] at hc
  clear h2
  induction h1 with
  | nil => simp at hc
  | @cons q d qs cs hqd _ ih =>
    rcases List.mem_cons.mp hc with rfl | hc
    · exact ⟨q, by simp, hqd⟩
    · obtain ⟨q', h1, h2⟩ := ih hc
      exact ⟨q', by simp [h1], h2⟩

/-- An advanced part without white space around it is a label selector. -/
theorem chunk_adv {cs : List Cond} {p : Str} (h : ChunkSays cs p) (hadv : advPrefix <+: p)
    (hbare : ∀ a x b, Spaces a → Solid x → Spaces b → advPrefix <+: x → p = a ++ x ++ b → a = [] ∧ b = []) :
    ∃ sel qs, cs = [.select qs] ∧ p = advPrefix ++ sel ∧ SelectorSays qs sel ∧ PlainReqs qs := by
  have hsel : ∃ c ∈ cs, ∃ qs, c = .select qs := by
    by_contra hno
    push Not at hno
    exact chunk_not_adv h (fun c hc qs => hno c hc qs) hadv
  cases h with
  | nothing ha hne => obtain ⟨c, hc, -⟩ := hsel; simp at hc
  | @cond a x b c ha hc hx hb =>
    obtain ⟨c', hc', qs, rfl⟩ := hsel
    obtain rfl : Cond.select qs = c := by simpa using hc'
    cases hc with
    | @select sel _ hne hs hpl =>
      obtain ⟨rfl, rfl⟩ := hbare a (advPrefix ++ sel) b ha hx hb ⟨sel, rfl⟩ rfl
      exact ⟨sel, qs, rfl, by simp [advPrefix], hs, hpl⟩

/-- A search without label selector. -/
theorem oneSelector_plain {cs : List Cond} {search : Str} (h : SearchSays cs search) (hp : ∀ c ∈ cs, ∀ qs, c ≠ .select qs) : OneSelector cs search := by
  refine ⟨List.pairwise_of_forall_mem_list fun a ha b _ h => ?_, ?_, fun qs hq => absurd rfl (hp _ hq qs)⟩
  · obtain ⟨qs, rfl⟩ := h
    exact absurd rfl (hp _ ha qs)
  · obtain ⟨chunks, h1, h2, rfl, rfl⟩ := h
    rw [search_parts (fun e he => (chunk_match (isPrint := fun _ => true) (m := []) (by simp) (h1 e he)).1) h2]
    intro p hpm a x b ha hx hb hadv hpe
    obtain ⟨e, he, rfl⟩ := List.mem_map.mp hpm
    have ht := trimSpace_solid ha hx hb
    rw [← hpe] at ht
    have hc := h1 e he
    have hpc : ∀ c ∈ e.1, ∀ qs, c ≠ .select qs := fun c hc => hp c (List.mem_flatten.mpr ⟨_, List.mem_map_of_mem he, hc⟩)
    generalize e.1 = l at hc hpc
    generalize e.2 = p at hc ht
    exfalso
    cases hc with
    | nothing ha' hne =>
      rw [trimSpace_spaces ha'] at ht
      exact hx.1 ht.symm
    | @cond a' x' b' c ha' hc hx' hb' =>
      rw [trimSpace_solid ha' hx' hb'] at ht
      subst ht
      exact cond_not_adv hc (hpc c (by simp)) hadv

/-- There is no white space around a part that has none at its ends. -/
theorem solid_bare {a x b : Str} (h : Solid (a ++ x ++ b)) (ha : Spaces a) (hb : Spaces b) : a = [] ∧ b = [] := by
  obtain ⟨wa, rfl, ha⟩ := ha
  obtain ⟨wb, rfl, hb⟩ := hb
  constructor
  · cases wa with
    | nil => rfl
    | cons w wa => exact absurd ⟨wa.flatten ++ x ++ wb.flatten, by simp⟩ (h.2 w (ha w (by simp))).1
  · rcases List.eq_nil_or_concat wb with rfl | ⟨l, w, rfl⟩
    · rfl
    · exact absurd ⟨wa.flatten ++ x ++ l.flatten, by simp⟩ (h.2 w (hb w (by simp))).2

theorem chunks_semicolon {chunks : List (List Cond × Str)} (h2 : ∀ e ∈ chunks.tail, ∀ r, e.2 ≠ 59 :: r) {search : Str}
    (h4 : search = [59].intercalate (chunks.map fun e => doubled e.2)) (hfirst : ∀ r, search ≠ 59 :: r) : ∀ e ∈ chunks, ∀ r, e.2 ≠ 59 :: r := by
  cases chunks with
  | nil => simp
  | cons e0 rest =>
    intro e he r
    rcases List.mem_cons.mp he with rfl | he
    · intro hr
      cases rest with
      | nil =>
        refine hfirst (59 :: doubled r) ?_
        rw [h4]
        simp [hr, doubled]
      | cons e1 rest =>
        refine hfirst (59 :: (doubled r ++ [59] ++ [59].intercalate ((e1 :: rest).map fun e => doubled e.2))) ?_
        rw [h4]
        simp [hr, doubled, List.intercalate, List.intersperse]
    · exact h2 e he r

/-- What is kept of such a search is the search. -/
theorem search_selecting {isPrint : Nat → Bool} {cs : List Cond} {search : Str} (h : SearchSays cs search) (ho : OneSelector cs search)
    (hfirst : ∀ r, search ≠ 59 :: r) :
    ∃ qs, FirstReqs search qs ∧ Separable (lit "cluster") search qs ∧ (∀ q ∈ qs, q.op ≠ .gt ∧ q.op ≠ .lt) ∧ (∀ q ∈ qs, q.key ≠ lit "cluster")
      ∧ ∀ m : List (Str × Str),
        ((∀ c ∈ cs, CondKnown m c) → (∀ e ∈ m, Printable isPrint e.2) → ∀ p ∈ searchParts search, matchParts isPrint m [p] ≠ none)
        ∧ ((∀ e ∈ m, Printable isPrint e.2) → (KeptConstraints isPrint (lit "cluster") search qs m ↔ ∀ c ∈ cs, CondHolds m c)) := by
  obtain ⟨h5, h6, h7⟩ := ho
  obtain ⟨chunks, h1, h2, rfl, h4⟩ := h
  have hne : ∀ e ∈ chunks, e.2 ≠ [] :=
    fun e he => (chunk_match (isPrint := isPrint) (m := []) (by simp) (h1 e he)).1
  have hsemi := chunks_semicolon h2 h4 hfirst
  have hin : ∀ e ∈ chunks, ∀ c ∈ e.1, c ∈ (chunks.map Prod.fst).flatten :=
    fun e he c hc => List.mem_flatten.mpr ⟨_, List.mem_map_of_mem he, hc⟩
  have hparts : searchParts search = chunks.map Prod.snd := by rw [h4, search_parts hne h2]
  have hm1 : ∀ (m : List (Str × Str)) p, matchParts isPrint m [p] = match1 isPrint m p := fun _ _ => rfl
  have hadv : ∀ e ∈ chunks, advPrefix <+: e.2 → ∃ sel qs, e.1 = [.select qs] ∧ e.2 = advPrefix ++ sel ∧ SelectorSays qs sel ∧ PlainReqs qs :=
    fun e he hp => chunk_adv (h1 e he) hp (h6 e.2 (by rw [hparts]; exact List.mem_map_of_mem he))
  have hknown : ∀ m : List (Str × Str), (∀ c ∈ (chunks.map Prod.fst).flatten, CondKnown m c) → (∀ e ∈ m, Printable isPrint e.2) →
      ∀ p ∈ searchParts search, matchParts isPrint m [p] ≠ none := by
    intro m hk hm p hp
    rw [hparts] at hp
    obtain ⟨e, he, rfl⟩ := List.mem_map.mp hp
    rw [hm1, Ne, (chunk_match hm (h1 e he)).2.1]
    rintro ⟨c, hc, hn⟩
    exact hn (hk c (hin e he c hc))
  have hsc : ∀ p ∈ searchParts search, ¬ lit "__ckube_as__:" <+: p → ∀ r, p ≠ lit ";" ++ r := by
    intro p hp _
    rw [hparts] at hp
    obtain ⟨e, he, rfl⟩ := List.mem_map.mp hp
    exact hsemi e he
  cases hf : chunks.find? (fun e => decide (advPrefix <+: e.2)) with
  | none =>
    rw [List.find?_eq_none] at hf
    have hno : ∀ e ∈ chunks, ¬ advPrefix <+: e.2 := fun e he => by simpa using hf e he
    refine ⟨[], Or.inl ⟨?_, rfl⟩, ⟨hsc, by simp⟩, by simp, by simp, fun m => ⟨hknown m, fun hm => ⟨?_, ?_⟩⟩⟩
    · intro p hp
      rw [hparts] at hp
      obtain ⟨e, he, rfl⟩ := List.mem_map.mp hp
      exact hno e he
    · intro hk c hc
      obtain ⟨l, hl, hcl⟩ := List.mem_flatten.mp hc
      obtain ⟨e, he, rfl⟩ := List.mem_map.mp hl
      have := hk.1 e.2 (by rw [hparts]; exact List.mem_map_of_mem he) (hno e he)
      rw [hm1] at this
      exact (chunk_match hm (h1 e he)).2.2.mp this c hcl
    · intro hall
      refine ⟨fun p hp _ => ?_, by simp [lastEqualities]⟩
      rw [hparts] at hp
      obtain ⟨e, he, rfl⟩ := List.mem_map.mp hp
      rw [hm1]
      exact (chunk_match hm (h1 e he)).2.2.mpr fun c hc => hall c (hin e he c hc)
  | some e0 =>
    rw [List.find?_eq_some_iff_append] at hf
    obtain ⟨he0, pre, post, hsplit, hpre⟩ := hf
    have he0m : e0 ∈ chunks := by rw [hsplit]; simp
    obtain ⟨sel, qs, a1, a2, a3, a4⟩ := hadv e0 he0m (by simpa using he0)
    obtain ⟨out, b1, b2⟩ := C120_read a3
    have hq := h7 qs (hin e0 he0m _ (by rw [a1]; simp))
    have hops : ∀ q ∈ out, q.op ≠ .gt ∧ q.op ≠ .lt := byKey_all b2 (p := fun _ op => op ≠ .gt ∧ op ≠ .lt) a4.2
    have hkeys : ∀ q ∈ out, q.key ≠ lit "cluster" := byKey_all b2 (p := fun k _ => k ≠ lit "cluster") fun q h => (hq q h).1
    have hpre' : ∀ e ∈ pre, ¬ advPrefix <+: e.2 := fun e he => by simpa using hpre e he
    have hpost : ∀ e ∈ post, ¬ advPrefix <+: e.2 := by
      intro e he hp
      obtain ⟨sel', qs', c1, -⟩ := hadv e (by rw [hsplit]; simp [he]) hp
      rw [hsplit] at h5
      simp only [List.map_append, List.map_cons, List.flatten_append, List.flatten_cons, a1] at h5
      have h8 := (List.pairwise_append.mp h5).2.1
      rw [List.cons_append, List.nil_append, List.pairwise_cons] at h8
      exact h8.1 (.select qs') (List.mem_flatten.mpr ⟨_, List.mem_map_of_mem he, by rw [c1]; simp⟩) ⟨qs, rfl⟩ qs' rfl
    have hmemc : ∀ e ∈ chunks, e = e0 ∨ ¬ advPrefix <+: e.2 := by
      intro e he
      rw [hsplit] at he
      simp only [List.mem_append, List.mem_cons] at he
      rcases he with he | rfl | he
      · exact Or.inr (hpre' e he)
      · exact Or.inl rfl
      · exact Or.inr (hpost e he)
    have hsame : ∀ m, (∀ q ∈ lastEqualities out, ReqHolds q m) ↔ ∀ q ∈ qs, ReqHolds q m := by
      intro m
      rw [byKey_holds b2 m, lastEqualities_eq a4.1]
    refine ⟨out, Or.inr ⟨pre.map Prod.snd, sel, post.map Prod.snd, ?_, ?_, b1⟩, ⟨hsc, ?_⟩, hops, hkeys, fun m => ⟨hknown m, fun hm => ⟨?_, ?_⟩⟩⟩
    · rw [hparts, hsplit, List.map_append, List.map_cons, a2]
      rfl
    · intro p hp
      obtain ⟨e, he, rfl⟩ := List.mem_map.mp hp
      exact hpre' e he
    · intro c hc _ hop
      obtain ⟨q, d1, d2, d3, d4⟩ := byKey_same b2 c hc
      rw [d3] at hop
      obtain ⟨v, v1, v2⟩ := (hq q d1).2 hop
      exact ⟨v, (d4 v).mpr v1, v2⟩
    · intro hk c hc
      obtain ⟨l, hl, hcl⟩ := List.mem_flatten.mp hc
      obtain ⟨e, he, rfl⟩ := List.mem_map.mp hl
      rcases hmemc e he with rfl | hn
      · rw [a1, List.mem_singleton] at hcl
        subst hcl
        exact (hsame m).mp fun q hq' => hk.2 q hq' (Or.inl (hkeys q (lastEqualities_subset _ q hq')))
      · have := hk.1 e.2 (by rw [hparts]; exact List.mem_map_of_mem he) hn
        rw [hm1] at this
        exact (chunk_match hm (h1 e he)).2.2.mp this c hcl
    · intro hall
      refine ⟨fun p hp _ => ?_, fun q hq' _ => (hsame m).mpr (hall (.select qs) (hin e0 he0m _ (by rw [a1]; simp))) q hq'⟩
      rw [hparts] at hp
      obtain ⟨e, he, rfl⟩ := List.mem_map.mp hp
      rw [hm1]
      exact (chunk_match hm (h1 e he)).2.2.mpr fun c hc => hall c (hin e he c hc)

end Ckube

import Verif.Lemmas.SearchText
import Verif.Props.Search
import Verif.Props.SelectorGrammar
import Verif.Props.ProxyList

/-! # C126: search texts are read as what they say -/

namespace Ckube
open Spec

/-! ## Helpers -/

theorem negation_parse (neg : Bool) {v : Str} (hv : ∀ r, v ≠ 33 :: r) : parseValue (negation neg ++ v) = (v, neg) := by
  cases neg with
  | true => rfl
  | false =>
    show parseValue v = (v, false)
    apply parseValue_plain
    cases v with
    | nil => simp
    | cons a r =>
      intro h
      simp only [List.head?_cons, Option.some.injEq] at h
      exact hv r (by rw [h])

/-- What stands before the first quote. -/
theorem before_quote : ∀ {t v post r : Str}, (34 : UInt8) ∉ t → (34 : UInt8) ∉ v → t ++ 34 :: post = v ++ 34 :: r → t = v
  | [], [], _, _, _, _, _ => rfl
  | [], b :: v, _, _, _, hv, h => by
    simp only [List.nil_append, List.cons_append, List.cons.injEq] at h
    exact absurd (by rw [h.1]; simp) hv
  | a :: t, [], _, _, ht, _, h => by
    simp only [List.nil_append, List.cons_append, List.cons.injEq] at h
    exact absurd (by rw [h.1]; simp) ht
  | a :: t, b :: v, _, _, ht, hv, h => by
    simp only [List.cons_append, List.cons.injEq] at h
    rw [h.1, before_quote (fun hm => ht (List.mem_cons_of_mem _ hm)) (fun hm => hv (List.mem_cons_of_mem _ hm)) h.2]

theorem quote_printable {isPrint : Nat → Bool} {v : Str} (hv : Printable isPrint v) : quote isPrint v = [34] ++ v ++ [34] := by
  rw [quote, hv.1]

/-- The text is found in the quoted form of a printable value exactly if the value contains it. -/
theorem contains_part {isPrint : Nat → Bool} {v t : Str} (hv : Printable isPrint v) (ht : (34 : UInt8) ∉ t) :
    contains (quote isPrint v) t = true ↔ t <:+: v := by
  rw [contains_iff, quote_printable hv]
  exact infix_of_wrapped ht

/-- The quoted text is found in the quoted form of a printable value exactly if it is the value. -/
theorem contains_whole {isPrint : Nat → Bool} {v t : Str} (hv : Printable isPrint v) (ht : (34 : UInt8) ∉ t) :
    contains (quote isPrint v) (34 :: (t ++ [34])) = true ↔ v = t := by
  rw [contains_iff, quote_printable hv]
  constructor
  · rintro ⟨pre, post, h⟩
    simp only [List.append_assoc, List.cons_append, List.nil_append] at h
    match pre with
    | [] =>
      simp only [List.nil_append, List.cons.injEq, true_and] at h
      exact (before_quote ht hv.2.1 h).symm
    | p :: pre =>
      exfalso
      simp only [List.cons_append, List.cons.injEq] at h
      obtain ⟨-, h⟩ := h
      -- the quotes of the text would both be the last byte
      have h34 : v ++ [34] = pre ++ 34 :: (t ++ 34 :: post) := h.symm
      rcases List.append_eq_append_iff.mp h34 with ⟨c, h1, h2⟩ | ⟨c, h1, h2⟩
      · have hl := congrArg List.length h2
        simp only [List.length_append, List.length_cons, List.length_nil] at hl
        omega
      · cases c with
        | nil =>
          have hl := congrArg List.length h2
          simp only [List.length_append, List.length_cons, List.length_nil] at hl
          omega
        | cons c0 c =>
          simp only [List.cons_append, List.cons.injEq] at h2
          exact hv.2.1 (by rw [h1, ← h2.1]; simp)
  · rintro rfl
    exact ⟨[], [], by simp⟩

theorem indexKey_eq {k : Str} (h : IndexKey k) : (61 : UInt8) ∉ k :=
  fun hm => absurd (h.2 _ hm) (by decide)

theorem indexKey_adv {k r : Str} (h : IndexKey k) : ¬ advPrefix <+: k ++ 61 :: r := by
  intro hp
  have h58 : (58 : UInt8) ∉ k := fun hm => absurd (h.2 _ hm) (by decide)
  have hadv : advPrefix = lit "__ckube_as__" ++ [58] := by decide
  have h61 : (61 : UInt8) ∉ lit "__ckube_as__" := by decide
  obtain ⟨t, ht⟩ := hp
  rw [hadv, List.append_assoc] at ht
  rcases List.append_eq_append_iff.mp ht with ⟨c, h1, h2⟩ | ⟨c, h1, h2⟩
  · cases c with
    | nil => simp at h2
    | cons c0 c =>
      simp only [List.cons_append, List.nil_append, List.cons.injEq] at h2
      exact h58 (by rw [h1, h2.1]; simp)
  · cases c with
    | nil => simp at h2
    | cons c0 c =>
      simp only [List.cons_append, List.cons.injEq] at h2
      exact h61 (by rw [h1, h2.1]; simp)

theorem bang_key {k r : Str} (h : IndexKey k) : ∀ x, k ++ r ≠ 33 :: x := by
  intro x hx
  cases k with
  | nil => exact h.1 rfl
  | cons a k =>
    simp only [List.cons_append, List.cons.injEq] at hx
    exact absurd (h.2 a (by simp)) (by rw [hx.1]; decide)

theorem decide_neg {p : Prop} {b neg : Bool} (h : b = true ↔ p) : (if neg then !b else b) = true ↔ (neg = false ↔ p) := by
  cases neg <;> cases b <;> simp_all

/-- One condition. -/
theorem cond_match {isPrint : Nat → Bool} {m : List (Str × Str)} (hm : ∀ e ∈ m, Printable isPrint e.2) {c : Cond} {x part : Str} (hc : CondSays c x)
    (hne : x ≠ []) (htrim : trimSpace part = x) :
    (match1 isPrint m part = none ↔ ¬ CondKnown m c) ∧ (match1 isPrint m part = some true ↔ CondHolds m c) := by
  have hkey : ∀ {k : Str}, ∀ v, lookup k m = some v → Printable isPrint v := by
    intro k v hv
    exact hm (k, v) (mem_of_lookup hv)
  cases hc with
  | @text neg t hs heq hadv =>
    have hadv' : ¬ advPrefix <+: negation neg ++ t := by
      cases neg with
      | false => exact hadv rfl
      | true =>
        rintro ⟨r, hr⟩
        have := congrArg List.head? hr
        revert this
        simp [advPrefix, negation, lit]
    have heq' : (61 : UInt8) ∉ negation neg ++ t := by
      cases neg with
      | false => exact heq
      | true => simpa [negation, lit] using heq
    rw [match1_text (Or.inl ⟨htrim, hne, heq'⟩) hadv', negation_parse neg hs.2]
    have hany : m.any (fun e => contains (quote isPrint e.2) t) = true ↔ ∃ k v, (k, v) ∈ m ∧ t <:+: v := by
      rw [List.any_eq_true]
      constructor
      · rintro ⟨⟨k, v⟩, h1, h2⟩
        exact ⟨k, v, h1, (contains_part (hm _ h1) hs.1).mp h2⟩
      · rintro ⟨k, v, h1, h2⟩
        exact ⟨(k, v), h1, (contains_part (hm _ h1) hs.1).mpr h2⟩
    refine ⟨by simp [CondKnown], ?_⟩
    rw [CondHolds, ← hany]
    cases m.any (fun e => contains (quote isPrint e.2) t) <;> cases neg <;> simp
  | @part k v neg hk hs =>
    rw [match1_key htrim hk.1 (indexKey_eq hk) (indexKey_adv hk), negation_parse neg hs.2]
    cases hl : lookup k m with
    | none => simp [CondKnown, CondHolds, hl]
    | some iv =>
      refine ⟨by simp [CondKnown, hl], ?_⟩
      simp only [Option.map_some, Option.some.injEq, CondHolds, hl, exists_eq_left']
      exact decide_neg (contains_part (hkey iv hl) hs.1)
  | @whole k v neg hk hs =>
    rw [match1_key htrim hk.1 (indexKey_eq hk) (indexKey_adv hk), negation_parse neg (by intro r h; simp at h)]
    cases hl : lookup k m with
    | none => simp [CondKnown, CondHolds, hl]
    | some iv =>
      refine ⟨by simp [CondKnown, hl], ?_⟩
      simp only [Option.map_some, Option.some.injEq, CondHolds, hl, exists_eq_left']
      exact decide_neg (contains_whole (hkey iv hl) hs)
  | @select sel qs hsel hsays hplain =>
    obtain ⟨b, h1, h2⟩ := C120_search_partial isPrint m htrim hsel hsays hplain.2
    rw [h1]
    refine ⟨by simp [CondKnown], ?_⟩
    rw [lastEqualities_eq hplain.1] at h2
    rw [CondHolds, ← h2]
    simp

theorem chunk_match {isPrint : Nat → Bool} {m : List (Str × Str)} (hm : ∀ e ∈ m, Printable isPrint e.2) {cs : List Cond} {p : Str} (h : ChunkSays cs p) :
    p ≠ [] ∧ (match1 isPrint m p = none ↔ ∃ c ∈ cs, ¬ CondKnown m c) ∧ (match1 isPrint m p = some true ↔ ∀ c ∈ cs, CondHolds m c) := by
  cases h with
  | nothing ha hne =>
    have : match1 isPrint m p = some true := by
      unfold match1
      simp only [trimSpace_spaces ha, if_true]
    rw [this]
    exact ⟨hne, by simp, by simp⟩
  | @cond a x b c ha hc hx hb =>
    have := cond_match hm hc hx.1 (trimSpace_solid ha hx hb)
    refine ⟨?_, ?_, ?_⟩
    · intro h
      exact hx.1 (by
        have h1 := List.append_eq_nil_iff.mp h
        exact (List.append_eq_nil_iff.mp h1.1).2)
    · rw [this.1]; simp
    · rw [this.2]; simp

theorem joinParts_doubled (ps : List Str) : joinParts ps = [59].intercalate (ps.map doubled) := by
  rw [joinParts]
  have h1 : (double : Str → Str) = doubled := rfl
  rw [h1]
  exact join_intercalate _ _

/-- The parts of a search text. -/
theorem search_parts {chunks : List (List Cond × Str)} (hne : ∀ e ∈ chunks, e.2 ≠ []) (hsep : ∀ e ∈ chunks.tail, ∀ r, e.2 ≠ 59 :: r) :
    searchParts ([59].intercalate (chunks.map fun e => doubled e.2)) = chunks.map Prod.snd := by
  have h1 : (chunks.map fun e => doubled e.2) = (chunks.map Prod.snd).map doubled := by rw [List.map_map]; rfl
  rw [h1, ← joinParts_doubled]
  refine C09_parts_roundtrip_partial _ ?_ ?_
  · intro p hp
    obtain ⟨e, he, rfl⟩ := List.mem_map.mp hp
    exact hne e he
  · intro p hp
    rw [← List.map_tail] at hp
    obtain ⟨e, he, rfl⟩ := List.mem_map.mp hp
    exact hsep e he

/-! ## C126 -/

/-- **C126**: a search whose text says the conditions `cs` is rejected exactly when one of them names an index that the object does not have, and accepts
exactly the objects for which all of them hold. Missing for the full claim: index values that `strconv.Quote` does not leave as they are (`C14_false`,
`C15_false`), sought texts with `"` in them or with `!` first, several equalities for one index, and a `;` at the end (`C126_false_end`). -/
theorem C126_read_partial {isPrint : Nat → Bool} {m : List (Str × Str)} (hm : ∀ e ∈ m, Printable isPrint e.2) {cs : List Cond} {page : Paginate}
    (h : SearchSays cs page.search) :
    (page.matches isPrint m = none ↔ ∃ c ∈ cs, ¬ CondKnown m c) ∧ (page.matches isPrint m = some true ↔ ∀ c ∈ cs, CondHolds m c) := by
  obtain ⟨chunks, h1, h2, rfl, h4⟩ := h
  rw [Paginate.matches, h4, search_parts (fun e he => (chunk_match hm (h1 e he)).1) h2]
  obtain ⟨g1, g2⟩ := C10_conjunction isPrint m (chunks.map Prod.snd)
  rw [g1, g2]
  have hm1 : ∀ p, matchParts isPrint m [p] = match1 isPrint m p := fun _ => rfl
  simp only [hm1, List.mem_map, List.mem_flatten]
  constructor
  · constructor
    · rintro ⟨_, ⟨e, he, rfl⟩, hn⟩
      obtain ⟨c, hc, hk⟩ := (chunk_match hm (h1 e he)).2.1.mp hn
      exact ⟨c, ⟨_, ⟨e, he, rfl⟩, hc⟩, hk⟩
    · rintro ⟨c, ⟨_, ⟨e, he, rfl⟩, hc⟩, hk⟩
      exact ⟨_, ⟨e, he, rfl⟩, (chunk_match hm (h1 e he)).2.1.mpr ⟨c, hc, hk⟩⟩
  · constructor
    · rintro h c ⟨_, ⟨e, he, rfl⟩, hc⟩
      exact (chunk_match hm (h1 e he)).2.2.mp (h _ ⟨e, he, rfl⟩) c hc
    · rintro h _ ⟨e, he, rfl⟩
      exact (chunk_match hm (h1 e he)).2.2.mpr fun c hc => h c ⟨_, ⟨e, he, rfl⟩, hc⟩

/-- **C126** for the cache: an unpaged query whose search text says the conditions `cs` is answered, if without error, with exactly the cached objects of the type
and namespace whose index satisfies all of them, each once. -/
theorem C126_listed_partial {isPrint : Nat → Bool} {eval : Str → Obj → Str} {conf : List (GVR × List (Str × Str))} {h : List Notice} {s : Store}
    (hconf : ConfOK conf) (hrun : (newStore conf).run eval h = some s) (g : GVR) (q : Query) {cs : List Cond} (hs : SearchSays cs q.page.search)
    (hprint : ∀ id o idx, Latest eval (confAt conf) h id o → id.gvr = g → IsIndex eval (confAt conf g) id.cluster o idx → ∀ e ∈ idx, Printable isPrint e.2)
    (hsize : q.page.pageSize = 0) (res : QueryResult) (hans : s.mayAnswer isPrint alg pf g q (some res)) (hok : res.error = false) :
    ∃ found : List (Ident × Obj × Obj), (found.map Prod.fst).Nodup
      ∧ (∀ id o, (∃ o', (id, o, o') ∈ found) ↔ Latest eval (confAt conf) h id o ∧ id.gvr = g ∧ (q.ns = [] ∨ q.ns = id.ns)
          ∧ ∃ idx, IsIndex eval (confAt conf g) id.cluster o idx ∧ ∀ c ∈ cs, CondHolds idx c)
      ∧ (∀ e ∈ found, s.get e.1.gvr e.1.cluster e.1.ns e.1.name = some e.2.2)
      ∧ res.items = found.map (fun e => e.2.2) ∧ res.total = found.length := by
  obtain ⟨found, h1, h2, h3⟩ := C23_exact hconf hrun g q hsize res hans hok
  refine ⟨found, h1, fun id o => ?_, h3⟩
  rw [h2, Matching]
  constructor
  · rintro ⟨a, b, c, idx, d, e⟩
    exact ⟨a, b, c, idx, d, (C126_read_partial (hprint id o idx a b d) hs).2.mp e⟩
  · rintro ⟨a, b, c, idx, d, e⟩
    exact ⟨a, b, c, idx, d, (C126_read_partial (hprint id o idx a b d) hs).2.mpr e⟩

/-! ## Examples and refutations -/

theorem spaces_nil : Spaces [] := ⟨[], rfl, by simp⟩

theorem solid_of {x : Str} (hne : x ≠ []) (h : whiteSpace.all (fun w => !decide (w <+: x) && !decide (w <:+ x)) = true) : Solid x := by
  refine ⟨hne, fun w hw => ?_⟩
  have := List.all_eq_true.mp h w hw
  simpa using this

theorem sought_of {v : Str} (h1 : (34 : UInt8) ∉ v) (h2 : v.head? ≠ some 33) : Sought v := by
  refine ⟨h1, ?_⟩
  rintro r rfl
  exact h2 rfl

theorem indexKey_of {k : Str} (h1 : k ≠ [])
    (h2 : k.all (fun b => decide (b ∈ lit "abcdefghijklmnopqrstuvwxyzABCDEFGHIJKLMNOPQRSTUVWXYZ0123456789-_.")) = true) : IndexKey k :=
  ⟨h1, fun b hb => by simpa using List.all_eq_true.mp h2 b hb⟩

/-- The text of the example below. -/
def exSearchText : Str := lit " we ;ns=a;;b; ;name=!\"db\"; __ckube_as__:zone!=x\t"

/-- The search `we ;ns=a;;b; ;name=!"db"; __ckube_as__:zone!=x` says four conditions: `we` somewhere, `a;b` in `ns`, a name other than `db` and no zone `x`. -/
theorem exSearchText_says : SearchSays [.text false (lit "we"), .part (lit "ns") false (lit "a;b"), .whole (lit "name") true (lit "db"), .select [⟨lit "zone", .neq, [lit "x"]⟩]]
    exSearchText := by
  have hsel : SelectorSays [⟨lit "zone", .neq, [lit "x"]⟩] (lit "zone!=x") :=
    .one (a := []) (b := []) blank_nil (TermSays.compare (k := lit "zone") (a := []) (u := lit "!=") (b := []) (v := lit "x") (legal_key.mpr (by decide +kernel)) blank_nil
      (by decide +kernel) blank_nil (legal_value.mpr (by decide +kernel)) (by simp)) blank_nil
  have sp : Spaces (lit " ") := ⟨[[32]], by decide, by decide⟩
  have tab : Spaces (lit "\t") := ⟨[[9]], by decide, by decide⟩
  refine ⟨[([.text false (lit "we")], lit " we "), ([.part (lit "ns") false (lit "a;b")], lit "ns=a;b"), ([], lit " "),
    ([.whole (lit "name") true (lit "db")], lit "name=!\"db\""), ([.select [⟨lit "zone", .neq, [lit "x"]⟩]], lit " __ckube_as__:zone!=x\t")], ?_, ?_, rfl, by decide +kernel⟩
  · intro e he
    simp only [List.mem_cons, List.not_mem_nil, or_false] at he
    rcases he with rfl | rfl | rfl | rfl | rfl
    · exact .cond (a := lit " ") (x := lit "we") (b := lit " ") sp (.text (neg := false) (sought_of (by decide) (by decide)) (by decide) (fun _ => by decide +kernel))
        (solid_of (by decide) (by decide +kernel)) sp
    · exact .cond (a := []) (x := lit "ns=a;b") (b := []) spaces_nil (.part (k := lit "ns") (neg := false) (v := lit "a;b") (indexKey_of (by decide) (by decide +kernel))
        (sought_of (by decide) (by decide))) (solid_of (by decide) (by decide +kernel)) spaces_nil
    · exact .nothing sp (by decide)
    · exact .cond (a := []) (x := lit "name=!\"db\"") (b := []) spaces_nil (.whole (k := lit "name") (neg := true) (v := lit "db") (indexKey_of (by decide) (by decide +kernel))
        (by decide)) (solid_of (by decide) (by decide +kernel)) spaces_nil
    · exact .cond (a := lit " ") (x := lit "__ckube_as__:zone!=x") (b := lit "\t") sp (.select (sel := lit "zone!=x") (by decide) hsel ⟨by simp, by simp⟩)
        (solid_of (by decide) (by decide +kernel)) tab
  · intro e he r
    simp only [List.tail_cons, List.mem_cons, List.not_mem_nil, or_false] at he
    rcases he with rfl | rfl | rfl | rfl <;> simp [lit]

/-- It accepts an object of which all four hold, and not one that is called `db`; an object without `ns` is rejected. -/
example : let ok := fun m => Paginate.matches (fun _ => true) { search := exSearchText } m
    ok [(lit "name", lit "web"), (lit "ns", lit "xa;by")] = some true ∧ ok [(lit "name", lit "db"), (lit "ns", lit "xa;bwe")] = some false
    ∧ ok [(lit "name", lit "web")] = none ∧ (∀ e ∈ [(lit "name", lit "web"), (lit "ns", lit "xa;by")], Printable (fun _ => true) e.2) := by
  unfold Printable
  decide +kernel

/-- **C126 is false** for a semicolon at the end, although it separates nothing: `name=we;` looks for `we;`. -/
theorem C126_false_end : SearchSays [.part (lit "name") false (lit "we")] (lit "name=we")
    ∧ Paginate.matches (fun _ => true) { search := lit "name=we" } [(lit "name", lit "web")] = some true
    ∧ Paginate.matches (fun _ => true) { search := lit "name=we;" } [(lit "name", lit "web")] = some false := by
  refine ⟨⟨[([.part (lit "name") false (lit "we")], lit "name=we")], ?_, by simp, rfl, by decide⟩, by decide +kernel, by decide +kernel⟩
  intro e he
  simp only [List.mem_cons, List.not_mem_nil, or_false] at he
  subst he
  exact .cond (a := []) (x := lit "name=we") (b := []) spaces_nil (.part (k := lit "name") (neg := false) (v := lit "we") (indexKey_of (by decide) (by decide +kernel))
    (sought_of (by decide) (by decide))) (solid_of (by decide) (by decide +kernel)) spaces_nil

/-- **C126 is false** for the clusters of a request whose search has a blank before the selector, as in the example of PAGINATE_SPEC.md: the cluster that
`name=w; __ckube_as__:cluster in (c2)` asks for is not seen, the default cluster is required as well, and nothing is listed although `web` of `c2` is cached. -/
theorem C126_false_cluster :
    let q := lit "labelSelector=ckube.daocloud.io%2Fquery+notin+%280000.eyJzZWFyY2giOiJuYW1lPXc7IF9fY2t1YmVfYXNfXzpjbHVzdGVyIGlu%2C0056.IChjMikifQ%29"
    let q' := lit "labelSelector=ckube.daocloud.io%2Fquery+notin+%280000.eyJzZWFyY2giOiJuYW1lPXc7X19ja3ViZV9hc19fOmNsdXN0ZXIgaW4g%2C0056.KGMyKSJ9%29"
    (parseQuery q).map (fun e => (parseSelector (e.2.headD [])).map SelInfo.paginate) = [some { search := lit "name=w; __ckube_as__:cluster in (c2)" }]
    ∧ (parseQuery q').map (fun e => (parseSelector (e.2.headD [])).map SelInfo.paginate) = [some { search := lit "name=w;__ckube_as__:cluster in (c2)" }]
    ∧ proxy exEnv exStore (fun _ m => m) (parseQuery q) { exSearched with rawQuery := q } = .list (lit "v1") [] (lit "/api/v1/pods") 0 []
    ∧ proxy exEnv exStore (fun _ m => m) (parseQuery q') { exSearched with rawQuery := q' }
      = .list (lit "v1") [] (lit "/api/v1/pods") 0 ((exStore.get exPods (lit "c2") (lit "prod") (lit "web")).toList)
    ∧ (exStore.get exPods (lit "c2") (lit "prod") (lit "web")).isSome = true := by
  decide +kernel

end Ckube

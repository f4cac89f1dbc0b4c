import Verif.Lemmas.Search

/-! # C09–C15: the search language

`isPrint` is `strconv.IsPrint` above ASCII; every theorem holds for every such table. An index
map is an association list; its order is the order in which the map is iterated. -/

namespace Ckube

/-- **C09**: splitting a search made from non-empty parts gives the parts back. Missing for the
full claim: lists with a part other than the first that starts with `;`, for which it is false
(`C09_false`). -/
theorem C09_parts_roundtrip_partial (parts : List Str) (hne : ∀ p ∈ parts, p ≠ [])
    (hsep : ∀ p ∈ parts.tail, ∀ r, p ≠ 59 :: r) : searchParts (joinParts parts) = parts := by
  refine searchParts_join hne ?_
  intro p hp hh
  cases p with
  | nil => simp at hh
  | cons a r =>
    simp only [List.head?_cons, Option.some.injEq] at hh
    exact hsep _ hp r (by rw [hh]; rfl)

/-- Parts with semicolons at the start (of the first), inside, and at the end. -/
example : (∀ p ∈ [lit ";;a", lit "b;;;", lit "c;d;"], p ≠ [])
    ∧ joinParts [lit ";;a", lit "b;;;", lit "c;d;"] = lit ";;;;a;b;;;;;;;c;;d;;"
    ∧ searchParts (joinParts [lit ";;a", lit "b;;;", lit "c;d;"]) = [lit ";;a", lit "b;;;", lit "c;d;"] :=
  ⟨by decide +kernel, by decide +kernel, C09_parts_roundtrip_partial _ (by decide +kernel) (by
    intro p hp r
    simp only [List.tail_cons, List.mem_cons, List.not_mem_nil, or_false] at hp
    rcases hp with rfl | rfl <;> simp [lit])⟩

/-- **C09 is false** for a later part that starts with `;`: the semicolon moves to the part
before. -/
theorem C09_false : searchParts (joinParts [lit "a", lit ";b"]) = [lit "a;", lit "b"] := by
  decide +kernel

theorem rawParts_first : ∀ (s : Str) (b : Bool) (cur : Str), ∃ t ps, rawParts b cur s = (cur ++ t) :: ps
  | [], b, cur => ⟨[], [], by cases b <;> simp [rawParts]⟩
  | c :: r, true, cur => by
    obtain ⟨t, ps, h⟩ := rawParts_first r false (cur ++ [c])
    exact ⟨c :: t, ps, by rw [rawParts, h]; simp⟩
  | c :: r, false, cur => by
    have one : ∀ b, ∃ t ps, rawParts b (cur ++ [c]) r = (cur ++ t) :: ps := fun b => by
      obtain ⟨t, ps, h⟩ := rawParts_first r b (cur ++ [c])
      exact ⟨c :: t, ps, by rw [h]; simp⟩
    simp only [rawParts]
    split
    · split
      · exact one _
      · split
        · exact one _
        · exact ⟨[], _, by rw [List.append_nil]⟩
    · exact one _

/-- After a separator comes something else than a semicolon. -/
theorem rawParts_tail : ∀ (s : Str) (b : Bool) (cur : Str), ∀ p ∈ (rawParts b cur s).tail, ∃ c t, p = c :: t ∧ c ≠ partsSep
  | [], b, cur => by cases b <;> simp [rawParts]
  | c :: r, true, cur => by
    rw [rawParts]
    exact rawParts_tail r false _
  | c :: r, false, cur => by
    simp only [rawParts]
    split
    · split
      · exact rawParts_tail r false _
      · next d hd =>
        split
        · exact rawParts_tail r true _
        · next hne =>
          rw [List.tail_cons]
          cases r with
          | nil => simp at hd
          | cons d' r =>
            obtain rfl : d' = d := by simpa using hd
            intro p hp
            have e : rawParts false [] (d' :: r) = rawParts false [d'] r := by
              rw [rawParts, if_neg hne]
              rfl
            rw [e] at hp
            obtain ⟨t, ps, h⟩ := rawParts_first r false [d']
            rw [h] at hp
            rcases List.mem_cons.1 hp with rfl | hp
            · exact ⟨d', t, rfl, hne⟩
            · exact rawParts_tail r false [d'] p (by rw [h]; exact hp)
    · exact rawParts_tail r false _

/-- **C09**, exactly: the parts come back if and only if none is empty and none but the first starts with a semicolon. -/
theorem C09_exact (parts : List Str) :
    searchParts (joinParts parts) = parts ↔ (∀ p ∈ parts, p ≠ []) ∧ ∀ p ∈ parts.tail, ∀ r, p ≠ 59 :: r := by
  constructor
  · intro h
    constructor
    · intro p hp
      rw [← h] at hp
      have := (List.mem_filter.1 hp).2
      simpa [List.isEmpty_iff] using this
    · intro p hp r
      have key : ∀ s : Str, ∀ p ∈ (searchParts s).tail, ∀ r, p ≠ 59 :: r := by
        intro s p hp r
        obtain ⟨t, ps, h1⟩ := rawParts_first s false []
        have h2 := rawParts_tail s false []
        rw [h1, List.tail_cons] at h2
        have hp' : p ∈ ps.map (undouble false) := by
          rw [searchParts, h1, List.map_cons] at hp
          by_cases he : (!(undouble false ([] ++ t)).isEmpty) = true
          · rw [List.filter_cons_of_pos (by exact he), List.tail_cons] at hp
            exact (List.mem_filter.1 hp).1
          · rw [List.filter_cons_of_neg (by exact he)] at hp
            exact (List.mem_filter.1 (List.mem_of_mem_tail hp)).1
        obtain ⟨q, hq, rfl⟩ := List.mem_map.1 hp'
        obtain ⟨c, u, rfl, hc⟩ := h2 q hq
        simp only [undouble, hc, false_and, if_false]
        intro e
        exact hc (List.cons.inj e).1
      exact key (joinParts parts) p (by rw [h]; exact hp) r
  · rintro ⟨h1, h2⟩
    exact C09_parts_roundtrip_partial parts h1 h2

/-- **C10**: a search is erroneous exactly when one of its parts is, and accepts an object
exactly when every part accepts it. -/
theorem C10_conjunction (isPrint : Nat → Bool) (m : List (Str × Str)) (parts : List Str) :
    (matchParts isPrint m parts = none ↔ ∃ p ∈ parts, matchParts isPrint m [p] = none)
    ∧ (matchParts isPrint m parts = some true ↔ ∀ p ∈ parts, matchParts isPrint m [p] = some true) := by
  have gen : ∀ ps : List Str, (((matchLoop isPrint m ps 0).map (fun n => n = ps.length) : Option Bool) = none ↔
      ∃ p ∈ ps, match1 isPrint m p = none) ∧
      (((matchLoop isPrint m ps 0).map (fun n => n = ps.length) : Option Bool) = some true ↔
      ∀ p ∈ ps, match1 isPrint m p = some true) := by
    intro ps
    refine ⟨by rw [Option.map_eq_none_iff]; exact matchLoop_none isPrint m ps 0, ?_⟩
    cases h : matchLoop isPrint m ps 0 with
    | none =>
      obtain ⟨p, hp, hn⟩ := (matchLoop_none isPrint m ps 0).mp h
      simp only [Option.map_none, reduceCtorEq, false_iff]
      intro hall
      rw [hall p hp] at hn
      simp at hn
    | some k =>
      have := (matchLoop_some isPrint m ps 0 k h).2.2
      rw [Nat.zero_add] at this
      simpa using this
  show (matchParts isPrint m parts = none ↔ ∃ p ∈ parts, match1 isPrint m p = none)
    ∧ (matchParts isPrint m parts = some true ↔ ∀ p ∈ parts, match1 isPrint m p = some true)
  match parts with
  | [] => exact gen []
  | [p] => simp [matchParts]
  | p :: q :: ps => exact gen (p :: q :: ps)

/-- **C10** on the search text of a request: a search built from parts is their conjunction. -/
theorem C10_search_text (isPrint : Nat → Bool) (m : List (Str × Str)) (page : Paginate)
    (parts : List Str) (hne : ∀ p ∈ parts, p ≠ []) (hsep : ∀ p ∈ parts.tail, ∀ r, p ≠ 59 :: r)
    (hs : page.search = joinParts parts) :
    page.matches isPrint m = some true ↔ ∀ p ∈ parts, matchParts isPrint m [p] = some true := by
  rw [Paginate.matches, hs, C09_parts_roundtrip_partial parts hne hsep]
  exact (C10_conjunction isPrint m parts).2

/-- Two parts that match, two of which one does not, and an erroneous one. -/
example : let m := [(lit "name", lit "web"), (lit "ns", lit "prod")]
    Paginate.matches (fun _ => true) { search := lit "name=we;pro" } m = some true
    ∧ Paginate.matches (fun _ => true) { search := lit "name=we;dev" } m = some false
    ∧ Paginate.matches (fun _ => true) { search := lit "name=we;zone=a" } m = none := by
  decide +kernel

/-- **C11**: `key=value` (with any surrounding blanks) is rejected exactly when the object has no
index `key`, and accepts exactly the objects whose quoted index contains `value`. -/
theorem C11_key_value (isPrint : Nat → Bool) (m : List (Str × Str)) (part key value : Str)
    (htrim : trimSpace part = key ++ lit "=" ++ value) (hkey : key ≠ []) (heq : (61 : UInt8) ∉ key)
    (hadv : ¬ advPrefix <+: key ++ lit "=" ++ value) (hbang : ∀ r, value ≠ lit "!" ++ r) :
    (matchParts isPrint m [part] = none ↔ lookup key m = none)
    ∧ (matchParts isPrint m [part] = some true ↔
        ∃ v pre post, lookup key m = some v ∧ quote isPrint v = pre ++ value ++ post) := by
  have e : key ++ lit "=" ++ value = key ++ 61 :: value := by simp [lit]
  rw [e] at htrim hadv
  have hv : parseValue value = (value, false) := by
    apply parseValue_plain
    cases value with
    | nil => simp
    | cons a r =>
      intro h
      simp only [List.head?_cons, Option.some.injEq] at h
      exact hbang r (by rw [h]; rfl)
  simp only [matchParts]
  rw [match1_key htrim hkey heq hadv, hv]
  cases lookup key m with
  | none => simp
  | some v =>
    simp only [Option.map_some, Bool.false_eq_true, if_false, reduceCtorEq, Option.some.injEq,
      exists_and_left, exists_eq_left', contains_iff, true_and]
    constructor
    · rintro ⟨a, b, h⟩; exact ⟨a, b, h.symm⟩
    · rintro ⟨a, b, h⟩; exact ⟨a, b, h.symm⟩

/-- A part with blanks around it and inside the value. -/
example : trimSpace (lit "  name=a b ") = lit "name" ++ lit "=" ++ lit "a b" ∧ lit "name" ≠ []
    ∧ (61 : UInt8) ∉ lit "name" ∧ ¬ advPrefix <+: lit "name" ++ lit "=" ++ lit "a b"
    ∧ matchParts (fun _ => true) [(lit "name", lit "xa by")] [lit "  name=a b "] = some true := by
  decide +kernel

/-- **C12**: a part without `=` accepts exactly the objects for which some quoted index value
contains the text; it is never rejected. -/
theorem C12_fuzzy (isPrint : Nat → Bool) (m : List (Str × Str)) (part text : Str)
    (htrim : trimSpace part = text) (hne : text ≠ []) (heq : (61 : UInt8) ∉ text)
    (hadv : ¬ advPrefix <+: text) (hbang : ∀ r, text ≠ lit "!" ++ r) :
    ∃ b, matchParts isPrint m [part] = some b ∧
      (b = true ↔ ∃ k v pre post, (k, v) ∈ m ∧ quote isPrint v = pre ++ text ++ post) := by
  have hv : parseValue text = (text, false) := by
    apply parseValue_plain
    cases text with
    | nil => simp
    | cons a r =>
      intro h
      simp only [List.head?_cons, Option.some.injEq] at h
      exact hbang r (by rw [h]; rfl)
  simp only [matchParts]
  rw [match1_text (Or.inl ⟨htrim, hne, heq⟩) hadv, hv]
  refine ⟨_, rfl, ?_⟩
  simp only [Bool.not_false, Bool.if_false_right, Bool.and_true, decide_eq_true_eq, List.any_eq_true,
    contains_iff]
  constructor
  · rintro ⟨⟨k, v⟩, hm, a, b, h⟩; exact ⟨k, v, a, b, hm, h.symm⟩
  · rintro ⟨k, v, a, b, hm, h⟩; exact ⟨(k, v), hm, a, b, h.symm⟩

/-- **C12**, second half: no search verdict depends on the iteration order of the map. -/
theorem C12_order_independent (isPrint : Nat → Bool) (page : Paginate) (m m' : List (Str × Str))
    (hmap : (m.map Prod.fst).Nodup) (hp : m.Perm m') :
    page.matches isPrint m = page.matches isPrint m' := by
  have h1 : ∀ p, match1 isPrint m p = match1 isPrint m' p := fun p => match1_perm hmap hp p
  have h2 : ∀ ps n, matchLoop isPrint m ps n = matchLoop isPrint m' ps n := by
    intro ps
    induction ps with
    | nil => intro n; rfl
    | cons p ps ih => intro n; simp only [matchLoop, h1, ih]
  unfold Paginate.matches matchParts
  split
  · exact h1 _
  · rw [h2]

/-- A fuzzy search finds a text in the second of two index values, in both iteration orders. -/
example : trimSpace (lit " ro ") = lit "ro" ∧ (61 : UInt8) ∉ lit "ro" ∧ ¬ advPrefix <+: lit "ro"
    ∧ matchParts (fun _ => true) [(lit "a", lit "x"), (lit "b", lit "prod")] [lit " ro "] = some true
    ∧ matchParts (fun _ => true) [(lit "b", lit "prod"), (lit "a", lit "x")] [lit " ro "] = some true
    ∧ matchParts (fun _ => true) [(lit "b", lit "dev"), (lit "a", lit "x")] [lit " ro "] = some false := by
  decide +kernel

/-- **C13**: `key=!value` gives the opposite verdict of `key=value` (and is rejected for the same
objects). Missing for the full claim: values that themselves start with `!`
(`C13_false_value`). -/
theorem C13_negation_key_partial (isPrint : Nat → Bool) (m : List (Str × Str))
    (part negPart key value : Str)
    (htrim : trimSpace part = key ++ lit "=" ++ value)
    (htrim' : trimSpace negPart = key ++ lit "=!" ++ value) (hkey : key ≠ [])
    (heq : (61 : UInt8) ∉ key) (hadv : ¬ advPrefix <+: key ++ lit "=" ++ value)
    (hadv' : ¬ advPrefix <+: key ++ lit "=!" ++ value)
    (hbang : ∀ r, value ≠ lit "!" ++ r) :
    matchParts isPrint m [negPart] = (matchParts isPrint m [part]).map (!·) := by
  have e : key ++ lit "=" ++ value = key ++ 61 :: value := by simp [lit]
  have e' : key ++ lit "=!" ++ value = key ++ 61 :: 33 :: value := by simp [lit]
  rw [e] at htrim hadv
  rw [e'] at htrim' hadv'
  have hv : parseValue value = (value, false) := by
    apply parseValue_plain
    cases value with
    | nil => simp
    | cons a r =>
      intro h
      simp only [List.head?_cons, Option.some.injEq] at h
      exact hbang r (by rw [h]; rfl)
  simp only [matchParts]
  rw [match1_key htrim hkey heq hadv, match1_key htrim' hkey heq hadv', hv, parseValue_bang]
  cases lookup key m <;> simp

/-- **C13** for plain text: `!text` gives the opposite verdict of `text`. Missing for the full
claim: texts that start with `!`, contain `=` (then `!` belongs to the key) or are advanced
searches (`C13_false_text`). -/
theorem C13_negation_text_partial (isPrint : Nat → Bool) (m : List (Str × Str))
    (part negPart text : Str) (htrim : trimSpace part = text) (htrim' : trimSpace negPart = lit "!" ++ text)
    (hne : text ≠ []) (heq : (61 : UInt8) ∉ text) (hadv : ¬ advPrefix <+: text)
    (hbang : ∀ r, text ≠ lit "!" ++ r) :
    matchParts isPrint m [negPart] = (matchParts isPrint m [part]).map (!·) := by
  have e' : lit "!" ++ text = 33 :: text := by simp [lit]
  rw [e'] at htrim'
  have hv : parseValue text = (text, false) := by
    apply parseValue_plain
    cases text with
    | nil => simp
    | cons a r =>
      intro h
      simp only [List.head?_cons, Option.some.injEq] at h
      exact hbang r (by rw [h]; rfl)
  have hadv' : ¬ advPrefix <+: 33 :: text := by
    rintro ⟨t, ht⟩
    simp [advPrefix, lit] at ht
  simp only [matchParts]
  rw [match1_text (Or.inl ⟨htrim, hne, heq⟩) hadv,
    match1_text (Or.inl ⟨htrim', by simp, by simp [heq]⟩) hadv', hv, parseValue_bang]
  simp

/-- A concrete pair of parts meeting the hypotheses, with both verdicts. -/
example : trimSpace (lit "name=web") = lit "name" ++ lit "=" ++ lit "web"
    ∧ trimSpace (lit "name=!web ") = lit "name" ++ lit "=!" ++ lit "web"
    ∧ ¬ advPrefix <+: lit "name" ++ lit "=!" ++ lit "web"
    ∧ matchParts (fun _ => true) [(lit "name", lit "web-1")] [lit "name=web"] = some true
    ∧ matchParts (fun _ => true) [(lit "name", lit "web-1")] [lit "name=!web "] = some false
    ∧ matchParts (fun _ => true) [(lit "name", lit "web-1")] [lit "!db"] = some true := by
  decide +kernel

/-- **C13 is false** for a value that starts with `!`: `k=!!x` and `k=!x` both accept `y`. -/
theorem C13_false_value : matchParts (fun _ => true) [(lit "k", lit "y")] [lit "k=!x"] = some true
    ∧ matchParts (fun _ => true) [(lit "k", lit "y")] [lit "k=!!x"] = some true := by decide +kernel

/-- **C13 is false** for a text that contains `=`: `!k=y` looks for the index `!k`. -/
theorem C13_false_text : matchParts (fun _ => true) [(lit "k", lit "y")] [lit "k=y"] = some true
    ∧ matchParts (fun _ => true) [(lit "k", lit "y")] [lit "!k=y"] = none := by decide +kernel

theorem infix_two {r : Str} (h : r <:+: [34, 34]) : r = [] ∨ r = [34] ∨ r = [34, 34] := by
  obtain ⟨a, b, h⟩ := h
  match r, h with
  | [], _ => exact Or.inl rfl
  | [x], h =>
    right; left
    have : x ∈ ([34, 34] : Str) := by rw [← h]; simp
    simpa using this
  | [x, y], h =>
    right; right
    have hx : x ∈ ([34, 34] : Str) := by rw [← h]; simp
    have hy : y ∈ ([34, 34] : Str) := by rw [← h]; simp
    simp only [List.mem_cons, List.not_mem_nil, or_false, or_self] at hx hy
    rw [hx, hy]
  | x :: y :: z :: t, h =>
    have := congrArg List.length h
    simp only [List.length_append, List.length_cons, List.length_nil] at this
    omega

theorem quote_nil (isPrint : Nat → Bool) : quote isPrint [] = [34, 34] := rfl
theorem quote_bang (isPrint : Nat → Bool) : quote isPrint [33] = [34, 33, 34] := rfl

/-- For every text some index value shows that `!!text` is not the negation of `!text`. -/
theorem bang_bang (isPrint : Nat → Bool) (r : Str) :
    ∃ v, contains (quote isPrint v) r = contains (quote isPrint v) (33 :: r) := by
  by_cases h : contains [34, 34] r = true
  · refine ⟨[33], ?_⟩
    rw [quote_bang]
    rcases infix_two (contains_iff.mp h) with rfl | rfl | rfl <;> decide
  · refine ⟨[], ?_⟩
    rw [quote_nil]
    have : contains [34, 34] (33 :: r) = false := by
      rw [Bool.eq_false_iff]
      intro hc
      obtain ⟨a, b, hab⟩ := contains_iff.mp hc
      have : (33 : UInt8) ∈ ([34, 34] : Str) := by rw [← hab]; simp
      revert this; decide
    rw [this]
    simpa using h

/-- **C13**, exactly: `key=!value` is the negation of `key=value` on all objects if and only if the value does not itself start with `!`. -/
theorem C13_key_exact (isPrint : Nat → Bool) (part negPart key value : Str)
    (htrim : trimSpace part = key ++ lit "=" ++ value)
    (htrim' : trimSpace negPart = key ++ lit "=!" ++ value) (hkey : key ≠ [])
    (heq : (61 : UInt8) ∉ key) (hadv : ¬ advPrefix <+: key ++ lit "=" ++ value)
    (hadv' : ¬ advPrefix <+: key ++ lit "=!" ++ value) :
    (∀ m, matchParts isPrint m [negPart] = (matchParts isPrint m [part]).map (!·)) ↔ ∀ r, value ≠ lit "!" ++ r := by
  constructor
  · rintro h r rfl
    have e : key ++ lit "=" ++ (lit "!" ++ r) = key ++ 61 :: 33 :: r := by simp [lit]
    have e' : key ++ lit "=!" ++ (lit "!" ++ r) = key ++ 61 :: 33 :: 33 :: r := by simp [lit]
    rw [e] at htrim hadv
    rw [e'] at htrim' hadv'
    obtain ⟨v, hv⟩ := bang_bang isPrint r
    have := h [(key, v)]
    simp only [matchParts] at this
    rw [match1_key htrim hkey heq hadv, match1_key htrim' hkey heq hadv', parseValue_bang, parseValue_bang] at this
    simp only [lookup, if_true, Option.map_some, Option.some.injEq, hv] at this
    revert this
    cases contains (quote isPrint v) (33 :: r) <;> simp
  · intro hb m
    exact C13_negation_key_partial isPrint m part negPart key value htrim htrim' hkey heq hadv hadv' hb

/-- **C13** for plain text, exactly: `!text` is the negation of `text` on all objects if and only if the text neither starts with `!` nor
contains `=`. -/
theorem C13_text_exact (isPrint : Nat → Bool) (part negPart text : Str) (htrim : trimSpace part = text)
    (htrim' : trimSpace negPart = lit "!" ++ text) (hne : text ≠ []) (hadv : ¬ advPrefix <+: text) :
    (∀ m, matchParts isPrint m [negPart] = (matchParts isPrint m [part]).map (!·)) ↔ (∀ r, text ≠ lit "!" ++ r) ∧ (61 : UInt8) ∉ text := by
  have e' : lit "!" ++ text = 33 :: text := by simp [lit]
  have hadv' : ∀ t : Str, ¬ advPrefix <+: (33 :: t) := by
    rintro t ⟨u, hu⟩
    have := congrArg List.head? hu
    revert this
    simp [advPrefix, lit]
  constructor
  · intro h
    by_cases heq : (61 : UInt8) ∈ text
    · exfalso
      obtain ⟨key, value, rfl, hk⟩ : ∃ key value, text = key ++ 61 :: value ∧ (61 : UInt8) ∉ key :=
        List.eq_append_cons_of_mem heq
      rw [e'] at htrim'
      have hn := h (if key = [] then [] else [(key, [])])
      simp only [matchParts] at hn
      rw [match1_key (key := 33 :: key) (value := value) htrim' (by simp) (by simp [hk]) (hadv' _)] at hn
      by_cases h0 : key = []
      · subst h0
        rw [if_pos rfl, match1_eqText (text := value) htrim] at hn
        simp [lookup] at hn
      · rw [if_neg h0, match1_key htrim h0 hk hadv] at hn
        simp [lookup] at hn
    · refine ⟨?_, heq⟩
      rintro r rfl
      have e : lit "!" ++ r = 33 :: r := by simp [lit]
      rw [e] at htrim htrim' hadv heq
      have e2 : lit "!" ++ 33 :: r = 33 :: 33 :: r := by simp [lit]
      rw [e2] at htrim'
      obtain ⟨v, hv⟩ := bang_bang isPrint r
      have := h [([], v)]
      simp only [matchParts] at this
      rw [match1_text (Or.inl ⟨htrim, by simp, heq⟩) hadv, match1_text (Or.inl ⟨htrim', by simp, by simpa using heq⟩) (hadv' _),
        parseValue_bang, parseValue_bang] at this
      simp only [List.any_cons, List.any_nil, Bool.or_false, hv, Option.map_some, Option.some.injEq] at this
      revert this
      cases contains (quote isPrint v) (33 :: r) <;> simp
  · rintro ⟨hb, heq⟩ m
    exact C13_negation_text_partial isPrint m part negPart text htrim htrim' hne heq hadv hb

/-- The key form of a value that starts with `!`, and a text with `=` inside. -/
example : trimSpace (lit "k=!x") = lit "k" ++ lit "=" ++ lit "!x" ∧ trimSpace (lit "k=!!x") = lit "k" ++ lit "=!" ++ lit "!x"
    ∧ ¬ advPrefix <+: lit "k" ++ lit "=!" ++ lit "!x" ∧ trimSpace (lit "!k=y") = lit "!" ++ lit "k=y" ∧ ¬ advPrefix <+: lit "k=y" := by
  decide +kernel

/-- A value that `strconv.Quote` leaves as it is: printable, without `"` and `\`. -/
def Printable (isPrint : Nat → Bool) (v : Str) : Prop :=
  quoteBody isPrint v = v ∧ (34 : UInt8) ∉ v ∧ (92 : UInt8) ∉ v

/-- **C14**, exactly what the code does: `key="value"` accepts exactly the objects whose index
equals the value or ends with a quote followed by the value. Missing for the full claim: index
values that end with `"` followed by the value are accepted too (`C14_false`). -/
theorem C14_quoted_partial (isPrint : Nat → Bool) (m : List (Str × Str)) (part key value v : Str)
    (htrim : trimSpace part = key ++ lit "=" ++ (lit "\"" ++ value ++ lit "\"")) (hkey : key ≠ [])
    (heq : (61 : UInt8) ∉ key)
    (hadv : ¬ advPrefix <+: key ++ lit "=" ++ (lit "\"" ++ value ++ lit "\""))
    (hv : Printable isPrint value) (hl : lookup key m = some v) :
    matchParts isPrint m [part] = some true ↔ v = value ∨ ∃ pre, v = pre ++ lit "\"" ++ value := by
  have e : key ++ lit "=" ++ (lit "\"" ++ value ++ lit "\"") = key ++ 61 :: ([34] ++ value ++ [34]) := by
    simp [lit]
  rw [e] at htrim hadv
  have hp : parseValue ([34] ++ value ++ [34]) = ([34] ++ value ++ [34], false) :=
    parseValue_plain (by simp)
  simp only [matchParts]
  rw [match1_key htrim hkey heq hadv, hp, hl]
  simp only [Option.map_some, Bool.false_eq_true, if_false, Option.some.injEq, contains_iff]
  rw [quoted_infix hv.2.2 hv.1]
  simp [lit]

/-- **C14** as claimed, for index values without a quote character. -/
theorem C14_exact_partial (isPrint : Nat → Bool) (m : List (Str × Str)) (part key value v : Str)
    (htrim : trimSpace part = key ++ lit "=" ++ (lit "\"" ++ value ++ lit "\"")) (hkey : key ≠ [])
    (heq : (61 : UInt8) ∉ key)
    (hadv : ¬ advPrefix <+: key ++ lit "=" ++ (lit "\"" ++ value ++ lit "\""))
    (hv : Printable isPrint value) (hl : lookup key m = some v) (hq : (34 : UInt8) ∉ v) :
    matchParts isPrint m [part] = some true ↔ v = value := by
  rw [C14_quoted_partial isPrint m part key value v htrim hkey heq hadv hv hl]
  constructor
  · rintro (h | ⟨pre, rfl⟩)
    · exact h
    · exact absurd (by simp [lit]) hq
  · exact Or.inl

/-- A quoted value with a non-ASCII character meets the hypotheses; the longer index value is
not accepted. -/
example : trimSpace (lit "name=\"we" ++ [0xC3, 0xA9] ++ lit "b\"")
      = lit "name" ++ lit "=" ++ (lit "\"" ++ (lit "we" ++ [0xC3, 0xA9] ++ lit "b") ++ lit "\"")
    ∧ Printable (fun _ => true) (lit "we" ++ [0xC3, 0xA9] ++ lit "b")
    ∧ matchParts (fun _ => true) [(lit "name", lit "we" ++ [0xC3, 0xA9] ++ lit "b")]
        [lit "name=\"we" ++ [0xC3, 0xA9] ++ lit "b\""] = some true
    ∧ matchParts (fun _ => true) [(lit "name", lit "we" ++ [0xC3, 0xA9] ++ lit "b2")]
        [lit "name=\"we" ++ [0xC3, 0xA9] ++ lit "b\""] = some false := by
  unfold Printable
  decide +kernel

/-- **C14 is false**: `name="b"` accepts the index value `a"b`. -/
theorem C14_false : matchParts (fun _ => true) [(lit "name", lit "a\"b")] [lit "name=\"b\""] = some true := by
  decide +kernel

/-- **C15**: when the index value needs no escaping, `key=value` accepts exactly the objects whose
index contains the value. Missing for the full claim: index values with characters that
`strconv.Quote` escapes, and values with a quote character (`C15_false`,
`C15_false_miss`). -/
theorem C15_substring_partial (isPrint : Nat → Bool) (m : List (Str × Str)) (part key value v : Str)
    (htrim : trimSpace part = key ++ lit "=" ++ value) (hkey : key ≠ []) (heq : (61 : UInt8) ∉ key)
    (hadv : ¬ advPrefix <+: key ++ lit "=" ++ value) (hbang : ∀ r, value ≠ lit "!" ++ r)
    (hl : lookup key m = some v) (hv : quoteBody isPrint v = v) (hq : (34 : UInt8) ∉ value) :
    matchParts isPrint m [part] = some true ↔ ∃ pre post, v = pre ++ value ++ post := by
  rw [(C11_key_value isPrint m part key value htrim hkey heq hadv hbang).2, hl]
  have : quote isPrint v = [34] ++ v ++ [34] := by rw [quote, hv]
  simp only [Option.some.injEq, exists_and_left, exists_eq_left', this]
  have h := infix_of_wrapped (x := 34) (v := value) (iv := v) hq
  constructor
  · rintro ⟨a, b, hab⟩
    obtain ⟨c, d, hcd⟩ := h.mp ⟨a, b, hab.symm⟩
    exact ⟨c, d, hcd.symm⟩
  · rintro ⟨a, b, hab⟩
    obtain ⟨c, d, hcd⟩ := h.mpr ⟨a, b, hab.symm⟩
    exact ⟨c, d, hcd.symm⟩

/-- **C15**, nothing is missed: if an index value of any kind contains a printable ASCII value
without `"` and `\`, the object is accepted. -/
theorem C15_no_miss_partial (isPrint : Nat → Bool) (m : List (Str × Str)) (part key value v : Str)
    (htrim : trimSpace part = key ++ lit "=" ++ value) (hkey : key ≠ []) (heq : (61 : UInt8) ∉ key)
    (hadv : ¬ advPrefix <+: key ++ lit "=" ++ value) (hbang : ∀ r, value ≠ lit "!" ++ r)
    (hl : lookup key m = some v)
    (hval : ∀ b ∈ value, 0x20 ≤ b ∧ b ≤ 0x7E ∧ b ≠ 34 ∧ b ≠ 92)
    (hc : ∃ pre post, v = pre ++ value ++ post) : matchParts isPrint m [part] = some true := by
  obtain ⟨pre, post, rfl⟩ := hc
  rw [(C11_key_value isPrint m part key value htrim hkey heq hadv hbang).2, hl]
  obtain ⟨a, b, h⟩ := quote_contains_ascii (isPrint := isPrint) hval pre post
  exact ⟨_, [34] ++ a, b ++ [34], rfl, by rw [quote, ← h]; simp⟩

/-- The hypotheses hold for a printable index value, and for one with a line break. -/
example : trimSpace (lit "name=eb") = lit "name" ++ lit "=" ++ lit "eb"
    ∧ quoteBody (fun _ => true) (lit "web-1") = lit "web-1"
    ∧ ¬ advPrefix <+: lit "name" ++ lit "=" ++ lit "eb"
    ∧ matchParts (fun _ => true) [(lit "name", lit "web-1")] [lit "name=eb"] = some true
    ∧ matchParts (fun _ => true) [(lit "name", lit "\nweb-1")] [lit "name=eb"] = some true
    ∧ matchParts (fun _ => true) [(lit "name", lit "wb-1")] [lit "name=eb"] = some false := by
  decide +kernel

/-- **C15 is false**: the index value is a single line break, which does not contain `n`, but
`key=n` accepts it because its quoted form is `"\n"`. -/
theorem C15_false : matchParts (fun _ => true) [(lit "k", lit "\n")] [lit "k=n"] = some true := by
  decide +kernel

/-- **C15 is false** in the other direction: the index value `a\b` contains `a\b`, but is not
found. -/
theorem C15_false_miss : matchParts (fun _ => true) [(lit "k", lit "a\\b")] [lit "k=a\\b"] = some false := by
  decide +kernel

end Ckube

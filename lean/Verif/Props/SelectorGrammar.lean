import Verif.Lemmas.SelectorInv
import Verif.Props.SelectorText
import Verif.Lemmas.GoSortStable

/-! # C120: label selector texts are read as what they say -/

namespace Ckube
open Spec

/-! ## Requirements in the order of their keys -/

theorem strLe_le : ∀ {a b : Str}, strLe a b = true → a ≤ b
  | [], _, _ => List.nil_le _
  | _ :: _, [], h => by simp [strLe] at h
  | x :: a, y :: b, h => by
    rw [List.cons_le_cons_iff]
    rw [strLe] at h
    by_cases h1 : x < y
    · exact Or.inl h1
    · rw [if_neg h1] at h
      by_cases h2 : x = y
      · rw [if_pos h2] at h
        exact Or.inr ⟨h2, strLe_le h⟩
      · rw [if_neg h2] at h
        simp at h

theorem sorted_byKey (qs : List Req) : ByKey qs (sortBy Req.keyLe (qs.map Req.norm)) := by
  refine ⟨qs.map Req.norm, ?_, sortBy_perm _ _, ?_, fun k => ?_⟩
  · rw [List.forall₂_map_right_iff, List.forall₂_same]
    exact fun q _ => norm_same q
  · exact (sortBy_sorted keyLe_total keyLe_trans _).imp fun h => strLe_le h
  · have := GoSort.sortBy_filter (key := Req.key) k (qs.map Req.norm)
    have hk : GoSort.byKey Req.key = Req.keyLe := rfl
    rw [hk] at this
    have hd : (fun x : Req => x.key == k) = fun x : Req => decide (x.key = k) := by
      funext x
      rw [Bool.eq_iff_iff]
      simp
    rw [hd] at this
    exact this

/-- **C120**: a text that says `qs` is read as `qs`, in the order of the keys (as `labels.ParseToRequirements` promises; requirements with
the same key stay in the order in which they are written, which Go's sort guarantees for at most twelve requirements, see C104). -/
theorem C120_read {qs : List Req} {s : Str} (h : SelectorSays qs s) : ∃ out, parseReqs s = some out ∧ ByKey qs out :=
  ⟨_, parse_says h, sorted_byKey qs⟩

/-- **C120**, the other direction: what is read is the text of a selector. Missing for the full claim: texts with NUL bytes, for which it is
false (`C120_false_nul`). -/
theorem C120_only_partial {s : Str} {out : List Req} (h0 : (0 : UInt8) ∉ s) (h : parseReqs s = some out) : ∃ qs, SelectorSays qs s ∧ ByKey qs out := by
  obtain ⟨qs, hq⟩ := says_parse h0 h
  refine ⟨qs, hq, ?_⟩
  rw [parse_says hq] at h
  obtain rfl := Option.some.inj h
  exact sorted_byKey qs

theorem blank_nil : Blank [] := by simp [Blank]
theorem blank_of {s : Str} (h : s.all isLexWs = true) : Blank s := fun c hc => (blank_iff c).mpr (List.all_eq_true.mp h c hc)

/-- A text with tabs, line ends, every kind of requirement, a key that is a keyword, empty and repeated values says what one expects. -/
example : SelectorSays [⟨lit "in", .isIn, [lit "b", [], lit "b"]⟩, ⟨lit "x.y/k", .neq, [[]]⟩, ⟨lit "a", .notExist, []⟩, ⟨lit "n", .gt, [lit "12"]⟩, ⟨lit "z", .exist, []⟩]
    (lit " in\tin(b, ,b),\nx.y/k != ,! a,n>12 , z ") := by
  have h1 : TermSays ⟨lit "in", .isIn, [lit "b", [], lit "b"]⟩ (lit "in\tin(b, ,b)") := by
    have hl : ListSays [lit "b", [], lit "b"] (lit "b, ,b") :=
      .more (a := []) (v := lit "b") (b := []) blank_nil blank_nil (.more (a := []) (v := []) (b := lit " ") blank_nil (blank_of (by decide))
        (.one (a := []) (v := lit "b") (b := []) blank_nil blank_nil))
    have := TermSays.among (k := lit "in") (a := lit "\t") (w := lit "in") (b := []) (op := .isIn) (legal_key.mpr (by decide +kernel)) (blank_of (by decide)) (by decide)
      (by decide +kernel) blank_nil hl (fun v hv => by
        simp only [List.mem_cons, List.not_mem_nil, or_false] at hv
        rcases hv with rfl | rfl | rfl <;> exact legal_value.mpr (by decide +kernel)) (Or.inr ⟨[lit "b", []], lit "b", 0, rfl, by decide, Or.inl rfl⟩)
    exact this
  have h2 : TermSays ⟨lit "x.y/k", .neq, [[]]⟩ (lit "x.y/k !=") :=
    TermSays.compare (k := lit "x.y/k") (a := lit " ") (u := lit "!=") (b := []) (v := []) (legal_key.mpr (by decide +kernel)) (blank_of (by decide))
      (by decide +kernel) blank_nil (legal_value.mpr (by decide +kernel)) (by simp)
  have h3 : TermSays ⟨lit "a", .notExist, []⟩ (lit "! a") := TermSays.absent (a := lit " ") (k := lit "a") (blank_of (by decide)) (legal_key.mpr (by decide +kernel))
  have h4 : TermSays ⟨lit "n", .gt, [lit "12"]⟩ (lit "n>12") :=
    TermSays.compare (k := lit "n") (a := []) (u := lit ">") (b := []) (v := lit "12") (legal_key.mpr (by decide +kernel)) blank_nil
      (by decide +kernel) blank_nil (legal_value.mpr (by decide +kernel)) (fun _ => ⟨12, parseInt64_means.mp (by decide +kernel)⟩)
  have h5 : TermSays ⟨lit "z", .exist, []⟩ (lit "z") := .exist (legal_key.mpr (by decide +kernel))
  exact .more (a := lit " ") (b := []) (blank_of (by decide)) h1 blank_nil (.more (a := lit "\n") (b := lit " ") (blank_of (by decide)) h2 (blank_of (by decide))
    (.more (a := []) (b := []) blank_nil h3 blank_nil (.more (a := []) (b := lit " ") blank_nil h4 (blank_of (by decide))
      (.one (a := lit " ") (b := lit " ") (blank_of (by decide)) h5 (blank_of (by decide))))))

/-- What is read of it. -/
example : parseReqs (lit " in\tin(b, ,b),\nx.y/k != ,! a,n>12 , z ")
    = some [⟨lit "a", .notExist, []⟩, ⟨lit "in", .isIn, [[], lit "b"]⟩, ⟨lit "n", .gt, [lit "12"]⟩, ⟨lit "x.y/k", .neq, [[]]⟩, ⟨lit "z", .exist, []⟩] := by decide +kernel

/-- **C120 is false** for texts with a NUL byte: what follows it is ignored, whatever it is. -/
theorem C120_false_nul : parseReqs (lit "a=1 " ++ 0 :: lit ",b=2,(((") = some [⟨lit "a", .eq, [lit "1"]⟩] ∧ ∀ qs, ¬ SelectorSays qs (lit "a=1 " ++ 0 :: lit ",b=2,(((") := by
  refine ⟨by decide +kernel, fun qs h => ?_⟩
  have key : ∀ {qs : List Req} {s : Str}, SelectorSays qs s → (0 : UInt8) ∉ s := by
    have hb : ∀ {a : Str}, Blank a → (0 : UInt8) ∉ a := fun h hm => absurd (h _ hm) (by decide +kernel)
    have hw : ∀ {w : Str}, (∀ c ∈ w, isWordChar c = true) → (0 : UInt8) ∉ w := fun h hm => absurd (h _ hm) (by decide +kernel)
    have hk : ∀ {k : Str}, LegalLabelKey k → (0 : UInt8) ∉ k := fun h => hw (legal_word h).2
    have hv : ∀ {v : Str}, LegalLabelValue v → (0 : UInt8) ∉ v := fun h => hw (value_chars (legal_value.mp h))
    have hl : ∀ {vs : List Str} {x : Str}, ListSays vs x → (∀ v ∈ vs, LegalLabelValue v) → (0 : UInt8) ∉ x := by
      intro vs x h
      induction h with
      | one h1 h2 =>
        intro h3
        simp only [List.mem_append, not_or]
        exact ⟨⟨hb h1, hv (h3 _ (by simp))⟩, hb h2⟩
      | more h1 h2 _ ih =>
        intro h3
        simp only [List.mem_append, List.mem_cons, not_or]
        exact ⟨⟨⟨hb h1, hv (h3 _ (by simp))⟩, hb h2⟩, by decide, ih fun v hm => h3 v (by simp [hm])⟩
    have ht : ∀ {q : Req} {x : Str}, TermSays q x → (0 : UInt8) ∉ x := by
      intro q x h
      cases h with
      | exist h => exact hk h
      | absent h1 h2 =>
        simp only [List.mem_append, List.mem_cons, not_or]
        exact ⟨by decide, hb h1, hk h2⟩
      | compare h1 h2 h3 h4 h5 =>
        simp only [List.mem_append, not_or]
        refine ⟨⟨⟨⟨hk h1, hb h2⟩, ?_⟩, hb h4⟩, hv h5⟩
        have : ∀ p ∈ signs, (0 : UInt8) ∉ p.2 := by decide +kernel
        exact this _ h3
      | among h1 h2 _ h3 h4 h5 h6 =>
        simp only [List.mem_append, List.mem_cons, List.not_mem_nil, or_false, not_or]
        refine ⟨⟨⟨⟨⟨hk h1, hb h2⟩, ?_⟩, hb h4⟩, by decide, hl h5 h6⟩, by decide⟩
        have : ∀ p ∈ [(Op.isIn, lit "in"), (Op.notIn, lit "notin")], (0 : UInt8) ∉ p.2 := by decide +kernel
        exact this _ h3
    intro qs s h
    induction h with
    | none h => exact hb h
    | one h1 h2 h3 =>
      simp only [List.mem_append, not_or]
      exact ⟨⟨hb h1, ht h2⟩, hb h3⟩
    | more h1 h2 h3 _ ih =>
      simp only [List.mem_append, List.mem_cons, not_or]
      exact ⟨⟨⟨hb h1, ht h2⟩, hb h3⟩, by decide, ih⟩
  exact key h (by decide +kernel)

/-- **C120 is false** for lists that end with two empty values: they are written like other lists, but not read. With one or three empty values at
the end they are. -/
theorem C120_false_list : ListSays [lit "a", [], []] (lit "a,,") ∧ parseReqs (lit "k in (a,,)") = none
    ∧ parseReqs (lit "k in (a,)") = some [⟨lit "k", .isIn, [[], lit "a"]⟩] ∧ parseReqs (lit "k in (a,,,)") = some [⟨lit "k", .isIn, [[], lit "a"]⟩] := by
  refine ⟨?_, by decide +kernel, by decide +kernel, by decide +kernel⟩
  exact .more (a := []) (v := lit "a") (b := []) blank_nil blank_nil (.more (a := []) (v := []) (b := []) blank_nil blank_nil
    (.one (a := []) (v := []) (b := []) blank_nil blank_nil))

/-! ## Selector texts in requests -/

theorem sameReq_holds {q c : Req} (h : SameReq q c) (m : List (Str × Str)) : ReqHolds c m ↔ ReqHolds q m := by
  obtain ⟨h1, h2, h3⟩ := h
  unfold ReqHolds
  rw [h1, h2]
  cases q.op <;> simp only [h3]

theorem sameReq_eq {q c : Req} (h : SameReq q c) : (c.op = .eq ∨ c.op = .deq ↔ q.op = .eq ∨ q.op = .deq) ∧ c.key = q.key := by
  rw [h.2.1, h.1]
  exact ⟨Iff.rfl, rfl⟩

theorem exists_forall₂ {α : Type} {R : α → α → Prop} {p : α → Prop} (hp : ∀ a b, R a b → (p b ↔ p a)) {l l' : List α} (h : List.Forall₂ R l l') :
    (∃ x ∈ l', p x) ↔ ∃ x ∈ l, p x := by
  induction h with
  | nil => simp
  | cons h _ ih => simp only [List.mem_cons, exists_eq_or_imp, ih, hp _ _ h]

theorem lastEqualities_same {qs cs : List Req} (h : List.Forall₂ SameReq qs cs) : List.Forall₂ SameReq (lastEqualities qs) (lastEqualities cs) := by
  induction h with
  | nil => exact .nil
  | @cons q c qs cs hqc hl ih =>
    have he : ((c.op = .eq ∨ c.op = .deq) ∧ ∃ r ∈ cs, (r.op = .eq ∨ r.op = .deq) ∧ r.key = c.key)
        ↔ ((q.op = .eq ∨ q.op = .deq) ∧ ∃ r ∈ qs, (r.op = .eq ∨ r.op = .deq) ∧ r.key = q.key) := by
      rw [(sameReq_eq hqc).1, (sameReq_eq hqc).2]
      refine and_congr_right fun _ => ?_
      refine exists_forall₂ (R := SameReq) (p := fun r => (r.op = .eq ∨ r.op = .deq) ∧ r.key = q.key) (fun a b hab => ?_) hl
      rw [(sameReq_eq hab).1, (sameReq_eq hab).2]
    rw [lastEqualities, lastEqualities]
    by_cases hc : (q.op = .eq ∨ q.op = .deq) ∧ ∃ r ∈ qs, (r.op = .eq ∨ r.op = .deq) ∧ r.key = q.key
    · rw [if_pos hc, if_pos (he.mpr hc)]
      exact ih
    · rw [if_neg hc, if_neg (fun h => hc (he.mp h))]
      exact .cons hqc ih

theorem lastEqualities_filter (k : Str) : ∀ qs : List Req, (lastEqualities qs).filter (·.key = k) = lastEqualities (qs.filter (·.key = k))
  | [] => rfl
  | q :: qs => by
    have ih := lastEqualities_filter k qs
    rw [lastEqualities]
    by_cases hk : q.key = k
    · rw [List.filter_cons_of_pos (by simpa using hk), lastEqualities]
      have he : (∃ r ∈ qs.filter (·.key = k), (r.op = .eq ∨ r.op = .deq) ∧ r.key = q.key) ↔ ∃ r ∈ qs, (r.op = .eq ∨ r.op = .deq) ∧ r.key = q.key := by
        constructor
        · rintro ⟨r, hr, h⟩
          exact ⟨r, (List.mem_filter.mp hr).1, h⟩
        · rintro ⟨r, hr, h⟩
          exact ⟨r, List.mem_filter.mpr ⟨hr, by simp [h.2, hk]⟩, h⟩
      by_cases hc : (q.op = .eq ∨ q.op = .deq) ∧ ∃ r ∈ qs, (r.op = .eq ∨ r.op = .deq) ∧ r.key = q.key
      · rw [if_pos hc, if_pos ⟨hc.1, he.mpr hc.2⟩, ih]
      · rw [if_neg hc, if_neg (fun h => hc ⟨h.1, he.mp h.2⟩), List.filter_cons_of_pos (by simpa using hk), ih]
    · rw [List.filter_cons_of_neg (by simpa using hk)]
      split
      · exact ih
      · rw [List.filter_cons_of_neg (by simpa using hk), ih]

/-- The meaning of requirements does not depend on the order of different keys. -/
theorem byKey_holds {qs out : List Req} (h : ByKey qs out) (m : List (Str × Str)) :
    (∀ q ∈ lastEqualities out, ReqHolds q m) ↔ ∀ q ∈ lastEqualities qs, ReqHolds q m := by
  obtain ⟨cs, h1, -, -, h4⟩ := h
  have hmem : ∀ q, q ∈ lastEqualities out ↔ q ∈ lastEqualities cs := by
    intro q
    have e := lastEqualities_filter q.key out
    rw [h4, ← lastEqualities_filter] at e
    have : ∀ l : List Req, q ∈ l ↔ q ∈ l.filter (·.key = q.key) := fun l => by simp [List.mem_filter]
    rw [this, e, ← this]
  have hl := lastEqualities_same h1
  have : ∀ {a b : List Req}, List.Forall₂ SameReq a b → ((∀ q ∈ b, ReqHolds q m) ↔ ∀ q ∈ a, ReqHolds q m) := by
    intro a b hab
    induction hab with
    | nil => simp
    | cons h _ ih => simp only [List.mem_cons, forall_eq_or_imp, ih, sameReq_holds h]
  rw [← this hl]
  exact forall_congr' fun q => by rw [hmem]

theorem byKey_all {qs out : List Req} (h : ByKey qs out) {p : Str → Op → Prop} (hp : ∀ q ∈ qs, p q.key q.op) : ∀ q ∈ out, p q.key q.op := by
  obtain ⟨cs, h1, h2, -, -⟩ := h
  intro q hq
  rw [h2.mem_iff] at hq
  clear h2
  induction h1 with
  | nil => simp at hq
  | cons h _ ih =>
    rcases List.mem_cons.mp hq with rfl | hq
    · rw [h.1, h.2.1]
      exact hp _ (by simp)
    · exact ih (fun q hq => hp q (by simp [hq])) hq

theorem paginateLoop_other : ∀ {es : List LReq} {acc : Str}, (∀ e ∈ es, e.key ≠ paginateKey) → paginateLoop es acc = some acc
  | [], _, _ => rfl
  | e :: es, acc, h => by
    rw [paginateLoop, if_neg (h e (by simp))]
    exact paginateLoop_other fun x hx => h x (by simp [hx])

/-- **C120**: the server lists by a selector text exactly as it says, except that of several equalities on one label the last counts (C16, C06). -/
theorem C120_listed_partial {qs : List Req} {sel : Str} (h : SelectorSays qs sel) (hne : sel ≠ []) (hop : ∀ q ∈ qs, q.op ≠ .gt ∧ q.op ≠ .lt)
    (hkey : ∀ q ∈ qs, q.key ≠ paginateKey) :
    ∃ info ls, parseSelector sel = some info ∧ info.paginate = {} ∧ info.labels = some ls
      ∧ ∀ m, SelectorHolds ls m ↔ ∀ q ∈ lastEqualities qs, ReqHolds q m := by
  obtain ⟨out, h1, h2⟩ := C120_read h
  have hop' := byKey_all (p := fun _ o => o ≠ .gt ∧ o ≠ .lt) h2 hop
  have hkey' := byKey_all (p := fun k _ => k ≠ paginateKey) h2 hkey
  obtain ⟨ls, k1, k2, k3, k4, k5, k6, k7⟩ := caller_parsed h1 hop'
  have e1 : lookup paginateKey ls.matchLabels = none := by
    rw [lookup_eq_none]
    intro v hm
    obtain ⟨q, hq, hqk⟩ := k5 _ hm
    exact hkey' q hq hqk
  have hes : ∀ e ∈ ls.matchExprs, e.key ≠ paginateKey := by
    intro e he
    obtain ⟨q, hq, rfl, -⟩ := k6 e he
    exact hkey' q hq
  have e2 : takePaginate ls = some (ls, []) := by
    unfold takePaginate
    rw [e1]
    dsimp only
    rw [paginateLoop_other hes]
    have hf : ls.matchExprs.filter (fun m => m.key ≠ paginateKey) = ls.matchExprs := by
      rw [List.filter_eq_self]
      intro e he
      simpa using hes e he
    rw [Option.map_some, hf]
  refine ⟨selInfo {} ls, ls, ?_, rfl, rfl, fun m => ?_⟩
  · unfold parseSelector
    rw [if_neg hne, k1, Option.bind_some, e2, Option.bind_some]
    simp
  · rw [selectorLoop_holds_last (parseReqs_valid h1) k4 k2 m, ← byKey_holds h2 m]
    exact forall₂_congr fun q hq => matches_iff_reqHolds (k4 q (lastEqualities_subset out q hq)) m

/-- A search part by selector means what its text says. -/
theorem C120_search_partial (isPrint : Nat → Bool) (m : List (Str × Str)) {part text : Str} {qs : List Req} (htrim : trimSpace part = advPrefix ++ text) (hne : text ≠ [])
    (h : SelectorSays qs text) (hop : ∀ q ∈ qs, q.op ≠ .gt ∧ q.op ≠ .lt) :
    ∃ b, match1 isPrint m part = some b ∧ (b = true ↔ ∀ q ∈ lastEqualities qs, ReqHolds q m) := by
  obtain ⟨out, h1, h2⟩ := C120_read h
  have hop' := byKey_all (p := fun _ o => o ≠ .gt ∧ o ≠ .lt) h2 hop
  obtain ⟨b, g1, g2⟩ := C16_last isPrint m part text out htrim hne h1 hop'
  exact ⟨b, g1, g2.trans (byKey_holds h2 m)⟩

/-- What is no selector text is refused, by the server and in a search. -/
theorem C120_refused {sel : Str} (h0 : (0 : UInt8) ∉ sel) (h : ∀ qs, ¬ SelectorSays qs sel) :
    parseSelector sel = none ∧ ∀ isPrint m part, trimSpace part = advPrefix ++ sel → match1 isPrint m part = none := by
  have hn : parseReqs sel = none := by
    cases hp : parseReqs sel with
    | none => rfl
    | some out =>
      obtain ⟨qs, hq, -⟩ := C120_only_partial h0 hp
      exact absurd hq (h qs)
  have hne : sel ≠ [] := by
    rintro rfl
    exact h [] (.none blank_nil)
  constructor
  · unfold parseSelector parseToLabelSelector
    rw [if_neg hne, hn]
    rfl
  · intro isPrint m part htrim
    have h1 : ¬ advPrefix ++ sel = [] := by simp [advPrefix, lit]
    have h2 : hasPrefix (advPrefix ++ sel) advPrefix = true := by
      rw [hasPrefix, List.isPrefixOf_iff_prefix]; exact List.prefix_append _ _
    unfold match1
    simp only [htrim]
    have hl : ¬ (advPrefix ++ sel).length = advPrefix.length := by
      simp only [List.length_append]
      have := List.length_pos_iff.mpr hne
      omega
    rw [if_neg h1, if_pos h2, if_neg hl, List.drop_left]
    unfold parseToLabelSelector
    rw [hn]
    rfl

/-- A selector with blanks in unusual places, in a request: objects labelled `app=web` and without `tier` or with another tier. -/
example : ∃ info ls, parseSelector (lit "app\t==web ,\n tier notin( db ,cache )") = some info ∧ info.labels = some ls
    ∧ (SelectorHolds ls [(lit "app", lit "web")]) ∧ ¬ SelectorHolds ls [(lit "app", lit "web"), (lit "tier", lit "db")] := by
  have h1 : TermSays ⟨lit "app", .deq, [lit "web"]⟩ (lit "app\t==web") :=
    TermSays.compare (k := lit "app") (a := lit "\t") (u := lit "==") (b := []) (v := lit "web") (legal_key.mpr (by decide +kernel)) (blank_of (by decide))
      (by decide +kernel) blank_nil (legal_value.mpr (by decide +kernel)) (by simp)
  have h2 : TermSays ⟨lit "tier", .notIn, [lit "db", lit "cache"]⟩ (lit "tier notin( db ,cache )") := by
    have hl : ListSays [lit "db", lit "cache"] (lit " db ,cache ") :=
      .more (a := lit " ") (v := lit "db") (b := lit " ") (blank_of (by decide)) (blank_of (by decide)) (.one (a := []) (v := lit "cache") (b := lit " ") blank_nil (blank_of (by decide)))
    exact TermSays.among (k := lit "tier") (a := lit " ") (w := lit "notin") (b := []) (op := .notIn) (legal_key.mpr (by decide +kernel)) (blank_of (by decide)) (by decide)
      (by decide +kernel) blank_nil hl (fun v hv => by
        simp only [List.mem_cons, List.not_mem_nil, or_false] at hv
        rcases hv with rfl | rfl <;> exact legal_value.mpr (by decide +kernel)) (Or.inr ⟨[lit "db"], lit "cache", 0, rfl, by decide, Or.inl rfl⟩)
  have hs : SelectorSays [⟨lit "app", .deq, [lit "web"]⟩, ⟨lit "tier", .notIn, [lit "db", lit "cache"]⟩] (lit "app\t==web ,\n tier notin( db ,cache )") :=
    .more (a := []) (b := lit " ") blank_nil h1 (blank_of (by decide)) (.one (a := lit "\n ") (b := []) (blank_of (by decide)) h2 blank_nil)
  obtain ⟨info, ls, g1, -, g2, g3⟩ := C120_listed_partial hs (by decide) (by decide) (by decide +kernel)
  refine ⟨info, ls, g1, g2, ?_, ?_⟩
  · rw [g3, lastEqualities_eq (by decide +kernel)]
    intro q hq
    simp only [List.mem_cons, List.not_mem_nil, or_false] at hq
    rcases hq with rfl | rfl
    · exact ⟨lit "web", by decide +kernel, by decide +kernel⟩
    · intro v hv
      exact absurd hv (by rw [show lookup (lit "tier") [(lit "app", lit "web")] = none by decide +kernel]; simp)
  · rw [g3, lastEqualities_eq (by decide +kernel)]
    intro hh
    exact hh ⟨lit "tier", .notIn, [lit "db", lit "cache"]⟩ (by simp) (lit "db") (by decide +kernel) (by decide +kernel)

/-- `a b` is no selector text. -/
example : parseReqs (lit "a b") = none ∧ parseReqs (lit "a,") = none ∧ parseReqs (lit "a=b=c") = none ∧ parseReqs (lit "-a") = none := by decide +kernel

end Ckube

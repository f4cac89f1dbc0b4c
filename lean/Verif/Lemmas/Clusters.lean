import Verif.Lemmas.ListOptions
import Verif.Lemmas.Search
import Verif.Spec.Search

/-! # Lemmas about `Clusters`, `Namespaces` and `GetClusters` -/

namespace Ckube
open Spec

/-! ## `TrimSpace` on text that starts and ends with visible ASCII -/

/-- A visible ASCII byte. -/
def visible (c : UInt8) : Bool := 0x21 ≤ c && c ≤ 0x7E

theorem leadingSpace_visible {c : UInt8} (hc : visible c = true) (r : Str) : leadingSpace (c :: r) = 0 := by
  have key : ∀ c : UInt8, visible c = true → c ≠ 9 ∧ c ≠ 10 ∧ c ≠ 11 ∧ c ≠ 12 ∧ c ≠ 13 ∧ c ≠ 32
      ∧ c ≠ 0xC2 ∧ c ≠ 0xE1 ∧ c ≠ 0xE2 ∧ c ≠ 0xE3 := forall_byte (by decide +kernel)
  obtain ⟨h1, h2, h3, h4, h5, h6, h7, h8, h9, h10⟩ := key c hc
  match r with
  | [] => simp [leadingSpace, *]
  | [_] => simp [leadingSpace, *]
  | _ :: _ :: _ => simp [leadingSpace, *]

theorem trailingSpace_visible {c : UInt8} (hc : visible c = true) (r : Str) : trailingSpace (c :: r) = 0 := by
  have key : ∀ c : UInt8, visible c = true → c ≠ 0x85 ∧ c ≠ 0xA0 ∧ c ≠ 0x80 ∧ ¬ (0x80 ≤ c ∧ c ≤ 0x8A) ∧ c ≠ 0xA8
      ∧ c ≠ 0xA9 ∧ c ≠ 0xAF ∧ c ≠ 0x9F ∧ c < 0x80 := forall_byte (by decide +kernel)
  obtain ⟨h1, h2, h3, h4, h5, h6, h7, h8, _⟩ := key c hc
  have h0 : leadingSpace [c] = 0 := leadingSpace_visible hc []
  have hb : ∀ b, leadingSpace [b, c] ≠ 2 := by
    intro b
    simp only [leadingSpace]
    repeat' split
    all_goals simp_all
  have ha : ∀ a b, leadingSpace [a, b, c] ≠ 3 := by
    intro a b
    simp only [leadingSpace]
    repeat' split
    all_goals try simp
    rename_i h
    rcases h with h | h | h | h
    · exact h3 h.2.2
    · rcases h.2.2 with h | h | h | h
      · exact h4 h
      · exact h5 h
      · exact h6 h
      · exact h7 h
    · exact h8 h.2.2
    · exact h3 h.2.2
  match r with
  | [] => simp [trailingSpace, h0]
  | [b] => simp [trailingSpace, h0, hb]
  | b :: a :: _ => simp [trailingSpace, h0, hb, ha]

theorem trimSpace_visible {a z : UInt8} {r r' s : Str} (ha : visible a = true) (hz : visible z = true)
    (h1 : s = a :: r) (h2 : s = r' ++ [z]) : trimSpace s = s := by
  have e1 : trimLeftFuel s.length s = s := by
    have hl : leadingSpace s = 0 := by rw [h1]; exact leadingSpace_visible ha r
    cases s.length <;> simp [trimLeftFuel, hl]
  have e2 : trimRightFuel s.length s.reverse = s.reverse := by
    have hl : trailingSpace s.reverse = 0 := by
      rw [h2, List.reverse_append]; exact trailingSpace_visible hz _
    cases s.length <;> simp [trimRightFuel, hl]
  unfold trimSpace
  simp only [e1, e2, List.reverse_reverse]

/-! ## The printed selector -/

theorem alnum_visible {c : UInt8} (h : isAlnum c = true) : visible c = true :=
  (forall_byte (P := fun c => isAlnum c = true → visible c = true) (by decide +kernel)) c h

theorem key_last {k : Str} (h : validLabelKey k = true) : ∃ r z, k = r ++ [z] ∧ visible z = true := by
  have hn : ∀ n : Str, qnameOk n = true → ∃ r z, n = r ++ [z] ∧ visible z = true := by
    intro n hn
    unfold qnameOk nameOk at hn
    simp only [Bool.and_eq_true] at hn
    rcases List.eq_nil_or_concat n with rfl | ⟨r, z, rfl⟩
    · simp at hn
    · refine ⟨r, z, by simp, ?_⟩
      have := hn.2.2
      simp at this
      exact alnum_visible this
  unfold validLabelKey at h
  have hj : ∀ s : Str, join [47] (splitByte 47 s) = s := by
    intro s
    induction s with
    | nil => rfl
    | cons c s ih =>
      simp only [splitByte]
      have hne := splitByte_ne_nil 47 s
      obtain ⟨p, ps, hps⟩ := List.exists_cons_of_ne_nil hne
      rw [hps] at ih ⊢
      split
      · rename_i hc; rw [join, hc, ih]; rfl
      · cases ps with
        | nil => simp only [join] at ih ⊢; rw [ih]
        | cons q ps => simp only [join] at ih ⊢; rw [← ih]; simp
  have hk := hj k
  split at h
  · rename_i n hs
    rw [hs] at hk
    simp only [join] at hk
    exact hk ▸ hn n h
  · rename_i p n hs
    rw [hs] at hk
    simp only [join] at hk
    simp only [Bool.and_eq_true] at h
    obtain ⟨r, z, hr, hz⟩ := hn n h.2
    exact ⟨p ++ [47] ++ r, z, by rw [← hk, hr]; simp, hz⟩
  · simp at h

theorem value_last {v : Str} (h : validLabelValue v = true) (hne : v ≠ []) :
    ∃ r z, v = r ++ [z] ∧ visible z = true := by
  unfold validLabelValue nameOk at h
  rcases List.eq_nil_or_concat v with rfl | ⟨r, z, rfl⟩
  · exact absurd rfl hne
  · refine ⟨r, z, by simp, ?_⟩
    simp only [Bool.and_eq_true, Bool.or_eq_true] at h
    rcases h.2 with h | h
    · simp at h
    · have := h.2
      simp at this
      exact alnum_visible this

theorem toStr_last {r : Req} (h : r.Valid) : ∃ t z, r.toStr = t ++ [z] ∧ visible z = true := by
  obtain ⟨t, z, hk, hz⟩ := key_last h.key
  have hc := h.count
  have single : ∀ (pre : Str) (c : UInt8), visible c = true → (∃ v, r.vals = [v]) →
      ∃ t z, pre ++ [c] ++ r.valsText = t ++ [z] ∧ visible z = true := by
    rintro pre c hcv ⟨v, hv⟩
    have hvt : r.valsText = v := by unfold Req.valsText; rw [hv]
    rw [hvt]
    by_cases hv0 : v = []
    · exact ⟨pre, c, by simp [hv0], hcv⟩
    · obtain ⟨t, z, ht, hz⟩ := value_last (h.vals v (by rw [hv]; simp)) hv0
      exact ⟨pre ++ [c] ++ t, z, by rw [ht]; simp, hz⟩
  unfold Req.toStr
  cases hop : r.op <;> rw [hop] at hc <;> simp only at hc ⊢
  case isIn => exact ⟨_, 41, rfl, by decide⟩
  case notIn => exact ⟨_, 41, rfl, by decide⟩
  case eq => exact single r.key 61 (by decide) hc
  case deq =>
    have := single (r.key ++ [61]) 61 (by decide) hc
    simpa using this
  case neq =>
    have := single (r.key ++ [33]) 61 (by decide) hc
    simpa using this
  case exist => exact ⟨t, z, hk, hz⟩
  case notExist => exact ⟨33 :: t, z, by rw [hk]; rfl, hz⟩
  case gt => exact single r.key 62 (by decide) hc
  case lt => exact single r.key 60 (by decide) hc

theorem join_last : ∀ (l : List Str), l ≠ [] → (∀ s ∈ l, ∃ t z, s = t ++ [z] ∧ visible z = true) →
    ∃ t z, join [44] l = t ++ [z] ∧ visible z = true
  | [], h, _ => absurd rfl h
  | [s], _, h => by simpa only [join] using h s (by simp)
  | s :: q :: l, _, h => by
    obtain ⟨t, z, ht, hz⟩ := join_last (q :: l) (by simp) (fun x hx => h x (by simp [hx]))
    exact ⟨s ++ [44] ++ t, z, by rw [join, ht]; simp, hz⟩

theorem selStr_last {rs : List Req} (hne : rs ≠ []) (h : ∀ r ∈ rs, r.Valid) :
    ∃ t z, selStr rs = t ++ [z] ∧ visible z = true := by
  refine join_last _ (by simpa using hne) ?_
  intro s hs
  obtain ⟨r, hr, rfl⟩ := List.mem_map.mp hs
  exact toStr_last (h r hr)

/-- The search part carrying a printed selector. -/
theorem advPart_trim {rs : List Req} (hne : rs ≠ []) (h : ∀ r ∈ rs, r.Valid) :
    trimSpace (advPrefix ++ selStr rs) = advPrefix ++ selStr rs := by
  obtain ⟨t, z, ht, hz⟩ := selStr_last hne h
  exact trimSpace_visible (a := 95) (r := lit "_ckube_as__:" ++ selStr rs) (r' := advPrefix ++ t) (by decide) hz
    (by simp [advPrefix, lit]) (by rw [ht]; simp)

/-- The verdict on a printed advanced part. -/
theorem match1_advPart' {isPrint : Nat → Bool} {m : List (Str × Str)} {ls : LabelSelector} {rs : List Req}
    (hrs : asSelector ls = some rs) (hne : rs ≠ []) (hpr : ∀ r ∈ rs, r.Printable) (hm : IsMap ls.matchLabels) :
    ∃ b, match1 isPrint m (advPrefix ++ selStr rs) = some b ∧ (b = true ↔ SelectorHolds ls m) := by
  have hv := (asSelector_some hrs).2
  obtain ⟨ls', h1, _, h3, h4⟩ := parse_format hrs hpr hm
  have h1' := h1
  unfold parseToLabelSelector at h1'
  rw [Option.bind_eq_some_iff] at h1'
  obtain ⟨qs, hqs, hloop⟩ := h1'
  obtain ⟨rs', hrs'⟩ := asSelector_parsed (parseReqs_valid hqs) hloop
  refine ⟨selMatches rs' m, ?_, by rw [asSelector_matches hrs', holds_congr h3 h4]⟩
  unfold match1
  rw [advPart_trim hne hv]
  have hs := selStr_ne_nil hne hv
  have e1 : ¬ advPrefix ++ selStr rs = [] := by simp [hs]
  have e2 : hasPrefix (advPrefix ++ selStr rs) advPrefix = true := hasPrefix_iff.mpr (List.prefix_append _ _)
  have e3 : ¬ (advPrefix ++ selStr rs).length = advPrefix.length := by
    have := List.length_pos_iff.mpr hs
    simp only [List.length_append]; omega
  simp only
  rw [if_neg e1, if_pos e2, if_neg e3, List.drop_left, h1, Option.bind_some, hrs']
  rfl

theorem match1_advPart {isPrint : Nat → Bool} {m : List (Str × Str)} {ls : LabelSelector} {rs : List Req}
    (hrs : asSelector ls = some rs) (hne : rs ≠ []) (hpr : ls.Printable) (hm : IsMap ls.matchLabels) :
    ∃ b, match1 isPrint m (advPrefix ++ selStr rs) = some b ∧ (b = true ↔ SelectorHolds ls m) :=
  match1_advPart' hrs hne (printable_reqs hrs hpr) hm

/-! ## Replacing the requirement on a key -/

theorem find?_eq_head_filter {α : Type} (p : α → Bool) : ∀ l : List α, l.find? p = (l.filter p).head?
  | [] => rfl
  | a :: l => by
    simp only [List.find?_cons, List.filter_cons]
    cases h : p a
    · simp only [Bool.false_eq_true, if_false]; exact find?_eq_head_filter p l
    · simp

theorem parseReqs_nil : parseReqs [] = some [] := by decide +kernel

theorem searchSelector_adv {search : Str} {qs : List Req} (h : AdvReqs search qs) :
    searchSelector search = selectorLoop qs {} := by
  unfold searchSelector
  rw [find?_eq_head_filter]
  rcases h with ⟨h1, rfl⟩ | ⟨text, h1, h2⟩
  · have h1' : List.filter (fun x => hasPrefix x advPrefix) (searchParts search) = [] := h1
    rw [h1']; rfl
  · have h1' : List.filter (fun x => hasPrefix x advPrefix) (searchParts search) = [advPrefix ++ text] := h1
    rw [h1']
    simp only [List.head?_cons]
    split
    · rename_i hl
      simp only [List.length_append] at hl
      have : text = [] := List.length_eq_zero_iff.mp (by omega)
      subst this
      rw [parseReqs_nil] at h2
      obtain rfl := (Option.some.inj h2)
      rfl
    · rw [List.drop_left]
      unfold parseToLabelSelector
      rw [h2, Option.bind_some]

theorem Spec.AdvReqs.valid {search : Str} {qs : List Req} (h : AdvReqs search qs) : ∀ q ∈ qs, q.Valid := by
  rcases h with ⟨_, rfl⟩ | ⟨text, _, h2⟩
  · simp
  · exact parseReqs_valid h2

theorem searchParts_ne_nil (search : Str) : ∀ p ∈ searchParts search, p ≠ [] := by
  intro p hp
  have := (List.mem_filter.mp hp).2
  intro h
  simp [h] at this

/-- Everything about a successful `Clusters`/`Namespaces`, by the first advanced part alone. -/
theorem restrict_search_first {key search s' : Str} {vals : List Str} {qs : List Req}
    (hset : ((searchSelector search).bind fun s => setSearchSelector search (restrictTo key vals s)) = some s')
    (hsel : searchSelector search = selectorLoop qs {}) (hvalid : ∀ q ∈ qs, q.Valid)
    (hsemi : ∀ p ∈ searchParts search, hasPrefix p advPrefix = false → ∀ r, p ≠ 59 :: r)
    (hvals : ∃ v ∈ vals, v ≠ [])
    (hq : ∀ q ∈ qs, q.key ≠ key → q.op = .isIn ∨ q.op = .notIn ∨ q.op = .neq → ∃ v ∈ q.vals, v ≠ []) :
    ∃ ls rs, selectorLoop qs {} = some ls ∧ IsMap ls.matchLabels
      ∧ (∀ e ∈ ls.matchExprs, ∃ q ∈ qs, e = q.toExpr ∧ q.isEq = false)
      ∧ asSelector (restrictTo key vals ls) = some rs ∧ rs ≠ [] ∧ (restrictTo key vals ls).Printable
      ∧ searchParts s' = (advPrefix ++ selStr rs)
          :: (searchParts search).filter (fun part => !hasPrefix part advPrefix) := by
  rw [hsel, Option.bind_eq_some_iff] at hset
  obtain ⟨ls, hls, hset⟩ := hset
  have hsup := selectorLoop_unsupported qs {} ls hls
  have hform := selectorLoop_eq qs {} hvalid hsup
  rw [hls] at hform
  have hform := Option.some.inj hform
  have hmap : IsMap ls.matchLabels := by
    rw [hform]; exact isMap_eqFold _ _ (by simp [IsMap])
  have hex : ∀ e ∈ ls.matchExprs, ∃ q ∈ qs, e = q.toExpr ∧ q.isEq = false := by
    intro e he
    rw [hform] at he
    simp only [List.nil_append, List.mem_map, List.mem_filter] at he
    obtain ⟨q, ⟨hq, hb⟩, rfl⟩ := he
    exact ⟨q, hq, rfl, by simpa using hb⟩
  unfold setSearchSelector at hset
  rw [Option.map_eq_some_iff] at hset
  obtain ⟨sstr, hfmt, hs'⟩ := hset
  have hfmt' := hfmt
  unfold formatSelector at hfmt'
  rw [Option.map_eq_some_iff] at hfmt'
  obtain ⟨rs, hrs, -⟩ := hfmt'
  have hrsne : rs ≠ [] := by
    have hp : rs.Perm _ := (asSelector_some hrs).1 ▸ sortBy_perm _ _
    rintro rfl
    have := hp.length_eq
    simp [restrictTo] at this
  rw [formatSelector_eq hrs hrsne] at hfmt
  obtain rfl := Option.some.inj hfmt
  have hpr : (restrictTo key vals ls).Printable := by
    intro e he hop
    simp only [restrictTo, List.mem_cons, List.mem_filter] at he
    rcases he with rfl | ⟨he, hk⟩
    · exact hvals
    · obtain ⟨q, hqm, rfl, heq⟩ := hex e he
      have hk : q.key ≠ key := of_decide_eq_true hk
      have hop' : q.op = .isIn ∨ q.op = .notIn ∨ q.op = .neq := by
        have hs := hsup q hqm
        obtain ⟨k, op, vs⟩ := q
        cases op <;> simp_all [Req.toExpr, Req.isEq, Op.supported]
      obtain ⟨v, hv1, hv2⟩ := hq q hqm hk hop'
      exact ⟨v, mem_setList.mpr hv1, hv2⟩
  refine ⟨ls, rs, hls, hmap, hex, hrs, hrsne, hpr, ?_⟩
  rw [← hs']
  apply searchParts_join
  · intro p hp
    rcases List.mem_cons.mp hp with rfl | hp
    · simp [advPrefix, lit]
    · exact searchParts_ne_nil _ p (List.mem_filter.mp hp).1
  · intro p hp hh
    rw [List.tail_cons] at hp
    obtain ⟨hp, hp2⟩ := List.mem_filter.mp hp
    cases p with
    | nil => simp at hh
    | cons a r =>
      simp only [List.head?_cons, Option.some.injEq] at hh
      exact hsemi _ hp (by simpa using hp2) r (by rw [hh]; rfl)

/-- Everything about a successful `Clusters`/`Namespaces`. -/
theorem restrict_search {key search s' : Str} {vals : List Str} {qs : List Req}
    (hset : ((searchSelector search).bind fun s => setSearchSelector search (restrictTo key vals s)) = some s')
    (hadv : AdvReqs search qs) (hsemi : ∀ p ∈ searchParts search, ∀ r, p ≠ 59 :: r)
    (hvals : ∃ v ∈ vals, v ≠ [])
    (hq : ∀ q ∈ qs, q.key ≠ key → q.op = .isIn ∨ q.op = .notIn ∨ q.op = .neq → ∃ v ∈ q.vals, v ≠ []) :
    ∃ ls rs, selectorLoop qs {} = some ls ∧ IsMap ls.matchLabels
      ∧ (∀ e ∈ ls.matchExprs, ∃ q ∈ qs, e = q.toExpr ∧ q.isEq = false)
      ∧ asSelector (restrictTo key vals ls) = some rs ∧ rs ≠ [] ∧ (restrictTo key vals ls).Printable
      ∧ searchParts s' = (advPrefix ++ selStr rs)
          :: (searchParts search).filter (fun part => !hasPrefix part advPrefix) :=
  restrict_search_first hset (searchSelector_adv hadv) hadv.valid (fun p hp _ => hsemi p hp) hvals hq

theorem restrict_holds {key : Str} {vals : List Str} {qs : List Req} {ls : LabelSelector}
    (hv : ∀ q ∈ qs, q.Valid) (hls : selectorLoop qs {} = some ls)
    (hn : ((qs.filter Req.isEq).map Req.key).Nodup)
    (hkey : ∀ q ∈ qs, q.isEq = true → q.key ≠ key) (m : List (Str × Str)) :
    SelectorHolds (restrictTo key vals ls) m ↔
      (∃ v, lookup key m = some v ∧ v ∈ vals) ∧ ∀ q ∈ qs, q.key ≠ key → ReqHolds q m := by
  have hs := selectorLoop_unsupported qs {} ls hls
  have hform := selectorLoop_eq qs {} hv hs
  rw [hls] at hform
  have hform := Option.some.inj hform
  have hmem := fun k v => mem_eqFold (f := fun q => q.vals.headD []) (qs.filter Req.isEq) [] k v
    (by simp [IsMap]) hn (by simp [lookup])
  subst hform
  simp only [SelectorHolds, restrictTo, List.nil_append, List.mem_cons, List.mem_filter, List.mem_map]
  constructor
  · rintro ⟨h1, h2⟩
    refine ⟨by simpa [ExprHolds] using h2 _ (Or.inl rfl), ?_⟩
    intro q hq hk
    rw [← matches_iff_reqHolds (hs q hq)]
    cases he : q.isEq with
    | true =>
      rw [isEq_matches (hv q hq) he]
      exact h1 _ _ ((hmem _ _).mpr (Or.inr ⟨q, List.mem_filter.mpr ⟨hq, he⟩, rfl, rfl⟩))
    | false =>
      rw [← toExpr_holds (hs q hq) he]
      exact h2 _ (Or.inr ⟨⟨q, ⟨hq, by simp [he]⟩, rfl⟩, decide_eq_true hk⟩)
  · rintro ⟨h0, hh⟩
    constructor
    · intro k v hkv
      rcases (hmem k v).mp hkv with h | ⟨q, hq, rfl, rfl⟩
      · simp at h
      · obtain ⟨hq, he⟩ := List.mem_filter.mp hq
        rw [← isEq_matches (hv q hq) he m, matches_iff_reqHolds (hs q hq)]
        exact hh q hq (hkey q hq he)
    · rintro e (rfl | ⟨⟨q, ⟨hq, he⟩, rfl⟩, hk⟩)
      · exact h0
      · have he : q.isEq = false := by simpa using he
        rw [toExpr_holds (hs q hq) he, matches_iff_reqHolds (hs q hq)]
        exact hh q hq (of_decide_eq_true hk)

/-- What counts after the requirement on `key` is replaced: the new one, the last equality for every key, and every other
requirement that is not on `key`. -/
theorem restrict_holds_last {key : Str} {vals : List Str} {qs : List Req} {ls : LabelSelector}
    (hv : ∀ q ∈ qs, q.Valid) (hls : selectorLoop qs {} = some ls) (m : List (Str × Str)) :
    SelectorHolds (restrictTo key vals ls) m ↔
      (∃ v, lookup key m = some v ∧ v ∈ vals)
        ∧ ∀ q ∈ lastEqualities qs, q.key ≠ key ∨ q.op = .eq ∨ q.op = .deq → ReqHolds q m := by
  have hs := selectorLoop_unsupported qs {} ls hls
  have hform := selectorLoop_eq qs {} hv hs
  rw [hls] at hform
  have hform := Option.some.inj hform
  have hmem := fun k v => mem_eqFold_last (f := fun q => q.vals.headD []) qs [] k v (by simp [IsMap])
  have hsub := lastEqualities_subset qs
  subst hform
  simp only [SelectorHolds, restrictTo, List.nil_append, List.mem_cons, List.mem_filter, List.mem_map]
  constructor
  · rintro ⟨h1, h2⟩
    refine ⟨by simpa [ExprHolds] using h2 _ (Or.inl rfl), ?_⟩
    intro q hq hk
    rw [← matches_iff_reqHolds (hs q (hsub q hq))]
    cases he : q.isEq with
    | true =>
      rw [isEq_matches (hv q (hsub q hq)) he]
      exact h1 _ _ ((hmem _ _).mpr (Or.inl ⟨q, hq, he, rfl, rfl⟩))
    | false =>
      rw [← toExpr_holds (hs q (hsub q hq)) he]
      have hk' : q.key ≠ key := by
        rcases hk with hk | hk
        · exact hk
        · rw [isEq_ops.mpr hk] at he; simp at he
      exact h2 _ (Or.inr ⟨⟨q, ⟨hsub q hq, by simp [he]⟩, rfl⟩, decide_eq_true hk'⟩)
  · rintro ⟨h0, hh⟩
    constructor
    · intro k v hkv
      rcases (hmem k v).mp hkv with ⟨q, hq, he, rfl, rfl⟩ | h
      · rw [← isEq_matches (hv q (hsub q hq)) he m, matches_iff_reqHolds (hs q (hsub q hq))]
        exact hh q hq (Or.inr (isEq_ops.mp he))
      · simp at h
    · rintro e (rfl | ⟨⟨q, ⟨hq, he⟩, rfl⟩, hk⟩)
      · exact h0
      · have he : q.isEq = false := by simpa using he
        rw [toExpr_holds (hs q hq) he, matches_iff_reqHolds (hs q hq)]
        exact hh q (mem_lastEqualities_ne he qs hq) (Or.inl (of_decide_eq_true hk))

end Ckube

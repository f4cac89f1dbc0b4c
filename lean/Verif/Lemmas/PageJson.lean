import Verif.Lemmas.Json

/-! # The JSON form of `Paginate` -/

namespace Ckube

/-- A `Paginate` whose integers are `int64` values and whose strings are valid UTF-8. -/
structure Paginate.WF (p : Paginate) : Prop where
  page : minInt64 ≤ p.page ∧ p.page ≤ maxInt64
  pageSize : minInt64 ≤ p.pageSize ∧ p.pageSize ≤ maxInt64
  total : minInt64 ≤ p.total ∧ p.total ≤ maxInt64
  sort : validUtf8 p.sort = true
  search : validUtf8 p.search = true

/-- The members with the JSON values the reader finds. -/
def Paginate.tagged (p : Paginate) : List ((Str × Str) × JV) :=
  (if p.page = 0 then [] else [((lit "page", intDigits p.page), .num (intDigits p.page))])
    ++ (if p.pageSize = 0 then []
        else [((lit "page_size", intDigits p.pageSize), .num (intDigits p.pageSize))])
    ++ (if p.total = 0 then [] else [((lit "total", intDigits p.total), .num (intDigits p.total))])
    ++ (if p.sort = [] then [] else [((lit "sort", Json.encStr p.sort), .str p.sort)])
    ++ (if p.search = [] then [] else [((lit "search", Json.encStr p.search), .str p.search)])

theorem tagged_members (p : Paginate) : p.tagged.map Prod.fst = p.members := by
  unfold Paginate.tagged Paginate.members
  simp only [List.map_append]
  congr 1
  · congr 1
    · congr 1
      · congr 1 <;> split <;> rfl
      · split <;> rfl
    · split <;> rfl
  · split <;> rfl

theorem goodMember_int (k : Str) (hk : (chunks k).flatMap Json.escChunk = k) (hv : validUtf8 k = true)
    (i : Int) : Json.GoodMember (k, intDigits i) (.num (intDigits i)) :=
  ⟨hk, hv, fun f _ ht => Json.pVal_int f i ht⟩

theorem goodMember_str (k : Str) (hk : (chunks k).flatMap Json.escChunk = k) (hv : validUtf8 k = true)
    {s : Str} (hs : validUtf8 s = true) : Json.GoodMember (k, Json.encStr s) (.str s) :=
  ⟨hk, hv, fun f t _ => Json.pVal_str f hs t⟩

theorem tagged_good {p : Paginate} (h : p.WF) : ∀ e ∈ p.tagged, Json.GoodMember e.1 e.2 := by
  intro e he
  simp only [Paginate.tagged, List.mem_append] at he
  rcases he with (((he | he) | he) | he) | he <;>
  · split at he
    · simp at he
    · rw [List.mem_singleton] at he
      subst he
      first
        | exact goodMember_int _ (by decide +kernel) (by decide +kernel) _
        | exact goodMember_str _ (by decide +kernel) (by decide +kernel) h.sort
        | exact goodMember_str _ (by decide +kernel) (by decide +kernel) h.search

theorem join_length (l : List Str) (h : ∀ s ∈ l, s ≠ []) : l.length ≤ (join [44] l).length := by
  induction l with
  | nil => simp
  | cons a l ih =>
    have ha := List.length_pos_iff.mpr (h a (by simp))
    cases l with
    | nil => simp [join]; omega
    | cons b l =>
      have := ih (fun s hs => h s (by simp at hs ⊢; tauto))
      simp only [join, List.length_append, List.length_cons] at this ⊢
      omega

theorem toJson_eq (p : Paginate) :
    p.toJson = [123] ++ join [44] (p.tagged.map fun e => encMember e.1) ++ [125] := by
  unfold Paginate.toJson
  rw [← tagged_members, List.map_map]
  rfl

theorem parse_toJson {p : Paginate} (h : p.WF) :
    Json.parse p.toJson = some (.obj (p.tagged.map fun e => (e.1.1, e.2))) := by
  rw [toJson_eq]
  by_cases hne : p.tagged = []
  · rw [hne]; rfl
  · have hlen := join_length (p.tagged.map fun e => encMember e.1) (by
      intro s hs
      obtain ⟨e, _, rfl⟩ := List.mem_map.mp hs
      simp [encMember])
    have hpm := Json.pMembers_join p.tagged hne (tagged_good h)
      ((join [44] (p.tagged.map fun e : (Str × Str) × JV => encMember e.1) ++ [125]).length + 1)
      (by simp at hlen ⊢; omega) []
    obtain ⟨e, l, hel⟩ := List.exists_cons_of_ne_nil hne
    have hhead : ∃ r, join [44] (p.tagged.map fun e => encMember e.1) = 34 :: r := by
      rw [hel]
      cases l with
      | nil => exact ⟨_, rfl⟩
      | cons b l => exact ⟨_, rfl⟩
    obtain ⟨r, hr⟩ := hhead
    unfold Json.parse
    rw [List.append_assoc, List.singleton_append, List.length_cons]
    rw [Json.pVal, Json.skipWs_cons (by decide)]
    simp only [if_true]
    rw [hr] at hpm ⊢
    simp only [List.cons_append, List.append_nil] at hpm ⊢
    rw [Json.skipWs_cons (by decide)]
    simp only [show (34 : UInt8) ≠ 125 by decide, if_false]
    rw [hpm]
    rfl

theorem setMember_page (p : Paginate) (v : JV) :
    setMember p (lit "page", v) = { p with page := setInt p.page v } := rfl
theorem setMember_pageSize (p : Paginate) (v : JV) :
    setMember p (lit "page_size", v) = { p with pageSize := setInt p.pageSize v } := rfl
theorem setMember_total (p : Paginate) (v : JV) :
    setMember p (lit "total", v) = { p with total := setInt p.total v } := rfl
theorem setMember_sort (p : Paginate) (v : JV) :
    setMember p (lit "sort", v) = { p with sort := setStr p.sort v } := rfl
theorem setMember_search (p : Paginate) (v : JV) :
    setMember p (lit "search", v) = { p with search := setStr p.search v } := rfl

theorem decode_toJson {p : Paginate} (h : p.WF) : decodePaginate p.toJson = p := by
  unfold decodePaginate
  rw [parse_toJson h]
  simp only [Paginate.tagged, List.map_append, List.foldl_append]
  have e1 := parseInt64_intDigits h.page
  have e2 := parseInt64_intDigits h.pageSize
  have e3 := parseInt64_intDigits h.total
  obtain ⟨page, pageSize, total, sort, search⟩ := p
  simp only at *
  by_cases h1 : page = 0 <;> by_cases h2 : pageSize = 0 <;> by_cases h3 : total = 0 <;>
    by_cases h4 : sort = [] <;> by_cases h5 : search = [] <;>
    simp [h1, h2, h3, h4, h5, setMember_page, setMember_pageSize, setMember_total, setMember_sort,
      setMember_search, setInt, setStr, e1, e2, e3]

end Ckube

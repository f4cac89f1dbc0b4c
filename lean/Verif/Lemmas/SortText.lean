import Verif.Spec.SortText
import Verif.Lemmas.SearchText
import Verif.Lemmas.Sort
import Verif.Lemmas.TemplateRun

/-! # Lemmas about sort texts -/

namespace Ckube
open Spec

theorem strLe_false_lt : ∀ {a b : Str}, strLe b a = false → a < b
  | [], [], h => by simp [strLe] at h
  | _ :: _, [], h => by simp [strLe] at h
  | [], b :: bs, _ => List.nil_lt_cons b bs
  | a :: as, b :: bs, h => by
    rw [List.cons_lt_cons_iff]
    simp only [strLe] at h
    by_cases h1 : b < a
    · rw [if_pos h1] at h; simp at h
    · rw [if_neg h1] at h
      by_cases h2 : b = a
      · rw [if_pos h2] at h
        exact Or.inr ⟨h2.symm, strLe_false_lt h⟩
      · left
        exact UInt8.lt_of_le_of_ne (UInt8.not_lt.mp h1) (fun e => h2 e.symm)

theorem strLt_lt {a b : Str} (h : strLt a b = true) : a < b := strLe_false_lt (strLt_iff.mp h)

/-- No white space character contains a comma. -/
theorem spaces_comma {a : Str} (h : Spaces a) : (44 : UInt8) ∉ a := by
  obtain ⟨ws, rfl, hws⟩ := h
  rw [List.mem_flatten]
  rintro ⟨w, hw, hm⟩
  exact (show ∀ w ∈ whiteSpace, (44 : UInt8) ∉ w by decide +kernel) w (hws w hw) hm

theorem indexKey_not {k : Str} (h : IndexKey k) {b : UInt8} (hb : b ∉ lit "abcdefghijklmnopqrstuvwxyzABCDEFGHIJKLMNOPQRSTUVWXYZ0123456789-_.") : b ∉ k :=
  fun hm => hb (h.2 b hm)

/-- Letters, digits and the signs of names and items are no white space. -/
theorem solid_ends {x : Str} (hf : ∃ a r, x = a :: r ∧ 0x21 ≤ a ∧ a ≤ 0x7E) (hl : ∃ r z, x = r ++ [z] ∧ 0x21 ≤ z ∧ z ≤ 0x7E) : Solid x := by
  obtain ⟨a, r, h1, ha⟩ := hf
  obtain ⟨r', z, h2, hz⟩ := hl
  refine ⟨by rw [h1]; simp, fun w hw => ⟨?_, ?_⟩⟩
  · rintro ⟨t, ht⟩
    have k : ∀ w ∈ whiteSpace, ∀ b ∈ w, ¬ (0x21 ≤ b ∧ b ≤ 0x7E) := by decide +kernel
    match w, hw, ws_ne hw with
    | b :: w, hw, _ =>
      rw [h1] at ht
      simp only [List.cons_append, List.cons.injEq] at ht
      exact k _ hw b (by simp) (ht.1 ▸ ha)
  · rintro ⟨t, ht⟩
    have k : ∀ w ∈ whiteSpace, ∀ b ∈ w, ¬ (0x21 ≤ b ∧ b ≤ 0x7E) := by decide +kernel
    have : z ∈ w := by
      have hne := ws_ne hw
      have e := congrArg List.getLast? ht
      rw [h2, List.getLast?_append_of_ne_nil _ hne] at e
      simp only [List.getLast?_append, List.getLast?_singleton, Option.some_or] at e
      exact List.mem_of_getLast? e
    exact k w hw z this hz

theorem indexKey_bytes {k : Str} (h : IndexKey k) : ∀ b ∈ k, 0x21 ≤ b ∧ b ≤ 0x7E := by
  have key : ∀ b : UInt8, b ∈ lit "abcdefghijklmnopqrstuvwxyzABCDEFGHIJKLMNOPQRSTUVWXYZ0123456789-_." → 0x21 ≤ b ∧ b ≤ 0x7E :=
    forall_byte (by decide +kernel)
  exact fun b hb => key b (h.2 b hb)

theorem item_solid {k : SortKey} {x : Str} (h : ItemSays k x) : Solid x ∧ (44 : UInt8) ∉ x := by
  cases h with
  | @mk k typ dir num rev hk ht hd =>
    have hkb := indexKey_bytes hk
    constructor
    · apply solid_ends
      · match k, hk.1 with
        | a :: r, _ => exact ⟨a, r ++ typ ++ dir, by simp, hkb a (by simp)⟩
      · have hlast : ∀ s : Str, s ≠ [] → (∀ z, s.getLast? = some z → 0x21 ≤ z ∧ z ≤ 0x7E) → ∀ p : Str, ∃ r z, p ++ s = r ++ [z] ∧ 0x21 ≤ z ∧ z ≤ 0x7E := by
          intro s hs hz p
          refine ⟨p ++ s.dropLast, s.getLast hs, ?_, hz _ (List.getLast?_eq_getLast hs)⟩
          rw [List.append_assoc, List.dropLast_concat_getLast]
        by_cases hdir : dir = []
        · by_cases htyp : typ = []
          · rw [hdir, htyp]
            have := hlast k hk.1 (fun z hz => hkb z (List.mem_of_getLast? hz)) []
            simpa using this
          · rw [hdir]
            have := hlast typ htyp (by
              intro z hz
              simp only [List.mem_cons, List.not_mem_nil, or_false, Prod.mk.injEq] at ht
              rcases ht with ⟨rfl, _⟩ | ⟨rfl, _⟩ | ⟨rfl, _⟩
              · exact absurd rfl htyp
              · revert z; decide +kernel
              · revert z; decide +kernel) k
            simpa using this
        · have := hlast dir hdir (by
            intro z hz
            simp only [List.mem_cons, List.not_mem_nil, or_false, Prod.mk.injEq] at hd
            rcases hd with ⟨rfl, _⟩ | ⟨rfl, _⟩ | ⟨rfl, _⟩
            · exact absurd rfl hdir
            · revert z; decide +kernel
            · revert z; decide +kernel) (k ++ typ)
          exact this
    · have h1 : (44 : UInt8) ∉ k := indexKey_not hk (by decide)
      have h2 : (44 : UInt8) ∉ typ := by
        simp only [List.mem_cons, List.not_mem_nil, or_false, Prod.mk.injEq] at ht
        rcases ht with ⟨rfl, _⟩ | ⟨rfl, _⟩ | ⟨rfl, _⟩ <;> decide
      have h3 : (44 : UInt8) ∉ dir := by
        simp only [List.mem_cons, List.not_mem_nil, or_false, Prod.mk.injEq] at hd
        rcases hd with ⟨rfl, _⟩ | ⟨rfl, _⟩ | ⟨rfl, _⟩ <;> decide
      simp only [List.mem_append, not_or]
      exact ⟨⟨h1, h2⟩, h3⟩

/-- An item with white space around it means its key. -/
theorem item_means {k : SortKey} {a x b : Str} (ha : Spaces a) (h : ItemSays k x) (hb : Spaces b) : ItemMeans (a ++ x ++ b) k := by
  have ht := trimSpace_solid ha (item_solid h).1 hb
  cases h with
  | @mk k typ dir num rev hk htyp hdir =>
    refine ⟨indexKey_not hk (by decide), indexKey_not hk (by decide), typ, dir, ht, ?_, ?_⟩
    · simp only [List.mem_cons, List.not_mem_nil, or_false, Prod.mk.injEq] at htyp
      exact htyp
    · simp only [List.mem_cons, List.not_mem_nil, or_false, Prod.mk.injEq] at hdir
      exact hdir

theorem slots_mean : ∀ {slots : List (List SortKey × Str)}, (∀ e ∈ slots, SlotSays e.1 e.2) →
    List.Forall₂ ItemMeans ((slots.map Prod.snd).filter fun i => trimSpace i ≠ []) (slots.map Prod.fst).flatten
  | [], _ => by simp
  | (ks, t) :: slots, h => by
    have ih := slots_mean (slots := slots) fun e he => h e (List.mem_cons_of_mem _ he)
    have hs := h (ks, t) (by simp)
    cases hs with
    | nothing ha =>
      simp only [List.map_cons, List.flatten_cons, List.nil_append]
      rw [List.filter_cons_of_neg (by simp [trimSpace_spaces ha])]
      exact ih
    | @item a x b k ha hx hb =>
      simp only [List.map_cons, List.flatten_cons, List.singleton_append]
      rw [List.filter_cons_of_pos (by
        show decide (trimSpace (a ++ x ++ b) ≠ []) = true
        rw [trimSpace_solid ha (item_solid hx).1 hb]
        simpa using (item_solid hx).1.1)]
      exact .cons (item_means ha hx hb) ih

/-- A sort text means the keys it says. -/
theorem sortSays_means {ks : List SortKey} {sort : Str} (h : SortSays ks sort) : SortMeans sort ks := by
  rcases h with ⟨rfl, rfl⟩ | ⟨hne, slots, h1, rfl, h3⟩
  · exact Or.inl ⟨rfl, rfl⟩
  · refine Or.inr ⟨hne, ?_⟩
    have hs : slots.map Prod.snd ≠ [] := by
      intro e
      rw [e] at h3
      exact hne (by rw [h3]; rfl)
    have hcomma : ∀ p ∈ slots.map Prod.snd, (44 : UInt8) ∉ p := by
      intro p hp
      obtain ⟨e, he, rfl⟩ := List.mem_map.mp hp
      obtain ⟨ks, t⟩ := e
      cases h1 _ he with
      | nothing ha => exact spaces_comma ha
      | @item a x b k ha hx hb =>
        show (44 : UInt8) ∉ a ++ x ++ b
        simp only [List.mem_append, not_or]
        exact ⟨⟨spaces_comma ha, (item_solid hx).2⟩, spaces_comma hb⟩
    rw [h3, ← join_intercalate, splitByte_join 44 _ hs hcomma]
    exact slots_mean h1

end Ckube

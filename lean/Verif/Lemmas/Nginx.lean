import Verif.Lemmas.Str
import Verif.Model.Nginx
import Verif.Spec.Nginx

/-! # Lemmas: the regular expressions of nginx.conf -/

namespace Ckube
open Spec

theorem mem_plusEnds {p : UInt8 → Bool} : ∀ {s t : Str}, t ∈ plusEnds p s ↔ ∃ u, u ≠ [] ∧ s = u ++ t ∧ ∀ c ∈ u, p c = true
  | [], t => by
    simp only [plusEnds, List.not_mem_nil, false_iff]
    rintro ⟨u, hu, h, _⟩
    cases u with
    | nil => exact hu rfl
    | cons => simp at h
  | c :: s, t => by
    unfold plusEnds
    by_cases hc : p c = true
    · rw [if_pos hc, List.mem_cons, mem_plusEnds]
      constructor
      · rintro (rfl | ⟨u, hu, rfl, h⟩)
        · exact ⟨[c], by simp, rfl, by simpa using hc⟩
        · exact ⟨c :: u, by simp, rfl, by simpa [hc] using h⟩
      · rintro ⟨u, hu, h1, h2⟩
        cases u with
        | nil => exact absurd rfl hu
        | cons d u =>
          simp only [List.cons_append, List.cons.injEq] at h1
          obtain ⟨rfl, rfl⟩ := h1
          cases u with
          | nil => exact Or.inl rfl
          | cons e u => exact Or.inr ⟨e :: u, by simp, rfl, fun x hx => h2 x (List.mem_cons_of_mem _ hx)⟩
    · rw [if_neg hc]
      simp only [List.not_mem_nil, false_iff]
      rintro ⟨u, hu, h1, h2⟩
      cases u with
      | nil => exact hu rfl
      | cons d u =>
        simp only [List.cons_append, List.cons.injEq] at h1
        exact hc (by rw [h1.1]; exact h2 d (by simp))

theorem mem_ends_txt : ∀ {w : Str}, w ≠ [] → ∀ {b : Bool} {s : Str} {y : Bool × Str}, y ∈ (Rx.txt w).ends (b, s) ↔ s = w ++ y.2 ∧ y.1 = false
  | [c], _, b, s, y => by
    cases s with
    | nil => simp [Rx.txt, Rx.ends]
    | cons d s =>
      obtain ⟨y1, y2⟩ := y
      simp only [Rx.txt, Rx.ends]
      by_cases h : d = c
      · subst h
        simp
        constructor
        · rintro ⟨rfl, rfl⟩; exact ⟨rfl, rfl⟩
        · rintro ⟨rfl, rfl⟩; exact ⟨rfl, rfl⟩
      · simp [h]
  | c :: d :: w, _, b, s, y => by
    show y ∈ (Rx.cat (.one (· == c)) (Rx.txt (d :: w))).ends (b, s) ↔ _
    simp only [Rx.ends, List.mem_flatMap]
    cases s with
    | nil => simp
    | cons e s =>
      by_cases h : e = c
      · subst h
        simp only [beq_self_eq_true, if_true, List.mem_singleton, exists_eq_left]
        rw [mem_ends_txt (by simp)]
        simp
      · simp [h]

theorem mem_ends_plus {p : UInt8 → Bool} {b : Bool} {s : Str} {y : Bool × Str} :
    y ∈ (Rx.plus p).ends (b, s) ↔ y.1 = false ∧ ∃ u, u ≠ [] ∧ s = u ++ y.2 ∧ ∀ c ∈ u, p c = true := by
  simp only [Rx.ends, List.mem_map, mem_plusEnds]
  constructor
  · rintro ⟨t, h, rfl⟩; exact ⟨rfl, h⟩
  · rintro ⟨h1, h⟩; exact ⟨y.2, h, by rw [← h1]⟩

theorem wordByte_iff (c : UInt8) : wordByte c = true ↔ c ∈ lit "0123456789abcdefghijklmnopqrstuvwxyzABCDEFGHIJKLMNOPQRSTUVWXYZ.-_" := by
  revert c
  exact forall_byte (by decide +kernel)

theorem word_iff {s : Str} : (s ≠ [] ∧ ∀ c ∈ s, wordByte c = true) ↔ IsWord s := by
  unfold IsWord
  simp only [wordByte_iff]

theorem not_later_api (s : Str) : apiRx.later s = false := by
  have h : ∀ t, apiRx.ends (false, t) = [] := by
    intro t
    simp [apiRx, Rx.ends]
  induction s with
  | nil => simp [Rx.later, h]
  | cons c s ih => simp [Rx.later, h, ih]

theorem ends_txt {w : Str} (hw : w ≠ []) {x y : Bool × Str} : y ∈ (Rx.txt w).ends x ↔ x.2 = w ++ y.2 ∧ y.1 = false := mem_ends_txt hw

theorem ends_plus {p : UInt8 → Bool} {x y : Bool × Str} :
    y ∈ (Rx.plus p).ends x ↔ y.1 = false ∧ ∃ u, u ≠ [] ∧ x.2 = u ++ y.2 ∧ ∀ c ∈ u, p c = true := mem_ends_plus

theorem ends_cat {a b : Rx} {x y : Bool × Str} : y ∈ (Rx.cat a b).ends x ↔ ∃ z, z ∈ a.ends x ∧ y ∈ b.ends z := by
  simp [Rx.ends, List.mem_flatMap]

theorem ends_alt {a b : Rx} {x y : Bool × Str} : y ∈ (Rx.alt a b).ends x ↔ y ∈ a.ends x ∨ y ∈ b.ends x := by simp [Rx.ends]

theorem ends_opt {a : Rx} {x y : Bool × Str} : y ∈ (Rx.opt a).ends x ↔ y ∈ a.ends x ∨ y = x := by simp [Rx.ends]

theorem ends_bol {x y : Bool × Str} : y ∈ Rx.bol.ends x ↔ y = x ∧ x.1 = true := by
  obtain ⟨b, s⟩ := x
  cases b <;> simp [Rx.ends]

theorem ends_eol {x y : Bool × Str} : y ∈ Rx.eol.ends x ↔ y = x ∧ (x.2 = [] ∨ x.2 = [10]) := by
  obtain ⟨b, s⟩ := x
  simp only [Rx.ends]
  split <;> simp [*]

/-- A match of the regular expression, in pieces. -/
theorem api_pieces (p : Str) : (∃ y, y ∈ apiRx.ends (true, p)) ↔ ∃ head v ns rt name e : Str,
      (head = lit "/api" ∨ ∃ g, IsWord g ∧ head = lit "/apis/" ++ g) ∧ IsWord v ∧ (ns = [] ∨ ∃ n, IsWord n ∧ ns = lit "namespaces/" ++ (n ++ [47]))
      ∧ IsWord rt ∧ (name = [] ∨ ∃ n, n ≠ [] ∧ (47 : UInt8) ∉ n ∧ name = 47 :: n) ∧ (e = [] ∨ e = [10])
      ∧ p = head ++ (47 :: (v ++ 47 :: (ns ++ (rt ++ (name ++ e))))) := by
  have hn : ∀ n : Str, (∀ c ∈ n, notSlash c = true) ↔ (47 : UInt8) ∉ n := by
    intro n
    simp only [notSlash, bne_iff_ne, ne_eq]
    exact ⟨fun h hm => h _ hm rfl, fun h c hc e => h (e ▸ hc)⟩
  have hs : lit "/" = [47] := rfl
  unfold apiRx
  constructor
  · rintro ⟨y, hy⟩
    rw [ends_cat] at hy
    obtain ⟨z1, h1, hy⟩ := hy
    rw [ends_cat, hs] at hy
    obtain ⟨z2, h2, hy⟩ := hy
    rw [ends_txt (by simp)] at h2
    rw [ends_cat] at hy
    obtain ⟨z3, h3, hy⟩ := hy
    rw [ends_plus] at h3
    obtain ⟨-, v, v1, h3, v2⟩ := h3
    rw [ends_cat] at hy
    obtain ⟨z4, h4, hy⟩ := hy
    rw [ends_txt (by simp)] at h4
    rw [ends_cat] at hy
    obtain ⟨z5, h5, hy⟩ := hy
    rw [ends_cat] at hy
    obtain ⟨z6, h6, hy⟩ := hy
    rw [ends_plus] at h6
    obtain ⟨-, rt, r1, h6, r2⟩ := h6
    rw [ends_cat] at hy
    obtain ⟨z7, h7, hy⟩ := hy
    rw [ends_eol] at hy
    obtain ⟨-, h8⟩ := hy
    have a1 : ∃ head, (head = lit "/api" ∨ ∃ g, IsWord g ∧ head = lit "/apis/" ++ g) ∧ p = head ++ z1.2 := by
      rw [ends_alt] at h1
      rcases h1 with h1 | h1
      · rw [ends_cat] at h1
        obtain ⟨z, hz, h1⟩ := h1
        rw [ends_bol] at hz
        rw [ends_txt (by decide), hz.1] at h1
        exact ⟨_, Or.inl rfl, h1.1⟩
      · rw [ends_cat] at h1
        obtain ⟨z, hz, h1⟩ := h1
        rw [ends_bol] at hz
        rw [ends_cat, hz.1] at h1
        obtain ⟨z', hz', h1⟩ := h1
        rw [ends_txt (by decide)] at hz'
        rw [ends_plus] at h1
        obtain ⟨-, g, g1, h1, g2⟩ := h1
        refine ⟨_, Or.inr ⟨g, word_iff.mp ⟨g1, g2⟩, rfl⟩, ?_⟩
        rw [List.append_assoc, ← h1]
        exact hz'.1
    have a2 : ∃ ns, (ns = [] ∨ ∃ n, IsWord n ∧ ns = lit "namespaces/" ++ (n ++ [47])) ∧ z4.2 = ns ++ z5.2 := by
      rw [ends_opt] at h5
      rcases h5 with h5 | h5
      · rw [ends_cat] at h5
        obtain ⟨z, hz, h5⟩ := h5
        rw [ends_txt (by decide)] at hz
        rw [ends_cat] at h5
        obtain ⟨z', hz', h5⟩ := h5
        rw [ends_plus] at hz'
        obtain ⟨-, n, n1, hz', n2⟩ := hz'
        rw [ends_txt (by simp)] at h5
        refine ⟨_, Or.inr ⟨n, word_iff.mp ⟨n1, n2⟩, rfl⟩, ?_⟩
        rw [hz.1, hz', h5.1]; simp
      · exact ⟨[], Or.inl rfl, by rw [h5]; rfl⟩
    have a3 : ∃ name, (name = [] ∨ ∃ n, n ≠ [] ∧ (47 : UInt8) ∉ n ∧ name = 47 :: n) ∧ z6.2 = name ++ z7.2 := by
      rw [ends_opt] at h7
      rcases h7 with h7 | h7
      · rw [ends_cat] at h7
        obtain ⟨z, hz, h7⟩ := h7
        rw [ends_txt (by simp)] at hz
        rw [ends_plus] at h7
        obtain ⟨-, n, n1, h7, n2⟩ := h7
        refine ⟨_, Or.inr ⟨n, n1, (hn n).mp n2, rfl⟩, ?_⟩
        rw [hz.1, h7]; rfl
      · exact ⟨[], Or.inl rfl, by rw [h7]; rfl⟩
    obtain ⟨head, b1, c1⟩ := a1
    obtain ⟨ns, b2, c2⟩ := a2
    obtain ⟨name, b3, c3⟩ := a3
    refine ⟨head, v, ns, rt, name, z7.2, b1, word_iff.mp ⟨v1, v2⟩, b2, word_iff.mp ⟨r1, r2⟩, b3, h8, ?_⟩
    rw [c1, h2.1, h3, h4.1, c2, h6, c3]
    simp
  · rintro ⟨head, v, ns, rt, name, e, b1, b2, b3, b4, b5, b6, rfl⟩
    rw [← word_iff] at b2 b4
    refine ⟨(false, e), ends_cat.mpr ⟨(false, 47 :: (v ++ 47 :: (ns ++ (rt ++ (name ++ e))))), ?_, ?_⟩⟩
    · rw [ends_alt]
      rcases b1 with rfl | ⟨g, hg, rfl⟩
      · exact Or.inl (ends_cat.mpr ⟨(true, _), ends_bol.mpr ⟨rfl, rfl⟩, (ends_txt (by decide)).mpr ⟨rfl, rfl⟩⟩)
      · rw [← word_iff] at hg
        refine Or.inr (ends_cat.mpr ⟨(true, _), ends_bol.mpr ⟨rfl, rfl⟩, ends_cat.mpr
          ⟨(false, g ++ (47 :: (v ++ 47 :: (ns ++ (rt ++ (name ++ e)))))), (ends_txt (by decide)).mpr ⟨by simp, rfl⟩, ?_⟩⟩)
        exact ends_plus.mpr ⟨rfl, g, hg.1, rfl, hg.2⟩
    rw [hs]
    refine ends_cat.mpr ⟨(false, v ++ 47 :: (ns ++ (rt ++ (name ++ e)))), (ends_txt (by simp)).mpr ⟨rfl, rfl⟩, ?_⟩
    refine ends_cat.mpr ⟨(false, 47 :: (ns ++ (rt ++ (name ++ e)))), ends_plus.mpr ⟨rfl, v, b2.1, rfl, b2.2⟩, ?_⟩
    refine ends_cat.mpr ⟨(false, ns ++ (rt ++ (name ++ e))), (ends_txt (by simp)).mpr ⟨rfl, rfl⟩, ?_⟩
    refine ends_cat.mpr ⟨(false, rt ++ (name ++ e)), ?_, ?_⟩
    · rw [ends_opt]
      rcases b3 with rfl | ⟨n, hn', rfl⟩
      · exact Or.inr rfl
      · rw [← word_iff] at hn'
        refine Or.inl (ends_cat.mpr ⟨(false, n ++ 47 :: (rt ++ (name ++ e))), (ends_txt (by decide)).mpr ⟨by simp, rfl⟩, ?_⟩)
        exact ends_cat.mpr ⟨(false, 47 :: (rt ++ (name ++ e))), ends_plus.mpr ⟨rfl, n, hn'.1, rfl, hn'.2⟩, (ends_txt (by simp)).mpr ⟨rfl, rfl⟩⟩
    refine ends_cat.mpr ⟨(false, name ++ e), ends_plus.mpr ⟨rfl, rt, b4.1, rfl, b4.2⟩, ?_⟩
    refine ends_cat.mpr ⟨(false, e), ?_, ends_eol.mpr ⟨rfl, b6⟩⟩
    rw [ends_opt]
    rcases b5 with rfl | ⟨n, n1, n2, rfl⟩
    · exact Or.inr rfl
    · exact Or.inl (ends_cat.mpr ⟨(false, n ++ e), (ends_txt (by simp)).mpr ⟨rfl, rfl⟩, ends_plus.mpr ⟨rfl, n, n1, rfl, (hn n).mpr n2⟩⟩)

theorem search_start (p : Str) : apiRx.search p = true ↔ ∃ y, y ∈ apiRx.ends (true, p) := by
  have h : apiRx.search p = !(apiRx.ends (true, p)).isEmpty := by
    cases p with
    | nil => simp [Rx.search]
    | cons c s => simp [Rx.search, not_later_api s]
  rw [h, Bool.not_eq_true', List.isEmpty_eq_false_iff_exists_mem]

/-- The location of lists and objects takes these paths. -/
theorem api_search (p : Str) : apiRx.search p = true ↔ ∃ t : Target, t.Plain ∧ (p = t.path ∨ p = t.path ++ [10]) := by
  rw [search_start, api_pieces]
  have ha : lit "/api" = 47 :: lit "api" := by decide
  have has : ∀ g, lit "/apis/" ++ g = 47 :: lit "apis" ++ 47 :: g := by
    intro g
    have : lit "/apis/" = 47 :: lit "apis" ++ [47] := by decide
    rw [this]; simp
  have hns : ∀ n, lit "namespaces/" ++ (n ++ [47]) = lit "namespaces" ++ 47 :: (n ++ [47]) := by
    intro n
    have : lit "namespaces/" = lit "namespaces" ++ [47] := by decide
    rw [this]; simp
  constructor
  · rintro ⟨head, v, ns, rt, name, e, b1, b2, b3, b4, b5, b6, hp⟩
    have e1 : ∃ g, (g = [] ∨ IsWord g) ∧ head ++ 47 :: v = pathText (if g = [] then [lit "api", v] else [lit "apis", g, v]) := by
      rcases b1 with rfl | ⟨g, hg, rfl⟩
      · exact ⟨[], Or.inl rfl, by simp [pathText, ha]⟩
      · exact ⟨g, Or.inr hg, by rw [if_neg hg.1, has]; simp [pathText]⟩
    have e2 : ∃ n, (n = [] ∨ IsWord n) ∧ 47 :: (ns ++ rt) = pathText ((if n = [] then [] else [lit "namespaces", n]) ++ [rt]) := by
      rcases b3 with rfl | ⟨n, hn, rfl⟩
      · exact ⟨[], Or.inl rfl, by simp [pathText]⟩
      · exact ⟨n, Or.inr hn, by rw [if_neg hn.1, hns]; simp [pathText]⟩
    have e3 : ∃ n, (47 : UInt8) ∉ n ∧ name = pathText (if n = [] then [] else [n]) := by
      rcases b5 with rfl | ⟨n, n1, n2, rfl⟩
      · exact ⟨[], by simp, by simp [pathText]⟩
      · exact ⟨n, n2, by rw [if_neg n1]; simp [pathText]⟩
    obtain ⟨g, g1, g2⟩ := e1
    obtain ⟨n, n1, n2⟩ := e2
    obtain ⟨m, m1, m2⟩ := e3
    refine ⟨⟨g, v, n, rt, m, []⟩, ⟨g1, b2, n1, b4, m1, rfl⟩, ?_⟩
    have : (Target.mk g v n rt m []).path = head ++ (47 :: (v ++ 47 :: (ns ++ (rt ++ name)))) := by
      unfold Target.path Target.pieces
      simp only [List.append_nil]
      have ad : ∀ a b, pathText (a ++ b) = pathText a ++ pathText b := by intro a b; simp [pathText]
      rw [List.append_assoc (if g = [] then _ else _), ad, ad, ← g2, ← n2, ← m2]
      simp
    rw [this]
    rcases b6 with rfl | rfl
    · left; simpa using hp
    · right; simpa using hp
  · rintro ⟨⟨g, v, n, rt, m, sub⟩, ⟨g1, v1, n1, r1, m1, s1⟩, hp⟩
    simp only at g1 v1 n1 r1 m1 s1
    subst s1
    refine ⟨if g = [] then lit "/api" else lit "/apis/" ++ g, v, if n = [] then [] else lit "namespaces/" ++ (n ++ [47]), rt,
      if m = [] then [] else 47 :: m, if p = (Target.mk g v n rt m []).path then [] else [10], ?_, v1, ?_, r1, ?_, ?_, ?_⟩
    · rcases g1 with rfl | hg
      · exact Or.inl rfl
      · rw [if_neg hg.1]; exact Or.inr ⟨g, hg, rfl⟩
    · rcases n1 with rfl | hn
      · exact Or.inl rfl
      · rw [if_neg hn.1]; exact Or.inr ⟨n, hn, rfl⟩
    · by_cases hm : m = []
      · rw [if_pos hm]; exact Or.inl rfl
      · rw [if_neg hm]; exact Or.inr ⟨m, hm, m1, rfl⟩
    · split
      · exact Or.inl rfl
      · exact Or.inr rfl
    · have : ∀ e, (Target.mk g v n rt m []).path ++ e = (if g = [] then lit "/api" else lit "/apis/" ++ g) ++ (47 :: (v ++ 47 ::
          ((if n = [] then [] else lit "namespaces/" ++ (n ++ [47])) ++ (rt ++ ((if m = [] then [] else 47 :: m) ++ e))))) := by
        intro e
        unfold Target.path Target.pieces
        split <;> split <;> split <;> simp only [hns, has, ha] <;> simp [pathText]
      rw [← this]
      split
      · rename_i h; rw [List.append_nil]; exact h
      · rename_i h; exact hp.resolve_left h

/-! ## The argument watch -/

theorem foldByte_iff (c d : UInt8) : foldByte c d = true ↔ SameLetter c d := by
  have : ∀ c d : UInt8, (c - 32 = d) ↔ d + 32 = c := by
    intro c d
    constructor
    · rintro rfl; exact UInt8.sub_add_cancel c 32
    · rintro rfl; exact UInt8.add_sub_cancel d 32
  unfold foldByte SameLetter
  simp only [Bool.or_eq_true, beq_iff_eq, Bool.and_eq_true, decide_eq_true_eq]
  rw [← this, eq_comm (a := d) (b := c), eq_comm (a := d) (b := c - 32), and_assoc]

theorem ends_one {q : UInt8 → Bool} {x y : Bool × Str} : y ∈ (Rx.one q).ends x ↔ ∃ c, q c = true ∧ x.2 = c :: y.2 ∧ y.1 = false := by
  obtain ⟨b, s⟩ := x
  obtain ⟨y1, y2⟩ := y
  cases s with
  | nil => simp [Rx.ends]
  | cons c s =>
    simp only [Rx.ends]
    split
    · rename_i h
      simp only [List.mem_singleton, Prod.mk.injEq, List.cons.injEq]
      constructor
      · rintro ⟨rfl, rfl⟩; exact ⟨c, h, ⟨rfl, rfl⟩, rfl⟩
      · rintro ⟨d, _, ⟨rfl, rfl⟩, rfl⟩; exact ⟨rfl, rfl⟩
    · rename_i h
      simp only [List.not_mem_nil, List.cons.injEq, false_iff]
      rintro ⟨d, h', ⟨rfl, _⟩, _⟩
      exact h h'

theorem search_iff {r : Rx} (hb : ∀ s, (r.ends (true, s)).isEmpty = (r.ends (false, s)).isEmpty) (s : Str) :
    r.search s = true ↔ ∃ a t, s = a ++ t ∧ (r.ends (false, t)).isEmpty = false := by
  have hl : ∀ s, r.later s = true ↔ ∃ a t, s = a ++ t ∧ (r.ends (false, t)).isEmpty = false := by
    intro s
    induction s with
    | nil =>
      simp only [Rx.later, Bool.not_eq_true']
      constructor
      · intro h; exact ⟨[], [], rfl, h⟩
      · rintro ⟨a, t, h, h'⟩
        have : t = [] := by cases a <;> simp_all
        rw [← this]; exact h'
    | cons c s ih =>
      simp only [Rx.later, Bool.or_eq_true, Bool.not_eq_true', ih]
      constructor
      · rintro (h | ⟨a, t, rfl, h⟩)
        · exact ⟨[], c :: s, rfl, h⟩
        · exact ⟨c :: a, t, rfl, h⟩
      · rintro ⟨a, t, h, h'⟩
        cases a with
        | nil => left; rw [h]; exact h'
        | cons d a =>
          simp only [List.cons_append, List.cons.injEq] at h
          exact Or.inr ⟨a, t, h.2, h'⟩
  rw [← hl]
  unfold Rx.search
  rw [hb]
  cases s with
  | nil => simp [Rx.later]
  | cons c s => rfl

theorem watch_search (v : Str) : watchRx.search v = true ↔ SaysTrue v := by
  rw [search_iff (by intro s; cases s <;> rfl)]
  have key : ∀ t, (watchRx.ends (false, t)).isEmpty = false ↔ (∃ u, t = 49 :: u) ∨ ∃ w u, List.Forall₂ SameLetter (lit "true") w ∧ t = w ++ u := by
    intro t
    rw [List.isEmpty_eq_false_iff_exists_mem]
    unfold watchRx
    have h49 : ∀ c, foldByte 49 c = true ↔ c = 49 := forall_byte (by decide +kernel)
    have ht : lit "true" = [116, 114, 117, 101] := rfl
    simp only [ends_alt, ends_cat, ends_one, foldByte_iff, ht]
    constructor
    · rintro ⟨y, ⟨c, h1, h2, _⟩ | ⟨z1, ⟨c1, a1, b1, _⟩, z2, ⟨c2, a2, b2, _⟩, z3, ⟨c3, a3, b3, _⟩, c4, a4, b4, _⟩⟩
      · rw [← foldByte_iff, h49] at h1
        subst h1
        exact Or.inl ⟨_, h2⟩
      · refine Or.inr ⟨[c1, c2, c3, c4], y.2, ?_, ?_⟩
        · exact .cons a1 (.cons a2 (.cons a3 (.cons a4 .nil)))
        · have b1 : t = c1 :: z1.2 := b1
          rw [b1, b2, b3, b4]; rfl
    · rintro (⟨u, rfl⟩ | ⟨w, u, hw, rfl⟩)
      · exact ⟨(false, u), Or.inl ⟨49, Or.inl rfl, rfl, rfl⟩⟩
      · cases hw with | cons a1 hw => cases hw with | cons a2 hw => cases hw with | cons a3 hw => cases hw with | cons a4 hw => cases hw with
        | nil =>
          exact ⟨(false, u), Or.inr ⟨(false, _), ⟨_, a1, rfl, rfl⟩, (false, _), ⟨_, a2, rfl, rfl⟩, (false, _), ⟨_, a3, rfl, rfl⟩, _, a4, rfl, rfl⟩⟩
  constructor
  · rintro ⟨a, t, rfl, h⟩
    rcases (key t).mp h with ⟨u, rfl⟩ | ⟨w, u, hw, rfl⟩
    · exact Or.inl (by simp)
    · exact Or.inr ⟨w, ⟨a, u, by simp⟩, hw⟩
  · rintro (h | ⟨w, ⟨a, u, h⟩, hw⟩)
    · obtain ⟨a, u, rfl⟩ := List.append_of_mem h
      exact ⟨a, _, rfl, (key _).mpr (Or.inl ⟨u, rfl⟩)⟩
    · exact ⟨a, w ++ u, by rw [← h]; simp, (key _).mpr (Or.inr ⟨w, u, hw, rfl⟩)⟩

theorem argValue_iff {name a v : Str} : argValue name a = some v ↔ IsArg name a v := by
  have key : ∀ (name a : Str), name.length < a.length → ((List.zipWith foldByte name a).all id = true ↔
      List.Forall₂ SameLetter name (a.take name.length)) := by
    intro name
    induction name with
    | nil => intro a _; simp
    | cons c n ih =>
      intro a ha
      cases a with
      | nil => simp at ha
      | cons d a =>
        simp only [List.zipWith_cons_cons, List.all_cons, id_eq, Bool.and_eq_true, List.length_cons, List.take_succ_cons,
          List.forall₂_cons, foldByte_iff]
        rw [ih a (by simpa using ha)]
  unfold argValue IsArg
  constructor
  · intro h
    split at h
    · rename_i hc
      obtain ⟨h1, h2, h3⟩ := hc
      rw [Option.some.injEq] at h
      refine ⟨a.take name.length, (key name a h1).mp h2, ?_⟩
      rw [List.getElem?_eq_getElem h1, Option.some.injEq] at h3
      rw [← h, ← h3, ← List.drop_eq_getElem_cons h1, List.take_append_drop]
    · simp at h
  · rintro ⟨n, hn, rfl⟩
    have hl := hn.length_eq
    rw [if_pos]
    · rw [hl]; simp
    · refine ⟨by simp [hl], ?_, by rw [hl]; simp⟩
      rw [key name _ (by simp [hl]), hl]
      simpa using hn

theorem argWatch_iff (args : Str) : watchRx.search (argWatch args) = true ↔ AsksToWatch args := by
  rw [watch_search]
  unfold argWatch AsksToWatch
  generalize splitByte 38 args = l
  have hno : ¬ SaysTrue [] := by
    rintro (h | ⟨w, hw, h⟩)
    · simp at h
    · have := h.length_eq
      rw [List.infix_nil] at hw; subst hw; simp [lit] at this
  induction l with
  | nil => simp only [List.findSome?_nil, Option.getD_none, List.append_eq_nil_iff, reduceCtorEq, and_false, false_and, exists_false, iff_false]; exact hno
  | cons p l ih =>
    rw [List.findSome?_cons]
    cases hp : argValue (lit "watch") p with
    | some v =>
      simp only [Option.getD_some]
      have hv := argValue_iff.mp hp
      constructor
      · intro h; exact ⟨[], p, l, v, rfl, hv, by simp, h⟩
      · rintro ⟨pre, piece, post, v', h1, h2, h3, h4⟩
        cases pre with
        | nil =>
          simp only [List.nil_append, List.cons.injEq] at h1
          obtain ⟨rfl, _⟩ := h1
          rw [← argValue_iff, hp, Option.some.injEq] at h2
          rw [h2]; exact h4
        | cons q pre =>
          simp only [List.cons_append, List.cons.injEq] at h1
          exact absurd hv (by rw [← h1.1]; exact h3 q (by simp) v)
    | none =>
      refine ih.trans ?_
      have hn : ∀ v, ¬ IsArg (lit "watch") p v := by
        intro v h; rw [← argValue_iff, hp] at h; simp at h
      constructor
      · rintro ⟨pre, piece, post, v', h1, h2, h3, h4⟩
        refine ⟨p :: pre, piece, post, v', by rw [← h1]; rfl, h2, ?_, h4⟩
        intro q hq v
        rcases List.mem_cons.mp hq with rfl | hq
        · exact hn v
        · exact h3 q hq v
      · rintro ⟨pre, piece, post, v', h1, h2, h3, h4⟩
        cases pre with
        | nil =>
          simp only [List.nil_append, List.cons.injEq] at h1
          exact absurd h2 (by rw [h1.1]; exact hn _)
        | cons q pre =>
          simp only [List.cons_append, List.cons.injEq] at h1
          exact ⟨pre, piece, post, v', h1.2, h2, fun q' hq => h3 q' (List.mem_cons_of_mem _ hq), h4⟩

end Ckube

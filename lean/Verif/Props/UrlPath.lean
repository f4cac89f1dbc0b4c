import Verif.Model.UrlPath
import Verif.Spec.UrlPath
import Verif.Lemmas.Url
import Verif.Lemmas.JsonText
import Verif.Lemmas.Search
import Verif.Lemmas.Server
import Verif.Lemmas.TemplateRun
import Verif.Model.Proxy

/-! # C130: the path of a forwarded request arrives -/

namespace Ckube
open Spec Json

/-! ## Helpers -/

theorem pathUnescape_says : ∀ {s t : Str}, pathUnescape s = some t ↔ PathSays s t
  | [], t => by
    rw [pathUnescape, Option.some.injEq]
    exact ⟨fun h => h ▸ .nil, fun h => by cases h; rfl⟩
  | c :: r, t => by
    by_cases h1 : c = 37
    · subst h1
      rw [pathUnescape.eq_def]
      simp only [if_true]
      match r with
      | [] =>
        simp only [reduceCtorEq, false_iff]
        intro h; cases h with | byte h => exact h rfl
      | [a] =>
        simp only [reduceCtorEq, false_iff]
        intro h; cases h with | byte h => exact h rfl
      | a :: b :: r' =>
        simp only
        have ih := @pathUnescape_says r'
        cases ha : hexVal a with
        | none =>
          simp only [reduceCtorEq, false_iff]
          intro h
          cases h with
          | escape ha' _ _ => rw [hexDigit_val _ (hexDigit_lt ha') _ ha'] at ha; simp at ha
          | byte h => exact h rfl
        | some x =>
          cases hb : hexVal b with
          | none =>
            simp only [reduceCtorEq, false_iff]
            intro h
            cases h with
            | escape _ hb' _ => rw [hexDigit_val _ (hexDigit_lt hb') _ hb'] at hb; simp at hb
            | byte h => exact h rfl
          | some y =>
            simp only [Option.map_eq_some_iff]
            constructor
            · rintro ⟨u, hu, rfl⟩
              rw [Nat.mul_comm x 16]
              exact .escape (hexVal_digit _ _ ha) (hexVal_digit _ _ hb) (ih.mp hu)
            · intro h
              cases h with
              | escape ha' hb' h =>
                rw [hexDigit_val _ (hexDigit_lt ha') _ ha', Option.some.injEq] at ha
                rw [hexDigit_val _ (hexDigit_lt hb') _ hb', Option.some.injEq] at hb
                subst ha hb
                exact ⟨_, ih.mpr h, by rw [Nat.mul_comm]⟩
              | byte h => exact absurd rfl h
    · rw [pathUnescape.eq_def]
      simp only [h1, if_false, Option.map_eq_some_iff]
      constructor
      · rintro ⟨u, hu, rfl⟩
        exact .byte h1 (pathUnescape_says.mp hu)
      · intro h
        cases h with
        | escape => exact absurd rfl h1
        | byte _ h => exact ⟨_, pathUnescape_says.mpr h, rfl⟩

theorem Spec.PathSays.unique {s t t' : Str} (h : PathSays s t) (h' : PathSays s t') : t = t' := by
  have := pathUnescape_says.mpr h
  rw [pathUnescape_says.mpr h'] at this
  exact (Option.some.inj this).symm

theorem pathByte_cases (c : UInt8) : (pathByte c = [c] ∧ c ≠ 37)
    ∨ ∃ a b, pathByte c = [37, a, b] ∧ ∃ x y, hexVal a = some x ∧ hexVal b = some y ∧ (16 * x + y).toUInt8 = c := by
  by_cases h1 : pathSafe c = true
  · have := (forall_byte (P := fun c => pathSafe c = true → c ≠ 37) (by decide +kernel)) c h1
    exact Or.inl ⟨by simp [pathByte, h1], this⟩
  · refine Or.inr ⟨_, _, by rw [pathByte, if_neg h1], ?_⟩
    have key := (forall_byte (P := fun c => hexVal (upperHex (c.toNat / 16)) = some (c.toNat / 16)
      ∧ hexVal (upperHex (c.toNat % 16)) = some (c.toNat % 16)) (by decide +kernel)) c
    refine ⟨_, _, key.1, key.2, ?_⟩
    have : 16 * (c.toNat / 16) + c.toNat % 16 = c.toNat := by omega
    rw [this]
    simp

theorem Spec.PathSays.append {s t s' t' : Str} (h : PathSays s t) (h' : PathSays s' t') : PathSays (s ++ s') (t ++ t') := by
  induction h with
  | nil => exact h'
  | escape ha hb _ ih => exact .escape ha hb ih
  | byte h1 _ ih => exact .byte h1 ih

theorem pathByte_says (c : UInt8) : PathSays (pathByte c) [c] := by
  rcases pathByte_cases c with ⟨h, h1⟩ | ⟨a, b, h, x, y, hx, hy, he⟩
  · rw [h]; exact .byte h1 .nil
  · rw [h, ← he]
    exact .escape (hexVal_digit _ _ hx) (hexVal_digit _ _ hy) .nil

theorem pathEscape_says : ∀ s : Str, PathSays (pathEscape s) s
  | [] => .nil
  | c :: s => by
    rw [pathEscape, List.flatMap_cons, ← pathEscape]
    exact (pathByte_says c).append (pathEscape_says s)

theorem setPath_escape (p : Str) : setPath (pathEscape p) = some (p, []) := by
  rw [setPath, pathUnescape_says.mpr (pathEscape_says p), Option.map_some, if_pos rfl]

theorem pathByte_plain (c : UInt8) : ∀ b ∈ pathByte c, 33 ≤ b ∧ b ≠ 127 ∧ b ≠ 35 ∧ b ≠ 63 :=
  (forall_byte (P := fun c => ∀ b ∈ pathByte c, 33 ≤ b ∧ b ≠ 127 ∧ b ≠ 35 ∧ b ≠ 63) (by decide +kernel)) c

theorem valid_plain (c : UInt8) : (pathSafe c || c ∈ lit "!'()*[]%") = true → 33 ≤ c ∧ c ≠ 127 ∧ c ≠ 35 ∧ c ≠ 63 :=
  (forall_byte (P := fun c => (pathSafe c || c ∈ lit "!'()*[]%") = true → 33 ≤ c ∧ c ≠ 127 ∧ c ≠ 35 ∧ c ≠ 63) (by decide +kernel)) c

theorem escapedPath_plain (u : GoURL) : ∀ b ∈ u.escapedPath, 33 ≤ b ∧ b ≠ 127 ∧ b ≠ 35 ∧ b ≠ 63 := by
  unfold GoURL.escapedPath
  split
  · rename_i h
    intro b hb
    exact valid_plain b (List.all_eq_true.mp h.2.1 b hb)
  · split
    · decide
    · intro b hb
      obtain ⟨c, _, hc⟩ := List.mem_flatMap.mp hb
      exact pathByte_plain c b hc

theorem escapedPath_says (u : GoURL) : PathSays u.escapedPath u.path := by
  unfold GoURL.escapedPath
  split
  · rename_i h
    exact pathUnescape_says.mp h.2.2
  · split
    · rename_i h
      rw [h]
      exact .byte (by decide) .nil
    · exact pathEscape_says _

theorem Spec.PathSays.head {s t : Str} (h : PathSays (47 :: s) t) : ∃ t', t = 47 :: t' ∧ PathSays s t' := by
  cases h with
  | byte _ h => exact ⟨_, rfl, h⟩

theorem pathByte_slash (c : UInt8) : pathByte c = [47] ∨ 47 ∉ pathByte c :=
  (forall_byte (P := fun c => pathByte c = [47] ∨ 47 ∉ pathByte c) (by decide +kernel)) c

/-- A path that begins with `/` is written with `/` first, if it was read so. -/
theorem escapedPath_head {u : GoURL} {r : Str} (h : u.path = 47 :: r) (hr : u.rawPath = [] ∨ u.rawPath.head? = some 47) :
    ∃ r', u.escapedPath = 47 :: r' := by
  unfold GoURL.escapedPath
  split
  · rename_i hc
    rcases hr with hr | hr
    · exact absurd hr hc.1
    · cases hp : u.rawPath with
      | nil => exact absurd hp hc.1
      | cons b p => rw [hp] at hr; simp at hr; exact ⟨p, by rw [hr]⟩
  · rw [h, if_neg (by simp [lit]), pathEscape, List.flatMap_cons]
    exact ⟨_, rfl⟩

theorem escapedPath_double {u : GoURL} (h : [47, 47] <+: u.escapedPath) : [47, 47] <+: u.path := by
  obtain ⟨r, hr⟩ := h
  have := escapedPath_says u
  rw [← hr] at this
  obtain ⟨t, ht, h2⟩ := Spec.PathSays.head (s := 47 :: r) this
  obtain ⟨t', rfl, -⟩ := h2.head
  exact ⟨t', ht.symm⟩

theorem cleanSegs_nonempty : ∀ (segs acc : List Str), (∀ s ∈ acc, s ≠ [] ∧ (47 : UInt8) ∉ s) → (∀ s ∈ segs, (47 : UInt8) ∉ s) →
    ∀ s ∈ cleanSegs acc segs, s ≠ [] ∧ (47 : UInt8) ∉ s
  | [], acc, h, _ => by rw [cleanSegs]; intro s hs; exact h s (List.mem_reverse.mp hs)
  | x :: segs, acc, h, h' => by
    have hr : ∀ s ∈ segs, (47 : UInt8) ∉ s := fun s hs => h' s (List.mem_cons_of_mem _ hs)
    rw [cleanSegs]
    by_cases h1 : x = [] ∨ x = lit "."
    · rw [if_pos h1]; exact cleanSegs_nonempty segs acc h hr
    · rw [if_neg h1]
      by_cases h2 : x = lit ".."
      · rw [if_pos h2]; exact cleanSegs_nonempty segs _ (fun s hs => h s (List.mem_of_mem_drop hs)) hr
      · rw [if_neg h2]
        refine cleanSegs_nonempty segs _ ?_ hr
        intro s hs
        rcases List.mem_cons.mp hs with rfl | hs
        · exact ⟨fun h0 => h1 (Or.inl h0), h' _ (by simp)⟩
        · exact h s hs

/-- A path that mux does not redirect does not begin with `//`. -/
theorem clean_single {p : Str} (h : cleanPath p = p) : ¬ [47, 47] <+: p := by
  have hnp : ∀ segs : List Str, (∀ s ∈ segs, s ≠ [] ∧ (47 : UInt8) ∉ s) → ¬ [47, 47] <+: 47 :: join [47] segs
      ∧ (47 :: join [47] segs ≠ [47] → ¬ [47, 47] <+: (47 :: join [47] segs) ++ [47]) := by
    intro segs hs
    match segs, hs with
    | [], _ => exact ⟨by simp [join], by simp [join]⟩
    | s :: ss, hs =>
      obtain ⟨h1, h2⟩ := hs s (by simp)
      cases s with
      | nil => exact absurd rfl h1
      | cons b s =>
        have hb : b ≠ 47 := fun hb => h2 (by simp [hb])
        have : ∃ r, join [47] ((b :: s) :: ss) = b :: r := by
          cases ss with
          | nil => exact ⟨s, rfl⟩
          | cons x ss => exact ⟨s ++ [47] ++ join [47] (x :: ss), rfl⟩
        obtain ⟨r, hr⟩ := this
        rw [hr]
        constructor
        · rintro ⟨t, ht⟩; simp at ht; exact hb ht.1.symm
        · rintro - ⟨t, ht⟩; simp at ht; exact hb ht.1.symm
  intro hp
  rw [← h] at hp
  unfold cleanPath at hp
  simp only at hp
  generalize (if p.head? = some 47 then p else 47 :: p) = p' at hp
  have hseg := cleanSegs_nonempty (splitByte 47 p') [] (by simp) (fun s hs => not_mem_of_splitByte 47 _ s hs)
  obtain ⟨k1, k2⟩ := hnp _ hseg
  split at hp
  · rename_i hc
    exact k2 hc.2 hp
  · exact k1 hp

theorem cutByte_none {c : UInt8} {s : Str} (h : c ∉ s) : cutByte c s = (s, []) := by
  rw [cutByte, indexByte_none.mpr h]

theorem cutByte_some {c : UInt8} {a b : Str} (h : c ∉ a) : cutByte c (a ++ c :: b) = (a, b) := by
  rw [cutByte, indexByte_append h]
  simp

theorem count_not_mem {c : UInt8} {s : Str} (h : c ∉ s) : s.count c = 0 := List.count_eq_zero.mpr h

/-- How a target is read. -/
theorem parseRooted_target {s p q : Str} (hp : ∃ r, p = 47 :: r) (hq : (63 : UInt8) ∉ p) (hs : s = p ∧ q = [] ∨ s = p ++ 63 :: q)
    (hb : ∀ b ∈ s, 33 ≤ b ∧ b ≠ 127) :
    ∃ f, parseRooted s = (setPath p).map fun e => ⟨e.1, e.2, q, f⟩ := by
  obtain ⟨r, rfl⟩ := hp
  have hctl : ¬ hasControl s = true := by
    unfold hasControl
    rw [List.any_eq_true]
    rintro ⟨b, hb', hc⟩
    obtain ⟨h1, h2⟩ := hb b hb'
    simp only [Bool.or_eq_true, decide_eq_true_eq] at hc
    rcases hc with hc | hc
    · exact absurd hc (by rw [UInt8.not_lt]; exact UInt8.le_trans (show (32 : UInt8) ≤ 33 by decide) h1)
    · exact h2 hc
  unfold parseRooted
  rw [if_neg hctl]
  rcases hs with ⟨rfl, rfl⟩ | rfl
  · have hc : ¬ ((47 :: r : Str).getLast? = some 63 ∧ (47 :: r).count 63 = 1) := by
      rintro ⟨-, h⟩
      rw [count_not_mem hq] at h
      exact absurd h (by decide)
    rw [if_neg (by simp), if_neg hc, cutByte_none hq]
    exact ⟨false, rfl⟩
  · rw [if_neg (by simp)]
    by_cases hc : ((47 :: r) ++ 63 :: q : Str).getLast? = some 63 ∧ ((47 :: r) ++ 63 :: q).count 63 = 1
    · rw [if_pos hc]
      have hq0 : q = [] := by
        have hcount := hc.2
        rw [List.count_append, count_not_mem hq, List.count_cons_self] at hcount
        have : q.count 63 = 0 := by omega
        have hnot : (63 : UInt8) ∉ q := List.count_eq_zero.mp this
        cases hqq : q with
        | nil => rfl
        | cons b q' =>
          have hl := hc.1
          rw [hqq] at hl hnot
          rw [show (47 :: r ++ 63 :: b :: q' : Str) = (47 :: r ++ [63]) ++ (b :: q') by simp, List.getLast?_append_of_ne_nil _ (by simp)] at hl
          exact absurd (List.mem_of_getLast? hl) hnot
      subst hq0
      rw [show ((47 :: r) ++ [63] : Str).dropLast = 47 :: r from List.dropLast_concat]
      exact ⟨true, rfl⟩
    · rw [if_neg hc, cutByte_some hq]
      exact ⟨false, rfl⟩

/-! ## C130 -/

/-- What is sent. -/
theorem forward_target {raw p q P : Str} {edit : Str → Str} (ht : IsTarget raw p q) (hp : PathSays p P) (hmux : cleanPath P = P)
    (hq : PlainQuery (edit q)) : forwardTarget raw edit = some (pathEscape P, edit q) := by
  obtain ⟨⟨r, hr⟩, h1, h2, h3⟩ := ht
  obtain ⟨f, hf⟩ := parseRooted_target ⟨r, hr⟩ h1 h2 h3
  have hset : setPath p = some (P, if p = pathEscape P then [] else p) := by rw [setPath, pathUnescape_says.mpr hp]; rfl
  have hP : ∃ P', P = 47 :: P' := by
    subst hr
    obtain ⟨t, rfl, -⟩ := hp.head
    exact ⟨t, rfl⟩
  obtain ⟨P', hP'⟩ := hP
  unfold forwardTarget
  rw [hf, hset, Option.map_some, Option.bind_some]
  simp only
  generalize hu : ({ path := P, rawPath := if p = pathEscape P then [] else p, rawQuery := edit q, forceQuery := f } : GoURL) = u
  have hpath : u.path = P := by rw [← hu]
  have hrq : u.rawQuery = edit q := by rw [← hu]
  have hraw : u.rawPath = [] ∨ u.rawPath.head? = some 47 := by
    rw [← hu]
    simp only
    split
    · exact Or.inl rfl
    · rw [hr]; exact Or.inr rfl
  obtain ⟨e, he⟩ := escapedPath_head (u := u) (hpath.trans hP') hraw
  have hplain := escapedPath_plain u
  have hplainq : ∀ b ∈ u.rawQuery, 33 ≤ b ∧ b ≠ 127 ∧ b ≠ 35 := by rw [hrq]; exact hq
  have htext : (u.text = u.escapedPath ∧ u.rawQuery = []) ∨ u.text = u.escapedPath ++ 63 :: u.rawQuery := by
    unfold GoURL.text
    by_cases hc : u.forceQuery = true ∨ u.rawQuery ≠ []
    · rw [if_pos hc]; exact Or.inr rfl
    · rw [if_neg hc]
      left
      exact ⟨by simp, by
        by_contra h0
        exact hc (Or.inr h0)⟩
  have hall : ∀ b ∈ u.text, (33 ≤ b ∧ b ≠ 127) ∧ b ≠ 35 := by
    intro b hb
    rcases htext with ⟨ht, -⟩ | ht <;> rw [ht] at hb
    · obtain ⟨a1, a2, a3, -⟩ := hplain b hb
      exact ⟨⟨a1, a2⟩, a3⟩
    · rcases List.mem_append.mp hb with hb | hb
      · obtain ⟨a1, a2, a3, -⟩ := hplain b hb
        exact ⟨⟨a1, a2⟩, a3⟩
      · rcases List.mem_cons.mp hb with rfl | hb
        · decide
        · obtain ⟨a1, a2, a3⟩ := hplainq b hb
          exact ⟨⟨a1, a2⟩, a3⟩
  have hdouble : ¬ [47, 47] <+: u.text := by
    intro hd
    refine clean_single hmux (hpath ▸ escapedPath_double (u := u) ?_)
    rcases htext with ⟨ht, -⟩ | ht <;> rw [ht] at hd
    · exact hd
    · rw [he] at hd ⊢
      obtain ⟨t, ht'⟩ := hd
      cases e with
      | nil => simp at ht'
      | cons b e =>
        simp only [List.cons_append, List.nil_append, List.cons.injEq] at ht'
        exact ⟨e, by simp [← ht'.2.1]⟩
  have hcut : cutByte 35 u.text = (u.text, []) := cutByte_none (fun h => (hall 35 h).2 rfl)
  obtain ⟨g, hg⟩ := parseRooted_target (s := u.text) (p := u.escapedPath) (q := u.rawQuery) ⟨e, he⟩ (fun h => (hplain 63 h).2.2.2 rfl) htext
    (fun b hb => (hall b hb).1)
  unfold parseRef
  rw [if_neg hdouble, hcut, if_neg (by simp [pathUnescape]), hg, setPath, pathUnescape_says.mpr (escapedPath_says u), Option.map_some, Option.map_some,
    Option.bind_some, hpath, setPath_escape, Option.map_some, hrq]
  simp only [GoURL.escapedPath, ne_eq, not_true_eq_false, false_and, if_false]
  rw [if_neg (by rw [hP']; simp [lit])]

/-- **C130**: a request whose path text, however it is escaped, says `P`, and which mux does not redirect, is sent to the API server with a path text that
says `P`, and with the query that the handler left, if nothing in that ends it. Missing for the full claim: queries with `#` (`C130_false_hash`); the
segments of the path (`C130_segments_partial`). -/
theorem C130_arrives_partial {raw p q P : Str} {edit : Str → Str} (ht : IsTarget raw p q) (hp : PathSays p P) (hmux : cleanPath P = P)
    (hq : PlainQuery (edit q)) : ∃ w, forwardTarget raw edit = some (w, edit q) ∧ PathSays w P ∧ ∀ b ∈ w, 33 ≤ b ∧ b ≠ 127 ∧ b ≠ 35 ∧ b ≠ 63 := by
  refine ⟨_, forward_target ht hp hmux hq, pathEscape_says P, ?_⟩
  intro b hb
  obtain ⟨c, _, hc⟩ := List.mem_flatMap.mp hb
  exact pathByte_plain c b hc

theorem queryEscape_plain (s : Str) : ∀ b ∈ queryEscape s, 33 ≤ b ∧ b ≠ 127 ∧ b ≠ 35 := by
  intro b hb
  obtain ⟨c, _, hc⟩ := List.mem_flatMap.mp hb
  exact (forall_byte (P := fun c => ∀ b ∈ escByte c, 33 ≤ b ∧ b ≠ 127 ∧ b ≠ 35) (by decide +kernel)) c b hc

theorem join_mem {sep : Str} {b : UInt8} : ∀ {ps : List Str}, b ∈ join sep ps → b ∈ sep ∨ ∃ p ∈ ps, b ∈ p
  | [], h => by simp [join] at h
  | [p], h => Or.inr ⟨p, by simp, h⟩
  | p :: q :: ps, h => by
    rw [join, List.mem_append, List.mem_append] at h
    rcases h with (h | h) | h
    · exact Or.inr ⟨p, by simp, h⟩
    · exact Or.inl h
    · rcases join_mem h with h | ⟨x, hx, hb⟩
      · exact Or.inl h
      · exact Or.inr ⟨x, List.mem_cons_of_mem _ hx, hb⟩

/-- **C130**: the queries that ckube writes itself (those of all requests but the ones with an unreadable selector) have nothing in them that ends them, so
nothing of them is lost. -/
theorem C130_written (v : Values) : PlainQuery (encodeQuery v) := by
  intro b hb
  rcases join_mem hb with hb | ⟨x, hx, hb⟩
  · rw [List.mem_singleton] at hb; subst hb; decide
  · obtain ⟨e, -, he⟩ := List.mem_flatMap.mp hx
    obtain ⟨y, -, rfl⟩ := List.mem_map.mp he
    simp only [List.mem_append, List.mem_singleton] at hb
    rcases hb with (hb | rfl) | hb
    · exact queryEscape_plain _ b hb
    · decide
    · exact queryEscape_plain _ b hb

/-- A forwarded request has the path of the request, and the query of the request or one that ckube wrote. -/
theorem forward_query {env : Env} {st : StoreI} {tord : Nat → List (Str × Str) → List (Str × Str)} {ord : Values} {r : HReq} {w : Bool} {c m p q b : Str}
    (h : proxy env st tord ord r = .forward w c m p q b) : p = r.path ∧ (q = r.rawQuery ∨ ∃ v, q = encodeQuery v) := by
  have hpass : ∀ cl rq bo, (rq = r.rawQuery ∨ ∃ v, rq = encodeQuery v) → proxyPass env r cl rq bo = .forward w c m p q b →
      p = r.path ∧ (q = r.rawQuery ∨ ∃ v, q = encodeQuery v) := by
    intro cl rq bo hrq hh
    unfold proxyPass at hh
    simp only at hh
    generalize (if cl = [] then env.defaultCluster else cl) = c' at hh
    by_cases h1 : c' ∉ env.clients
    · rw [if_pos h1] at hh; simp at hh
    · rw [if_neg h1] at hh
      split at hh
      · unfold send at hh
        split at hh
        · simp only [Answer.forward.injEq] at hh
          obtain ⟨-, -, -, rfl, rfl, -⟩ := hh
          exact ⟨rfl, Or.inr ⟨_, rfl⟩⟩
        · simp at hh
      · unfold send at hh
        split at hh
        · simp only [Answer.forward.injEq] at hh
          obtain ⟨-, -, -, rfl, rfl, -⟩ := hh
          exact ⟨rfl, hrq⟩
        · simp at hh
  unfold proxy at h
  split at h
  · exact hpass _ _ _ (Or.inl rfl) h
  · rename_i x hx
    have hw : ∃ v, x.rawQuery = encodeQuery v := by
      unfold parseClean at hx
      simp only at hx
      split at hx
      · simp at hx
      · simp only [Sum.inl.injEq] at hx
        exact ⟨_, by rw [← hx]⟩
    split at h
    · exact hpass _ _ _ (Or.inr hw) h
    · split at h
      · exact hpass _ _ _ (Or.inr hw) h
      · split at h
        · unfold proxySingle at h; split at h <;> simp at h
        · unfold proxyList listAnswer at h
          simp only at h
          split at h
          · simp at h
          · simp at h
          · split at h
            · simp at h
            · split at h
              · unfold serverPrint at h; split at h <;> simp at h
              · simp at h

/-- **C130** for the requests that the proxy handler forwards: what client-go is given says the path of the request, however the client had escaped
it, and the whole query that the handler forwards. -/
theorem C130_request {env : Env} {st : StoreI} {tord : Nat → List (Str × Str) → List (Str × Str)} {ord : Values} {r : HReq} {w : Bool} {c m p q b raw tp : Str}
    (h : proxy env st tord ord r = .forward w c m p q b) (ht : IsTarget raw tp r.rawQuery) (hash : (35 : UInt8) ∉ r.rawQuery) (hp : PathSays tp r.path)
    (hmux : cleanPath r.path = r.path) : p = r.path ∧ ∃ text, forwardTarget raw (fun _ => q) = some (text, q) ∧ PathSays text p := by
  obtain ⟨rfl, hq⟩ := forward_query h
  have hplain : PlainQuery q := by
    rcases hq with rfl | ⟨v, rfl⟩
    · intro b hb
      have hraw : ∀ b ∈ r.rawQuery, b ∈ raw := by
        intro b hb
        rcases ht.2.2.1 with ⟨-, h0⟩ | h0
        · rw [h0] at hb; simp at hb
        · rw [h0]; simp [hb]
      exact ⟨(ht.2.2.2 b (hraw b hb)).1, (ht.2.2.2 b (hraw b hb)).2, fun h0 => hash (h0 ▸ hb)⟩
    · exact C130_written v
  exact ⟨rfl, _, forward_target ht hp hmux hplain, pathEscape_says _⟩

/-! ### Segments -/

theorem says_join : ∀ {ps segs : List Str}, List.Forall₂ PathSays ps segs → PathSays (join [47] ps) (join [47] segs)
  | _, _, .nil => .nil
  | _, _, .cons h .nil => h
  | _, _, .cons (l₁ := p :: ps) (l₂ := q :: qs) h (.cons h2 h3) => by
    rw [join, join]
    exact (h.append (.byte (by decide) .nil)).append (says_join (.cons h2 h3))

theorem segments_split {p : Str} {segs : List Str} : SegmentsSay p segs ↔ List.Forall₂ PathSays (splitByte 47 p) segs := by
  constructor
  · rintro ⟨ps, h1, h2, h3, h4⟩
    rw [h3, ← join_intercalate, splitByte_join 47 ps h1 h2]
    exact h4
  · intro h
    exact ⟨_, splitByte_ne_nil _ _, fun s hs => not_mem_of_splitByte 47 p s hs, by rw [← join_intercalate, join_splitByte], h⟩

theorem segments_whole {p P : Str} {segs : List Str} (h : SegmentsSay p segs) (hp : PathSays p P) : P = join [47] segs := by
  have := says_join (segments_split.mp h)
  rw [join_splitByte] at this
  exact hp.unique this

theorem pathEscape_slash {s : Str} (h : (47 : UInt8) ∉ s) : (47 : UInt8) ∉ pathEscape s := by
  intro hb
  obtain ⟨c, hc, hb⟩ := List.mem_flatMap.mp hb
  rcases pathByte_slash c with h1 | h1
  · have h2 := pathByte_says c
    rw [h1] at h2
    have : [c] = [47] := h2.unique (.byte (by decide) .nil)
    simp at this
    exact h (this ▸ hc)
  · exact h1 hb

theorem pathEscape_join : ∀ segs : List Str, pathEscape (join [47] segs) = join [47] (segs.map pathEscape)
  | [] => rfl
  | [s] => rfl
  | s :: t :: segs => by
    rw [join, List.map_cons, List.map_cons, join, ← List.map_cons, ← pathEscape_join (t :: segs)]
    simp only [pathEscape, List.flatMap_append]
    rfl

theorem escape_segments {segs : List Str} (hne : segs ≠ []) (h : ∀ s ∈ segs, (47 : UInt8) ∉ s) : SegmentsSay (pathEscape (join [47] segs)) segs := by
  rw [segments_split, pathEscape_join, splitByte_join 47 _ (by simpa using hne)]
  · rw [List.forall₂_map_left_iff]
    exact List.forall₂_same.mpr fun s _ => pathEscape_says s
  · intro p hp
    obtain ⟨s, hs, rfl⟩ := List.mem_map.mp hp
    exact pathEscape_slash (h s hs)

theorem segsays_unique : ∀ {ps a b : List Str}, List.Forall₂ PathSays ps a → List.Forall₂ PathSays ps b → a = b
  | _, _, _, .nil, .nil => rfl
  | _, _, _, .cons h1 h2, .cons h3 h4 => by rw [h1.unique h3, segsays_unique h2 h4]

/-- **C130**, exactly for which requests the segments of the path arrive: for those none of whose segments says a slash. -/
theorem C130_segments {raw p q P : Str} {segs : List Str} {edit : Str → Str} (ht : IsTarget raw p q) (hs : SegmentsSay p segs) (hp : PathSays p P)
    (hmux : cleanPath P = P) (hq : PlainQuery (edit q)) :
    ∃ w, forwardTarget raw edit = some (w, edit q) ∧ (SegmentsSay w segs ↔ ∀ s ∈ segs, (47 : UInt8) ∉ s) := by
  refine ⟨_, forward_target ht hp hmux hq, ?_⟩
  have hne : segs ≠ [] := by
    obtain ⟨ps, h1, -, -, h4⟩ := hs
    intro h
    subst h
    cases h4
    exact h1 rfl
  constructor
  · intro h
    have h2 := escape_segments (splitByte_ne_nil 47 P) (fun s hs => not_mem_of_splitByte 47 P s hs)
    rw [join_splitByte] at h2
    rw [segsays_unique (segments_split.mp h) (segments_split.mp h2)]
    exact fun s hs => not_mem_of_splitByte 47 P s hs
  · intro h
    rw [segments_whole hs hp]
    exact escape_segments hne h

/-! ## Examples and refutations -/

/-- A request of a client for a page behind a service, whose name has a slash and a blank in it. -/
def exSlash : Str := lit "/api/v1/namespaces/prod/services/web/proxy/a%2Fb%20c?x=1"
def exSlashSegs : List Str := [[], lit "api", lit "v1", lit "namespaces", lit "prod", lit "services", lit "web", lit "proxy", lit "a/b c"]

theorem exSlash_target : IsTarget exSlash (lit "/api/v1/namespaces/prod/services/web/proxy/a%2Fb%20c") (lit "x=1") :=
  ⟨⟨_, rfl⟩, by decide +kernel, Or.inr (by decide +kernel), by decide +kernel⟩

theorem exSlash_says : SegmentsSay (lit "/api/v1/namespaces/prod/services/web/proxy/a%2Fb%20c") exSlashSegs := by
  have h : (splitByte 47 (lit "/api/v1/namespaces/prod/services/web/proxy/a%2Fb%20c")).map pathUnescape = exSlashSegs.map some := by decide +kernel
  rw [segments_split]
  generalize splitByte 47 (lit "/api/v1/namespaces/prod/services/web/proxy/a%2Fb%20c") = ps at h
  generalize exSlashSegs = segs at h
  have : List.Forall₂ (fun a b => pathUnescape a = some b) ps segs := by
    induction ps generalizing segs with
    | nil => cases segs with
      | nil => exact .nil
      | cons => simp at h
    | cons a ps ih => cases segs with
      | nil => simp at h
      | cons b segs =>
        simp only [List.map_cons, List.cons.injEq] at h
        exact .cons h.1 (ih segs h.2)
  exact this.imp fun _ _ h => pathUnescape_says.mp h

/-- The hypotheses of `C130_arrives_partial` and `C130_segments` are met by it, and what is sent says the same. -/
example : PathSays (lit "/api/v1/namespaces/prod/services/web/proxy/a%2Fb%20c") (lit "/api/v1/namespaces/prod/services/web/proxy/a/b c")
    ∧ cleanPath (lit "/api/v1/namespaces/prod/services/web/proxy/a/b c") = lit "/api/v1/namespaces/prod/services/web/proxy/a/b c" ∧ PlainQuery (lit "x=1")
    ∧ forwardTarget exSlash (fun q => q) = some (lit "/api/v1/namespaces/prod/services/web/proxy/a/b%20c", lit "x=1") := by
  refine ⟨pathUnescape_says.mp (by decide +kernel), by decide +kernel, by unfold PlainQuery; decide +kernel, by decide +kernel⟩

/-- The same request, as the handler gets it, is forwarded (`C130_request`). -/
example : proxy ⟨lit "c1", [lit "c1"], []⟩ ⟨fun _ => true, fun _ _ _ _ => none, fun _ _ => none⟩ (fun _ m => m) (parseQuery (lit "x=1"))
      { method := lit "GET", path := lit "/api/v1/namespaces/prod/services/web/proxy/a/b c", rawQuery := lit "x=1", version := lit "v1", resourceType := lit "services",
        ns := lit "prod", resource := lit "web" }
    = .forward false (lit "c1") (lit "GET") (lit "/api/v1/namespaces/prod/services/web/proxy/a/b c") (lit "x=1") [] := by decide +kernel

/-- **C130 is false** for segments with an escaped slash: the name `a/b c` behind a service arrives as the two segments `a` and `b c`. -/
theorem C130_false_slash : ∃ raw p q segs w, IsTarget raw p q ∧ SegmentsSay p segs ∧ forwardTarget raw (fun q => q) = some (w, q) ∧ ¬ SegmentsSay w segs := by
  refine ⟨exSlash, _, _, exSlashSegs, lit "/api/v1/namespaces/prod/services/web/proxy/a/b%20c", exSlash_target, exSlash_says, ?_, ?_⟩
  · decide +kernel
  · rw [segments_split]
    intro h
    have h1 := h.length_eq
    revert h1
    decide +kernel

/-- **C130 is false** for queries with `#` in them, which Go's server reads as part of the query: if the handler leaves the query as it is, as it does when the label selector
cannot be read, only what stands before `#` is sent; and with an illegal escape behind `#` nothing is. -/
theorem C130_false_hash : ∃ raw p q raw' q', IsTarget raw p q ∧ forwardTarget raw (fun q => q) = some (p, lit "labelSelector=a%20b") ∧ q ≠ lit "labelSelector=a%20b"
    ∧ IsTarget raw' p q' ∧ forwardTarget raw' (fun q => q) = none := by
  refine ⟨lit "/api/v1/pods?labelSelector=a%20b#c&limit=5", lit "/api/v1/pods", lit "labelSelector=a%20b#c&limit=5",
    lit "/api/v1/pods?labelSelector=a%20b#5%&limit=5", lit "labelSelector=a%20b#5%&limit=5", ⟨⟨_, rfl⟩, by decide +kernel, Or.inr (by decide +kernel), by decide +kernel⟩, ?_, ?_,
    ⟨⟨_, rfl⟩, by decide +kernel, Or.inr (by decide +kernel), by decide +kernel⟩, ?_⟩
  · decide +kernel
  · decide +kernel
  · decide +kernel

end Ckube

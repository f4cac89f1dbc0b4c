import Verif.Spec.QueryText
import Verif.Lemmas.JsonText
import Verif.Lemmas.Search
import Verif.Lemmas.Sort
import Verif.Lemmas.TemplateRun
import Verif.Props.Proxy

/-! # C119: query texts are read as what they say -/

namespace Ckube
open Spec Json

theorem unescape_decodes : ∀ {s t : Str}, queryUnescape s = some t ↔ Decodes s t
  | [], t => by
    rw [queryUnescape, Option.some.injEq]
    exact ⟨fun h => h ▸ .nil, fun h => by cases h; rfl⟩
  | c :: r, t => by
    by_cases h1 : c = 37
    · subst h1
      rw [queryUnescape.eq_def]
      simp only [if_true]
      match r with
      | [] =>
        simp only [reduceCtorEq, false_iff]
        intro h; cases h with | byte h => exact h rfl
      | [a] =>
        simp only [reduceCtorEq, false_iff]
        intro h; cases h with | byte h => exact h rfl
      | a :: b :: r' =>
        simp only
        have ih := @unescape_decodes r'
        cases ha : hexVal a with
        | none =>
          simp only [reduceCtorEq, false_iff]
          intro h
          cases h with
          | escape ha' _ _ => rw [hexDigit_val _ (hexDigit_lt ha') _ ha'] at ha; simp at ha
          | byte h => exact h rfl
        | some x =>
          cases hb : hexVal b with
          | none =>
            simp only [reduceCtorEq, false_iff]
            intro h
            cases h with
            | escape _ hb' _ => rw [hexDigit_val _ (hexDigit_lt hb') _ hb'] at hb; simp at hb
            | byte h => exact h rfl
          | some y =>
            simp only [Option.map_eq_some_iff]
            constructor
            · rintro ⟨u, hu, rfl⟩
              rw [Nat.mul_comm x 16]
              exact .escape (hexVal_digit _ _ ha) (hexVal_digit _ _ hb) (ih.mp hu)
            · intro h
              cases h with
              | escape ha' hb' h =>
                rw [hexDigit_val _ (hexDigit_lt ha') _ ha', Option.some.injEq] at ha
                rw [hexDigit_val _ (hexDigit_lt hb') _ hb', Option.some.injEq] at hb
                subst ha hb
                exact ⟨_, ih.mpr h, by rw [Nat.mul_comm]⟩
              | byte h => exact absurd rfl h
    · by_cases h2 : c = 43
      · subst h2
        rw [queryUnescape.eq_def]
        simp only [h1, if_false, if_true, Option.map_eq_some_iff]
        constructor
        · rintro ⟨u, hu, rfl⟩
          exact .blank (unescape_decodes.mp hu)
        · intro h
          cases h with
          | blank h => exact ⟨_, unescape_decodes.mpr h, rfl⟩
          | byte _ h => exact absurd rfl h
      · rw [queryUnescape.eq_def]
        simp only [h1, h2, if_false, Option.map_eq_some_iff]
        constructor
        · rintro ⟨u, hu, rfl⟩
          exact .byte h1 h2 (unescape_decodes.mp hu)
        · intro h
          cases h with
          | blank h => exact absurd rfl h2
          | escape => exact absurd rfl h1
          | byte _ _ h => exact ⟨_, unescape_decodes.mpr h, rfl⟩

theorem unescape_none {s : Str} : queryUnescape s = none ↔ ∀ t, ¬ Decodes s t := by
  constructor
  · intro h t ht
    rw [unescape_decodes.mpr ht] at h
    simp at h
  · intro h
    cases hs : queryUnescape s with
    | none => rfl
    | some t => exact absurd (unescape_decodes.mp hs) (h t)

/-- What the model makes of a piece. -/
def pieceOf (p : Str) : Option (Str × Str) :=
  if (59 : UInt8) ∈ p then none
  else if p = [] then none
  else match queryUnescape (cutEq p).1, queryUnescape (cutEq p).2 with
    | some k, some v => some (k, v)
    | _, _ => none

theorem cutEq_pair {a b : Str} (h : (61 : UInt8) ∉ a) : cutEq (a ++ 61 :: b) = (a, b) := by
  rw [cutEq, indexByte_skip h]
  simp

theorem cutEq_bare {a : Str} (h : (61 : UInt8) ∉ a) : cutEq a = (a, []) := by
  rw [cutEq, indexByte_none.mpr h]

theorem pieceOf_says {p : Str} {o : Option (Str × Str)} (h : PieceSays p o) : pieceOf p = o := by
  have h0 : queryUnescape [] = some [] := by rw [queryUnescape]
  cases h with
  | @pair a b k v h hs hk hv =>
    have hs' : (59 : UInt8) ∉ a ++ 61 :: b := by
      simp only [List.mem_append, List.mem_cons, not_or] at hs ⊢
      exact ⟨hs.1, by decide, hs.2⟩
    rw [pieceOf, if_neg hs', if_neg (by simp), cutEq_pair h]
    simp only [unescape_decodes.mpr hk, unescape_decodes.mpr hv]
  | bare hne h hs hk =>
    rw [pieceOf, if_neg hs, if_neg hne, cutEq_bare h]
    simp only [unescape_decodes.mpr hk, h0]
  | empty => rfl
  | semicolon h => rw [pieceOf, if_pos h]
  | @brokenName a b h hk =>
    rw [pieceOf, cutEq_pair h]
    simp only [unescape_none.mpr hk]
    split
    · rfl
    · split <;> rfl
  | @brokenValue a b h hv =>
    rw [pieceOf, cutEq_pair h]
    simp only [unescape_none.mpr hv]
    split
    · rfl
    · split
      · rfl
      · cases queryUnescape a <;> rfl
  | @broken a h hk =>
    rw [pieceOf, cutEq_bare h]
    simp only [unescape_none.mpr hk]
    split
    · rfl
    · split <;> rfl

/-- Every piece says something or nothing. -/
theorem says_pieceOf (p : Str) : PieceSays p (pieceOf p) := by
  unfold pieceOf
  by_cases hs : (59 : UInt8) ∈ p
  · rw [if_pos hs]; exact .semicolon hs
  rw [if_neg hs]
  by_cases hne : p = []
  · subst hne; exact .empty
  rw [if_neg hne]
  by_cases he : (61 : UInt8) ∈ p
  · obtain ⟨a, b, rfl, ha⟩ := List.eq_append_cons_of_mem he
    rw [cutEq_pair ha]
    simp only
    cases hk : queryUnescape a with
    | none => exact .brokenName ha (unescape_none.mp hk)
    | some k =>
      cases hv : queryUnescape b with
      | none => exact .brokenValue ha (unescape_none.mp hv)
      | some v =>
        refine .pair ha ?_ (unescape_decodes.mp hk) (unescape_decodes.mp hv)
        simp only [List.mem_append, List.mem_cons, not_or] at hs ⊢
        exact ⟨hs.1, hs.2.2⟩
  · rw [cutEq_bare he]
    have h0 : queryUnescape [] = some [] := by rw [queryUnescape]
    simp only [h0]
    cases hk : queryUnescape p with
    | none => exact .broken he (unescape_none.mp hk)
    | some k => exact .bare hne he hs (unescape_decodes.mp hk)

theorem addPiece_pieceOf (m : Values) (p : Str) : addPiece m p = match pieceOf p with
    | some (k, v) => addValue k v m
    | none => m := by
  unfold addPiece pieceOf
  by_cases h1 : (59 : UInt8) ∈ p
  · simp [h1]
  · by_cases h2 : p = []
    · simp [h2]
    · simp only [h1, h2, if_false]
      cases queryUnescape (cutEq p).1 <;> cases queryUnescape (cutEq p).2 <;> rfl

theorem foldl_pairs : ∀ (ps : List Str) (m : Values), ps.foldl addPiece m = (ps.filterMap pieceOf).foldl (fun m e => addValue e.1 e.2 m) m
  | [], _ => rfl
  | p :: ps, m => by
    rw [List.foldl_cons, addPiece_pieceOf, List.filterMap_cons]
    cases hp : pieceOf p with
    | none => exact foldl_pairs ps m
    | some e => rw [List.foldl_cons]; exact foldl_pairs ps _

theorem querySays_split {raw : Str} {pairs : List (Str × Str)} (h : QuerySays raw pairs) : pairs = (splitByte 38 raw).filterMap pieceOf := by
  obtain ⟨ps, os, hne, hp, rfl, hf, rfl⟩ := h
  rw [← join_intercalate, splitByte_join 38 ps hne hp]
  clear hne hp
  induction hf with
  | nil => rfl
  | cons h _ ih =>
    rw [List.filterMap_cons, List.filterMap_cons, ih, pieceOf_says h]
    rfl

theorem parseQuery_says {raw : Str} {pairs : List (Str × Str)} (h : QuerySays raw pairs) :
    parseQuery raw = pairs.foldl (fun m e => addValue e.1 e.2 m) [] := by
  rw [parseQuery, foldl_pairs, ← querySays_split h]

theorem lookup_pairs (k : Str) : ∀ (pairs : List (Str × Str)) (m : Values),
    lookup k (pairs.foldl (fun m e => addValue e.1 e.2 m) m)
      = if given k pairs = [] then lookup k m else some ((lookup k m).getD [] ++ given k pairs)
  | [], m => by simp [given]
  | e :: pairs, m => by
    rw [List.foldl_cons, lookup_pairs k pairs, addValue, lookup_insertKV]
    by_cases hk : e.1 = k
    · have hg : given k (e :: pairs) = e.2 :: given k pairs := by simp [given, hk]
      simp only [hk, if_true, hg, reduceCtorEq, if_false, Option.getD_some]
      by_cases h0 : given k pairs = []
      · simp [h0]
      · simp [h0]
    · have hg : given k (e :: pairs) = given k pairs := by simp [given, hk]
      simp only [hk, if_false, hg]

/-- **C119**: every query text says some pairs and no others, and the values of a parameter are those that the text gives to it, in the order in which they are written;
in particular the first value counts. -/
theorem C119_values (raw : Str) : ∃ pairs, QuerySays raw pairs ∧ (∀ pairs', QuerySays raw pairs' → pairs' = pairs)
    ∧ ∀ k, lookup k (parseQuery raw) = (if given k pairs = [] then none else some (given k pairs))
      ∧ ∀ v, First raw k v ↔ (given k pairs).head? = some v := by
  have hs : QuerySays raw ((splitByte 38 raw).filterMap pieceOf) := by
    refine ⟨splitByte 38 raw, (splitByte 38 raw).map pieceOf, splitByte_ne_nil _ _, not_mem_of_splitByte 38 raw, ?_, ?_, ?_⟩
    · rw [← join_intercalate, join_splitByte]
    · rw [List.forall₂_map_right_iff]
      exact List.forall₂_same.mpr fun p _ => says_pieceOf p
    · rw [List.filterMap_map]; rfl
  refine ⟨_, hs, fun p' h' => querySays_split h', fun k => ?_⟩
  have hl : lookup k (parseQuery raw) = (if given k ((splitByte 38 raw).filterMap pieceOf) = [] then none else some (given k ((splitByte 38 raw).filterMap pieceOf))) := by
    rw [parseQuery_says hs, lookup_pairs]
    simp [lookup]
  refine ⟨hl, fun v => ?_⟩
  rw [First]
  rw [hl]
  cases hg : given k ((splitByte 38 raw).filterMap pieceOf) with
  | nil => simp
  | cons a l => simp

variable {env : Env} {st : StoreI} {tord : Nat → List (Str × Str) → List (Str × Str)} {ord : Values} {r : HReq}

/-- **C119**, spelling: requests whose queries say the same are answered alike, however the queries are written, if the pagination request and the label selector can be read;
otherwise the query is forwarded as it was written. -/
theorem C119_spelling {raw raw' : Str} {pairs : List (Str × Str)} (h : QuerySays raw pairs) (h' : QuerySays raw' pairs)
    (hord : ord.Perm (parseQuery raw)) (hr : Readable { r with rawQuery := raw }) :
    ord.Perm (parseQuery raw') ∧ proxy env st tord ord { r with rawQuery := raw } = proxy env st tord ord { r with rawQuery := raw' } := by
  have he : parseQuery raw = parseQuery raw' := by rw [parseQuery_says h, parseQuery_says h']
  refine ⟨he ▸ hord, ?_⟩
  have hs : (parseSelector (scanQuery ord).selector).isSome = true :=
    (readable_iff_scan (r := { r with rawQuery := raw }) hord).mp hr
  obtain ⟨info, hi⟩ := Option.isSome_iff_exists.mp hs
  simp only [proxy, parseClean, hi]
  rfl

/-- **C119**, what says nothing: a piece with a semicolon or a broken escape, or nothing at all between two `&`, changes no answer, if the pagination request and the label
selector can be read. -/
theorem C119_ignored {ps ps' : List Str} {p : Str} (hp : PieceSays p none) (hps : ∀ x ∈ ps ++ p :: ps', (38 : UInt8) ∉ x) (hne : ps ++ ps' ≠ [])
    (hord : ord.Perm (parseQuery ([38].intercalate (ps ++ ps')))) (hr : Readable { r with rawQuery := [38].intercalate (ps ++ ps') }) :
    proxy env st tord ord { r with rawQuery := [38].intercalate (ps ++ ps') } = proxy env st tord ord { r with rawQuery := [38].intercalate (ps ++ p :: ps') } := by
  have hf : ∀ l : List Str, List.Forall₂ PieceSays l (l.map pieceOf) := fun l => by
    rw [List.forall₂_map_right_iff]
    exact List.forall₂_same.mpr fun p _ => says_pieceOf p
  refine (C119_spelling (pairs := (ps ++ ps').filterMap pieceOf) ?_ ?_ hord hr).2
  · refine ⟨ps ++ ps', _, hne, fun x hx => hps x ?_, rfl, hf _, by rw [List.filterMap_map]; rfl⟩
    rw [List.mem_append] at hx ⊢
    exact hx.imp id (List.mem_cons_of_mem _)
  · refine ⟨ps ++ p :: ps', _, by simp, hps, rfl, hf _, ?_⟩
    rw [List.filterMap_map]
    simp only [Function.id_comp]
    rw [List.filterMap_append, List.filterMap_append, List.filterMap_cons, pieceOf_says hp]

/-! ## The hypotheses are met -/

/-- Two ways to write the same query: a list of web pods, read from cluster `c2`. -/
example : QuerySays (lit "labelSelector=app%3dweb&resourceVersion=dsm-cluster-c2&;") [(lit "labelSelector", lit "app=web"), (lit "resourceVersion", lit "dsm-cluster-c2")]
    ∧ QuerySays (lit "&%6cabelSelector=app=web&x%=1&resourceVersion=dsm-cluster-%632") [(lit "labelSelector", lit "app=web"), (lit "resourceVersion", lit "dsm-cluster-c2")]
    ∧ Readable { exList with rawQuery := lit "labelSelector=app%3dweb&resourceVersion=dsm-cluster-c2&;" } := by
  refine ⟨?_, ?_, ?_⟩
  · obtain ⟨ps, h, _⟩ := C119_values (lit "labelSelector=app%3dweb&resourceVersion=dsm-cluster-c2&;")
    have := querySays_split h
    have e : (splitByte 38 (lit "labelSelector=app%3dweb&resourceVersion=dsm-cluster-c2&;")).filterMap pieceOf
        = [(lit "labelSelector", lit "app=web"), (lit "resourceVersion", lit "dsm-cluster-c2")] := by decide +kernel
    rw [e] at this
    exact this ▸ h
  · obtain ⟨ps, h, _⟩ := C119_values (lit "&%6cabelSelector=app=web&x%=1&resourceVersion=dsm-cluster-%632")
    have := querySays_split h
    have e : (splitByte 38 (lit "&%6cabelSelector=app=web&x%=1&resourceVersion=dsm-cluster-%632")).filterMap pieceOf
        = [(lit "labelSelector", lit "app=web"), (lit "resourceVersion", lit "dsm-cluster-c2")] := by decide +kernel
    rw [e] at this
    exact this ▸ h
  · rw [readable_iff_scan (List.Perm.refl _)]
    decide +kernel

/-- Pieces that say nothing. -/
example : PieceSays (lit "a=b;c") none ∧ PieceSays (lit "a=%zz") none ∧ PieceSays (lit "a=%4") none ∧ PieceSays [] none
    ∧ PieceSays (lit "a%20b=c+d%2B") (some (lit "a b", lit "c d+")) := by
  have e : ∀ p o, pieceOf p = o → PieceSays p o := fun p o h => h ▸ says_pieceOf p
  exact ⟨e _ _ (by decide +kernel), e _ _ (by decide +kernel), e _ _ (by decide +kernel), e _ _ (by decide +kernel), e _ _ (by decide +kernel)⟩

end Ckube

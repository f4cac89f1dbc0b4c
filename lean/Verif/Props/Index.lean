import Verif.Lemmas.LabelIndex
import Verif.Props.Sort

/-! # What index expressions yield: C81 to C83 -/

namespace Ckube
open Spec Json

variable {num : Str → Option Str} {other : Str → Str → Str} {js : Obj → Str}

theorem steps_no_brace {ss : List JpStep} (h : ∀ s ∈ ss, StepOk s) :
    (123 : UInt8) ∉ ss.flatMap stepText ++ [125] := by
  intro hm
  rw [List.mem_append, List.mem_flatMap] at hm
  rcases hm with ⟨s, hs, hm⟩ | hm
  · have := h s hs
    cases s with
    | field n =>
      rw [stepText, List.mem_cons] at hm
      rcases hm with hm | hm
      · simp at hm
      · exact this.2.2.2 _ hm (by decide)
    | each => revert hm; decide
    | elem n =>
      simp only [stepText, List.mem_cons, List.mem_append, List.not_mem_nil, or_false] at hm
      rcases hm with hm | hm | hm
      · revert hm; decide
      · unfold intDigits at hm
        have h2 : (123 : UInt8) ∉ natDigits n.natAbs := fun h => absurd (List.all_eq_true.mp (natDigits_all n.natAbs) _ h) (by decide)
        split at hm
        · rcases List.mem_cons.mp hm with h | h
          · revert h; decide
          · exact h2 h
        · exact h2 hm
      · revert hm; decide
  · simp at hm

theorem written_no_brace2 : ∀ (ps : List Piece), (∀ p ∈ ps, p.Ok) → ¬ [123, 123] <:+: ps.flatMap Piece.written
  | [], _, h => by simp at h
  | p :: ps, hok, h => by
    have ih := written_no_brace2 ps (fun q hq => hok q (List.mem_cons_of_mem _ hq))
    have hp := hok p List.mem_cons_self
    rw [List.flatMap_cons] at h
    cases p with
    | text s => exact ih (infix_skip (A := s) hp h)
    | path ss lead =>
      have hb : (123 : UInt8) ∉ lead ++ (ss.flatMap stepText ++ [125]) := by
        intro hm
        rcases List.mem_append.mp hm with hm | hm
        · exact absurd (hp.1 _ hm) (by decide)
        · exact steps_no_brace hp.2 hm
      have e : (Piece.path ss lead).written ++ ps.flatMap Piece.written = 123 :: ((lead ++ (ss.flatMap stepText ++ [125])) ++ ps.flatMap Piece.written) := by
        simp [Piece.written]
      rw [e, List.infix_cons_iff] at h
      rcases h with h | h
      · rw [List.cons_prefix_cons] at h
        obtain ⟨t, ht⟩ := h.2
        obtain ⟨c, r, hcr⟩ : ∃ c r, lead ++ (ss.flatMap stepText ++ [125]) = c :: r := by
          cases hx : lead ++ (ss.flatMap stepText ++ [125]) with
          | nil => simp at hx
          | cons c r => exact ⟨c, r, rfl⟩
        rw [hcr] at ht hb
        simp only [List.cons_append, List.cons.injEq] at ht
        exact hb (by simp [ht.1])
      · exact ih (infix_skip hb h)

/-- An expression without a path is its text. -/
theorem written_no_brace : ∀ (ps : List Piece), contains (ps.flatMap Piece.written) (lit "{") = false →
    ∀ p ∈ ps, ∃ s, p = .text s
  | [], _, p, hp => by simp at hp
  | q :: ps, h, p, hp => by
    have h' : ¬ lit "{" <:+: (q :: ps).flatMap Piece.written := by rw [← contains_iff, h]; simp
    rw [List.flatMap_cons] at h'
    have ih := written_no_brace ps (by
      rw [← Bool.not_eq_true, contains_iff]
      exact fun h2 => h' (h2.trans (List.suffix_append _ _).isInfix))
    rcases List.mem_cons.mp hp with rfl | hp
    · cases p with
      | text s => exact ⟨s, rfl⟩
      | path ss lead => exact absurd ⟨[], lead ++ ss.flatMap stepText ++ [125] ++ ps.flatMap Piece.written, by simp [Piece.written, lit]⟩ h'
    · exact ih p hp

theorem execO_texts {doc : JV} : ∀ (ps : List Piece), (∀ p ∈ ps, ∃ s, p = .text s) →
    execO doc (ps.map Piece.node) = some (ps.flatMap Piece.written)
  | [], _ => rfl
  | p :: ps, h => by
    obtain ⟨s, rfl⟩ := h p List.mem_cons_self
    rw [List.map_cons, execO_cons, execO_texts ps (fun q hq => h q (List.mem_cons_of_mem _ hq))]
    rfl

/-- What the pieces of an expression write. -/
theorem execO_pieces (hnum : ∀ r t, num r = some t → okNum t) {doc : JV} (hg : Good doc) : ∀ (ps : List Piece), (∀ ss lead, .path ss lead ∈ ps → Undisturbed num ss doc) →
    ((∃ ss lead, .path ss lead ∈ ps ∧ valuesAt num ss doc = none) → execO (toGo num doc) (ps.map Piece.node) = none)
    ∧ ((∀ ss lead, .path ss lead ∈ ps → ∃ vs, valuesAt num ss doc = some vs ∧ ∀ w ∈ vs, SmallNumbers num w) →
      ∃ ts, List.Forall₂ (Shows1 num doc) ps ts ∧ execO (toGo num doc) (ps.map Piece.node) = some ts.flatten)
  | [], _ => ⟨by simp, fun _ => ⟨[], .nil, rfl⟩⟩
  | p :: ps, hu => by
    obtain ⟨i1, i2⟩ := execO_pieces hnum hg ps fun ss lead hm => hu ss lead (List.mem_cons_of_mem _ hm)
    rw [List.map_cons, execO_cons]
    constructor
    · rintro ⟨ss, lead, hm, hn⟩
      rcases List.mem_cons.mp hm with rfl | hm
      · rw [Piece.node, jpNode_path ss doc (hu ss lead List.mem_cons_self), hn]; rfl
      · rw [i1 ⟨ss, lead, hm, hn⟩]
        cases jpNode (toGo num doc) (Piece.node p) <;> rfl
    · intro h
      obtain ⟨ts, h1, h2⟩ := i2 (fun ss lead hm => h ss lead (List.mem_cons_of_mem _ hm))
      rw [h2]
      cases p with
      | text s => exact ⟨s :: ts, .cons rfl h1, by simp [Piece.node, jpNode]⟩
      | path ss lead =>
        obtain ⟨vs, hv, hsm⟩ := h ss lead List.mem_cons_self
        refine ⟨_ :: ts, .cons ⟨vs, vs.map fun w => jpShow (toGo num w), hv, ?_, rfl⟩ h1, ?_⟩
        · rw [List.forall₂_map_right_iff]
          refine List.forall₂_same.mpr fun w hw => shownAs_jpShow hnum (good_valuesAt ss doc vs hg hv w hw) (hsm w hw)
        · rw [Piece.node, jpNode_path ss doc (hu ss lead List.mem_cons_self), hv]; simp

/-- What an expression in pieces yields. -/
theorem indexValue_written {o : Obj} {ms : List (Str × JV)} (hjs : Json.parse (js o) = some (.obj ms)) (ps : List Piece)
    (hok : ∀ p ∈ ps, p.Ok) :
    indexValue (jpEval num other js) o (ps.flatMap Piece.written) = (execO (toGo num (.obj ms)) (ps.map Piece.node)).getD [] := by
  have h2 : contains (ps.flatMap Piece.written) (lit "{{") = false := by
    rw [← Bool.not_eq_true, contains_iff]; exact written_no_brace2 ps hok
  unfold indexValue
  rw [h2]
  simp only [Bool.false_eq_true, if_false]
  by_cases hb : contains (ps.flatMap Piece.written) (lit "{") = true
  · rw [hb]
    simp only [Bool.not_true, Bool.false_eq_true, if_false]
    obtain ⟨ns, hp, he⟩ := jpParse_written ps hok
    have hd : JV.obj (decodeMap num (js o)) = toGo num (.obj ms) := by rw [decodeMap, hjs, toGo]
    rw [jpEval, h2, hp, ← he, hd]
    simp only [Bool.false_eq_true, if_false]
    rw [jpExec, execO]
    cases ns.mapM (jpNode (toGo num (.obj ms))) <;> rfl
  · rw [Bool.not_eq_true] at hb
    have htxt := written_no_brace ps hb
    rw [hb]
    simp only [Bool.not_false, if_true]
    rw [execO_texts ps htxt]; rfl

/-- **C81**: an index expression made of text and field paths yields, for every object, its text with every path replaced by
what stands at that path in the JSON form of the object; a path that applies `[*]` or `[n]` to something that is no array, or asks for an element that is
not there, makes the index empty. Missing for the full claim: numbers from one million on and fractions below 10⁻⁴ (`C81_false_number`,
`C81_false_fraction`), empty arrays among those that an inner `[*]` meets (`C81_false_empty`; `C81_single`: none for paths with one `[*]`), names with
escapes, filters, ranges and Go templates. -/
theorem C81_path_partial (hnum : ∀ r t, num r = some t → okNum t) (o : Obj) (ms : List (Str × JV))
    (hjs : Json.parse (js o) = some (.obj ms)) (ps : List Piece) (hok : ∀ p ∈ ps, p.Ok)
    (hu : ∀ ss lead, .path ss lead ∈ ps → Undisturbed num ss (.obj ms)) :
    ((∃ ss lead, .path ss lead ∈ ps ∧ valuesAt num ss (.obj ms) = none) →
      indexValue (jpEval num other js) o (ps.flatMap Piece.written) = [])
    ∧ ((∀ ss lead, .path ss lead ∈ ps → ∃ vs, valuesAt num ss (.obj ms) = some vs ∧ ∀ w ∈ vs, SmallNumbers num w) →
      ∃ ts, List.Forall₂ (Shows1 num (.obj ms)) ps ts
        ∧ indexValue (jpEval num other js) o (ps.flatMap Piece.written) = ts.flatten) := by
  rw [indexValue_written hjs ps hok]
  obtain ⟨h1, h2⟩ := execO_pieces hnum (good_of_parse hjs) ps hu
  constructor
  · intro h; rw [h1 h]; rfl
  · intro h
    obtain ⟨ts, g1, g2⟩ := h2 h
    exact ⟨ts, g1, by rw [g2]; rfl⟩

/-- **C81** for paths with at most one `[*]`: every such expression yields what stands at its paths, for every object. -/
theorem C81_single (hnum : ∀ r t, num r = some t → okNum t) (o : Obj) (ms : List (Str × JV))
    (hjs : Json.parse (js o) = some (.obj ms)) (ps : List Piece) (hok : ∀ p ∈ ps, p.Ok)
    (hone : ∀ ss lead, .path ss lead ∈ ps → ss.count .each ≤ 1) :
    ((∃ ss lead, .path ss lead ∈ ps ∧ valuesAt num ss (.obj ms) = none) →
      indexValue (jpEval num other js) o (ps.flatMap Piece.written) = [])
    ∧ ((∀ ss lead, .path ss lead ∈ ps → ∃ vs, valuesAt num ss (.obj ms) = some vs ∧ ∀ w ∈ vs, SmallNumbers num w) →
      ∃ ts, List.Forall₂ (Shows1 num (.obj ms)) ps ts
        ∧ indexValue (jpEval num other js) o (ps.flatMap Piece.written) = ts.flatten) :=
  C81_path_partial hnum o ms hjs ps hok fun ss lead hm => undisturbed_one (hone ss lead hm) _

/-- The first and the last container, one that is not there, and the ports of the second. -/
example :
    let js : Obj → Str := fun _ => lit "{\"cs\":[{\"i\":\"a\"},{\"i\":\"b\",\"ports\":[80,443]}]}"
    let value := fun s => indexValue (jpEval some (fun _ _ => []) js) {} (lit s)
    ([Piece.path [.field (lit "cs"), .elem (-1), .field (lit "ports"), .each]].flatMap Piece.written = lit "{.cs[-1].ports[*]}")
    ∧ value "{.cs[0].i}/{.cs[-1].i}" = lit "a/b" ∧ value "x{.cs[2].i}" = [] ∧ value "x{.cs[-3].i}" = [] ∧ value "{.cs[-1].ports[*]}" = lit "80 443"
    ∧ value "x{.cs[0].i[0]}" = [] := by decide +kernel

/-- An expression with text, a path through an array and a missing field; a path that asks for the elements of an object. -/
example :
    let js : Obj → Str := fun _ => lit "{\"spec\":{\"n\":\"x\",\"cs\":[{\"i\":7},{\"i\":[true]}]}}"
    let o : Obj := {}
    let ps : List Piece := [.text (lit "n="), .path [.field (lit "spec"), .field (lit "n")], .text (lit " "),
      .path [.field (lit "spec"), .field (lit "cs"), .each, .field (lit "i")] (lit "$"), .path [.field (lit "q")] (lit "@ ")]
    ps.flatMap Piece.written = lit "n={.spec.n} {$.spec.cs[*].i}{@ .q}"
    ∧ indexValue (jpEval some (fun _ _ => []) js) o (ps.flatMap Piece.written) = lit "n=x 7 [true]"
    ∧ indexValue (jpEval some (fun _ _ => []) js) o (lit "n={.spec.n}{.spec[*]}") = [] := by decide +kernel

/-- **C81 is false** for numbers from one million on: the index of a field with the value 1000000 is `1e+06`. -/
theorem C81_false_number :
    indexValue (jpEval some (fun _ _ => []) fun _ => lit "{\"spec\":{\"runAsUser\":1000000}}") {}
      (lit "{.spec.runAsUser}") = lit "1e+06" := by decide +kernel

/-- **C81 is false** for small fractions: the index of a field with the value 0.00001 is `1e-05`, and that of 0.0001 is `0.0001`. -/
theorem C81_false_fraction :
    let value (n : Str) := indexValue (jpEval some (fun _ _ => []) fun _ => lit "{\"spec\":{\"ratio\":" ++ n ++ lit "}}") {} (lit "{.spec.ratio}")
    value (lit "0.00001") = lit "1e-05" ∧ value (lit "0.0001") = lit "0.0001" := by decide +kernel

/-! ## C82: searching by label -/

theorem valuesAt_two (a b : Str) (doc : JV) :
    (valuesAt num [.field a, .field b] doc = some [] ∧ ∀ k, valuesAt num [.field a, .field b, .field k] doc = some [])
    ∨ ∃ w, valuesAt num [.field a, .field b] doc = some [w]
      ∧ ∀ k, valuesAt num [.field a, .field b, .field k] doc = valuesAt num [.field k] w := by
  simp only [valuesAt_field a]
  cases fieldOf a doc with
  | none => exact Or.inl ⟨rfl, fun _ => rfl⟩
  | some u =>
    simp only [valuesAt_field b]
    cases fieldOf b u with
    | none => exact Or.inl ⟨rfl, fun _ => rfl⟩
    | some w => exact Or.inr ⟨w, by simp [valuesAt], fun k => rfl⟩

/-- The text of the index of the labels. -/
theorem labels_index {o : Obj} {ms : List (Str × JV)} (hjs : Json.parse (js o) = some (.obj ms)) :
    ∃ vs, valuesAt num [.field (lit "metadata"), .field (lit "labels")] (.obj ms) = some vs
      ∧ indexValue (jpEval num other js) o (lit "{.metadata.labels}") = join [32] (vs.map fun w => jpShow (toGo num w)) := by
  have hw : [Piece.path [.field (lit "metadata"), .field (lit "labels")]].flatMap Piece.written = lit "{.metadata.labels}" := by
    decide +kernel
  have hok : ∀ p ∈ [Piece.path [.field (lit "metadata"), .field (lit "labels")]], p.Ok := by
    intro p hp
    rw [List.mem_singleton] at hp
    subst hp
    refine ⟨by simp, fun s hs => ?_⟩
    simp only [List.mem_cons, List.not_mem_nil, or_false] at hs
    rcases hs with rfl | rfl <;> (simp only [StepOk, PlainName]; decide +kernel)
  have h := indexValue_written (num := num) (other := other) hjs _ hok
  rw [hw, List.map_cons, List.map_nil, execO_cons, Piece.node, jpNode_path _ _ (undisturbed_one (by decide +kernel) _)] at h
  rcases valuesAt_two (num := num) (lit "metadata") (lit "labels") (.obj ms) with ⟨h1, -⟩ | ⟨w, h1, -⟩
  · rw [h1] at h; exact ⟨[], h1, by rw [h]; rfl⟩
  · rw [h1] at h; exact ⟨[w], h1, by rw [h]; simp [execO_nil]⟩

/-- The labels of an object, as a list. -/
theorem labels_list {ms : List (Str × JV)} (hl : ∀ e ∈ ms, (∀ b ∈ e.1, labelByte b = true) ∧ ∃ t, e.2 = .str t ∧ ∀ b ∈ t, labelByte b = true) :
    ∃ L : List (Str × Str), toGo num (.obj ms) = .obj (L.map fun e => (e.1, .str e.2))
      ∧ (∀ e ∈ L, (∀ b ∈ e.1, labelByte b = true) ∧ ∀ b ∈ e.2, labelByte b = true)
      ∧ ∀ k v, (k, v) ∈ L ↔ lastOf k ms = some (.str v) := by
  have hmem : ∀ e ∈ goMap (toGoMembers num ms), ∃ t, e.2 = .str t ∧ lastOf e.1 ms = some (.str t)
      ∧ (∀ b ∈ e.1, labelByte b = true) ∧ ∀ b ∈ t, labelByte b = true := by
    rintro ⟨k, w⟩ he
    have h1 := lookup_eq_some_of_mem (goMap_isMap _) he
    rw [lookup_toGo] at h1
    cases h2 : lastOf k ms with
    | none => rw [h2] at h1; simp at h1
    | some x =>
      rw [h2] at h1
      obtain ⟨g1, t, g2, g3⟩ := hl _ (mem_of_lastOf h2)
      simp only at g2
      subst g2
      simp only [Option.map_some, toGo, Option.some.injEq] at h1
      exact ⟨t, h1.symm, rfl, g1, g3⟩
  refine ⟨(goMap (toGoMembers num ms)).map fun e => (e.1, match e.2 with | .str t => t | _ => []), ?_, ?_, ?_⟩
  · rw [toGo, List.map_map]
    congr 1
    refine (List.map_congr_left ?_).trans (List.map_id _) |>.symm
    intro e he
    obtain ⟨t, h1, -⟩ := hmem e he
    obtain ⟨k, w⟩ := e
    simp only at h1
    subst h1
    rfl
  · intro e he
    rw [List.mem_map] at he
    obtain ⟨x, hx, rfl⟩ := he
    obtain ⟨t, h1, -, h3, h4⟩ := hmem x hx
    rw [h1]
    exact ⟨h3, h4⟩
  · intro k v
    rw [List.mem_map]
    constructor
    · rintro ⟨x, hx, he⟩
      obtain ⟨t, h1, h2, -⟩ := hmem x hx
      rw [h1] at he
      simp only [Prod.mk.injEq] at he
      rw [← he.1, ← he.2]; exact h2
    · intro h
      have h1 : lookup k (goMap (toGoMembers num ms)) = some (.str v) := by rw [lookup_toGo, h]; simp [toGo]
      exact ⟨(k, .str v), mem_of_lookup h1, rfl⟩

theorem labels_accept {isPrint : Nat → Bool} {o : Obj} {ms : List (Str × JV)} (hjs : Json.parse (js o) = some (.obj ms))
    (hlab : LabelsOk num (.obj ms)) {k v : Str} (hk : ∀ b ∈ k, labelByte b = true) (hv : ∀ b ∈ v, labelByte b = true) :
    labelItem (k, v) <:+: quote isPrint (indexValue (jpEval num other js) o (lit "{.metadata.labels}")) ↔ HasLabel num (.obj ms) k v := by
  obtain ⟨vs, hvs, ht⟩ := labels_index (num := num) (other := other) hjs
  rw [ht]
  unfold HasLabel
  rcases valuesAt_two (num := num) (lit "metadata") (lit "labels") (.obj ms) with ⟨h1, h2⟩ | ⟨w, h1, h2⟩
  · rw [hvs, Option.some.injEq] at h1
    subst h1
    rw [h2 k]
    constructor
    · intro h
      have := h.subset (show (92 : UInt8) ∈ _ by simp [labelItem])
      revert this
      simp [join, quote, quoteBody, chunks, chunksFrom]
    · intro h; simp at h
  · have h3 := h1
    rw [hvs, Option.some.injEq] at h1
    subst h1
    obtain ⟨ms', rfl, hm⟩ := hlab _ h3 w (by simp)
    obtain ⟨L, e1, e2, e3⟩ := labels_list (num := num) hm
    rw [h2 k]
    have et : join [32] ([JV.obj ms'].map fun w => jpShow (toGo num w)) = enc (.obj (L.map fun e => (e.1, .str e.2))) := by
      simp only [List.map_cons, List.map_nil, join]
      rw [e1]; rfl
    rw [et, label_quoted hk hv L e2, e3]
    simp only [valuesAt]
    cases lastOf k ms' with
    | none => simp
    | some x => simp

theorem advPrefix_not_name {name r : Str} (hn : ∀ b ∈ name, labelByte b = true) : ¬ advPrefix <+: name ++ 61 :: r := by
  rintro ⟨t, h⟩
  obtain ⟨a', h1, -⟩ := append_cons_split (x := (61 : UInt8)) (u := advPrefix) (by decide +kernel) h
  have : (58 : UInt8) ∈ name := by rw [h1, List.mem_append]; exact Or.inl (by decide +kernel)
  exact absurd (hn _ this) (by decide +kernel)

/-- **C82**: with the index `{.metadata.labels}`, the search for `"k":"v"` with its quotes escaped accepts exactly the objects that
have the label `k` with the value `v`, and the negated search exactly the others. -/
theorem C82_label (isPrint : Nat → Bool) (o : Obj) (ms : List (Str × JV)) (hjs : Json.parse (js o) = some (.obj ms))
    (hlab : LabelsOk num (.obj ms)) (conf : List (Str × Str)) (c name : Str) (hn : name ≠ [] ∧ ∀ b ∈ name, labelByte b = true)
    (hconf : lookup name conf = some (lit "{.metadata.labels}"))
    (hbuilt : name ∉ [lit "cluster", lit "is_deleted", lit "namespace", lit "name"])
    (idx : List (Str × Str)) (hidx : IsIndex (jpEval num other js) conf c o idx)
    (k v : Str) (hk : ∀ b ∈ k, labelByte b = true) (hv : ∀ b ∈ v, labelByte b = true) (p q : Paginate)
    (hp : p.search = name ++ lit "=\\\"" ++ k ++ lit "\\\":\\\"" ++ v ++ lit "\\\"")
    (hq : q.search = name ++ lit "=!\\\"" ++ k ++ lit "\\\":\\\"" ++ v ++ lit "\\\"") :
    (p.matches isPrint idx).isSome = true ∧ (p.matches isPrint idx = some true ↔ HasLabel num (.obj ms) k v)
    ∧ (q.matches isPrint idx).isSome = true ∧ (q.matches isPrint idx = some true ↔ ¬ HasLabel num (.obj ms) k v) := by
  have hacc := labels_accept (isPrint := isPrint) (other := other) hjs hlab hk hv
  have hl : lookup name idx = some (indexValue (jpEval num other js) o (lit "{.metadata.labels}")) := by
    simp only [List.mem_cons, List.not_mem_nil, or_false, not_or] at hbuilt
    obtain ⟨b1, b2, b3, b4⟩ := hbuilt
    rw [hidx.2, indexValueOf, hconf]
    simp only [Option.map_some, if_neg b1]
    cases o.om with
    | none => rfl
    | some m => simp only [if_neg b2, if_neg b3, if_neg b4]
  have e1 : p.search = name ++ 61 :: labelItem (k, v) := by rw [hp]; simp [labelItem, lit]
  have e2 : q.search = name ++ 61 :: 33 :: labelItem (k, v) := by rw [hq]; simp [labelItem, lit]
  have heq : (61 : UInt8) ∉ name := fun h => absurd (hn.2 _ h) (by decide +kernel)
  have h59 : ∀ s : Str, (∀ b ∈ s, labelByte b = true) → (59 : UInt8) ∉ s := fun s hs h => absurd (hs _ h) (by decide +kernel)
  obtain ⟨a, r, har⟩ : ∃ a r, name = a :: r := by
    cases hx : name with
    | nil => exact absurd hx hn.1
    | cons a r => exact ⟨a, r, rfl⟩
  have hva : visible a = true := (labelByte_ok a (hn.2 a (by rw [har]; simp))).2.2.2.2.2.2.2.2.1
  have hv34 : visible 34 = true := by decide
  have key : ∀ (s : Str), (∀ b ∈ s, b = 33) → (parseValue (s ++ labelItem (k, v))).1 = labelItem (k, v) →
      matchParts isPrint idx (searchParts (name ++ 61 :: (s ++ labelItem (k, v))))
        = some (if (parseValue (s ++ labelItem (k, v))).2 then
            !contains (quote isPrint (indexValue (jpEval num other js) o (lit "{.metadata.labels}"))) (labelItem (k, v))
          else contains (quote isPrint (indexValue (jpEval num other js) o (lit "{.metadata.labels}"))) (labelItem (k, v))) := by
    intro s hs hps
    have hsemi : (59 : UInt8) ∉ name ++ 61 :: (s ++ labelItem (k, v)) := by
      intro hm
      simp only [labelItem, List.mem_append, List.mem_cons, List.not_mem_nil, or_false] at hm
      rcases hm with hm | hm | hm | (((hm | hm) | hm) | hm) | hm
      · exact h59 _ hn.2 hm
      · revert hm; decide
      · exact absurd (hs _ hm) (by decide)
      · revert hm; decide
      · exact h59 _ hk hm
      · revert hm; decide
      · exact h59 _ hv hm
      · revert hm; decide
    rw [searchParts_single (by simp) hsemi]
    have htrim : trimSpace (name ++ 61 :: (s ++ labelItem (k, v))) = name ++ 61 :: (s ++ labelItem (k, v)) := by
      refine trimSpace_visible (a := a) (z := 34) (r := r ++ 61 :: (s ++ labelItem (k, v)))
        (r' := name ++ 61 :: (s ++ ([92, 34] ++ k ++ [92, 34, 58, 92, 34] ++ v ++ [92]))) hva hv34 (by rw [har]; rfl) ?_
      simp [labelItem]
    simp only [matchParts]
    rw [match1_key htrim hn.1 heq (advPrefix_not_name hn.2), hl, hps]
    rfl
  have p1 : parseValue (labelItem (k, v)) = (labelItem (k, v), false) := parseValue_plain (by simp [labelItem])
  have p2 : parseValue (33 :: labelItem (k, v)) = (labelItem (k, v), true) := parseValue_bang _
  have k1 := key [] (by simp) (by rw [List.nil_append, p1])
  have k2 := key [33] (by simp) (by rw [List.cons_append, List.nil_append, p2])
  rw [List.nil_append, p1] at k1
  rw [List.cons_append, List.nil_append, p2] at k2
  unfold Paginate.matches
  rw [e1, e2, k1, k2]
  refine ⟨rfl, ?_, rfl, ?_⟩
  · rw [← hacc, ← contains_iff]; simp
  · rw [← hacc, ← contains_iff]; simp

/-- A pod with two labels; `app=we` is not accepted, nor is a label of which only the value matches. -/
example :
    let js : Obj → Str := fun _ => lit "{\"metadata\":{\"labels\":{\"tier\":\"app\",\"app\":\"web\"}}}"
    let idx := [(lit "labels", indexValue (jpEval some (fun _ _ => []) js) {} (lit "{.metadata.labels}"))]
    idx = [(lit "labels", lit "{\"app\":\"web\",\"tier\":\"app\"}")]
    ∧ ({ search := lit "labels=\\\"app\\\":\\\"web\\\"" } : Paginate).matches (fun _ => true) idx = some true
    ∧ ({ search := lit "labels=\\\"app\\\":\\\"we\\\"" } : Paginate).matches (fun _ => true) idx = some false
    ∧ ({ search := lit "labels=!\\\"app\\\":\\\"web\\\"" } : Paginate).matches (fun _ => true) idx = some false
    ∧ ({ search := lit "labels=!\\\"k\\\":\\\"web\\\"" } : Paginate).matches (fun _ => true) idx = some true := by decide +kernel

/-- The hypothesis about the labels is met by this pod. -/
example : LabelsOk some (.obj [(lit "metadata", .obj [(lit "labels", .obj [(lit "tier", .str (lit "app")), (lit "app", .str (lit "web"))])])])
    ∧ HasLabel some (.obj [(lit "metadata", .obj [(lit "labels", .obj [(lit "tier", .str (lit "app")), (lit "app", .str (lit "web"))])])])
        (lit "app") (lit "web") := by
  constructor
  · intro vs hvs w hw
    have e : valuesAt some [.field (lit "metadata"), .field (lit "labels")] (.obj [(lit "metadata", .obj [(lit "labels",
        .obj [(lit "tier", .str (lit "app")), (lit "app", .str (lit "web"))])])])
        = some [.obj [(lit "tier", .str (lit "app")), (lit "app", .str (lit "web"))]] := by rfl
    rw [e, Option.some.injEq] at hvs
    subst hvs
    rw [List.mem_singleton] at hw
    refine ⟨_, hw, ?_⟩
    intro e he
    simp only [List.mem_cons, List.not_mem_nil, or_false] at he
    rcases he with rfl | rfl
    · exact ⟨by decide +kernel, _, rfl, by decide +kernel⟩
    · exact ⟨by decide +kernel, _, rfl, by decide +kernel⟩
  · rfl

/-- **C82**: the quotes have to be escaped: the search for `"k":"v"` as it stands in JSON accepts no index value at all. -/
theorem C82_unescaped (isPrint : Nat → Bool) (value k v : Str) (hk : ∀ b ∈ k, labelByte b = true) :
    ¬ contains (quote isPrint value) (lit "\"" ++ k ++ lit "\":\"" ++ v ++ lit "\"") = true := by
  rw [contains_iff]
  rintro ⟨pre, post, h⟩
  have h92 : ∀ l, k = l ++ [92] → False := fun l e => absurd (hk 92 (by rw [e]; simp)) (by decide +kernel)
  unfold quote quoteBody at h
  have hok : ∀ c ∈ chunks value, c.Ok := fun c hc => chunks_ok value c hc
  cases pre with
  | nil =>
    simp only [lit] at h
    simp at h
    rcases quote_positions (isPrint := isPrint) (chunks value) hok k (58 :: 34 :: (v ++ 34 :: post)) (by simpa using h.symm) with ⟨-, e⟩ | ⟨c1, c2, -, e, -⟩
    · simp at e
    · exact h92 _ e
  | cons x pre =>
    simp only [lit] at h
    simp at h
    rcases quote_positions (isPrint := isPrint) (chunks value) hok (pre ++ 34 :: k) (58 :: 34 :: (v ++ 34 :: post)) (by simpa using h.2.symm)
      with ⟨-, e⟩ | ⟨c1, c2, -, e, -⟩
    · simp at e
    · rcases List.eq_nil_or_concat k with rfl | ⟨l, b, rfl⟩
      · have := congrArg List.getLast? e
        simp at this
      · have := congrArg List.getLast? e
        rw [List.concat_eq_append, ← List.cons_append, ← List.append_assoc, List.getLast?_concat, List.getLast?_concat] at this
        simp only [Option.some.injEq] at this
        exact h92 l (by rw [this, List.concat_eq_append])

/-! ## C83: sorting by creation time -/

theorem strLt_cons (a b : UInt8) (s t : Str) : strLt (a :: s) (b :: t) = true ↔ a < b ∨ (a = b ∧ strLt s t = true) := by
  simp only [strLt, strLe, UInt8.lt_iff_toNat_lt, ← UInt8.toNat_inj]
  split
  · simp; omega
  · split
    · rename_i h1 h2
      simp [h2]
    · simp; omega

theorem strLt_same (a : UInt8) (s t : Str) : strLt (a :: s) (a :: t) = strLt s t := by
  rw [Bool.eq_iff_iff, strLt_cons]
  simp

theorem strLt_two {n m : Nat} (hn : n < 100) (hm : m < 100) (s t : Str) :
    strLt (twoDigits n ++ s) (twoDigits m ++ t) = true ↔ n < m ∨ (n = m ∧ strLt s t = true) := by
  have e : ∀ x, x < 10 → (UInt8.ofNat (48 + x)).toNat = 48 + x := by
    intro x hx
    rw [UInt8.toNat_ofNat']
    omega
  simp only [twoDigits, List.cons_append, List.nil_append, strLt_cons, UInt8.lt_iff_toNat_lt, ← UInt8.toNat_inj]
  rw [e _ (by omega), e _ (by omega), e _ (by omega), e _ (by omega)]
  cases strLt s t <;> simp <;> omega

/-- The texts of two points of time are ordered like the points of time. -/
theorem rfc3339_lt {a b : CivilTime} (ha : a.Valid) (hb : b.Valid) : strLt a.rfc3339 b.rfc3339 = true ↔ a.Before b := by
  obtain ⟨a1, a2, a3, a4, a5, a6⟩ := ha
  obtain ⟨b1, b2, b3, b4, b5, b6⟩ := hb
  unfold CivilTime.rfc3339 CivilTime.Before CivilTime.fields
  simp only [List.append_assoc, show lit "-" = [45] from rfl, show lit "T" = [84] from rfl, show lit ":" = [58] from rfl,
    show lit "Z" = [90] from rfl, List.cons_append, List.nil_append]
  rw [strLt_two (by omega) (by omega), strLt_two (by omega) (by omega), strLt_same, strLt_two (by omega) (by omega), strLt_same,
    strLt_two (by omega) (by omega), strLt_same, strLt_two (by omega) (by omega), strLt_same,
    strLt_two (by omega) (by omega), strLt_same, strLt_two (by omega) (by omega), strLt_irrefl]
  simp only [List.cons_lt_cons_iff, List.not_lt_nil, Bool.false_eq_true, and_false, or_false]
  omega

/-- **C83**: with an index on the creation time, a query sorted by it is answered with the objects in the order of their
creation, or newest first if the order is reversed. -/
theorem C83_created {isPrint : Nat → Bool} {alg : SliceSort} {pf : Str → Option GoFloat} {conf : List (GVR × List (Str × Str))}
    {h : List Notice} {s : Store} (hconf : ConfOK conf) (hrun : (newStore conf).run (jpEval num other js) h = some s) (g : GVR)
    (q : Query) (hp : ValidPaging q.page) (name : Str) (rev : Bool) (hks : SortMeans q.page.sort [⟨name, false, rev⟩])
    (hcfg : lookup name (confAt conf g) = some (lit "{.metadata.creationTimestamp}"))
    (hbuilt : name ∉ [lit "cluster", lit "is_deleted", lit "namespace", lit "name"]) (he : EmptyNoNaN pf)
    (time : Obj → CivilTime)
    (htime : ∀ id o, Matching isPrint (jpEval num other js) conf h g q id o → (time o).Valid ∧ ∃ ms, Json.parse (js o) = some (.obj ms)
      ∧ valuesAt num [.field (lit "metadata"), .field (lit "creationTimestamp")] (.obj ms) = some [.str (time o).rfc3339])
    (res : QueryResult) (hans : s.mayAnswer isPrint alg pf g q (some res)) (hok : res.error = false) :
    ∃ found, Lists isPrint (jpEval num other js) conf h s g q found ∧ res.total = found.length
      ∧ res.items = pageOf q.page.page q.page.pageSize (found.map fun e => e.2.2.obj)
      ∧ (found.map fun e => time e.2.1).Pairwise fun a b => if rev then ¬ a.Before b else ¬ b.Before a := by
  obtain ⟨found, h1, h2, h3, h4⟩ := C25_sorted_partial hconf hrun g q hp _ hks he
    (by intro id o _ k hk hnum; rw [List.mem_singleton] at hk; subst hk; simp at hnum) res hans hok
  refine ⟨found, h1, h2, h3, ?_⟩
  have hval : ∀ e ∈ found, (time e.2.1).Valid ∧ e.2.2.val name = (time e.2.1).rfc3339 := by
    intro e hm
    obtain ⟨t1, ms, t2, t3⟩ := htime e.1 e.2.1 ((h1.2.1 e.1 e.2.1).mp ⟨e.2.2, hm⟩)
    refine ⟨t1, ?_⟩
    have hi := (h1.2.2 e hm).1.2 name
    simp only [List.mem_cons, List.not_mem_nil, or_false, not_or] at hbuilt
    obtain ⟨b1, b2, b3, b4⟩ := hbuilt
    have hi' : lookup name e.2.2.index = some (indexValue (jpEval num other js) e.2.1 (lit "{.metadata.creationTimestamp}")) := by
      rw [hi, indexValueOf, hcfg]
      simp only [Option.map_some, if_neg b1]
      cases e.2.1.om with
      | none => rfl
      | some m => simp only [if_neg b2, if_neg b3, if_neg b4]
    have hw : [Piece.path [.field (lit "metadata"), .field (lit "creationTimestamp")]].flatMap Piece.written
        = lit "{.metadata.creationTimestamp}" := by decide +kernel
    have hokp : ∀ p ∈ [Piece.path [.field (lit "metadata"), .field (lit "creationTimestamp")]], p.Ok := by
      intro p hp
      rw [List.mem_singleton] at hp
      subst hp
      refine ⟨by simp, fun s hs => ?_⟩
      simp only [List.mem_cons, List.not_mem_nil, or_false] at hs
      rcases hs with rfl | rfl <;> (simp only [StepOk, PlainName]; decide +kernel)
    have hx := indexValue_written (num := num) (other := other) t2 _ hokp
    rw [hw, List.map_cons, List.map_nil, execO_cons, Piece.node, jpNode_path _ _ (undisturbed_one (by simp) _), t3] at hx
    rw [SObj.val, hi', hx]
    simp [execO_nil, toGo, jpShow, join]
  rw [List.pairwise_map] at h4 ⊢
  refine h4.imp_of_mem ?_
  intro a b ha hb hlex
  obtain ⟨va, ea⟩ := hval a ha
  obtain ⟨vb, eb⟩ := hval b hb
  simp only [LexLe, ValueLt, ValueEq, Bool.false_eq_true, if_false, and_true, ea, eb] at hlex
  have irr : ∀ x : Str, ¬ strLt x x = true := fun x => by simp [strLt_irrefl]
  have asym : ∀ {x y : Str}, strLt x y = true → ¬ strLt y x = true := fun h1 h2 => irr _ (strLt_trans h1 h2)
  cases rev with
  | true =>
    simp only [if_true] at hlex ⊢
    rw [← rfc3339_lt va vb]
    rcases hlex with hl | hl
    · exact asym hl
    · rw [hl]; exact irr _
  | false =>
    simp only [Bool.false_eq_true, if_false] at hlex ⊢
    rw [← rfc3339_lt vb va]
    rcases hlex with hl | hl
    · exact asym hl
    · rw [hl]; exact irr _

/-- Three pods with their creation times; the configuration has an index of it. -/
def exTimes : List Notice :=
  [("x", "2021-10-01T00:00:00Z"), ("y", "2021-09-30T23:59:59Z"), ("z", "2022-01-01T08:00:00Z")].map fun e =>
    .added exPods (lit "c1") { (exPod e.1 "n") with body := lit ("{\"metadata\":{\"creationTimestamp\":\"" ++ e.2 ++ "\"}}") }

def exTimeConf : List (GVR × List (Str × Str)) := [(exPods, [(lit "created_at", lit "{.metadata.creationTimestamp}")])]

/-- Sorted by creation time, and newest first. -/
example :
    let run := fun sort => ((newStore exTimeConf).run (jpEval some (fun _ _ => []) Obj.body) exTimes).bind fun s =>
      (lookup exPods s.data).bind fun cm => (queryMap (fun _ => true) insertionSort exFloat (backwards cm) { page := { sort := sort } }).map
        fun r => (r.error, r.items.map fun o => o.om.map ObjMeta.name)
    run (lit "created_at") = some (false, [some (lit "y"), some (lit "x"), some (lit "z")])
    ∧ run (lit "created_at desc") = some (false, [some (lit "z"), some (lit "x"), some (lit "y")]) := by decide +kernel

/-- Two points of time and their texts. -/
example : (⟨2021, 9, 30, 23, 59, 59⟩ : CivilTime).Valid ∧ (⟨2021, 10, 1, 0, 0, 0⟩ : CivilTime).Valid
    ∧ (⟨2021, 9, 30, 23, 59, 59⟩ : CivilTime).Before ⟨2021, 10, 1, 0, 0, 0⟩
    ∧ (⟨2021, 9, 30, 23, 59, 59⟩ : CivilTime).rfc3339 = lit "2021-09-30T23:59:59Z" := by
  refine ⟨by simp [CivilTime.Valid], by simp [CivilTime.Valid], ?_, by decide +kernel⟩
  unfold CivilTime.Before CivilTime.fields
  decide

end Ckube

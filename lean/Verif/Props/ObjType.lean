import Verif.Lemmas.ObjType

/-! # C60: objects of unregistered kinds

`num` and `om` are as in `Model/ObjType.lean`. -/

namespace Ckube
open Spec Json

/-- Keys that `ObjType` treats specially. -/
def special (k : Str) : Prop := k = lit "apiVersion" ∨ k = lit "kind" ∨ k = lit "metadata"

/-- The member as it is written again: an empty text is not. -/
def Spec.unlessEmpty : Option JV → Option JV
  | some (.str []) => none
  | v => v

/-- **C60**, exactly, for every JSON object that is decoded without a crash (`C60_crash` says which): the re-encoded text is again a JSON object. Its other members have the
same names and kept values, kind and API version are the same but for empty ones, which are dropped, and the metadata is what `ObjectMeta` makes of
it. -/
theorem C60_exact {num : Str → Option Str} {om : JV → JV} (hnum : ∀ r t, num r = some t → okNum t)
    (hom : ∀ v, Good (om v)) {text : Str} {ms : List (Str × JV)} (hp : parse text = some (.obj ms))
    {o : ObjType} (ho : ObjType.unmarshal num om text = some o) :
    ∃ ms', parse o.marshal = some (.obj ms') ∧ IsMap ms'
      ∧ (∀ k, ¬ special k → (lastOf k ms = none ↔ lookup k ms' = none)
          ∧ ∀ v v', lastOf k ms = some v → lookup k ms' = some v' → Kept num v v')
      ∧ lookup (lit "kind") ms' = unlessEmpty (lastOf (lit "kind") ms)
      ∧ lookup (lit "apiVersion") ms' = unlessEmpty (lastOf (lit "apiVersion") ms)
      ∧ ∃ meta', lookup (lit "metadata") ms' = some (om meta')
          ∧ (∀ v, lastOf (lit "metadata") ms = some v → Kept num v meta')
          ∧ (lastOf (lit "metadata") ms = none → meta' = .null) := by
  have hgood : ∀ e ∈ ms, validUtf8 e.1 = true ∧ Good e.2 := by
    have := good_of_parse hp
    rwa [Good, goodMembers_iff] at this
  have hm : decodeMap num text = goMap (ms.map fun e => (e.1, toGo num e.2)) := by
    unfold decodeMap; rw [hp]; simp only [toGoMembers_eq]
  have hl : ∀ k, lookup k (decodeMap num text) = (lastOf k ms).map (toGo num) := by
    intro k; rw [hm, lookup_goMap, lastOf_map]
  have hM : IsMap (decodeMap num text) := by rw [hm]; exact goMap_isMap _
  have hG : ∀ e ∈ decodeMap num text, validUtf8 e.1 = true ∧ Good e.2 := by
    rw [hm]
    apply good_goMap
    intro e he
    obtain ⟨x, hx, rfl⟩ := List.mem_map.mp he
    exact ⟨(hgood x hx).1, good_toGo hnum x.2 (hgood x hx).2⟩
  have hfield : ∀ k s, strField k (decodeMap num text) = some s →
      validUtf8 s = true ∧ unlessEmpty (lastOf k ms) = if s = [] then none else some (.str s) := by
    intro k s h
    unfold strField at h
    rw [hl] at h
    cases hk : lastOf k ms with
    | none =>
      rw [hk] at h
      simp only [Option.map_none, Option.some.injEq] at h
      subst h
      exact ⟨by decide, by simp [unlessEmpty]⟩
    | some v =>
      rw [hk] at h
      have hv := (hgood _ (mem_of_lastOf hk)).2
      cases v with
      | str t =>
        simp only [Option.map_some, toGo, Option.some.injEq] at h
        subst h
        rw [Good] at hv
        refine ⟨hv, ?_⟩
        cases t <;> simp [unlessEmpty]
      | num raw => simp only [Option.map_some, toGo] at h; cases hn : num raw <;> simp [hn] at h
      | _ => simp [toGo] at h
  obtain ⟨a, k, ha1, hk1⟩ : ∃ a k, strField (lit "apiVersion") (decodeMap num text) = some a
      ∧ strField (lit "kind") (decodeMap num text) = some k := by
    unfold ObjType.unmarshal at ho
    simp only at ho
    cases h1 : strField (lit "apiVersion") (decodeMap num text) with
    | none => rw [h1] at ho; simp at ho
    | some a =>
      cases h2 : strField (lit "kind") (decodeMap num text) with
      | none => rw [h1, h2] at ho; simp at ho
      | some k => exact ⟨a, k, rfl, rfl⟩
  obtain ⟨hav, ha2⟩ := hfield _ _ ha1
  obtain ⟨hkv, hk2⟩ := hfield _ _ hk1
  have ho' := ho
  unfold ObjType.unmarshal at ho'
  simp only [ha1, hk1, Option.some.injEq] at ho'
  subst ho'
  let m := decodeMap num text
  have e1 : IsMap (eraseKV (lit "apiVersion") m) := isMap_eraseKV hM
  have e2 : IsMap (eraseKV (lit "kind") (eraseKV (lit "apiVersion") m)) := isMap_eraseKV e1
  have n1 : lit "apiVersion" ≠ lit "kind" := by decide +kernel
  have n2 : lit "apiVersion" ≠ lit "metadata" := by decide +kernel
  have n3 : lit "kind" ≠ lit "metadata" := by decide +kernel
  have hdl : ∀ q, lookup q (eraseKV (lit "metadata") (eraseKV (lit "kind") (eraseKV (lit "apiVersion") m)))
      = if lit "metadata" = q then none else if lit "kind" = q then none else if lit "apiVersion" = q then none
        else lookup q m := by
    intro q
    rw [lookup_eraseKV e2, lookup_eraseKV e1, lookup_eraseKV hM]
  have hml : ∀ q, special q → ∀ v, (q, v) ∉ eraseKV (lit "metadata") (eraseKV (lit "kind") (eraseKV (lit "apiVersion") m)) := by
    intro q hq
    rw [← lookup_eq_none, hdl]
    rcases hq with rfl | rfl | rfl
    · simp [n1.symm, n2.symm]
    · simp [n3.symm]
    · simp
  generalize hd : eraseKV (lit "metadata") (eraseKV (lit "kind") (eraseKV (lit "apiVersion") m)) = d at *
  have hdM : IsMap d := by rw [← hd]; exact isMap_eraseKV e2
  have hdG : ∀ e ∈ d, validUtf8 e.1 = true ∧ Good e.2 := by
    rw [← hd]
    intro e he
    exact hG e (mem_eraseKV_of (mem_eraseKV_of (mem_eraseKV_of he)))
  generalize hmeta : (lookup (lit "metadata") m).getD JV.null = mt at *
  have hvk : validUtf8 (lit "kind") = true := by decide +kernel
  have hva : validUtf8 (lit "apiVersion") = true := by decide +kernel
  have hvm : validUtf8 (lit "metadata") = true := by decide +kernel
  let tm : List (Str × JV) := ObjType.typeMembers ⟨a, k, om mt, d⟩
  have htm : tm = (if k = [] then [] else [(lit "kind", JV.str k)])
    ++ (if a = [] then [] else [(lit "apiVersion", JV.str a)]) ++ [(lit "metadata", om mt)] := rfl
  have htl : ∀ q, lookup q tm = if lit "kind" = q then (if k = [] then none else some (.str k))
      else if lit "apiVersion" = q then (if a = [] then none else some (.str a))
      else if lit "metadata" = q then some (om mt) else none := by
    intro q
    rw [htm]
    by_cases h1 : lit "kind" = q
    · subst h1
      by_cases hk0 : k = [] <;> by_cases ha0 : a = [] <;> simp [hk0, ha0, lookup, n1, n3.symm]
    · by_cases h2 : lit "apiVersion" = q
      · subst h2
        by_cases hk0 : k = [] <;> by_cases ha0 : a = [] <;> simp [hk0, ha0, lookup, n1.symm, n2.symm]
      · by_cases hk0 : k = [] <;> by_cases ha0 : a = [] <;> simp [hk0, ha0, lookup, h1, h2]
  have htG : ∀ e ∈ tm, (validUtf8 e.1 = true ∧ Good e.2) ∧ special e.1 := by
    intro e he
    rw [htm] at he
    simp only [List.mem_append, List.mem_cons, List.not_mem_nil, or_false] at he
    rcases he with (he | he) | rfl
    · split at he
      · cases he
      · simp only [List.mem_cons, List.not_mem_nil, or_false] at he
        subst he
        exact ⟨⟨hvk, by rw [Good]; exact hkv⟩, Or.inr (Or.inl rfl)⟩
    · split at he
      · cases he
      · simp only [List.mem_cons, List.not_mem_nil, or_false] at he
        subst he
        exact ⟨⟨hva, by rw [Good]; exact hav⟩, Or.inl rfl⟩
    · exact ⟨⟨hvm, hom _⟩, Or.inr (Or.inr rfl)⟩
  have htM : (tm.map Prod.fst).Nodup := by
    rw [htm]
    by_cases hk0 : k = [] <;> by_cases ha0 : a = [] <;> simp [hk0, ha0, n1.symm, n2, n3]
  refine ⟨d ++ tm, ?_, ?_, ?_, ?_, ?_, ?_⟩
  · rw [marshal_eq]
    apply parse_enc
    rw [Good, goodMembers_iff]
    intro e he
    rcases List.mem_append.mp he with he | he
    · exact hdG e he
    · exact (htG e he).1
  · unfold IsMap
    rw [List.map_append, List.nodup_append]
    refine ⟨hdM, htM, ?_⟩
    intro x hx y hy hxy
    subst hxy
    obtain ⟨e, he, rfl⟩ := List.mem_map.mp hy
    obtain ⟨e', he', hee⟩ := List.mem_map.mp hx
    have := hml _ (htG e he).2 e'.2
    rw [← hee] at this
    exact this he'
  · intro q hq
    have hq' : lit "metadata" ≠ q ∧ lit "kind" ≠ q ∧ lit "apiVersion" ≠ q :=
      ⟨fun h => hq (Or.inr (Or.inr h.symm)), fun h => hq (Or.inr (Or.inl h.symm)), fun h => hq (Or.inl h.symm)⟩
    have hlq : lookup q (d ++ tm) = (lastOf q ms).map (toGo num) := by
      rw [lookup_append_left, hdl, htl, ← hl]
      simp only [hq', if_false]
      change _ = lookup q m
      cases lookup q m <;> rfl
    rw [hlq]
    refine ⟨by cases lastOf q ms <;> simp, ?_⟩
    intro v v' hv hv'
    rw [hv] at hv'
    simp only [Option.map_some, Option.some.injEq] at hv'
    subst hv'
    exact kept_toGo num v
  · rw [lookup_append_left, lookup_eq_none.mpr (hml _ (Or.inr (Or.inl rfl))), htl, hk2]
    simp
  · rw [lookup_append_left, lookup_eq_none.mpr (hml _ (Or.inl rfl)), htl, ha2]
    simp [n1.symm]
  · refine ⟨mt, ?_, ?_, ?_⟩
    · rw [lookup_append_left, lookup_eq_none.mpr (hml _ (Or.inr (Or.inr rfl))), htl]
      simp [n2, n3]
    · intro v hv
      rw [← hmeta, show lookup (lit "metadata") m = _ from hl _, hv]
      exact kept_toGo num v
    · intro hv
      rw [← hmeta, show lookup (lit "metadata") m = _ from hl _, hv]
      rfl

/-- **C60**, the gaps: decoding crashes exactly when kind or API version is given and not a string. -/
theorem C60_crash {num : Str → Option Str} {om : JV → JV} {text : Str} {ms : List (Str × JV)}
    (hp : parse text = some (.obj ms)) : ObjType.unmarshal num om text = none ↔
      (∃ v, lastOf (lit "kind") ms = some v ∧ ∀ s, v ≠ .str s)
      ∨ ∃ v, lastOf (lit "apiVersion") ms = some v ∧ ∀ s, v ≠ .str s := by
  have hl : ∀ k, lookup k (decodeMap num text) = (lastOf k ms).map (toGo num) := by
    intro k
    unfold decodeMap; rw [hp]; simp only [toGoMembers_eq]
    rw [lookup_goMap, lastOf_map]
  have hf : ∀ k, strField k (decodeMap num text) = none ↔ ∃ v, lastOf k ms = some v ∧ ∀ s, v ≠ .str s := by
    intro k
    unfold strField
    rw [hl]
    cases lastOf k ms with
    | none => simp
    | some v =>
      cases v <;> simp only [Option.map_some, toGo, Option.some.injEq, exists_eq_left', ne_eq, reduceCtorEq,
        not_false_eq_true, implies_true, iff_true, JV.str.injEq]
      · cases num _ <;> rfl
      · simp
  unfold ObjType.unmarshal
  simp only
  rw [← hf, ← hf]
  cases strField (lit "apiVersion") (decodeMap num text) <;> cases strField (lit "kind") (decodeMap num text) <;> simp

example : ObjType.unmarshal some id (lit "{\"kind\":1}") = none := by
  rw [C60_crash (ms := [(lit "kind", .num (lit "1"))]) (by
    rw [show lit "{\"kind\":1}" = enc (.obj [(lit "kind", .num (lit "1"))]) by decide +kernel]
    exact parse_enc (by simp only [Good, GoodMembers, okNum]; decide +kernel))]
  left
  exact ⟨.num (lit "1"), rfl, by intro s h; cases h⟩

/-- **C60**, partial (missing: numbers that `float64` cannot represent, metadata fields unknown to `ObjectMeta`,
empty kinds and versions): for every JSON text of an object whose kind and API version, if given, are not
empty strings, the re-encoded text is again a JSON object. Its other members have the same names and kept values, kind
and API version are the same, and the metadata is what `ObjectMeta` makes of it. -/
theorem C60_kept_partial {num : Str → Option Str} {om : JV → JV} (hnum : ∀ r t, num r = some t → okNum t)
    (hom : ∀ v, Good (om v)) {text : Str} {ms : List (Str × JV)} (hp : parse text = some (.obj ms))
    (hk : ∀ v, lastOf (lit "kind") ms = some v → ∃ s, v = .str s ∧ s ≠ [])
    (ha : ∀ v, lastOf (lit "apiVersion") ms = some v → ∃ s, v = .str s ∧ s ≠ []) :
    ∃ o ms', ObjType.unmarshal num om text = some o ∧ parse o.marshal = some (.obj ms') ∧ IsMap ms'
      ∧ (∀ k, ¬ special k → (lastOf k ms = none ↔ lookup k ms' = none)
          ∧ ∀ v v', lastOf k ms = some v → lookup k ms' = some v' → Kept num v v')
      ∧ lookup (lit "kind") ms' = lastOf (lit "kind") ms
      ∧ lookup (lit "apiVersion") ms' = lastOf (lit "apiVersion") ms
      ∧ ∃ meta', lookup (lit "metadata") ms' = some (om meta')
          ∧ (∀ v, lastOf (lit "metadata") ms = some v → Kept num v meta')
          ∧ (lastOf (lit "metadata") ms = none → meta' = .null) := by
  have hne : ∀ k, (∀ v, lastOf k ms = some v → ∃ s, v = .str s ∧ s ≠ []) → unlessEmpty (lastOf k ms) = lastOf k ms := by
    intro k h
    cases hv : lastOf k ms with
    | none => rfl
    | some v =>
      obtain ⟨t, rfl, ht⟩ := h v hv
      cases t with
      | nil => exact absurd rfl ht
      | cons a t => rfl
  have hs : ObjType.unmarshal num om text ≠ none := by
    rw [ne_eq, C60_crash hp]
    rintro (⟨v, hv, h⟩ | ⟨v, hv, h⟩)
    · obtain ⟨t, rfl, _⟩ := hk v hv; exact h t rfl
    · obtain ⟨t, rfl, _⟩ := ha v hv; exact h t rfl
  obtain ⟨o, ho⟩ := Option.ne_none_iff_exists'.mp hs
  obtain ⟨ms', h1, h2, h3, h4, h5, h6⟩ := C60_exact hnum hom hp ho
  exact ⟨o, ms', ho, h1, h2, h3, by rw [h4, hne _ hk], by rw [h5, hne _ ha], h6⟩

/-- A manifest of an unregistered kind, re-encoded with the identity on numbers and metadata: the data comes
first, then kind, version and metadata. -/
example : (ObjType.unmarshal some id (lit "{\"apiVersion\":\"a/v1\",\"kind\":\"X\",\"metadata\":{\"name\":\"n\"},\"spec\":{\"b\":1,\"a\":[true,null]}}")).map
      ObjType.marshal
    = some (lit "{\"spec\":{\"a\":[true,null],\"b\":1},\"kind\":\"X\",\"apiVersion\":\"a/v1\",\"metadata\":{\"name\":\"n\"}}") := by
  decide +kernel

/-- **C60** does not hold for numbers: with any printing of numbers that, like `float64`, turns 2^53+1 into 2^53, the
replicas of this object change. -/
theorem C60_number {num : Str → Option Str} {om : JV → JV} (h : num (lit "9007199254740993") = some (lit "9007199254740992")) :
    (ObjType.unmarshal num om (lit "{\"spec\":9007199254740993}")).map ObjType.data
      = some [(lit "spec", .num (lit "9007199254740992"))] := by
  have hp : parse (lit "{\"spec\":9007199254740993}") = some (.obj [(lit "spec", .num (lit "9007199254740993"))]) := by
    rw [show lit "{\"spec\":9007199254740993}" = enc (.obj [(lit "spec", .num (lit "9007199254740993"))]) by decide +kernel]
    exact parse_enc (by simp only [Good, GoodMembers, okNum]; decide +kernel)
  have hm : decodeMap num (lit "{\"spec\":9007199254740993}") = [(lit "spec", .num (lit "9007199254740992"))] := by
    unfold decodeMap
    rw [hp]
    simp only [toGoMembers_eq, List.map_cons, List.map_nil, toGo, h]
    rfl
  unfold ObjType.unmarshal
  simp only [hm]
  rfl

/-- **C60 is false** for an empty kind: the member is dropped. -/
theorem C60_false_empty : (ObjType.unmarshal some id (lit "{\"kind\":\"\",\"spec\":1}")).map ObjType.marshal
    = some (lit "{\"spec\":1,\"metadata\":null}") := by
  decide +kernel

end Ckube

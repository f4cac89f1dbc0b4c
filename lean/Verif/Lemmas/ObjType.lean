import Verif.Spec.Kept
import Verif.Lemmas.JsonVal

/-! # Lemmas for C60 -/

namespace Ckube
open Spec Json

theorem toGoElems_eq (num : Str → Option Str) (xs : List JV) : toGoElems num xs = xs.map (toGo num) := by
  induction xs with
  | nil => rw [toGoElems]; rfl
  | cons x xs ih => rw [toGoElems, ih]; rfl

theorem toGoMembers_eq (num : Str → Option Str) (ms : List (Str × JV)) :
    toGoMembers num ms = ms.map fun e => (e.1, toGo num e.2) := by
  induction ms with
  | nil => rw [toGoMembers]; rfl
  | cons e ms ih => obtain ⟨k, v⟩ := e; rw [toGoMembers, ih]; rfl

theorem isMap_foldl_insert (ms : List (Str × JV)) : ∀ m : List (Str × JV), IsMap m →
    IsMap (ms.foldl (fun m e => insertKV e.1 e.2 m) m) := by
  induction ms with
  | nil => intro m h; exact h
  | cons e ms ih => intro m h; exact ih _ (isMap_insertKV h)

theorem lookup_append_left {ν : Type} (k : Str) : ∀ (a b : List (Str × ν)),
    lookup k (a ++ b) = match lookup k a with | some v => some v | none => lookup k b := by
  intro a b
  induction a with
  | nil => rfl
  | cons e a ih =>
    obtain ⟨k', v⟩ := e
    simp only [List.cons_append, lookup]
    split
    · rfl
    · exact ih

theorem lookup_foldl_insert (k : Str) (ms : List (Str × JV)) : ∀ m : List (Str × JV),
    lookup k (ms.foldl (fun m e => insertKV e.1 e.2 m) m) = match lastOf k ms with | some v => some v | none => lookup k m := by
  induction ms with
  | nil => intro m; rfl
  | cons e ms ih =>
    intro m
    simp only [List.foldl_cons]
    rw [ih, lookup_insertKV]
    unfold lastOf
    rw [List.reverse_cons, lookup_append_left]
    cases lookup k ms.reverse with
    | some v => rfl
    | none => simp only [lookup]; split <;> rfl

theorem goMap_isMap (ms : List (Str × JV)) : IsMap (goMap ms) := by
  unfold goMap
  exact ((sortBy_perm _ _).map Prod.fst).nodup_iff.mpr (isMap_foldl_insert ms [] isMap_nil)

theorem lookup_goMap (k : Str) (ms : List (Str × JV)) : lookup k (goMap ms) = lastOf k ms := by
  unfold goMap
  rw [lookup_sortBy (isMap_foldl_insert ms [] isMap_nil), lookup_foldl_insert]
  cases lastOf k ms <;> rfl

theorem lastOf_map (f : JV → JV) (k : Str) (ms : List (Str × JV)) :
    lastOf k (ms.map fun e => (e.1, f e.2)) = (lastOf k ms).map f := by
  unfold lastOf
  rw [← List.map_reverse, lookup_map_snd]

theorem mem_of_lastOf {k : Str} {v : JV} {ms : List (Str × JV)} (h : lastOf k ms = some v) : (k, v) ∈ ms := by
  have := mem_of_lookup h
  simpa using this

/-- Decoding into `interface{}` keeps a value. -/
theorem kept_toGo (num : Str → Option Str) : ∀ v : JV, Kept num v (toGo num v)
  | .null => by rw [toGo]; exact .null
  | .bool b => by rw [toGo]; exact .bool b
  | .num raw => by
    rw [toGo]
    cases h : num raw with
    | none => exact .range h
    | some t => exact .num h
  | .str s => by rw [toGo]; exact .str s
  | .arr xs => by
    rw [toGo, toGoElems_eq]
    refine .arr (by simp) ?_
    intro i x y hx hy
    rw [List.getElem?_map, hx] at hy
    simp only [Option.map_some, Option.some.injEq] at hy
    subst hy
    have hm : x ∈ xs := List.mem_of_getElem? hx
    have := List.sizeOf_lt_of_mem hm
    exact kept_toGo num x
  | .obj ms => by
    rw [toGo, toGoMembers_eq]
    refine .obj ?_ ?_
    · intro k
      rw [lookup_goMap, lastOf_map]
      cases lastOf k ms <;> simp
    · intro k v v' hv hv'
      rw [lookup_goMap, lastOf_map, hv] at hv'
      simp only [Option.map_some, Option.some.injEq] at hv'
      subst hv'
      have hm := mem_of_lastOf hv
      have h1 := List.sizeOf_lt_of_mem hm
      have h2 : sizeOf v < sizeOf (k, v) := by simp
      exact kept_toGo num v
  termination_by v => sizeOf v
  decreasing_by all_goals simp_wf; omega

theorem good_goMap {ms : List (Str × JV)} (h : ∀ e ∈ ms, validUtf8 e.1 = true ∧ Good e.2) :
    ∀ e ∈ goMap ms, validUtf8 e.1 = true ∧ Good e.2 := by
  intro e he
  obtain ⟨k, v⟩ := e
  have := lookup_eq_some_of_mem (goMap_isMap ms) he
  rw [lookup_goMap] at this
  exact h _ (mem_of_lastOf this)

theorem good_toGo {num : Str → Option Str} (hnum : ∀ r t, num r = some t → okNum t) : ∀ v : JV, Good v → Good (toGo num v)
  | .null, _ => by rw [toGo, Good]; trivial
  | .bool b, _ => by rw [toGo, Good]; trivial
  | .num raw, _ => by
    rw [toGo]
    cases h : num raw with
    | none => simp only [Good]
    | some t => simp only [Good]; exact hnum _ _ h
  | .str s, h => by rw [toGo]; exact h
  | .arr xs, h => by
    rw [Good, goodElems_iff] at h
    rw [toGo, toGoElems_eq, Good, goodElems_iff]
    intro y hy
    obtain ⟨x, hx, rfl⟩ := List.mem_map.mp hy
    have := List.sizeOf_lt_of_mem hx
    exact good_toGo hnum x (h x hx)
  | .obj ms, h => by
    rw [Good, goodMembers_iff] at h
    rw [toGo, toGoMembers_eq, Good, goodMembers_iff]
    apply good_goMap
    intro e he
    obtain ⟨x, hx, rfl⟩ := List.mem_map.mp he
    have h1 := List.sizeOf_lt_of_mem hx
    have h2 : sizeOf x.2 < sizeOf x := by cases x; simp
    exact ⟨(h x hx).1, good_toGo hnum x.2 (h x hx).2⟩
  termination_by v => sizeOf v
  decreasing_by all_goals simp_wf; omega

/-- The marshalled object is the encoding of the data members followed by the type members. -/
theorem marshal_eq (o : ObjType) : o.marshal = enc (.obj (o.data ++ o.typeMembers)) := by
  have happ : ∀ a b : List (Str × JV), a ≠ [] → b ≠ [] → encMembers (a ++ b) = encMembers a ++ [44] ++ encMembers b := by
    intro a b ha hb
    induction a with
    | nil => exact absurd rfl ha
    | cons e a ih =>
      obtain ⟨k, v⟩ := e
      cases a with
      | nil =>
        cases b with
        | nil => exact absurd rfl hb
        | cons e' b =>
          simp only [List.cons_append, List.nil_append]
          rw [encMembers_cons k v (e' :: b), encMembers_cons k v []]
          simp
      | cons e' a =>
        have ih := ih (by simp)
        simp only [List.cons_append] at ih ⊢
        rw [encMembers_cons k v (e' :: (a ++ b)), encMembers_cons k v (e' :: a)]
        simp only [ih]
        simp
  have hne : o.typeMembers ≠ [] := by unfold ObjType.typeMembers; simp
  have hnonempty : ∀ ms : List (Str × JV), ms ≠ [] → encMembers ms ≠ [] := by
    intro ms h
    cases ms with
    | nil => exact absurd rfl h
    | cons e ms => obtain ⟨k, v⟩ := e; rw [encMembers_cons]; simp
  have hbraces : lit "{}" = [123, 125] := by decide
  have henc : ∀ ms : List (Str × JV), enc (.obj ms) = 123 :: (encMembers ms ++ [125]) := by
    intro ms; rw [enc]; simp
  have hobj : ∀ ms : List (Str × JV), ms ≠ [] → enc (.obj ms) ≠ lit "{}" := by
    intro ms h he
    rw [henc, hbraces, List.cons.injEq] at he
    have h1 := hnonempty ms h
    cases hm : encMembers ms with
    | nil => exact h1 hm
    | cons c r => rw [hm] at he; simp at he
  unfold ObjType.marshal
  by_cases hd : o.data = []
  · rw [hd]
    have : enc (.obj ([] : List (Str × JV))) = lit "{}" := by simp [enc, encMembers, hbraces]
    simp only [this, true_or, if_true, List.nil_append]
  · have hnull : enc (.obj o.data) ≠ lit "null" := by
      rw [henc, show lit "null" = [110, 117, 108, 108] by decide]
      simp
    simp only [hobj _ hd, hnull, or_self, if_false, hobj _ hne]
    rw [henc, henc, henc, happ _ _ hd hne]
    simp

end Ckube

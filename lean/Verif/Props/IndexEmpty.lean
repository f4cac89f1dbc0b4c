import Verif.Props.Index

/-! # C81 where `[*]` meets an empty array -/

namespace Ckube
open Spec Json

variable {num : Str → Option Str} {other : Str → Str → Str} {js : Obj → Str}

theorem jpSteps_append (ss : List JpStep) (s : JpStep) : ∀ (vs : List JV), jpSteps (ss ++ [s]) vs = (jpSteps ss vs).bind (jpStep s) := by
  induction ss with
  | nil => intro vs; simp [jpSteps]
  | cons t ss ih =>
    intro vs
    rw [List.cons_append, jpSteps, jpSteps]
    cases jpStep t vs with
    | none => rfl
    | some ws => simp only [Option.bind_some]; exact ih ws

theorem jpEach_upto (r : List JV) : ∀ (l : List JV), .arr [] ∉ l →
    jpEach ((l ++ .arr [] :: r).map (toGo num)) = (allOf (elemsOf num) l).map (List.map (toGo num))
  | [], _ => by simp [toGo, toGoElems_eq, jpEach, allOf]
  | v :: l, hl => by
    have ih := jpEach_upto r l fun h => hl (List.mem_cons_of_mem _ h)
    rw [List.cons_append, List.map_cons, allOf]
    cases v with
    | null => simp only [toGo, jpEach, elemsOf, Option.bind_some, ih]; cases allOf (elemsOf num) l <;> simp
    | bool b => simp [toGo, jpEach, elemsOf]
    | str b => simp [toGo, jpEach, elemsOf]
    | obj b => simp [toGo, jpEach, elemsOf]
    | arr xs =>
      cases xs with
      | nil => exact absurd List.mem_cons_self hl
      | cons x xs =>
        simp only [toGo, toGoElems_eq, List.map_cons, jpEach, elemsOf, Option.bind_some, ih]
        cases allOf (elemsOf num) l <;> simp
    | num raw =>
      cases hn : num raw with
      | none => simp only [toGo, hn, jpEach, elemsOf, if_true, Option.bind_some, ih]; cases allOf (elemsOf num) l <;> simp
      | some t => simp [toGo, hn, jpEach, elemsOf]

/-- **C81** is wrong for every object whose path meets an empty array in the same way: of the values that `[*]` at the end of a path is applied to, the index shows
the elements of those before the first empty array and no others, whatever `r` comes after it. -/
theorem C81_hidden (hnum : ∀ r t, num r = some t → okNum t) (o : Obj) (ms : List (Str × JV)) (hjs : Json.parse (js o) = some (.obj ms))
    (pre : List JpStep) (lead : Str) (hok : (Piece.path (pre ++ [.each]) lead).Ok) (hu : Undisturbed num pre (.obj ms))
    (l r : List JV) (hv : valuesAt num pre (.obj ms) = some (l ++ .arr [] :: r)) (hl : .arr [] ∉ l)
    (us : List JV) (hus : (l.mapM (valuesAt num [.each])).map List.flatten = some us) (hsmall : ∀ w ∈ us, SmallNumbers num w) :
    ∃ ts, List.Forall₂ (ShownAs num) us ts
      ∧ indexValue (jpEval num other js) o (Piece.path (pre ++ [.each]) lead).written = join [32] ts := by
  have hall : allOf (elemsOf num) l = some us := by
    rw [mapM_kids (valuesAt_each [])] at hus
    cases h : allOf (elemsOf num) l with
    | none => rw [h] at hus; cases hus
    | some ws => rw [h, Option.bind_some, mapM_none] at hus; exact hus
  have hsteps : jpSteps pre [toGo num (.obj ms)] = some ((l ++ .arr [] :: r).map (toGo num)) := by
    have := jpSteps_toGo (num := num) pre [.obj ms] (by
      intro p post hp ws hws
      refine hu p post hp ws ?_
      rw [flat_mapM_cons] at hws
      cases hv : valuesAt num p (.obj ms) with
      | none => rw [hv] at hws; simp at hws
      | some us => rw [hv] at hws; simpa using hws)
    rw [List.map_cons, List.map_nil, flat_mapM_cons, hv] at this
    simpa using this
  have hgood : ∀ w ∈ us, Good w := by
    have h1 := good_valuesAt pre _ _ (good_of_parse hjs) hv
    exact good_flat (ss := [.each]) (fun x hx vs hvs => good_valuesAt [.each] x vs (h1 x (List.mem_append_left _ hx)) hvs) hus
  refine ⟨us.map fun w => jpShow (toGo num w), ?_, ?_⟩
  · rw [List.forall₂_map_right_iff]
    exact List.forall₂_same.mpr fun w hw => shownAs_jpShow hnum (hgood w hw) (hsmall w hw)
  · have h := indexValue_written (num := num) (other := other) hjs [.path (pre ++ [.each]) lead] (by simpa using hok)
    rw [List.flatMap_cons, List.flatMap_nil, List.append_nil] at h
    rw [h, List.map_cons, List.map_nil, execO_cons, Piece.node, jpNode, jpSteps_append, hsteps, Option.bind_some, jpStep, jpEach_upto r l hl, hall]
    simp [execO_nil, List.map_map, Function.comp_def]

/-- Three containers, of which the second has no ports. -/
example :
    let js : Obj → Str := fun _ => lit "{\"cs\":[{\"ports\":[\"a\"]},{\"ports\":[]},{\"ports\":[\"b\"]}]}"
    let pre : List JpStep := [.field (lit "cs"), .each, .field (lit "ports")]
    pre.count .each ≤ 1
    ∧ ((Json.parse (js {})).bind (valuesAt some pre)).map (List.map enc) = some ([lit "[\"a\"]"] ++ enc (.arr []) :: [lit "[\"b\"]"])
    ∧ indexValue (jpEval some (fun _ _ => []) js) {} (Piece.path (pre ++ [.each])).written = lit "a" := by decide +kernel

/-- **C81 is false** for `[*]` within `[*]`: once it meets an empty array, the elements of the arrays after it are left out, and those before it are not.
With the containers `{"ports":[1]}`, `{"ports":[]}` and `{"ports":[2]}`, the index `{.cs[*].ports[*]}` is `1`. -/
theorem C81_false_empty :
    let js : Obj → Str := fun _ => lit "{\"cs\":[{\"ports\":[1]},{\"ports\":[]},{\"ports\":[2]}]}"
    let ss : List JpStep := [.field (lit "cs"), .each, .field (lit "ports"), .each]
    (Piece.path ss).written = lit "{.cs[*].ports[*]}"
    ∧ ((Json.parse (js {})).bind (valuesAt some ss)).map (List.map enc) = some [lit "1", lit "2"]
    ∧ indexValue (jpEval some (fun _ _ => []) js) {} (lit "{.cs[*].ports[*]}") = lit "1" := by decide +kernel

end Ckube

import Verif.Props.Float
import Verif.Props.Index

/-! # C81 with numbers as Go reads and prints them

`goNum` takes the place of the parameter `num` of C81. -/

namespace Ckube
open Spec Json

variable {other : Str → Str → Str} {js : Obj → Str}

/-- **C81** with the numbers that `json.Unmarshal` reads, for paths with at most one `[*]`. -/
theorem C81_float (o : Obj) (ms : List (Str × JV)) (hjs : Json.parse (js o) = some (.obj ms)) (ps : List Piece) (hok : ∀ p ∈ ps, p.Ok)
    (hone : ∀ ss lead, .path ss lead ∈ ps → ss.count .each ≤ 1) :
    ((∃ ss lead, .path ss lead ∈ ps ∧ valuesAt goNum ss (.obj ms) = none) →
      indexValue (jpEval goNum other js) o (ps.flatMap Piece.written) = [])
    ∧ ((∀ ss lead, .path ss lead ∈ ps → ∃ vs, valuesAt goNum ss (.obj ms) = some vs ∧ ∀ w ∈ vs, SmallNumbers goNum w) →
      ∃ ts, List.Forall₂ (Shows1 goNum (.obj ms)) ps ts
        ∧ indexValue (jpEval goNum other js) o (ps.flatMap Piece.written) = ts.flatten) :=
  C81_single (fun _ _ h => C112_number h) o ms hjs ps hok hone

theorem shownAs_int {n : Int} {t : Str} (hn : n.natAbs < 1000000) (h : ShownAs goNum (.num (intDigits n)) t) : t = intDigits n := by
  generalize hv : JV.num (intDigits n) = v at h
  cases h with
  | int m => exact (JV.num.inj hv).symm
  | dec h1 _ =>
    rw [← JV.num.inj hv, C112_integer (by omega)] at h1
    exact (Option.some.inj h1).symm
  | _ => cases hv

theorem shownAs_ints : ∀ {ns : List Int} {ts : List Str}, (∀ n ∈ ns, n.natAbs < 1000000) →
    List.Forall₂ (ShownAs goNum) (ns.map fun n => .num (intDigits n)) ts → ts = ns.map intDigits
  | [], _, _, h => by cases h; rfl
  | n :: ns, _, hn, h => by
    cases h with
    | cons h1 h2 =>
      rw [shownAs_int (hn n List.mem_cons_self) h1, shownAs_ints (fun m hm => hn m (List.mem_cons_of_mem _ hm)) h2]
      rfl

/-- **C81** for integers, with nothing left open: where a path with at most one `[*]` leads to integers below one million, the index is these integers as they are
written in the object, separated by blanks. -/
theorem C81_integer (o : Obj) (ms : List (Str × JV)) (hjs : Json.parse (js o) = some (.obj ms)) (ss : List JpStep) (lead : Str)
    (hok : (Piece.path ss lead).Ok) (hone : ss.count .each ≤ 1) (ns : List Int) (hns : ∀ n ∈ ns, n.natAbs < 1000000)
    (hv : valuesAt goNum ss (.obj ms) = some (ns.map fun n => .num (intDigits n))) :
    indexValue (jpEval goNum other js) o (Piece.path ss lead).written = join [32] (ns.map intDigits) := by
  have hsmall : ∀ w ∈ ns.map (fun n => JV.num (intDigits n)), SmallNumbers goNum w := by
    intro w hw raw hr
    obtain ⟨n, hn, rfl⟩ := List.mem_map.mp hw
    have hn' := hns n hn
    exact Or.inl ⟨n, (JV.num.inj hr).symm, hn', by rw [← JV.num.inj hr]; exact C112_integer (by omega)⟩
  obtain ⟨ts, h1, h2⟩ := (C81_float (other := other) o ms hjs [.path ss lead] (by simpa using hok)
    (by intro ss' lead' hm; rw [List.mem_singleton] at hm; cases hm; exact hone)).2
    (by intro ss' lead' hm; rw [List.mem_singleton] at hm; cases hm; exact ⟨_, hv, hsmall⟩)
  cases h1 with
  | cons h1 h3 =>
    cases h3
    obtain ⟨vs, us, g1, g2, rfl⟩ := h1
    rw [hv, Option.some.injEq] at g1
    subst g1
    rw [shownAs_ints hns g2] at h2
    simpa using h2

/-- The ports of the first container. -/
example :
    let js : Obj → Str := fun _ => lit "{\"cs\":[{\"ports\":[80,-1,443]},{\"ports\":[1]}]}"
    let ss : List JpStep := [.field (lit "cs"), .elem 0, .field (lit "ports"), .each]
    (Piece.path ss).written = lit "{.cs[0].ports[*]}" ∧ ss.count .each ≤ 1
    ∧ ((Json.parse (js {})).bind (valuesAt goNum ss)).map (List.map enc) = some ([80, -1, 443].map intDigits)
    ∧ indexValue (jpEval goNum (fun _ _ => []) js) {} (Piece.path ss).written = lit "80 -1 443" := by decide +kernel

end Ckube

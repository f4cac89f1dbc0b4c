import Verif.Model.Server
import Verif.Spec.Route
import Verif.Lemmas.Str
import Verif.Lemmas.Sort
import Verif.Lemmas.Search

/-! # Lemmas about routing and answering -/

namespace Ckube

open Spec

theorem splitByte_pathText : ∀ (segs : List Str), (∀ s ∈ segs, (47 : UInt8) ∉ s) → ∀ p : Str, (47 : UInt8) ∉ p →
    splitByte 47 (p ++ pathText segs) = p :: segs
  | [], _, p, hp => by simpa [pathText] using splitByte_of_not_mem 47 p hp
  | s :: ss, h, p, hp => by
    have e : p ++ pathText (s :: ss) = p ++ 47 :: (s ++ pathText ss) := by simp [pathText]
    rw [e, splitByte_append 47 p _ hp, splitByte_pathText ss (fun x hx => h x (by simp [hx])) s (h s (by simp))]

theorem split_path {segs : List Str} (h : ∀ s ∈ segs, IsPiece s) : splitByte 47 (pathText segs) = [] :: segs := by
  simpa using splitByte_pathText segs (fun s hs => (h s hs).2.1) [] (by simp)

theorem cleanSegs_pieces : ∀ (segs acc : List Str), (∀ s ∈ segs, IsPiece s) → cleanSegs acc segs = acc.reverse ++ segs
  | [], acc, _ => by simp [cleanSegs]
  | s :: ss, acc, h => by
    obtain ⟨h1, _, h3, h4⟩ := h s (by simp)
    rw [cleanSegs, if_neg (by simp [h1, h3]), if_neg h4, cleanSegs_pieces ss _ (fun x hx => h x (by simp [hx]))]
    simp

theorem join_pathText : ∀ (segs : List Str), segs ≠ [] → 47 :: join [47] segs = pathText segs
  | [], h => absurd rfl h
  | [s], _ => by simp [join, pathText]
  | s :: t :: ss, _ => by
    have ih := join_pathText (t :: ss) (by simp)
    have : join [47] (s :: t :: ss) = s ++ (47 :: join [47] (t :: ss)) := by simp [join]
    rw [this, ih]
    simp [pathText]

theorem getLast_pathText {segs : List Str} (hne : segs ≠ []) (h : ∀ s ∈ segs, IsPiece s) : (pathText segs).getLast? ≠ some 47 := by
  obtain ⟨init, s, rfl⟩ : ∃ init s, segs = init ++ [s] := ⟨segs.dropLast, segs.getLast hne, (List.dropLast_append_getLast hne).symm⟩
  obtain ⟨h1, h2, _, _⟩ := h s (by simp)
  have e : pathText (init ++ [s]) = (pathText init ++ [47]) ++ s := by simp [pathText]
  intro hl
  rw [e, List.getLast?_append] at hl
  rw [List.getLast?_eq_some_getLast h1] at hl
  simp at hl
  exact h2 (hl ▸ List.getLast_mem h1)

/-- mux does not redirect the path. -/
theorem cleanPath_path {segs : List Str} (hne : segs ≠ []) (h : ∀ s ∈ segs, IsPiece s) : cleanPath (pathText segs) = pathText segs := by
  have hh : (pathText segs).head? = some 47 := by
    cases segs with
    | nil => exact absurd rfl hne
    | cons s ss => simp [pathText]
  have hc : cleanSegs [] ([] :: segs) = segs := by
    rw [cleanSegs, if_pos (Or.inl rfl), cleanSegs_pieces _ _ h]; rfl
  unfold cleanPath
  simp only [hh, if_true, split_path h, hc, join_pathText segs hne]
  rw [if_neg]
  exact fun hx => getLast_pathText hne h hx.1

/-- Every request has a route. -/
theorem routeOf_isSome (m p : Str) : ∃ r vs, routeOf m p routeTable = some (r, vs) ∧ r ∈ routeTable ∧ r.matches m p = some vs := by
  suffices h : ∀ rs : List Route, (∃ r ∈ rs, r.isPrefix = true) →
      ∃ r vs, routeOf m p rs = some (r, vs) ∧ r ∈ rs ∧ r.matches m p = some vs from
    h routeTable ⟨⟨[], [], .proxy, true, true⟩, by simp [routeTable], rfl⟩
  intro rs
  induction rs with
  | nil => rintro ⟨r, hr, _⟩; simp at hr
  | cons x rs ih =>
    rintro ⟨r, hr, hp⟩
    cases hx : x.matches m p with
    | some vs => exact ⟨x, vs, by simp [routeOf, hx], by simp, hx⟩
    | none =>
      rcases List.mem_cons.mp hr with rfl | hr
      · simp [Route.matches, hp] at hx
      · obtain ⟨r', vs, h1, h2, h3⟩ := ih ⟨r, hr, hp⟩
        exact ⟨r', vs, by simp [routeOf, hx, h1], by simp [h2], h3⟩

/-- A one piece route without variables takes one path. -/
theorem matches_one {s : Str} {r : Route} {m p : Str} {vs : Vars} (hseg : r.segs = [.txt s]) (hpre : r.isPrefix = false)
    (h : r.matches m p = some vs) : p = 47 :: s ∧ m ∈ r.methods := by
  unfold Route.matches at h
  rw [hpre] at h
  simp only [Bool.false_eq_true, if_false] at h
  split at h
  · simp at h
  · rename_i hm
    refine ⟨?_, by simpa using hm⟩
    rw [hseg] at h
    have hj := join_splitByte 47 p
    revert h hj
    generalize splitByte 47 p = l
    intro h hj
    match l, h with
    | [[]], h => simp [matchSegs] at h
    | [[], a], h =>
      simp only [matchSegs] at h
      split at h
      · rename_i e; subst e; rw [← hj]; rfl
      · simp at h
    | [] :: a :: b :: c, h =>
      simp only [matchSegs] at h
      split at h <;> simp at h

theorem jsonResp_new {γ : Type} (code : Int) (c : Part γ) (h : 200 ≤ code ∧ code ≤ 999) :
    jsonResp ({} : Wr γ) code c = some ⟨some code, [c]⟩ := by
  have h1 : ¬ (code < 100 ∨ 999 < code) := by omega
  have h2 : ¬ (code ≤ 199 ∧ code ≠ 101) := by omega
  simp [jsonResp, Wr.writeHeader, Wr.write, h1, h2]

end Ckube

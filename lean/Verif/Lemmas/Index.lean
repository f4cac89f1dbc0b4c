import Verif.Spec.Index
import Verif.Lemmas.ObjType
import Verif.Lemmas.Search

/-! # Lemmas for C81 to C83 -/

namespace Ckube
open Spec Json

/-! ## Parsing -/

theorem jpStop_mem (b : UInt8) : jpStop b = true ↔ b ∈ lit " .,[]$@{}" := by
  unfold jpStop
  rw [List.contains_iff_mem]

theorem takeWhile_name {n : Str} (hn : PlainName n) {c : UInt8} (hc : jpStop c = true) (t : Str) :
    (n ++ c :: t).takeWhile (fun b => !jpStop b) = n := by
  have h : ∀ b ∈ n, (!jpStop b) = true := by
    intro b hb
    have := hn.2.2.2 b hb
    rw [← jpStop_mem] at this
    simpa using this
  rw [List.takeWhile_append_of_pos h, List.takeWhile_cons_of_neg (by simp [hc]), List.append_nil]

theorem jpAction_steps : ∀ (ss : List JpStep) (f : Nat) (rest : Str), ss.length < f →
    (∀ s ∈ ss, StepOk s) →
    jpAction f (ss.flatMap stepText ++ 125 :: rest) = .ok (ss, rest)
  | [], f, rest, hf, _ => by
    obtain ⟨f, rfl⟩ : ∃ g, f = g + 1 := ⟨f - 1, by simp at hf; omega⟩
    simp [jpAction]
  | s :: ss, f, rest, hf, hok => by
    obtain ⟨f, rfl⟩ : ∃ g, f = g + 1 := ⟨f - 1, by simp at hf; omega⟩
    have ih := jpAction_steps ss f rest (by simp at hf; omega) (fun x hx => hok x (List.mem_cons_of_mem _ hx))
    have h1 := hok s List.mem_cons_self
    cases s with
    | elem n =>
      have hd : (if (intDigits n).head? = some 45 then (intDigits n).drop 1 else intDigits n).all isDigit = true ∧ intDigits n ≠ []
          ∧ (∀ b ∈ intDigits n, b = 45 ∨ isDigit b = true) := by
        have hne := natDigits_ne_nil n.natAbs
        have hall := natDigits_all n.natAbs
        unfold intDigits
        split
        · refine ⟨by simpa using hall, by simp, fun b hb => ?_⟩
          rcases List.mem_cons.mp hb with rfl | hb
          · exact Or.inl rfl
          · exact Or.inr (List.all_eq_true.mp hall b hb)
        · refine ⟨?_, hne, fun b hb => Or.inr (List.all_eq_true.mp hall b hb)⟩
          rw [if_neg]
          · exact hall
          · intro hh
            have := List.all_eq_true.mp hall 45 (List.mem_of_mem_head? hh)
            exact absurd this (by decide)
      have hnot : ∀ b ∈ intDigits n, b ≠ 93 ∧ b ≠ 42 := by
        intro b hb
        rcases hd.2.2 b hb with rfl | h
        · decide
        · have key : ∀ c : UInt8, isDigit c = true → c ≠ 93 ∧ c ≠ 42 := forall_byte (by decide +kernel)
          exact key b h
      have e : (JpStep.elem n :: ss).flatMap stepText ++ 125 :: rest = 91 :: (intDigits n ++ 93 :: (ss.flatMap stepText ++ 125 :: rest)) := by
        simp [stepText]
      have htw : (intDigits n ++ 93 :: (ss.flatMap stepText ++ 125 :: rest)).takeWhile (fun b => decide (b ≠ 93)) = intDigits n := by
        rw [List.takeWhile_append_of_pos (fun b hb => by simpa using (hnot b hb).1), List.takeWhile_cons_of_neg (by simp), List.append_nil]
      have hp : hasPrefix (intDigits n ++ 93 :: (ss.flatMap stepText ++ 125 :: rest)) (lit "*]") = false := by
        cases hi : intDigits n with
        | nil => exact absurd hi hd.2.1
        | cons b t =>
          have := (hnot b (by rw [hi]; exact List.mem_cons_self)).2
          have e2 : lit "*]" = [42, 93] := by decide
          rw [e2]
          simp [hasPrefix, List.isPrefixOf, this.symm]
      rw [e, jpAction, if_neg (by decide), if_neg (by decide), if_neg (by decide), if_neg (by decide), if_neg (by rw [hp]; simp), if_pos rfl]
      simp only [htw]
      rw [List.drop_left, if_neg (by rw [hd.1]; simp), if_neg hd.2.1, parseInt64_intDigits h1]
      simp only
      rw [← List.drop_drop, List.drop_left]
      simp only [List.drop_succ_cons, List.drop_zero]
      rw [ih]
    | each =>
      rw [List.flatMap_cons, List.append_assoc]
      have e : stepText .each ++ (ss.flatMap stepText ++ 125 :: rest) = 91 :: 42 :: 93 :: (ss.flatMap stepText ++ 125 :: rest) := rfl
      rw [e, jpAction]
      have hp : hasPrefix (42 :: 93 :: (ss.flatMap stepText ++ 125 :: rest)) (lit "*]") = true := by
        have : lit "*]" = [42, 93] := by decide
        rw [this]; simp [hasPrefix, List.isPrefixOf]
      rw [if_neg (by decide), if_neg (by decide), if_neg (by decide), if_neg (by decide), if_pos ⟨rfl, hp⟩]
      simp only [List.drop_succ_cons, List.drop_zero]
      rw [ih]
    | field n =>
      change PlainName n at h1
      have hnext : ∃ c t, ss.flatMap stepText ++ 125 :: rest = c :: t ∧ jpStop c = true := by
        cases ss with
        | nil => exact ⟨125, rest, rfl, by decide⟩
        | cons x ss =>
          cases x with
          | each => exact ⟨91, _, rfl, by decide⟩
          | elem m => exact ⟨91, _, rfl, by decide⟩
          | field m => exact ⟨46, _, rfl, by decide⟩
      obtain ⟨c, t, hct, hc⟩ := hnext
      have e : (JpStep.field n :: ss).flatMap stepText ++ 125 :: rest = 46 :: (n ++ (ss.flatMap stepText ++ 125 :: rest)) := by
        simp [stepText]
      have htw : (n ++ (ss.flatMap stepText ++ 125 :: rest)).takeWhile (fun b => !jpStop b) = n := by
        rw [hct]; exact takeWhile_name h1 hc t
      rw [e, jpAction, if_neg (by decide), if_neg (by decide), if_neg (by decide), if_pos rfl]
      simp only [htw]
      rw [if_neg (by simp only [not_or]; exact ⟨h1.1, h1.2.1, h1.2.2.1⟩), List.drop_left, ih]

theorem jpAction_lead {rest : Str} {x : List JpStep × Str} : ∀ (lead : Str) (f : Nat), (∀ b ∈ lead, b ∈ lit "$@ ") →
    jpAction f rest = .ok x → jpAction (lead.length + f) (lead ++ rest) = .ok x
  | [], f, _, h => by simpa using h
  | c :: lead, f, hl, h => by
    have ih := jpAction_lead lead f (fun b hb => hl b (List.mem_cons_of_mem _ hb)) h
    have key : ∀ c : UInt8, c ∈ lit "$@ " → c ≠ 125 ∧ ¬ (c = 10 ∨ c = 13) ∧ (c = 32 ∨ c = 64 ∨ c = 36) := forall_byte (by decide +kernel)
    obtain ⟨k1, k2, k3⟩ := key c (hl c List.mem_cons_self)
    rw [List.cons_append, List.length_cons, Nat.add_right_comm, jpAction, if_neg k1, if_neg k2, if_pos k3, ih]

/-- What a list of nodes writes. -/
def execO (doc : JV) (ns : List JpNode) : Option Str := (ns.mapM (jpNode doc)).map List.flatten

theorem execO_nil (doc : JV) : execO doc [] = some [] := rfl

theorem execO_cons (doc : JV) (n : JpNode) (ns : List JpNode) :
    execO doc (n :: ns) = (jpNode doc n).bind fun t => (execO doc ns).map (t ++ ·) := by
  unfold execO
  rw [List.mapM_cons]
  cases jpNode doc n with
  | none => rfl
  | some t =>
    cases ns.mapM (jpNode doc) with
    | none => rfl
    | some ts => rfl

/-- Text before an expression is written before its value. -/
theorem jpText_text {s rest : Str} (hs : (123 : UInt8) ∉ s) {f : Nat} {ns : List JpNode} (h : jpText f rest = .ok ns) :
    ∃ ns', jpText f (s ++ rest) = .ok ns' ∧ ∀ doc, execO doc ns' = (execO doc ns).map (s ++ ·) := by
  cases f with
  | zero => simp [jpText] at h
  | succ f =>
    have htw : (s ++ rest).takeWhile (fun b => decide (b ≠ 123)) = s ++ rest.takeWhile (fun b => decide (b ≠ 123)) := by
      apply List.takeWhile_append_of_pos
      intro b hb
      simp only [decide_eq_true_eq]
      rintro rfl
      exact hs hb
    have hdrop : (s ++ rest).drop (s ++ rest.takeWhile (fun b => decide (b ≠ 123))).length
        = rest.drop (rest.takeWhile (fun b => decide (b ≠ 123))).length := by
      rw [List.length_append, ← List.drop_drop, List.drop_left]
    have key : ∀ (t : Str) (tl : List JpNode) (doc : JV),
        execO doc ((if s ++ t = [] then [] else [JpNode.text (s ++ t)]) ++ tl)
          = (execO doc ((if t = [] then [] else [JpNode.text t]) ++ tl)).map (s ++ ·) := by
      intro t tl doc
      have hh : ∀ t : Str, execO doc ((if t = [] then [] else [JpNode.text t]) ++ tl) = (execO doc tl).map (t ++ ·) := by
        intro t
        split
        · rename_i h0; subst h0; simp
        · simp [execO_cons, jpNode]
      rw [hh, hh]
      cases execO doc tl <;> simp
    rw [jpText] at h ⊢
    rw [htw, hdrop]
    generalize rest.takeWhile (fun b => decide (b ≠ 123)) = t at h ⊢
    cases hd : rest.drop t.length with
    | nil =>
      rw [hd] at h
      simp only [JpRes.ok.injEq] at h
      refine ⟨_, rfl, ?_⟩
      intro doc
      have := key t [] doc
      simp only [List.append_nil] at this
      rw [this, ← h]
    | cons c r =>
      rw [hd] at h
      simp only at h ⊢
      cases ha : jpAction (r.length + 1) r with
      | bad => rw [ha] at h; simp at h
      | other => rw [ha] at h; simp at h
      | ok x =>
        obtain ⟨ss, rest'⟩ := x
        rw [ha] at h
        simp only at h ⊢
        cases hr : jpText f rest' with
        | bad => rw [hr] at h; simp at h
        | other => rw [hr] at h; simp at h
        | ok ns2 =>
          rw [hr] at h
          simp only [JpRes.ok.injEq] at h
          refine ⟨_, rfl, ?_⟩
          intro doc
          rw [key t _ doc, ← h]

theorem written_length (ss : List JpStep) : ss.length ≤ (ss.flatMap stepText).length := by
  induction ss with
  | nil => simp
  | cons s ss ih =>
    have : 1 ≤ (stepText s).length := by cases s <;> simp [stepText, lit]
    simp only [List.flatMap_cons, List.length_append, List.length_cons]
    omega

/-- A path in braces is parsed to the path. -/
theorem jpText_path {ss : List JpStep} {lead : Str} (hl : ∀ b ∈ lead, b ∈ lit "$@ ") (hss : ∀ s ∈ ss, StepOk s) {rest : Str} {f : Nat}
    {ns : List JpNode} (h : jpText f rest = .ok ns) :
    jpText (f + 1) ([123] ++ lead ++ ss.flatMap stepText ++ [125] ++ rest) = .ok (.path ss :: ns) := by
  have e : [123] ++ lead ++ ss.flatMap stepText ++ [125] ++ rest = 123 :: (lead ++ (ss.flatMap stepText ++ 125 :: rest)) := by simp
  rw [e, jpText]
  simp only [ne_eq, not_true_eq_false, decide_false, Bool.false_eq_true, not_false_eq_true, List.takeWhile_cons_of_neg,
    List.length_nil, List.drop_zero, if_true]
  have ha := jpAction_lead lead ((ss.flatMap stepText ++ 125 :: rest).length + 1) hl
    (jpAction_steps ss _ rest (by have := written_length ss; simp only [List.length_append, List.length_cons]; omega) hss)
  rw [← Nat.add_assoc, ← List.length_append] at ha
  rw [ha]
  simp only [h, List.nil_append]

theorem jpText_mono : ∀ (f : Nat) (s : Str) (ns : List JpNode), jpText f s = .ok ns → jpText (f + 1) s = .ok ns := by
  intro f
  induction f with
  | zero => intro s ns h; simp [jpText] at h
  | succ f ih =>
    intro s ns h
    rw [jpText] at h ⊢
    generalize s.takeWhile (fun b => decide (b ≠ 123)) = t at h ⊢
    cases hd : s.drop t.length with
    | nil => rw [hd] at h; exact h
    | cons c r =>
      rw [hd] at h
      simp only at h ⊢
      cases ha : jpAction (r.length + 1) r with
      | bad => rw [ha] at h; simp at h
      | other => rw [ha] at h; simp at h
      | ok x =>
        obtain ⟨ss, rest'⟩ := x
        rw [ha] at h
        simp only at h ⊢
        cases hr : jpText f rest' with
        | bad => rw [hr] at h; simp at h
        | other => rw [hr] at h; simp at h
        | ok ns2 => rw [hr] at h; rw [ih _ _ hr]; exact h

theorem jpText_le {f g : Nat} (hfg : f ≤ g) {s : Str} {ns : List JpNode} (h : jpText f s = .ok ns) : jpText g s = .ok ns := by
  induction hfg with
  | refl => exact h
  | step _ ih => exact jpText_mono _ _ _ ih

def Piece.node : Piece → JpNode
  | .text s => .text s
  | .path ss _ => .path ss

/-- The written expression is parsed to nodes that write what its pieces denote. -/
theorem jpParse_written (ps : List Piece) (hok : ∀ p ∈ ps, p.Ok) :
    ∃ ns, jpParse (ps.flatMap Piece.written) = .ok ns ∧ ∀ doc, execO doc ns = execO doc (ps.map Piece.node) := by
  have main : ∃ f ns, f ≤ (ps.flatMap Piece.written).length + 1 ∧ jpText f (ps.flatMap Piece.written) = .ok ns
      ∧ ∀ doc, execO doc ns = execO doc (ps.map Piece.node) := by
    induction ps with
    | nil => exact ⟨1, [], by simp, by simp [jpText], fun _ => rfl⟩
    | cons p ps ih =>
      obtain ⟨f, ns, h1, h2, h3⟩ := ih (fun q hq => hok q (List.mem_cons_of_mem _ hq))
      have hp := hok p List.mem_cons_self
      cases p with
      | text s =>
        obtain ⟨ns', g1, g2⟩ := jpText_text (s := s) hp h2
        refine ⟨f, ns', ?_, g1, ?_⟩
        · simp only [List.flatMap_cons, List.length_append]; omega
        · intro doc
          rw [g2, h3, List.map_cons, execO_cons]
          simp [Piece.node, jpNode]
      | path ss lead =>
        refine ⟨f + 1, .path ss :: ns, ?_, ?_, ?_⟩
        · simp only [List.flatMap_cons, List.length_append, Piece.written, List.length_cons, List.length_nil]; omega
        · rw [List.flatMap_cons]; exact jpText_path hp.1 hp.2 h2
        · intro doc
          rw [List.map_cons, execO_cons, execO_cons, h3]
          rfl
  obtain ⟨f, ns, h1, h2, h3⟩ := main
  exact ⟨ns, jpText_le h1 h2, h3⟩

/-! ## Walking -/

theorem lookup_toGo {num : Str → Option Str} (n : Str) (ms : List (Str × JV)) :
    lookup n (goMap (toGoMembers num ms)) = (lastOf n ms).map (toGo num) := by
  rw [lookup_goMap, toGoMembers_eq, lastOf_map]

/-- The field of a value. -/
def fieldOf (n : Str) : JV → Option JV
  | .obj ms => lastOf n ms
  | _ => none

theorem valuesAt_field {num : Str → Option Str} (n : Str) (ss : List JpStep) (v : JV) :
    valuesAt num (.field n :: ss) v = match fieldOf n v with | some w => valuesAt num ss w | none => some [] := by
  cases v <;> simp [valuesAt, fieldOf]
  rfl

theorem flat_mapM_cons {α β : Type} (g : α → Option (List β)) (a : α) (l : List α) :
    ((a :: l).mapM g).map List.flatten = (g a).bind fun x => ((l.mapM g).map List.flatten).map (x ++ ·) := by
  rw [List.mapM_cons]
  cases g a with
  | none => rfl
  | some x =>
    cases l.mapM g with
    | none => rfl
    | some y => rfl

theorem flat_mapM_append {α β : Type} (g : α → Option (List β)) (a b : List α) :
    ((a ++ b).mapM g).map List.flatten
      = ((a.mapM g).map List.flatten).bind fun x => ((b.mapM g).map List.flatten).map (x ++ ·) := by
  induction a with
  | nil =>
    rw [List.nil_append, List.mapM_nil]
    cases (b.mapM g).map List.flatten <;> simp
  | cons c a ih =>
    rw [List.cons_append, flat_mapM_cons, flat_mapM_cons, ih]
    cases g c with
    | none => rfl
    | some x =>
      cases (a.mapM g).map List.flatten with
      | none => rfl
      | some y => cases (b.mapM g).map List.flatten <;> simp

/-- The elements of a value. -/
def elemsOf (num : Str → Option Str) : JV → Option (List JV)
  | .arr xs => some xs
  | .null => some []
  | .num raw => if num raw = none then some [] else none
  | _ => none

/-- The elements of all values. -/
def allOf (g : JV → Option (List JV)) : List JV → Option (List JV)
  | [] => some []
  | v :: vs => (g v).bind fun xs => (allOf g vs).map (xs ++ ·)

/-- One element of a value. -/
def pickOf (num : Str → Option Str) (n : Int) : JV → Option (List JV)
  | .arr xs => (nth xs n).map fun v => [v]
  | .null => some []
  | .num raw => if num raw = none then some [] else none
  | _ => none

theorem valuesAt_each {num : Str → Option Str} (ss : List JpStep) (v : JV) :
    valuesAt num (.each :: ss) v = (elemsOf num v).bind fun xs => (xs.mapM (valuesAt num ss)).map List.flatten := by
  cases v <;> simp [valuesAt, elemsOf]
  split <;> simp

theorem valuesAt_elem {num : Str → Option Str} (n : Int) (ss : List JpStep) (v : JV) :
    valuesAt num (.elem n :: ss) v = (pickOf num n v).bind fun xs => (xs.mapM (valuesAt num ss)).map List.flatten := by
  cases v with
  | arr xs =>
    simp only [valuesAt, pickOf]
    cases nth xs n with
    | none => rfl
    | some v =>
      simp only [Option.map_some, Option.bind_some]
      rw [flat_mapM_cons]
      cases valuesAt num ss v <;> simp
  | num raw =>
    simp only [valuesAt, pickOf]
    split <;> simp
  | _ => simp [valuesAt, pickOf]

theorem jpStep_each {num : Str → Option Str} : ∀ (vs : List JV), (∀ l r, vs = l ++ .arr [] :: r → r = []) →
    jpStep .each (vs.map (toGo num)) = (allOf (elemsOf num) vs).map (List.map (toGo num))
  | [], _ => rfl
  | v :: vs, hlast => by
    have ih := jpStep_each (num := num) vs fun l r h => hlast (v :: l) r (by rw [h]; rfl)
    rw [jpStep] at ih ⊢
    rw [List.map_cons, allOf]
    cases v with
    | null => simp only [toGo, jpEach, elemsOf, Option.bind_some, ih]; cases allOf (elemsOf num) vs <;> simp
    | bool b => simp [toGo, jpEach, elemsOf]
    | str b => simp [toGo, jpEach, elemsOf]
    | obj b => simp [toGo, jpEach, elemsOf]
    | arr xs =>
      cases xs with
      | nil =>
        have := hlast [] vs rfl
        subst this
        simp [toGo, toGoElems_eq, jpEach, elemsOf, allOf]
      | cons x xs =>
        simp only [toGo, toGoElems_eq, List.map_cons, jpEach, elemsOf, Option.bind_some, ih]
        cases allOf (elemsOf num) vs <;> simp
    | num raw =>
      cases hn : num raw with
      | none => simp only [toGo, hn, jpEach, elemsOf, if_true, Option.bind_some, ih]; cases allOf (elemsOf num) vs <;> simp
      | some t => simp [toGo, hn, jpEach, elemsOf]

theorem jvAt_nth (n : Int) (xs : List JV) : jvAt n xs = nth xs n := by
  unfold jvAt nth
  by_cases h : 0 ≤ n
  · rw [if_pos h]
    simp only [if_neg (not_lt.mpr h)]
  · rw [if_neg h]
    simp only [if_pos (not_le.mp h)]
    by_cases h2 : n + xs.length < 0
    · rw [if_pos h2, eq_comm, List.getElem?_eq_none_iff, List.length_reverse]
      omega
    · rw [if_neg h2, List.getElem?_reverse (by omega)]
      congr 1
      omega

theorem nth_map (f : JV → JV) (n : Int) (xs : List JV) : nth (xs.map f) n = (nth xs n).map f := by
  unfold nth
  split <;> simp [← List.map_reverse]

theorem jpStep_elem {num : Str → Option Str} (n : Int) : ∀ (vs : List JV),
    jpStep (.elem n) (vs.map (toGo num)) = (allOf (pickOf num n) vs).map (List.map (toGo num))
  | [] => rfl
  | v :: vs => by
    have ih := jpStep_elem (num := num) n vs
    rw [jpStep] at ih ⊢
    rw [List.map_cons, allOf]
    cases v with
    | null => simp only [toGo, jpElem, pickOf, Option.bind_some, ih]; cases allOf (pickOf num n) vs <;> simp
    | bool b => simp [toGo, jpElem, pickOf]
    | str b => simp [toGo, jpElem, pickOf]
    | obj b => simp [toGo, jpElem, pickOf]
    | arr xs =>
      simp only [toGo, toGoElems_eq, jpElem, pickOf, jvAt_nth, nth_map, ih]
      cases nth xs n with
      | none => rfl
      | some w => simp only [Option.map_some, Option.bind_some]; cases allOf (pickOf num n) vs <;> simp
    | num raw =>
      cases hn : num raw with
      | none => simp only [toGo, hn, jpElem, pickOf, if_true, Option.bind_some, ih]; cases allOf (pickOf num n) vs <;> simp
      | some t => simp [toGo, hn, jpElem, pickOf]

theorem mapM_kids {num : Str → Option Str} {s : JpStep} {ss : List JpStep} {g : JV → Option (List JV)}
    (hg : ∀ v, valuesAt num (s :: ss) v = (g v).bind fun xs => (xs.mapM (valuesAt num ss)).map List.flatten) (vs : List JV) :
    (vs.mapM (valuesAt num (s :: ss))).map List.flatten = (allOf g vs).bind fun ws => (ws.mapM (valuesAt num ss)).map List.flatten := by
  induction vs with
  | nil => simp [allOf]
  | cons v vs ih =>
    rw [flat_mapM_cons, ih, hg, allOf]
    cases g v with
    | none => rfl
    | some xs =>
      cases allOf g vs with
      | none => cases (xs.mapM (valuesAt num ss)).map List.flatten <;> simp
      | some ws => simp only [Option.bind_some]; rw [Option.map_some, Option.bind_some, flat_mapM_append]

theorem mapM_field {num : Str → Option Str} {n : Str} {ss : List JpStep} (vs : List JV) :
    (vs.mapM (valuesAt num (.field n :: ss))).map List.flatten = ((vs.filterMap (fieldOf n)).mapM (valuesAt num ss)).map List.flatten := by
  induction vs with
  | nil => rfl
  | cons v vs ih =>
    rw [flat_mapM_cons, ih, valuesAt_field, List.filterMap_cons]
    cases fieldOf n v with
    | none => cases ((vs.filterMap (fieldOf n)).mapM (valuesAt num ss)).map List.flatten <;> simp
    | some w => simp only; rw [flat_mapM_cons]

theorem mapM_none {num : Str → Option Str} (vs : List JV) : (vs.mapM (valuesAt num [])).map List.flatten = some vs := by
  induction vs with
  | nil => rfl
  | cons v vs ih => rw [flat_mapM_cons, ih]; simp [valuesAt]

/-- `Undisturbed` for several values. -/
def UndisturbedAll (num : Str → Option Str) (ss : List JpStep) (vs : List JV) : Prop :=
  ∀ pre post, ss = pre ++ .each :: post → ∀ ws, (vs.mapM (valuesAt num pre)).map List.flatten = some ws → ∀ l r, ws = l ++ .arr [] :: r → r = []

theorem jpSteps_toGo {num : Str → Option Str} : ∀ (ss : List JpStep) (vs : List JV), UndisturbedAll num ss vs →
    jpSteps ss (vs.map (toGo num)) = ((vs.mapM (valuesAt num ss)).map List.flatten).map (List.map (toGo num))
  | [], vs, _ => by
    rw [mapM_none]; rfl
  | .field n :: ss, vs, hu => by
    have h1 : jpStep (.field n) (vs.map (toGo num)) = some ((vs.filterMap (fieldOf n)).map (toGo num)) := by
      rw [jpStep, Option.some.injEq]
      clear hu
      induction vs with
      | nil => rfl
      | cons v vs ih =>
        simp only [List.map_cons, List.filterMap_cons, ih]
        cases v with
        | obj ms =>
          simp only [toGo, jvField, lookup_toGo, fieldOf]
          cases lastOf n ms <;> rfl
        | num raw => simp only [toGo, fieldOf]; cases num raw <;> rfl
        | null => simp [toGo, fieldOf, jvField]
        | bool b => simp [toGo, fieldOf, jvField]
        | str b => simp [toGo, fieldOf, jvField]
        | arr b => simp [toGo, fieldOf, jvField]
    rw [jpSteps, h1, Option.bind_some, mapM_field]
    refine jpSteps_toGo ss _ fun pre post hp ws hws => hu (.field n :: pre) post (by rw [hp]; rfl) ws ?_
    rw [mapM_field]
    exact hws
  | .each :: ss, vs, hu => by
    rw [jpSteps, jpStep_each vs (hu [] ss rfl vs (mapM_none vs)), mapM_kids (valuesAt_each ss)]
    cases h : allOf (elemsOf num) vs with
    | none => rfl
    | some ws =>
      simp only [Option.map_some, Option.bind_some]
      refine jpSteps_toGo ss ws fun pre post hp us hus => hu (.each :: pre) post (by rw [hp]; rfl) us ?_
      rw [mapM_kids (valuesAt_each pre), h]
      exact hus
  | .elem n :: ss, vs, hu => by
    rw [jpSteps, jpStep_elem, mapM_kids (valuesAt_elem n ss)]
    cases h : allOf (pickOf num n) vs with
    | none => rfl
    | some ws =>
      simp only [Option.map_some, Option.bind_some]
      refine jpSteps_toGo ss ws fun pre post hp us hus => hu (.elem n :: pre) post (by rw [hp]; rfl) us ?_
      rw [mapM_kids (valuesAt_elem n pre), h]
      exact hus

theorem jpNode_path {num : Str → Option Str} (ss : List JpStep) (v : JV) (hu : Undisturbed num ss v) :
    jpNode (toGo num v) (.path ss) = (valuesAt num ss v).map fun vs => join [32] (vs.map fun w => jpShow (toGo num w)) := by
  have := jpSteps_toGo (num := num) ss [v] (by
    intro pre post hp ws hws
    refine hu pre post hp ws ?_
    rw [flat_mapM_cons] at hws
    cases hv : valuesAt num pre v with
    | none => rw [hv] at hws; simp at hws
    | some us => rw [hv] at hws; simpa using hws)
  rw [List.map_cons, List.map_nil] at this
  rw [jpNode, this, flat_mapM_cons]
  cases valuesAt num ss v with
  | none => rfl
  | some vs => simp [List.map_map, Function.comp_def]

/-- Without `[*]` a path leads to at most one value. -/
theorem valuesAt_one {num : Str → Option Str} : ∀ (ss : List JpStep) (v : JV) (vs : List JV), .each ∉ ss → valuesAt num ss v = some vs → vs.length ≤ 1
  | [], v, vs, _, h => by
    simp only [valuesAt, Option.some.injEq] at h
    subst h
    simp
  | .each :: ss, v, vs, hn, _ => absurd List.mem_cons_self hn
  | .field n :: ss, v, vs, hn, h => by
    rw [valuesAt_field] at h
    cases hf : fieldOf n v with
    | none => rw [hf] at h; simp only [Option.some.injEq] at h; subst h; simp
    | some w => rw [hf] at h; exact valuesAt_one ss w vs (fun hm => hn (List.mem_cons_of_mem _ hm)) h
  | .elem n :: ss, v, vs, hn, h => by
    have key : (∃ w, valuesAt num ss w = some vs) ∨ vs = [] := by
      cases v with
      | arr xs =>
        simp only [valuesAt] at h
        cases hx : nth xs n with
        | none => rw [hx] at h; cases h
        | some w => rw [hx] at h; exact Or.inl ⟨w, h⟩
      | num raw =>
        simp only [valuesAt] at h
        split at h
        · exact Or.inr (Option.some.inj h).symm
        · cases h
      | null => exact Or.inr (Option.some.inj h).symm
      | _ => cases h
    rcases key with ⟨w, hw⟩ | rfl
    · exact valuesAt_one ss w vs (fun hm => hn (List.mem_cons_of_mem _ hm)) hw
    · simp

/-- A path with at most one `[*]` is not disturbed. -/
theorem undisturbed_one {num : Str → Option Str} {ss : List JpStep} (h : ss.count .each ≤ 1) (doc : JV) : Undisturbed num ss doc := by
  rintro pre post rfl vs hv l r rfl
  have hn : JpStep.each ∉ pre := by
    intro hm
    have := List.count_pos_iff.mpr hm
    rw [List.count_append, List.count_cons_self] at h
    omega
  have := valuesAt_one pre doc _ hn hv
  rw [List.length_append, List.length_cons] at this
  exact List.length_eq_zero_iff.mp (by omega)

/-! ## Showing -/

theorem good_flat {num : Str → Option Str} {ss : List JpStep} : ∀ {xs vs : List JV}, (∀ x ∈ xs, ∀ vs, valuesAt num ss x = some vs → ∀ w ∈ vs, Good w) →
    (xs.mapM (valuesAt num ss)).map List.flatten = some vs → ∀ w ∈ vs, Good w
  | [], vs, _, h, w, hw => by simp at h; subst h; simp at hw
  | x :: xs, vs, hx, h, w, hw => by
    rw [flat_mapM_cons] at h
    cases hv : valuesAt num ss x with
    | none => rw [hv] at h; simp at h
    | some a =>
      rw [hv, Option.bind_some] at h
      cases hr : (xs.mapM (valuesAt num ss)).map List.flatten with
      | none => rw [hr] at h; simp at h
      | some b =>
        rw [hr] at h
        simp only [Option.map_some, Option.some.injEq] at h
        subst h
        rcases List.mem_append.mp hw with h1 | h1
        · exact hx x List.mem_cons_self a hv w h1
        · exact good_flat (fun y hy => hx y (List.mem_cons_of_mem _ hy)) hr w h1

theorem good_valuesAt {num : Str → Option Str} : ∀ (ss : List JpStep) (v : JV) (vs : List JV), Good v → valuesAt num ss v = some vs → ∀ w ∈ vs, Good w
  | [], v, vs, hg, h, w, hw => by
    simp only [valuesAt, Option.some.injEq] at h
    subst h
    rw [List.mem_singleton] at hw
    subst hw; exact hg
  | .field n :: ss, v, vs, hg, h, w, hw => by
    rw [valuesAt_field] at h
    cases hf : fieldOf n v with
    | none => rw [hf] at h; simp only [Option.some.injEq] at h; subst h; simp at hw
    | some u =>
      rw [hf] at h
      refine good_valuesAt ss u vs ?_ h w hw
      cases v with
      | obj ms =>
        rw [Good, goodMembers_iff] at hg
        exact (hg _ (mem_of_lastOf hf)).2
      | _ => simp [fieldOf] at hf
  | .each :: ss, v, vs, hg, h, w, hw => by
    rw [valuesAt_each] at h
    cases he : elemsOf num v with
    | none => rw [he] at h; simp at h
    | some xs =>
      rw [he, Option.bind_some] at h
      have hx : ∀ x ∈ xs, Good x := by
        cases v with
        | arr ys =>
          simp only [elemsOf, Option.some.injEq] at he
          subst he
          rw [Good, goodElems_iff] at hg
          exact hg
        | null => simp only [elemsOf, Option.some.injEq] at he; subst he; simp
        | num raw =>
          simp only [elemsOf] at he
          split at he
          · simp only [Option.some.injEq] at he; subst he; simp
          · simp at he
        | _ => simp [elemsOf] at he
      exact good_flat (fun x hx' vs' hv => good_valuesAt ss x vs' (hx x hx') hv) h w hw
  | .elem n :: ss, v, vs, hg, h, w, hw => by
    rw [valuesAt_elem] at h
    cases he : pickOf num n v with
    | none => rw [he] at h; simp at h
    | some xs =>
      rw [he, Option.bind_some] at h
      have hx : ∀ x ∈ xs, Good x := by
        cases v with
        | arr ys =>
          simp only [pickOf, Option.map_eq_some_iff] at he
          obtain ⟨y, hy, rfl⟩ := he
          rw [Good, goodElems_iff] at hg
          intro x hx
          rw [List.mem_singleton] at hx
          subst hx
          refine hg x ?_
          unfold nth at hy
          split at hy
          · exact List.mem_of_getElem? hy
          · exact List.mem_reverse.mp (List.mem_of_getElem? hy)
        | null => simp only [pickOf, Option.some.injEq] at he; subst he; simp
        | num raw =>
          simp only [pickOf] at he
          split at he
          · simp only [Option.some.injEq] at he; subst he; simp
          · simp at he
        | _ => simp [pickOf] at he
      exact good_flat (fun x hx' vs' hv => good_valuesAt ss x vs' (hx x hx') hv) h w hw

theorem gTextAbs_small {m : Nat} (h : m < 1000000) : gTextAbs (natDigits m) = natDigits m := by
  have hall := natDigits_all m
  rw [List.all_eq_true] at hall
  have key : ∀ c : UInt8, isDigit c = true → c ≠ 101 ∧ c ≠ 46 := forall_byte (by decide +kernel)
  have h1 : (natDigits m).contains 101 = false := by
    rw [Bool.eq_false_iff, ne_eq, List.contains_iff_mem]
    intro hm
    exact (key _ (hall _ hm)).1 rfl
  have h2 : (natDigits m).takeWhile (fun c => decide (c ≠ 46)) = natDigits m := by
    have := List.takeWhile_append_of_pos (l₂ := []) (p := fun c => decide (c ≠ 46)) (l₁ := natDigits m)
      (by intro c hc; simpa using (key _ (hall _ hc)).2)
    simpa using this
  have h3 : (natDigits m).dropWhile (fun c => decide (c ≠ 46)) = [] := by
    have := List.dropWhile_append_of_pos (l₂ := []) (p := fun c => decide (c ≠ 46)) (l₁ := natDigits m)
      (by intro c hc; simpa using (key _ (hall _ hc)).2)
    simpa using this
  have h4 := natDigits_length_le (n := m) (k := 6) (by omega) (by omega)
  unfold gTextAbs
  rw [if_neg (by rw [h1]; simp), h2, h3]
  simp only [List.drop_nil, List.takeWhile_nil, List.length_nil]
  rw [if_neg (by omega), if_neg (by omega)]

theorem natDigits_head_digit (m : Nat) : ∀ c t, natDigits m = c :: t → c ≠ 45 := by
  intro c t h
  have hall := natDigits_all m
  rw [h, List.all_cons, Bool.and_eq_true] at hall
  have key : ∀ c : UInt8, isDigit c = true → c ≠ 45 := forall_byte (by decide +kernel)
  exact key c hall.1

theorem gText_small {n : Int} (h : n.natAbs < 1000000) : gText (intDigits n) = intDigits n := by
  unfold intDigits
  split
  · simp only [gText]; rw [gTextAbs_small h]
  · unfold gText
    split
    · rename_i r hr
      exact absurd rfl (natDigits_head_digit _ _ _ hr)
    · exact gTextAbs_small h

theorem gTextAbs_decimal {i : Nat} {f : Str} (hi : i < 1000000) (hf : ∀ c ∈ f, isDigit c = true) (hz : i = 0 → ∃ c ∈ f.take 4, c ≠ 48) :
    gTextAbs (natDigits i ++ [46] ++ f) = natDigits i ++ [46] ++ f := by
  have hall := natDigits_all i
  rw [List.all_eq_true] at hall
  have key : ∀ c : UInt8, isDigit c = true → c ≠ 101 ∧ c ≠ 46 := forall_byte (by decide +kernel)
  have h1 : (natDigits i ++ [46] ++ f).contains 101 = false := by
    rw [Bool.eq_false_iff, ne_eq, List.contains_iff_mem]
    intro hm
    rw [List.mem_append, List.mem_append, List.mem_singleton] at hm
    rcases hm with (hm | hm) | hm
    · exact (key _ (hall _ hm)).1 rfl
    · simp at hm
    · exact (key _ (hf _ hm)).1 rfl
  have h2 : (natDigits i ++ [46] ++ f).takeWhile (fun c => decide (c ≠ 46)) = natDigits i := by
    rw [List.append_assoc, List.takeWhile_append_of_pos (by intro c hc; simpa using (key _ (hall _ hc)).2)]
    simp
  have h3 : (natDigits i ++ [46] ++ f).dropWhile (fun c => decide (c ≠ 46)) = 46 :: f := by
    rw [List.append_assoc, List.dropWhile_append_of_pos (by intro c hc; simpa using (key _ (hall _ hc)).2)]
    simp
  have h4 := natDigits_length_le (n := i) (k := 6) (by omega) (by omega)
  unfold gTextAbs
  rw [if_neg (by rw [h1]; simp), h2, h3]
  simp only [List.drop_succ_cons, List.drop_zero]
  rw [if_neg (by omega), if_neg]
  rintro ⟨e, h5, -⟩
  have h0 : i = 0 := by rw [← digitsVal_natDigits i, e]; decide
  obtain ⟨c, hc, hne⟩ := hz h0
  have : f.take 4 <+: f.takeWhile (fun c => decide (c = 48)) :=
    List.prefix_of_prefix_length_le (List.take_prefix _ _) (List.takeWhile_prefix _) (by rw [List.length_take]; omega)
  have h6 := List.all_eq_true.mp (List.all_takeWhile (l := f) (p := fun c => decide (c = 48))) c (this.subset hc)
  exact hne (by simpa using h6)

theorem gText_decimal {t : Str} (h : PlainDecimal t) : gText t = t := by
  obtain ⟨sign, i, f, rfl, hs, hi, hf, hz⟩ := h
  have ha := gTextAbs_decimal hi hf hz
  rcases hs with rfl | rfl
  · rw [List.nil_append]
    unfold gText
    split
    · rename_i r hr
      cases hd : natDigits i with
      | nil => rw [hd] at hr; simp at hr
      | cons c r' =>
        rw [hd] at hr
        simp only [List.cons_append, List.cons.injEq] at hr
        exact absurd hr.1 (natDigits_head_digit _ _ _ hd)
    · exact ha
  · show 45 :: gTextAbs (natDigits i ++ [46] ++ f) = _
    rw [ha]; rfl

/-- How a value of the JSON form is shown. -/
theorem shownAs_jpShow {num : Str → Option Str} (hnum : ∀ r t, num r = some t → okNum t) {v : JV} (hg : Good v) (hs : SmallNumbers num v) :
    ShownAs num v (jpShow (toGo num v)) := by
  have hk := kept_toGo num v
  have hgg := good_toGo hnum v hg
  cases v with
  | null => rw [toGo]; exact .null
  | bool b => rw [toGo]; cases b; exacts [.ff, .tt]
  | str s => rw [toGo]; exact .str s
  | num raw =>
    rcases hs raw rfl with ⟨n, rfl, h1, h2⟩ | ⟨t, h1, h2⟩
    · rw [toGo, h2]
      simp only [jpShow]
      rw [gText_small h1]
      exact .int n
    · rw [toGo, h1]
      simp only [jpShow]
      rw [gText_decimal h2]
      exact .dec h1 h2
  | arr xs =>
    rw [toGo] at hk hgg ⊢
    exact .arr hk (parse_enc hgg)
  | obj ms =>
    rw [toGo] at hk hgg ⊢
    exact .obj hk (parse_enc hgg)

end Ckube

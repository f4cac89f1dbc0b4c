import Verif.Lemmas.Sort
import Verif.Spec.Entrypoint

/-! # Lemmas about sed and nginx.conf -/

namespace Ckube
open Spec

theorem sedScript_plain : ∀ {v : Str}, (∀ c ∈ v, c ≠ 47 ∧ c ≠ 38 ∧ c ≠ 92 ∧ c ≠ 10) → sedScript (v ++ lit "/g") = some (v.map .byte)
  | [], _ => by decide
  | c :: v, h => by
    obtain ⟨h1, h2, h3, h4⟩ := h c List.mem_cons_self
    rw [List.cons_append, sedScript, if_neg h1, if_neg (by tauto), sedScript_plain fun x hx => h x (List.mem_cons_of_mem _ hx), if_neg h2]
    rfl

theorem sedText_plain (pat : Str) : ∀ v : Str, sedText pat (v.map .byte) = v
  | [] => rfl
  | c :: v => by
    have := sedText_plain pat v
    unfold sedText at this ⊢
    rw [List.map_cons, List.flatMap_cons, this]; rfl

theorem sedFile_plain (pat : Str) {v : Str} (file : List Str) (h : ∀ c ∈ v, c ≠ 47 ∧ c ≠ 38 ∧ c ≠ 92 ∧ c ≠ 10) :
    sedFile pat v file = some (file.map (sedLine pat v 0)) := by
  unfold sedFile
  rw [sedScript_plain h]
  simp only [Option.map_some, sedText_plain]

/-- The pieces between the matches. -/
def sedPieces (pat : Str) : Nat → Str → List Str
  | _, [] => [[]]
  | k + 1, _ :: s => sedPieces pat k s
  | 0, c :: s => if pat.isPrefixOf (c :: s) then [] :: sedPieces pat (pat.length - 1) s else match sedPieces pat 0 s with
    | [] => [[c]]
    | p :: ps => (c :: p) :: ps

theorem sedPieces_ne (pat : Str) : ∀ k s, sedPieces pat k s ≠ []
  | k, [] => by simp [sedPieces]
  | k + 1, _ :: s => sedPieces_ne pat k s
  | 0, c :: s => by
    unfold sedPieces
    split
    · simp
    · split <;> simp

theorem sedLine_join (pat r : Str) : ∀ k s, sedLine pat r k s = join r (sedPieces pat k s)
  | k, [] => by simp [sedPieces, sedLine, join]
  | k + 1, _ :: s => sedLine_join pat r k s
  | 0, c :: s => by
    unfold sedPieces sedLine
    split
    · rw [sedLine_join pat r _ s]
      cases h : sedPieces pat (pat.length - 1) s with
      | nil => exact absurd h (sedPieces_ne _ _ _)
      | cons p ps => rfl
    · rw [sedLine_join pat r 0 s]
      cases h : sedPieces pat 0 s with
      | nil => exact absurd h (sedPieces_ne _ _ _)
      | cons p ps => cases ps <;> rfl

/-- Without a match the line stays. -/
theorem sedLine_id {pat : Str} (r : Str) : ∀ {s : Str}, ¬ pat <:+: s → sedLine pat r 0 s = s
  | [], _ => rfl
  | c :: s, h => by
    unfold sedLine
    rw [if_neg (fun x => h (List.IsPrefix.isInfix (List.isPrefixOf_iff_prefix.mp x))),
      sedLine_id r fun x => h (x.trans (List.suffix_cons c s).isInfix)]

/-- A text without the byte is on one side of it. -/
theorem infix_of_append_cons {p a b : Str} {c : UInt8} (hc : c ∉ p) (h : p <:+: a ++ c :: b) : p <:+: a ∨ p <:+: b := by
  obtain ⟨u, v, h⟩ := h
  rw [List.append_assoc] at h
  rcases List.append_eq_append_iff.mp h with ⟨w, h1, h2⟩ | ⟨w, h1, h2⟩
  · -- a = u ++ w, p ++ v = w ++ c :: b
    rcases List.append_eq_append_iff.mp h2 with ⟨x, h3, h4⟩ | ⟨x, h3, h4⟩
    · exact Or.inl ⟨u, x, by rw [h1, h3, List.append_assoc]⟩
    · cases x with
      | nil =>
        rw [List.append_nil] at h3
        exact Or.inl ⟨u, [], by rw [h1, h3, List.append_nil]⟩
      | cons y x =>
        rw [List.cons_append, List.cons.injEq] at h4
        exact absurd (by rw [h3, ← h4.1]; simp) hc
  · -- u = a ++ w, c :: b = w ++ (p ++ v)
    cases w with
    | nil =>
      rw [List.nil_append] at h2
      cases p with
      | nil => exact Or.inr List.nil_infix
      | cons y p =>
        rw [List.cons_append, List.cons.injEq] at h2
        exact absurd (by rw [h2.1]; exact List.mem_cons_self) hc
    | cons y w =>
      rw [List.cons_append, List.cons.injEq] at h2
      exact Or.inr ⟨w, v, by rw [h2.2, List.append_assoc]⟩

theorem shellSubst_newlines {t : Str} (n : Nat) (h : ∀ c ∈ t, c ≠ 10) : shellSubst (t ++ List.replicate n 10) = t := by
  have hd : ∀ (l : Str), (∀ c ∈ l, c ≠ 10) → l.dropWhile (· == 10) = l := by
    intro l hl
    cases l with
    | nil => rfl
    | cons c l => rw [List.dropWhile_cons_of_neg]; simpa using hl c List.mem_cons_self
  have hr : ∀ (n : Nat) (l : Str), (List.replicate n (10 : UInt8) ++ l).dropWhile (· == 10) = l.dropWhile (· == 10) := by
    intro n l
    induction n with
    | zero => rfl
    | succ n ih => rw [List.replicate_succ, List.cons_append, List.dropWhile_cons_of_pos (by rfl), ih]
  unfold shellSubst
  rw [List.reverse_append, List.reverse_replicate, hr, hd _ (fun c hc => h c (List.mem_reverse.mp hc)), List.reverse_reverse]

theorem nginxQuoted_plain : ∀ {t : Str}, (∀ c ∈ t, c ≠ 34 ∧ c ≠ 36 ∧ c ≠ 92) → nginxQuoted (t ++ lit "\";") = some t
  | [], _ => by decide
  | c :: t, h => by
    obtain ⟨h1, h2, h3⟩ := h c List.mem_cons_self
    rw [List.cons_append, nginxQuoted, if_neg h1, if_neg (by tauto), nginxQuoted_plain fun x hx => h x (List.mem_cons_of_mem _ hx)]
    rfl

theorem afterText_pad {c : UInt8} {t : Str} (rest : Str) (hc : c ≠ 32) : ∀ n : Nat, afterText (c :: t) (List.replicate n 32 ++ (c :: t ++ rest)) = some rest
  | 0 => by
    have h1 : (c :: t ++ rest).dropWhile (· == 32) = c :: t ++ rest := by
      rw [List.cons_append, List.dropWhile_cons_of_neg]; simpa using hc
    have h2 : (c :: t).isPrefixOf (c :: t ++ rest) = true := List.isPrefixOf_iff_prefix.mpr (List.prefix_append _ _)
    unfold afterText
    simp only [List.replicate_zero, List.nil_append, h1]
    rw [if_pos h2, List.drop_left]
  | n + 1 => by
    have := afterText_pad rest hc n (t := t)
    unfold afterText at this ⊢
    rw [List.replicate_succ, List.cons_append, List.dropWhile_cons_of_pos (by rfl)]
    exact this

theorem upstreamAddr_plain {h p : Str} (hh : PlainHost h) (hp : PlainPort p) : upstreamAddr (h ++ 58 :: p) = some (h, p) := by
  have h58 : (58 : UInt8) ∉ p := fun x => absurd (hp.2 58 x) (by decide)
  unfold upstreamAddr
  rw [splitByte_append 58 h p (fun x => (hh.2 58 x).2.2.2.2.1 rfl), splitByte_of_not_mem 58 p h58]
  simp only
  rw [if_pos]
  refine ⟨hh.1, hp.1, List.all_eq_true.mpr fun c hc => ?_⟩
  have := hp.2 c hc
  simp [this.1, this.2]

/-! ## The arguments -/

theorem sum_zero_mem {α : Type} {f : α → Nat} : ∀ {l : List α} {x : α}, (l.map f).sum = 0 → x ∈ l → f x = 0
  | y :: l, x, h, hx => by
    rw [List.map_cons, List.sum_cons] at h
    rcases List.mem_cons.mp hx with rfl | hx
    · omega
    · exact sum_zero_mem (by omega) hx

theorem shellFields_length : ∀ (s cur : Str), ((shellFields cur s).map List.length).sum = cur.length + (s.filter fun c => !fieldSep c).length
  | [], cur => by
    unfold shellFields
    split
    · rename_i h; simp [h]
    · simp
  | c :: s, cur => by
    unfold shellFields
    split
    · rename_i h
      rw [List.map_append, List.sum_append, shellFields_length s [], List.filter_cons_of_neg (by simp [h])]
      split
      · rename_i h'; simp [h']
      · simp
    · rename_i h
      rw [shellFields_length s _, List.filter_cons_of_pos (by simp [h])]
      simp; omega

theorem shellFields_plain : ∀ {s cur : Str}, (∀ c ∈ s, fieldSep c = false) → shellFields cur s = if cur ++ s = [] then [] else [cur ++ s]
  | [], cur, _ => by simp [shellFields]
  | c :: s, cur, h => by
    unfold shellFields
    rw [if_neg (by simp [h c List.mem_cons_self]), shellFields_plain fun x hx => h x (List.mem_cons_of_mem _ hx)]
    simp

end Ckube

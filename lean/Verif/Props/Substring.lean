import Verif.Lemmas.Substring
import Verif.Lemmas.LabelIndex
import Verif.Props.Search

/-! # C15 by the first character of the value -/

namespace Ckube

/-- **C15** for every index value whatever: a value of printable ASCII characters other than `"` and `\` whose first character is in no escape
sequence of Go (not one of `a`–`f`, `n`, `r`, `t`, `v`, `x`, `u`, `U` and the digits) is found exactly where it is a substring. Missing
for the full claim: the other values, for most of which it is false (`C15_start_false`). -/
theorem C15_start_partial (isPrint : Nat → Bool) (m : List (Str × Str)) (part key v w : Str) (b : UInt8)
    (htrim : trimSpace part = key ++ lit "=" ++ (b :: w)) (hkey : key ≠ []) (heq : (61 : UInt8) ∉ key)
    (hadv : ¬ advPrefix <+: key ++ lit "=" ++ (b :: w)) (hl : lookup key m = some v)
    (hval : ∀ x ∈ b :: w, 0x20 ≤ x ∧ x ≤ 0x7E ∧ x ≠ 34 ∧ x ≠ 92)
    (hb : b ∉ lit "abcdefnrtvxuU0123456789!") :
    matchParts isPrint m [part] = some true ↔ ∃ pre post, v = pre ++ (b :: w) ++ post := by
  have hbang : ∀ r, b :: w ≠ lit "!" ++ r := by
    intro r h
    have : b = 33 := by simpa [lit] using congrArg List.head? h
    subst this
    exact hb (by decide)
  have h0 := hval b (by simp)
  refine ⟨?_, C15_no_miss_partial isPrint m part key (b :: w) v htrim hkey heq hadv hbang hl hval⟩
  rw [(C11_key_value isPrint m part key _ htrim hkey heq hadv hbang).2, hl]
  rintro ⟨v', pre, post, hv, hq⟩
  obtain rfl := Option.some.inj hv
  have hq34 : (34 : UInt8) ∉ b :: w := fun h => (hval _ h).2.2.1 rfl
  have hinf := (infix_of_wrapped (iv := quoteBody isPrint v) hq34).mp ⟨pre, post, hq.symm⟩
  have hlt : b < 0x80 := by
    have := UInt8.le_iff_toNat_le.mp h0.2.1
    exact UInt8.lt_iff_toNat_lt.mpr (by simpa using Nat.lt_of_le_of_lt this (by decide))
  have hesc : b ∉ escapeBytes := by
    intro hm
    have : b ∈ lit "abcdefnrtvxuU0123456789!" ∨ b = 34 ∨ b = 92 := by
      revert hm
      generalize b = x
      revert x
      decide +kernel
    rcases this with h | h | h
    · exact hb h
    · exact h0.2.2.1 h
    · exact h0.2.2.2 h
  obtain ⟨p, q, hpq⟩ := infix_unquoted hlt hesc (fun h => (hval 92 (List.mem_cons_of_mem _ h)).2.2.2 rfl) (chunks v) (chunks_ok v) hinf
  rw [chunks_bytes] at hpq
  exact ⟨p, q, hpq.symm⟩

/-- The control character that is written with this character last. -/
def ctrlOf (b : UInt8) : UInt8 :=
  if b = 110 then 10 else if b = 114 then 13 else if b = 116 then 9 else if b = 118 then 11
  else if b ≤ 57 then b - 32 else b - 71

/-- **C15 is false** for every printable ASCII value without `"` and `\` that starts with `a`–`f`, `n`, `r`, `t`, `v` or a digit: there is an index
value that does not contain it and is accepted, whatever else the object's index has. -/
theorem C15_start_false (isPrint : Nat → Bool) (part key w : Str) (b : UInt8)
    (htrim : trimSpace part = key ++ lit "=" ++ (b :: w)) (hkey : key ≠ []) (heq : (61 : UInt8) ∉ key)
    (hadv : ¬ advPrefix <+: key ++ lit "=" ++ (b :: w))
    (hval : ∀ x ∈ w, 0x20 ≤ x ∧ x ≤ 0x7E ∧ x ≠ 34 ∧ x ≠ 92)
    (hb : b ∈ lit "abcdefnrtv0123456789") :
    ∃ v, (¬ ∃ pre post, v = pre ++ (b :: w) ++ post)
      ∧ ∀ m, lookup key m = some v → matchParts isPrint m [part] = some true := by
  have hfacts : ∀ x : UInt8, x ∈ lit "abcdefnrtv0123456789" → ctrlOf x ≠ x ∧ ctrlOf x < 0x80 ∧ x ≠ 33
      ∧ ∃ p, quoteChunk (fun _ => true) (.ascii (ctrlOf x)) = p ++ [x] := by
    have : ∀ x : UInt8, x ∈ lit "abcdefnrtv0123456789" → ctrlOf x ≠ x ∧ ctrlOf x < 0x80 ∧ x ≠ 33
      ∧ (quoteChunk (fun _ => true) (.ascii (ctrlOf x))).getLast? = some x := by decide +kernel
    intro x hx
    obtain ⟨h1, h2, h3, h4⟩ := this x hx
    obtain ⟨p, hp⟩ := List.getLast?_eq_some_iff.mp h4
    exact ⟨h1, h2, h3, p, hp⟩
  obtain ⟨hne, hlt, hb33, p, hp⟩ := hfacts b hb
  have hbang : ∀ r, b :: w ≠ lit "!" ++ r := by
    intro r h
    exact hb33 (by simpa [lit] using congrArg List.head? h)
  refine ⟨ctrlOf b :: w, ?_, ?_⟩
  · rintro ⟨pre, post, h⟩
    have hlen := congrArg List.length h
    simp only [List.length_append, List.length_cons] at hlen
    have h1 : pre = [] := List.length_eq_zero_iff.mp (by omega)
    subst h1
    simp only [List.nil_append, List.cons_append, List.cons.injEq] at h
    exact hne h.1
  · intro m hl
    rw [(C11_key_value isPrint m part key _ htrim hkey heq hadv hbang).2, hl]
    have hw : quoteBody isPrint w = w := by
      have hpl : ∀ (l : Str), (∀ x ∈ l, 0x20 ≤ x ∧ x ≤ 0x7E ∧ x ≠ 34 ∧ x ≠ 92) → l.flatMap quoteByte = l := by
        intro l
        induction l with
        | nil => intro _; rfl
        | cons x l ih =>
          intro hx
          have h0 := hx x (by simp)
          rw [List.flatMap_cons, ih (fun y hy => hx y (List.mem_cons_of_mem _ hy)), quoteByte,
            if_neg (by simp [h0.2.2.1, h0.2.2.2])]
          rfl
      rw [quoteBody_ascii (fun x hx => ⟨(hval x hx).1, (hval x hx).2.1⟩), hpl w hval]
    refine ⟨_, [34] ++ p, [34], rfl, ?_⟩
    have hp' : quoteChunk isPrint (.ascii (ctrlOf b)) = p ++ [b] := hp
    have : quoteBody isPrint (ctrlOf b :: w) = p ++ [b] ++ w := by
      conv => rhs; rw [← hw]
      unfold quoteBody
      rw [chunks_cons_ascii hlt, List.flatMap_cons, hp']
    rw [quote, this]
    simp

/-- `name=web` finds exactly the names that contain `web`, also among names with control characters; `name=api` also finds a bell followed
by `pi`. -/
example : (matchParts (fun _ => true) [(lit "name", lit "\n\x07web")] [lit " name=web "] = some true ↔
      ∃ pre post, lit "\n\x07web" = pre ++ lit "web" ++ post)
    ∧ matchParts (fun _ => true) [(lit "name", lit "\x07pi")] [lit "name=api"] = some true :=
  ⟨C15_start_partial _ _ _ (lit "name") _ (lit "eb") 119 (by decide +kernel) (by decide) (by decide) (by decide +kernel) rfl
    (by decide +kernel) (by decide +kernel), by decide +kernel⟩

/-- The hypotheses of `C15_start_false` hold for `name=api`. -/
example : ∃ v, (¬ ∃ pre post, v = pre ++ lit "api" ++ post)
    ∧ ∀ m, lookup (lit "name") m = some v → matchParts (fun _ => true) m [lit "name=api"] = some true :=
  C15_start_false _ _ (lit "name") (lit "pi") 97 (by decide +kernel) (by decide) (by decide) (by decide +kernel) (by decide +kernel)
    (by decide +kernel)

end Ckube

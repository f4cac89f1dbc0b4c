import Verif.Model.ObjType
import Verif.Lemmas.IndexJson

/-! # Encoded JSON values are parsed back -/

namespace Ckube

theorem chunks_cons {c : Chunk} (hc : c.Ok) (hb : ∀ b, c ≠ .bad b) (t : Str) : chunks (c.bytes ++ t) = c :: chunks t := by
  cases c with
  | bad b => exact absurd rfl (hb b)
  | ascii b =>
    have h : b < 0x80 := hc
    simp [Chunk.bytes, chunks, chunksFrom, chunk1, h]
  | multi r bs =>
    have hm : MultiOk r bs := hc
    cases hm with
    | @two b0 b1 h =>
      have h' := is2_iff.mp h
      have h0 : ¬ b0 < 0x80 := by rw [UInt8.lt_iff_toNat_lt]; simp; omega
      simp [Chunk.bytes, chunks, chunksFrom, chunk1, h0, h]
    | @three b0 b1 b2 h =>
      have h' := is3_iff.mp h
      have h0 : ¬ b0 < 0x80 := by rw [UInt8.lt_iff_toNat_lt]; simp; omega
      have h2 : is2 b0 b1 = false := by rw [← Bool.not_eq_true, is2_iff]; omega
      simp [Chunk.bytes, chunks, chunksFrom, chunk1, h0, h2, h]
    | @four b0 b1 b2 b3 h =>
      have h' := is4_iff.mp h
      have h0 : ¬ b0 < 0x80 := by rw [UInt8.lt_iff_toNat_lt]; simp; omega
      have h2 : is2 b0 b1 = false := by rw [← Bool.not_eq_true, is2_iff]; omega
      have h3 : is3 b0 b1 b2 = false := by rw [← Bool.not_eq_true, is3_iff]; omega
      simp [Chunk.bytes, chunks, chunksFrom, chunk1, h0, h2, h3, h]

theorem chunks_flat (l : List Chunk) (h : ∀ c ∈ l, c.Ok ∧ ∀ b, c ≠ .bad b) : chunks (l.flatMap Chunk.bytes) = l := by
  induction l with
  | nil => rfl
  | cons c l ih =>
    rw [List.flatMap_cons, chunks_cons (h c (by simp)).1 (h c (by simp)).2, ih (fun c hc => h c (by simp [hc]))]

theorem toValidUtf8_valid (s : Str) : validUtf8 (toValidUtf8 s) = true := by
  let fix : Chunk → Chunk := fun c => match c with | .bad _ => .multi 0xFFFD [0xEF, 0xBF, 0xBD] | c => c
  have hfix : toValidUtf8 s = ((chunks s).map fix).flatMap Chunk.bytes := by
    unfold toValidUtf8
    rw [List.flatMap_map]
    congr 1
    funext c
    cases c <;> rfl
  have hok : ∀ c ∈ (chunks s).map fix, c.Ok ∧ ∀ b, c ≠ .bad b := by
    intro c hc
    obtain ⟨d, hd, rfl⟩ := List.mem_map.mp hc
    cases d with
    | bad b =>
      refine ⟨?_, by intro b h; cases h⟩
      exact MultiOk.three (b0 := 0xEF) (b1 := 0xBF) (b2 := 0xBD) (by decide +kernel)
    | ascii b => exact ⟨chunks_ok s _ hd, by intro b h; cases h⟩
    | multi r bs => exact ⟨chunks_ok s _ hd, by intro b h; cases h⟩
  rw [hfix, validUtf8_iff, chunks_flat _ hok]
  intro b hb
  exact (hok _ hb).2 b rfl

namespace Json

/-- A number text the parser accepts as a whole. -/
def okNum (s : Str) : Prop := validNum s = true ∧ s.all isNumByte = true

mutual
/-- Values with valid strings and numbers. -/
def Good : JV → Prop
  | .null => True
  | .bool _ => True
  | .num raw => okNum raw
  | .str s => validUtf8 s = true
  | .arr xs => GoodElems xs
  | .obj ms => GoodMembers ms

def GoodElems : List JV → Prop
  | [] => True
  | x :: xs => Good x ∧ GoodElems xs

def GoodMembers : List (Str × JV) → Prop
  | [] => True
  | (k, v) :: ms => validUtf8 k = true ∧ Good v ∧ GoodMembers ms
end

theorem goodElems_iff {xs : List JV} : GoodElems xs ↔ ∀ x ∈ xs, Good x := by
  induction xs with
  | nil => simp [GoodElems]
  | cons x xs ih => simp [GoodElems, ih]

theorem goodMembers_iff {ms : List (Str × JV)} : GoodMembers ms ↔ ∀ e ∈ ms, validUtf8 e.1 = true ∧ Good e.2 := by
  induction ms with
  | nil => simp [GoodMembers]
  | cons e ms ih => obtain ⟨k, v⟩ := e; simp [GoodMembers, ih, and_assoc]

/-- What may follow a value. -/
def After (t : Str) : Prop := ∀ c r, t = c :: r → c = 44 ∨ c = 125 ∨ c = 93

theorem okNum_head {s : Str} (h : okNum s) : ∃ c r, s = c :: r ∧ (isDigit c = true ∨ c = 45) := by
  cases s with
  | nil => exact absurd h.1 (by decide)
  | cons c r =>
    refine ⟨c, r, rfl, ?_⟩
    by_cases h45 : c = 45
    · exact Or.inr h45
    · left
      have hv := h.1
      simp only [validNum, h45, if_false] at hv
      by_cases h48 : c = 48
      · subst h48; decide
      · simp only [h48, if_false, someDigits] at hv
        by_cases hd : isDigit c = true
        · exact hd
        · simp [hd] at hv

theorem pVal_num {f : Nat} {s t : Str} (hs : okNum s) (ht : After t) : pVal (f + 1) (s ++ t) = some (.num s, t) := by
  obtain ⟨c, r, rfl, hc⟩ := okNum_head hs
  have key : ∀ c : UInt8, (isDigit c = true ∨ c = 45) →
      isWs c = false ∧ c ≠ 123 ∧ c ≠ 91 ∧ c ≠ 34 ∧ c ≠ 116 ∧ c ≠ 102 ∧ c ≠ 110 :=
    forall_byte (by decide +kernel)
  obtain ⟨k1, k2, k3, k4, k5, k6, k7⟩ := key c hc
  have hstop : ∀ d r, t = d :: r → isNumByte d = false := by
    intro d r hdr
    rcases ht d r hdr with rfl | rfl | rfl <;> decide
  have htd := takeWhile_append_stop hs.2 hstop
  rw [List.cons_append] at htd ⊢
  rw [pVal, skipWs_cons k1]
  simp only [k2, k3, k4, if_false]
  rw [show lit "true" = 116 :: lit "rue" by decide, show lit "false" = 102 :: lit "alse" by decide,
    show lit "null" = 110 :: lit "ull" by decide, hasPrefix_head_ne k5, hasPrefix_head_ne k6,
    hasPrefix_head_ne k7]
  simp only [Bool.false_eq_true, if_false]
  rw [htd.1, htd.2, hs.1]
  rfl

/-- First byte of an encoded value. -/
theorem enc_head (v : JV) (hv : Good v) : ∃ c r, enc v = c :: r ∧ isWs c = false ∧ c ≠ 93 ∧ c ≠ 125 := by
  cases v with
  | null => exact ⟨110, lit "ull", by rw [enc]; decide, by decide, by decide, by decide⟩
  | bool b =>
    cases b
    · exact ⟨102, lit "alse", by rw [enc]; decide, by decide, by decide, by decide⟩
    · exact ⟨116, lit "rue", by rw [enc]; decide, by decide, by decide, by decide⟩
  | num raw =>
    have h : okNum raw := by rwa [Good] at hv
    obtain ⟨c, r, rfl, hc⟩ := okNum_head h
    have key : ∀ c : UInt8, (isDigit c = true ∨ c = 45) → isWs c = false ∧ c ≠ 93 ∧ c ≠ 125 :=
      forall_byte (by decide +kernel)
    exact ⟨c, r, by rw [enc], key c hc⟩
  | str s => exact ⟨34, _, by rw [enc]; rfl, by decide, by decide, by decide⟩
  | arr xs => exact ⟨91, _, by rw [enc]; rfl, by decide, by decide, by decide⟩
  | obj ms => exact ⟨123, _, by rw [enc]; rfl, by decide, by decide, by decide⟩

theorem encElems_cons (x : JV) (xs : List JV) : encElems (x :: xs)
    = enc x ++ (match xs with | [] => [] | _ :: _ => [44] ++ encElems xs) := by
  rw [encElems.eq_def]; rfl

theorem encMembers_cons (k : Str) (v : JV) (ms : List (Str × JV)) : encMembers ((k, v) :: ms)
    = encStr k ++ [58] ++ enc v ++ (match ms with | [] => [] | _ :: _ => [44] ++ encMembers ms) := by
  rw [encMembers.eq_def]; rfl

/-- The three parsers on what the encoder writes. -/
theorem parse_enc_aux : ∀ (f : Nat),
    (∀ (v : JV) (t : Str), Good v → After t → (enc v).length < f → pVal f (enc v ++ t) = some (v, t))
    ∧ (∀ (ms : List (Str × JV)) (t : Str), ms ≠ [] → GoodMembers ms → (encMembers ms).length < f →
        pMembers f (encMembers ms ++ 125 :: t) = some (ms, t))
    ∧ (∀ (xs : List JV) (t : Str), xs ≠ [] → GoodElems xs → (encElems xs).length + 1 < f →
        pElems f (encElems xs ++ 93 :: t) = some (xs, t)) := by
  intro f
  induction f with
  | zero => exact ⟨fun _ _ _ _ h => absurd h (by omega), fun _ _ _ _ h => absurd h (by omega), fun _ _ _ _ h => absurd h (by omega)⟩
  | succ f ih =>
    obtain ⟨ih1, ih2, ih3⟩ := ih
    refine ⟨?_, ?_, ?_⟩
    · intro v t hv ht hf
      cases v with
      | null =>
        rw [enc]
        change pVal (f + 1) (110 :: 117 :: 108 :: 108 :: t) = _
        rw [pVal, skipWs_cons (by decide)]
        rfl
      | bool b =>
        cases b
        · rw [enc]
          change pVal (f + 1) (102 :: 97 :: 108 :: 115 :: 101 :: t) = _
          rw [pVal, skipWs_cons (by decide)]
          rfl
        · rw [enc]
          change pVal (f + 1) (116 :: 114 :: 117 :: 101 :: t) = _
          rw [pVal, skipWs_cons (by decide)]
          rfl
      | num raw =>
        have h : okNum raw := by rwa [Good] at hv
        rw [enc]; exact pVal_num h ht
      | str s =>
        have h : validUtf8 s = true := by rwa [Good] at hv
        rw [enc]; exact pVal_str f h t
      | arr xs =>
        have h : GoodElems xs := by rwa [Good] at hv
        rw [enc] at hf ⊢
        simp only [List.length_append, List.length_cons, List.length_nil] at hf
        simp only [List.append_assoc, List.cons_append, List.nil_append]
        rw [pVal, skipWs_cons (by decide)]
        simp only [show (91 : UInt8) ≠ 123 by decide, if_false, if_true]
        cases xs with
        | nil =>
          simp only [encElems, List.nil_append]
          rw [skipWs_cons (by decide)]
          simp
        | cons x xs =>
          have ih := ih3 (x :: xs) t (by simp) h (by omega)
          obtain ⟨c, r, hcr, hws, h93, _⟩ := enc_head x (goodElems_iff.mp h x (by simp))
          have hhead : ∃ r', encElems (x :: xs) = c :: r' := by
            rw [encElems_cons, hcr]; exact ⟨_, rfl⟩
          obtain ⟨r', hr'⟩ := hhead
          rw [hr', List.cons_append] at ih ⊢
          rw [skipWs_cons hws]
          simp only [h93, if_false]
          rw [ih]
      | obj ms =>
        have h : GoodMembers ms := by rwa [Good] at hv
        rw [enc] at hf ⊢
        simp only [List.length_append, List.length_cons, List.length_nil] at hf
        simp only [List.append_assoc, List.cons_append, List.nil_append]
        rw [pVal, skipWs_cons (by decide)]
        simp only [if_true]
        cases ms with
        | nil =>
          simp only [encMembers, List.nil_append]
          rw [skipWs_cons (by decide)]
          simp
        | cons e ms =>
          obtain ⟨k, v⟩ := e
          have ih := ih2 ((k, v) :: ms) t (by simp) h (by omega)
          have hhead : ∃ r', encMembers ((k, v) :: ms) = 34 :: r' := by
            rw [encMembers_cons]; exact ⟨_, rfl⟩
          obtain ⟨r', hr'⟩ := hhead
          rw [hr', List.cons_append] at ih ⊢
          rw [skipWs_cons (by decide)]
          simp only [show (34 : UInt8) ≠ 125 by decide, if_false]
          rw [ih]
    · intro ms t hne hg hf
      cases ms with
      | nil => exact absurd rfl hne
      | cons e ms =>
        obtain ⟨k, v⟩ := e
        rw [GoodMembers] at hg
        obtain ⟨hk, hv, hms⟩ := hg
        rw [encMembers_cons] at hf ⊢
        simp only [List.length_append, List.length_cons, List.length_nil] at hf
        have hlen : 2 ≤ (encStr k).length := by unfold encStr; simp
        cases ms with
        | nil =>
          simp only [List.append_assoc, List.append_nil]
          obtain ⟨r, hr1, hr2⟩ := pStr_encTail hk ([58] ++ (enc v ++ 125 :: t))
          rw [hr1, pMembers, skipWs_cons (by decide)]
          simp only [if_true]
          rw [hr2]
          simp only [List.cons_append, List.nil_append]
          rw [skipWs_cons (by decide)]
          simp only [if_true]
          rw [ih1 v _ hv (by intro c r h; cases h; simp) (by omega)]
          simp only
          rw [skipWs_cons (by decide)]
          simp
        | cons e' ms =>
          have ih := ih2 (e' :: ms) t (by simp) hms (by simp only [List.length_append, List.length_cons, List.length_nil] at hf; omega)
          simp only [List.append_assoc] at hf ⊢
          obtain ⟨r, hr1, hr2⟩ := pStr_encTail hk ([58] ++ (enc v ++ ([44] ++ (encMembers (e' :: ms) ++ 125 :: t))))
          rw [hr1, pMembers, skipWs_cons (by decide)]
          simp only [if_true]
          rw [hr2]
          simp only [List.cons_append, List.nil_append]
          rw [skipWs_cons (by decide)]
          simp only [if_true]
          rw [ih1 v _ hv (by intro c r h; cases h; simp) (by omega)]
          simp only
          rw [skipWs_cons (by decide)]
          simp only [if_true]
          rw [ih]
    · intro xs t hne hg hf
      cases xs with
      | nil => exact absurd rfl hne
      | cons x xs =>
        rw [GoodElems] at hg
        rw [encElems_cons] at hf ⊢
        simp only [List.length_append] at hf
        have hx : 1 ≤ (enc x).length := by
          obtain ⟨c, r, hcr, _⟩ := enc_head x hg.1
          rw [hcr]; simp
        cases xs with
        | nil =>
          simp only [List.append_nil]
          rw [pElems, ih1 x _ hg.1 (by intro c r h; cases h; simp) (by omega)]
          simp only
          rw [skipWs_cons (by decide)]
          simp
        | cons x' xs =>
          simp only [List.length_append, List.length_cons, List.length_nil] at hf
          have ih := ih3 (x' :: xs) t (by simp) hg.2 (by omega)
          simp only [List.append_assoc, List.cons_append, List.nil_append]
          rw [pElems, ih1 x _ hg.1 (by intro c r h; cases h; simp) (by omega)]
          simp only
          rw [skipWs_cons (by decide)]
          simp only [if_true]
          rw [ih]

/-- An encoded value is parsed back. -/
theorem parse_enc {v : JV} (hv : Good v) : parse (enc v) = some v := by
  have h := (parse_enc_aux ((enc v).length + 1)).1 v [] hv (by intro c r h; cases h) (by omega)
  rw [List.append_nil] at h
  unfold parse
  rw [h]
  rfl

/-- What the parser returns has valid strings and numbers. -/
theorem good_of_pVal : ∀ (f : Nat),
    (∀ (s : Str) (v : JV) (t : Str), pVal f s = some (v, t) → Good v)
    ∧ (∀ (s : Str) (ms : List (Str × JV)) (t : Str), pMembers f s = some (ms, t) → GoodMembers ms)
    ∧ (∀ (s : Str) (xs : List JV) (t : Str), pElems f s = some (xs, t) → GoodElems xs) := by
  have hstr : ∀ {r x t : Str}, pStr r = some (x, t) → validUtf8 x = true := by
    intro r x t h
    unfold pStr at h
    cases hp : pToks r with
    | none => rw [hp] at h; cases h
    | some p =>
      rw [hp] at h
      simp only [Option.some.injEq, Prod.mk.injEq] at h
      rw [← h.1]
      exact toValidUtf8_valid _
  intro f
  induction f with
  | zero =>
    refine ⟨?_, ?_, ?_⟩ <;> intro s v t h
    · rw [pVal] at h; cases h
    · rw [pMembers] at h; cases h
    · rw [pElems] at h; cases h
  | succ f ih =>
    obtain ⟨ih1, ih2, ih3⟩ := ih
    refine ⟨?_, ?_, ?_⟩
    · intro s v t h
      rw [pVal] at h
      split at h
      · cases h
      · split at h
        · split at h
          · cases h
          · split at h
            · cases h; simp [Good, GoodMembers]
            · split at h
              · cases h
              · rename_i hm; cases h; rw [Good]; exact ih2 _ _ _ hm
        · split at h
          · split at h
            · cases h
            · split at h
              · cases h; simp [Good, GoodElems]
              · split at h
                · cases h
                · rename_i hm; cases h; rw [Good]; exact ih3 _ _ _ hm
          · split at h
            · split at h
              · cases h
              · rename_i hm; cases h; rw [Good]; exact hstr hm
            · split at h
              · cases h; rw [Good]; trivial
              · split at h
                · cases h; rw [Good]; trivial
                · split at h
                  · cases h; rw [Good]; trivial
                  · simp only at h
                    split at h
                    · rename_i hn
                      cases h
                      rw [Good]
                      exact ⟨hn, List.all_takeWhile⟩
                    · cases h
    · intro s ms t h
      rw [pMembers] at h
      split at h
      · cases h
      · split at h
        · split at h
          · cases h
          · rename_i hk
            split at h
            · cases h
            · split at h
              · split at h
                · cases h
                · rename_i hv
                  split at h
                  · cases h
                  · split at h
                    · split at h
                      · cases h
                      · rename_i hm
                        cases h
                        rw [GoodMembers]
                        exact ⟨hstr hk, ih1 _ _ _ hv, ih2 _ _ _ hm⟩
                    · split at h
                      · cases h
                        simp only [GoodMembers, and_true]
                        exact ⟨hstr hk, ih1 _ _ _ hv⟩
                      · cases h
              · cases h
        · cases h
    · intro s xs t h
      rw [pElems] at h
      split at h
      · cases h
      · rename_i hv
        split at h
        · cases h
        · split at h
          · split at h
            · cases h
            · rename_i hm
              cases h
              rw [GoodElems]
              exact ⟨ih1 _ _ _ hv, ih3 _ _ _ hm⟩
          · split at h
            · cases h
              simp only [GoodElems, and_true]
              exact ih1 _ _ _ hv
            · cases h

theorem good_of_parse {s : Str} {v : JV} (h : parse s = some v) : Good v := by
  unfold parse at h
  split at h
  · cases h
  · rename_i hp
    split at h
    · cases h; exact (good_of_pVal _).1 _ _ _ hp
    · cases h

end Json
end Ckube

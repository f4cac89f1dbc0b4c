import Verif.Spec.Decimal
import Verif.Lemmas.Float
import Verif.Lemmas.JsonVal

/-! # The texts of numbers and their values -/

namespace Ckube
open Spec Json

/-- The part of a number after its mantissa. -/
def expText : Option (UInt8 × Str × Str) → Str
  | none => []
  | some (c, sg, ds) => c :: (sg ++ ds)

/-- A number from its parts. -/
def numText (ip fp : Str) (ex : Option (UInt8 × Str × Str)) : Str :=
  ip ++ ((if fp = [] then [] else 46 :: fp) ++ expText ex)

def ExpOk : Option (UInt8 × Str × Str) → Prop
  | none => True
  | some (c, sg, ds) => (c = 101 ∨ c = 69) ∧ (sg = [] ∨ sg = [43] ∨ sg = [45]) ∧ ds.all isDigit = true ∧ ds ≠ []

def expVal : Option (UInt8 × Str × Str) → ℤ
  | none => 0
  | some (_, sg, ds) => if sg = [45] then -(digitsVal ds : ℤ) else digitsVal ds

structure NumOk (ip fp : Str) (ex : Option (UInt8 × Str × Str)) : Prop where
  hip : ip.all isDigit = true
  hne : ip ≠ []
  hfp : fp.all isDigit = true
  hex : ExpOk ex

theorem isDigit_ne {c d : UInt8} (h : isDigit c = true) (hd : isDigit d = false) : c ≠ d := by
  rintro rfl; rw [h] at hd; cases hd

theorem digit_head_ne {ds : Str} (h : ds.all isDigit = true) {d : UInt8} (hd : isDigit d = false) : ds.head? ≠ some d := by
  cases ds with
  | nil => simp
  | cons c r =>
    simp only [List.all_cons, Bool.and_eq_true] at h
    simpa using isDigit_ne h.1 hd

theorem expText_head {ex : Option (UInt8 × Str × Str)} (h : ExpOk ex) : expText ex = [] ∨ ∃ c r, expText ex = c :: r ∧ (c = 101 ∨ c = 69) := by
  rcases ex with _ | ⟨c, sg, ds⟩
  · exact Or.inl rfl
  · exact Or.inr ⟨c, _, rfl, h.1⟩

/-- What follows the digits of a mantissa. -/
theorem takeWhile_digits {ds rest : Str} (h : ds.all isDigit = true) (hr : ∀ c r, rest = c :: r → isDigit c = false) :
    (ds ++ rest).takeWhile isDigit = ds ∧ (ds ++ rest).dropWhile isDigit = rest := by
  have h' : ∀ a ∈ ds, isDigit a = true := by simpa using h
  rw [List.takeWhile_append_of_pos h', List.dropWhile_append_of_pos h']
  cases rest with
  | nil => simp
  | cons c r => simp [List.takeWhile, List.dropWhile, hr c r rfl]

theorem exponent_expText {c : UInt8} {sg ds : Str} (h : ExpOk (some (c, sg, ds))) : exponent (sg ++ ds) = expVal (some (c, sg, ds)) := by
  obtain ⟨_, hs, hd, hne⟩ := h
  have h1 := digit_head_ne hd (d := 45) (by decide)
  have h2 := digit_head_ne hd (d := 43) (by decide)
  unfold exponent expVal
  rcases hs with rfl | rfl | rfl
  · simp only [List.nil_append, h1, h2, if_false]; rfl
  · rfl
  · rfl

theorem fraction_eq {fp : Str} (_h : fp.all isDigit = true) : fraction fp = digitsVal fp / 10 ^ fp.length := by
  induction fp with
  | nil => simp [fraction, digitsVal]
  | cons c r ih =>
    simp only [List.all_cons, Bool.and_eq_true] at _h
    rw [fraction, ih _h.2, digitsVal_cons, List.length_cons]
    push_cast
    field_simp
    ring

/-- Value of a number from its parts. -/
theorem unsignedValue_numText {ip fp : Str} {ex : Option (UInt8 × Str × Str)} (h : NumOk ip fp ex) :
    unsignedValue (numText ip fp ex) = digitsVal (ip ++ fp) * 10 ^ (expVal ex - fp.length) := by
  have hdig : ∀ c, isDigit c = true → c ≠ 101 ∧ c ≠ 69 := fun c hc => ⟨isDigit_ne hc (by decide), isDigit_ne hc (by decide)⟩
  have hip : ∀ c ∈ ip, isDigit c = true := by simpa using h.hip
  have hfp : ∀ c ∈ fp, isDigit c = true := by simpa using h.hfp
  have hman : ∀ c ∈ ip ++ (if fp = [] then [] else 46 :: fp), (decide (c ≠ 101 ∧ c ≠ 69)) = true := by
    intro c hc
    rw [decide_eq_true_eq]
    rcases List.mem_append.mp hc with hc | hc
    · exact hdig c (hip c hc)
    · split at hc
      · cases hc
      · rcases List.mem_cons.mp hc with rfl | hc
        · decide
        · exact hdig c (hfp c hc)
  have htw : (numText ip fp ex).takeWhile (fun c => decide (c ≠ 101 ∧ c ≠ 69)) = ip ++ (if fp = [] then [] else 46 :: fp) := by
    rw [numText, ← List.append_assoc, List.takeWhile_append_of_pos hman]
    rcases expText_head h.hex with he | ⟨c, r, he, hc⟩
    · rw [he]; simp
    · rw [he, List.takeWhile_cons_of_neg, List.append_nil]
      rcases hc with rfl | rfl <;> decide
  have hdw : (numText ip fp ex).dropWhile (fun c => decide (c ≠ 101 ∧ c ≠ 69)) = expText ex := by
    rw [numText, ← List.append_assoc, List.dropWhile_append_of_pos hman]
    rcases expText_head h.hex with he | ⟨c, r, he, hc⟩
    · rw [he]; simp
    · rw [he, List.dropWhile_cons_of_neg]
      rcases hc with rfl | rfl <;> decide
  have hi46 : ∀ c ∈ ip, (decide (c ≠ 46)) = true := by
    intro c hc
    rw [decide_eq_true_eq]
    exact isDigit_ne (hip c hc) (by decide)
  have hexp : exponent ((expText ex).drop 1) = expVal ex := by
    rcases ex with _ | ⟨c, sg, ds⟩
    · rfl
    · exact exponent_expText h.hex
  have hint : (ip ++ (if fp = [] then [] else 46 :: fp)).takeWhile (fun c => decide (c ≠ 46)) = ip := by
    rw [List.takeWhile_append_of_pos hi46]
    split
    · simp
    · rw [List.takeWhile_cons_of_neg (by decide), List.append_nil]
  have hfrac : ((ip ++ (if fp = [] then [] else 46 :: fp)).dropWhile (fun c => decide (c ≠ 46))).drop 1 = fp := by
    rw [List.dropWhile_append_of_pos hi46]
    split
    · rename_i hf; rw [hf]; simp
    · rw [List.dropWhile_cons_of_neg (by decide)]; rfl
  unfold unsignedValue
  simp only
  rw [htw, hdw, hint, hfrac, hexp, fraction_eq h.hfp, digitsVal_append, zpow_sub₀ (by norm_num), zpow_natCast]
  have : whole ip = digitsVal ip := rfl
  rw [this]
  push_cast
  field_simp

theorem numText_head {ip fp : Str} {ex : Option (UInt8 × Str × Str)} (h : NumOk ip fp ex) : (numText ip fp ex).head? ≠ some 45 := by
  have := digit_head_ne h.hip (d := 45) (by decide)
  have hne := h.hne
  cases ip with
  | nil => exact absurd rfl hne
  | cons c r => simpa [numText] using this

/-- The sign before a number. -/
def signText (neg : Bool) : Str := if neg then [45] else []

theorem numberValue_text (neg : Bool) {ip fp : Str} {ex : Option (UInt8 × Str × Str)} (h : NumOk ip fp ex) :
    numberValue (signText neg ++ numText ip fp ex) = (if neg then -1 else 1) * (digitsVal (ip ++ fp) * 10 ^ (expVal ex - fp.length)) := by
  unfold numberValue
  cases neg with
  | true =>
    simp only [signText, if_true, List.cons_append, List.nil_append, List.head?_cons, List.drop_succ_cons, List.drop_zero]
    rw [unsignedValue_numText h]; ring
  | false =>
    simp only [signText, Bool.false_eq_true, if_false, List.nil_append]
    rw [if_neg (numText_head h), unsignedValue_numText h]; ring

theorem digitsVal_digitsEnd (rest : Str) : ∀ {c r}, rest = c :: r → (c = 101 ∨ c = 69 ∨ c = 46) → isDigit c = false := by
  rintro c r _ (rfl | rfl | rfl) <;> decide

theorem readDecimal_text (neg : Bool) {ip fp : Str} {ex : Option (UInt8 × Str × Str)} (h : NumOk ip fp ex) :
    readDecimal (signText neg ++ numText ip fp ex) = (neg, digitsVal (ip ++ fp), expVal ex - fp.length) := by
  have h45 := numText_head h
  have hE : ∀ c r, expText ex = c :: r → isDigit c = false := by
    intro c r hc
    rcases expText_head h.hex with he | ⟨c', r', he, hc'⟩
    · rw [he] at hc; cases hc
    · rw [he] at hc; cases hc; rcases hc' with rfl | rfl <;> decide
  have hE46 : (expText ex).head? ≠ some 46 := by
    rcases expText_head h.hex with he | ⟨c', r', he, hc'⟩
    · rw [he]; simp
    · rw [he]; rcases hc' with rfl | rfl <;> simp
  have hX : (if ((expText ex).drop 1).head? = some 45 then -((digitsVal (((expText ex).drop 1).drop 1) : ℕ) : ℤ)
      else if ((expText ex).drop 1).head? = some 43 then ((digitsVal (((expText ex).drop 1).drop 1) : ℕ) : ℤ)
      else ((digitsVal ((expText ex).drop 1) : ℕ) : ℤ)) = expVal ex := by
    rcases ex with _ | ⟨c, sg, ds⟩
    · rfl
    · exact exponent_expText h.hex
  obtain ⟨t1, t2⟩ := takeWhile_digits (rest := (if fp = [] then [] else 46 :: fp) ++ expText ex) h.hip (by
    intro c r hc
    split at hc
    · exact hE c r hc
    · cases hc; decide)
  have hs : (if (signText neg ++ numText ip fp ex).head? = some 45 then (signText neg ++ numText ip fp ex).drop 1 else signText neg ++ numText ip fp ex)
      = numText ip fp ex := by
    cases neg with
    | true => rfl
    | false => simp only [signText, Bool.false_eq_true, if_false, List.nil_append, if_neg h45]
  have hn : decide ((signText neg ++ numText ip fp ex).head? = some 45) = neg := by
    cases neg with
    | true => rfl
    | false => simp only [signText, Bool.false_eq_true, if_false, List.nil_append, h45, decide_false]
  unfold readDecimal
  simp only [hs, hn]
  rw [numText, t1, t2]
  by_cases hf : fp = []
  · simp only [hf, if_true, List.nil_append, if_neg hE46]
    rw [hX]
  · obtain ⟨u1, u2⟩ := takeWhile_digits (rest := expText ex) h.hfp hE
    simp only [hf, if_false, List.cons_append, List.head?_cons, if_true, List.drop_succ_cons, List.drop_zero, u1, u2]
    rw [hX]

theorem all_numByte {ds : Str} (h : ds.all isDigit = true) : ds.all isNumByte = true := by
  rw [List.all_eq_true] at h ⊢
  intro c hc
  unfold isNumByte
  rw [h c hc]; rfl

theorem someDigits_digits {ds rest : Str} (h : ds.all isDigit = true) (hne : ds ≠ []) (hr : ∀ c r, rest = c :: r → isDigit c = false) :
    someDigits (ds ++ rest) = some rest := by
  cases ds with
  | nil => exact absurd rfl hne
  | cons c r =>
    simp only [List.all_cons, Bool.and_eq_true] at h
    simp only [List.cons_append, someDigits, h.1, if_true]
    rw [(takeWhile_digits h.2 hr).2]

/-! The steps of `validNum`. -/

def unsign : Str → Str
  | [] => []
  | c :: r => if c = 45 then r else c :: r

def afterWhole : Str → Option Str
  | [] => none
  | c :: r => if c = 48 then some r else someDigits (c :: r)

def afterFraction : Str → Option Str
  | [] => some []
  | c :: r => if c = 46 then someDigits r else some (c :: r)

def expDigits : Str → Str
  | [] => []
  | d :: r' => if d = 43 ∨ d = 45 then r' else d :: r'

def endsWell : Str → Bool
  | [] => true
  | c :: r => if c = 101 ∨ c = 69 then decide (someDigits (expDigits r) = some []) else false

theorem validNum_eq (s : Str) : validNum s = (((afterWhole (unsign s)).bind afterFraction).map endsWell).getD false := by
  have h : ∀ u, (match afterWhole u with
      | none => false
      | some s1 => match afterFraction s1 with
        | none => false
        | some [] => true
        | some (c :: r) => if c = 101 ∨ c = 69 then decide (someDigits (expDigits r) = some []) else false)
      = (((afterWhole u).bind afterFraction).map endsWell).getD false := by
    intro u
    cases afterWhole u with
    | none => rfl
    | some s1 =>
      simp only [Option.bind_some]
      cases afterFraction s1 with
      | none => rfl
      | some t => cases t <;> rfl
  rw [← h]
  rfl

/-- A number from its parts is a JSON number if it has no needless zeros in front. -/
theorem okNum_text (neg : Bool) {ip fp : Str} {ex : Option (UInt8 × Str × Str)} (h : NumOk ip fp ex) (h0 : ip = [48] ∨ ip.head? ≠ some 48) :
    okNum (signText neg ++ numText ip fp ex) := by
  have hE : ∀ c r, expText ex = c :: r → isDigit c = false := by
    intro c r hc
    rcases expText_head h.hex with he | ⟨c', r', he, hc'⟩
    · rw [he] at hc; cases hc
    · rw [he] at hc; cases hc; rcases hc' with rfl | rfl <;> decide
  constructor
  · have hun : unsign (signText neg ++ numText ip fp ex) = numText ip fp ex := by
      have h45 := numText_head h
      generalize numText ip fp ex = t at *
      cases neg with
      | true => rfl
      | false =>
        cases t with
        | nil => rfl
        | cons c r =>
          have hc : c ≠ 45 := by simpa using h45
          simp only [signText, Bool.false_eq_true, if_false, List.nil_append, unsign, hc]
    have hI : afterWhole (numText ip fp ex) = some ((if fp = [] then [] else 46 :: fp) ++ expText ex) := by
      have hR : ∀ c r, (if fp = [] then [] else 46 :: fp) ++ expText ex = c :: r → isDigit c = false := by
        intro c r hc
        split at hc
        · exact hE c r hc
        · cases hc; decide
      rcases h0 with h0 | h0
      · rw [numText, h0]; rfl
      · have hne := h.hne
        cases hi : ip with
        | nil => exact absurd hi hne
        | cons a b =>
          have : a ≠ 48 := by rw [hi] at h0; simpa using h0
          rw [numText, List.cons_append]
          simp only [afterWhole, this, if_false]
          rw [← List.cons_append, ← hi, someDigits_digits h.hip h.hne hR]
    have hF : afterFraction ((if fp = [] then [] else 46 :: fp) ++ expText ex) = some (expText ex) := by
      by_cases hf : fp = []
      · rw [if_pos hf, List.nil_append]
        rcases expText_head h.hex with he | ⟨c, r, he, hc⟩
        · rw [he]; rfl
        · rw [he]
          simp only [afterFraction]
          rw [if_neg (by rcases hc with rfl | rfl <;> decide)]
      · rw [if_neg hf]
        simp only [List.cons_append, afterFraction, if_true]
        exact someDigits_digits h.hfp hf hE
    have hX : endsWell (expText ex) = true := by
      rcases ex with _ | ⟨x, sg, ds⟩
      · rfl
      · obtain ⟨hx, hs, hd, hdne⟩ := h.hex
        have hsd : someDigits ds = some [] := by
          have := someDigits_digits (rest := []) hd hdne (by intro c r h; cases h)
          simpa using this
        have hh1 := digit_head_ne hd (d := 43) (by decide)
        have hh2 := digit_head_ne hd (d := 45) (by decide)
        simp only [expText, endsWell, hx, if_true, decide_eq_true_eq]
        rcases hs with rfl | rfl | rfl
        · cases ds with
          | nil => exact absurd rfl hdne
          | cons a b =>
            have a1 : a ≠ 43 := by simpa using hh1
            have a2 : a ≠ 45 := by simpa using hh2
            simp only [List.nil_append, expDigits, a1, a2, or_self, if_false, hsd]
        · exact hsd
        · exact hsd
    rw [validNum_eq, hun, hI, Option.bind_some, hF, Option.map_some, Option.getD_some, hX]
  · rw [List.all_append, Bool.and_eq_true]
    constructor
    · cases neg <;> decide
    · rw [numText, List.all_append, List.all_append, Bool.and_eq_true, Bool.and_eq_true]
      refine ⟨all_numByte h.hip, ?_, ?_⟩
      · split
        · rfl
        · rw [List.all_cons, all_numByte h.hfp]; decide
      · rcases ex with _ | ⟨x, sg, ds⟩
        · rfl
        · obtain ⟨hx, hs, hd, hdne⟩ := h.hex
          simp only [expText, List.all_cons, List.all_append, all_numByte hd, Bool.and_true, Bool.and_eq_true]
          refine ⟨?_, ?_⟩
          · rcases hx with rfl | rfl <;> decide
          · rcases hs with rfl | rfl | rfl <;> decide

theorem someDigits_some {s r : Str} (h : someDigits s = some r) : ∃ ds, s = ds ++ r ∧ ds.all isDigit = true ∧ ds ≠ [] := by
  cases s with
  | nil => cases h
  | cons c t =>
    simp only [someDigits] at h
    split at h
    · rename_i hc
      cases h
      refine ⟨c :: t.takeWhile isDigit, by simp [List.takeWhile_append_dropWhile], ?_, by simp⟩
      simp [List.all_takeWhile, hc]
    · cases h

/-- The exponent of a JSON number. -/
theorem exp_parts {s : Str} (h : ∀ c r, s = c :: r → (c = 101 ∨ c = 69) ∧ someDigits (expDigits r) = some []) :
    ∃ ex, s = expText ex ∧ ExpOk ex := by
  cases s with
  | nil => exact ⟨none, rfl, trivial⟩
  | cons c r =>
    obtain ⟨hc, hd⟩ := h c r rfl
    cases r with
    | nil => cases hd
    | cons d r' =>
      simp only [expDigits] at hd
      split at hd
      · rename_i hs
        obtain ⟨ds, he, h1, h2⟩ := someDigits_some hd
        rw [List.append_nil] at he
        refine ⟨some (c, [d], ds), by rw [expText, he]; rfl, hc, ?_, h1, h2⟩
        rcases hs with rfl | rfl
        · exact Or.inr (Or.inl rfl)
        · exact Or.inr (Or.inr rfl)
      · obtain ⟨ds, he, h1, h2⟩ := someDigits_some hd
        rw [List.append_nil] at he
        exact ⟨some (c, [], ds), by rw [expText, he]; rfl, hc, Or.inl rfl, h1, h2⟩

/-- The parts of a JSON number; its whole part has no leading zero. -/
theorem okNum_parts0 {s : Str} (h : okNum s) : ∃ neg ip fp ex, s = signText neg ++ numText ip fp ex ∧ NumOk ip fp ex
    ∧ (ip = [48] ∨ ip.head? ≠ some 48) := by
  obtain ⟨neg, hu⟩ : ∃ neg, s = signText neg ++ unsign s := by
    cases s with
    | nil => exact ⟨false, rfl⟩
    | cons c r =>
      by_cases hc : c = 45
      · exact ⟨true, by rw [hc]; rfl⟩
      · exact ⟨false, by simp [unsign, hc, signText]⟩
  have hv := h.1
  rw [validNum_eq] at hv
  cases hw : afterWhole (unsign s) with
  | none => rw [hw] at hv; cases hv
  | some s1 =>
    cases hf : afterFraction s1 with
    | none => rw [hw, Option.bind_some, hf] at hv; cases hv
    | some s2 =>
      rw [hw, Option.bind_some, hf, Option.map_some, Option.getD_some] at hv
      obtain ⟨ip, hus, hip, hipne, hzero⟩ : ∃ ip, unsign s = ip ++ s1 ∧ ip.all isDigit = true ∧ ip ≠ []
          ∧ (ip = [48] ∨ ip.head? ≠ some 48) := by
        generalize unsign s = u at hw
        cases u with
        | nil => cases hw
        | cons c r =>
          simp only [afterWhole] at hw
          split at hw
          · rename_i hc
            cases hw
            exact ⟨[48], by rw [hc]; rfl, by decide, by decide, Or.inl rfl⟩
          · rename_i hc
            obtain ⟨ds, he, h1, h2⟩ := someDigits_some hw
            refine ⟨ds, he, h1, h2, Or.inr ?_⟩
            cases ds with
            | nil => exact absurd rfl h2
            | cons d ds =>
              rw [List.cons_append] at he
              obtain ⟨rfl, _⟩ := List.cons.inj he
              simpa using hc
      obtain ⟨fp, hs2, hfp⟩ : ∃ fp, s1 = (if fp = [] then [] else 46 :: fp) ++ s2 ∧ fp.all isDigit = true := by
        cases s1 with
        | nil => cases hf; exact ⟨[], rfl, rfl⟩
        | cons c r =>
          simp only [afterFraction] at hf
          split at hf
          · rename_i hc
            obtain ⟨ds, he, h1, h2⟩ := someDigits_some hf
            exact ⟨ds, by rw [if_neg h2, hc, he]; rfl, h1⟩
          · cases hf; exact ⟨[], rfl, rfl⟩
      obtain ⟨ex, he, hex⟩ := exp_parts (s := s2) (by
        rintro c r rfl
        simp only [endsWell] at hv
        split at hv
        · rename_i hc
          exact ⟨hc, by simpa using hv⟩
        · cases hv)
      exact ⟨neg, ip, fp, ex, by rw [hu, hus, hs2, he]; rfl, ⟨hip, hipne, hfp, hex⟩, hzero⟩

/-- The parts of a JSON number. -/
theorem okNum_parts {s : Str} (h : okNum s) : ∃ neg ip fp ex, s = signText neg ++ numText ip fp ex ∧ NumOk ip fp ex := by
  obtain ⟨neg, ip, fp, ex, h1, h2, _⟩ := okNum_parts0 h
  exact ⟨neg, ip, fp, ex, h1, h2⟩

end Ckube

import Verif.Lemmas.Lex
import Verif.Lemmas.Kube

/-! # Parsing printed selectors -/

namespace Ckube

/-! ## `setList` depends only on the set -/

theorem mem_setList {x : Str} {vs : List Str} : x ∈ setList vs ↔ x ∈ vs := by
  simp [setList, mem_sortBy, mem_dedup]

theorem setList_congr {a b : List Str} (h : ∀ x, x ∈ a ↔ x ∈ b) : setList a = setList b := by
  unfold setList
  apply sortBy_strLe_eq_of_perm
  rw [List.perm_ext_iff_of_nodup (dedup_nodup a) (dedup_nodup b)]
  intro x
  rw [mem_dedup, mem_dedup, h]

theorem setList_sorted (vs : List Str) : (setList vs).Pairwise (fun x y => strLe x y = true) :=
  sortBy_sorted strLe_total strLe_trans _

theorem setList_nodup (vs : List Str) : (setList vs).Nodup :=
  (sortBy_perm strLe _).nodup_iff.mpr (dedup_nodup vs)

theorem setList_of_sorted {vs : List Str} (h : vs.Pairwise (fun x y => strLe x y = true))
    (hn : vs.Nodup) : setList vs = vs := by
  unfold setList
  rw [dedup_of_nodup _ hn, sortBy_of_sorted _ h]

theorem setList_idem (vs : List Str) : setList (setList vs) = setList vs :=
  setList_of_sorted (setList_sorted vs) (setList_nodup vs)

theorem setList_ne_nil {vs : List Str} (h : vs ≠ []) : setList vs ≠ [] := by
  obtain ⟨a, l, rfl⟩ := List.exists_cons_of_ne_nil h
  intro he
  have := mem_setList (x := a) (vs := a :: l)
  rw [he] at this
  simp at this

/-! ## Values in parentheses -/

def commaItem : Item := ⟨.comma, [44]⟩
def openItem : Item := ⟨.openPar, [40]⟩
def closeItem : Item := ⟨.closePar, [41]⟩

/-- Items of a value: none for the empty value. -/
def valItems (v : Str) : List Item := if v = [] then [] else [wordItem v]

/-- Items of comma-separated values. -/
def valsItems : List Str → List Item
  | [] => []
  | [v] => valItems v
  | v :: w :: vs => valItems v ++ commaItem :: valsItems (w :: vs)

theorem sep_symbol {c : UInt8} {t : Str} (h : isSpecial c = true) (h0 : c ≠ 0) : Sep (c :: t) := by
  intro d r hd
  cases hd
  exact ⟨h0, by simp [h]⟩

theorem lexesTo_val {v t : Str} {is : List Item} (hv : validLabelValue v = true) (ht : Sep t)
    (h : LexesTo t is) : LexesTo (v ++ t) (valItems v ++ is) := by
  unfold valItems
  split
  · rename_i h0; subst h0; simpa using h
  · rename_i h0
    exact lexesTo_word (word_of_value hv h0) ht h

theorem head_of_val {v t : Str} {c : UInt8} (hv : validLabelValue v = true) (ht : t.head? ≠ some c)
    (hc : isWordChar c = false) : (v ++ t).head? ≠ some c := by
  cases v with
  | nil => simpa using ht
  | cons d v =>
    intro h
    simp only [List.cons_append, List.head?_cons, Option.some.injEq] at h
    have := value_chars hv d (by simp)
    rw [h, hc] at this; simp at this

theorem lexesTo_vals : ∀ (vs : List Str) {t : Str} {is : List Item},
    (∀ v ∈ vs, validLabelValue v = true) → Sep t → t.head? ≠ some 61 → LexesTo t is →
    LexesTo (join [44] vs ++ t) (valsItems vs ++ is)
  | [], t, is, _, _, _, h => by simpa [join, valsItems] using h
  | [v], t, is, hv, ht, _, h => by
    simpa [join, valsItems] using lexesTo_val (hv v (by simp)) ht h
  | v :: w :: vs, t, is, hv, ht, ht1, h => by
    have ih := lexesTo_vals (w :: vs) (fun x hx => hv x (by simp at hx ⊢; tauto)) ht ht1 h
    have hsep0 : t.head? ≠ some 0 := by
      cases t with
      | nil => simp
      | cons c r => have := ht c r rfl; simp [this.1]
    have hw : validLabelValue w = true := hv w (by simp)
    have hhead : ∀ c, isWordChar c = false → t.head? ≠ some c → c ≠ 44 →
        (join [44] (w :: vs) ++ t).head? ≠ some c := by
      intro c hc htc hne
      cases vs with
      | nil => simpa [join] using head_of_val hw htc hc
      | cons x vs =>
        simp only [join, List.append_assoc]
        exact head_of_val hw (by simp [Ne.symm hne]) hc
    have hcomma := lexesTo_symbol (u := [44]) (k := .comma) (by decide) rfl
      (hhead 61 (by decide) ht1 (by decide)) (hhead 0 (by decide) hsep0 (by decide)) ih
    have := lexesTo_val (hv v (by simp)) (sep_symbol (by decide) (by decide)) hcomma
    simpa [join, valsItems, commaItem] using this

theorem ahead_cons (i : Item) (r : List Item) : ahead (i :: r) = valTok i.tok := rfl

/-- Non-empty values followed by `)`. -/
theorem pIdents_words : ∀ (vs : List Str), vs ≠ [] → (∀ v ∈ vs, Word v) → ∀ f acc rest,
    2 * vs.length ≤ f → ∃ acc', pIdents f acc (valsItems vs ++ closeItem :: rest)
      = some (acc', closeItem :: rest) ∧ ∀ x, x ∈ acc' ↔ x ∈ acc ∨ x ∈ vs
  | [], h, _, _, _, _, _ => by simp at h
  | [v], _, hv, f, acc, rest, hf => by
    obtain ⟨f, rfl⟩ : ∃ g, f = g + 1 := ⟨f - 1, by simp at hf; omega⟩
    have hw := hv v (by simp)
    refine ⟨v :: acc, ?_, fun x => by simp [or_comm]⟩
    simp only [valsItems, valItems, hw.1, if_false, List.singleton_append]
    rw [pIdents, valTok_wordItem hw, ahead_cons]
    rfl
  | v :: w :: vs, _, hv, f, acc, rest, hf => by
    obtain ⟨f, rfl⟩ : ∃ g, f = g + 2 := ⟨f - 2, by simp at hf; omega⟩
    have hw := hv v (by simp)
    have hw2 := hv w (by simp)
    obtain ⟨acc', h1, h2⟩ := pIdents_words (w :: vs) (by simp) (fun x hx => hv x (by simp at hx ⊢; tauto))
      f (v :: acc) rest (by simp at hf ⊢; omega)
    refine ⟨acc', ?_, fun x => by rw [h2]; simp; tauto⟩
    simp only [valsItems, valItems, hw.1, if_false, List.nil_append, List.cons_append]
    rw [pIdents, valTok_wordItem hw, ahead_cons]
    have ha : ahead (valsItems (w :: vs) ++ closeItem :: rest) = .ident := by
      cases vs with
      | nil => simp only [valsItems, valItems, hw2.1, if_false, List.singleton_append, ahead_cons, valTok_wordItem hw2]
      | cons x vs =>
        simp only [valsItems, valItems, hw2.1, if_false, List.cons_append, ahead_cons, valTok_wordItem hw2]
    show pIdents (f + 1) (v :: acc) (commaItem :: (valsItems (w :: vs) ++ closeItem :: rest)) = _
    rw [pIdents]
    simp only [show valTok commaItem.tok = .comma from rfl, ha]
    exact h1

theorem valsItems_words_head {vs : List Str} (hne : vs ≠ []) (h : ∀ v ∈ vs, Word v) (t : List Item) :
    ahead (valsItems vs ++ t) = .ident := by
  obtain ⟨w, vs, rfl⟩ := List.exists_cons_of_ne_nil hne
  have hw2 := h w (by simp)
  cases vs with
  | nil => simp only [valsItems, valItems, hw2.1, if_false, List.singleton_append, ahead_cons, valTok_wordItem hw2]
  | cons x vs =>
    simp only [valsItems, valItems, hw2.1, if_false, List.cons_append, ahead_cons, valTok_wordItem hw2]

/-- Leading empty values (commas), then non-empty values, then `)`. -/
theorem pIdents_commas {vs : List Str} (hne : vs ≠ []) (hv : ∀ v ∈ vs, Word v) (rest : List Item) :
    ∀ (k f : Nat) (acc : List Str), k + 2 * vs.length ≤ f → (acc = [] ∨ [] ∈ acc) →
    ∃ acc', pIdents f acc (List.replicate k commaItem ++ (valsItems vs ++ closeItem :: rest))
      = some (acc', closeItem :: rest) ∧ ∀ x, x ∈ acc' ↔ x ∈ acc ∨ x ∈ vs ∨ (0 < k ∧ x = [])
  | 0, f, acc, hf, _ => by
    obtain ⟨acc', h1, h2⟩ := pIdents_words vs hne hv f acc rest (by omega)
    exact ⟨acc', by simpa using h1, fun x => by rw [h2]; simp⟩
  | 1, f, acc, hf, hacc => by
    obtain ⟨f, rfl⟩ : ∃ g, f = g + 1 := ⟨f - 1, by omega⟩
    obtain ⟨acc', h1, h2⟩ := pIdents_words vs hne hv f (if acc.isEmpty then [[]] else acc) rest (by omega)
    refine ⟨acc', ?_, ?_⟩
    · simp only [List.replicate_one, List.singleton_append]
      rw [pIdents]
      simp only [show valTok commaItem.tok = .comma from rfl, valsItems_words_head hne hv]
      exact h1
    · intro x
      rw [h2]
      rcases hacc with rfl | hacc
      · simp; tauto
      · have : acc.isEmpty = false := by cases acc <;> simp_all
        simp only [this, Bool.false_eq_true, if_false]
        constructor
        · tauto
        · rintro (h | h | ⟨_, rfl⟩)
          · exact Or.inl h
          · exact Or.inr h
          · exact Or.inl hacc
  | k + 2, f, acc, hf, hacc => by
    obtain ⟨f, rfl⟩ : ∃ g, f = g + 1 := ⟨f - 1, by omega⟩
    obtain ⟨acc', h1, h2⟩ := pIdents_commas hne hv rest k f ([] :: (if acc.isEmpty then [[]] else acc))
      (by omega) (Or.inr (by simp))
    refine ⟨acc', ?_, ?_⟩
    · simp only [List.replicate_succ, List.cons_append]
      rw [pIdents]
      simp only [show valTok commaItem.tok = .comma from rfl, ahead_cons, List.tail_cons]
      exact h1
    · intro x
      rw [h2]
      rcases hacc with rfl | hacc
      · simp; tauto
      · have : acc.isEmpty = false := by cases acc <;> simp_all
        simp only [this, Bool.false_eq_true, if_false]
        simp; tauto

/-- A sorted list of values has its empty ones first. -/
theorem sorted_empties : ∀ (vs : List Str), vs.Pairwise (fun x y => strLe x y = true) →
    ∃ k ws, vs = List.replicate k [] ++ ws ∧ (∀ w ∈ ws, w ≠ [])
  | [], _ => ⟨0, [], by simp⟩
  | v :: vs, h => by
    rw [List.pairwise_cons] at h
    obtain ⟨k, ws, h1, h2⟩ := sorted_empties vs h.2
    by_cases hv : v = []
    · subst hv
      exact ⟨k + 1, ws, by rw [h1]; rfl, h2⟩
    · refine ⟨0, v :: vs, by simp, ?_⟩
      intro w hw
      rcases List.mem_cons.mp hw with rfl | hw
      · exact hv
      · rintro rfl
        have := h.1 _ hw
        obtain ⟨c, r, rfl⟩ := List.exists_cons_of_ne_nil hv
        simp [strLe] at this

theorem valsItems_empties {ws : List Str} (hne : ws ≠ []) : ∀ k,
    valsItems (List.replicate k [] ++ ws) = List.replicate k commaItem ++ valsItems ws
  | 0 => by simp
  | k + 1 => by
    rw [List.replicate_succ, List.cons_append]
    have : List.replicate k [] ++ ws ≠ [] := by simp [hne]
    obtain ⟨a, l, hal⟩ := List.exists_cons_of_ne_nil this
    rw [hal, valsItems, ← hal, valsItems_empties hne k]
    simp [valItems, List.replicate_succ]

theorem valsItems_length : ∀ vs : List Str, (valsItems vs).length ≤ 2 * vs.length
  | [] => by simp [valsItems]
  | [v] => by simp only [valsItems, valItems]; split <;> simp
  | v :: w :: vs => by
    have := valsItems_length (w :: vs)
    simp only [valsItems, valItems, List.length_append, List.length_cons] at this ⊢
    split <;> simp <;> omega

theorem valsItems_words_length : ∀ vs : List Str, vs ≠ [] → (∀ v ∈ vs, v ≠ []) →
    (valsItems vs).length + 1 = 2 * vs.length
  | [], h, _ => by simp at h
  | [v], _, h => by simp [valsItems, valItems, h v (by simp)]
  | v :: w :: vs, _, h => by
    have := valsItems_words_length (w :: vs) (by simp) (fun x hx => h x (by simp at hx ⊢; tauto))
    simp only [valsItems, valItems, h v (by simp), if_false, List.length_append, List.length_cons,
      List.length_nil] at this ⊢
    omega

/-- Sorted values with at least one non-empty value are read back as a set. -/
theorem pValues_sorted {vs : List Str} (hs : vs.Pairwise (fun x y => strLe x y = true))
    (hv : ∀ v ∈ vs, validLabelValue v = true) (hne : ∃ v ∈ vs, v ≠ []) (rest : List Item) :
    pValues (openItem :: (valsItems vs ++ closeItem :: rest)) = some (setList vs, rest) := by
  obtain ⟨k, ws, rfl, hw⟩ := sorted_empties vs hs
  have hwne : ws ≠ [] := by
    rintro rfl
    obtain ⟨v, hv1, hv2⟩ := hne
    simp at hv1
    exact hv2 hv1.2
  have hww : ∀ w ∈ ws, Word w := fun w hw' => word_of_value (hv w (by simp [hw'])) (hw w hw')
  rw [valsItems_empties hwne, List.append_assoc]
  have hlen := valsItems_words_length ws hwne hw
  obtain ⟨acc', h1, h2⟩ := pIdents_commas hwne hww rest k
    ((List.replicate k commaItem ++ (valsItems ws ++ closeItem :: rest)).length + 1) []
    (by simp only [List.length_append, List.length_replicate, List.length_cons]; omega) (Or.inl rfl)
  have hset : setList acc' = setList (List.replicate k [] ++ ws) := by
    apply setList_congr
    intro x
    rw [h2]
    simp only [List.not_mem_nil, false_or, List.mem_append, List.mem_replicate]
    constructor
    · rintro (h | ⟨h, rfl⟩)
      · exact Or.inr h
      · exact Or.inl ⟨by omega, rfl⟩
    · rintro (⟨h, rfl⟩ | h)
      · exact Or.inr ⟨by omega, rfl⟩
      · exact Or.inl h
  have hahead : ahead (List.replicate k commaItem ++ (valsItems ws ++ closeItem :: rest)) = .ident
      ∨ ahead (List.replicate k commaItem ++ (valsItems ws ++ closeItem :: rest)) = .comma := by
    cases k with
    | zero => left; simpa using valsItems_words_head hwne hww _
    | succ k => right; rfl
  unfold pValues
  simp only [show ¬ (valTok openItem.tok ≠ LTok.openPar) by decide, if_false]
  rcases hahead with h | h <;>
  · simp only [h, h1]
    rw [if_pos (by decide), hset]

theorem replicate_comma_ahead (k : Nat) (rest : List Item) : ahead (List.replicate (k + 1) commaItem ++ rest) = .comma := rfl

/-- Only commas: an odd number of them is read as empty values, an even number not at all. -/
theorem pIdents_only (rest : List Item) : ∀ (k f : Nat) (acc : List Str), k + 1 ≤ f → (∀ x ∈ acc, x = []) →
    (k % 2 = 0 → pIdents f acc (List.replicate k commaItem ++ closeItem :: rest) = none)
    ∧ (k % 2 = 1 → ∃ acc', pIdents f acc (List.replicate k commaItem ++ closeItem :: rest) = some (acc', closeItem :: rest)
        ∧ [] ∈ acc' ∧ ∀ x ∈ acc', x = [])
  | 0, f, acc, hf, _ => by
    obtain ⟨f, rfl⟩ : ∃ g, f = g + 1 := ⟨f - 1, by omega⟩
    exact ⟨fun _ => rfl, fun h => by omega⟩
  | 1, f, acc, hf, hacc => by
    obtain ⟨f, rfl⟩ : ∃ g, f = g + 1 := ⟨f - 1, by omega⟩
    refine ⟨fun h => by omega, fun _ => ⟨[] :: (if acc.isEmpty then [[]] else acc), rfl, by simp, ?_⟩⟩
    intro x hx
    rcases List.mem_cons.mp hx with rfl | hx
    · rfl
    · split at hx
      · simpa using hx
      · exact hacc x hx
  | k + 2, f, acc, hf, hacc => by
    obtain ⟨f, rfl⟩ : ∃ g, f = g + 1 := ⟨f - 1, by omega⟩
    have ih := pIdents_only rest k f ([] :: (if acc.isEmpty then [[]] else acc)) (by omega) (by
      intro x hx
      rcases List.mem_cons.mp hx with rfl | hx
      · rfl
      · split at hx
        · simpa using hx
        · exact hacc x hx)
    have he : pIdents (f + 1) acc (List.replicate (k + 2) commaItem ++ closeItem :: rest)
        = pIdents f ([] :: (if acc.isEmpty then [[]] else acc)) (List.replicate k commaItem ++ closeItem :: rest) := by
      simp only [List.replicate_succ, List.cons_append]
      rw [pIdents]
      simp only [show valTok commaItem.tok = .comma from rfl, ahead_cons, List.tail_cons]
    rw [he]
    exact ⟨fun h => ih.1 (by omega), fun h => ih.2 (by omega)⟩

theorem valsItems_only : ∀ k, valsItems (List.replicate (k + 1) []) = List.replicate k commaItem
  | 0 => rfl
  | k + 1 => by
    have := valsItems_only k
    rw [List.replicate_succ] at this
    rw [List.replicate_succ, List.replicate_succ, valsItems, this]
    rfl

/-- Empty values only: an even number of them is read back. -/
theorem pValues_even (k : Nat) (h : k % 2 = 1) (rest : List Item) :
    pValues (openItem :: (valsItems (List.replicate (k + 1) []) ++ closeItem :: rest)) = some (setList (List.replicate (k + 1) []), rest) := by
  rw [valsItems_only]
  obtain ⟨acc', h1, h2, h3⟩ := (pIdents_only rest k ((List.replicate k commaItem ++ closeItem :: rest).length + 1) []
    (by simp) (by simp)).2 h
  have hset : setList acc' = setList (List.replicate (k + 1) []) := by
    apply setList_congr
    intro x
    rw [List.mem_replicate]
    exact ⟨fun hx => ⟨by omega, h3 x hx⟩, fun hx => hx.2 ▸ h2⟩
  have hahead : ahead (List.replicate k commaItem ++ closeItem :: rest) = .comma := by
    cases k with
    | zero => omega
    | succ k => rfl
  unfold pValues
  simp only [show ¬ (valTok openItem.tok ≠ LTok.openPar) by decide, if_false, hahead, h1]
  rw [if_pos (by decide), hset]

/-- Empty values only, an odd number of them: no requirement. -/
theorem pValues_odd (k : Nat) (h : k % 2 = 0) (rest : List Item) :
    pValues (openItem :: (valsItems (List.replicate (k + 1) []) ++ closeItem :: rest)) = none
    ∨ pValues (openItem :: (valsItems (List.replicate (k + 1) []) ++ closeItem :: rest)) = some ([], rest) := by
  rw [valsItems_only]
  cases k with
  | zero => right; rfl
  | succ k =>
    left
    have h1 := (pIdents_only rest (k + 1) ((List.replicate (k + 1) commaItem ++ closeItem :: rest).length + 1) []
      (by simp) (by simp)).1 h
    unfold pValues
    simp only [show ¬ (valTok openItem.tok ≠ LTok.openPar) by decide, if_false, replicate_comma_ahead, h1]

/-! ## Requirements -/

/-- A requirement that `NewRequirement` accepts. -/
def Req.Valid (r : Req) : Prop := newReq r.key r.op r.vals = some r

/-- `in`/`notin` with at least one non-empty value, or an even number of values. -/
def Req.Printable (r : Req) : Prop := (r.op = .isIn ∨ r.op = .notIn) → (∃ v ∈ r.vals, v ≠ []) ∨ r.vals.length % 2 = 0

/-- What parsing makes of a printed requirement: the values of `in`/`notin` become a sorted set. -/
def Req.norm (r : Req) : Req :=
  if r.op = .isIn ∨ r.op = .notIn then { r with vals := setList r.vals } else r

theorem newReq_eq_some {k : Str} {op : Op} {vs : List Str} {r : Req} (h : newReq k op vs = some r) :
    r = ⟨k, op, vs⟩ ∧ validLabelKey k = true ∧ (∀ v ∈ vs, validLabelValue v = true) := by
  unfold newReq at h
  split at h
  · rename_i hok
    simp only [Bool.and_eq_true, List.all_eq_true] at hok
    simp only [Option.some.injEq] at h
    exact ⟨h.symm, hok.1.1, hok.2⟩
  · simp at h

theorem newReq_valid {k : Str} {op : Op} {vs : List Str} {r : Req} (h : newReq k op vs = some r) :
    r.Valid := by
  have := (newReq_eq_some h).1
  subst this
  exact h

theorem Req.Valid.key {r : Req} (h : r.Valid) : validLabelKey r.key = true := (newReq_eq_some h).2.1
theorem Req.Valid.vals {r : Req} (h : r.Valid) : ∀ v ∈ r.vals, validLabelValue v = true :=
  (newReq_eq_some h).2.2

/-- Number of values of a valid requirement. -/
theorem Req.Valid.count {r : Req} (h : r.Valid) : match r.op with
    | .isIn | .notIn => r.vals ≠ []
    | .eq | .deq | .neq | .gt | .lt => ∃ v, r.vals = [v]
    | .exist | .notExist => r.vals = [] := by
  have hok : okVals r.op r.vals = true := by
    unfold Req.Valid newReq at h
    split at h
    · rename_i hok
      simp only [Bool.and_eq_true] at hok
      exact hok.1.2
    · simp at h
  unfold okVals at hok
  obtain ⟨key, op, vals⟩ := r
  cases op <;> simp_all [List.length_eq_one_iff]

theorem norm_valid {r : Req} (h : r.Valid) : r.norm.Valid := by
  unfold Req.norm
  split
  · rename_i hop
    have hc := h.count
    have hk := h.key
    have hv := h.vals
    have hne : r.vals ≠ [] := by rcases hop with h' | h' <;> simpa [h'] using hc
    have hne' := setList_ne_nil hne
    have hall : (setList r.vals).all validLabelValue = true := by
      rw [List.all_eq_true]
      intro v hvm
      exact hv v (mem_setList.mp hvm)
    unfold Req.Valid newReq
    rcases hop with h' | h' <;> simp only [h', hk, hall, okVals] <;> simp [hne']
  · exact h

/-- Matching is not changed by normalisation. -/
theorem norm_matches (r : Req) (m : List (Str × Str)) : r.norm.matches m = r.matches m := by
  unfold Req.norm
  split
  · rename_i hop
    have hc : ∀ v, (setList r.vals).contains v = r.vals.contains v := by
      intro v
      rw [Bool.eq_iff_iff, List.contains_iff_mem, List.contains_iff_mem, mem_setList]
    rcases hop with h' | h' <;> simp only [Req.matches, h', hc]
  · rfl

theorem norm_key (r : Req) : r.norm.key = r.key := by unfold Req.norm; split <;> rfl

/-- The values as printed. -/
def Req.printVals (r : Req) : List Str := if r.vals.length = 1 then r.vals else sortBy strLe r.vals

theorem printVals_perm (r : Req) : r.printVals.Perm r.vals := by
  unfold Req.printVals
  split
  · exact List.Perm.refl _
  · exact sortBy_perm _ _

theorem printVals_sorted (r : Req) : r.printVals.Pairwise (fun x y => strLe x y = true) := by
  unfold Req.printVals
  split
  · rename_i h
    obtain ⟨v, hv⟩ := List.length_eq_one_iff.mp h
    simp [hv]
  · exact sortBy_sorted strLe_total strLe_trans _

theorem printVals_text (r : Req) : r.valsText = join [44] r.printVals := by
  unfold Req.printVals Req.valsText
  split
  · rename_i v hv
    simp [hv, join]
  · rename_i hv
    rw [if_neg]
    intro h
    obtain ⟨v, hv'⟩ := List.length_eq_one_iff.mp h
    exact hv v hv'

/-- Items of a printed requirement. -/
def Req.items (r : Req) : List Item :=
  match r.op with
  | .notExist => [⟨.bang, [33]⟩, wordItem r.key]
  | .exist => [wordItem r.key]
  | .eq => wordItem r.key :: ⟨.eq, [61]⟩ :: valsItems r.printVals
  | .deq => wordItem r.key :: ⟨.deq, [61, 61]⟩ :: valsItems r.printVals
  | .neq => wordItem r.key :: ⟨.neq, [33, 61]⟩ :: valsItems r.printVals
  | .gt => wordItem r.key :: ⟨.gt, [62]⟩ :: valsItems r.printVals
  | .lt => wordItem r.key :: ⟨.lt, [60]⟩ :: valsItems r.printVals
  | .isIn => wordItem r.key :: wordItem (lit "in") :: openItem :: (valsItems r.printVals ++ [closeItem])
  | .notIn => wordItem r.key :: wordItem (lit "notin") :: openItem :: (valsItems r.printVals ++ [closeItem])

theorem head_join_vals : ∀ (vs : List Str) {t : Str} {c : UInt8},
    (∀ v ∈ vs, validLabelValue v = true) → isWordChar c = false → c ≠ 44 → t.head? ≠ some c →
    (join [44] vs ++ t).head? ≠ some c
  | [], t, c, _, _, _, h => by simpa [join] using h
  | [v], t, c, hv, hc, _, h => by simpa [join] using head_of_val (hv v (by simp)) h hc
  | v :: w :: vs, t, c, hv, hc, hne, h => by
    simp only [join, List.append_assoc]
    exact head_of_val (hv v (by simp)) (by simp [Ne.symm hne]) hc

/-- What follows a requirement in a printed selector: the end or a comma. -/
def After (t : Str) : Prop := t = [] ∨ ∃ r, t = 44 :: r

theorem After.sep {t : Str} (h : After t) : Sep t := by
  rcases h with rfl | ⟨r, rfl⟩
  · intro c r h; simp at h
  · exact sep_symbol (by decide) (by decide)

theorem After.head {t : Str} (h : After t) {c : UInt8} (hc : c ≠ 44) : t.head? ≠ some c := by
  rcases h with rfl | ⟨r, rfl⟩
  · simp
  · simp [Ne.symm hc]

theorem key_head {k t : Str} (hk : Word k) {c : UInt8} (hc : isWordChar c = false) :
    (k ++ t).head? ≠ some c := by
  obtain ⟨d, r, rfl⟩ := List.exists_cons_of_ne_nil hk.1
  intro h
  simp only [List.cons_append, List.head?_cons, Option.some.injEq] at h
  have := hk.2 d (by simp)
  rw [h, hc] at this; simp at this

theorem lexesTo_op {r : Req} (hr : r.Valid) {u t : Str} {k : LTok} {is : List Item} (hu : u ∈ symbols)
    (hk : tokenOf u = some k) (hsp : isSpecial (u.headD 0) = true) (ht : After t) (h : LexesTo t is) :
    LexesTo (r.key ++ u ++ join [44] r.printVals ++ t)
      (wordItem r.key :: ⟨k, u⟩ :: (valsItems r.printVals ++ is)) := by
  have hv : ∀ v ∈ r.printVals, validLabelValue v = true :=
    fun v hvm => hr.vals v ((printVals_perm r).mem_iff.mp hvm)
  have h1 := lexesTo_vals r.printVals hv ht.sep (ht.head (by decide)) h
  have h2 := lexesTo_symbol hu hk (head_join_vals _ hv (by decide) (by decide) (ht.head (by decide)))
    (head_join_vals _ hv (by decide) (by decide) (ht.head (by decide))) h1
  have h3 := lexesTo_word (w := r.key) (word_of_key hr.key) (by
    intro c q hc
    cases u with
    | nil => simp [symbols] at hu
    | cons d u =>
      simp only [List.cons_append, List.cons.injEq] at hc
      rw [← hc.1]
      simp only [List.headD_cons] at hsp
      refine ⟨?_, by simp [hsp]⟩
      rintro rfl
      exact absurd hsp (by decide)) h2
  simpa [List.append_assoc] using h3

theorem word_in : Word (lit "in") := ⟨by decide, by decide⟩
theorem word_notin : Word (lit "notin") := ⟨by decide, by decide⟩

theorem lexesTo_list {r : Req} (hr : r.Valid) {w t : Str} {is : List Item} (hw : Word w)
    (ht : After t) (h : LexesTo t is) :
    LexesTo (r.key ++ ([32] ++ w ++ [32, 40]) ++ join [44] r.printVals ++ [41] ++ t)
      (wordItem r.key :: wordItem w :: openItem :: (valsItems r.printVals ++ closeItem :: is)) := by
  have hv : ∀ v ∈ r.printVals, validLabelValue v = true :=
    fun v hvm => hr.vals v ((printVals_perm r).mem_iff.mp hvm)
  have h0 := lexesTo_symbol (u := [41]) (k := .closePar) (by decide) rfl (ht.head (by decide))
    (ht.head (by decide)) h
  have h1 := lexesTo_vals r.printVals hv (sep_symbol (c := 41) (by decide) (by decide)) (by simp) h0
  have h2 := lexesTo_symbol (u := [40]) (k := .openPar) (by decide) rfl
    (head_join_vals _ hv (by decide) (by decide) (by simp))
    (head_join_vals _ hv (by decide) (by decide) (by simp)) h1
  have hsp : ∀ x : Str, Sep (32 :: x) := by
    intro x c q hc
    cases hc
    exact ⟨by decide, by decide⟩
  have h3 := lexesTo_space (lexesTo_word hw (hsp _) (lexesTo_space h2))
  have h4 := lexesTo_word (w := r.key) (word_of_key hr.key) (hsp _) h3
  simpa [List.append_assoc, openItem, closeItem] using h4

/-- A printed requirement is lexed to its items. -/
theorem lexesTo_req {r : Req} (hr : r.Valid) {t : Str} {is : List Item} (ht : After t)
    (h : LexesTo t is) : LexesTo (r.toStr ++ t) (r.items ++ is) := by
  unfold Req.toStr Req.items
  have hp := printVals_text r
  rw [hp]
  have hw := word_of_key hr.key
  cases hop : r.op <;> dsimp only
  · have := lexesTo_list hr word_in ht h
    simpa [List.append_assoc, lit] using this
  · have := lexesTo_list hr word_notin ht h
    simpa [List.append_assoc, lit] using this
  · simpa using lexesTo_op hr (u := [61]) (k := .eq) (by decide) rfl (by decide) ht h
  · simpa using lexesTo_op hr (u := [61, 61]) (k := .deq) (by decide) rfl (by decide) ht h
  · simpa using lexesTo_op hr (u := [33, 61]) (k := .neq) (by decide) rfl (by decide) ht h
  · simpa using lexesTo_word hw ht.sep h
  · have h1 := lexesTo_word hw ht.sep h
    have := lexesTo_symbol (u := [33]) (k := .bang) (by decide) rfl (key_head hw (by decide))
      (key_head hw (by decide)) h1
    simpa using this
  · simpa using lexesTo_op hr (u := [62]) (k := .gt) (by decide) rfl (by decide) ht h
  · simpa using lexesTo_op hr (u := [60]) (k := .lt) (by decide) rfl (by decide) ht h

/-- Items that may follow a requirement. -/
def AfterItems (is : List Item) : Prop := ∃ i r, is = i :: r ∧ (i = eosItem ∨ i = commaItem)

theorem AfterItems.ahead {is : List Item} (h : AfterItems is) : ahead is = .eos ∨ ahead is = .comma := by
  obtain ⟨i, r, rfl, h | h⟩ := h
  · left; rw [h]; rfl
  · right; rw [h]; rfl

theorem pExact_single {v : Str} (hv : validLabelValue v = true) {is : List Item} (h : AfterItems is) :
    pExact (valsItems [v] ++ is) = some ([v], is) := by
  simp only [valsItems, valItems]
  split
  · rename_i h0
    subst h0
    unfold pExact
    rcases h.ahead with h' | h' <;> simp [h']
  · rename_i h0
    have hw := word_of_value hv h0
    unfold pExact
    simp only [List.singleton_append, ahead_cons, valTok_wordItem hw]
    rfl

theorem printVals_single {r : Req} {v : Str} (h : r.vals = [v]) : r.printVals = [v] := by
  simp [Req.printVals, h]

theorem setList_printVals (r : Req) : setList r.printVals = setList r.vals :=
  setList_congr (fun _ => (printVals_perm r).mem_iff)

theorem pReqBody_op {r : Req} (hr : r.Valid) {u : Str} {k : LTok} {is : List Item}
    (hk : pOperator k = some r.op) (hkv : valTok k ≠ .eos ∧ valTok k ≠ .comma)
    (hop : ¬ (r.op = .isIn ∨ r.op = .notIn)) (hone : ∃ v, r.vals = [v]) (h : AfterItems is) :
    pReqBody false (wordItem r.key :: ⟨k, u⟩ :: (valsItems r.printVals ++ is)) = some (r, is) := by
  have hw := word_of_key hr.key
  obtain ⟨v, hv⟩ := hone
  have hval : validLabelValue v = true := hr.vals v (by simp [hv])
  rw [printVals_single hv]
  unfold pReqBody
  simp only [valTok_wordItem hw, ne_eq, not_true_eq_false, if_false, ahead_cons,
    show (wordItem r.key).text = r.key from rfl, hr.key, Bool.not_true, Bool.false_eq_true, hkv.1, hkv.2, or_self,
    hk, hop, pExact_single hval h]
  have : newReq r.key r.op [v] = some r := by rw [← hv]; exact hr
  rw [this]; rfl

theorem pReqBody_list {r : Req} (hr : r.Valid) (hp : r.Printable) {w : Str} {is : List Item}
    (hk : pOperator (wordItem w).tok = some r.op) (hww : valTok (wordItem w).tok = .ident)
    (hop : r.op = .isIn ∨ r.op = .notIn) :
    pReqBody false (wordItem r.key :: wordItem w :: openItem ::
      (valsItems r.printVals ++ closeItem :: is)) = some (r.norm, is) := by
  have hw := word_of_key hr.key
  have hv : ∀ v ∈ r.printVals, validLabelValue v = true :=
    fun v hvm => hr.vals v ((printVals_perm r).mem_iff.mp hvm)
  have hpv : pValues (openItem :: (valsItems r.printVals ++ closeItem :: is)) = some (setList r.printVals, is) := by
    by_cases hex : ∃ v ∈ r.vals, v ≠ []
    · obtain ⟨v, hv1, hv2⟩ := hex
      exact pValues_sorted (printVals_sorted r) hv ⟨v, (printVals_perm r).mem_iff.mpr hv1, hv2⟩ is
    · have hev := (hp hop).resolve_left hex
      rw [← (printVals_perm r).length_eq] at hev
      have hne : r.printVals ≠ [] := by
        have hc := hr.count
        have : r.vals ≠ [] := by rcases hop with h' | h' <;> simpa [h'] using hc
        intro h0
        have := (printVals_perm r).length_eq
        rw [h0] at this
        exact absurd (List.length_eq_zero_iff.mp this.symm) (by assumption)
      obtain ⟨k, hk⟩ : ∃ k, r.printVals.length = k + 1 := ⟨r.printVals.length - 1, by
        have := List.length_pos_iff.mpr hne
        omega⟩
      have : r.printVals = List.replicate (k + 1) [] := by
        rw [← hk]
        refine List.eq_replicate_of_mem (fun v hv => ?_)
        by_contra hv'
        exact hex ⟨v, (printVals_perm r).mem_iff.mp hv, hv'⟩
      rw [this]
      exact pValues_even k (by omega) is
  unfold pReqBody
  simp only [valTok_wordItem hw, hww, ne_eq, not_true_eq_false, if_false, ahead_cons,
    show (wordItem r.key).text = r.key from rfl, hr.key, Bool.not_true, Bool.false_eq_true, or_self,
    hk, hop, if_true, hpv, setList_printVals, reduceCtorEq]
  have hn := norm_valid hr
  unfold Req.Valid at hn
  have : newReq r.key r.op (setList r.vals) = some r.norm := by
    rw [← hn]
    simp [Req.norm, hop]
  rw [this]; rfl

/-- A printed requirement is parsed to its normal form. -/
theorem pReq_items {r : Req} (hr : r.Valid) (hp : r.Printable) {is : List Item} (h : AfterItems is) :
    pReq (r.items ++ is) = some (r.norm, is) := by
  have hw := word_of_key hr.key
  have hc := hr.count
  have hvw := valTok_wordItem hw
  have hwb : valTok (wordItem r.key).tok ≠ .bang := by rw [hvw]; decide
  have hr' := hr
  unfold Req.items
  cases hop : r.op <;> simp only [hop] at hc
  · have := pReqBody_list hr hp (w := lit "in") (is := is) (by rw [hop]; decide) (by decide) (Or.inl hop)
    simpa [pReq, hwb, List.append_assoc] using this
  · have := pReqBody_list hr hp (w := lit "notin") (is := is) (by rw [hop]; decide) (by decide) (Or.inr hop)
    simpa [pReq, hwb, List.append_assoc] using this
  · have := pReqBody_op hr (u := [61]) (k := .eq) (by rw [hop]; rfl) (by decide) (by simp [hop]) hc h
    simpa [pReq, hwb, Req.norm, hop] using this
  · have := pReqBody_op hr (u := [61, 61]) (k := .deq) (by rw [hop]; rfl) (by decide) (by simp [hop]) hc h
    simpa [pReq, hwb, Req.norm, hop] using this
  · have := pReqBody_op hr (u := [33, 61]) (k := .neq) (by rw [hop]; rfl) (by decide) (by simp [hop]) hc h
    simpa [pReq, hwb, Req.norm, hop] using this
  · have hn : newReq r.key .exist [] = some r := by
      have := hr'; unfold Req.Valid at this; rwa [hop, hc] at this
    have ha := h.ahead
    simp only [List.singleton_append, pReq, if_false, pReqBody, hvw, ne_eq, not_true_eq_false,
      show (wordItem r.key).text = r.key from rfl, hr.key, Bool.not_true, Bool.false_eq_true, ha,
      if_true, hn]
    simp [Req.norm, hop]
  · have hn : newReq r.key .notExist [] = some r := by
      have := hr'; unfold Req.Valid at this; rwa [hop, hc] at this
    simp only [List.cons_append, List.nil_append, pReq, show valTok LTok.bang = LTok.bang from rfl, if_true,
      pReqBody, hvw, ne_eq, not_true_eq_false, if_false, show (wordItem r.key).text = r.key from rfl,
      hr.key, Bool.not_true, Bool.false_eq_true, hn]
    simp [Req.norm, hop]
  · have := pReqBody_op hr (u := [62]) (k := .gt) (by rw [hop]; rfl) (by decide) (by simp [hop]) hc h
    simpa [pReq, hwb, Req.norm, hop] using this
  · have := pReqBody_op hr (u := [60]) (k := .lt) (by rw [hop]; rfl) (by decide) (by simp [hop]) hc h
    simpa [pReq, hwb, Req.norm, hop] using this

theorem newReq_empty {k : Str} {op : Op} (h : op = .isIn ∨ op = .notIn) : newReq k op [] = none := by
  rcases h with rfl | rfl <;> simp [newReq, okVals]

/-- A requirement that does not print in a legible way is not read. -/
theorem pReq_items_none {r : Req} (hr : r.Valid) (hp : ¬ r.Printable) (is : List Item) : pReq (r.items ++ is) = none := by
  unfold Req.Printable at hp
  rw [Classical.not_imp, not_or] at hp
  obtain ⟨hop, hex, hodd⟩ := hp
  have hw := word_of_key hr.key
  have hwb : valTok (wordItem r.key).tok ≠ .bang := by rw [valTok_wordItem hw]; decide
  rw [← (printVals_perm r).length_eq] at hodd
  obtain ⟨k, hk⟩ : ∃ k, r.printVals.length = k + 1 := ⟨r.printVals.length - 1, by omega⟩
  have hrep : r.printVals = List.replicate (k + 1) [] := by
    rw [← hk]
    refine List.eq_replicate_of_mem (fun v hv => ?_)
    by_contra hv'
    exact hex ⟨v, (printVals_perm r).mem_iff.mp hv, hv'⟩
  have hpv := pValues_odd k (by omega) is
  rw [← hrep] at hpv
  have hbody : ∀ w : Str, pOperator (wordItem w).tok = some r.op → valTok (wordItem w).tok = .ident →
      pReqBody false (wordItem r.key :: wordItem w :: openItem :: (valsItems r.printVals ++ closeItem :: is)) = none := by
    intro w hkw hww
    unfold pReqBody
    simp only [valTok_wordItem hw, hww, ne_eq, not_true_eq_false, if_false, ahead_cons,
      show (wordItem r.key).text = r.key from rfl, hr.key, Bool.not_true, Bool.false_eq_true, or_self,
      hkw, hop, if_true, reduceCtorEq]
    rcases hpv with h | h
    · simp only [h]
    · simp only [h, newReq_empty hop, Option.map_none]
  unfold Req.items
  rcases hop with h' | h' <;> simp only [h']
  · have := hbody (lit "in") (by rw [h']; decide) (by decide)
    simpa [pReq, hwb, List.append_assoc] using this
  · have := hbody (lit "notin") (by rw [h']; decide) (by decide)
    simpa [pReq, hwb, List.append_assoc] using this

/-! ## Selectors -/

/-- Items of a printed selector. -/
def selItems : List Req → List Item
  | [] => [eosItem]
  | [r] => r.items ++ [eosItem]
  | r :: s :: rs => r.items ++ commaItem :: selItems (s :: rs)

theorem toStr_head {r : Req} (hr : r.Valid) (t : Str) {c : UInt8} (hc : isWordChar c = false)
    (h33 : c ≠ 33) : (r.toStr ++ t).head? ≠ some c := by
  have hw := word_of_key hr.key
  have key := fun t => key_head (t := t) hw hc
  unfold Req.toStr
  cases r.op <;> dsimp only
  case exist => exact key _
  case notExist => simp [Ne.symm h33]
  all_goals simp only [List.append_assoc]; exact key _

theorem lexesTo_sel : ∀ (rs : List Req), (∀ r ∈ rs, r.Valid) → LexesTo (selStr rs) (selItems rs)
  | [], _ => lexesTo_nil
  | [r], h => by
    simpa [selStr, join, selItems] using lexesTo_req (h r (by simp)) (Or.inl rfl) lexesTo_nil
  | r :: s :: rs, h => by
    have ih := lexesTo_sel (s :: rs) (fun x hx => h x (by simp at hx ⊢; tauto))
    have hhead : ∀ c : UInt8, isWordChar c = false → c ≠ 33 → (selStr (s :: rs)).head? ≠ some c := by
      intro c hc h33
      have hs := h s (by simp)
      cases rs with
      | nil => simpa [selStr, join] using toStr_head hs [] hc h33
      | cons q rs =>
        simp only [selStr, List.map_cons, join, List.append_assoc]
        exact toStr_head hs _ hc h33
    have h1 := lexesTo_symbol (u := [44]) (k := .comma) (by decide) rfl
      (hhead 61 (by decide) (by decide)) (hhead 0 (by decide) (by decide)) ih
    have h2 := lexesTo_req (h r (by simp)) (Or.inr ⟨_, rfl⟩) h1
    simpa [selStr, join, selItems, commaItem] using h2

theorem ahead_items {r : Req} (hr : r.Valid) (t : List Item) :
    ahead (r.items ++ t) = .ident ∨ ahead (r.items ++ t) = .bang := by
  have hvw := valTok_wordItem (word_of_key hr.key)
  unfold Req.items
  cases r.op <;> simp only [List.cons_append, ahead_cons, hvw, true_or]
  exact Or.inr rfl

theorem pReqs_items : ∀ (rs : List Req), (∀ r ∈ rs, r.Valid) → (∀ r ∈ rs, r.Printable) →
    ∀ f, rs.length + 1 ≤ f → pReqs f (selItems rs) = some (rs.map Req.norm)
  | [], _, _, f, hf => by
    obtain ⟨f, rfl⟩ : ∃ g, f = g + 1 := ⟨f - 1, by simp at hf; omega⟩
    rfl
  | [r], hv, hp, f, hf => by
    obtain ⟨f, rfl⟩ : ∃ g, f = g + 1 := ⟨f - 1, by simp at hf; omega⟩
    have h1 := pReq_items (hv r (by simp)) (hp r (by simp)) ⟨eosItem, [], rfl, Or.inl rfl⟩
    have ha := ahead_items (hv r (by simp)) [eosItem]
    simp only [selItems]
    rw [pReqs]
    rcases ha with ha | ha <;>
    · simp only [ha, h1]
      rfl
  | r :: s :: rs, hv, hp, f, hf => by
    obtain ⟨f, rfl⟩ : ∃ g, f = g + 1 := ⟨f - 1, by simp at hf; omega⟩
    have ih := pReqs_items (s :: rs) (fun x hx => hv x (by simp at hx ⊢; tauto))
      (fun x hx => hp x (by simp at hx ⊢; tauto)) f (by simp at hf ⊢; omega)
    have h1 := pReq_items (hv r (by simp)) (hp r (by simp))
      ⟨commaItem, selItems (s :: rs), rfl, Or.inr rfl⟩
    have ha := ahead_items (hv r (by simp)) (commaItem :: selItems (s :: rs))
    have hn : ahead (selItems (s :: rs)) = .ident ∨ ahead (selItems (s :: rs)) = .bang := by
      cases rs with
      | nil => exact ahead_items (hv s (by simp)) _
      | cons q rs => exact ahead_items (hv s (by simp)) _
    simp only [selItems]
    rw [pReqs]
    rcases ha with ha | ha <;>
    · simp only [ha, h1, show valTok commaItem.tok = .comma from rfl]
      rw [if_pos hn, ih]
      rfl

theorem pReqs_none : ∀ (rs : List Req), (∀ r ∈ rs, r.Valid) → (∃ r ∈ rs, ¬ r.Printable) → ∀ f, pReqs f (selItems rs) = none
  | _, _, _, 0 => rfl
  | [], _, h, _ => by simp at h
  | [r], hv, h, f + 1 => by
    have hr : ¬ r.Printable := by simpa using h
    have h1 := pReq_items_none (hv r (by simp)) hr [eosItem]
    simp only [selItems]
    rw [pReqs]
    rcases ahead_items (hv r (by simp)) [eosItem] with ha | ha <;> simp only [ha, h1]
  | r :: s :: rs, hv, h, f + 1 => by
    have ha := ahead_items (hv r (by simp)) (commaItem :: selItems (s :: rs))
    simp only [selItems]
    rw [pReqs]
    by_cases hr : r.Printable
    · have h1 := pReq_items (hv r (by simp)) hr ⟨commaItem, selItems (s :: rs), rfl, Or.inr rfl⟩
      have ih := pReqs_none (s :: rs) (fun x hx => hv x (by simp at hx ⊢; tauto)) (by
        obtain ⟨x, hx, hx'⟩ := h
        rcases List.mem_cons.mp hx with rfl | hx
        · exact absurd hr hx'
        · exact ⟨x, hx, hx'⟩) f
      rcases ha with ha | ha <;>
      · simp only [ha, h1, show valTok commaItem.tok = .comma from rfl, ih, Option.map_none, ite_self]
    · have h1 := pReq_items_none (hv r (by simp)) hr (commaItem :: selItems (s :: rs))
      rcases ha with ha | ha <;> simp only [ha, h1]

theorem selItems_length : ∀ rs : List Req, rs.length ≤ (selItems rs).length
  | [] => by simp
  | [r] => by simp [selItems]
  | r :: s :: rs => by
    have := selItems_length (s :: rs)
    simp only [selItems, List.length_append, List.length_cons] at this ⊢
    omega

theorem keyLe_total (a b : Req) : Req.keyLe a b = true ∨ Req.keyLe b a = true := strLe_total _ _
theorem keyLe_trans (a b c : Req) : Req.keyLe a b = true → Req.keyLe b c = true → Req.keyLe a c = true :=
  strLe_trans _ _ _

/-- Parsing a printed selector. -/
theorem parseReqs_selStr {rs : List Req} (hv : ∀ r ∈ rs, r.Valid) (hp : ∀ r ∈ rs, r.Printable) :
    parseReqs (selStr rs) = some (sortBy Req.keyLe (rs.map Req.norm)) := by
  unfold parseReqs
  rw [lexesTo_sel rs hv _ (Nat.le_refl _)]
  have := selItems_length rs
  rw [pReqs_items rs hv hp _ (by omega)]
  rfl

/-- Parsing a printed selector that is not legible. -/
theorem parseReqs_selStr_none {rs : List Req} (hv : ∀ r ∈ rs, r.Valid) (hp : ∃ r ∈ rs, ¬ r.Printable) : parseReqs (selStr rs) = none := by
  unfold parseReqs
  rw [lexesTo_sel rs hv _ (Nat.le_refl _), pReqs_none rs hv hp]
  rfl

/-- Parsing a printed selector that is sorted by key. -/
theorem parseReqs_selStr_sorted {rs : List Req} (hv : ∀ r ∈ rs, r.Valid) (hp : ∀ r ∈ rs, r.Printable)
    (hs : rs.Pairwise (fun x y => Req.keyLe x y = true)) :
    parseReqs (selStr rs) = some (rs.map Req.norm) := by
  rw [parseReqs_selStr hv hp, sortBy_of_sorted]
  rw [List.pairwise_map]
  refine hs.imp ?_
  intro a b h
  simpa [Req.keyLe, norm_key] using h

theorem selMatches_norm (rs : List Req) (m : List (Str × Str)) :
    selMatches (rs.map Req.norm) m = selMatches rs m := by
  simp [selMatches, List.all_map, Function.comp_def, norm_matches]

theorem selMatches_perm {a b : List Req} (h : a.Perm b) (m : List (Str × Str)) :
    selMatches a m = selMatches b m := by
  unfold selMatches
  rw [Bool.eq_iff_iff, List.all_eq_true, List.all_eq_true]
  exact ⟨fun hh x hx => hh x (h.mem_iff.mpr hx), fun hh x hx => hh x (h.mem_iff.mp hx)⟩

end Ckube

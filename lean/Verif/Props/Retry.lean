import Mathlib.Data.List.Chain
import Verif.Lemmas.Retry
import Verif.Props.Server

/-! # C133: requests that the API server puts off -/

namespace Ckube

open Spec

variable {api : Nat → Nat → Got × Nat} {wait : Nat → Nat → Option Nat} {q : RawReq}

/-- **C133**: a forwarded request without a body. If the API server answers every attempt, the limiter lets it pass, and it is over within the minute, then all
answers but the last one asked to send the request again, each attempt was made when it was time, and the last answer is the one that `proxyPass` works with: one
that asks for nothing of the kind, or the eleventh. The client gets the body of a success and the status of a failure. Missing for the full claim: requests with a
body (`C133_false_body`), a limit on the pauses (`C133_false_minute`), the status of a success (C68), connections that fail. -/
theorem C133_answered_partial (hb : q.hasBody = false ∨ q.get = true) (hwait : ∀ n t, wait n t ≠ none)
    (hgot : ∀ a ∈ (doRaw api wait q).tries, ∃ r, a.got = .reply r) (hfin : (doRaw api wait q).fin < 60000000000) :
    ∃ (before : List Sent) (a : Sent) (r : Reply), (doRaw api wait q).tries = before ++ [a] ∧ (doRaw api wait q).out = .answered r
      ∧ a.got = .reply r ∧ ((∀ s, ¬ PutsOff r s) ∨ before.length = 10)
      ∧ (∀ b ∈ before, ∃ r' s, b.got = .reply r' ∧ PutsOff r' s)
      ∧ (doRaw api wait q).tries.IsChain (fun b c => ∀ r' s, b.got = .reply r' → PutsOff r' s → s ≤ 9223372036 → b.over + s * 1000000000 ≤ c.time)
      ∧ ∀ w c m p qs bd,
        (200 ≤ r.code → r.code ≤ 206 →
          respond (fun _ => (doRaw api wait q).out.upRes) (.forward w c m p qs bd) = some ⟨some 200, [.bytes r.body]⟩)
        ∧ (206 < r.code → r.code ≤ 999 →
          respond (fun _ => (doRaw api wait q).out.upRes) (.forward w c m p qs bd) = some ⟨some r.code, [.json (.forward w c m p qs bd)]⟩) := by
  obtain ⟨-, -, i3, -, -, i6, i7⟩ := resend_story (api := api) (wait := wait) (q := { q with hasBody := q.hasBody && !q.get })
    (dl := ownTimeout false * 1000000000) 10 0 0
  have hbody : (q.hasBody && !q.get) = false := by rcases hb with h | h <;> simp [h]
  cases ho : (doRaw api wait q).out with
  | failed =>
    rcases i7 ho with k | ⟨m, t, -, k⟩ | ⟨k, -⟩ | ⟨a, k1, k2⟩
    · have : (60000000000 : Nat) ≤ (doRaw api wait q).fin := k
      omega
    · exact absurd k (hwait _ _)
    · rw [hbody] at k
      cases k
    · obtain ⟨r, hr⟩ := hgot a k1
      rw [hr] at k2
      rcases k2 with k2 | ⟨k2, -⟩ <;> cases k2
  | answered r =>
    obtain ⟨a, k1, -, -, k4⟩ := i6 r ho
    obtain ⟨before, hbef⟩ : ∃ before, (doRaw api wait q).tries = before ++ [a] := by
      obtain ⟨l, hl⟩ := List.getLast?_eq_some_iff.mp k1
      exact ⟨l, hl⟩
    have hlen : (doRaw api wait q).tries.length = before.length + 1 := by rw [hbef]; simp
    have hch : (before ++ [a]).IsChain (fun a b => MayRepeat q.get a b.time) := hbef ▸ i3
    refine ⟨before, a, r, hbef, rfl, ?_⟩
    have hlast : a.got = .reply r ∧ ((∀ s, ¬ PutsOff r s) ∨ before.length = 10) := by
      rcases k4 with ⟨k5, k6⟩ | ⟨-, k5, -⟩
      · refine ⟨k5, k6.imp id fun k6 => ?_⟩
        have : (doRaw api wait q).tries.length = 10 + 1 := k6
        omega
      · obtain ⟨r', hr'⟩ := hgot a (by rw [hbef]; simp)
        rw [k5] at hr'
        cases hr'
    have hrep : ∀ b ∈ (doRaw api wait q).tries, ∀ t, MayRepeat q.get b t → ∃ r' s, b.got = .reply r' ∧ PutsOff r' s
        ∧ (s ≤ 9223372036 → b.over + s * 1000000000 ≤ t) := by
      intro b hb t h
      rcases h with ⟨r', s, h1, h2, h3⟩ | ⟨-, h, -⟩
      · exact ⟨r', s, h1, h2, h3⟩
      · obtain ⟨r', hr'⟩ := hgot b hb
        rw [h] at hr'
        cases hr'
    refine ⟨hlast.1, hlast.2, ?_, ?_, ?_⟩
    · intro b hb
      obtain ⟨l1, l2, rfl⟩ := List.append_of_mem hb
      have hmem : b ∈ (doRaw api wait q).tries := by rw [hbef]; simp
      rw [List.append_assoc, List.cons_append] at hch
      have hch := hch.right_of_append
      cases l2 with
      | nil =>
        rw [List.nil_append, List.isChain_cons_cons] at hch
        obtain ⟨r', s, h1, h2, -⟩ := hrep b hmem _ hch.1
        exact ⟨r', s, h1, h2⟩
      | cons c l2 =>
        rw [List.cons_append, List.isChain_cons_cons] at hch
        obtain ⟨r', s, h1, h2, -⟩ := hrep b hmem _ hch.1
        exact ⟨r', s, h1, h2⟩
    · rw [List.isChain_iff_getElem] at i3 ⊢
      intro i hi r' s hr hp hs
      obtain ⟨r'', s', h1, h2, h3⟩ := hrep _ (List.getElem_mem _) _ (i3 i hi)
      cases hr.symm.trans h1
      have : s' = s := Option.some.inj ((checkWait_iff.mpr h2).symm.trans (checkWait_iff.mpr hp))
      subst this
      exact h3 hs
    · intro w c m p qs bd
      constructor
      · intro h1 h2
        exact C68_answer_partial.1 r.code r.body (if_pos ⟨h1, h2⟩)
      · intro h1 h2
        exact C68_answer_partial.2.1 r.code (if_neg (by omega)) (by omega) h2

/-- No request is sent more than eleven times, and no attempt begins after the minute. -/
theorem C133_few : (doRaw api wait q).tries.length ≤ 11 ∧ ∀ a ∈ (doRaw api wait q).tries, a.time < 60000000000 := by
  obtain ⟨i1, i2, -⟩ := resend_story (api := api) (wait := wait) (q := { q with hasBody := q.hasBody && !q.get }) (dl := ownTimeout false * 1000000000) 10 0 0
  exact ⟨i1, fun a ha => (i2 a ha).2.1⟩

/-- A request other than a `GET` is not carried out twice, if the API server carries out no request that it puts off, however connections fail. -/
theorem C133_once (hget : q.get = false) {acts : Sent → Bool} (hacts : ∀ a r s, acts a = true → a.got = .reply r → ¬ PutsOff r s) :
    ((doRaw api wait q).tries.filter acts).length ≤ 1 := by
  obtain ⟨-, -, i3, -⟩ := resend_story (api := api) (wait := wait) (q := { q with hasBody := q.hasBody && !q.get })
    (dl := ownTimeout false * 1000000000) 10 0 0
  have key : ∀ l : List Sent, l.IsChain (fun a b => MayRepeat q.get a b.time) → (l.filter acts).length ≤ 1 := by
    intro l
    induction l with
    | nil => simp
    | cons a l ih =>
      intro h
      cases l with
      | nil =>
        rw [List.filter_cons]
        split <;> simp
      | cons b l =>
        rw [List.isChain_cons_cons] at h
        rw [List.filter_cons, if_neg]
        · exact ih h.2
        · intro ha
          rcases h.1 with ⟨r, s, h1, h2, -⟩ | ⟨h1, -⟩
          · exact hacts a r s ha h1 h2
          · rw [hget] at h1
            cases h1
  exact key _ i3

/-- It is over at most one pause after the minute, when no answer asks for a pause longer than `S` nanoseconds (at least a second). -/
theorem C133_bounded {S : Nat} (hS : 1000000000 ≤ S) (hw : ∀ n t w, wait n t = some w → w = 0 ∨ t + w ≤ 60000000000)
    (hs : ∀ n t r s, (api n t).1 = .reply r → PutsOff r s → s * 1000000000 ≤ S ∧ -9223372036 ≤ s ∧ s ≤ 9223372036) :
    (doRaw api wait q).fin ≤ 60000000000 + S :=
  resend_fin (dl := ownTimeout false * 1000000000) hS hw hs 10 0 0 (by omega)

/-- A request with a body that the API server puts off is sent once only, and fails: the client gets a 500 instead of the answer or of the refusal. -/
theorem C133_body (hb : q.hasBody = true) (hget : q.get = false) {a : Sent} {r : Reply} {s : Int} (ha : (doRaw api wait q).tries.head? = some a)
    (hr : a.got = .reply r) (hp : PutsOff r s) :
    (doRaw api wait q).tries = [a] ∧ (doRaw api wait q).out = .failed
      ∧ ∀ w c m p qs bd, respond (fun _ => (doRaw api wait q).out.upRes) (.forward w c m p qs bd) = some ⟨some 500, [.failure]⟩ := by
  obtain ⟨-, -, -, -, i5, i6, -⟩ := resend_story (api := api) (wait := wait) (q := { q with hasBody := q.hasBody && !q.get })
    (dl := ownTimeout false * 1000000000) 10 0 0
  have hlen : (doRaw api wait q).tries.length ≤ 1 := i5 (by simp [hb, hget])
  have ht : (doRaw api wait q).tries = [a] := by
    cases h : (doRaw api wait q).tries with
    | nil => rw [h] at ha; cases ha
    | cons b l =>
      rw [h] at ha hlen
      simp only [List.head?_cons, Option.some.injEq] at ha
      have : l = [] := List.length_eq_zero_iff.mp (by simpa using hlen)
      rw [ha, this]
  have ho : (doRaw api wait q).out = .failed := by
    cases ho : (doRaw api wait q).out with
    | failed => rfl
    | answered r' =>
      obtain ⟨b, k1, -, -, k4⟩ := i6 r' ho
      have k1 : (doRaw api wait q).tries.getLast? = some b := k1
      rw [ht] at k1
      simp only [List.getLast?_singleton, Option.some.injEq] at k1
      subst k1
      rcases k4 with ⟨k5, k6 | k6⟩ | ⟨k5, -⟩
      · rw [hr] at k5
        cases k5
        exact absurd hp (k6 s)
      · have k6 : (doRaw api wait q).tries.length = 10 + 1 := k6
        omega
      · have k5 : q.get = true := k5
        rw [hget] at k5
        cases k5
  refine ⟨ht, ho, fun w c m p qs bd => ?_⟩
  exact C68_answer_partial.2.2 (by rw [ho]; rfl)

/-! ## An API server that puts the first requests off -/

/-- `n` answers `429` with the given number of seconds, each after a millisecond, then `201`. -/
def exPutOff (n : Nat) (secs : String) (i _t : Nat) : Got × Nat :=
  if i < n then (.reply ⟨429, lit secs, lit "later"⟩, 1000000) else (.reply ⟨201, [], lit "created"⟩, 1000000)

theorem exPutOff_off (secs : String) (s : Int) (h : SaysSeconds (lit secs) s) : PutsOff ⟨429, lit secs, lit "later"⟩ s := ⟨Or.inl rfl, h⟩

/-- The hypotheses of `C133_answered_partial` are met: a `DELETE` without options is put off twice and then carried out. -/
example : ((doRaw (exPutOff 2 "1") (fun _ _ => some 0) ⟨false, false⟩).tries.map Sent.time = [0, 1001000000, 2002000000]
      ∧ (doRaw (exPutOff 2 "1") (fun _ _ => some 0) ⟨false, false⟩).out = .answered ⟨201, [], lit "created"⟩)
    ∧ ∃ (before : List Sent) (a : Sent) (r : Reply), (doRaw (exPutOff 2 "1") (fun _ _ => some 0) ⟨false, false⟩).tries = before ++ [a]
      ∧ (doRaw (exPutOff 2 "1") (fun _ _ => some 0) ⟨false, false⟩).out = .answered r ∧ a.got = .reply r := by
  refine ⟨by decide +kernel, ?_⟩
  obtain ⟨before, a, r, h1, h2, h3, -⟩ := C133_answered_partial (api := exPutOff 2 "1") (wait := fun _ _ => some 0) (q := ⟨false, false⟩) (Or.inl rfl)
    (by simp)
    (by
      have : ∀ a ∈ (doRaw (exPutOff 2 "1") (fun _ _ => some 0) ⟨false, false⟩).tries, (match a.got with | .reply _ => true | _ => false) = true := by
        decide +kernel
      intro a ha
      have := this a ha
      cases hg : a.got with
      | reply r => exact ⟨r, rfl⟩
      | _ => rw [hg] at this; cases this)
    (by decide +kernel)
  exact ⟨before, a, r, h1, h2, h3⟩

/-- The eleventh answer is passed on even if it puts the request off: the client gets the 429. -/
example : (doRaw (exPutOff 20 "1") (fun _ _ => some 0) ⟨true, false⟩).tries.length = 11
    ∧ (doRaw (exPutOff 20 "1") (fun _ _ => some 0) ⟨true, false⟩).out = .answered ⟨429, lit "1", lit "later"⟩ := by decide +kernel

/-- The hypotheses of `C133_once` are met: of three attempts one is carried out. -/
example : ((doRaw (exPutOff 2 "1") (fun _ _ => some 0) ⟨false, false⟩).tries.filter fun a => decide (a.got = .reply ⟨201, [], lit "created"⟩)).length ≤ 1
    ∧ (doRaw (exPutOff 2 "1") (fun _ _ => some 0) ⟨false, false⟩).tries.length = 3 := by
  refine ⟨C133_once rfl ?_, by decide +kernel⟩
  intro a r s h1 h2 h3
  simp only [decide_eq_true_eq] at h1
  rw [h1] at h2
  cases h2
  have := h3.1
  revert this
  decide

/-- The hypotheses of `C133_bounded` are met with pauses of up to a minute. -/
example : (doRaw (exPutOff 5 "60") (fun _ _ => some 0) ⟨true, false⟩).fin ≤ 60000000000 + 60000000000
    ∧ (doRaw (exPutOff 5 "60") (fun _ _ => some 0) ⟨true, false⟩).fin = 60001000000 := by
  refine ⟨C133_bounded (by omega) (fun _ _ _ h => Or.inl (Option.some.inj h).symm) ?_, by decide +kernel⟩
  intro n t r s h1 h2
  have e : atoi (lit "60") = some 60 := by decide +kernel
  unfold exPutOff at h1
  split at h1 <;> cases h1
  · have := Option.some.inj ((atoi_iff.mpr h2.2).symm.trans e)
    subst this
    omega
  · exact absurd h2.1 (by decide)

/-- **C133 is false** for requests with a body: the API server is busy and asks to send a `POST` again in a second; it would then carry it out. The client gets a 500,
and the API server is not asked again. -/
theorem C133_false_body : (exPutOff 1 "1" 1 1001000000).1 = .reply ⟨201, [], lit "created"⟩
    ∧ (doRaw (exPutOff 1 "1") (fun _ _ => some 0) ⟨false, true⟩).tries = [⟨0, .reply ⟨429, lit "1", lit "later"⟩, 1000000⟩]
    ∧ ∀ w c m p qs bd, respond (fun _ => (doRaw (exPutOff 1 "1") (fun _ _ => some 0) ⟨false, true⟩).out.upRes) (.forward w c m p qs bd)
        = some ⟨some 500, [.failure]⟩ := by
  have hp : PutsOff ⟨429, lit "1", lit "later"⟩ 1 := checkWait_iff.mp (by decide +kernel)
  obtain ⟨h1, -, h3⟩ := C133_body (api := exPutOff 1 "1") (wait := fun _ _ => some 0) (q := ⟨false, true⟩)
    (a := ⟨0, .reply ⟨429, lit "1", lit "later"⟩, 1000000⟩) rfl rfl (by decide +kernel) rfl hp
  exact ⟨by decide +kernel, h1, h3⟩

/-- **C133 is false** for long pauses: the API server asks to come back in an hour. The handler sleeps for the hour, though its context ends after a minute; then it
fails, and the client gets a 500 instead of the 429 of an hour ago. -/
theorem C133_false_minute : (doRaw (exPutOff 1 "3600") (fun _ _ => some 0) ⟨true, false⟩).fin = 3600001000000
    ∧ (doRaw (exPutOff 1 "3600") (fun _ _ => some 0) ⟨true, false⟩).out = .failed
    ∧ ∀ w c m p qs bd, respond (fun _ => (doRaw (exPutOff 1 "3600") (fun _ _ => some 0) ⟨true, false⟩).out.upRes) (.forward w c m p qs bd)
        = some ⟨some 500, [.failure]⟩ := by
  have ho : (doRaw (exPutOff 1 "3600") (fun _ _ => some 0) ⟨true, false⟩).out = .failed := by decide +kernel
  exact ⟨by decide +kernel, ho, fun w c m p qs bd => C68_answer_partial.2.2 (by rw [ho]; rfl)⟩

end Ckube

import Verif.Spec.Throttle

/-! # Lemmas for C131 -/

namespace Ckube
open Spec

/-- What the limiter has left at `t`. -/
def Bucket.level (b : Bucket) (t : Nat) : Int := min 20000 (b.credit + ((t - b.last : Nat) : Int))

theorem reserve_fst (b : Bucket) (t l : Nat) :
    (b.reserve t l).1 = if (200 - b.level t).toNat ≤ l then some (200 - b.level t).toNat else none := by
  have h : -(min (fullMs : Int) (b.credit + ((t - b.last : Nat) : Int)) - (tokenMs : Int)) = 200 - b.level t := by
    simp only [Bucket.level, fullMs, tokenMs]; omega
  simp only [Bucket.reserve, h]
  split <;> rfl

theorem reserve_snd {b : Bucket} {t l : Nat} (ht : b.last ≤ t) :
    (b.reserve t l).2 = if (200 - b.level t).toNat ≤ l then ⟨t, b.level t - 200⟩ else b := by
  have h : -(min (fullMs : Int) (b.credit + ((t - b.last : Nat) : Int)) - (tokenMs : Int)) = 200 - b.level t := by
    simp only [Bucket.level, fullMs, tokenMs]; omega
  have h' : min (fullMs : Int) (b.credit + ((t - b.last : Nat) : Int)) - (tokenMs : Int) = b.level t - 200 := by omega
  simp only [Bucket.reserve, h, Nat.min_eq_left ht]
  split
  · rw [h']
  · rfl

/-- The limiter after the requests made at `earlier`, none of which waited longer than `L`. -/
structure LimKept (L : Nat) (b : Bucket) (earlier : List Nat) : Prop where
  past : ∀ x ∈ earlier, x ≤ b.last
  below : ∀ s, s ≤ b.last → b.credit + 200 * (earlier.countP (s ≤ ·) : Nat) ≤ 20000 + ((b.last - s : Nat) : Int)
  tight : ∃ s, s ≤ b.last ∧ b.credit + 200 * (earlier.countP (s ≤ ·) : Nat) = 20000 + ((b.last - s : Nat) : Int)
  floor : -(L : Int) ≤ b.credit
  from_ : b.last = 0 ∨ b.last ∈ earlier

theorem LimKept.new (L : Nat) : LimKept L {} [] := by
  refine ⟨by simp, ?_, ⟨0, Nat.le_refl _, ?_⟩, ?_, .inl rfl⟩
  · intro s _; simp only [fullMs, tokenMs, List.countP_nil]; omega
  · simp only [fullMs, tokenMs, List.countP_nil]; omega
  · simp only [fullMs, tokenMs]; omega

theorem LimKept.none_after {L : Nat} {b : Bucket} {e : List Nat} (h : LimKept L b e) {s : Nat} (hs : b.last < s) : e.countP (s ≤ ·) = 0 := by
  rw [List.countP_eq_zero]
  intro x hx
  have := h.past x hx
  simp only [decide_eq_true_eq]; omega

theorem LimKept.level_le {L : Nat} {b : Bucket} {e : List Nat} (h : LimKept L b e) {t s : Nat} (ht : b.last ≤ t) (hs : s ≤ t) :
    b.level t + 200 * (e.countP (s ≤ ·) : Nat) ≤ 20000 + ((t - s : Nat) : Int) := by
  unfold Bucket.level
  by_cases hl : s ≤ b.last
  · have := h.below s hl; omega
  · have := h.none_after (s := s) (by omega); omega

theorem LimKept.level_tight {L : Nat} {b : Bucket} {e : List Nat} (h : LimKept L b e) {t : Nat} (ht : b.last ≤ t) :
    ∃ s, s ≤ t ∧ b.level t + 200 * (e.countP (s ≤ ·) : Nat) = 20000 + ((t - s : Nat) : Int) := by
  unfold Bucket.level
  by_cases hc : b.credit + ((t - b.last : Nat) : Int) ≤ 20000
  · obtain ⟨s, hs, he⟩ := h.tight
    exact ⟨s, by omega, by omega⟩
  · by_cases hl : b.last < t
    · exact ⟨t, Nat.le_refl _, by have := h.none_after hl; omega⟩
    · have := h.below b.last (Nat.le_refl _); omega

theorem LimKept.fits {L : Nat} {b : Bucket} {e : List Nat} (h : LimKept L b e) {t : Nat} (ht : b.last ≤ t) (d : Nat) :
    Fits e t d ↔ (200 - b.level t).toNat ≤ d := by
  constructor
  · intro hf
    obtain ⟨s, hs, he⟩ := h.level_tight ht
    have := hf s hs
    omega
  · intro hd s hs
    have := h.level_le ht hs
    omega

theorem LimKept.shortest {L : Nat} {b : Bucket} {e : List Nat} (h : LimKept L b e) {t : Nat} (ht : b.last ≤ t) :
    Shortest e t (200 - b.level t).toNat :=
  ⟨(h.fits ht _).2 (Nat.le_refl _), fun d hd => (h.fits ht d).1 hd⟩

theorem LimKept.admit {L : Nat} {b : Bucket} {e : List Nat} (h : LimKept L b e) {t l : Nat} (ht : b.last ≤ t) (hL : l ≤ L)
    (hl : (200 - b.level t).toNat ≤ l) : LimKept L ⟨t, b.level t - 200⟩ (e ++ [t]) := by
  have hc : ∀ s, s ≤ t → (e ++ [t]).countP (s ≤ ·) = e.countP (s ≤ ·) + 1 := by
    intro s hs
    rw [List.countP_append]
    simp [List.countP_cons, hs]
  refine ⟨?_, ?_, ?_, ?_, .inr (by simp)⟩
  · intro x hx
    rw [List.mem_append] at hx
    rcases hx with hx | hx
    · have := h.past x hx; show x ≤ t; omega
    · simp only [List.mem_singleton] at hx; show x ≤ t; omega
  · intro s hs
    rw [hc s hs]
    have := h.level_le ht hs
    show b.level t - 200 + _ ≤ 20000 + ((t - s : Nat) : Int)
    omega
  · obtain ⟨s, hs, he⟩ := h.level_tight ht
    refine ⟨s, hs, ?_⟩
    rw [hc s hs]
    show b.level t - 200 + _ = 20000 + ((t - s : Nat) : Int)
    omega
  · show -(L : Int) ≤ b.level t - 200
    omega

theorem madeAt_append (c : Str) (x y : List (Asked × Option Nat)) : madeAt c (x ++ y) = madeAt c x ++ madeAt c y := by
  simp [madeAt]

theorem madeAt_some (a : Asked) (d : Nat) : madeAt a.cluster [(a, some d)] = [a.time] := by simp [madeAt]

theorem madeAt_none (a : Asked) (c : Str) : madeAt c [(a, none)] = [] := by simp [madeAt]

theorem madeAt_other {a : Asked} {c : Str} (h : ¬ c = a.cluster) (r : Option Nat) : madeAt c [(a, r)] = [] := by
  have : ¬ a.cluster = c := fun e => h e.symm
  simp [madeAt, this]

theorem limit_eq (a : Asked) : a.limit = if a.watch then 1800000 else 60000 := by
  unfold Asked.limit ownTimeout
  split <;> rfl

/-- One request more. -/
theorem kept_step {L : Str → Nat} {s : Str → Bucket} {done : List (Asked × Option Nat)} {a : Asked}
    (hk : ∀ c, LimKept (L c) (s c) (madeAt c done)) (ht : (s a.cluster).last ≤ a.time) (hL : a.limit ≤ L a.cluster) (c : Str) :
    LimKept (L c) (if c = a.cluster then ((s a.cluster).reserve a.time a.limit).2 else s c)
      (madeAt c (done ++ [(a, ((s a.cluster).reserve a.time a.limit).1)])) := by
  rw [madeAt_append]
  by_cases hc : c = a.cluster
  · subst hc
    rw [if_pos rfl, reserve_fst, reserve_snd ht]
    split
    · rename_i h
      rw [madeAt_some]
      exact (hk a.cluster).admit ht hL h
    · rw [madeAt_none, List.append_nil]
      exact hk a.cluster
  · rw [if_neg hc, madeAt_other hc, List.append_nil]
    exact hk c

theorem reserve_last {b : Bucket} {t l : Nat} (ht : b.last ≤ t) : (b.reserve t l).2.last ≤ t := by
  rw [reserve_snd ht]
  split
  · exact Nat.le_refl _
  · exact ht

theorem step_last {s : Str → Bucket} {a : Asked} {as : List Asked} (hp : (a :: as).Pairwise fun a b => a.time ≤ b.time)
    (hl : ∀ c, ∀ x ∈ a :: as, (s c).last ≤ x.time) (c : Str) :
    ∀ x ∈ as, (if c = a.cluster then ((s a.cluster).reserve a.time a.limit).2 else s c).last ≤ x.time := by
  intro x hx
  have h1 := (List.pairwise_cons.mp hp).1 x hx
  split
  · exact Nat.le_trans (reserve_last (hl _ a (by simp))) h1
  · exact hl c x (by simp [hx])

/-- Every request of a log, and the limiters it met. -/
theorem throttle_split {L : Str → Nat} : ∀ (as : List Asked) {s : Str → Bucket} {done : List (Asked × Option Nat)},
    as.Pairwise (fun a b => a.time ≤ b.time) → (∀ c, ∀ x ∈ as, (s c).last ≤ x.time) → (∀ c, LimKept (L c) (s c) (madeAt c done)) →
    ∀ {pre post : List (Asked × Option Nat)}, throttle s as = pre ++ post → (∀ e ∈ pre, e.1.limit ≤ L e.1.cluster) →
    ∃ s' as', post = throttle s' as' ∧ as = pre.map Prod.fst ++ as' ∧ (∀ c, ∀ x ∈ as', (s' c).last ≤ x.time) ∧
      ∀ c, LimKept (L c) (s' c) (madeAt c (done ++ pre)) := by
  intro as
  induction as with
  | nil =>
    intro s done _ _ hk pre post he _
    have : pre = [] ∧ post = [] := by simpa [throttle] using he
    obtain ⟨rfl, rfl⟩ := this
    exact ⟨s, [], rfl, rfl, by simp, by simpa using hk⟩
  | cons a as ih =>
    intro s done hp hl hk pre post he hL
    cases pre with
    | nil => exact ⟨s, a :: as, he.symm, rfl, hl, by simpa using hk⟩
    | cons e pre =>
      rw [throttle, List.cons_append] at he
      injection he with h1 h2
      subst h1
      have hLa := hL (a, ((s a.cluster).reserve a.time a.limit).1) List.mem_cons_self
      dsimp only at hLa
      obtain ⟨s', as', r1, r2, r3, r4⟩ := ih (List.pairwise_cons.mp hp).2 (step_last hp hl)
        (kept_step hk (hl _ a List.mem_cons_self) hLa) h2 (fun e he => hL e (List.mem_cons_of_mem _ he))
      refine ⟨s', as', r1, by simp [r2], r3, fun c => ?_⟩
      have := r4 c
      rwa [List.append_assoc] at this

/-- Clusters do not share a limiter. -/
theorem throttle_filter (c : Str) : ∀ (as : List Asked) (s : Str → Bucket),
    (throttle s as).filter (fun e => e.1.cluster = c) = bucketRun (s c) (as.filter fun a => a.cluster = c) := by
  intro as
  induction as with
  | nil => intro s; rfl
  | cons a as ih =>
    intro s
    rw [throttle, List.filter_cons, ih, List.filter_cons]
    by_cases h : a.cluster = c
    · subst h
      simp only [decide_true, if_true, bucketRun]
    · have h' : ¬ c = a.cluster := fun e => h e.symm
      simp only [h, h', decide_false, if_false, Bool.false_eq_true]

theorem sentTo_eq (c : Str) (log : List (Asked × Option Nat)) :
    sentTo c log = (log.filter fun e => e.1.cluster = c).filterMap fun e => e.2.map (e.1.time + ·) := by
  induction log with
  | nil => rfl
  | cons e log ih =>
    unfold sentTo at ih ⊢
    rw [List.filterMap_cons, List.filter_cons, ih]
    by_cases h : e.1.cluster = c <;> simp [h, List.filterMap_cons]

/-- When the requests to one limiter are sent. -/
def sends (b : Bucket) (as : List Asked) : List Nat := (bucketRun b as).filterMap fun e => e.2.map (e.1.time + ·)

theorem sends_cons {b : Bucket} {a : Asked} {as : List Asked} (ht : b.last ≤ a.time) :
    sends b (a :: as) = (if (200 - b.level a.time).toNat ≤ a.limit then
      (a.time + (200 - b.level a.time).toNat) :: sends ⟨a.time, b.level a.time - 200⟩ as else sends b as) := by
  unfold sends
  rw [bucketRun, List.filterMap_cons, reserve_fst, reserve_snd ht]
  by_cases h : (200 - b.level a.time).toNat ≤ a.limit
  · simp only [if_pos h, Option.map_some]
  · simp only [if_neg h, Option.map_none]

theorem sends_low : ∀ (as : List Asked) {b : Bucket}, as.Pairwise (fun a b => a.time ≤ b.time) → (∀ x ∈ as, b.last ≤ x.time) →
    ∀ {l' : List Nat} {y : Nat}, l'.Sublist (sends b as) → l'.getLast? = some y →
    (b.last : Int) - b.credit + 200 * (l'.length : Nat) ≤ y := by
  intro as
  induction as with
  | nil =>
    intro b _ _ l' y hs hy
    have : l' = [] := by simpa [sends, bucketRun] using hs
    subst this
    simp at hy
  | cons a as ih =>
    intro b hp hl l' y hs hy
    have ht := hl a (by simp)
    have hp' := List.pairwise_cons.mp hp
    rw [sends_cons ht] at hs
    split at hs
    · rename_i hle
      have hlev : b.level a.time ≤ b.credit + ((a.time - b.last : Nat) : Int) := by unfold Bucket.level; omega
      cases hs with
      | cons _ hs =>
        have := ih (b := ⟨a.time, b.level a.time - 200⟩) hp'.2 hp'.1 hs hy
        simp only at this
        omega
      | cons_cons _ hs =>
        rename_i l''
        cases hl'' : l'' with
        | nil =>
          subst hl''
          simp only [List.getLast?_singleton, Option.some.injEq] at hy
          simp only [List.length_singleton]
          omega
        | cons z zs =>
          have hy' : l''.getLast? = some y := by rw [hl''] at hy ⊢; rwa [List.getLast?_cons_cons] at hy
          have := ih (b := ⟨a.time, b.level a.time - 200⟩) hp'.2 hp'.1 hs hy'
          rw [hl''] at this
          simp only [List.length_cons] at this ⊢
          omega
    · exact ih hp'.2 (fun x hx => hl x (by simp [hx])) hs hy

theorem sends_from : ∀ (as : List Asked) {b : Bucket}, as.Pairwise (fun a b => a.time ≤ b.time) → (∀ x ∈ as, b.last ≤ x.time) →
    ∀ {t : Nat}, (∀ x ∈ as, t ≤ x.time) → ∀ y ∈ sends b as, t ≤ y := by
  intro as
  induction as with
  | nil => intro b _ _ t _ y hy; simp [sends, bucketRun] at hy
  | cons a as ih =>
    intro b hp hl t h y hy
    have hp' := List.pairwise_cons.mp hp
    rw [sends_cons (hl a (by simp))] at hy
    have h2 := h a (by simp)
    split at hy
    · rw [List.mem_cons] at hy
      rcases hy with hy | hy
      · omega
      · exact ih (b := ⟨a.time, b.level a.time - 200⟩) hp'.2 hp'.1 (fun x hx => h x (by simp [hx])) y hy
    · exact ih hp'.2 (fun x hx => hl x (by simp [hx])) (fun x hx => h x (by simp [hx])) y hy

/-- The first and the last of some requests. -/
theorem sends_spread : ∀ (as : List Asked) {b : Bucket}, as.Pairwise (fun a b => a.time ≤ b.time) → (∀ x ∈ as, b.last ≤ x.time) →
    ∀ {x y : Nat} {l' : List Nat}, (x :: l').Sublist (sends b as) → (x :: l').getLast? = some y →
    x ≤ y ∧ 200 * (x :: l').length ≤ 20000 + (y - x) := by
  intro as
  induction as with
  | nil =>
    intro b _ _ x y l' hs _
    simp [sends, bucketRun] at hs
  | cons a as ih =>
    intro b hp hl x y l' hs hy
    have ht := hl a (by simp)
    have hp' := List.pairwise_cons.mp hp
    rw [sends_cons ht] at hs
    split at hs
    · cases hs with
      | cons _ hs => exact ih (b := ⟨a.time, b.level a.time - 200⟩) hp'.2 hp'.1 hs hy
      | cons_cons _ hs =>
        cases hl' : l' with
        | nil =>
          subst hl'
          simp only [List.getLast?_singleton, Option.some.injEq] at hy
          subst hy
          exact ⟨Nat.le_refl _, by simp⟩
        | cons z zs =>
          have hy' : l'.getLast? = some y := by rw [hl'] at hy ⊢; rwa [List.getLast?_cons_cons] at hy
          have h1 := sends_low as (b := ⟨a.time, b.level a.time - 200⟩) hp'.2 hp'.1 hs hy'
          have h2 := sends_from as (b := ⟨a.time, b.level a.time - 200⟩) hp'.2 hp'.1 hp'.1 y (hs.subset (List.mem_of_getLast? hy'))
          have h3 : b.level a.time ≤ 20000 := by unfold Bucket.level; omega
          rw [hl'] at h1
          simp only [List.length_cons] at h1 ⊢
          omega
    · exact ih hp'.2 (fun x hx => hl x (by simp [hx])) hs hy

/-- The limiter after `n` requests at one moment. -/
theorem bucketRun_burst {a : Asked} {rest : List Asked} : ∀ (n : Nat) {c : Int}, c ≤ 20000 → 200 * (n : Int) ≤ c + a.limit →
    ∃ log, bucketRun ⟨a.time, c⟩ (List.replicate n a ++ rest) = log ++ bucketRun ⟨a.time, c - 200 * n⟩ rest := by
  intro n
  induction n with
  | zero => intro c _ _; exact ⟨[], by simp⟩
  | succ n ih =>
    intro c hc hn
    rw [List.replicate_succ, List.cons_append, bucketRun, reserve_snd (Nat.le_refl _)]
    have hlev : Bucket.level ⟨a.time, c⟩ a.time = c := by unfold Bucket.level; simp only [Nat.sub_self]; omega
    rw [hlev, if_pos (by omega)]
    obtain ⟨log, hlog⟩ := ih (c := c - 200) (by omega) (by omega)
    rw [hlog]
    have : c - 200 - 200 * (n : Int) = c - 200 * ((n + 1 : Nat) : Int) := by omega
    rw [this]
    exact ⟨(a, _) :: log, rfl⟩

/-- `n` requests at the start, and one more. -/
theorem throttle_burst {a z : Asked} {n : Nat} (ha : a.time = 0) (hz : z.cluster = a.cluster) (hn : 200 * n ≤ 20000 + a.limit) :
    (throttle (fun _ => {}) (List.replicate n a ++ [z])).getLast? =
      some (z, (Bucket.reserve ⟨0, 20000 - 200 * (n : Int)⟩ z.time z.limit).1) := by
  have hall : ∀ (as : List Asked) (s : Str → Bucket), (∀ x ∈ as, x.cluster = a.cluster) →
      throttle s as = bucketRun (s a.cluster) as := by
    intro as
    induction as with
    | nil => intro s _; rfl
    | cons x as ih =>
      intro s h
      rw [throttle, bucketRun, ih _ fun y hy => h y (by simp [hy]), h x (by simp)]
      simp
  rw [hall]
  · have hb : ({} : Bucket) = ⟨a.time, 20000⟩ := by rw [ha]; rfl
    obtain ⟨log, hlog⟩ := bucketRun_burst (a := a) (rest := [z]) n (c := 20000) (by omega) (by omega)
    rw [hb, hlog, bucketRun, bucketRun, ha]
    simp
  · intro x hx
    simp only [List.mem_append, List.mem_replicate, List.mem_singleton] at hx
    rcases hx with ⟨_, rfl⟩ | rfl
    · rfl
    · exact hz

/-- Requests that are at least 200 ms apart. -/
theorem spaced_count : ∀ (l : List Nat) {t s : Nat}, l.Pairwise (fun x y => x + 200 ≤ y) → (∀ x ∈ l, x + 200 ≤ t) → s ≤ t →
    200 * l.countP (s ≤ ·) ≤ t - s := by
  intro l
  induction l with
  | nil => intro t s _ _ _; simp
  | cons x l ih =>
    intro t s hp h hs
    have hp' := List.pairwise_cons.mp hp
    have hx := h x (by simp)
    rw [List.countP_cons]
    by_cases hsx : s ≤ x
    · have e : l.countP (s ≤ ·) = l.countP (x + 200 ≤ ·) := by
        apply List.countP_congr
        intro y hy
        have := hp'.1 y hy
        simp only [decide_eq_true_eq]
        omega
      have := ih (t := t) (s := x + 200) hp'.2 (fun y hy => h y (by simp [hy])) hx
      rw [e]
      simp only [hsx, decide_true, if_true]
      omega
    · have := ih (t := t) (s := s) hp'.2 (fun y hy => h y (by simp [hy])) hs
      simp only [hsx, decide_false, Bool.false_eq_true, if_false]
      omega

end Ckube

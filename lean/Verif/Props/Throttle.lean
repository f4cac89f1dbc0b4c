import Verif.Lemmas.Throttle

/-! # C131: requests are forwarded without delay -/

namespace Ckube
open Spec

/-- Which requests are sent and how long they wait for it, exactly: every request waits for the shortest time that keeps the limit of 100 requests at a
time and 5 more per second, together with the earlier requests to its cluster, and is refused at once if this is longer than a minute, or half an
hour for a watch. -/
theorem C131_exact {as : List Asked} {log pre post : List (Asked × Option Nat)} {a : Asked} {r : Option Nat} (h : Spec.Forwarded as log)
    (hlog : log = pre ++ (a, r) :: post) :
    ∃ d, Shortest (madeAt a.cluster pre) a.time d ∧
      (r = some d ∧ d ≤ (if a.watch then 1800000 else 60000) ∨ r = none ∧ (if a.watch then 1800000 else 60000) < d) := by
  obtain ⟨hp, rfl⟩ := h
  obtain ⟨s', as', h1, h2, h3, h4⟩ := throttle_split (L := fun _ => 1800000) as (done := []) hp (fun _ _ _ => Nat.zero_le _)
    (fun _ => LimKept.new _) hlog (fun e _ => by rw [limit_eq]; split <;> omega)
  cases as' with
  | nil => simp [throttle] at h1
  | cons x as' =>
    rw [throttle] at h1
    injection h1 with h1 h1'
    injection h1 with ha hr
    subst ha
    have ht := h3 a.cluster a List.mem_cons_self
    refine ⟨_, (h4 a.cluster).shortest ht, ?_⟩
    rw [reserve_fst] at hr
    rw [← limit_eq, hr]
    split
    · rename_i hle; exact .inl ⟨rfl, hle⟩
    · rename_i hle; exact .inr ⟨rfl, by omega⟩

/-- **C131** for clients that keep the limit: a request is sent at once if it, together with the earlier ones to its cluster, keeps the limit. -/
theorem C131_prompt_partial {as : List Asked} {log pre post : List (Asked × Option Nat)} {a : Asked} {r : Option Nat}
    (h : Spec.Forwarded as log) (hlog : log = pre ++ (a, r) :: post) (hfit : Fits (madeAt a.cluster pre) a.time 0) : r = some 0 := by
  obtain ⟨d, ⟨_, hmin⟩, hr⟩ := C131_exact h hlog
  have : d = 0 := by have := hmin 0 hfit; omega
  subst this
  rcases hr with ⟨rfl, _⟩ | ⟨_, hlt⟩
  · rfl
  · omega

/-- Requests to a cluster that are at least 200 ms apart are sent at once, however many they are. -/
theorem C131_steady {as : List Asked} {log : List (Asked × Option Nat)} {c : Str} (h : Spec.Forwarded as log)
    (hs : (as.filter fun a => a.cluster = c).Pairwise fun a b => a.time + 200 ≤ b.time) {a : Asked} {r : Option Nat} (hm : (a, r) ∈ log)
    (hc : a.cluster = c) : r = some 0 := by
  obtain ⟨pre, post, hlog⟩ := List.append_of_mem hm
  subst hc
  refine C131_prompt_partial h hlog ?_
  obtain ⟨hp, hl⟩ := h
  have hmap : ∀ (as : List Asked) (s : Str → Bucket), (throttle s as).map Prod.fst = as := by
    intro as
    induction as with
    | nil => intro s; rfl
    | cons x as ih => intro s; rw [throttle, List.map_cons, ih]
  have has : as = pre.map Prod.fst ++ a :: post.map Prod.fst := by
    have := hmap as fun _ => {}
    rw [← hl, hlog] at this
    rw [← this]; simp
  have hsub : (madeAt a.cluster pre).Sublist (((pre.map Prod.fst).filter fun x => x.cluster = a.cluster).map Asked.time) := by
    have e : ((pre.map Prod.fst).filter fun x => x.cluster = a.cluster).map Asked.time =
        (pre.filter fun e => e.1.cluster = a.cluster).map fun e => e.1.time := by
      rw [List.filter_map, List.map_map]; rfl
    rw [e]
    unfold madeAt
    refine List.Sublist.map _ ?_
    have : (pre.filter fun e => decide (e.1.cluster = a.cluster ∧ e.2 ≠ none)) =
        (pre.filter fun e => e.1.cluster = a.cluster).filter fun e => decide (e.2 ≠ none) := by
      rw [List.filter_filter]
      congr 1
      funext e
      by_cases h1 : e.1.cluster = a.cluster <;> simp [h1]
    rw [this]
    exact List.filter_sublist
  rw [has, List.filter_append, List.pairwise_append] at hs
  obtain ⟨h1, _, h3⟩ := hs
  have hpw : (madeAt a.cluster pre).Pairwise fun x y => x + 200 ≤ y := by
    refine List.Pairwise.sublist hsub ?_
    rw [List.pairwise_map]
    exact h1
  have hle : ∀ x ∈ madeAt a.cluster pre, x + 200 ≤ a.time := by
    intro x hx
    obtain ⟨y, hy, rfl⟩ := List.mem_map.mp (hsub.subset hx)
    exact h3 y hy a (by simp)
  intro s hst
  have := spaced_count _ hpw hle hst
  omega

/-- After a pause, ckube is as good as new: when the requests to a cluster before the last 99 were made 80 seconds ago or earlier, or half an hour and 20
seconds if there is a watch among them, a request is sent at once. -/
theorem C131_recovers {as : List Asked} {log old new post : List (Asked × Option Nat)} {a : Asked} {r : Option Nat} {L : Nat}
    (h : Spec.Forwarded as log) (hlog : log = old ++ new ++ (a, r) :: post)
    (hL : L = 1800000 ∨ L = 60000 ∧ ∀ e ∈ old, e.1.cluster = a.cluster → e.1.watch = false)
    (hold : ∀ e ∈ old, e.1.cluster = a.cluster → e.1.time + L + 20000 ≤ a.time)
    (hnew : (new.filter fun e => e.1.cluster = a.cluster).length ≤ 99) : r = some 0 := by
  refine C131_prompt_partial h hlog ?_
  obtain ⟨hp, rfl⟩ := h
  rw [List.append_assoc] at hlog
  obtain ⟨s', as', h1, h2, h3, h4⟩ := throttle_split (L := fun c => if c = a.cluster then L else 1800000) as (done := []) hp
    (fun _ _ _ => Nat.zero_le _) (fun _ => LimKept.new _) hlog (by
      intro e he
      rw [limit_eq]
      split
      · rename_i hw
        split
        · rename_i hc
          rcases hL with rfl | ⟨_, hno⟩
          · exact Nat.le_refl _
          · rw [hno e he hc] at hw; simp at hw
        · exact Nat.le_refl _
      · split
        · rcases hL with rfl | ⟨rfl, _⟩ <;> omega
        · omega)
  have hk := h4 a.cluster
  rw [if_pos rfl, List.nil_append] at hk
  have hcn : ∀ s, (madeAt a.cluster new).countP (s ≤ ·) ≤ 99 := by
    intro s
    refine Nat.le_trans List.countP_le_length (Nat.le_trans ?_ hnew)
    unfold madeAt
    rw [List.length_map]
    refine List.Sublist.length_le ?_
    have : (new.filter fun e => decide (e.1.cluster = a.cluster ∧ e.2 ≠ none)) =
        (new.filter fun e => e.1.cluster = a.cluster).filter fun e => decide (e.2 ≠ none) := by
      rw [List.filter_filter]
      congr 1
      funext e
      by_cases h1 : e.1.cluster = a.cluster <;> simp [h1]
    rw [this]
    exact List.filter_sublist
  intro s hs
  rw [madeAt_append, List.countP_append]
  have hc := hcn s
  by_cases hl : s ≤ (s' a.cluster).last
  · have hb := hk.below s hl
    have hf := hk.floor
    rcases hk.from_ with h0 | hmem
    · cases hm : madeAt a.cluster old with
      | nil => rw [List.countP_nil]; omega
      | cons x xs =>
        have hx : x ∈ madeAt a.cluster old := by rw [hm]; simp
        obtain ⟨e, he, hex⟩ := List.mem_map.mp hx
        rw [List.mem_filter] at he
        have hce : e.1.cluster = a.cluster := (of_decide_eq_true he.2).1
        have := hold e he.1 hce
        rw [hm] at hb
        omega
    · obtain ⟨e, he, hex⟩ := List.mem_map.mp hmem
      rw [List.mem_filter] at he
      have hce : e.1.cluster = a.cluster := (of_decide_eq_true he.2).1
      have := hold e he.1 hce
      omega
  · have := hk.none_after (s := s) (by omega)
    omega

/-- Requests to one cluster neither delay nor refuse requests to another: what happens to those of a cluster is what would happen without the others. -/
theorem C131_apart {as : List Asked} {log : List (Asked × Option Nat)} (h : Spec.Forwarded as log) (c : Str) :
    Spec.Forwarded (as.filter fun a => a.cluster = c) (log.filter fun e => e.1.cluster = c) := by
  obtain ⟨hp, rfl⟩ := h
  refine ⟨hp.filter _, ?_⟩
  have h2 := throttle_filter c (as.filter fun a => a.cluster = c) fun _ => {}
  rw [List.filter_filter] at h2
  simp only [Bool.and_self] at h2
  rw [throttle_filter, ← h2, List.filter_eq_self]
  intro e he
  have hm : ∀ (as : List Asked) (s : Str → Bucket), ∀ e ∈ throttle s as, e.1 ∈ as := by
    intro as
    induction as with
    | nil => intro s e he; simp [throttle] at he
    | cons x as ih =>
      intro s e he
      rw [throttle, List.mem_cons] at he
      rcases he with rfl | he
      · exact List.mem_cons_self
      · exact List.mem_cons_of_mem _ (ih _ e he)
  have := hm _ _ e he
  rw [List.mem_filter] at this
  exact this.2

/-- What API servers are spared: in any stretch of `d` milliseconds, a cluster gets at most 100 requests and one for every 200 ms of it. -/
theorem C131_rate {as : List Asked} {log : List (Asked × Option Nat)} (h : Spec.Forwarded as log) (c : Str) (t d : Nat) :
    200 * (sentTo c log).countP (fun x => t ≤ x ∧ x ≤ t + d) ≤ 20000 + d := by
  obtain ⟨hp, rfl⟩ := h
  rw [sentTo_eq, throttle_filter, List.countP_eq_length_filter]
  cases hf : ((bucketRun {} (as.filter fun a => a.cluster = c)).filterMap fun e => e.2.map (e.1.time + ·)).filter
    (fun x => decide (t ≤ x ∧ x ≤ t + d)) with
  | nil => simp
  | cons x l =>
    have hsub : (x :: l).Sublist (sends {} (as.filter fun a => a.cluster = c)) := by rw [← hf]; exact List.filter_sublist
    obtain ⟨y, hy⟩ : ∃ y, (x :: l).getLast? = some y := ⟨(x :: l).getLast (by simp), List.getLast?_eq_some_getLast (by simp)⟩
    have h1 := sends_spread _ (hp.filter _) (fun _ _ => Nat.zero_le _) hsub hy
    have hin : ∀ z ∈ x :: l, t ≤ z ∧ z ≤ t + d := by
      intro z hz
      rw [← hf, List.mem_filter] at hz
      exact of_decide_eq_true hz.2
    have hx := hin x (by simp)
    have hy' := hin y (List.mem_of_getLast? hy)
    omega

/-- Requests to a cluster are sent in the order in which they were made. -/
theorem C131_order {as : List Asked} {log : List (Asked × Option Nat)} (h : Spec.Forwarded as log) (c : Str) :
    (sentTo c log).Pairwise (· ≤ ·) := by
  obtain ⟨hp, rfl⟩ := h
  rw [sentTo_eq, throttle_filter, List.pairwise_iff_forall_sublist]
  intro x y hs
  exact (sends_spread _ (hp.filter _) (fun _ _ => Nat.zero_le _) (y := y) hs rfl).1

/-! ## Counterexamples -/

/-- Requests of one kind at one moment. -/
def exBurst (n : Nat) (w : Bool) (z : Asked) : List Asked := List.replicate n ⟨lit "c1", w, 0⟩ ++ [z]

theorem exBurst_length (n : Nat) (w : Bool) (z : Asked) : (exBurst n w z).length = n + 1 := by
  unfold exBurst
  rw [List.length_append, List.length_replicate, List.length_singleton]

theorem exBurst_log {n : Nat} {w : Bool} {z : Asked} (hz : z.cluster = lit "c1") (hn : 200 * n ≤ 20000 + if w then 1800000 else 60000) :
    Spec.Forwarded (exBurst n w z) (throttle (fun _ => {}) (exBurst n w z)) ∧
      (throttle (fun _ => {}) (exBurst n w z)).getLast? = some (z, (Bucket.reserve ⟨0, 20000 - 200 * (n : Int)⟩ z.time z.limit).1) := by
  refine ⟨⟨?_, rfl⟩, throttle_burst (a := ⟨lit "c1", w, 0⟩) rfl hz (by rw [limit_eq]; exact hn)⟩
  unfold exBurst
  rw [List.pairwise_append]
  refine ⟨?_, List.pairwise_singleton _ _, ?_⟩
  · rw [List.pairwise_replicate]; exact .inr (Nat.le_refl _)
  · intro a ha b _
    rw [List.mem_replicate] at ha
    rw [ha.2]
    exact Nat.zero_le _

/-- **C131 is false** for the 101st request at a time: it waits for 200 ms, though its API server is idle. -/
theorem C131_false : ∃ as log, Spec.Forwarded as log ∧ as.length = 101 ∧
    log.getLast? = some (⟨lit "c1", false, 0⟩, some 200) :=
  ⟨_, _, (exBurst_log (n := 100) (w := false) (z := ⟨lit "c1", false, 0⟩) rfl (by decide)).1, exBurst_length _ _ _,
    (exBurst_log (n := 100) (w := false) (z := ⟨lit "c1", false, 0⟩) rfl (by decide)).2.trans (by decide +kernel)⟩

/-- The 400th request at a time is sent when its minute is over. -/
theorem C131_false_late : ∃ as log, Spec.Forwarded as log ∧ as.length = 400 ∧
    log.getLast? = some (⟨lit "c1", false, 0⟩, some 60000) :=
  ⟨_, _, (exBurst_log (n := 399) (w := false) (z := ⟨lit "c1", false, 0⟩) rfl (by decide)).1, exBurst_length _ _ _,
    (exBurst_log (n := 399) (w := false) (z := ⟨lit "c1", false, 0⟩) rfl (by decide)).2.trans (by decide +kernel)⟩

/-- **C131 is false** for the 401st request at a time: it is refused without being sent. -/
theorem C131_false_refused : ∃ as log, Spec.Forwarded as log ∧ as.length = 401 ∧
    log.getLast? = some (⟨lit "c1", false, 0⟩, none) :=
  ⟨_, _, (exBurst_log (n := 400) (w := false) (z := ⟨lit "c1", false, 0⟩) rfl (by decide)).1, exBurst_length _ _ _,
    (exBurst_log (n := 400) (w := false) (z := ⟨lit "c1", false, 0⟩) rfl (by decide)).2.trans (by decide +kernel)⟩

/-- **C131 is false** behind watches: after 9100 watches at a time, a request that is none is refused even if it comes alone and 29 minutes
later. -/
theorem C131_false_watches (t : Nat) (ht : t ≤ 29 * 60 * 1000) : ∃ as log, Spec.Forwarded as log ∧
    as = List.replicate 9100 ⟨lit "c1", true, 0⟩ ++ [⟨lit "c1", false, t⟩] ∧ log.getLast? = some (⟨lit "c1", false, t⟩, none) := by
  have h := exBurst_log (n := 9100) (w := true) (z := ⟨lit "c1", false, t⟩) rfl (by decide)
  refine ⟨_, _, h.1, rfl, h.2.trans ?_⟩
  rw [reserve_fst, if_neg]
  rw [limit_eq]
  unfold Bucket.level
  simp only [Bool.false_eq_true, if_false]
  omega

/-! ## Examples -/

/-- Three requests to two clusters. -/
def exTrio : List Asked := [⟨lit "c1", false, 5⟩, ⟨lit "c2", true, 7⟩, ⟨lit "c1", false, 300⟩]

theorem exTrio_log : Spec.Forwarded exTrio (throttle (fun _ => {}) exTrio) := ⟨by decide +kernel, rfl⟩

example : throttle (fun _ => {}) exTrio = exTrio.map fun a => (a, some 0) := by decide +kernel

example : Fits (madeAt (lit "c1") [(⟨lit "c1", false, 5⟩, some 0), (⟨lit "c2", true, 7⟩, some 0)]) 300 0 := by
  have h : madeAt (lit "c1") [(⟨lit "c1", false, 5⟩, some 0), (⟨lit "c2", true, 7⟩, some 0)] = [5] := by decide +kernel
  rw [h]
  intro s hs
  have := List.countP_le_length (p := fun x => decide (s ≤ x)) (l := [5])
  simp only [List.length_singleton] at this
  omega

example : (exTrio.filter fun a => a.cluster = lit "c1").Pairwise fun a b => a.time + 200 ≤ b.time := by decide +kernel

example : ∃ old new post, throttle (fun _ => {}) (exTrio ++ [⟨lit "c1", false, 90000⟩]) = old ++ new ++ (⟨lit "c1", false, 90000⟩, some 0) :: post ∧
    old ≠ [] ∧ (∀ e ∈ old, e.1.cluster = lit "c1" → e.1.time + 60000 + 20000 ≤ 90000) :=
  ⟨exTrio.map fun a => (a, some 0), [], [], by decide +kernel, by decide +kernel, by decide +kernel⟩

example : sentTo (lit "c1") (throttle (fun _ => {}) exTrio) = [5, 300] := by decide +kernel

end Ckube

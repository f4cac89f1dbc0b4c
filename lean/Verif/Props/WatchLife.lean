import Verif.Model.WatchLife
import Verif.Props.Stream
import Mathlib.Data.List.Induction

/-! # C123: a proxied watch ends when its client goes away -/

namespace Ckube

namespace Spec

/-- The reasons for which the `i`-th watch is over after the history `h`: its stream ended, its time was over, or a byte came after its client
had gone. -/
def Over (h : List WLStep) (i : Nat) : Prop :=
  .fail i ∈ h ∨ .expire i ∈ h ∨ ∃ pre post b, h = pre ++ .byte i b :: post ∧ .leave i ∈ pre

/-- The watch a step is about. -/
def About : WLStep → Option Nat
  | .opens => none
  | .byte i _ => some i
  | .fail i => some i
  | .expire i => some i
  | .leave i => some i
  | .tick _ => none

/-- The bytes that the API server sent on the stream of the `i`-th watch. -/
def streamed (h : List WLStep) (i : Nat) : Str :=
  h.filterMap fun x => match x with
    | .byte j b => if j = i then some b else none
    | _ => none

end Spec

open Spec

theorem copyLoop_snoc_waits (r : Rd) : ∀ (rs : List Rd) (buf : Str),
    (match (copyLoop buf (rs ++ [r])).2 with | .returned => false | .waits _ => true)
      = ((match (copyLoop buf rs).2 with | .returned => false | .waits _ => true) && !r.err && !r.gone) := by
  intro rs
  induction rs with
  | nil =>
    intro buf
    rw [List.nil_append, copyLoop, copyLoop]
    cases he : r.err <;> cases hg : r.gone <;> simp [copyLoop]
  | cons x rs ih =>
    intro buf
    rw [List.cons_append, copyLoop, copyLoop]
    cases he : x.err <;> cases hg : x.gone
    · simp only [Bool.false_eq_true, if_false]
      exact ih _
    · simp
    · simp
    · simp

theorem WSess.running_read (s : WSess) (d : Option UInt8) (e : Bool) :
    (s.read d e).running = (s.running && !e && !s.gone) := copyLoop_snoc_waits _ _ _

theorem WLife.run_snoc (x : WLStep) : ∀ (h : List WLStep) (w : WLife), w.run (h ++ [x]) = (w.run h).bind fun w' => w'.step x := by
  intro h
  induction h with
  | nil => intro w; simp [WLife.run]
  | cons y h ih =>
    intro w
    rw [List.cons_append, WLife.run, WLife.run]
    cases w.step y with
    | none => rfl
    | some w' => exact ih w'

theorem Over.snoc {h : List WLStep} {i : Nat} (x : WLStep) : Over (h ++ [x]) i ↔
    Over h i ∨ x = .fail i ∨ x = .expire i ∨ ((∃ b, x = .byte i b) ∧ .leave i ∈ h) := by
  unfold Over
  constructor
  · rintro (hm | hm | ⟨pre, post, b, he, hl⟩)
    · rcases List.mem_append.mp hm with hm | hm
      · exact Or.inl (Or.inl hm)
      · exact Or.inr (Or.inl (List.mem_singleton.mp hm).symm)
    · rcases List.mem_append.mp hm with hm | hm
      · exact Or.inl (Or.inr (Or.inl hm))
      · exact Or.inr (Or.inr (Or.inl (List.mem_singleton.mp hm).symm))
    · rcases List.eq_nil_or_concat post with rfl | ⟨post', y, rfl⟩
      · obtain ⟨h1, h2⟩ := List.append_inj' he rfl
        refine Or.inr (Or.inr (Or.inr ⟨⟨b, ?_⟩, h1 ▸ hl⟩))
        simpa using h2
      · rw [List.concat_eq_append, ← List.cons_append, ← List.append_assoc] at he
        obtain ⟨h1, h2⟩ := List.append_inj' he rfl
        exact Or.inl (Or.inr (Or.inr ⟨pre, post', b, h1, hl⟩))
  · rintro ((hm | hm | ⟨pre, post, b, rfl, hl⟩) | rfl | rfl | ⟨⟨b, rfl⟩, hl⟩)
    · exact Or.inl (List.mem_append_left _ hm)
    · exact Or.inr (Or.inl (List.mem_append_left _ hm))
    · exact Or.inr (Or.inr ⟨pre, post ++ [x], b, by simp, hl⟩)
    · exact Or.inl (by simp)
    · exact Or.inr (Or.inl (by simp))
    · exact Or.inr (Or.inr ⟨h, [], b, rfl, hl⟩)

theorem streamed_other {h : List WLStep} {i : Nat} {x : WLStep} (hx : ∀ b, x ≠ .byte i b) : streamed (h ++ [x]) i = streamed h i := by
  unfold streamed
  rw [List.filterMap_append]
  cases x with
  | byte j b =>
    have : j ≠ i := fun hc => hx b (by rw [hc])
    simp [this]
  | _ => simp

theorem streamed_byte {h : List WLStep} {i : Nat} (b : UInt8) : streamed (h ++ [.byte i b]) i = streamed h i ++ [b] := by
  unfold streamed
  rw [List.filterMap_append]
  simp

theorem streamed_none {h : List WLStep} {i : Nat} (hx : ∀ y ∈ h, About y ≠ some i) : streamed h i = [] := by
  unfold streamed
  rw [List.filterMap_eq_nil_iff]
  intro y hy
  cases y with
  | byte j b =>
    have : j ≠ i := fun hc => hx _ hy (by rw [hc]; rfl)
    simp [this]
  | _ => rfl

/-- What holds of a watch after a history. -/
structure WSess.After (h : List WLStep) (i : Nat) (s : WSess) (now : Nat) : Prop where
  gone : s.gone = true ↔ .leave i ∈ h
  over : s.running = false ↔ Over h i
  past : s.since ≤ now
  young : s.running = true → now ≤ s.since + watchTimeout
  bytes : s.running = true → s.reads = (streamed h i).map fun b => ⟨some b, false, false⟩

theorem WSess.After.other {h : List WLStep} {i : Nat} {s : WSess} {now : Nat} (hs : s.After h i now) {x : WLStep}
    (hx : About x ≠ some i) : s.After (h ++ [x]) i now := by
  refine ⟨?_, ?_, hs.past, hs.young, fun hr => by rw [streamed_other (fun b hc => hx (by rw [hc]; rfl)), hs.bytes hr]⟩
  · rw [hs.gone, List.mem_append, List.mem_singleton]
    constructor
    · exact Or.inl
    · rintro (hm | rfl)
      · exact hm
      · exact absurd rfl hx
  · rw [hs.over, Over.snoc]
    constructor
    · exact Or.inl
    · rintro (hm | rfl | rfl | ⟨⟨b, rfl⟩, _⟩)
      · exact hm
      · exact absurd rfl hx
      · exact absurd rfl hx
      · exact absurd rfl hx

theorem WLife.run_inv (h : List WLStep) : ∀ w, WLife.run {} h = some w →
    (∀ x ∈ h, ∀ i, About x = some i → i < w.sess.length) ∧ ∀ (i : Nat) (s : WSess), w.sess[i]? = some s → s.After h i w.now := by
  induction h using List.reverseRecOn with
  | nil =>
    intro w hw
    obtain rfl : ({} : WLife) = w := Option.some.inj hw
    exact ⟨by simp, by simp⟩
  | append_singleton h x ih =>
    intro w' hw
    rw [WLife.run_snoc] at hw
    obtain ⟨w, hw1, hw2⟩ := Option.bind_eq_some_iff.mp hw
    obtain ⟨hlen, hinv⟩ := ih w hw1
    clear hw
    -- a step that changes one watch
    have keyset : ∀ (i : Nat) (s s' : WSess), w.sess[i]? = some s → w' = { w with sess := w.sess.set i s' } → About x = some i →
        s'.After (h ++ [x]) i w.now → (∀ y ∈ h ++ [x], ∀ j, About y = some j → j < w'.sess.length) ∧
          ∀ (j : Nat) (t : WSess), w'.sess[j]? = some t → t.After (h ++ [x]) j w'.now := by
      intro i s s' hs he hx ha
      subst he
      have hi : i < w.sess.length := (List.getElem?_eq_some_iff.mp hs).1
      constructor
      · intro y hy j hj
        simp only [List.length_set]
        rcases List.mem_append.mp hy with hy | hy
        · exact hlen y hy j hj
        · rw [List.mem_singleton.mp hy, hx] at hj
          exact Option.some.inj hj ▸ hi
      · intro j t ht
        by_cases hji : i = j
        · subst hji
          simp only [List.getElem?_set, hi, if_true] at ht
          exact Option.some.inj ht ▸ ha
        · simp only [List.getElem?_set, if_neg hji] at ht
          exact (hinv j t ht).other (by rw [hx]; intro hc; exact hji (Option.some.inj hc))
    cases x with
    | opens =>
      obtain rfl := Option.some.inj hw2
      have hnew : ∀ y ∈ h, About y ≠ some w.sess.length := fun y hy hc => Nat.lt_irrefl _ (hlen y hy _ hc)
      constructor
      · intro y hy j hj
        rw [List.length_append]
        rcases List.mem_append.mp hy with hy | hy
        · exact Nat.lt_add_right _ (hlen y hy j hj)
        · rw [List.mem_singleton.mp hy] at hj; cases hj
      · intro j t ht
        rcases Nat.lt_or_ge j w.sess.length with hj | hj
        · rw [List.getElem?_append_left hj] at ht
          exact (hinv j t ht).other (by simp [About])
        · rw [List.getElem?_append_right hj] at ht
          have hj0 : j - w.sess.length = 0 := by
            rcases Nat.eq_zero_or_pos (j - w.sess.length) with h0 | h0
            · exact h0
            · rw [List.getElem?_eq_none (by simpa using Nat.succ_le_of_lt h0)] at ht; cases ht
          have hjl : j = w.sess.length := by omega
          rw [hj0] at ht
          obtain rfl : (⟨w.now, false, []⟩ : WSess) = t := by simpa using ht
          subst hjl
          refine WSess.After.other (h := h) ⟨?_, ?_, Nat.le_refl _, fun _ => Nat.le_add_right _ _,
            fun _ => by rw [streamed_none hnew]; rfl⟩ (by simp [About])
          · constructor
            · intro hc; cases hc
            · intro hc; exact absurd rfl (hnew _ hc)
          · constructor
            · intro hc; cases hc
            · rintro (hc | hc | ⟨pre, post, b, rfl, _⟩)
              · exact absurd rfl (hnew _ hc)
              · exact absurd rfl (hnew _ hc)
              · exact absurd rfl (hnew (.byte w.sess.length b) (by simp))
    | byte i b =>
      simp only [WLife.step] at hw2
      cases hs : w.sess[i]? with
      | none => rw [hs] at hw2; cases hw2
      | some s =>
        rw [hs] at hw2
        simp only at hw2
        cases hr : s.running with
        | false => rw [hr] at hw2; cases hw2
        | true =>
          rw [hr, if_pos rfl] at hw2
          have ha := hinv i s hs
          have hno : ¬ Over h i := fun hc => by rw [ha.over.mpr hc] at hr; cases hr
          refine keyset i s _ hs (Option.some.inj hw2).symm rfl ⟨?_, ?_, ha.past, fun _ => ha.young hr, fun hr' => ?_⟩
          rotate_left 2
          · rw [WSess.running_read, hr] at hr'
            have hg : s.gone = false := by simpa using hr'
            rw [streamed_byte, List.map_append, ← ha.bytes hr]
            simp [WSess.read, hg]
          · show s.gone = true ↔ _
            rw [ha.gone]; simp
          · rw [WSess.running_read, hr, Over.snoc, ← ha.gone]
            cases hg : s.gone <;> simp [hno]
    | fail i =>
      simp only [WLife.step] at hw2
      cases hs : w.sess[i]? with
      | none => rw [hs] at hw2; cases hw2
      | some s =>
        rw [hs] at hw2
        simp only at hw2
        cases hr : s.running with
        | false => rw [hr] at hw2; cases hw2
        | true =>
          rw [hr, if_pos rfl] at hw2
          have ha := hinv i s hs
          refine keyset i s _ hs (Option.some.inj hw2).symm rfl ⟨?_, ?_, ha.past, fun _ => ha.young hr,
            fun hr' => by rw [WSess.running_read] at hr'; simp at hr'⟩
          · show s.gone = true ↔ _
            rw [ha.gone]; simp
          · rw [WSess.running_read, hr, Over.snoc]
            simp
    | expire i =>
      simp only [WLife.step] at hw2
      cases hs : w.sess[i]? with
      | none => rw [hs] at hw2; cases hw2
      | some s =>
        rw [hs] at hw2
        simp only at hw2
        cases hr : s.running with
        | false => rw [hr] at hw2; cases hw2
        | true =>
          by_cases ht : s.since + watchTimeout ≤ w.now
          · rw [hr, decide_eq_true ht, Bool.and_self, if_pos rfl] at hw2
            have ha := hinv i s hs
            refine keyset i s _ hs (Option.some.inj hw2).symm rfl ⟨?_, ?_, ha.past, fun _ => ha.young hr,
            fun hr' => by rw [WSess.running_read] at hr'; simp at hr'⟩
            · show s.gone = true ↔ _
              rw [ha.gone]; simp
            · rw [WSess.running_read, hr, Over.snoc]
              simp
          · rw [hr, decide_eq_false ht] at hw2; cases hw2
    | leave i =>
      simp only [WLife.step] at hw2
      cases hs : w.sess[i]? with
      | none => rw [hs] at hw2; cases hw2
      | some s =>
        rw [hs] at hw2
        simp only at hw2
        have ha := hinv i s hs
        refine keyset i s _ hs (Option.some.inj hw2).symm rfl ⟨?_, ?_, ha.past, ha.young,
          fun hr => by rw [streamed_other (by simp)]; exact ha.bytes hr⟩
        · simp
        · show s.running = false ↔ _
          rw [ha.over, Over.snoc]; simp
    | tick d =>
      simp only [WLife.step] at hw2
      by_cases hall : (w.sess.all fun s => !s.running || decide (w.now + d ≤ s.since + watchTimeout)) = true
      · rw [if_pos hall] at hw2
        obtain rfl := Option.some.inj hw2
        constructor
        · intro y hy j hj
          rcases List.mem_append.mp hy with hy | hy
          · exact hlen y hy j hj
          · rw [List.mem_singleton.mp hy] at hj; cases hj
        · intro j t ht
          have ha := (hinv j t ht).other (x := .tick d) (by simp [About])
          refine ⟨ha.gone, ha.over, Nat.le_trans ha.past (Nat.le_add_right _ _), fun hr => ?_, ha.bytes⟩
          have := List.all_eq_true.mp hall t (List.mem_of_getElem? ht)
          rw [hr] at this
          simpa using this
      · rw [if_neg hall] at hw2; cases hw2

/-- **C123**, exactly: in whatever way the watches, their clients and the API servers interleave, a watch is over precisely when its stream ended, when
its half hour was over, or when a byte came on its stream after its client had gone. Nothing that happens to other watches ends it. -/
theorem C123_exact {h : List WLStep} {w : WLife} (hr : WLife.run {} h = some w) {i : Nat} {s : WSess} (hs : w.sess[i]? = some s) :
    s.running = false ↔ Over h i := ((WLife.run_inv h w hr).2 i s hs).over

/-- A watch whose client has gone is over as soon as its stream gives anything. Missing for the full claim: it is not over before
(`C123_false`). -/
theorem C123_next_partial {pre mid post : List WLStep} {w : WLife} {i : Nat} {x : WLStep}
    (hr : WLife.run {} (pre ++ .leave i :: mid ++ x :: post) = some w) (hx : (∃ b, x = .byte i b) ∨ x = .fail i ∨ x = .expire i)
    {s : WSess} (hs : w.sess[i]? = some s) : s.running = false := by
  rw [C123_exact hr hs]
  rcases hx with ⟨b, rfl⟩ | rfl | rfl
  · exact Or.inr (Or.inr ⟨pre ++ .leave i :: mid, post, b, rfl, by simp⟩)
  · exact Or.inl (by simp)
  · exact Or.inr (Or.inl (by simp))

/-- Every watch is over half an hour after it was opened, whether its client has gone or not: no stream is left behind for longer. -/
theorem C123_bound_partial {h : List WLStep} {w : WLife} (hr : WLife.run {} h = some w) {i : Nat} {s : WSess} (hs : w.sess[i]? = some s)
    (ho : s.running = true) : s.since ≤ w.now ∧ w.now ≤ s.since + 1800000 :=
  ⟨((WLife.run_inv h w hr).2 i s hs).past, ((WLife.run_inv h w hr).2 i s hs).young ho⟩

/-- A client that stays keeps its watch as long as its stream lasts and its half hour is not over. -/
theorem C123_stays {h : List WLStep} {w : WLife} (hr : WLife.run {} h = some w) {i : Nat} {s : WSess} (hs : w.sess[i]? = some s)
    (hl : .leave i ∉ h) (hf : .fail i ∉ h) (he : .expire i ∉ h) : s.running = true := by
  cases hc : s.running with
  | true => rfl
  | false =>
    rcases (C123_exact hr hs).mp hc with hm | hm | ⟨pre, post, b, rfl, hm⟩
    · exact absurd hm hf
    · exact absurd hm he
    · exact absurd (List.mem_append_left _ hm) hl

/-- As long as a watch is not over, its client has been sent every complete line that came on its own stream, one write per line, and nothing else. -/
theorem C123_lines {h : List WLStep} {w : WLife} (hr : WLife.run {} h = some w) {i : Nat} {s : WSess} (hs : w.sess[i]? = some s)
    (ho : s.running = true) : ∃ lines last, (∀ l ∈ lines, IsLine l) ∧ (10 : UInt8) ∉ last ∧ lines.flatten ++ last = streamed h i
      ∧ s.sent = lines := by
  have hb := ((WLife.run_inv h w hr).2 i s hs).bytes ho
  obtain ⟨pre, rest, lines, last, h1, h2, h3, h4, h5⟩ := C59_exact s.reads
  have hgot : ∀ l : Str, gotBytes (l.map fun b => (⟨some b, false, false⟩ : Rd)) = l := by
    intro l; simp [gotBytes, Function.comp_def]
  rcases h5 with ⟨h5, h6, h7⟩ | ⟨r, post, h5, h6, _⟩ | ⟨r, post, h5, _, h6, _⟩
  · refine ⟨lines, last, h3, h4, ?_, by rw [WSess.sent, h7]⟩
    rw [h6, ← hgot (streamed h i), ← hb, h1, h5, List.append_nil]
  · have hm : r ∈ s.reads := by rw [h1, h5]; simp
    rw [hb] at hm
    obtain ⟨b, _, rfl⟩ := List.mem_map.mp hm
    cases h6
  · have hm : r ∈ s.reads := by rw [h1, h5]; simp
    rw [hb] at hm
    obtain ⟨b, _, rfl⟩ := List.mem_map.mp hm
    cases h6

/-- Two clients; the first leaves, and its stream ends with the next byte; the second goes on. -/
example : (WLife.run {} [.opens, .opens, .byte 0 97, .leave 0, .tick 5, .byte 1 98, .byte 0 10, .byte 1 10]).map
      (fun w => (w.now, w.sess.map fun s => (s.running, s.sent))) = some (5, [(false, [lit "a\n"]), (true, [lit "b\n"])])
    ∧ WLife.run {} [.opens, .leave 0, .byte 0 97, .byte 0 98] = none
    ∧ WLife.run {} [.opens, .tick 1800001] = none
    ∧ (WLife.run {} [.opens, .tick 1800000, .expire 0, .tick 1]).map (fun w => (w.now, w.sess.map fun s => s.running))
      = some (1800001, [false]) := by
  decide +kernel

/-- **C123 is false** for quiet streams: any number of clients can come and go while all their watches stay open at the API server for half an hour, for nobody
reads the loss of a client while it waits for the next byte. -/
theorem C123_false (n : Nat) : ∃ h w, WLife.run {} h = some w ∧ w.now = 1800000 ∧ w.sess.length = n
    ∧ (∀ i < n, .leave i ∈ h) ∧ ∀ s ∈ w.sess, s.gone = true ∧ s.running = true := by
  have hopen : ∀ n, WLife.run {} (List.replicate n .opens) = some ⟨0, List.replicate n ⟨0, false, []⟩⟩ := by
    intro n
    induction n with
    | zero => rfl
    | succ n ih =>
      rw [List.replicate_succ', WLife.run_snoc, ih]
      simp [WLife.step, List.replicate_succ']
  have hleave : ∀ k m, WLife.run ⟨0, List.replicate (k + m) ⟨0, false, []⟩⟩ ((List.range k).map .leave)
      = some ⟨0, List.replicate k ⟨0, true, []⟩ ++ List.replicate m ⟨0, false, []⟩⟩ := by
    intro k
    induction k with
    | zero => intro m; simp [WLife.run]
    | succ k ih =>
      intro m
      rw [List.range_succ, List.map_append, List.map_singleton, WLife.run_snoc]
      have := ih (m + 1)
      rw [show k + 1 + m = k + (m + 1) by omega, this]
      simp only [Option.bind_some, WLife.step]
      rw [List.getElem?_append_right (by simp)]
      simp [List.replicate_succ, List.set_append_right]
      rw [← List.cons_append, ← List.replicate_succ, List.replicate_succ', List.append_assoc]; rfl
  have happ : ∀ (a b : List WLStep) (w : WLife), w.run (a ++ b) = (w.run a).bind fun w' => w'.run b := by
    intro a
    induction a with
    | nil => intro b w; rfl
    | cons x a ih =>
      intro b w
      rw [List.cons_append, WLife.run, WLife.run]
      cases w.step x with
      | none => rfl
      | some w' => exact ih b w'
  refine ⟨List.replicate n .opens ++ ((List.range n).map .leave ++ [.tick 1800000]), ⟨1800000, List.replicate n ⟨0, true, []⟩⟩, ?_, rfl,
    by simp, ?_, ?_⟩
  · rw [happ, hopen, Option.bind_some, happ]
    have := hleave n 0
    rw [Nat.add_zero] at this
    rw [this]
    simp [WLife.run, WLife.step, watchTimeout]
  · intro i hi
    simp [hi]
  · intro s hs
    obtain rfl := List.eq_of_mem_replicate hs
    exact ⟨rfl, rfl⟩

end Ckube

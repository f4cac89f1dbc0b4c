import Verif.Lemmas.Str
import Verif.Spec.FakeStart

/-! # Lemmas about listening and dialling -/

namespace Ckube
open Spec

theorem splitHostPort_plain {a h p : Str} (hp : HostPort a h p) : splitHostPort a = some (h, p) := by
  obtain ⟨rfl, hh, hq⟩ := hp
  have hs : splitByte 58 (h ++ 58 :: p) = [h, p] := by
    rw [splitByte_append 58 h p hh.1, splitByte_of_not_mem 58 p hq.1]
  have hpre : hasPrefix h [91] = false := by
    cases h with
    | nil => rfl
    | cons c t =>
      have : c ≠ 91 := fun x => hh.2.1 (by rw [x]; exact List.mem_cons_self)
      simp [hasPrefix, List.isPrefixOf, Ne.symm this]
  unfold splitHostPort
  rw [hs]
  simp only [List.reverse_cons, List.reverse_nil, List.nil_append, List.cons_append, join, hpre]
  rw [if_neg (by simp), if_neg]
  rintro (x | x | x)
  · exact hh.1 x
  · rcases List.mem_append.mp x with x | x
    · exact hh.2.1 x
    · rcases List.mem_cons.mp x with x | x
      · exact absurd x (by decide)
      · exact hq.2.1 x
  · rcases List.mem_append.mp x with x | x
    · exact hh.2.2 x
    · rcases List.mem_cons.mp x with x | x
      · exact absurd x (by decide)
      · exact hq.2.2 x

/-- Dialling asks for the first socket that takes the connection. -/
def Listener.takes (p dst : Nat) (l : Listener) : Bool := l.port == p && p != 0 && (l.at_ == .any || l.at_ == .ip dst)

/-- Where an address leads. -/
def dialTo (e : NetEnv) (a : Str) : Option (Nat × Nat) :=
  if a = [] then none else
    (splitHostPort a).bind fun hp =>
      (e.hostIs hp.1).bind fun h => (if hp.2 = [] then some 80 else e.port hp.2).bind fun p =>
        some (p, match h with
          | .any => e.lo
          | .ip n => n)

theorem dial_eq (e : NetEnv) (ls : List Listener) (a : Str) :
    dial e ls a = (dialTo e a).bind fun x => (ls.find? (Listener.takes x.1 x.2)).map Listener.owner := by
  unfold dial dialTo
  split
  · rfl
  · cases splitHostPort a with
    | none => rfl
    | some hp =>
      simp only [Option.bind_some]
      cases e.hostIs hp.1 with
      | none => rfl
      | some h =>
        simp only [Option.bind_some]
        cases (if hp.2 = [] then some 80 else e.port hp.2) with
        | none => rfl
        | some p => rfl

theorem takes_iff {l : Listener} {p dst : Nat} : l.takes p dst = true ↔ l.port = p ∧ p ≠ 0 ∧ (l.at_ = .any ∨ l.at_ = .ip dst) := by
  unfold Listener.takes
  simp [and_assoc]

/-- Two sockets that take the same connection cannot both listen. -/
theorem takes_clash {a b : Listener} {p dst : Nat} (ha : a.takes p dst = true) (hb : b.takes p dst = true) : a.clash b = true := by
  obtain ⟨h1, _, h2⟩ := takes_iff.mp ha
  obtain ⟨g1, _, g2⟩ := takes_iff.mp hb
  unfold Listener.clash
  rcases h2 with h2 | h2 <;> rcases g2 with g2 | g2 <;> simp [h1, g1, h2, g2]

theorem listenOn_some {e : NetEnv} {ls : List Listener} {free : Nat} {a : Str} {id : Nat} {l : Listener} (h : listenOn e ls free a id = some l) :
    l.owner = id ∧ ∀ x ∈ ls, l.clash x = false := by
  unfold listenOn at h
  simp only [Option.bind_eq_some_iff] at h
  obtain ⟨hp, _, hh, _, p, _, h⟩ := h
  have key : ∀ m : Listener, (if ls.any m.clash = true then none else some m) = some l → m = l ∧ ∀ x ∈ ls, m.clash x = false := by
    intro m hm
    by_cases hc : ls.any m.clash = true
    · rw [if_pos hc] at hm; cases hm
    · rw [if_neg hc] at hm
      refine ⟨Option.some.inj hm, fun x hx => ?_⟩
      by_contra hn
      exact hc (List.any_eq_true.mpr ⟨x, hx, by simpa using hn⟩)
  obtain ⟨rfl, h'⟩ := key _ h
  exact ⟨rfl, h'⟩

theorem dial_owner {e : NetEnv} {ls : List Listener} {a : Str} {id : Nat} (h : dial e ls a = some id) : ∃ l ∈ ls, l.owner = id := by
  rw [dial_eq] at h
  simp only [Option.bind_eq_some_iff, Option.map_eq_some_iff] at h
  obtain ⟨x, _, l, hl, ho⟩ := h
  exact ⟨l, List.mem_of_find?_eq_some hl, ho⟩

/-- More sockets at the end of the list do not change who answers. -/
theorem dial_append {e : NetEnv} {ls : List Listener} {a : Str} {id : Nat} (more : List Listener) (h : dial e ls a = some id) :
    dial e (ls ++ more) a = some id := by
  rw [dial_eq] at h ⊢
  simp only [Option.bind_eq_some_iff, Option.map_eq_some_iff] at h ⊢
  obtain ⟨x, hx, l, hl, ho⟩ := h
  exact ⟨x, hx, l, by rw [List.find?_append, hl]; rfl, ho⟩

theorem find_filter {α : Type} (p q : α → Bool) : ∀ {l : List α} {x : α}, l.find? p = some x → q x = true → (l.filter q).find? p = some x
  | [], _, h, _ => by simp at h
  | y :: l, x, h, hq => by
    rw [List.find?_cons] at h
    by_cases hp : p y = true
    · rw [hp] at h; cases h
      rw [List.filter_cons_of_pos hq, List.find?_cons, hp]
    · rw [Bool.not_eq_true] at hp
      rw [hp] at h
      have ih := find_filter p q h hq
      by_cases hy : q y = true
      · rw [List.filter_cons_of_pos hy, List.find?_cons, hp]; exact ih
      · rw [List.filter_cons_of_neg hy]; exact ih

theorem dial_stop {e : NetEnv} {n : FNet} {a : Str} {i j : Nat} (hne : i ≠ j) (h : dial e n.ls a = some i) : dial e (stopFake n j).ls a = some i := by
  rw [dial_eq] at h ⊢
  simp only [Option.bind_eq_some_iff, Option.map_eq_some_iff] at h ⊢
  obtain ⟨x, hx, l, hl, ho⟩ := h
  refine ⟨x, hx, l, ?_, ho⟩
  exact find_filter _ _ hl (by simpa [ho] using hne)

theorem newFake_ls (e : NetEnv) (n : FNet) (free : Nat) (parses : Bool) (a : Str) (id : Nat) :
    ∃ more, (newFake e n free parses a id).2.ls = n.ls ++ more ∧ ∀ l ∈ more, l.owner = id := by
  unfold newFake
  split
  · exact ⟨[], by simp, by simp⟩
  · simp only
    split
    · exact ⟨[], by simp, by simp⟩
    · refine ⟨(listenOn e n.ls free a id).toList, by split <;> rfl, fun l hl => ?_⟩
      exact (listenOn_some (by simpa using hl)).1

theorem fakeAddr_plain {a h p : Str} (hp : HostPort a h p) : fakeAddr a = some (if h = [] then a else lit "127.0.0.1:" ++ p) := by
  obtain ⟨rfl, hh, hq⟩ := hp
  unfold fakeAddr
  rw [splitByte_append 58 h p hh.1, splitByte_of_not_mem 58 p hq.1]
  simp only
  split <;> rfl

end Ckube

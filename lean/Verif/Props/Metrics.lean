import Verif.Model.Metrics
import Verif.Props.Marks

/-! # C71: the metric of cached resources across reloads -/

namespace Ckube
open Spec

variable {eval : Str → Obj → Str}

theorem Metered.run_append (m : Metered) (a b : List MEvent) : m.run eval (a ++ b) = (m.run eval a).bind (·.run eval b) := by
  induction a generalizing m with
  | nil => rfl
  | cons e a ih => simp only [List.cons_append, Metered.run, Option.bind_assoc, ih]

/-- All stores are well formed. -/
def Metered.WF (eval : Str → Obj → Str) (m : Metered) : Prop := ∀ (i : Nat) (s : Store), m.stores[i]? = some s → s.WF eval

theorem wf_gauge {s : Store} (h : s.WF eval) (G) : ({ s with gauge := G } : Store).WF eval := ⟨h.data, h.cl⟩

/-- Stores are kept in their place, with their configuration. -/
theorem Metered.step_keeps {m m' : Metered} {e : MEvent} (hw : m.WF eval) (h : m.step eval e = some m') :
    m'.WF eval ∧ ∀ (i : Nat) s, m.stores[i]? = some s → ∃ s', m'.stores[i]? = some s' ∧ s'.conf = s.conf := by
  cases e with
  | made conf =>
    simp only [Metered.step, Option.some.injEq] at h
    subst h
    refine ⟨?_, ?_⟩
    · intro i s hs
      simp only [List.getElem?_append] at hs
      split at hs
      · exact hw i s hs
      · have := List.mem_of_getElem? hs
        simp only [List.mem_singleton] at this
        subst this
        exact newStore_wf eval conf
    · intro i s hs
      refine ⟨s, ?_, rfl⟩
      rw [List.getElem?_append_left (List.getElem?_eq_some_iff.mp hs).1]
      exact hs
  | reset =>
    simp only [Metered.step, Option.some.injEq] at h
    subst h
    exact ⟨hw, fun i s hs => ⟨s, hs, rfl⟩⟩
  | told j n =>
    simp only [Metered.step] at h
    cases hj : m.stores[j]? with
    | none => rw [hj] at h; simp at h
    | some t =>
      rw [hj] at h
      simp only [Option.map_eq_some_iff] at h
      obtain ⟨t', ht, rfl⟩ := h
      obtain ⟨w, hc, _⟩ := step_look (wf_gauge (hw j t hj) m.gauge) ht
      refine ⟨?_, ?_⟩
      · intro i s hs
        simp only [List.getElem?_set] at hs
        split at hs
        · split at hs
          · cases hs; exact w
          · cases hs
        · exact hw i s hs
      · intro i s hs
        by_cases he : j = i
        · subst he
          rw [hj] at hs; cases hs
          exact ⟨t', by simp [(List.getElem?_eq_some_iff.mp hj).1], hc⟩
        · exact ⟨s, by simp [he, hs], rfl⟩

theorem Metered.run_keeps {m m' : Metered} {h : List MEvent} (hw : m.WF eval) (hr : m.run eval h = some m') :
    m'.WF eval ∧ ∀ (i : Nat) s, m.stores[i]? = some s → ∃ s', m'.stores[i]? = some s' ∧ s'.conf = s.conf := by
  induction h generalizing m with
  | nil =>
    simp only [Metered.run, Option.some.injEq] at hr
    subst hr
    exact ⟨hw, fun i s hs => ⟨s, hs, rfl⟩⟩
  | cons e h ih =>
    simp only [Metered.run, Option.bind_eq_some_iff] at hr
    obtain ⟨m₁, h1, h2⟩ := hr
    obtain ⟨w, k⟩ := step_keeps hw h1
    obtain ⟨w', k'⟩ := ih w h2
    refine ⟨w', fun i s hs => ?_⟩
    obtain ⟨s₁, a, b⟩ := k i s hs
    obtain ⟨s', c, d⟩ := k' i s₁ a
    exact ⟨s', c, d.trans b⟩

/-- The event sets the metric of type `g` in namespace `ns` of cluster `c`; `m` is any later state, from which the
configurations of the stores are taken. -/
def Spec.Sets (eval : Str → Obj → Str) (m : Metered) (g : GVR) (c ns : Str) : MEvent → Prop
  | .told j n => ∃ s, m.stores[j]? = some s ∧ NoticeIn eval s.confOf n g c ns
  | _ => False

theorem confOf_congr {s t : Store} (h : s.conf = t.conf) : s.confOf = t.confOf := by
  funext g; unfold Store.confOf; rw [h]

theorem metered_keeps {m m' : Metered} {h : List MEvent} {i : Nat} {g : GVR} {c ns : Str} (hw : m.WF eval)
    (hr : m.run eval h = some m') (hreset : MEvent.reset ∉ h) (hclean : MEvent.told i (.clean g c) ∉ h)
    (hother : ∀ e ∈ h, Sets eval m' g c ns e → ∃ n, e = .told i n)
    {s : Store} (hs : m.stores[i]? = some s) (hg : GaugeOK { s with gauge := m.gauge } g c ns) :
    ∃ s', m'.stores[i]? = some s' ∧ GaugeOK { s' with gauge := m'.gauge } g c ns := by
  induction h generalizing m s with
  | nil =>
    simp only [Metered.run, Option.some.injEq] at hr
    subst hr
    exact ⟨s, hs, hg⟩
  | cons e h ih =>
    simp only [Metered.run, Option.bind_eq_some_iff] at hr
    obtain ⟨m₁, h1, h2⟩ := hr
    have hk := Metered.step_keeps hw h1
    have hk2 := Metered.run_keeps hk.1 h2
    have next := fun {s : Store} => ih (m := m₁) hk.1 h2 (fun hm => hreset (by simp [hm])) (fun hm => hclean (by simp [hm]))
      (fun e he => hother e (by simp [he])) (s := s)
    cases e with
    | made conf =>
      simp only [Metered.step, Option.some.injEq] at h1
      subst h1
      refine next (s := s) ?_ hg
      rw [List.getElem?_append_left (List.getElem?_eq_some_iff.mp hs).1]
      exact hs
    | reset => exact absurd (by simp) hreset
    | told j n =>
      simp only [Metered.step] at h1
      cases hj : m.stores[j]? with
      | none => rw [hj] at h1; simp at h1
      | some t =>
        rw [hj] at h1
        simp only [Option.map_eq_some_iff] at h1
        obtain ⟨t', ht, rfl⟩ := h1
        by_cases he : j = i
        · subst he
          rw [hj] at hs; cases hs
          refine next (s := t') (by simp [(List.getElem?_eq_some_iff.mp hj).1]) ?_
          have := (step_gauge ht g c ns).2.2 (fun hn => hclean (by simp [hn])) hg
          exact this
        · refine next (s := s) (by simp [he, hs]) ?_
          have hn : ¬ NoticeIn eval ({ t with gauge := m.gauge } : Store).confOf n g c ns := by
            intro hn
            obtain ⟨t₁, a, b⟩ := hk.2 j t hj
            obtain ⟨t₂, a', b'⟩ := hk2.2 j t₁ a
            obtain ⟨n', hn'⟩ := hother (.told j n) (by simp)
              ⟨t₂, a', by rw [confOf_congr (b'.trans b)]; exact hn⟩
            cases hn'
            exact he rfl
          have hl := (step_gauge ht g c ns).2.1 hn
          obtain ⟨cm, a, b⟩ := hg
          exact ⟨cm, a, by simp only at b ⊢; rw [hl]; exact b⟩

/-- **C71**, partial: in every sequence of reloads and notifications, let `n` be a notification of the namespace to the `i`-th store after
which the metric has not been reset, the type has not been cleaned in that store, and no other store was notified of the
namespace. Then the metric is the number of objects that store has there. Missing for the full claim: notifications before the reset of their own reload
(`C71_false_reset`), late notifications of the store that was replaced (`C71_false_old`), cleans (`C64_false_clean`). -/
theorem C71_gauge_partial {h₁ h₂ : List MEvent} {i : Nat} {n : Notice} {m : Metered} {s : Store}
    (hrun : Metered.run eval {} (h₁ ++ .told i n :: h₂) = some m) (hs : m.stores[i]? = some s) (g : GVR) (c ns : Str)
    (hn : NoticeIn eval s.confOf n g c ns) (hreset : MEvent.reset ∉ h₂) (hclean : MEvent.told i (.clean g c) ∉ h₂)
    (hother : ∀ e ∈ h₂, Sets eval m g c ns e → ∃ n', e = .told i n') :
    ∃ names : List Str, names.Nodup ∧ (∀ name, name ∈ names ↔ s.get g c ns name ≠ none)
      ∧ lookup (c, g, ns) m.gauge = some names.length := by
  rw [Metered.run_append, Option.bind_eq_some_iff] at hrun
  obtain ⟨m₁, hr1, hr2⟩ := hrun
  simp only [Metered.run, Option.bind_eq_some_iff] at hr2
  obtain ⟨m₂, hr2, hr3⟩ := hr2
  have w1 := (Metered.run_keeps (m := {}) (fun i s h => by simp at h) hr1).1
  have k2 := Metered.step_keeps w1 hr2
  have k3 := Metered.run_keeps k2.1 hr3
  have hr2' := hr2
  simp only [Metered.step] at hr2'
  cases hj : m₁.stores[i]? with
  | none => rw [hj] at hr2'; simp at hr2'
  | some t =>
    rw [hj] at hr2'
    simp only [Option.map_eq_some_iff] at hr2'
    obtain ⟨t', ht, rfl⟩ := hr2'
    have hc : s.confOf = ({ t with gauge := m₁.gauge } : Store).confOf := by
      obtain ⟨t₁, a, b⟩ := k2.2 i t hj
      obtain ⟨t₂, a', b'⟩ := k3.2 i t₁ a
      rw [hs] at a'; cases a'
      exact confOf_congr (b'.trans b)
    obtain ⟨s', hs', cm, h1, h2⟩ := metered_keeps k2.1 hr3 hreset hclean hother (s := t')
      (by simp [(List.getElem?_eq_some_iff.mp hj).1]) ((step_gauge ht g c ns).1 (by rw [← hc]; exact hn))
    rw [hs] at hs'; cases hs'
    simp only at h1 h2
    have hwl := ((k3.1 i s hs).cl g cm (mem_of_lookup h1)).leaf c ns
    refine ⟨(leafOf cm c ns).map Prod.fst, hwl.1, ?_, by rw [h2]; simp⟩
    intro name
    rw [get_look]
    unfold look
    simp only [h1, Option.bind_some]
    constructor
    · intro hm
      obtain ⟨⟨k, so⟩, he, rfl⟩ := List.mem_map.mp hm
      rw [lookup_eq_some_of_mem hwl.1 he]
      simp
    · intro hne
      cases hl : lookup name (leafOf cm c ns) with
      | none => rw [hl] at hne; simp at hne
      | some so => exact List.mem_map.mpr ⟨_, mem_of_lookup hl, rfl⟩

/-- What the metric says of namespace `prod` of cluster `c1`, and whether the second store has the pods `web` and `db` there. -/
def exMetric (h : List MEvent) : Option (Option Nat × List Bool) :=
  (Metered.run exEval {} h).bind fun m => m.stores[1]?.map fun s =>
    (lookup (lit "c1", exPods, lit "prod") m.gauge,
      ["web", "db"].map fun n => (s.get exPods (lit "c1") (lit "prod") (lit n)).isSome)

/-- A case that meets the hypotheses: after a reload the new watcher cleans and reports two pods; meanwhile the old store hears of another
cluster. -/
example : exMetric [.made exConf, .told 0 (.added exPods (lit "c1") (exPod "web" "n1")), .made exConf, .reset,
    .told 1 (.clean exPods (lit "c1")), .told 1 (.added exPods (lit "c1") (exPod "web" "n1")),
    .told 1 (.added exPods (lit "c1") (exPod "db" "n2")), .told 0 (.added exPods (lit "c2") (exPod "web" "n1"))]
      = some (some 2, [true, true]) := by decide +kernel

/-- **C71 is false**: the new watcher is started before the metric is reset. What it has reported by then is no longer counted: the pod
is cached, the metric is absent. -/
theorem C71_false_reset : exMetric [.made exConf, .told 0 (.added exPods (lit "c1") (exPod "web" "n1")), .made exConf,
    .told 1 (.added exPods (lit "c1") (exPod "web" "n1")), .reset] = some (none, [true, false]) := by decide +kernel

/-- **C71 is false** also when the old watcher, which is stopped after the reset, is still handling an event: the metric is the number of objects in
the store that is no longer served. -/
theorem C71_false_old : exMetric [.made exConf, .told 0 (.added exPods (lit "c1") (exPod "web" "n1")), .made exConf, .reset,
    .told 1 (.added exPods (lit "c1") (exPod "web" "n1")), .told 0 (.added exPods (lit "c1") (exPod "db" "n1"))]
      = some (some 2, [true, false]) := by decide +kernel

end Ckube

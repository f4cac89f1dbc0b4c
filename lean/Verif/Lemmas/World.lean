import Mathlib.Data.List.Dedup
import Verif.Spec.World
import Verif.Spec.EndToEnd
import Verif.Lemmas.Register
import Verif.Lemmas.Watcher
import Verif.Lemmas.Query

/-! # The whole: what the store holds while the watchers wait -/

namespace Ckube
open Spec

variable {isPrint : Nat → Bool} {eval : Str → Obj → Str} {alg : SliceSort} {pf : Str → Option GoFloat}
  {conf : List (GVR × List (Str × Str))}

/-! ## The last notice of a sequential order -/

theorem SRegSerial.last {cf : GVR → List (Str × Str)} {id : Ident} {v v' : Option SObj} {l : List (COp × Ans)}
    (h : SRegSerial eval cf id v l v') :
    (v' = v ∧ ∀ e ∈ l, ∀ n, e.1 ≠ .notice n)
    ∨ ∃ l₁ n a l₂, l = l₁ ++ (.notice n, a) :: l₂ ∧ (∀ e ∈ l₂, ∀ m, e.1 ≠ .notice m)
      ∧ ((∃ o, Writes eval cf n id o ∧ v' = some (build eval (cf id.gvr) id.cluster o).2.2)
        ∨ (Removes eval cf n id ∧ v' = none)) := by
  induction h with
  | nil => exact Or.inl ⟨rfl, by simp⟩
  | @cons v w u op a l h1 _ ih =>
    rcases ih with ⟨rfl, hn⟩ | ⟨l₁, n, b, l₂, rfl, h2, h3⟩
    · cases h1 with
      | write h => exact Or.inr ⟨[], _, _, l, rfl, hn, Or.inl ⟨_, h, rfl⟩⟩
      | delete h => exact Or.inr ⟨[], _, _, l, rfl, hn, Or.inr ⟨h, rfl⟩⟩
      | clean he => exact Or.inr ⟨[], _, _, l, rfl, hn, Or.inr ⟨⟨rfl, rfl⟩, rfl⟩⟩
      | get =>
        refine Or.inl ⟨rfl, ?_⟩
        intro e he n
        rcases List.mem_cons.mp he with rfl | he
        · simp
        · exact hn e he n
    · exact Or.inr ⟨(op, a) :: l₁, n, b, l₂, rfl, h2, h3⟩

/-! ## The calls of one watcher -/

/-- The notice of a call about a type and cluster. -/
def COp.about (g : GVR) (c : Str) : COp → Option Notice
  | .notice n => if aboutB g c n then some n else none
  | _ => none

/-- The notices about a type and cluster in the order in which the calls were made. -/
def issued (g : GVR) (c : Str) (thrs : List Thr) : List Notice := thrs.filterMap fun t => t.op.about g c

theorem about_some {g : GVR} {c : Str} {op : COp} {n : Notice} (h : op.about g c = some n) :
    op = .notice n ∧ aboutB g c n = true := by
  unfold COp.about at h
  split at h
  · split at h
    · simp only [Option.some.injEq] at h; subst h
      exact ⟨rfl, by assumption⟩
    · simp at h
  · simp at h

theorem about_notice {g : GVR} {c : Str} {n : Notice} (h : aboutB g c n = true) : (COp.notice n).about g c = some n := by
  unfold COp.about
  simp [h]

theorem issued_set {g : GVR} {c : Str} {thrs : List Thr} {i : Nat} {t t' : Thr} (ht : thrs[i]? = some t) (hop : t'.op = t.op) :
    issued g c (thrs.set i t') = issued g c thrs := by
  unfold issued
  have : ∀ l : List Thr, l.filterMap (fun t => t.op.about g c) = (l.map Thr.op).filterMap (COp.about g c) := by
    intro l; rw [List.filterMap_map]; rfl
  rw [this, this, List.map_set, hop]
  congr 1
  obtain ⟨hlt, rfl⟩ := List.getElem?_eq_some_iff.mp ht
  rw [← List.getElem_map Thr.op (h := by simpa using hlt), List.set_getElem_self]

/-- The connection between a watcher and its calls. -/
structure CompInv (g : GVR) (c : Str) (σ : CState) (k : Comp) : Prop where
  run : SysRun g c {} k.sys
  out : issued g c σ.thrs ++ k.todo = k.sys.out
  busy : ∀ (i : Nat) (t : Thr), σ.thrs[i]? = some t → t.op.about g c ≠ none → t.returned = true ∨ k.calling = some i
  seq : ∀ (i j : Nat) (t u : Thr), i < j → σ.thrs[i]? = some t → σ.thrs[j]? = some u → t.op.about g c ≠ none →
    u.op.about g c ≠ none → Before σ.trace i j

theorem before_append {tr : List Event} {i j : Nat} (h : Before tr i j) (x : List Event) : Before (tr ++ x) i j := by
  obtain ⟨a, b, d, y, op, rfl⟩ := h
  exact ⟨a, b, d ++ x, y, op, by simp⟩

theorem sysRun_about {g : GVR} {c : Str} {s : Sys} (h : SysRun g c {} s) : ∀ n ∈ s.out, aboutB g c n = true := by
  generalize h0 : ({} : Sys) = s0 at h
  induction h with
  | refl => subst h0; simp
  | step _ hs ih =>
    have hw : ∀ {p p' : WPhase} {i : WIn} {out old : List Notice}, wstep g c p i = some (p', out) →
        (∀ n ∈ old, aboutB g c n = true) → ∀ n ∈ old ++ out, aboutB g c n = true := by
      intro p p' i out old hw ho n hn
      rcases List.mem_append.mp hn with hn | hn
      · exact ho n hn
      · exact wstep_about hw n hn
    cases hs with
    | create | update | delete => exact ih
    | fail h | closed h | stop h => exact hw h (ih)
    | opened _ h => exact hw h (ih)
    | deliver _ h => exact hw h (ih)
    | other _ h => exact hw h (ih)

/-- What watchers write has metadata. -/
theorem sysRun_api {g : GVR} {c : Str} {s : Sys} (h : SysRun g c {} s) :
    (∀ e ∈ s.objs, e.2.om.isSome = true) ∧ (∀ e ∈ s.pending, e.2.om.isSome = true) ∧ ApiObjects s.out := by
  have hmeta : ∀ {o : Obj} {k}, metaKey o = some k → o.om.isSome = true := by
    intro o k hk
    unfold metaKey at hk
    rw [Option.map_eq_some_iff] at hk
    obtain ⟨m, hm, _⟩ := hk
    rw [hm]; rfl
  have happ : ∀ {a b : List Notice}, ApiObjects a → ApiObjects b → ApiObjects (a ++ b) := by
    intro a b ha hb n hn
    rcases List.mem_append.mp hn with hn | hn
    · exact ha n hn
    · exact hb n hn
  have hcl : ∀ f, ApiObjects (cleanFirst g c f) := by
    intro f n hn
    cases f <;> simp only [cleanFirst, if_true, Bool.false_eq_true, if_false, List.mem_cons, List.not_mem_nil, or_false] at hn
    subst hn; trivial
  have hev : ∀ {t : EvType} {o : Obj}, o.om.isSome = true → ApiObjects (evNotice g c t o) := by
    intro t o ho n hn
    cases t <;> simp only [evNotice, List.mem_cons, List.not_mem_nil, or_false] at hn
    all_goals subst hn; exact ho
  have hno : ∀ {p p' : WPhase} {i : WIn} {out : List Notice}, wstep g c p i = some (p', out) →
      (∀ t o, i = .event t o → o.om.isSome = true ∨ t = .error ∨ t = .bookmark) → ApiObjects out := by
    intro p p' i out h hi
    cases p with
    | connecting => cases i <;> simp only [wstep, Option.some.injEq, Prod.mk.injEq, reduceCtorEq] at h <;>
        (obtain ⟨_, rfl⟩ := h; intro n hn; simp at hn)
    | done => cases i <;> simp [wstep] at h
    | streaming f =>
      cases i <;> simp only [wstep, Option.some.injEq, Prod.mk.injEq, reduceCtorEq] at h <;> obtain ⟨_, rfl⟩ := h
      · refine happ (hcl _) ?_
        rcases hi _ _ rfl with h | rfl | rfl
        · exact hev h
        · intro n hn; simp [evNotice] at hn
        · intro n hn; simp [evNotice] at hn
      · exact hcl _
      · intro n hn; simp at hn
  generalize h0 : ({} : Sys) = s0 at h
  induction h with
  | refl => subst h0; exact ⟨by simp, by simp, by intro n hn; simp at hn⟩
  | @step t u _ hs ih =>
    obtain ⟨i1, i2, i3⟩ := ih
    have hrep : ∀ (e : EvType × Obj), e.2.om.isSome = true → ∀ x ∈ t.report e, x.2.om.isSome = true := by
      intro e he x hx
      unfold Sys.report at hx
      split at hx
      · rcases List.mem_append.mp hx with hx | hx
        · exact i2 x hx
        · rw [List.mem_singleton] at hx; rw [hx]; exact he
      · exact i2 x hx
    have hins : ∀ (k : Str × Str) (o : Obj), o.om.isSome = true → ∀ e ∈ insertKV k o t.objs, e.2.om.isSome = true := by
      intro k o ho e he
      rcases mem_insertKV he with rfl | he
      · exact ho
      · exact i1 e he
    cases hs with
    | create hk hn => exact ⟨hins _ _ (hmeta hk), hrep _ (hmeta hk), i3⟩
    | update hk hn => exact ⟨hins _ _ (hmeta hk), hrep _ (hmeta hk), i3⟩
    | delete hk hn => exact ⟨fun e he => i1 e (mem_eraseKV_of he), hrep _ (hmeta hk), i3⟩
    | fail h => exact ⟨i1, i2, happ i3 (hno h (by simp))⟩
    | closed h => exact ⟨i1, by simp, happ i3 (hno h (by simp))⟩
    | stop h => exact ⟨i1, by simp, happ i3 (hno h (by simp))⟩
    | opened hl h =>
      refine ⟨i1, ?_, happ i3 (hno h (by simp))⟩
      intro e he
      obtain ⟨x, hx, rfl⟩ := List.mem_map.mp he
      exact i1 x (hl.mem_iff.mp hx)
    | deliver hp h =>
      refine ⟨i1, fun e he => i2 e (by rw [hp]; exact List.mem_cons_of_mem _ he), happ i3 (hno h ?_)⟩
      intro t o hi
      simp only [WIn.event.injEq] at hi
      obtain ⟨rfl, rfl⟩ := hi
      exact Or.inl (i2 _ (by rw [hp]; exact List.mem_cons_self))
    | other ht h =>
      refine ⟨i1, i2, happ i3 (hno h ?_)⟩
      intro t o hi
      simp only [WIn.event.injEq] at hi
      obtain ⟨rfl, rfl⟩ := hi
      exact Or.inr ht

/-! ## The invariant -/

theorem aboutB_unique {g g' : GVR} {c c' : Str} {n : Notice} (h : aboutB g c n = true) (h' : aboutB g' c' n = true) :
    g' = g ∧ c' = c := by
  cases n <;> simp only [aboutB, Bool.and_eq_true, decide_eq_true_eq] at h h' <;>
    exact ⟨h'.1.symm.trans h.1, h'.2.symm.trans h.2⟩

theorem CompInv.start (g : GVR) (c : Str) : CompInv g c { heap := newHeap conf } {} :=
  ⟨.refl _, rfl, by simp, by simp⟩

/-- A goroutine inside a store call makes a step. -/
theorem CompInv.tstep {g : GVR} {c : Str} {σ σ' : CState} {k : Comp} {i : Nat} (h : CompInv g c σ k)
    (hs : TStep isPrint alg pf i σ σ') : CompInv g c σ' k := by
  have hthr : ∀ {t t' : Thr}, σ.thrs[i]? = some t → t'.op = t.op → (t.returned = true → t'.returned = true) →
      σ'.thrs = σ.thrs.set i t' → (∃ x, σ'.trace = σ.trace ++ x) → CompInv g c σ' k := by
    rintro t t' ht hop hret e1 ⟨x, e2⟩
    have back : ∀ (j : Nat) (u : Thr), σ'.thrs[j]? = some u → ∃ u0, σ.thrs[j]? = some u0 ∧ u.op = u0.op
        ∧ (u0.returned = true → u.returned = true) := by
      intro j u hu
      rw [e1] at hu
      rcases getElem?_set_some hu with ⟨rfl, rfl⟩ | ⟨_, h⟩
      · exact ⟨t, ht, hop, hret⟩
      · exact ⟨u, h, rfl, id⟩
    refine ⟨h.run, by rw [e1, issued_set ht hop]; exact h.out, ?_, ?_⟩
    · intro j u hu ha
      obtain ⟨u0, h1, h2, h3⟩ := back j u hu
      rw [h2] at ha
      exact (h.busy j u0 h1 ha).imp h3 id
    · intro a b u v hab hu hv hau hav
      obtain ⟨u0, h1, h2, _⟩ := back a u hu
      obtain ⟨v0, h4, h5, _⟩ := back b v hv
      rw [h2] at hau
      rw [h5] at hav
      rw [e2]
      exact before_append (h.seq a b u0 v0 hab h1 h4 hau hav) x
  rcases hs.cases with ⟨t, ht, _, _, e1, e2, _⟩ | ⟨e1, e2, _⟩ | ⟨t, t', ht, _, e1, hop, hr, e2⟩
  · exact hthr (t' := { t with returned := true }) ht rfl (fun _ => rfl) e1 ⟨_, e2⟩
  · exact ⟨h.run, by rw [e1]; exact h.out, by rw [e1]; exact h.busy, by rw [e1, e2]; exact h.seq⟩
  · exact hthr ht hop (by rw [hr]; exact id) e1 ⟨[], by rw [e2]; simp⟩

theorem issued_append {g : GVR} {c : Str} (a b : List Thr) : issued g c (a ++ b) = issued g c a ++ issued g c b :=
  List.filterMap_append

/-- A call that is not of this watcher. -/
theorem CompInv.other {g : GVR} {c : Str} {σ : CState} {k : Comp} {op : COp} (h : CompInv g c σ k)
    (ho : op.about g c = none) : CompInv g c (σ.call eval conf op) k := by
  have old : ∀ (j : Nat) (u : Thr), (σ.call eval conf op).thrs[j]? = some u → u.op.about g c ≠ none → σ.thrs[j]? = some u := by
    intro j u hu ha
    rcases thrs_call hu with hu | ⟨_, rfl⟩
    · exact hu
    · exact absurd ho ha
  refine ⟨h.run, ?_, ?_, ?_⟩
  · show issued g c (σ.thrs ++ [_]) ++ _ = _
    rw [issued_append]
    have : issued g c [({ op := op, prog := op.prog eval conf, ans := op.ans0 } : Thr)] = [] := by
      unfold issued
      simp [ho]
    rw [this, List.append_nil]
    exact h.out
  · intro j u hu ha
    exact h.busy j u (old j u hu ha) ha
  · intro a b u v hab hu hv hau hav
    exact before_append (h.seq a b u v hab (old a u hu hau) (old b v hv hav) hau hav) _

/-- The next call of this watcher. -/
theorem CompInv.invoke {g : GVR} {c : Str} {σ : CState} {k : Comp} {n : Notice} {rest : List Notice} (h : CompInv g c σ k)
    (htr : TrInv σ) (ht : k.todo = n :: rest) (hc : k.calling = none) :
    CompInv g c (σ.call eval conf (.notice n)) { sys := k.sys, todo := rest, calling := some σ.thrs.length } := by
  have ha : aboutB g c n = true := sysRun_about h.run n (by rw [← h.out, ht]; simp)
  refine ⟨h.run, ?_, ?_, ?_⟩
  · show issued g c (σ.thrs ++ [_]) ++ _ = _
    rw [issued_append]
    have : issued g c [({ op := .notice n, prog := (COp.notice n).prog eval conf, ans := (COp.notice n).ans0 } : Thr)] = [n] := by
      unfold issued
      simp [about_notice ha]
    rw [this]
    have := h.out
    rw [ht] at this
    simpa using this
  · intro j u hu ha
    rcases thrs_call hu with hu | ⟨rfl, _⟩
    · rcases h.busy j u hu ha with h | h
      · exact Or.inl h
      · rw [hc] at h; simp at h
    · exact Or.inr rfl
  · intro a b u v hab hu hv hau hav
    have hlt : ∀ (j : Nat) (u : Thr), σ.thrs[j]? = some u → j < σ.thrs.length :=
      fun j u hu => (List.getElem?_eq_some_iff.mp hu).1
    rcases thrs_call hv with hv | ⟨rfl, rfl⟩
    · rcases thrs_call hu with hu | ⟨rfl, _⟩
      · exact before_append (h.seq a b u v hab hu hv hau hav) _
      · exact absurd (hlt b v hv) (by omega)
    · rcases thrs_call hu with hu | ⟨rfl, _⟩
      · have hr : u.returned = true := by
          rcases h.busy a u hu hau with h | h
          · exact h
          · rw [hc] at h; simp at h
        obtain ⟨l₁, l₂, hl⟩ := List.append_of_mem (htr.ret' a u hu hr).2
        exact ⟨l₁, l₂, [], u.ans, .notice n, by
          show σ.trace ++ [_] = _
          rw [hl]; simp⟩
      · omega

/-! ## Runs of the whole -/

theorem Spec.WRun.exec {past : List World} {w : World} (h : WRun isPrint eval alg pf conf past w) :
    ∃ states, Exec isPrint eval alg pf conf (fun op => op.Valid conf) states w.store
      ∧ (∀ τ ∈ states ++ [w.store], ∃ v ∈ past ++ [w], v.store = τ) ∧ ∀ g c, CompInv g c w.store (w.comp g c) := by
  induction h with
  | start => exact ⟨[], .start, by simp, fun g c => CompInv.start g c⟩
  | @step past w w' _ hs ih =>
    obtain ⟨states, he, hm, hi⟩ := ih
    -- steps that leave the store as it is
    have stay : w'.store = w.store → (∀ g c, CompInv g c w.store (w'.comp g c)) →
        ∃ states, Exec isPrint eval alg pf conf (fun op => op.Valid conf) states w'.store
          ∧ (∀ τ ∈ states ++ [w'.store], ∃ v ∈ past ++ [w] ++ [w'], v.store = τ) ∧ ∀ g c, CompInv g c w'.store (w'.comp g c) := by
      intro e hi'
      rw [e]
      refine ⟨states, he, ?_, hi'⟩
      intro τ hτ
      obtain ⟨v, hv, rfl⟩ := hm τ hτ
      exact ⟨v, List.mem_append_left _ hv, rfl⟩
    -- steps of the store
    have move : Exec isPrint eval alg pf conf (fun op => op.Valid conf) (states ++ [w.store]) w'.store →
        (∀ g c, CompInv g c w'.store (w'.comp g c)) →
        ∃ states, Exec isPrint eval alg pf conf (fun op => op.Valid conf) states w'.store
          ∧ (∀ τ ∈ states ++ [w'.store], ∃ v ∈ past ++ [w] ++ [w'], v.store = τ) ∧ ∀ g c, CompInv g c w'.store (w'.comp g c) := by
      intro e hi'
      refine ⟨_, e, ?_, hi'⟩
      intro τ hτ
      rcases List.mem_append.mp hτ with hτ | hτ
      · obtain ⟨v, hv, rfl⟩ := hm τ hτ
        exact ⟨v, List.mem_append_left _ hv, rfl⟩
      · rw [List.mem_singleton] at hτ
        exact ⟨w', by simp, hτ.symm⟩
    have atComp : ∀ {σ : CState} {g : GVR} {c : Str} {k : Comp} {w0 : World}, (∀ g' c', (g', c') ≠ (g, c) → CompInv g' c' σ (w0.comp g' c')) →
        CompInv g c σ k → ∀ g' c', CompInv g' c' σ ((w0.set g c k).comp g' c') := by
      intro σ g c k w0 h1 h2 g' c'
      show CompInv g' c' σ (if g' = g ∧ c' = c then k else w0.comp g' c')
      split
      · rename_i h
        obtain ⟨rfl, rfl⟩ := h
        exact h2
      · rename_i h
        exact h1 g' c' (fun e => h (by simpa using e))
    cases hs with
    | @run i σ h => exact move (.step he i h) fun g c => (hi g c).tstep h
    | @client op hv hn =>
      refine move (.call he op hv) fun g c => (hi g c).other ?_
      cases op with
      | notice n => exact absurd rfl (hn n)
      | get => rfl
      | query => rfl
    | @server g c s h hp ho =>
      refine stay rfl (atComp (fun g' c' _ => hi g' c') ?_)
      have := hi g c
      exact ⟨.step this.run h, by rw [ho]; exact this.out, this.busy, this.seq⟩
    | @watch g c s new h ht hc ho =>
      refine stay rfl (atComp (fun g' c' _ => hi g' c') ?_)
      have := hi g c
      refine ⟨.step this.run h, ?_, ?_, this.seq⟩
      · have h2 := this.out
        rw [ht, List.append_nil] at h2
        rw [ho, ← h2]
      · intro j u hu ha
        rcases this.busy j u hu ha with h | h
        · exact Or.inl h
        · rw [hc] at h; simp at h
    | @invoke g c n rest hg ht hc =>
      have hn : aboutB g c n = true := sysRun_about (hi g c).run n (by rw [← (hi g c).out, ht]; simp)
      have hv : (COp.notice n).Valid conf := by
        have : n.gvr = g := by cases n <;> simp only [aboutB, Bool.and_eq_true, decide_eq_true_eq] at hn <;> exact hn.1
        show (lookup n.gvr conf).isSome = true
        rw [this]; exact hg
      refine move (.call he _ hv) (atComp ?_ ((hi g c).invoke (TrInv.exec he) ht hc))
      intro g' c' hne
      refine (hi g' c').other ?_
      unfold COp.about
      simp only
      rw [if_neg]
      intro h'
      exact hne (by rw [Prod.mk.injEq]; exact aboutB_unique hn h')
    | @returned g c i t hc ht hr =>
      refine stay rfl (atComp (fun g' c' _ => hi g' c') ?_)
      have := hi g c
      refine ⟨this.run, this.out, ?_, this.seq⟩
      intro j u hu ha
      rcases this.busy j u hu ha with h | h
      · exact Or.inl h
      · rw [hc, Option.some.injEq] at h
        subst h
        rw [ht] at hu; cases hu
        exact Or.inl hr

theorem Spec.WRun.mem {past : List World} {w : World} (h : WRun isPrint eval alg pf conf past w) :
    ∀ v ∈ past, ∃ past', WRun isPrint eval alg pf conf past' v := by
  induction h with
  | start => simp
  | @step past w w' h _ ih =>
    intro v hv
    rcases List.mem_append.mp hv with hv | hv
    · exact ih v hv
    · rw [List.mem_singleton] at hv; subst hv
      exact ⟨_, h⟩

/-! ## What the store holds -/

theorem concerns_about {id : Ident} {n : Notice} (h : Concerns eval (confAt conf) id (.notice n)) :
    aboutB id.gvr id.cluster n = true := by
  rcases h with ⟨o, h⟩ | h
  · exact writes_about h
  · exact removes_about h

/-- What a history has under an identity when its last notice about it is known. -/
theorem latest_last {cf : GVR → List (Str × Str)} {h₁ h₂ : List Notice} {n : Notice} {id : Ident}
    (hn : (∃ o, Writes eval cf n id o) ∨ Removes eval cf n id)
    (h2 : ∀ m ∈ h₂, (∀ o, ¬ Writes eval cf m id o) ∧ ¬ Removes eval cf m id) (o : Obj) :
    Latest eval cf (h₁ ++ n :: h₂) id o ↔ Writes eval cf n id o := by
  induction h₂ using List.reverseRecOn with
  | nil =>
    rw [latest_concat]
    constructor
    · rintro (h | ⟨_, h3, h4⟩)
      · exact h
      · rcases hn with ⟨o', h⟩ | h
        · exact absurd h (h3 o')
        · exact absurd h h4
    · exact Or.inl
  | append_singleton l m ih =>
    rw [← List.cons_append, ← List.append_assoc, latest_concat, ih (fun m hm => h2 m (List.mem_append_left _ hm))]
    have := h2 m (by simp)
    constructor
    · rintro (h | h)
      · exact absurd h (this.1 o)
      · exact h.1
    · intro h; exact Or.inr ⟨h, this⟩

/-- What is stored was written by a call. -/
theorem heap_written {P : COp → Prop} (hP : ∀ op, P op → op.Valid conf) {past : List CState} {σ : CState}
    (he : Exec isPrint eval alg pf conf P past σ) {id : Ident} {so : SObj} (h : σ.heap.abs id = some so) :
    ∃ (i : Nat) (t : Thr) (n : Notice) (o : Obj), σ.thrs[i]? = some t ∧ t.op = .notice n ∧ Writes eval (confAt conf) n id o
      ∧ so = (build eval (confAt conf id.gvr) id.cluster o).2.2 := by
  obtain ⟨L, hl⟩ := RegInv.exec hP he id
  rcases hl.serial.last with ⟨h0, _⟩ | ⟨l₁, n, a, l₂, hL, _, ⟨o, hw, h0⟩ | ⟨_, h0⟩⟩
  · rw [h] at h0; simp at h0
  · have hm : (COp.notice n, a) ∈ L.map Prod.snd := by rw [hL]; simp
    obtain ⟨⟨i, op, a'⟩, hi, he⟩ := List.mem_map.mp hm
    simp only [Prod.mk.injEq] at he
    obtain ⟨rfl, rfl⟩ := he
    obtain ⟨_, t, h1, h2, _⟩ := hl.inL _ hi
    refine ⟨i, t, n, o, h1, h2, hw, ?_⟩
    rw [h, Option.some.injEq] at h0
    exact h0
  · rw [h] at h0; simp at h0

/-- While a watcher waits, the store holds what its calls have left, in the order in which they were made. -/
theorem heap_latest {P : COp → Prop} (hP : ∀ op, P op → op.Valid conf) {past : List CState} {σ : CState}
    (he : Exec isPrint eval alg pf conf P past σ) {k : Comp} {id : Ident} (hk : CompInv id.gvr id.cluster σ k)
    (ht : k.todo = []) (hc : k.calling = none) (so : SObj) :
    σ.heap.abs id = some so ↔ ∃ o, Latest eval (confAt conf) k.sys.out id o
      ∧ so = (build eval (confAt conf id.gvr) id.cluster o).2.2 := by
  obtain ⟨L, hl⟩ := RegInv.exec hP he id
  have htr := TrInv.exec he
  have hout : issued id.gvr id.cluster σ.thrs = k.sys.out := by
    have := hk.out
    rw [ht, List.append_nil] at this
    exact this
  rw [← hout]
  -- every call about `id` is in the order
  have hin : ∀ (j : Nat) (u : Thr) (n : Notice), σ.thrs[j]? = some u → u.op = .notice n →
      Concerns eval (confAt conf) id (.notice n) → (j, COp.notice n, u.ans) ∈ L := by
    intro j u n hu hop hcn
    have ha : u.op.about id.gvr id.cluster ≠ none := by rw [hop, about_notice (concerns_about hcn)]; simp
    have hr : u.returned = true := by
      rcases hk.busy j u hu ha with h | h
      · exact h
      · rw [hc] at h; simp at h
    have := hl.done j u hu (by rw [hop]; exact hcn) (by
      rintro ⟨x, hx, _⟩
      rw [(htr.ret' j u hu hr).1] at hx; simp at hx)
    rw [hop] at this
    exact this
  have hmem : ∀ n ∈ issued id.gvr id.cluster σ.thrs, ∃ (j : Nat) (u : Thr), σ.thrs[j]? = some u ∧ u.op = .notice n := by
    intro n hn
    obtain ⟨u, hu, ha⟩ := List.mem_filterMap.mp hn
    obtain ⟨j, hj⟩ := List.getElem?_of_mem hu
    exact ⟨j, u, hj, (about_some ha).1⟩
  rcases hl.serial.last with ⟨h0, hno⟩ | ⟨l₁, n, a, l₂, hL, hl2, hcase⟩
  · -- no call has been about `id`
    constructor
    · intro h; rw [h] at h0; simp at h0
    · rintro ⟨o, ⟨h₁, n, h₂, hh, hw, _⟩, _⟩
      obtain ⟨j, u, h1, h2⟩ := hmem n (by rw [hh]; simp)
      have := hin j u n h1 h2 (Or.inl ⟨o, hw⟩)
      exact absurd rfl (hno _ (List.mem_map.mpr ⟨_, this, rfl⟩) n)
  · obtain ⟨L₁, r, rfl, hL1, hr⟩ := List.map_eq_append_iff.mp hL
    obtain ⟨e, L₂, rfl, he1, hL2⟩ := List.map_eq_cons_iff.mp hr
    obtain ⟨i, op, a'⟩ := e
    simp only [Prod.mk.injEq] at he1
    obtain ⟨rfl, rfl⟩ := he1
    obtain ⟨hcn, t, hti, hop, _⟩ := hl.inL (i, .notice n, a') (by simp)
    simp only at hti hop hcn
    have hai : aboutB id.gvr id.cluster n = true := concerns_about hcn
    -- later calls are not about `id`
    have hlater : ∀ (j : Nat) (u : Thr) (m : Notice), i < j → σ.thrs[j]? = some u → u.op = .notice m →
        ¬ Concerns eval (confAt conf) id (.notice m) := by
      intro j u m hij hu hop' hcm
      have hjL := hin j u m hu hop' hcm
      have hb : Before σ.trace i j := hk.seq i j t u hij hti hu (by rw [hop, about_notice hai]; simp)
        (by rw [hop', about_notice (concerns_about hcm)]; simp)
      rcases List.mem_append.mp hjL with h | h
      · have := List.pairwise_append.mp hl.order
        exact this.2.2 _ h _ List.mem_cons_self hb
      · rcases List.mem_cons.mp h with h | h
        · simp only [Prod.mk.injEq] at h
          omega
        · exact hl2 (.notice m, u.ans) (by rw [← hL2]; exact List.mem_map.mpr ⟨_, h, rfl⟩) m rfl
    have hsplit : issued id.gvr id.cluster σ.thrs
        = issued id.gvr id.cluster (σ.thrs.take i) ++ n :: issued id.gvr id.cluster (σ.thrs.drop (i + 1)) := by
      obtain ⟨hlt, hget⟩ := List.getElem?_eq_some_iff.mp hti
      have : σ.thrs = σ.thrs.take i ++ t :: σ.thrs.drop (i + 1) := by
        rw [← hget, List.getElem_cons_drop, List.take_append_drop]
      conv_lhs => rw [this, issued_append]
      congr 1
      unfold issued
      rw [List.filterMap_cons_some (b := n)]
      rw [hop, about_notice hai]
    have hafter : ∀ m ∈ issued id.gvr id.cluster (σ.thrs.drop (i + 1)),
        (∀ o, ¬ Writes eval (confAt conf) m id o) ∧ ¬ Removes eval (confAt conf) m id := by
      intro m hm
      obtain ⟨u, hu, ha⟩ := List.mem_filterMap.mp hm
      obtain ⟨j, hj⟩ := List.getElem?_of_mem hu
      rw [List.getElem?_drop] at hj
      have := hlater (i + 1 + j) u m (by omega) hj (about_some ha).1
      exact ⟨fun o hw => this (Or.inl ⟨o, hw⟩), fun hr => this (Or.inr hr)⟩
    have hlat := fun o => latest_last (h₁ := issued id.gvr id.cluster (σ.thrs.take i)) (n := n) hcn hafter o
    rw [hsplit]
    rcases hcase with ⟨o, hw, h0⟩ | ⟨hrm, h0⟩
    · rw [h0, Option.some.injEq]
      constructor
      · intro h; exact ⟨o, (hlat o).mpr hw, h.symm⟩
      · rintro ⟨o', hl', rfl⟩
        have hw' := (hlat o').mp hl'
        cases n with
        | added | modified => obtain ⟨rfl, _⟩ := hw; obtain ⟨rfl, _⟩ := hw'; rfl
        | deleted | clean => exact hw.elim
    · rw [h0]
      constructor
      · intro h; simp at h
      · rintro ⟨o', hl', _⟩
        have hw' := (hlat o').mp hl'
        cases n with
        | added | modified => exact hrm.elim
        | deleted | clean => exact hw'.elim

/-- A call is running in the state in which it is made. -/
theorem exists_during {P : COp → Prop} {past : List CState} {σ : CState} (he : Exec isPrint eval alg pf conf P past σ) :
    ∀ {i : Nat} {op : COp}, Event.call i op ∈ σ.trace → ∃ τ ∈ past ++ [σ], During i τ := by
  induction he with
  | start => intro i op h; simp at h
  | @call past σ he op' _ ih =>
    intro i op h
    have h' : Event.call i op ∈ σ.trace ++ [Event.call σ.thrs.length op'] := h
    rcases List.mem_append.mp h' with h | h
    · obtain ⟨τ, h1, h2⟩ := ih h
      exact ⟨τ, List.mem_append_left _ h1, h2⟩
    · simp only [List.mem_singleton, Event.call.injEq] at h
      obtain ⟨rfl, rfl⟩ := h
      refine ⟨_, List.mem_append_right _ (List.mem_singleton.mpr rfl), ⟨op, h'⟩, ?_⟩
      intro a ha
      have ha' : Event.ret σ.thrs.length a ∈ σ.trace ++ [Event.call σ.thrs.length op] := ha
      rcases List.mem_append.mp ha' with ha | ha
      · obtain ⟨u, hu, _⟩ := (TrInv.exec he).ret _ _ ha
        simp at hu
      · simp at ha
  | @step past σ σ' he j hs ih =>
    intro i op h
    have htr : ∃ x, σ'.trace = σ.trace ++ x ∧ ∀ op, Event.call i op ∉ x := by
      rcases hs.cases with ⟨t, _, _, _, _, e, _⟩ | ⟨_, e, _⟩ | ⟨t, u, _, _, _, _, _, e⟩
      · exact ⟨_, e, by simp⟩
      · exact ⟨[], by rw [e]; simp, by simp⟩
      · exact ⟨[], by simp_all, by simp⟩
    obtain ⟨x, hx, hno⟩ := htr
    rw [hx] at h
    rcases List.mem_append.mp h with h | h
    · obtain ⟨τ, h1, h2⟩ := ih h
      exact ⟨τ, List.mem_append_left _ h1, h2⟩
    · exact absurd h (hno op)

/-- What is written by adding objects one after the other. -/
theorem latest_adds {cf : GVR → List (Str × Str)} (l : List (Ident × Obj)) (hn : (l.map Prod.fst).Nodup)
    (hl : ∀ e ∈ l, identOf eval cf e.1.gvr e.1.cluster e.2 = e.1) (id : Ident) (o : Obj) :
    Latest eval cf (l.map fun e => Notice.added e.1.gvr e.1.cluster e.2) id o ↔ (id, o) ∈ l := by
  induction l using List.reverseRecOn with
  | nil => simp [Latest]
  | append_singleton l e ih =>
    rw [List.map_append, List.nodup_append] at hn
    rw [List.map_append, List.map_singleton, latest_concat, ih hn.1 (fun e he => hl e (List.mem_append_left _ he)),
      List.mem_append, List.mem_singleton]
    have he := hl e (by simp)
    constructor
    · rintro (⟨rfl, h⟩ | h)
      · rw [he] at h; subst h; exact Or.inr rfl
      · exact Or.inl h.1
    · rintro (h | h)
      · right
        refine ⟨h, ?_, fun h => h.elim⟩
        rintro o' ⟨rfl, h'⟩
        rw [he] at h'
        exact hn.2.2 id (List.mem_map.mpr ⟨_, h, rfl⟩) e.1 (by simp) h'.symm
      · subst h
        exact Or.inl ⟨rfl, he⟩

theorem filter_flatMap_about {g : GVR} {f : Str → List Notice} (cs : List Str) (hn : cs.Nodup)
    (hf : ∀ c ∈ cs, ∀ n ∈ f c, aboutB g c n = true) (c : Str) :
    (cs.flatMap f).filter (aboutB g c) = if c ∈ cs then f c else [] := by
  induction cs with
  | nil => simp
  | cons a cs ih =>
    rw [List.nodup_cons] at hn
    rw [List.flatMap_cons, List.filter_append, ih hn.2 (fun c hc => hf c (List.mem_cons_of_mem _ hc))]
    by_cases hac : c = a
    · subst hac
      rw [if_neg hn.1, if_pos (by simp), List.append_nil, List.filter_eq_self]
      exact hf c (by simp)
    · have : (f a).filter (aboutB g c) = [] := by
        rw [List.filter_eq_nil_iff]
        intro n hn' h
        exact hac (aboutB_unique h (hf a (by simp) n hn')).2.symm
      rw [this, List.nil_append]
      simp [hac]

/-- What is stored is an API object. -/
theorem world_written {past : List World} {w : World} (h : WRun isPrint eval alg pf conf past w) {id : Ident} {so : SObj}
    (ha : w.store.heap.abs id = some so) :
    ∃ o, identOf eval (confAt conf) id.gvr id.cluster o = id ∧ so = (build eval (confAt conf id.gvr) id.cluster o).2.2
      ∧ o.om.isSome = true := by
  obtain ⟨states, he, _, hc⟩ := h.exec
  obtain ⟨i, t, n, o, ht, hop, hw, hso⟩ := heap_written (fun _ h => h) he ha
  refine ⟨o, ?_, hso, ?_⟩
  · cases n with
    | added | modified => obtain ⟨_, h'⟩ := hw; simp only [identOf] at h' ⊢; subst h'; simp_all
    | deleted | clean => exact hw.elim
  · have hk := hc id.gvr id.cluster
    have hn : n ∈ issued id.gvr id.cluster w.store.thrs :=
      List.mem_filterMap.mpr ⟨t, List.mem_of_getElem? ht, by rw [hop, about_notice (writes_about hw)]⟩
    have := (sysRun_api hk.run).2.2 n (by rw [← hk.out]; exact List.mem_append_left _ hn)
    cases n with
    | added | modified => obtain ⟨rfl, _⟩ := hw; exact this
    | deleted | clean => exact hw.elim

/-- While a watcher waits, the store has what its calls have left. -/
theorem world_latest {past : List World} {w : World} (h : WRun isPrint eval alg pf conf past w) {S : Sys} {id : Ident}
    (hw : Waiting S (w.comp id.gvr id.cluster)) (so : SObj) :
    w.store.heap.abs id = some so ↔ ∃ o, Latest eval (confAt conf) S.out id o
      ∧ so = (build eval (confAt conf id.gvr) id.cluster o).2.2 := by
  obtain ⟨states, he, _, hc⟩ := h.exec
  obtain ⟨rfl, ht, hcl⟩ := hw
  exact heap_latest (fun _ h => h) he (hc _ _) ht hcl so

theorem Spec.WRun.at_ {past : List World} {w : World} (h : WRun isPrint eval alg pf conf past w) {v : World} (hv : v ∈ past ++ [w]) :
    ∃ past', WRun isPrint eval alg pf conf past' v := by
  rcases List.mem_append.mp hv with hv | hv
  · exact h.mem v hv
  · rw [List.mem_singleton] at hv; subst hv; exact ⟨_, h⟩

/-- The calls made were valid. -/
theorem exec_valid {P : COp → Prop} {past : List CState} {σ : CState} (he : Exec isPrint eval alg pf conf P past σ) :
    ∀ {i : Nat} {op : COp}, Event.call i op ∈ σ.trace → P op := by
  induction he with
  | start => intro i op h; simp at h
  | @call past σ he op' hp ih =>
    intro i op h
    have h' : Event.call i op ∈ σ.trace ++ [Event.call σ.thrs.length op'] := h
    rcases List.mem_append.mp h' with h | h
    · exact ih h
    · simp only [List.mem_singleton, Event.call.injEq] at h
      obtain ⟨rfl, rfl⟩ := h
      exact hp
  | @step past σ σ' he j hs ih =>
    intro i op h
    have htr : ∃ x, σ'.trace = σ.trace ++ x ∧ ∀ op, Event.call i op ∉ x := by
      rcases hs.cases with ⟨t, _, _, _, _, e, _⟩ | ⟨_, e, _⟩ | ⟨t, u, _, _, _, _, _, e⟩
      · exact ⟨_, e, by simp⟩
      · exact ⟨[], by rw [e]; simp, by simp⟩
      · exact ⟨[], by simp_all, by simp⟩
    obtain ⟨x, hx, hno⟩ := htr
    rw [hx] at h
    rcases List.mem_append.mp h with h | h
    · exact ih h
    · exact absurd h (hno op)

/-- The answer of a query is that of a store that has caught up with the API servers whose watchers wait. -/
theorem world_query {past : List World} {w : World} (h : WRun isPrint eval alg pf conf past w) {i : Nat} {g : GVR} {q : Query}
    {r : Option QueryResult} (hcall : Event.call i (.query g q) ∈ w.store.trace) (hret : Event.ret i (.result r) ∈ w.store.trace)
    (cs : List Str) (S : Str → Sys)
    (hwait : ∀ v ∈ past ++ [w], During i v.store → ∀ c ∈ cs, Waiting (S c) (v.comp g c)) (hrec : ∀ c ∈ cs, Received (S c)) :
    ∃ hist s, (newStore conf).run eval hist = some s ∧ ApiObjects hist ∧ (∀ c ∈ cs, CaughtUp g c hist (S c).objs)
      ∧ s.mayAnswer isPrint alg pf g q r := by
  obtain ⟨states, he, hm, _⟩ := h.exec
  have htr := TrInv.exec he
  obtain ⟨t, ht, hop⟩ := (htr.call i _).mp hcall
  obtain ⟨t', ht', hr, hans⟩ := htr.ret i _ hret
  rw [ht] at ht'; cases ht'
  have hp := (htr.ret' i t ht hr).1
  have hqt := QT.exec (fun _ h => h) he i t g q ht hop
  have hans' : r = queryList isPrint alg pf t.seen q := by
    rcases hqt.fin with ⟨p, h1, _⟩ | ⟨_, h⟩
    · rw [hp] at h1; simp at h1
    · rw [hans] at h
      simpa using h
  have hv := hqt.visit
  rw [hp] at hv
  have hg : (lookup g conf).isSome = true := exec_valid he hcall
  -- the states while the query ran
  have hdur : ∀ τ ∈ states ++ [w.store], During i τ → ∀ c ∈ cs, SysRun g c {} (S c) ∧ ∀ n name so,
      (τ.heap.abs ⟨g, c, n, name⟩ = some so ↔ ∃ o, Latest eval (confAt conf) (S c).out ⟨g, c, n, name⟩ o
        ∧ so = (build eval (confAt conf g) c o).2.2) := by
    intro τ hτ hd c hc
    obtain ⟨v, hv, rfl⟩ := hm τ hτ
    obtain ⟨past', hr⟩ := h.at_ hv
    have hw := hwait v hv hd c hc
    refine ⟨?_, fun n name so => world_latest (id := ⟨g, c, n, name⟩) hr hw so⟩
    obtain ⟨_, _, _, hci⟩ := hr.exec
    have := (hci g c).run
    rw [hw.1] at this
    exact this
  obtain ⟨τ₀, hτ₀, hd₀⟩ := exists_during he hcall
  have hrun := fun c hc => (hdur τ₀ hτ₀ hd₀ c hc).1
  -- what was visited
  have hvis : ∀ {id so}, Visited t.acc id so → id.gvr = g → (q.ns = [] ∨ q.ns = id.ns)
      ∧ ∃ τ ∈ states ++ [w.store], During i τ ∧ τ.heap.abs id = some so := by
    rintro ⟨_, c, n, name⟩ so ⟨b, hb, rfl, rfl, hin⟩ rfl
    have hs := hv.seen b hb
    exact ⟨hs.1, hs.2 _ hin⟩
  have hwr : ∀ e ∈ accEntries g t.acc, ∃ o, identOf eval (confAt conf) e.1.gvr e.1.cluster o = e.1
      ∧ e.2 = (build eval (confAt conf e.1.gvr) e.1.cluster o).2.2 ∧ o.om.isSome = true := by
    rintro ⟨id, so⟩ he
    obtain ⟨h1, h2⟩ := mem_accEntries.mp he
    obtain ⟨_, τ, hτ, _, ha⟩ := hvis h2 h1
    obtain ⟨v, hv, rfl⟩ := hm τ hτ
    obtain ⟨past', hr⟩ := h.at_ hv
    exact world_written hr ha
  -- the other objects that were visited, added one after the other
  have hnodup : ((accEntries g t.acc).map Prod.fst).Nodup :=
    accEntries_nodup (by have := hv.keys; simpa [leafKeys] using this) hv.maps
  have hex : ∃ l : List (Ident × Obj), (l.map Prod.fst).Nodup
      ∧ (∀ e ∈ l, e.1.gvr = g ∧ e.1.cluster ∉ cs ∧ identOf eval (confAt conf) e.1.gvr e.1.cluster e.2 = e.1 ∧ e.2.om.isSome = true)
      ∧ ∀ id so, id.cluster ∉ cs → ((id, so) ∈ accEntries g t.acc ↔
          ∃ o, (id, o) ∈ l ∧ so = (build eval (confAt conf id.gvr) id.cluster o).2.2) := by
    have hgv : ∀ e ∈ accEntries g t.acc, e.1.gvr = g := fun e he => (mem_accEntries (id := e.1) (so := e.2)).mp he |>.1
    clear hvis hans' hqt
    generalize accEntries g t.acc = l0 at hwr hnodup hgv
    induction l0 with
    | nil => exact ⟨[], by simp, by simp, by simp⟩
    | cons e l0 ih =>
      rw [List.map_cons, List.nodup_cons] at hnodup
      obtain ⟨l, h1, h2, h3⟩ := ih (fun e he => hwr e (List.mem_cons_of_mem _ he)) hnodup.2
        (fun e he => hgv e (List.mem_cons_of_mem _ he))
      by_cases hc : e.1.cluster ∈ cs
      · refine ⟨l, h1, h2, ?_⟩
        intro id so hid
        rw [← h3 id so hid, List.mem_cons]
        constructor
        · rintro (rfl | h)
          · exact absurd hc hid
          · exact h
        · exact Or.inr
      · obtain ⟨o, ho1, ho2, ho3⟩ := hwr e (by simp)
        refine ⟨(e.1, o) :: l, ?_, ?_, ?_⟩
        · rw [List.map_cons, List.nodup_cons]
          refine ⟨?_, h1⟩
          intro hm
          obtain ⟨⟨id, o'⟩, hm', rfl⟩ := List.mem_map.mp hm
          have := (h3 _ _ (h2 _ hm').2.1).mpr ⟨o', hm', rfl⟩
          exact hnodup.1 (List.mem_map.mpr ⟨_, this, rfl⟩)
        · intro e' he'
          rcases List.mem_cons.mp he' with rfl | he'
          · exact ⟨hgv e (by simp), hc, ho1, ho3⟩
          · exact h2 e' he'
        · intro id so hid
          rw [List.mem_cons]
          constructor
          · rintro (rfl | h)
            · exact ⟨o, by simp, ho2⟩
            · obtain ⟨o', h', rfl⟩ := (h3 id so hid).mp h
              exact ⟨o', List.mem_cons_of_mem _ h', rfl⟩
          · rintro ⟨o', h', rfl⟩
            rcases List.mem_cons.mp h' with h' | h'
            · simp only [Prod.mk.injEq] at h'
              obtain ⟨rfl, rfl⟩ := h'
              exact Or.inl (by rw [← ho2])
            · exact Or.inr ((h3 id _ hid).mpr ⟨o', h', rfl⟩)
  obtain ⟨l, hl1, hl2, hl3⟩ := hex
  let hist := cs.dedup.flatMap (fun c => (S c).out) ++ l.map fun e => Notice.added e.1.gvr e.1.cluster e.2
  have hf : ∀ c ∈ cs.dedup, ∀ n ∈ (S c).out, aboutB g c n = true :=
    fun c hc n hn => sysRun_about (hrun c (List.mem_dedup.mp hc)) n hn
  -- the part of the history about one cluster
  have hin : ∀ c ∈ cs, hist.filter (aboutB g c) = (S c).out := by
    intro c hc
    rw [List.filter_append, filter_flatMap_about _ cs.nodup_dedup hf, if_pos (List.mem_dedup.mpr hc)]
    have : (l.map fun e => Notice.added e.1.gvr e.1.cluster e.2).filter (aboutB g c) = [] := by
      rw [List.filter_eq_nil_iff]
      intro n hn hab
      obtain ⟨e, he, rfl⟩ := List.mem_map.mp hn
      simp only [aboutB, Bool.and_eq_true, decide_eq_true_eq] at hab
      exact (hl2 e he).2.1 (by rw [hab.2]; exact hc)
    rw [this, List.append_nil]
  have hout : ∀ c, c ∉ cs → ∀ n name o, Latest eval (confAt conf) hist ⟨g, c, n, name⟩ o ↔ (⟨g, c, n, name⟩, o) ∈ l := by
    intro c hc n name o
    rw [← latest_adds (eval := eval) (cf := confAt conf) l hl1 (fun e he => (hl2 e he).2.2.1),
      latest_filter, latest_filter (l.map _)]
    have : hist.filter (aboutB g c) = (l.map fun e => Notice.added e.1.gvr e.1.cluster e.2).filter (aboutB g c) := by
      rw [List.filter_append, filter_flatMap_about _ cs.nodup_dedup hf, if_neg (by rw [List.mem_dedup]; exact hc), List.nil_append]
    show Latest eval (confAt conf) (hist.filter (aboutB g c)) _ o ↔ _
    rw [this]
  have hgvr : ∀ n ∈ hist, n.gvr = g := by
    intro n hn
    rcases List.mem_append.mp hn with hn | hn
    · obtain ⟨c, hc, hn⟩ := List.mem_flatMap.mp hn
      have := hf c hc n hn
      cases n <;> simp only [aboutB, Bool.and_eq_true, decide_eq_true_eq] at this <;> exact this.1
    · obtain ⟨e, he, rfl⟩ := List.mem_map.mp hn
      exact (hl2 e he).1
  have hgs : (lookup g (newStore conf).data).isSome = true := by
    rw [newStore_types]
    obtain ⟨m, hm⟩ := Option.isSome_iff_exists.mp hg
    exact List.mem_map.mpr ⟨_, mem_of_lookup hm, rfl⟩
  have hsome : ((newStore conf).run eval hist).isSome = true :=
    run_isSome (fun n hn => by rw [hgvr n hn]; exact hgs)
  obtain ⟨s, hs⟩ := Option.isSome_iff_exists.mp hsome
  refine ⟨hist, s, hs, ?_, ?_, ?_⟩
  · intro n hn
    rcases List.mem_append.mp hn with hn | hn
    · obtain ⟨c, hc, hn⟩ := List.mem_flatMap.mp hn
      exact (sysRun_api (hrun c (List.mem_dedup.mp hc))).2.2 n hn
    · obtain ⟨e, he, rfl⟩ := List.mem_map.mp hn
      exact (hl2 e he).2.2.2
  · intro c hc
    obtain ⟨hp, f, hf1, hf2⟩ := hrec c hc
    exact ⟨S c, f, hrun c hc, hf1, hp, hf2, hin c hc, rfl⟩
  · have hst : (lookup g s.data).isSome = true := by rw [run_types hs]; exact hgs
    obtain ⟨cm, hcm⟩ := Option.isSome_iff_exists.mp hst
    unfold Store.mayAnswer
    rw [hcm]
    refine ⟨t.seen, ?_, hans'⟩
    have hseen : t.seen = ((accEntries g t.acc).map fun e => ((e.1.cluster, e.1.ns, e.1.name), e.2)).map Prod.snd := by
      rw [List.map_map]
      exact (accEntries_snd g t.acc).symm
    rw [hseen, visited_entries]
    refine List.Perm.map _ ?_
    have hwf := (run_look hist hs).1
    have hen := entries_nodup (hwf.cl g cm (mem_of_lookup hcm)) q.ns
    refine (List.perm_ext_iff_of_nodup ?_ hen.of_map).mpr ?_
    · refine List.Nodup.map_on ?_ hnodup.of_map
      rintro ⟨⟨g1, c1, n1, m1⟩, s1⟩ h1 ⟨⟨g2, c2, n2, m2⟩, s2⟩ h2 heq
      have e1 := (mem_accEntries.mp h1).1
      have e2 := (mem_accEntries.mp h2).1
      simp only at e1 e2
      simp_all
    · rintro ⟨⟨c, n, name⟩, so⟩
      rw [entries_latest hs hcm]
      have hmem : ((c, n, name), so) ∈ (accEntries g t.acc).map (fun e => ((e.1.cluster, e.1.ns, e.1.name), e.2))
          ↔ ((⟨g, c, n, name⟩ : Ident), so) ∈ accEntries g t.acc := by
        constructor
        · intro hm
          obtain ⟨⟨⟨g1, c1, n1, m1⟩, s1⟩, h1, heq⟩ := List.mem_map.mp hm
          have e1 := (mem_accEntries.mp h1).1
          simp only [Prod.mk.injEq] at e1 heq
          obtain ⟨⟨rfl, rfl, rfl⟩, rfl⟩ := heq
          subst e1; exact h1
        · intro hm; exact List.mem_map.mpr ⟨_, hm, rfl⟩
      rw [hmem]
      by_cases hc : c ∈ cs
      · have hlat : ∀ o, Latest eval (confAt conf) hist ⟨g, c, n, name⟩ o ↔ Latest eval (confAt conf) (S c).out ⟨g, c, n, name⟩ o := by
          intro o
          rw [latest_filter]
          show Latest eval (confAt conf) (hist.filter (aboutB g c)) _ o ↔ _
          rw [hin c hc]
        simp only [hlat]
        constructor
        · intro hm
          obtain ⟨h1, h2⟩ := mem_accEntries.mp hm
          obtain ⟨h3, τ, hτ, hd, ha⟩ := hvis h2 h1
          exact ⟨((hdur τ hτ hd c hc).2 n name so).mp ha, h3⟩
        · rintro ⟨hl, hns⟩
          refine mem_accEntries.mpr ⟨rfl, ?_⟩
          rcases hv.cover ⟨g, c, n, name⟩ so rfl hns (fun τ hτ hd => ((hdur τ hτ hd c hc).2 n name so).mpr hl) with h | h
          · exact h
          · rcases h with ⟨_, h⟩ | ⟨_, _, h⟩ | ⟨_, h⟩ <;> simp at h
      · simp only [hout c hc]
        constructor
        · intro hm
          obtain ⟨h1, h2⟩ := mem_accEntries.mp hm
          exact ⟨(hl3 _ so hc).mp hm, (hvis h2 h1).1⟩
        · rintro ⟨hl, _⟩
          exact (hl3 ⟨g, c, n, name⟩ so hc).mpr hl

/-- The answer of a get is what the API server has, while its watcher waits. -/
theorem world_get {past : List World} {w : World} (h : WRun isPrint eval alg pf conf past w) {i : Nat} {id : Ident}
    {v : Option Obj} (hcall : Event.call i (.get id.gvr id.cluster id.ns id.name) ∈ w.store.trace)
    (hret : Event.ret i (.got v) ∈ w.store.trace) :
    ∃ u ∈ past ++ [w], During i u.store ∧ v = (u.store.heap.abs id).map SObj.obj := by
  obtain ⟨states, he, hm, _⟩ := h.exec
  obtain ⟨L, hl, hgot⟩ := RegInv.exec' (fun _ h => h) he id
  have htr := TrInv.exec he
  obtain ⟨t, ht, hop⟩ := (htr.call i _).mp hcall
  obtain ⟨t', ht', hr, hans⟩ := htr.ret i _ hret
  rw [ht] at ht'; cases ht'
  have hp := (htr.ret' i t ht hr).1
  have hL := hl.done i t ht (by rw [hop]; rfl) (by rintro ⟨x, hx, _⟩; rw [hp] at hx; simp at hx)
  obtain ⟨τ, hτ, hd, hv⟩ := hgot _ hL v hans
  obtain ⟨u, hu, rfl⟩ := hm τ hτ
  exact ⟨u, hu, hd, hv⟩

end Ckube

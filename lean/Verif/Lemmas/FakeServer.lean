import Verif.Spec.FakeServer
import Verif.Lemmas.Store

/-! # Lemmas: the channels of the watchers of the fake server -/

namespace Ckube
open Spec

theorem mem_waiters {ws : List Wk} {ch i : Nat} : i ∈ waiters ws ch ↔ ∃ w, ws[i]? = some w ∧ w.phase = .waiting (some ch) := by
  unfold waiters
  rw [List.mem_filter, List.mem_range]
  constructor
  · rintro ⟨h1, h2⟩
    split at h2
    · rename_i w hw
      exact ⟨w, hw, by simpa using h2⟩
    · cases h2
  · rintro ⟨w, hw, hp⟩
    refine ⟨(List.getElem?_eq_some_iff.mp hw).1, ?_⟩
    rw [hw]
    simpa using hp

/-- No two handlers wait at one channel. -/
def Alone (ws : List Wk) : Prop := ∀ (i j : Nat) (w u : Wk) (ch : Nat), ws[i]? = some w → ws[j]? = some u →
  w.phase = .waiting (some ch) → u.phase = .waiting (some ch) → i = j

/-- What a send does to a handler. -/
def touched (e : FEvent) (m : List (Str × Nat)) (w : Wk) : Wk :=
  match w.phase with
  | .waiting (some ch) => if ch ∈ m.map Prod.snd then Wk.received w e else w
  | _ => w

theorem touched_cons (e : FEvent) (a : Str) (ch : Nat) (m : List (Str × Nat)) {w : Wk} (h : w.phase ≠ .waiting (some ch)) :
    touched e ((a, ch) :: m) w = touched e m w := by
  unfold touched
  cases hp : w.phase with
  | waiting c =>
    cases c with
    | none => rfl
    | some c =>
      have : c ≠ ch := by rintro rfl; exact h hp
      simp only [List.map_cons, List.mem_cons, this, false_or]
  | _ => rfl

theorem sendAll_touched (e : FEvent) (pick : Nat → Nat) : ∀ (m : List (Str × Nat)) (ws ws' : List Wk), Alone ws →
    sendAll e pick m ws = some ws' → ws' = ws.map (touched e m) := by
  intro m
  induction m with
  | nil =>
    intro ws ws' _ h
    simp only [sendAll, Option.some.injEq] at h
    subst h
    have : touched e [] = id := by
      funext w
      unfold touched
      split <;> simp
    rw [this, List.map_id]
  | cons x m ih =>
    obtain ⟨a, ch⟩ := x
    intro ws ws' hal h
    simp only [sendAll] at h
    split at h
    · rename_i hno
      rw [ih ws ws' hal h]
      apply List.map_congr_left
      intro w hw
      refine (touched_cons e a ch m fun hp => ?_).symm
      obtain ⟨i, hi⟩ := List.mem_iff_getElem?.mp hw
      have := mem_waiters.mpr ⟨w, hi, hp⟩
      rw [hno] at this
      simp at this
    · split at h
      · rename_i hpick
        obtain ⟨w0, hw0, hp0⟩ := mem_waiters.mp hpick
        have hget : ∀ i : Nat, (ws.modify (pick ch) fun w => { w with phase := .loop, got := w.got ++ [e] })[i]?
            = (ws[i]?).map fun w => if i = pick ch then Wk.received w e else w := by
          intro i
          rw [List.getElem?_modify]
          by_cases hi : pick ch = i
          · subst hi
            cases hwi : ws[pick ch]? <;> simp [Wk.received]
          · have hi' : ¬ i = pick ch := fun h => hi h.symm
            cases hwi : ws[i]? <;> simp [hi, hi']
        rw [ih _ _ ?_ h]
        · apply List.ext_getElem?
          intro i
          rw [List.getElem?_map, List.getElem?_map, hget]
          cases hwi : ws[i]? with
          | none => rfl
          | some w =>
            simp only [Option.map_some, Option.some.injEq]
            by_cases hi : i = pick ch
            · subst hi
              rw [hw0] at hwi
              cases hwi
              rw [if_pos rfl]
              unfold touched
              rw [hp0]
              simp [Wk.received]
            · rw [if_neg hi]
              exact (touched_cons e a ch m fun hp => hi (hal i (pick ch) w w0 ch hwi hw0 hp hp0)).symm
        · intro i j w u ch' hi hj hpi hpj
          rw [hget] at hi hj
          simp only [Option.map_eq_some_iff] at hi hj
          obtain ⟨w1, hi1, hi2⟩ := hi
          obtain ⟨u1, hj1, hj2⟩ := hj
          have h1 : i ≠ pick ch := by
            intro h; rw [if_pos h] at hi2; rw [← hi2] at hpi; simp [Wk.received] at hpi
          have h2 : j ≠ pick ch := by
            intro h; rw [if_pos h] at hj2; rw [← hj2] at hpj; simp [Wk.received] at hpj
          rw [if_neg h1] at hi2
          rw [if_neg h2] at hj2
          subst hi2; subst hj2
          exact hal i j w1 u1 ch' hi1 hj1 hpi hpj
      · cases h

/-- A send can always be done. -/
theorem sendAll_some (e : FEvent) (ws0 : List Wk) : ∀ (m : List (Str × Nat)) (ws : List Wk), (m.map Prod.snd).Nodup →
    (∀ ch ∈ m.map Prod.snd, waiters ws ch = waiters ws0 ch) →
    (sendAll e (fun ch => (waiters ws0 ch).headD 0) m ws).isSome = true := by
  intro m
  induction m with
  | nil => intro ws _ _; rfl
  | cons x m ih =>
    obtain ⟨a, ch⟩ := x
    intro ws hnd hw
    simp only [List.map_cons, List.nodup_cons] at hnd
    simp only [sendAll]
    split
    · exact ih ws hnd.2 fun c hc => hw c (by simp [hc])
    · rename_i hne
      have hch := hw ch (by simp)
      have hmem : (waiters ws0 ch).headD 0 ∈ waiters ws ch := by
        rw [hch] at hne ⊢
        cases hl : waiters ws0 ch with
        | nil => exact absurd hl hne
        | cons i l => simp
      rw [if_pos hmem]
      refine ih _ hnd.2 ?_
      intro c hc
      rw [← hw c (by simp [hc])]
      obtain ⟨w0, hw0, hp0⟩ := mem_waiters.mp hmem
      have hcc : c ≠ ch := by rintro rfl; exact hnd.1 hc
      generalize (waiters ws0 ch).headD 0 = q at hw0
      unfold waiters
      rw [List.length_modify]
      apply List.filter_congr
      intro i _
      rw [List.getElem?_modify]
      by_cases hi : q = i
      · subst hi
        rw [hw0]
        simp [hp0, hcc.symm]
      · cases hwi : ws[i]? <;> simp [hi]

/-- What holds as long as no remote address is used twice at a time. -/
structure HubInv (h : Hub) : Prop where
  free : h.stuck = false
  alive : ∀ w ∈ h.ws, w.phase ≠ .panicked
  own : ∀ (i j : Nat) (w u : Wk), h.ws[i]? = some w → h.ws[j]? = some u → Wk.Running w → Wk.Running u → w.addr = u.addr → i = j
  map : IsMap h.chans
  fresh : ∀ x ∈ h.chans, x.2 < h.next
  opened : ∀ x ∈ h.chans, x.2 ∉ h.closed
  old : ∀ c ∈ h.closed, c < h.next
  inj : (h.chans.map Prod.snd).Nodup
  has : ∀ w ∈ h.ws, (w.phase = .loop ∨ Wk.Ready w) → ∃ ch, lookup w.addr h.chans = some ch
  waits : ∀ w ∈ h.ws, ∀ c, w.phase = .waiting c → c = lookup w.addr h.chans

theorem HubInv.init : HubInv {} :=
  ⟨rfl, by simp, by simp, isMap_nil, by simp, by simp, by simp, by simp, by simp, by simp⟩

theorem HubInv.alone {h : Hub} (hi : HubInv h) : Alone h.ws := by
  intro i j w u ch hw hu hpw hpu
  have hmw := List.mem_of_getElem? hw
  have hmu := List.mem_of_getElem? hu
  have h1 := (hi.waits w hmw _ hpw).symm
  have h2 := (hi.waits u hmu _ hpu).symm
  refine hi.own i j w u hw hu ?_ ?_ ?_
  · unfold Wk.Running; rw [hpw]; simp
  · unfold Wk.Running; rw [hpu]; simp
  · exact congrArg Prod.fst (List.inj_on_of_nodup_map hi.inj (mem_of_lookup h1) (mem_of_lookup h2) rfl)

theorem nodup_insertKV {k : Str} {n : Nat} {m : List (Str × Nat)} (h : (m.map Prod.snd).Nodup) (hn : ∀ x ∈ m, x.2 < n) :
    ((insertKV k n m).map Prod.snd).Nodup := by
  induction m with
  | nil => simp [insertKV]
  | cons x m ih =>
    simp only [List.map_cons, List.nodup_cons] at h
    have hlt : ∀ y ∈ m, y.2 < n := fun y hy => hn y (by simp [hy])
    simp only [insertKV]
    split
    · simp only [List.map_cons, List.nodup_cons]
      refine ⟨?_, h.2⟩
      intro hm
      obtain ⟨y, hy, hyn⟩ := List.mem_map.mp hm
      have := hlt y hy
      omega
    · simp only [List.map_cons, List.nodup_cons]
      refine ⟨?_, ih h.2 hlt⟩
      intro hm
      obtain ⟨y, hy, hyx⟩ := List.mem_map.mp hm
      rcases mem_insertKV hy with rfl | hy
      · have := hn x (by simp)
        simp only at hyx
        omega
      · exact h.1 (List.mem_map.mpr ⟨y, hy, hyx⟩)

theorem nodup_eraseKV {k : Str} {m : List (Str × Nat)} (h : (m.map Prod.snd).Nodup) : ((eraseKV k m).map Prod.snd).Nodup := by
  have hs : List.Sublist (eraseKV k m) m := by
    clear h
    induction m with
    | nil => exact .slnil
    | cons x m ih =>
      simp only [eraseKV]
      split
      · exact .cons _ (List.Sublist.refl m)
      · exact .cons_cons _ ih
  exact h.sublist (hs.map Prod.snd)

/-- A handler changes and nothing else does. -/
theorem HubInv.set {h : Hub} (hi : HubInv h) {i : Nat} {w w' : Wk} (hw : h.ws[i]? = some w) (ha : w'.addr = w.addr)
    (hr : Wk.Running w) (hp : w'.phase ≠ .panicked) (hhas : (w'.phase = .loop ∨ Wk.Ready w') → ∃ ch, lookup w.addr h.chans = some ch)
    (hwait : ∀ c, w'.phase = .waiting c → c = lookup w.addr h.chans) : HubInv { h with ws := h.ws.set i w' } := by
  have hlt := (List.getElem?_eq_some_iff.mp hw).1
  have hmem : ∀ u ∈ h.ws.set i w', u = w' ∨ u ∈ h.ws := by
    intro u hu
    rcases List.mem_or_eq_of_mem_set hu with hu | hu
    · exact Or.inr hu
    · exact Or.inl hu
  have hget : ∀ (j : Nat) (u : Wk), (h.ws.set i w')[j]? = some u → Wk.Running u →
      ∃ u0, h.ws[j]? = some u0 ∧ Wk.Running u0 ∧ u0.addr = u.addr := by
    intro j u hj hu
    by_cases hij : i = j
    · subst hij
      rw [List.getElem?_set_self hlt] at hj
      cases hj
      exact ⟨w, hw, hr, ha.symm⟩
    · rw [List.getElem?_set_ne hij] at hj
      exact ⟨u, hj, hu, rfl⟩
  refine ⟨hi.free, ?_, ?_, hi.map, hi.fresh, hi.opened, hi.old, hi.inj, ?_, ?_⟩
  · intro u hu
    rcases hmem u hu with rfl | hu
    · exact hp
    · exact hi.alive u hu
  · intro j k u v hj hk hu hv huv
    obtain ⟨u0, h1, h2, h3⟩ := hget j u hj hu
    obtain ⟨v0, h4, h5, h6⟩ := hget k v hk hv
    exact hi.own j k u0 v0 h1 h4 h2 h5 (by rw [h3, h6, huv])
  · intro u hu h1
    rcases hmem u hu with rfl | hu
    · rw [ha]; exact hhas h1
    · exact hi.has u hu h1
  · intro u hu c hc
    rcases hmem u hu with rfl | hu
    · rw [ha]; exact hwait c hc
    · exact hi.waits u hu c hc

theorem HubInv.connect {h : Hub} (hi : HubInv h) {a : Str} (hf : ∀ w ∈ h.ws, Wk.Running w → w.addr ≠ a) :
    HubInv { h with ws := h.ws ++ [⟨a, .begun, []⟩] } := by
  have hmem : ∀ u ∈ h.ws ++ [⟨a, .begun, []⟩], u ∈ h.ws ∨ u = ⟨a, .begun, []⟩ := by
    intro u hu; simpa using hu
  refine ⟨hi.free, ?_, ?_, hi.map, hi.fresh, hi.opened, hi.old, hi.inj, ?_, ?_⟩
  · intro u hu
    rcases hmem u hu with hu | rfl
    · exact hi.alive u hu
    · simp
  · intro i j u v hu hv hru hrv huv
    rw [List.getElem?_append] at hu hv
    split at hu <;> split at hv
    · exact hi.own i j u v hu hv hru hrv huv
    · have : v = ⟨a, .begun, []⟩ := by simpa using List.mem_of_getElem? hv
      exact absurd (by rw [huv, this]) (hf u (List.mem_of_getElem? hu) hru)
    · have : u = ⟨a, .begun, []⟩ := by simpa using List.mem_of_getElem? hu
      exact absurd (by rw [← huv, this]) (hf v (List.mem_of_getElem? hv) hrv)
    · have h1 := (List.getElem?_eq_some_iff.mp hu).1
      have h2 := (List.getElem?_eq_some_iff.mp hv).1
      simp only [List.length_cons, List.length_nil] at h1 h2
      omega
  · intro u hu h1
    rcases hmem u hu with hu | rfl
    · exact hi.has u hu h1
    · rcases h1 with h1 | ⟨c, h1⟩ <;> cases h1
  · intro u hu c hc
    rcases hmem u hu with hu | rfl
    · exact hi.waits u hu c hc
    · cases hc

/-- The state after a send. -/
theorem HubInv.sent {h h' : Hub} (hi : HubInv h) {e : FEvent} {pick : Nat → Nat} (hs : h.step (.send e pick) = some h') :
    h' = { h with ws := h.ws.map (touched e h.chans) } := by
  have hno : (h.chans.any fun x => decide (x.2 ∈ h.closed)) = false := by
    rw [Bool.eq_false_iff]
    intro ht
    obtain ⟨x, hx, hc⟩ := List.any_eq_true.mp ht
    exact hi.opened x hx (by simpa using hc)
  simp only [Hub.step] at hs
  rw [if_neg (by simp [hi.free])] at hs
  simp only [hno, Bool.false_eq_true, if_false, Option.map_eq_some_iff] at hs
  obtain ⟨ws, hws, rfl⟩ := hs
  rw [sendAll_touched e pick _ _ _ hi.alone hws]

theorem touched_addr (e : FEvent) (m : List (Str × Nat)) (w : Wk) : (touched e m w).addr = w.addr := by
  unfold touched; split
  · split <;> rfl
  · rfl

theorem touched_phase (e : FEvent) (m : List (Str × Nat)) (w : Wk) :
    (touched e m w).phase = w.phase ∨ ((touched e m w).phase = .loop ∧ Wk.Ready w) := by
  unfold touched; split
  · rename_i ch hp
    split
    · exact Or.inr ⟨rfl, some ch, hp⟩
    · exact Or.inl rfl
  · exact Or.inl rfl

theorem HubInv.step {h h' : Hub} (hi : HubInv h) {x : HubIn} (hx : ∀ a, x ≠ .connect a) (hs : h.step x = some h') : HubInv h' := by
  cases x with
  | connect a => exact absurd rfl (hx a)
  | fetch i =>
    simp only [Hub.step] at hs
    split at hs
    · rename_i a got hw
      rw [if_neg (by simp [hi.free])] at hs
      simp only [Option.some.injEq] at hs
      subst hs
      have hm := List.mem_of_getElem? hw
      have hh := hi.has _ hm (Or.inl rfl)
      exact hi.set hw rfl (by simp [Wk.Running]) (by simp) (fun _ => hh) (by intro c hc; cases hc; rfl)
    · cases hs
  | zero i =>
    simp only [Hub.step] at hs
    split at hs
    · rename_i a ch got hw
      split at hs
      · simp only [Option.some.injEq] at hs
        subst hs
        have hm := List.mem_of_getElem? hw
        have hh := hi.has _ hm (Or.inr ⟨_, rfl⟩)
        exact hi.set hw rfl (by simp [Wk.Running]) (by simp) (fun _ => hh) (by intro c hc; cases hc)
      · cases hs
    · cases hs
  | register i =>
    simp only [Hub.step] at hs
    split at hs
    · rename_i a got hw
      rw [if_neg (by simp [hi.free])] at hs
      simp only [Option.some.injEq] at hs
      subst hs
      have hlt := (List.getElem?_eq_some_iff.mp hw).1
      -- no other running handler has this address
      have hother : ∀ (j : Nat) (u : Wk), h.ws[j]? = some u → j ≠ i → Wk.Running u → u.addr ≠ a := by
        intro j u hu hji hru hua
        exact hji (hi.own j i u _ hu hw hru (by simp [Wk.Running]) hua)
      have hi1 : HubInv { h with chans := insertKV a h.next h.chans, next := h.next + 1, ws := h.ws } := by
        refine ⟨hi.free, hi.alive, hi.own, isMap_insertKV hi.map, ?_, ?_, ?_, nodup_insertKV hi.inj hi.fresh, ?_, ?_⟩
        · intro x hx
          rcases mem_insertKV hx with rfl | hx
          · exact Nat.lt_succ_self _
          · exact Nat.lt_succ_of_lt (hi.fresh x hx)
        · intro x hx
          rcases mem_insertKV hx with rfl | hx
          · intro hc; exact absurd (hi.old _ hc) (Nat.lt_irrefl _)
          · exact hi.opened x hx
        · intro c hc; exact Nat.lt_succ_of_lt (hi.old c hc)
        · intro u hu h1
          obtain ⟨ch, hch⟩ := hi.has u hu h1
          simp only
          rw [lookup_insertKV]
          split
          · exact ⟨_, rfl⟩
          · exact ⟨ch, hch⟩
        · intro u hu c hc
          simp only
          rw [lookup_insertKV]
          split
          · rename_i hau
            exfalso
            obtain ⟨j, hj⟩ := List.mem_iff_getElem?.mp hu
            refine hother j u hj ?_ (by simp [Wk.Running, hc]) hau.symm
            rintro rfl
            rw [hw] at hj
            cases hj
            cases hc
          · exact hi.waits u hu c hc
      refine hi1.set hw rfl (by simp [Wk.Running]) (by simp) (fun _ => ⟨h.next, ?_⟩) (by intro c hc; cases hc)
      simp only
      rw [lookup_insertKV, if_pos rfl]
    · cases hs
  | timeout i =>
    simp only [Hub.step] at hs
    split at hs
    · rename_i a c got hw
      rw [if_neg (by simp [hi.free])] at hs
      have hlt := (List.getElem?_eq_some_iff.mp hw).1
      have hm := List.mem_of_getElem? hw
      obtain ⟨ch, hch⟩ := hi.has _ hm (Or.inr ⟨c, rfl⟩)
      simp only at hch
      rw [hch] at hs
      have hmem := mem_of_lookup hch
      simp only [if_neg (hi.opened _ hmem), Option.some.injEq] at hs
      subst hs
      have hother : ∀ (j : Nat) (u : Wk), (h.ws.set i ⟨a, .ended, got⟩)[j]? = some u → Wk.Running u →
          h.ws[j]? = some u ∧ u.addr ≠ a := by
        intro j u hu hru
        by_cases hij : i = j
        · subst hij
          rw [List.getElem?_set_self hlt] at hu
          cases hu
          exact absurd rfl hru
        · rw [List.getElem?_set_ne hij] at hu
          exact ⟨hu, fun hua => hij (hi.own i j _ u hw hu (by simp [Wk.Running]) hru hua.symm)⟩
      have hother' : ∀ u ∈ h.ws.set i ⟨a, .ended, got⟩, Wk.Running u → u ∈ h.ws ∧ u.addr ≠ a := by
        intro u hu hru
        obtain ⟨j, hj⟩ := List.mem_iff_getElem?.mp hu
        exact ⟨List.mem_of_getElem? (hother j u hj hru).1, (hother j u hj hru).2⟩
      refine ⟨hi.free, ?_, ?_, isMap_eraseKV hi.map, fun x hx => hi.fresh x (mem_eraseKV_of hx), ?_, ?_, nodup_eraseKV hi.inj, ?_, ?_⟩
      · intro u hu hp
        have := hother' u hu (by simp [Wk.Running, hp])
        exact hi.alive u this.1 hp
      · intro j k u v hj hk hu hv huv
        exact hi.own j k u v (hother j u hj hu).1 (hother k v hk hv).1 hu hv huv
      · intro x hx hc
        rcases List.mem_cons.mp hc with hc | hc
        · have hxm := mem_eraseKV_of hx
          have : x = (a, ch) := List.inj_on_of_nodup_map hi.inj hxm hmem hc
          subst this
          have := lookup_eraseKV (k := a) (k' := a) hi.map
          rw [if_pos rfl] at this
          rw [lookup_eq_some_of_mem (isMap_eraseKV hi.map) hx] at this
          cases this
        · exact hi.opened x (mem_eraseKV_of hx) hc
      · intro c' hc'
        rcases List.mem_cons.mp hc' with rfl | hc'
        · exact hi.fresh _ hmem
        · exact hi.old c' hc'
      · intro u hu h1
        have hru : Wk.Running u := by
          rcases h1 with h1 | ⟨c, h1⟩ <;> simp [Wk.Running, h1]
        obtain ⟨h2, h3⟩ := hother' u hu hru
        obtain ⟨ch', hch'⟩ := hi.has u h2 h1
        refine ⟨ch', ?_⟩
        simp only
        rw [lookup_eraseKV hi.map, if_neg (Ne.symm h3), hch']
      · intro u hu c' hc'
        obtain ⟨h2, h3⟩ := hother' u hu (by simp [Wk.Running, hc'])
        simp only
        rw [lookup_eraseKV hi.map, if_neg (Ne.symm h3)]
        exact hi.waits u h2 c' hc'
    · cases hs
  | send e pick =>
    rw [hi.sent hs]
    have hrun : ∀ w, Wk.Running (touched e h.chans w) → Wk.Running w := by
      intro w hr
      rcases touched_phase e h.chans w with h1 | ⟨_, c, h2⟩
      · unfold Wk.Running at hr ⊢; rwa [h1] at hr
      · simp [Wk.Running, h2]
    refine ⟨hi.free, ?_, ?_, hi.map, hi.fresh, hi.opened, hi.old, hi.inj, ?_, ?_⟩
    · intro u hu
      obtain ⟨w, hw, rfl⟩ := List.mem_map.mp hu
      rcases touched_phase e h.chans w with h1 | ⟨h1, _⟩
      · rw [h1]; exact hi.alive w hw
      · rw [h1]; simp
    · intro i j u v hu hv hru hrv huv
      simp only [List.getElem?_map, Option.map_eq_some_iff] at hu hv
      obtain ⟨w, hw, rfl⟩ := hu
      obtain ⟨w', hw', rfl⟩ := hv
      rw [touched_addr, touched_addr] at huv
      exact hi.own i j w w' hw hw' (hrun w hru) (hrun w' hrv) huv
    · intro u hu h1
      obtain ⟨w, hw, rfl⟩ := List.mem_map.mp hu
      rw [touched_addr]
      refine hi.has w hw ?_
      rcases touched_phase e h.chans w with h2 | ⟨_, h3⟩
      · rcases h1 with h1 | ⟨c, h1⟩
        · exact Or.inl (h2 ▸ h1)
        · exact Or.inr ⟨c, h2 ▸ h1⟩
      · exact Or.inr h3
    · intro u hu c hc
      obtain ⟨w, hw, rfl⟩ := List.mem_map.mp hu
      rw [touched_addr]
      rcases touched_phase e h.chans w with h2 | ⟨h3, _⟩
      · exact hi.waits w hw c (h2 ▸ hc)
      · rw [h3] at hc; cases hc

theorem FreshRun.inv {h : Hub} (hr : FreshRun h) : HubInv h := by
  induction hr with
  | init => exact .init
  | connect _ hf hs ih =>
    simp only [Hub.step, Option.some.injEq] at hs
    subst hs
    exact ih.connect hf
  | step _ hx hs ih => exact ih.step hx hs

end Ckube

import Verif.Lemmas.FakeServer
import Verif.Props.Server
import Verif.Props.Fake

/-! # C75, C76, C77: the fake server -/

namespace Ckube
open Spec

/-! ## C75 -/

/-- **C75**: as long as no watch comes from the remote address of one whose handler has not ended, every write can send its
event, every handler that is ready receives it, nothing else changes what a handler has received, and every handler goes on or ends. Missing
for the full claim: an address that is used again before its handler has ended, which takes ten minutes whatever the client does (`C75_false_deaf`,
`C75_false_stuck`); a handler that is not ready (`C62_false_busy`). -/
theorem C75_undisturbed_partial {h : Hub} (hr : FreshRun h) :
    h.stuck = false ∧ (∀ w ∈ h.ws, w.phase ≠ .panicked)
    ∧ (∀ e, ∃ pick h', h.step (.send e pick) = some h')
    ∧ (∀ e pick h', h.step (.send e pick) = some h' → h'.ws.length = h.ws.length ∧ ∀ (i : Nat) w, h.ws[i]? = some w →
        (Wk.Ready w → h'.ws[i]? = some (Wk.received w e)) ∧ (¬ Wk.Ready w → h'.ws[i]? = some w))
    ∧ (∀ x h', (∀ e pick, x ≠ .send e pick) → h.step x = some h' → ∀ (i : Nat) w, h.ws[i]? = some w →
        ∃ w', h'.ws[i]? = some w' ∧ w'.addr = w.addr ∧ w'.got = w.got)
    ∧ (∀ (i : Nat) w, h.ws[i]? = some w → Wk.Running w →
        ∃ x h', x ∈ [HubIn.register i, .fetch i, .timeout i] ∧ h.step x = some h') := by
  have hi := FreshRun.inv hr
  refine ⟨hi.free, hi.alive, ?_, ?_, ?_, ?_⟩
  · intro e
    have hno : (h.chans.any fun x => decide (x.2 ∈ h.closed)) = false := by
      rw [Bool.eq_false_iff]
      intro ht
      obtain ⟨x, hx, hc⟩ := List.any_eq_true.mp ht
      exact hi.opened x hx (by simpa using hc)
    obtain ⟨ws, hws⟩ := Option.isSome_iff_exists.mp (sendAll_some e h.ws h.chans h.ws hi.inj fun _ _ => rfl)
    refine ⟨fun ch => (waiters h.ws ch).headD 0, { h with ws := ws }, ?_⟩
    simp only [Hub.step]
    rw [if_neg (by simp [hi.free]), hno, hws]
    rfl
  · intro e pick h' hs
    rw [hi.sent hs]
    refine ⟨by simp, fun i w hw => ?_⟩
    have hm := List.mem_of_getElem? hw
    simp only [List.getElem?_map, hw, Option.map_some, Option.some.injEq]
    constructor
    · rintro ⟨c, hc⟩
      obtain ⟨ch, hch⟩ := hi.has w hm (Or.inr ⟨c, hc⟩)
      have hcc := hi.waits w hm c hc
      rw [hch] at hcc
      subst hcc
      unfold touched
      rw [hc]
      simp only
      rw [if_pos (List.mem_map.mpr ⟨_, mem_of_lookup hch, rfl⟩)]
    · intro hn
      unfold touched
      split
      · rename_i ch hp
        exact absurd ⟨_, hp⟩ hn
      · rfl
  · intro x h' hx hs i w hw
    have hset : ∀ (j : Nat) (u u' : Wk), h.ws[j]? = some u → u'.addr = u.addr → u'.got = u.got →
        ∃ w', (h.ws.set j u')[i]? = some w' ∧ w'.addr = w.addr ∧ w'.got = w.got := by
      intro j u u' hu ha hg
      by_cases hij : j = i
      · subst hij
        rw [hw] at hu
        cases hu
        exact ⟨u', List.getElem?_set_self (List.getElem?_eq_some_iff.mp hw).1, ha, hg⟩
      · exact ⟨w, by rw [List.getElem?_set_ne hij]; exact hw, rfl, rfl⟩
    cases x with
    | send e pick => exact absurd rfl (hx e pick)
    | connect a =>
      simp only [Hub.step, Option.some.injEq] at hs
      subst hs
      exact ⟨w, by simp only; rw [List.getElem?_append_left (List.getElem?_eq_some_iff.mp hw).1]; exact hw, rfl, rfl⟩
    | register j =>
      simp only [Hub.step] at hs
      split at hs
      · rename_i hu
        split at hs
        · cases hs
        · cases hs; exact hset j _ _ hu rfl rfl
      · cases hs
    | fetch j =>
      simp only [Hub.step] at hs
      split at hs
      · rename_i hu
        split at hs
        · cases hs
        · cases hs; exact hset j _ _ hu rfl rfl
      · cases hs
    | timeout j =>
      simp only [Hub.step] at hs
      split at hs
      · rename_i hu
        split at hs
        · cases hs
        · split at hs
          · cases hs; exact hset j _ _ hu rfl rfl
          · split at hs <;> (cases hs; exact hset j _ _ hu rfl rfl)
      · cases hs
    | zero j =>
      simp only [Hub.step] at hs
      split at hs
      · rename_i hu
        split at hs
        · cases hs; exact hset j _ _ hu rfl rfl
        · cases hs
      · cases hs
  · intro i w hw hrun
    have hm := List.mem_of_getElem? hw
    obtain ⟨a, ph, got⟩ := w
    cases ph with
    | begun => exact ⟨.register i, _, by simp, by simp [Hub.step, hw, hi.free]; rfl⟩
    | loop => exact ⟨.fetch i, _, by simp, by simp [Hub.step, hw, hi.free]; rfl⟩
    | waiting c =>
      obtain ⟨ch, hch⟩ := hi.has _ hm (Or.inr ⟨c, rfl⟩)
      simp only at hch
      exact ⟨.timeout i, _, by simp, by simp [Hub.step, hw, hi.free, hch, hi.opened _ (mem_of_lookup hch)]; rfl⟩
    | ended => exact absurd rfl hrun
    | panicked => exact absurd rfl (hi.alive _ hm)

/-- An event. -/
def exSent : FEvent := ⟨.add, ⟨[], lit "v1", lit "pods"⟩, lit "c", lit "prod", lit "web", lit "{}"⟩

/-- Two watches from two addresses, both waiting. -/
def exTwo : List HubIn := [.connect (lit "10.0.0.1:5000"), .register 0, .fetch 0, .connect (lit "10.0.0.2:5000"), .register 1, .fetch 1]

/-- The state after it. -/
def exTwoHub : Hub :=
  ⟨[(lit "10.0.0.1:5000", 0), (lit "10.0.0.2:5000", 1)], 2, [], false,
    [⟨lit "10.0.0.1:5000", .waiting (some 0), []⟩, ⟨lit "10.0.0.2:5000", .waiting (some 1), []⟩]⟩

/-- The hypotheses of `C75_undisturbed_partial`, and a send that both receive. -/
example : FreshRun exTwoHub ∧ Hub.run {} exTwo = some exTwoHub
    ∧ (exTwoHub.step (.send exSent id)).map (fun h => h.ws.map (·.got)) = some [[exSent], [exSent]] := by
  refine ⟨?_, rfl, by decide⟩
  have h1 : FreshRun ⟨[], 0, [], false, [⟨lit "10.0.0.1:5000", .begun, []⟩]⟩ := FreshRun.init.connect (by simp) rfl
  have h2 : FreshRun ⟨[(lit "10.0.0.1:5000", 0)], 1, [], false, [⟨lit "10.0.0.1:5000", .loop, []⟩]⟩ := h1.step (x := .register 0) (by simp) rfl
  have h3 : FreshRun ⟨[(lit "10.0.0.1:5000", 0)], 1, [], false, [⟨lit "10.0.0.1:5000", .waiting (some 0), []⟩]⟩ :=
    h2.step (x := .fetch 0) (by simp) rfl
  have h4 : FreshRun ⟨[(lit "10.0.0.1:5000", 0)], 1, [], false,
      [⟨lit "10.0.0.1:5000", .waiting (some 0), []⟩, ⟨lit "10.0.0.2:5000", .begun, []⟩]⟩ :=
    h3.connect (a := lit "10.0.0.2:5000") (fun w hw _ => (by decide : ∀ w ∈ [(⟨lit "10.0.0.1:5000", .waiting (some 0), []⟩ : Wk)], w.addr ≠ lit "10.0.0.2:5000") w hw) rfl
  have h5 := h4.step (x := .register 1) (by simp) rfl
  exact h5.step (x := .fetch 1) (by simp) rfl

/-- The second watch comes from the address of the first, whose client is gone; the first handler ends. -/
def exReuse : List HubIn :=
  [.connect (lit "10.0.0.1:5000"), .register 0, .fetch 0, .connect (lit "10.0.0.1:5000"), .register 1, .fetch 1, .timeout 0, .zero 1, .fetch 1]

/-- **C75 is false** when an address is used again: the end of the first handler closes the channel of the second, which waits from then on
for nothing and receives no event, ever. -/
theorem C75_false_deaf : ∃ h : Hub, Hub.run {} exReuse = some h ∧ (∃ w, h.ws[1]? = some w ∧ Wk.Ready w)
    ∧ ∀ e pick h', h.step (.send e pick) = some h' → h'.ws = h.ws := by
  refine ⟨⟨[], 2, [1], false, [⟨lit "10.0.0.1:5000", .ended, []⟩, ⟨lit "10.0.0.1:5000", .waiting none, []⟩]⟩, rfl, ⟨_, rfl, none, rfl⟩, ?_⟩
  intro e pick h' hs
  simp only [Hub.step, sendAll] at hs
  cases hs
  rfl

/-- No event can be sent any more. -/
def Spec.NeverAgain (h : Hub) : Prop := ∀ xs h', h.run xs = some h' → ∀ e pick, h'.step (.send e pick) = none

theorem stuck_forever {h : Hub} (hs : h.stuck = true) : NeverAgain h := by
  have hstep : ∀ (h h' : Hub) x, h.stuck = true → h.step x = some h' → h'.stuck = true := by
    intro h h' x hs hx
    obtain ⟨c, n, cl, st, ws⟩ := h
    simp only at hs
    subst hs
    cases x <;> simp only [Hub.step, if_true] at hx
    · cases hx; rfl
    all_goals (try split at hx) <;> (try split at hx) <;> cases hx
    rfl
  intro xs
  induction xs generalizing h with
  | nil =>
    intro h' hr e pick
    simp only [Hub.run, Option.some.injEq] at hr
    subst hr
    simp [Hub.step, hs]
  | cons x xs ih =>
    intro h' hr e pick
    simp only [Hub.run, Option.bind_eq_some_iff] at hr
    obtain ⟨h1, h2, h3⟩ := hr
    exact ih (hstep h h1 x hs h2) h' h3 e pick

/-- **C75 is false** when an address is used again: the end of the second handler closes a nil channel and panics with the lock, and every later
write waits for it, for ever. -/
theorem C75_false_stuck : ∃ h : Hub, Hub.run {} (exReuse ++ [.timeout 1]) = some h ∧ NeverAgain h :=
  ⟨⟨[], 2, [1], true, [⟨lit "10.0.0.1:5000", .ended, []⟩, ⟨lit "10.0.0.1:5000", .panicked, []⟩]⟩, rfl, stuck_forever rfl⟩

/-! ## C76 -/

theorem trimSuffix_append (s t : Str) : trimSuffix (s ++ t) t = s := by
  unfold trimSuffix
  rw [if_pos (by simp)]
  simp

theorem apisDoc_spec (ps : List ProxyConf) : ((apisDoc ps).map Prod.fst).Nodup ∧ (∀ e ∈ apisDoc ps, e.2 = [])
    ∧ ∀ g, g ∈ (apisDoc ps).map Prod.fst ↔ ∃ p ∈ ps, p.group = g := by
  have key : ∀ (ps : List ProxyConf) (a : List (Str × List Str)), (a.map Prod.fst).Nodup → (∀ e ∈ a, e.2 = []) →
      let r := ps.foldl (fun a p => if a.any fun g => g.1 = p.group then a else a ++ [(p.group, [])]) a
      (r.map Prod.fst).Nodup ∧ (∀ e ∈ r, e.2 = []) ∧ ∀ g, g ∈ r.map Prod.fst ↔ g ∈ a.map Prod.fst ∨ ∃ p ∈ ps, p.group = g := by
    intro ps
    induction ps with
    | nil => intro a h1 h2; exact ⟨h1, h2, by simp⟩
    | cons p ps ih =>
      intro a h1 h2
      simp only [List.foldl_cons]
      by_cases hc : (a.any fun g => decide (g.1 = p.group)) = true
      · rw [if_pos hc]
        obtain ⟨g1, g2, g3⟩ := ih a h1 h2
        refine ⟨g1, g2, fun g => (g3 g).trans ?_⟩
        obtain ⟨e, he, hep⟩ := List.any_eq_true.mp hc
        have hep : e.1 = p.group := by simpa using hep
        constructor
        · rintro (h | ⟨q, hq, h⟩)
          · exact Or.inl h
          · exact Or.inr ⟨q, by simp [hq], h⟩
        · rintro (h | ⟨q, hq, h⟩)
          · exact Or.inl h
          · rcases List.mem_cons.mp hq with rfl | hq
            · exact Or.inl (List.mem_map.mpr ⟨e, he, hep.trans h⟩)
            · exact Or.inr ⟨q, hq, h⟩
      · rw [if_neg hc]
        have hn : p.group ∉ a.map Prod.fst := by
          intro hm
          obtain ⟨e, he, hep⟩ := List.mem_map.mp hm
          exact hc (List.any_eq_true.mpr ⟨e, he, by simpa using hep⟩)
        obtain ⟨g1, g2, g3⟩ := ih (a ++ [(p.group, [])])
          (by
            rw [List.map_append, List.nodup_append]
            refine ⟨h1, by simp, ?_⟩
            intro x hx y hy
            simp only [List.map_cons, List.map_nil, List.mem_singleton] at hy
            subst hy
            rintro rfl
            exact hn hx)
          (by intro e he; rcases List.mem_append.mp he with he | he
              · exact h2 e he
              · simp at he; rw [he])
        refine ⟨g1, g2, fun g => (g3 g).trans ?_⟩
        simp only [List.map_append, List.mem_append, List.map_cons, List.map_nil, List.mem_cons, List.not_mem_nil, or_false]
        constructor
        · rintro ((h | h) | ⟨q, hq, h⟩)
          · exact Or.inl h
          · exact Or.inr ⟨p, Or.inl rfl, h.symm⟩
          · exact Or.inr ⟨q, Or.inr hq, h⟩
        · rintro (h | ⟨q, rfl | hq, h⟩)
          · exact Or.inl (Or.inl h)
          · exact Or.inl (Or.inr h.symm)
          · exact Or.inr ⟨q, hq, h⟩
  obtain ⟨g1, g2, g3⟩ := key ps [] (by simp) (by simp)
  exact ⟨g1, g2, fun g => (g3 g).trans (by simp)⟩

/-- **C76**: the list of the groups names every configured group once and no other; the resource list of a group and version contains every configured
type with its kind, and is exact when all configured types are of that group and version. Missing for the full claim: the versions
(`C76_false_versions`) and the types of other groups (`C76_false_types`). -/
theorem C76_discovery_partial (ps : List ProxyConf) :
    ((apisDoc ps).map Prod.fst).Nodup ∧ (∀ g, g ∈ (apisDoc ps).map Prod.fst ↔ ∃ p ∈ ps, p.group = g)
    ∧ (∀ g v, (resourcesDoc ps g v).1 = if g = [] then v else g ++ lit "/" ++ v)
    ∧ (∀ g v, ∀ p ∈ ps, ∀ k, p.listKind = k ++ lit "List" → (p.resource, k) ∈ (resourcesDoc ps g v).2)
    ∧ (∀ g v, (∀ p ∈ ps, p.group = g ∧ p.version = v ∧ ∃ k, p.listKind = k ++ lit "List") →
        TypesDescribed ps g v (resourcesDoc ps g v).2) := by
  obtain ⟨h1, _, h3⟩ := apisDoc_spec ps
  refine ⟨h1, h3, fun g v => rfl, ?_, ?_⟩
  · intro g v p hp k hk
    refine List.mem_map.mpr ⟨p, hp, ?_⟩
    rw [hk, trimSuffix_append]
  · intro g v hall r k
    constructor
    · intro hm
      obtain ⟨p, hp, he⟩ := List.mem_map.mp hm
      obtain ⟨a1, a2, k', hk'⟩ := hall p hp
      simp only [Prod.mk.injEq] at he
      rw [hk', trimSuffix_append] at he
      exact ⟨p, hp, a1, a2, he.1, by rw [hk', he.2]⟩
    · rintro ⟨p, hp, a1, a2, rfl, hk⟩
      refine List.mem_map.mpr ⟨p, hp, ?_⟩
      rw [hk, trimSuffix_append]

/-- Pods and deployments. -/
def exTypes : List ProxyConf :=
  [{ version := lit "v1", resource := lit "pods", listKind := lit "PodList" },
   { group := lit "apps", version := lit "v1", resource := lit "deployments", listKind := lit "DeploymentList" }]

/-- The hypotheses of the last part of `C76_discovery_partial`: deployments alone. -/
example : (∀ p ∈ exTypes.drop 1, p.group = lit "apps" ∧ p.version = lit "v1" ∧ ∃ k, p.listKind = k ++ lit "List")
    ∧ resourcesDoc (exTypes.drop 1) (lit "apps") (lit "v1") = (lit "apps/v1", [(lit "deployments", lit "Deployment")]) := by
  refine ⟨?_, by decide⟩
  intro p hp
  simp only [exTypes, List.drop_succ_cons, List.drop_zero, List.mem_singleton] at hp
  subst hp
  exact ⟨rfl, rfl, lit "Deployment", by decide⟩

/-- **C76 is false** for the versions, whatever is configured outside the core group: no group has any. -/
theorem C76_false_versions (ps : List ProxyConf) (h : ∃ p ∈ ps, p.group ≠ []) :
    (∀ e ∈ apisDoc ps, e.2 = []) ∧ ¬ GroupsDescribed ps (apisDoc ps) := by
  obtain ⟨_, h2, _⟩ := apisDoc_spec ps
  refine ⟨h2, fun hg => ?_⟩
  obtain ⟨p, hp, hne⟩ := h
  obtain ⟨vs, hvs, hv⟩ := (hg p.group p.version).mpr ⟨hne, p, hp, rfl, rfl⟩
  have := h2 _ hvs
  simp only at this
  rw [this] at hv
  simp at hv

/-- **C76 is false** for the types: the list of `apps/v1` offers pods. -/
theorem C76_false_types : ¬ TypesDescribed exTypes (lit "apps") (lit "v1") (resourcesDoc exTypes (lit "apps") (lit "v1")).2 := by
  intro h
  have hm : (lit "pods", lit "Pod") ∈ (resourcesDoc exTypes (lit "apps") (lit "v1")).2 := by decide
  obtain ⟨p, hp, h1, _, h3, _⟩ := (h _ _).mp hm
  have : ∀ p ∈ exTypes, p.group = lit "apps" → p.resource ≠ lit "pods" := by decide
  exact this p hp h1 h3

/-- **C76 is false** for the core group: it is in the list of the groups, under the empty name. -/
theorem C76_false_core : [] ∈ (apisDoc exTypes).map Prod.fst := by decide

/-! ## C77 -/

/-- The route of a path given by its pieces. -/
def fakeSegs (m : Str) (segs : List Str) : List FakeRoute → Option (FakeH × Ckube.Vars)
  | [] => (routeSegs m segs routeTable).map fun x => (.real x.1.handler, x.2)
  | r :: rs =>
    match (if m ∉ r.methods then none else matchSegs r.segs segs) with
    | some vs => some (r.handler, vs)
    | none => fakeSegs m segs rs

theorem fakeRouteOf_segs {m : Str} {segs : List Str} (h : ∀ s ∈ segs, IsPiece s) (rs : List FakeRoute) :
    fakeRouteOf m (pathText segs) rs = fakeSegs m segs rs := by
  induction rs with
  | nil => simp only [fakeRouteOf, fakeSegs, routeOf_segs h]
  | cons r rs ih =>
    unfold fakeRouteOf fakeSegs
    rw [split_path h, ih]
    rfl

theorem fakeAsks_watch {r : HReq} (h : fakeAsks r.rawQuery = true) : AsksWatch r := by
  unfold fakeAsks at h
  split at h
  · rename_i v hv
    refine ⟨v, ⟨[], hv⟩, ?_⟩
    simp only [Bool.or_eq_true, decide_eq_true_eq] at h
    rcases h with rfl | rfl <;> decide
  · cases h

theorem fakeLit_ne : lit "version" ≠ lit "api" ∧ lit "version" ≠ lit "apis" := by decide

theorem Target.clean {t : Target} (hv : t.Valid) : cleanPath t.path = t.path := by
  refine cleanPath_path ?_ hv.pieces
  unfold Target.pieces
  split <;> simp

/-- **C77**, writes: a creation, replacement or deletion at a path without subresource reaches the write handler with the group, version, type, namespace
and name the path denotes. Missing for the full claim: patches (`C77_false_patch`) and subresources (`C77_false_status`). -/
theorem C77_write_partial {t : Target} (hv : t.Valid) (hs : t.sub = []) {r : HReq} (hm : r.method ∈ [lit "POST", lit "PUT", lit "DELETE"])
    (hw : ¬ AsksWatch r) : ∃ vs, fakeServe r.method t.path r.rawQuery = some (.write, vs) ∧ t.Vars (r.withFakeVars vs) := by
  have hask : fakeAsks r.rawQuery = false := by
    rw [Bool.eq_false_iff]; exact fun h => hw (fakeAsks_watch h)
  obtain ⟨n1, n2, n3, n4, n5, n6, n7⟩ := lit_ne
  obtain ⟨n8, n9⟩ := fakeLit_ne
  unfold fakeServe
  rw [if_neg (by rw [Target.clean hv]; simp), hask]
  have hp := hv.pieces
  unfold Target.path
  rw [fakeRouteOf_segs hp]
  have hm' : r.method ∈ fakeWrites := hm
  have hg' : r.method ∉ [lit "GET"] := by
    intro h
    simp only [List.mem_singleton] at h
    rw [h] at hm
    revert hm; decide
  obtain ⟨g, v, ns, rs, name, sub⟩ := t
  simp only at hs
  subst hs
  have hv' : v ≠ [] := (hp v (by simp only [Target.pieces]; split <;> simp)).1
  have hr' : rs ≠ [] := (hp rs (by simp only [Target.pieces]; split <;> split <;> simp)).1
  by_cases hg : g = [] <;> by_cases hn : ns = [] <;> by_cases hna : name = []
  all_goals
    simp [Target.pieces, hg, hn, hna, fakeSegs, fakeRoutes, matchSegs, hv', hr', hm', n1, n1.symm]
  all_goals exact ⟨rfl, rfl, rfl, rfl, rfl⟩

/-- **C77**, reads: a get or list reaches ckube's own proxy with what the path denotes; a watch reaches the watch handler with the group,
version, type and namespace. -/
theorem C77_read {t : Target} (hv : t.Valid) (hs : t.sub = []) {r : HReq} (hm : r.method = lit "GET") :
    ∃ vs, t.Vars (r.withVars vs) ∧ (¬ AsksWatch r → fakeServe r.method t.path r.rawQuery = some (.real .proxy, vs))
      ∧ ((lookup (lit "watch") (parseQuery r.rawQuery) = some [lit "true"] ∨ lookup (lit "watch") (parseQuery r.rawQuery) = some [lit "1"]) →
          fakeServe r.method t.path r.rawQuery = some (.watch, vs)) := by
  obtain ⟨n1, n2, n3, n4, n5, n6, n7⟩ := lit_ne
  obtain ⟨n8, n9⟩ := fakeLit_ne
  obtain ⟨rt, vs, h1, h2, h3⟩ := C52_variables_partial hv hs (m := r.method) (by rw [hm]; decide) (Or.inl hm) r
  have hroute : fakeRouteOf r.method t.path fakeRoutes = some (.real .proxy, vs) := by
    have hp := hv.pieces
    have hverb := hv.verb
    unfold Target.path at h1 ⊢
    rw [routeOf_segs hp] at h1
    rw [fakeRouteOf_segs hp]
    have hm' : r.method ∉ fakeWrites := by rw [hm]; decide
    have hlast : fakeSegs r.method t.pieces [] = some (.real .proxy, vs) := by
      simp only [fakeSegs, h1, Option.map_some, h2]
    rw [← hlast]
    obtain ⟨g, v, ns, rs, name, sub⟩ := t
    simp only at hs hverb
    subst hs
    have hw' : lit "watch" ≠ rs := by rintro rfl; exact hverb (by simp)
    have hwn : lit "watch" ≠ lit "namespaces" := by decide
    have hv' : v ≠ [] := (hp v (by simp only [Target.pieces]; split <;> simp)).1
    have hr' : rs ≠ [] := (hp rs (by simp only [Target.pieces]; split <;> split <;> simp)).1
    by_cases hg : g = [] <;> by_cases hn : ns = [] <;> by_cases hna : name = []
    all_goals
      simp [Target.pieces, hg, hn, hna, fakeSegs, fakeRoutes, matchSegs, hv', hm', n1, n1.symm, n8, n9, hw', hwn]
  refine ⟨vs, h3, ?_, ?_⟩
  · intro hw
    have hask : fakeAsks r.rawQuery = false := by
      rw [Bool.eq_false_iff]; exact fun h => hw (fakeAsks_watch h)
    unfold fakeServe
    rw [if_neg (by rw [Target.clean hv]; simp), hask, hroute]
    rfl
  · intro hw
    have hask : fakeAsks r.rawQuery = true := by
      unfold fakeAsks
      rcases hw with hw | hw <;> rw [hw] <;> decide
    unfold fakeServe
    rw [if_neg (by rw [Target.clean hv]; simp), hask, hroute]
    rfl

theorem listAnswer_local {env : Env} {tord : Nat → List (Str × Str) → List (Str × Str)} {r : HReq} {pg : Paginate} {l : Listed}
    {w : Bool} {c m p q b : Str} : listAnswer env tord r pg l ≠ .forward w c m p q b := by
  unfold listAnswer
  split
  · simp
  · simp
  · split
    · simp
    · split
      · unfold serverPrint
        split <;> simp
      · simp

/-- **C77**, nothing leaves: ckube's proxy of a fake server, which has no clients, forwards nothing. -/
theorem C77_local {env : Env} (hc : env.clients = []) (st : StoreI) (tord : Nat → List (Str × Str) → List (Str × Str)) (ord : Values) (r : HReq)
    {w : Bool} {c m p q b : Str} : proxy env st tord ord r ≠ .forward w c m p q b := by
  have hpass : ∀ c' q' b', proxyPass env r c' q' b' ≠ .forward w c m p q b := by
    intro c' q' b'
    unfold proxyPass
    simp [hc]
  intro hf
  unfold proxy at hf
  split at hf
  · exact hpass _ _ _ hf
  · split at hf
    · exact hpass _ _ _ hf
    · split at hf
      · exact hpass _ _ _ hf
      · split at hf
        · unfold proxySingle at hf
          split at hf <;> cases hf
        · exact listAnswer_local hf

/-- The hypotheses of `C77_write_partial` and `C77_read`. -/
example : exDeploy.Valid ∧ exDeploy.sub = []
    ∧ (fakeServe (lit "PUT") exDeploy.path []).map (·.1) = some .write
    ∧ (fakeServe (lit "GET") exDeploy.path []).map (·.1) = some (.real .proxy)
    ∧ (fakeServe (lit "GET") exDeploy.path (lit "watch=true")).map (·.1) = some .watch := by
  have h : ∀ s ∈ exDeploy.pieces, s ≠ [] ∧ (47 : UInt8) ∉ s ∧ s ≠ lit "." ∧ s ≠ lit ".." := by decide
  exact ⟨⟨h, by decide, by decide, by decide, by decide⟩, rfl, by decide +kernel, by decide +kernel, by decide +kernel⟩

/-- A request that is not a read is refused by ckube's proxy of a fake server. -/
theorem fake_refuses {env : Env} (hc : env.clients = []) (st : StoreI) (tord : Nat → List (Str × Str) → List (Str × Str)) (ord : Values) {r : HReq}
    (hm : r.method ≠ lit "GET") : ∃ c, proxy env st tord ord r = .noCluster c := by
  have hpass : ∀ c q b, ∃ c', proxyPass env r c q b = .noCluster c' := by
    intro c q b
    unfold proxyPass
    simp [hc]
  unfold proxy
  split
  · exact hpass _ _ _
  · split
    · exact hpass _ _ _
    · rw [if_pos (Or.inr hm)]
      exact hpass _ _ _

/-- **C77 is false** for patches, which the resource list offers for every type: they reach ckube's proxy, which answers that the cluster
does not exist. -/
theorem C77_false_patch {t : Target} (hv : t.Valid) (hs : t.sub = []) {env : Env} (hc : env.clients = []) (st : StoreI)
    (tord : Nat → List (Str × Str) → List (Str × Str)) (ord : Values) {r : HReq} (hm : r.method = lit "PATCH") (hw : ¬ AsksWatch r) :
    ∃ vs, fakeServe r.method t.path r.rawQuery = some (.real .proxy, vs) ∧ ∃ c, proxy env st tord ord (r.withVars vs) = .noCluster c := by
  have hask : fakeAsks r.rawQuery = false := by
    rw [Bool.eq_false_iff]; exact fun h => hw (fakeAsks_watch h)
  have hroute : ∃ vs, fakeRouteOf r.method t.path fakeRoutes = some (.real .proxy, vs) := by
    have hp := hv.pieces
    have hnone : ∀ rs : List FakeRoute, (∀ x ∈ rs, r.method ∉ x.methods) → fakeSegs r.method t.pieces rs = fakeSegs r.method t.pieces [] := by
      intro rs
      induction rs with
      | nil => intro _; rfl
      | cons x rs ih =>
        intro h
        rw [← ih fun y hy => h y (by simp [hy])]
        conv_lhs => unfold fakeSegs
        rw [if_pos (h x (by simp))]
    unfold Target.path
    rw [fakeRouteOf_segs hp, hnone fakeRoutes (by rw [hm]; decide)]
    obtain ⟨rt, vs, h1, h2⟩ : ∃ rt vs, routeOf r.method t.path routeTable = some (rt, vs) ∧ rt.handler = .proxy := by
      by_cases hcase : t.group = [] ∨ t.ns = [] ∨ t.name ≠ []
      · obtain ⟨rt, vs, h1, h2, _⟩ := C52_variables_partial hv hs (m := r.method) (by rw [hm]; decide) (Or.inr hcase) r
        exact ⟨rt, vs, h1, h2⟩
      · push Not at hcase
        obtain ⟨n1, n2, n3, n4, n5, n6, n7⟩ := lit_ne
        have hne : lit "PATCH" ≠ lit "GET" := by decide
        unfold Target.path
        rw [routeOf_segs hp, hm]
        obtain ⟨g, v, ns, rs, name, sub⟩ := t
        simp only at hs hcase
        obtain ⟨c1, c2, c3⟩ := hcase
        subst hs c3
        simp [Target.pieces, c1, c2, routeSegs, routeTable, matchSegs, n1, hne]
    unfold Target.path at h1
    rw [routeOf_segs hp] at h1
    exact ⟨vs, by simp only [fakeSegs, h1, Option.map_some, h2]⟩
  obtain ⟨vs, hroute⟩ := hroute
  refine ⟨vs, ?_, ?_⟩
  · unfold fakeServe
    rw [if_neg (by rw [Target.clean hv]; simp), hask, hroute]
    rfl
  · refine fake_refuses hc st tord ord ?_
    show r.method ≠ _
    rw [hm]; decide

/-- **C77 is false** for subresources: the update of a status is refused in the same way. -/
theorem C77_false_status : (fakeServe (lit "PUT") (lit "/apis/apps/v1/namespaces/prod/deployments/web/status") []).map (·.1) = some (.real .proxy)
    ∧ ∀ (env : Env) (st : StoreI) (tord : Nat → List (Str × Str) → List (Str × Str)) (ord : Values) (r : HReq), env.clients = [] →
      r.method = lit "PUT" → ∃ c, proxy env st tord ord r = .noCluster c :=
  ⟨by decide +kernel, fun _ st tord ord _ hc hm => fake_refuses hc st tord ord (by rw [hm]; decide)⟩

end Ckube

import Verif.Lemmas.Watcher
import Verif.Props.Store

/-! # C35–C38: the watcher

`h` is any history of store calls by any number of watchers; those about resource type `r` of cluster `c`
are the ones its watcher makes (`h.filter (aboutB r c) = out`). -/

namespace Ckube
open Spec

variable {eval : Str → Obj → Str} {conf : List (GVR × List (Str × Str))} {h : List Notice} {s : Store}

theorem holds_cached (hrun : (newStore conf).run eval h = some s) (r : GVR) (c : Str) {out : List Notice}
    (hh : h.filter (aboutB r c) = out) (hab : ∀ n ∈ out, aboutB r c n = true) :
    Holds s r c (cached (objKey eval (confAt conf r)) out) := by
  intro ns name
  obtain ⟨h1, h2⟩ := C20_latest hrun ⟨r, c, ns, name⟩
  have hl : ∀ o, Latest eval (confAt conf) h ⟨r, c, ns, name⟩ o
      ↔ cached (objKey eval (confAt conf r)) out (ns, name) = some o := by
    intro o
    rw [latest_filter]
    simp only [hh]
    exact cached_latest r c out hab ns name o
  cases hc : cached (objKey eval (confAt conf r)) out (ns, name) with
  | some o => exact h1 o ((hl o).mpr hc)
  | none =>
    refine h2 (fun o ho => ?_)
    have := (hl o).mp ho
    rw [hc] at this
    cases this

/-! ## C35 -/

/-- **C35**: whatever happened before (`pre`), once the stream opened last has delivered something (`cur`), the
cache of the type and cluster is exactly the replay of the events of this stream on an empty cache; also after it
broke or the watcher stopped, and while connecting fails (`post`). -/
theorem C35_replay (hrun : (newStore conf).run eval h = some s) (r : GVR) (c : Str) (pre post : List WIn)
    (cur : List (EvType × Obj)) (hcur : cur ≠ []) (hpost : ∀ i ∈ post, i = .fail ∨ i = .closed ∨ i = .stop)
    {p : WPhase} {out : List Notice}
    (hw : wrun r c .connecting (pre ++ .opened :: (cur.map fun e => WIn.event e.1 e.2) ++ post) = some (p, out))
    (hh : h.filter (aboutB r c) = out) :
    Holds s r c (replay (objKey eval (confAt conf r)) cur) := by
  have hho := holds_cached hrun r c hh (wrun_about hw)
  rw [List.append_assoc, wrun_append] at hw
  cases hpre : wrun r c .connecting pre with
  | none => rw [hpre] at hw; simp at hw
  | some x =>
    rw [hpre] at hw
    simp only [Option.bind_some, Option.map_eq_some_iff, Prod.mk.injEq, List.cons_append] at hw
    obtain ⟨y, hy, _, rfl⟩ := hw
    have hx : x.1 = .connecting := by
      rw [wrun] at hy
      cases hph : x.1 with
      | connecting => rfl
      | streaming f => rw [hph] at hy; simp [wstep] at hy
      | done => rw [hph] at hy; simp [wstep] at hy
    rw [hx, wrun] at hy
    simp only [wstep, Option.map_eq_some_iff, List.nil_append] at hy
    obtain ⟨z, hz, rfl⟩ := hy
    rw [wrun_append] at hz
    obtain ⟨o1, e1, e2⟩ := wrun_events (key := objKey eval (confAt conf r)) (r := r) (c := c) cur true
    rw [e1] at hz
    simp only [Option.bind_some, Option.map_eq_some_iff] at hz
    obtain ⟨w, hw, rfl⟩ := hz
    have hq := wrun_quiet post hpost (by
      cases cur with
      | nil => exact absurd rfl hcur
      | cons _ _ => simp) hw
    have hcache : cached (objKey eval (confAt conf r)) (x.2 ++ (o1 ++ w.2)) = replay (objKey eval (confAt conf r)) cur := by
      rw [hq, List.append_nil, cached_append, e2]
      cases cur with
      | nil => exact absurd rfl hcur
      | cons _ _ => rfl
    simp only at hho
    rw [hcache] at hho
    exact hho

/-- A watcher that reconnects: what the first stream delivered is gone, the second stream's pod is there; another
watcher's calls are in between. -/
def exWIn1 : List WIn := [.fail, .opened, .event .added (exPod "old" "n1"), .closed]
def exCur : List (EvType × Obj) := [(.added, exPod "web" "n1"), (.bookmark, {}), (.modified, exPod "web" "n2")]
def exWOut : List Notice :=
  [.clean exPods (lit "c1"), .added exPods (lit "c1") (exPod "old" "n1"), .clean exPods (lit "c1"),
   .added exPods (lit "c1") (exPod "web" "n1"), .modified exPods (lit "c1") (exPod "web" "n2")]
def exWHist : List Notice :=
  [.clean exPods (lit "c1"), .clean exNodes (lit "c1"), .added exPods (lit "c1") (exPod "old" "n1"),
   .added exPods (lit "c2") (exPod "old" "n7"), .clean exPods (lit "c1"),
   .added exPods (lit "c1") (exPod "web" "n1"), .modified exPods (lit "c1") (exPod "web" "n2")]

example : wrun exPods (lit "c1") .connecting
      (exWIn1 ++ .opened :: (exCur.map fun e => WIn.event e.1 e.2) ++ [.closed, .fail]) = some (.connecting, exWOut)
    ∧ exWHist.filter (aboutB exPods (lit "c1")) = exWOut
    ∧ ((newStore exConf).run exEval exWHist).map (fun s => ((s.get exPods (lit "c1") (lit "prod") (lit "web")).map Obj.body,
        (s.get exPods (lit "c1") (lit "prod") (lit "old")).map Obj.body)) = some (some (lit "n2"), none)
    ∧ (replay (objKey exEval (confAt exConf exPods)) exCur (lit "prod", lit "web")).map Obj.body = some (lit "n2") := by
  refine ⟨rfl, rfl, by decide +kernel, by decide +kernel⟩

/-! ## C36 -/

/-- **C36** does not hold in general: a pod is cached, the stream breaks, the pod is deleted, the next stream
has no event to deliver because the server has no pods any more, and the pod stays in the cache. -/
theorem C36_false : ∃ (t : Sys) (h : List Notice) (s : Store) (f : Bool), SysRun exPods (lit "c1") {} t
    ∧ t.phase = .streaming f ∧ t.pending = [] ∧ h.filter (aboutB exPods (lit "c1")) = t.out
    ∧ (newStore exConf).run exEval h = some s
    ∧ ¬ Holds s exPods (lit "c1") (fun k => lookup k t.objs) := by
  let o := exPod "web" "n1"
  have hk : metaKey o = some (lit "prod", lit "web") := rfl
  have s1 := SysRun.step (.refl {}) (SysStep.create (r := exPods) (c := lit "c1") (s := {}) hk rfl)
  have s2 := SysRun.step s1 (.opened (p := .streaming true) (out := []) (List.Perm.refl _) rfl)
  have s3 := SysRun.step s2 (.deliver (p := .streaming false) (t := .added) (o := o) (rest := []) rfl rfl)
  have s4 := SysRun.step s3 (.closed (p := .connecting) (out := []) rfl)
  have s5 := SysRun.step s4 (.delete hk (old := o) rfl)
  have s6 := SysRun.step s5 (.opened (p := .streaming true) (out := []) (List.Perm.refl _) rfl)
  have hrun : ((newStore exConf).run exEval [.clean exPods (lit "c1"), .added exPods (lit "c1") (exPod "web" "n1")]).map
      (fun s => (s.get exPods (lit "c1") (lit "prod") (lit "web")).isSome) = some true := by decide +kernel
  rw [Option.map_eq_some_iff] at hrun
  obtain ⟨s, hs, hget⟩ := hrun
  refine ⟨_, [.clean exPods (lit "c1"), .added exPods (lit "c1") o], s, true, s6, rfl, rfl, rfl, hs, ?_⟩
  intro hh
  have h1 : s.get exPods (lit "c1") (lit "prod") (lit "web") = none := hh (lit "prod") (lit "web")
  rw [h1] at hget
  cases hget

/-- **C36**, partial (missing: a stream that has delivered nothing, of a server without objects of the type, after one that left objects
in the cache): an API server with any history of creations, updates and deletions, any number of broken streams and failed
connections. Whenever a stream is open, all its events have been consumed, and it delivered something, the server
has an object, or the watcher had told the store nothing since its last clean up, the cache of the type and cluster holds exactly the objects of the server. -/
theorem C36_converges_partial (r : GVR) (c : Str) {t : Sys} (hsys : SysRun r c {} t) {f : Bool}
    (hopen : t.phase = .streaming f) (hall : t.pending = []) (hsome : f = false ∨ t.objs ≠ [] ∨ Emptied t.out)
    (hrun : (newStore conf).run eval h = some s) (hh : h.filter (aboutB r c) = t.out) :
    Holds s r c (fun k => lookup k t.objs) := by
  have hi := (SysInv.init (key := objKey eval (confAt conf r)) r c).run (fun o k hk => objKey_of_meta hk) hsys
  have hs := hi.stream f hopen
  rw [hall] at hs
  have hs : ∀ k, cached (objKey eval (confAt conf r)) t.out k = lookup k t.objs := received_cached hs hsome
  have hho := holds_cached hrun r c hh hi.about
  have : (fun k => lookup k t.objs) = cached (objKey eval (confAt conf r)) t.out := funext fun k => (hs k).symm
  rw [this]
  exact hho

/-- **C36**, exactly: when a stream is open and all its events have been consumed, the cache of the type and cluster holds the objects of the server if and
only if the stream delivered something, the server has an object, or nothing the watcher has told the store is left there. -/
theorem C36_exact (r : GVR) (c : Str) {t : Sys} (hsys : SysRun r c {} t) {f : Bool}
    (hopen : t.phase = .streaming f) (hall : t.pending = [])
    (hrun : (newStore conf).run eval h = some s) (hh : h.filter (aboutB r c) = t.out) :
    Holds s r c (fun k => lookup k t.objs)
      ↔ f = false ∨ t.objs ≠ [] ∨ ∀ ns name o, ¬ Latest eval (confAt conf) t.out ⟨r, c, ns, name⟩ o := by
  have hi := (SysInv.init (key := objKey eval (confAt conf r)) r c).run (fun o k hk => objKey_of_meta hk) hsys
  have hho := holds_cached hrun r c hh hi.about
  constructor
  · intro hold
    by_contra hno
    push Not at hno
    obtain ⟨_, ho, ns, name, o, hl⟩ := hno
    rw [cached_latest r c t.out hi.about] at hl
    have h1 := hold ns name
    have h2 := hho ns name
    rw [hl] at h2
    obtain ⟨o', h2, _⟩ := h2
    rw [ho] at h1
    have h1 : s.get r c ns name = none := h1
    rw [h1] at h2
    simp at h2
  · intro hc
    rcases hc with hc | hc | hc
    · exact C36_converges_partial r c hsys hopen hall (Or.inl hc) hrun hh
    · exact C36_converges_partial r c hsys hopen hall (Or.inr (Or.inl hc)) hrun hh
    · by_cases ho : t.objs = []
      · intro ns name
        have h2 := hho ns name
        have : cached (objKey eval (confAt conf r)) t.out (ns, name) = none := by
          cases hx : cached (objKey eval (confAt conf r)) t.out (ns, name) with
          | none => rfl
          | some o => exact absurd ((cached_latest r c t.out hi.about ns name o).mpr hx) (hc ns name o)
        rw [this] at h2
        rw [ho]
        exact h2
      · exact C36_converges_partial r c hsys hopen hall (Or.inr (Or.inl ho)) hrun hh

/-- Such a run: a pod existed before the stream, it is changed and another one created while the stream is open. -/
example : ∃ t : Sys, SysRun exPods (lit "c1") {} t ∧ t.phase = .streaming false ∧ t.pending = [] ∧ t.objs.length = 2
    ∧ t.out.length = 4 := by
  have k1 : metaKey (exPod "web" "n1") = some (lit "prod", lit "web") := rfl
  have k2 : metaKey (exPod "web" "n2") = some (lit "prod", lit "web") := rfl
  have k3 : metaKey (exPod "db" "n1") = some (lit "prod", lit "db") := rfl
  have s1 := SysRun.step (.refl {}) (SysStep.create (r := exPods) (c := lit "c1") (s := {}) k1 rfl)
  have s2 := SysRun.step s1 (.opened (p := .streaming true) (out := []) (List.Perm.refl _) rfl)
  have s3 := SysRun.step s2 (.update k2 (old := exPod "web" "n1") rfl)
  have s4 := SysRun.step s3 (.create k3 (by decide +kernel))
  have s5 := SysRun.step s4 (.deliver (p := .streaming false) (t := .added) (o := exPod "web" "n1") rfl rfl)
  have s6 := SysRun.step s5 (.deliver (p := .streaming false) (t := .modified) (o := exPod "web" "n2") rfl rfl)
  have s7 := SysRun.step s6 (.deliver (p := .streaming false) (t := .added) (o := exPod "db" "n1") rfl rfl)
  exact ⟨_, s7, rfl, rfl, by decide +kernel, by decide +kernel⟩

/-- The events of an open stream can always be consumed: nothing blocks the watcher. -/
theorem C36_drains (r : GVR) (c : Str) (t : Sys) (f : Bool) (hopen : t.phase = .streaming f) :
    ∃ u : Sys, SysRun r c t u ∧ u.pending = [] ∧ u.objs = t.objs ∧ ∃ f', u.phase = .streaming f' := by
  cases hp : t.pending with
  | nil => exact ⟨t, .refl t, hp, rfl, f, hopen⟩
  | cons e l =>
    suffices hgen : ∀ (l : List (EvType × Obj)) (t : Sys) (f : Bool), t.phase = .streaming f → t.pending = l →
        ∃ u : Sys, SysRun r c t u ∧ u.pending = [] ∧ u.objs = t.objs ∧ ∃ f', u.phase = .streaming f' from
      hgen _ t f hopen rfl
    have htrans : ∀ {a b d : Sys}, SysRun r c a b → SysRun r c b d → SysRun r c a d := by
      intro a b d h1 h2
      induction h2 with
      | refl => exact h1
      | step _ hs ih => exact .step ih hs
    intro l
    induction l with
    | nil => intro t f ho hp; exact ⟨t, .refl t, hp, rfl, f, ho⟩
    | cons e l ih =>
      intro t f ho hp
      let t' : Sys := { t with phase := .streaming false, out := t.out ++ (cleanFirst r c f ++ evNotice r c e.1 e.2),
                               pending := l }
      have st : SysStep r c t t' := SysStep.deliver (p := .streaming false)
        (out := cleanFirst r c f ++ evNotice r c e.1 e.2) (t := e.1) (o := e.2) (rest := l) hp (by rw [ho]; rfl)
      obtain ⟨u, h1, h2, h3, h4⟩ := ih t' false rfl rfl
      exact ⟨u, htrans (.step (.refl t) st) h1, h2, h3, h4⟩

/-! ## C37 -/

/-- **C37** does not hold in general: when the API server accepts the watch and the connection breaks before the
first event, the cached objects are dropped. -/
theorem C37_false : ∃ (out : List Notice) (s : Store),
    wrun exPods (lit "c1") .connecting [.opened, .event .added (exPod "web" "n1"), .closed, .fail, .opened, .closed, .fail]
      = some (.connecting, out)
    ∧ (newStore exConf).run exEval out = some s ∧ s.get exPods (lit "c1") (lit "prod") (lit "web") = none
    ∧ ∃ (out₁ : List Notice) (s₁ : Store),
      wrun exPods (lit "c1") .connecting [.opened, .event .added (exPod "web" "n1")] = some (.streaming false, out₁)
      ∧ (newStore exConf).run exEval out₁ = some s₁ ∧ (s₁.get exPods (lit "c1") (lit "prod") (lit "web")).isSome = true := by
  refine ⟨_, _, rfl, Option.some_get (show ((newStore exConf).run exEval
      [.clean exPods (lit "c1"), .added exPods (lit "c1") (exPod "web" "n1"), .clean exPods (lit "c1")]).isSome = true
      by decide +kernel) |>.symm, by decide +kernel, _, _, rfl, Option.some_get (show ((newStore exConf).run exEval
      [.clean exPods (lit "c1"), .added exPods (lit "c1") (exPod "web" "n1")]).isSome = true by decide +kernel) |>.symm,
    by decide +kernel⟩

/-- **C37**, partial (missing: streams that open and deliver nothing): while the stream that delivered something
breaks and connecting fails any number of times, no read of any object of the type and cluster changes, whatever
the other watchers do. -/
theorem C37_survives_partial (r : GVR) (c : Str) {p p' : WPhase} (hp : p ≠ .streaming true) (ins : List WIn)
    (hq : ∀ i ∈ ins, i = .fail ∨ i = .closed ∨ i = .stop) {out : List Notice}
    (hw : wrun r c p ins = some (p', out)) {h₂ : List Notice} {s' : Store} (hh : h₂.filter (aboutB r c) = out)
    (hrun : (newStore conf).run eval h = some s) (hrun' : s.run eval h₂ = some s') (ns name : Str) :
    s'.get r c ns name = s.get r c ns name := by
  have ho := wrun_quiet ins hq hp hw
  subst ho
  have hall : ∀ n ∈ h₂, aboutB r c n = false := by
    intro n hn
    have := List.filter_eq_nil_iff.mp hh n hn
    simpa using this
  clear hh hw
  induction h₂ generalizing h s with
  | nil => simp only [Store.run, Option.some.injEq] at hrun'; rw [hrun']
  | cons n h₂ ih =>
    rw [Store.run] at hrun'
    cases hs : s.step eval n with
    | none => rw [hs] at hrun'; simp at hrun'
    | some s1 =>
      rw [hs, Option.bind_some] at hrun'
      have hrun1 : (newStore conf).run eval (h ++ [n]) = some s1 := by
        rw [run_append, hrun, Option.bind_some, Store.run, hs]; rfl
      have hn := hall n (by simp)
      rw [ih hrun1 hrun' (fun n hn => hall n (by simp [hn]))]
      refine C21_get_isolated hrun n hs ⟨r, c, ns, name⟩ ?_
      rintro (⟨o, ho⟩ | hr)
      · rw [writes_about ho] at hn; cases hn
      · rw [removes_about hr] at hn; cases hn

/-- A stream breaks and connecting fails three times while another cluster's watcher works. -/
example : wrun exPods (lit "c1") (.streaming false) [.closed, .fail, .fail, .fail] = some (.connecting, [])
    ∧ [Notice.clean exPods (lit "c2"), .added exPods (lit "c2") (exPod "web" "n1")].filter (aboutB exPods (lit "c1")) = []
    ∧ (((newStore exConf).run exEval exWHist).bind fun s => s.run exEval
        [Notice.clean exPods (lit "c2"), .added exPods (lit "c2") (exPod "web" "n1")]).isSome = true := by
  refine ⟨rfl, rfl, by decide +kernel⟩

/-! ## C38 -/

/-- **C38** does not hold in general: the characters `L`, `i`, `s`, `t` are all cut off the end. -/
theorem C38_false : watchedKind [{ version := lit "v1", resource := lit "secrets", listKind := lit "SecretList" }]
      ⟨[], lit "v1", lit "secrets"⟩ = lit "Secre"
    ∧ watchedKind [{ version := lit "v1", resource := lit "endpoints", listKind := lit "EndpointsList" }]
      ⟨[], lit "v1", lit "endpoints"⟩ = lit "Endpoin" := by decide +kernel

/-- **C38**, partial, as an equivalence: for the resource type of a configured proxy whose list kind is
`<kind>List`, the registered kind is `<kind>` exactly when `<kind>` does not end in one of the four letters. -/
theorem C38_kind_partial (ps : List ProxyConf) (r : GVR) (p : ProxyConf) (kind : Str)
    (hp : ps.find? (fun q => decide (q.group = r.group ∧ q.version = r.version ∧ q.resource = r.resource)) = some p)
    (hk : p.listKind = kind ++ lit "List") :
    watchedKind ps r = kind ↔ kind.getLast? ≠ some 76 ∧ kind.getLast? ≠ some 105 ∧ kind.getLast? ≠ some 115
      ∧ kind.getLast? ≠ some 116 := by
  have hg : gvrKind ps r.group r.version r.resource = kind ++ lit "List" := by
    unfold gvrKind
    have : (fun p : ProxyConf => decide (p.group = r.group) && decide (p.version = r.version)
        && decide (p.resource = r.resource))
        = fun q => decide (q.group = r.group ∧ q.version = r.version ∧ q.resource = r.resource) := by
      funext q; simp [Bool.and_assoc]
    rw [this, hp]
    exact hk
  unfold watchedKind trimRight
  rw [hg, List.reverse_append]
  have hl : (lit "List").reverse = [116, 115, 105, 76] := by decide +kernel
  have hset : ∀ b : UInt8, (lit "List").contains b = true ↔ b = 76 ∨ b = 105 ∨ b = 115 ∨ b = 116 := by
    have : lit "List" = [76, 105, 115, 116] := by decide +kernel
    intro b; rw [this]; simp
  rw [hl]
  have hdrop : ([116, 115, 105, 76] ++ kind.reverse).dropWhile (fun b => (lit "List").contains b)
      = kind.reverse.dropWhile (fun b => (lit "List").contains b) := by
    simp only [List.cons_append, List.nil_append]
    rw [List.dropWhile_cons_of_pos (by decide +kernel), List.dropWhile_cons_of_pos (by decide +kernel),
      List.dropWhile_cons_of_pos (by decide +kernel), List.dropWhile_cons_of_pos (by decide +kernel)]
  rw [hdrop]
  rw [← List.head?_reverse]
  constructor
  · intro h
    have h' : kind.reverse.dropWhile (fun b => (lit "List").contains b) = kind.reverse := by
      rw [← List.reverse_reverse (kind.reverse.dropWhile _), h]
    cases hr : kind.reverse with
    | nil => simp
    | cons b l =>
      rw [hr] at h'
      have hb : ¬ (lit "List").contains b = true := by
        intro hb
        rw [List.dropWhile_cons_of_pos hb] at h'
        have := congrArg List.length h'
        have h2 := (List.dropWhile_suffix (fun b => (lit "List").contains b) (l := l)).length_le
        rw [List.length_cons] at this
        exact absurd (this ▸ h2) (by omega)
      rw [hset] at hb
      simp only [not_or] at hb
      simp only [List.head?_cons, ne_eq, Option.some.injEq]
      exact hb
  · intro h
    cases hr : kind.reverse with
    | nil =>
      have : kind = [] := by simpa using hr
      rw [this]; rfl
    | cons b l =>
      rw [hr] at h
      simp only [List.head?_cons, ne_eq, Option.some.injEq] at h
      have hb : ¬ (lit "List").contains b = true := by
        rw [hset]; simp only [not_or]; exact h
      rw [List.dropWhile_cons_of_neg hb, ← hr, List.reverse_reverse]

example : watchedKind [{ version := lit "v1", resource := lit "nodes", listKind := lit "NodeList" },
      { version := lit "v1", resource := lit "pods", listKind := lit "PodList" }] exPods = lit "Pod" := by decide +kernel

end Ckube

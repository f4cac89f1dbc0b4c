import Verif.Lemmas.Snapshots
import Verif.Props.Federation
import Verif.Props.Fleet

/-! # C117: what clients read of a cluster is part of one past state of it, and these states go forward -/

namespace Ckube
open Spec

variable {env : Env} {tord : Nat → List (Str × Str) → List (Str × Str)}
variable {isPrint : Nat → Bool} {eval : Str → Obj → Str} {alg : SliceSort} {pf : Str → Option GoFloat}
  {conf : List (GVR × List (Str × Str))} {g : GVR}

/-- **C117**, for the cache: in every execution of an API server and of its watcher, with any changes, broken streams and failed connections, there
are moments `pos m` of the past that never go back, and after `m` steps the cache holds for the type and cluster a part of what the API server had at the
moment `pos m`. While a stream is open that has delivered something, what is missing of it is on the way. -/
theorem C117_snapshots (eval : Str → Obj → Str) (conf : List (GVR × List (Str × Str))) {c : Str} {e : Nat → Sys} (he : Unfolds g c e) :
    ∃ pos : Nat → Nat, Monotone pos ∧ (∀ m, pos m ≤ m)
      ∧ (∀ m ns name o, Latest eval (confAt conf) (e m).out ⟨g, c, ns, name⟩ o → lookup (ns, name) (e (pos m)).objs = some o)
      ∧ ∀ m ns name o, (e m).phase = .streaming false → lookup (ns, name) (e (pos m)).objs = some o →
        Latest eval (confAt conf) (e m).out ⟨g, c, ns, name⟩ o ∨ (.added, o) ∈ (e m).pending := by
  have hkey : ∀ o k, metaKey o = some k → objKey eval (confAt conf g) o = k := fun o k hk => objKey_of_meta hk
  obtain ⟨pos, h1, h2⟩ := snapshots hkey he
  refine ⟨pos, h1, fun m => (h2 m).past, ?_, ?_⟩
  · intro m ns name o hl
    rw [cached_latest g c _ (unfolds_inv hkey he m).about] at hl
    exact (h2 m).part _ _ hl
  · intro m ns name o hph hl
    rw [cached_latest g c _ (unfolds_inv hkey he m).about]
    obtain ⟨inits, changes, a1, -, a2, -⟩ := (h2 m).going hph
    rcases a2 _ _ hl with h | h
    · exact Or.inl h
    · refine Or.inr ?_
      rw [a1, OnWay]
      exact List.mem_append_left _ (List.mem_map.mpr ⟨_, h, rfl⟩)

/-- **C117**, for requests that are answered from the cache: for every cluster there are moments that never go back, and whatever requests are made
and whenever (cluster `c` is `m c` steps on), the items of an answer, list or table, are objects that the clusters had at these moments, one moment for each
cluster; so is the object a GET returns. -/
theorem C117_requests (hconf : ConfOK conf) {e : Str → Nat → Sys} (he : ∀ c, Unfolds g c (e c)) :
    ∃ pos : Str → Nat → Nat, (∀ c, Monotone (pos c)) ∧ (∀ c m, pos c m ≤ m)
      ∧ ∀ (m : Str → Nat) (h : List Notice) (s : Store) (st : StoreI) (ord : Values) (r : HReq),
        (∀ c, h.filter (aboutB g c) = (e c (m c)).out) → (newStore conf).run eval h = some s → ApiObjects h →
        Serves isPrint alg pf s st → ord.Perm (parseQuery r.rawQuery) → Cacheable st r → r.gvr = g →
        (r.resource = [] → ∀ i, Reads r i → ValidPaging i.paginate →
          proxy env st tord ord r = .refused .query ∨ proxy env st tord ord r = .refused .outOfPage
          ∨ ∃ items, Shows tord items (proxy env st tord ord r)
            ∧ ∀ item ∈ items, ∃ c ns name o, lookup (ns, name) (e c (pos c (m c))).objs = some o ∧ SameButMarks o item)
        ∧ (r.resource ≠ [] → ∀ o', proxy env st tord ord r = .object o' →
            ∃ c o, Selects env r c ∧ lookup (r.ns, r.resource) (e c (pos c (m c))).objs = some o ∧ SameButMarks o o') := by
  choose pos p1 p2 p3 _ using fun c => C117_snapshots eval conf (he c)
  refine ⟨pos, p1, p2, ?_⟩
  rintro m h s st ord r hh hrun hapi hst hord hc rfl
  have hlat : ∀ id o, Latest eval (confAt conf) h id o → id.gvr = r.gvr →
      lookup (id.ns, id.name) (e id.cluster (pos id.cluster (m id.cluster))).objs = some o := by
    rintro ⟨g', c, ns, name⟩ o hl rfl
    rw [latest_filter] at hl
    simp only at hl
    rw [hh c] at hl
    exact p3 c (m c) ns name o hl
  refine ⟨?_, ?_⟩
  · intro hr i hi hv
    rcases list_outcome (env := env) (tord := tord) hconf hrun hst hord hc hr hi hv with
      ⟨q0, -⟩ | ⟨_, id, o, hm, hom⟩ | ⟨found, kept, f1, f2, f3, f4, f5, f6⟩
    · exact Or.inl q0
    · exfalso
      have := latest_api hapi hm.1
      rw [hom] at this
      simp at this
    · right
      rw [f6]
      simp only [listAnswer]
      cases remainCount (listPage env i) kept.length
        (pageOf i.paginate.page i.paginate.pageSize (kept.map fun e => e.2.2.obj)).length with
      | none => exact Or.inl rfl
      | some rc =>
        right
        refine ⟨pageOf i.paginate.page i.paginate.pageSize (kept.map fun e => e.2.2.obj), ?_, ?_⟩
        · simp only
          split
          · exact .table
          · exact .list _ _ _ _
        · intro item hit
          have hit' : item ∈ kept.map fun e => e.2.2.obj := by
            unfold pageOf at hit
            split at hit
            · exact hit
            · exact List.mem_of_mem_drop (List.mem_of_mem_take hit)
          obtain ⟨x, hx, rfl⟩ := List.mem_map.mp hit'
          have hx := f4.subset hx
          have hm := (f1.2.1 x.1 x.2.1).mp ⟨x.2.2, hx⟩
          obtain ⟨o', g1, g2⟩ := (C20_latest hrun x.1).1 x.2.1 hm.1
          rw [(f1.2.2 x hx).2, Option.some.injEq] at g1
          exact ⟨x.1.cluster, x.1.ns, x.1.name, x.2.1, hlat _ _ hm.1 hm.2.1, by rw [g1]; exact g2⟩
  · intro hr o' ha
    obtain ⟨c, h1, h2⟩ := C45_single_object (env := env) (tord := tord) hrun hst hord hc hr
    rcases h2 with ⟨o, o'', a, b, d⟩ | ⟨a, b⟩
    · rw [d, Answer.object.injEq] at ha
      subst ha
      exact ⟨c, o, h1, hlat _ _ a rfl, b⟩
    · rw [b] at ha
      cases ha

/-! ## Where it fails -/

def exWebAt : (Str × Str) × Obj := ((lit "prod", lit "web"), exPod "web" "n1")
def exDbAt : (Str × Str) × Obj := ((lit "prod", lit "db"), exPod "db" "n1")

def exOut1 : List Notice := [.clean exPods (lit "c1"), .added exPods (lit "c1") exWebAt.2]
def exOut2 : List Notice := exOut1 ++ [.added exPods (lit "c1") exDbAt.2]
def exOut3 : List Notice := exOut2 ++ [.clean exPods (lit "c1"), .added exPods (lit "c1") exWebAt.2]

/-- Two pods; the stream breaks after both have been received. -/
def exReopened : Nat → Sys
  | 0 => {}
  | 1 => { objs := [exWebAt] }
  | 2 => { objs := [exWebAt, exDbAt] }
  | 3 => { objs := [exWebAt, exDbAt], phase := .streaming true, pending := [(.added, exWebAt.2), (.added, exDbAt.2)] }
  | 4 => { objs := [exWebAt, exDbAt], phase := .streaming false, pending := [(.added, exDbAt.2)], out := exOut1 }
  | 5 => { objs := [exWebAt, exDbAt], phase := .streaming false, out := exOut2 }
  | 6 => { objs := [exWebAt, exDbAt], phase := .connecting, out := exOut2 }
  | 7 => { objs := [exWebAt, exDbAt], phase := .streaming true, pending := [(.added, exWebAt.2), (.added, exDbAt.2)], out := exOut2 }
  | 8 => { objs := [exWebAt, exDbAt], phase := .streaming false, pending := [(.added, exDbAt.2)], out := exOut3 }
  | _ => { objs := [exWebAt, exDbAt], phase := .streaming false, out := exOut3 ++ [.added exPods (lit "c1") exDbAt.2] }

theorem exReopened_unfolds : Unfolds exPods (lit "c1") exReopened := by
  have k1 : metaKey exWebAt.2 = some exWebAt.1 := rfl
  have k2 : metaKey exDbAt.2 = some exDbAt.1 := rfl
  have hn : lookup exDbAt.1 [exWebAt] = none := by decide +kernel
  have hi : insertKV exDbAt.1 exDbAt.2 [exWebAt] = [exWebAt, exDbAt] := by
    have : exWebAt.1 ≠ exDbAt.1 := by decide +kernel
    simp [insertKV, exWebAt, exDbAt] at this ⊢
    first | exact this | (intro h; exact absurd h this)
  refine ⟨rfl, fun m => ?_⟩
  match m with
  | 0 => exact Or.inr (SysStep.create (s := {}) k1 rfl)
  | 1 => right
         have := SysStep.create (r := exPods) (c := lit "c1") (s := { objs := [exWebAt] }) k2 hn
         rw [hi] at this
         exact this
  | 2 => exact Or.inr (.opened (s := { objs := [exWebAt, exDbAt] }) (p := .streaming true) (out := []) (List.Perm.refl _) rfl)
  | 3 => exact Or.inr (.deliver (s := exReopened 3) (p := .streaming false) (t := .added) (o := exWebAt.2) (rest := [(.added, exDbAt.2)]) rfl rfl)
  | 4 => exact Or.inr (.deliver (s := exReopened 4) (p := .streaming false) (t := .added) (o := exDbAt.2) (rest := []) rfl rfl)
  | 5 => right
         have := SysStep.closed (r := exPods) (c := lit "c1") (s := exReopened 5) (p := .connecting) (out := []) rfl
         simp only [List.append_nil] at this
         exact this
  | 6 => right
         have := SysStep.opened (r := exPods) (c := lit "c1") (s := exReopened 6) (p := .streaming true) (out := []) (List.Perm.refl _) rfl
         simp only [List.append_nil] at this
         exact this
  | 7 => exact Or.inr (.deliver (s := exReopened 7) (p := .streaming false) (t := .added) (o := exWebAt.2) (rest := [(.added, exDbAt.2)]) rfl rfl)
  | 8 => exact Or.inr (.deliver (s := exReopened 8) (p := .streaming false) (t := .added) (o := exDbAt.2) (rest := []) rfl rfl)
  | n + 9 => exact Or.inl rfl

/-- **C117 is false** for what is not there: a pod exists from step 2 on and does not change; after 5 steps it can be read, after 8 steps, when the stream was
reopened and has delivered the other pod, it is answered 404, and after 9 steps it can be read again. -/
theorem C117_false_missing : ∃ e : Nat → Sys, Unfolds exPods (lit "c1") e
    ∧ (∀ m, 2 ≤ m → (lookup (lit "prod", lit "db") (e m).objs).isSome = true)
    ∧ ((newStore exConf).run exEval (e 5).out).map (fun s => (s.get exPods (lit "c1") (lit "prod") (lit "db")).isSome) = some true
    ∧ ((newStore exConf).run exEval (e 8).out).map (fun s => (s.get exPods (lit "c1") (lit "prod") (lit "db")).isSome) = some false
    ∧ ((newStore exConf).run exEval (e 9).out).map (fun s => (s.get exPods (lit "c1") (lit "prod") (lit "db")).isSome) = some true := by
  refine ⟨exReopened, exReopened_unfolds, ?_, by decide +kernel, by decide +kernel, by decide +kernel⟩
  have hl : (lookup (lit "prod", lit "db") [exWebAt, exDbAt]).isSome = true := by decide +kernel
  intro m hm
  match m with
  | 2 | 3 | 4 | 5 | 6 | 7 | 8 => exact hl
  | n + 9 => exact hl

/-- **C117 is false** for a type that is listed twice in the configuration: both watchers report to one cache, and after the pod has been read as it is
(moved to `n2`), it is read as it was before (on `n1`). -/
theorem C117_false_back : ∃ t u : Crowd, CrowdRun exPods (lit "c1") { peers := List.replicate 2 {} } t
    ∧ CrowdStep exPods (lit "c1") t u
    ∧ (∃ s o, (newStore exConf).run exEval t.out = some s ∧ s.get exPods (lit "c1") (lit "prod") (lit "web") = some o ∧ SameButMarks (exPod "web" "n2") o)
    ∧ (∃ s o, (newStore exConf).run exEval u.out = some s ∧ s.get exPods (lit "c1") (lit "prod") (lit "web") = some o ∧ SameButMarks (exPod "web" "n1") o)
    ∧ exPod "web" "n1" ≠ exPod "web" "n2" := by
  have k1 : metaKey (exPod "web" "n1") = some (lit "prod", lit "web") := rfl
  have k2 : metaKey (exPod "web" "n2") = some (lit "prod", lit "web") := rfl
  have s1 := CrowdRun.step (.refl { peers := List.replicate 2 {} }) (CrowdStep.create (r := exPods) (c := lit "c1") k1 rfl)
  have s2 := CrowdRun.step s1 (.opened (i := 0) (w := {}) (p := .streaming true) (out := []) rfl (List.Perm.refl _) rfl)
  have s3 := CrowdRun.step s2 (.opened (i := 1) (w := {}) (p := .streaming true) (out := []) rfl (List.Perm.refl _) rfl)
  have s4 := CrowdRun.step s3 (.deliver (i := 0) (w := ⟨.streaming true, [(.added, exPod "web" "n1")]⟩) (p := .streaming false)
    (t := .added) (o := exPod "web" "n1") (rest := []) rfl rfl rfl)
  have s5 := CrowdRun.step s4 (.update k2 (old := exPod "web" "n1") rfl)
  have s6 := CrowdRun.step s5 (.deliver (i := 0) (w := ⟨.streaming false, [(.modified, exPod "web" "n2")]⟩) (p := .streaming false)
    (t := .modified) (o := exPod "web" "n2") (rest := []) rfl rfl rfl)
  have hget : ∀ (h : List Notice) (o : Obj), ((newStore exConf).run exEval h).isSome = true →
      Latest exEval (confAt exConf) h ⟨exPods, lit "c1", lit "prod", lit "web"⟩ o →
      ∃ s o', (newStore exConf).run exEval h = some s ∧ s.get exPods (lit "c1") (lit "prod") (lit "web") = some o' ∧ SameButMarks o o' := by
    intro h o hs hl
    obtain ⟨s, hs⟩ := Option.isSome_iff_exists.mp hs
    obtain ⟨o', h1, h2⟩ := (C20_latest hs ⟨exPods, lit "c1", lit "prod", lit "web"⟩).1 o hl
    exact ⟨s, o', hs, h1, h2⟩
  refine ⟨_, _, s6, .deliver (i := 1) (w := ⟨.streaming true, [(.added, exPod "web" "n1"), (.modified, exPod "web" "n2")]⟩)
    (p := .streaming false) (t := .added) (o := exPod "web" "n1") (rest := [(.modified, exPod "web" "n2")]) rfl rfl rfl, ?_, ?_, by decide +kernel⟩
  · refine hget [.clean exPods (lit "c1"), .added exPods (lit "c1") (exPod "web" "n1"), .modified exPods (lit "c1") (exPod "web" "n2")] _
      (by decide +kernel) ⟨[.clean exPods (lit "c1"), .added exPods (lit "c1") (exPod "web" "n1")], _, [], rfl, ⟨rfl, rfl⟩, by simp⟩
  · refine hget [.clean exPods (lit "c1"), .added exPods (lit "c1") (exPod "web" "n1"), .modified exPods (lit "c1") (exPod "web" "n2"),
        .clean exPods (lit "c1"), .added exPods (lit "c1") (exPod "web" "n1")] _
      (by decide +kernel) ⟨[.clean exPods (lit "c1"), .added exPods (lit "c1") (exPod "web" "n1"), .modified exPods (lit "c1") (exPod "web" "n2"),
        .clean exPods (lit "c1")], _, [], rfl, ⟨rfl, rfl⟩, by simp⟩

/-! ## The hypotheses are met -/

/-- In the execution of `exReopened` the cache is complete after 5 steps, has one of two pods after 8 steps and is complete again after 9. -/
example : Unfolds exPods (lit "c1") exReopened
    ∧ Latest exEval (confAt exConf) (exReopened 8).out ⟨exPods, lit "c1", lit "prod", lit "web"⟩ exWebAt.2
    ∧ (exReopened 8).phase = .streaming false ∧ lookup (lit "prod", lit "db") (exReopened 8).objs = some exDbAt.2
    ∧ (.added, exDbAt.2) ∈ (exReopened 8).pending :=
  ⟨exReopened_unfolds, ⟨exOut2 ++ [.clean exPods (lit "c1")], .added exPods (lit "c1") exWebAt.2, [], rfl, ⟨rfl, rfl⟩, by simp⟩, rfl, by decide +kernel, List.mem_singleton.mpr rfl⟩

end Ckube

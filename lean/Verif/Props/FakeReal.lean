import Verif.Props.Fake
import Verif.Props.Proxy

/-! # C100: the fake server acts on the cluster the real one forwards to -/

namespace Ckube
open Spec

variable {env : Env} {st : StoreI} {tord : Nat → List (Str × Str) → List (Str × Str)}
variable {eval : Str → Obj → Str} {dec : Str → Option FBody} {enc : Obj → Str} {dflt : Str} {s : Store} {r : HReq} {ord : Values}

/-- The event of a write is about the target of the request. -/
theorem done_target (hord : ord.Perm (parseQuery r.rawQuery)) (hm : r.method ∈ [lit "POST", lit "PUT", lit "DELETE"])
    {m : ObjMeta} {e : FEvent} {s' : Store} (hd : fakeProxy eval dec enc dflt s ord r = (.done m e, s')) :
    FakeTarget dflt r e.cluster ∧ e.gvr = r.gvr ∧ e.ns = r.ns := by
  obtain ⟨ht, ht'⟩ := fake_target hord dflt
  have key : ∀ {x : Option Store} {g : GVR} {c : Str} {b : FBody} {e0 : FEvent},
      fakeDone eval s x g c b e0 = (.done m e, s') → e0 = e := by
    intro x g c b e0 hx
    unfold fakeDone at hx
    split at hx
    · simp at hx
    · simp only [Prod.mk.injEq, FReply.done.injEq] at hx; exact hx.1.2
  simp only [fakeProxy] at hd
  split at hd
  · simp at hd
  split at hd
  · simp at hd
  generalize (if r.resource = [] then _ else r.resource) = name at hd
  split at hd
  · rename_i hp
    split at hd
    · simp at hd
    · rw [← key hd]
      exact ⟨ht (by rw [hp]; decide), rfl, rfl⟩
  split at hd
  · rename_i hp
    split at hd
    · simp at hd
    · rw [← key hd]
      exact ⟨ht (by rw [hp]; decide), rfl, rfl⟩
  split at hd
  · rename_i hp
    split at hd
    · simp at hd
    · rw [← key hd]
      exact ⟨ht' hp, rfl, rfl⟩
  · rename_i h1 h2 h3
    simp only [List.mem_cons, List.not_mem_nil, or_false] at hm
    rcases hm with hm | hm | hm
    · exact absurd hm h1
    · exact absurd hm h2
    · exact absurd hm h3

/-- A write as the client library makes it: it names at most one cluster, not the empty one, with a marker, and its options
have no other `dryRun` value beside the marker. -/
structure Spec.LibraryWrite (r : HReq) : Prop where
  method : r.method ∈ [lit "POST", lit "PUT", lit "DELETE"]
  noParam : ∀ v, ¬ First r.rawQuery (lit "cluster") v
  noSelector : ∀ v, ¬ First r.rawQuery (lit "labelSelector") v
  one : OneName r
  nonempty : ¬ Names r []
  alone : ∀ c ds, DryRunNames r c ds → ds = []

theorem target_selects (h : LibraryWrite r) {c c' : Str} (ht : FakeTarget env.defaultCluster r c) (hs : Selects env r c') : c = c' := by
  have hn : Names r c → c = c' := by
    intro hn
    rcases hs with ⟨h1, _⟩ | ⟨h1 | h1, _⟩
    · exact h.one _ _ hn h1
    · exact absurd h1 h.nonempty
    · exact absurd hn (h1 c)
  have hnod : (∀ c', ¬ OptionsName r c') → ∀ c' ds, ¬ DryRunNames r c' ds := by
    intro hno c' ds hd
    have := h.alone _ _ hd
    subst this
    exact hno c' hd
  cases ht with
  | options ho => exact hn (.options [] ho)
  | query hq hno =>
    obtain ⟨k, hk, hf⟩ := hq
    exact hn (.marked k (hnod hno) hk hf)
  | default hd hno hno' =>
    have hnone : ∀ x, ¬ Names r x := by
      intro x hx
      cases hx with
      | options ds hx => exact hnod hno _ _ hx
      | param _ hx => exact h.noParam _ hx
      | marked k _ hk hx => exact hno' x ⟨k, hk, hx⟩
    have hg : getClusters [] = [] := by decide +kernel
    rcases hs with ⟨h1, _⟩ | ⟨_, h1⟩
    · exact absurd h1 (hnone _)
    · rcases h1 with ⟨p, cs, hp, hc, _⟩ | ⟨_, hc⟩
      · exfalso
        rcases hp with ⟨v, _, hv, _⟩ | ⟨_, rfl⟩
        · exact h.noSelector v hv
        · change getClusters [] = _ at hc
          rw [hg] at hc
          simp at hc
      · rw [hd, hc]

/-- **C100**, writes: a creation, replacement or deletion as the client library makes it is forwarded by the real server to the API server of one
cluster (or refused because it does not know this cluster), whatever the order in which it iterates the query, and the fake
server, whatever its order and its objects, carries it out in that cluster and no other. Missing for the full claim: requests that are not
made by the library (`C100_false_param`, `C100_false_empty`, `C100_false_options`), dry runs (`C100_false_dryRun`), patches
(`C77_false_patch`) and watches (`C100_false_watch`). -/
theorem C100_writes_partial (h : LibraryWrite r) :
    ∃ c, Selects env r c
      ∧ (∀ (st : StoreI) (tord : Nat → List (Str × Str) → List (Str × Str)) (ord : Values), ord.Perm (parseQuery r.rawQuery) →
          Upstream env c (proxy env st tord ord r))
      ∧ ∀ (ord : Values) (s s' : Store) (m : ObjMeta) (e : FEvent), ord.Perm (parseQuery r.rawQuery) →
          fakeProxy eval dec enc env.defaultCluster s ord r = (.done m e, s') → e.cluster = c := by
  have hget : r.method ≠ lit "GET" := by
    intro hg
    have := h.method
    rw [hg] at this
    revert this; decide
  have hup : ∀ (st : StoreI) (tord : Nat → List (Str × Str) → List (Str × Str)) (ord : Values), ord.Perm (parseQuery r.rawQuery) →
      ∃ c, Selects env r c ∧ Upstream env c (proxy env st tord ord r) := by
    intro st tord ord hord
    rcases C40_never_from_cache (env := env) (st := st) (tord := tord) hord (Or.inl hget) with h1 | ⟨h1, _⟩
    · exact h1
    · exfalso
      apply h1
      have := h.method
      simp only [List.mem_cons, List.not_mem_nil, or_false] at this ⊢
      tauto
  obtain ⟨c, hc⟩ : ∃ c, FakeTarget env.defaultCluster r c := by
    obtain ⟨h1, h2⟩ := fake_target (r := r) (List.Perm.refl _) env.defaultCluster
    by_cases hd : r.method = lit "DELETE"
    · exact ⟨_, h2 hd⟩
    · exact ⟨_, h1 hd⟩
  obtain ⟨c0, hc0, _⟩ := hup ⟨fun _ => false, fun _ _ _ _ => none, fun _ _ => none⟩ (fun _ m => m) _ (List.Perm.refl _)
  have h0 := target_selects h hc hc0
  subst h0
  refine ⟨c, hc0, ?_, ?_⟩
  · intro st tord ord hord
    obtain ⟨c1, h1, h2⟩ := hup st tord ord hord
    rw [target_selects h hc h1]
    exact h2
  · intro ord s s' m e hord hd
    exact target_selects h (done_target hord h.method hd).1 hc0

/-! ## The hypotheses are met -/

theorem exLibraryWrite : LibraryWrite (exFReq "POST" "" "new") := by
  have hp : parseQuery (exFReq "POST" "" "new").rawQuery = exFOrd := by decide +kernel
  have hnd : ∀ c ds, ¬ DryRunNames (exFReq "POST" "" "new") c ds := by rintro c ds ⟨h1, _⟩; exact absurd h1 (by decide)
  have hone : ∀ c, Names (exFReq "POST" "" "new") c → c = lit "c1" := by
    intro c hc
    cases hc with
    | options ds h => exact absurd h (hnd _ _)
    | param _ h =>
      obtain ⟨vs, hv⟩ := h
      rw [hp, show lookup (lit "cluster") exFOrd = none by decide +kernel] at hv
      simp at hv
    | marked k _ hk h =>
      obtain ⟨vs, hv⟩ := h
      rw [hp] at hv
      simp only [markerKeys, List.mem_cons, List.not_mem_nil, or_false] at hk
      rcases hk with rfl | rfl
      · rw [show lookup (lit "fieldManager") exFOrd = some [marker (lit "c1")] by decide +kernel] at hv
        simp only [Option.some.injEq, List.cons.injEq, marker] at hv
        exact (List.append_cancel_left hv.1).symm
      · rw [show lookup (lit "resourceVersion") exFOrd = none by decide +kernel] at hv
        simp at hv
  refine ⟨by decide, ?_, ?_, ?_, ?_, ?_⟩
  · rintro v ⟨vs, hv⟩
    rw [hp, show lookup (lit "cluster") exFOrd = none by decide +kernel] at hv
    simp at hv
  · rintro v ⟨vs, hv⟩
    rw [hp, show lookup (lit "labelSelector") exFOrd = none by decide +kernel] at hv
    simp at hv
  · intro c c' h1 h2; rw [hone _ h1, hone _ h2]
  · intro h; exact absurd (hone _ h) (by decide)
  · intro c ds h; exact absurd h (hnd _ _)

/-- The creation of a pod in `c1`: the real server forwards it there, the fake one stores it there. -/
example : (match proxy exEnv exStore (fun _ m => m) exFOrd (exFReq "POST" "" "new") with | .forward _ c _ _ _ _ => c | _ => []) = lit "c1"
    ∧ (match (fakeProxy exEval exDec exEnc (lit "c1") exFStore exFOrd (exFReq "POST" "" "new")).1 with | .done _ e => e.cluster | _ => [])
      = lit "c1" := by
  constructor <;> decide +kernel

/-- Where the real server sends a request, and where the fake one carries it out. -/
def exReal (r : HReq) : Str :=
  match proxy exEnv exStore (fun _ m => m) (parseQuery r.rawQuery) r with | .forward _ c _ _ _ _ => c | _ => []
def exFaked (r : HReq) : Str :=
  match (fakeProxy exEval exDec exEnc exEnv.defaultCluster exFStore (parseQuery r.rawQuery) r).1 with | .done _ e => e.cluster | _ => lit "refused"

/-- **C100 is false** for the query parameter `cluster`, which only the real server knows. -/
theorem C100_false_param : ∃ r : HReq, r.method = lit "POST" ∧ First r.rawQuery (lit "cluster") (lit "c2")
    ∧ exReal r = lit "c2" ∧ exFaked r = lit "c1" :=
  ⟨{ exFReq "POST" "" "new" with rawQuery := lit "cluster=c2" }, rfl, ⟨[], by decide +kernel⟩, by decide +kernel, by decide +kernel⟩

/-- **C100 is false** for the marker of the empty cluster: the real server uses the default cluster, the fake one a cluster without name. -/
theorem C100_false_empty : ∃ r : HReq, r.method = lit "POST" ∧ First r.rawQuery (lit "fieldManager") (marker [])
    ∧ exReal r = lit "c1" ∧ exFaked r = [] :=
  ⟨{ exFReq "POST" "" "new" with rawQuery := lit "fieldManager=dsm-cluster-" }, rfl, ⟨[], by decide +kernel⟩, by decide +kernel, by decide +kernel⟩

/-- **C100 is false** for delete options with the marker of a cluster and a dry run: the real server forwards a dry run to that cluster,
the fake one deletes the object of the default cluster. -/
theorem C100_false_options : ∃ r : HReq, DryRunNames r (lit "c2") [lit "All"] ∧ exReal r = lit "c2" ∧ exFaked r = lit "c1" :=
  ⟨{ exFReq "DELETE" "web" "{\"dryRun\":[\"dsm-cluster-c2\",\"All\"]}" with rawQuery := [] }, ⟨rfl, by decide +kernel⟩, by decide +kernel,
    by decide +kernel⟩

/-- **C100 is false** for dry runs: the real server forwards the parameter and the API server changes nothing, the fake one stores the
object. -/
theorem C100_false_dryRun : ∃ r : HReq, First r.rawQuery (lit "dryRun") (lit "All")
    ∧ (match proxy exEnv exStore (fun _ m => m) (parseQuery r.rawQuery) r with | .forward _ _ _ _ q _ => q | _ => []) = lit "dryRun=All"
    ∧ exFStore.get exPods (lit "c1") (lit "prod") (lit "new") = none
    ∧ ((fakeProxy exEval exDec exEnc exEnv.defaultCluster exFStore (parseQuery r.rawQuery) r).2.get exPods (lit "c1") (lit "prod")
        (lit "new")).isSome = true :=
  ⟨{ exFReq "POST" "" "new" with rawQuery := lit "dryRun=All" }, ⟨[], by decide +kernel⟩, by decide +kernel, by decide +kernel, by decide +kernel⟩

/-- **C100 is false** for watches: without a cluster the real server forwards the watch to the default cluster, the fake one reports the changes of
all clusters; and of several clusters the real server watches only the first. -/
theorem C100_false_watch : exReal exWatchReq = lit "c1"
    ∧ watchLoop exWatchReq {} [(⟨.add, exPods, lit "c2", lit "prod", lit "a", lit "1"⟩, true)]
      = eventText ⟨.add, exPods, lit "c2", lit "prod", lit "a", lit "1"⟩ := by
  constructor <;> decide +kernel

end Ckube

import Verif.Spec.Streamed
import Verif.Props.Upstream

/-! # C97: which answers are passed on as streams -/

namespace Ckube
open Spec

variable {env : Env} {st : StoreI} {tord : Nat → List (Str × Str) → List (Str × Str)} {ord : Values} {r : HReq}

/-- **C97**, exactly: a forwarded request is streamed if its first `watch` parameter is `1`, `y` or `true`, in any case, or its path contains
`/watch/`, and not otherwise. -/
theorem C97_exactly (hord : ord.Perm (parseQuery r.rawQuery)) {w : Bool} {c m p q b : Str}
    (h : proxy env st tord ord r = .forward w c m p q b) :
    w = true ↔ (∃ v, First r.rawQuery (lit "watch") v ∧ asciiLower v ∈ [lit "1", lit "y", lit "true"]) ∨ lit "/watch/" <:+: r.path := by
  have hl : lookup (lit "watch") (parseQuery q) = lookup (lit "watch") (parseQuery r.rawQuery) :=
    (C67_forwarded_unchanged_partial hord h).2.2.2 _ (by decide) (fun _ => by decide) (fun hm => absurd hm (by decide))
  obtain ⟨q₀, -, -, hw, hq, -, -⟩ := proxy_forward hord h
  have hl₀ : lookup (lit "watch") (parseQuery q₀) = lookup (lit "watch") (parseQuery r.rawQuery) := by
    rw [← hl, hq]
    split
    · exact (lookup_watchQuery q₀ _ (by decide) (by decide)).symm
    · rfl
  rw [hw]
  unfold isWatch
  rw [hl₀, Bool.or_eq_true, contains_iff]
  apply or_congr _ Iff.rfl
  cases hv : lookup (lit "watch") (parseQuery r.rawQuery) with
  | none =>
    simp only [Bool.false_eq_true, false_iff]
    rintro ⟨v, ⟨vs, h1⟩, _⟩
    rw [hv] at h1
    simp at h1
  | some vs =>
    simp only [List.contains_iff_mem]
    constructor
    · intro h1
      cases vs with
      | nil => exact absurd h1 (by decide)
      | cons v vs => exact ⟨v, ⟨vs, hv⟩, h1⟩
    · rintro ⟨v, ⟨vs', h1⟩, h2⟩
      rw [hv, Option.some.injEq] at h1
      rw [h1]
      exact h2

/-- **C97**, to the stream: a watch that is asked for with `watch=true`, `watch=1` or `watch=y`, in any case, or by a path of the old form is
passed on as a stream. Missing for the full claim: other values (`C97_false_value`) and followed logs (`C97_false_follow`). -/
theorem C97_streamed_partial (hord : ord.Perm (parseQuery r.rawQuery)) {w : Bool} {c m p q b : Str}
    (h : proxy env st tord ord r = .forward w c m p q b) (hs : Streams r)
    (hval : ∀ v, First r.rawQuery (lit "watch") v → KubeTrue v → asciiLower v ∈ [lit "1", lit "y", lit "true"])
    (hlog : ∀ v, ¬ First r.rawQuery (lit "follow") v) : w = true := by
  rw [C97_exactly hord h]
  rcases hs with ⟨v, -, h1, h2⟩ | ⟨v, rest, -, -, h1⟩ | ⟨g, v, rest, -, -, -, h1⟩ | ⟨pod, v, -, -, h1, -⟩
  · exact Or.inl ⟨v, h1, hval v h1 h2⟩
  · exact Or.inr ⟨lit "/api/" ++ v, rest, by rw [h1]⟩
  · exact Or.inr ⟨lit "/apis/" ++ g ++ lit "/" ++ v, rest, by rw [h1]⟩
  · exact absurd h1 (hlog v)

/-- **C97**, only streams: if the path does not contain `/watch/`, a GET that is passed on as a stream is a watch. Missing for the full claim:
paths that contain `/watch/`, as those of a namespace of this name (`C97_false_namespace`). -/
theorem C97_only_partial (hord : ord.Perm (parseQuery r.rawQuery)) {c m p q b : Str}
    (h : proxy env st tord ord r = .forward true c m p q b) (hg : r.method = lit "GET") (hp : ¬ lit "/watch/" <:+: r.path) :
    Streams r := by
  rcases (C97_exactly hord h).mp rfl with ⟨v, h1, h2⟩ | h1
  · refine .watch v hg h1 ⟨?_, ?_⟩
    · rintro rfl; exact absurd h2 (by decide)
    · intro h3; rw [h3] at h2; exact absurd h2 (by decide)
  · exact absurd h1 hp

/-- The hypotheses are met: a watch of an uncached type with `watch=TRUE`, and one with a path of the old form. -/
example : proxy exEnv exStore (fun _ m => m) (parseQuery (lit "watch=TRUE")) { method := lit "GET", path := lit "/api/v1/secrets", rawQuery := lit "watch=TRUE" }
      = .forward true (lit "c1") (lit "GET") (lit "/api/v1/secrets") (lit "timeout=30m&watch=TRUE") []
    ∧ Streams { method := lit "GET", path := lit "/api/v1/secrets", rawQuery := lit "watch=TRUE" }
    ∧ proxy exEnv exStore (fun _ m => m) [] { method := lit "GET", path := lit "/api/v1/watch/secrets" }
      = .forward true (lit "c1") (lit "GET") (lit "/api/v1/watch/secrets") (lit "timeout=30m") []
    ∧ Streams { method := lit "GET", path := lit "/api/v1/watch/secrets" } :=
  ⟨by decide +kernel, .watch (lit "TRUE") rfl ⟨[], by decide +kernel⟩ ⟨by decide, by decide⟩, by decide +kernel,
    .oldCore (lit "v1") (lit "secrets") rfl (by decide) rfl⟩

/-- **C97 is false** for a followed log: it is read to its end before anything is passed on, and has to end within a minute (C79). -/
theorem C97_false_follow :
    let r : HReq := { method := lit "GET", path := lit "/api/v1/namespaces/prod/pods/web/log", rawQuery := lit "follow=true" }
    Streams r ∧ proxy exEnv exStore (fun _ m => m) (parseQuery r.rawQuery) r
      = .forward false (lit "c1") (lit "GET") (lit "/api/v1/namespaces/prod/pods/web/log") (lit "follow=true") [] := by
  refine ⟨.follow (lit "/api/v1/namespaces/prod/pods/web") (lit "true") rfl rfl ⟨[], by decide +kernel⟩ ⟨by decide, by decide⟩, by decide +kernel⟩

/-- **C97 is false** for `watch=t`, which is a watch for the API server but not for ckube, as are `watch=yes` and a `watch` without value. -/
theorem C97_false_value :
    let r (v : String) : HReq := { method := lit "GET", path := lit "/api/v1/secrets", rawQuery := lit v }
    (Streams (r "watch=t") ∧ proxy exEnv exStore (fun _ m => m) (parseQuery (lit "watch=t")) (r "watch=t")
      = .forward false (lit "c1") (lit "GET") (lit "/api/v1/secrets") (lit "watch=t") [])
    ∧ (Streams (r "watch") ∧ proxy exEnv exStore (fun _ m => m) (parseQuery (lit "watch")) (r "watch")
      = .forward false (lit "c1") (lit "GET") (lit "/api/v1/secrets") (lit "watch=") []) :=
  ⟨⟨.watch (lit "t") rfl ⟨[], by decide +kernel⟩ ⟨by decide, by decide⟩, by decide +kernel⟩,
    .watch [] rfl ⟨[], by decide +kernel⟩ ⟨by decide, by decide⟩, by decide +kernel⟩

/-- **C97 is false** for every request below a namespace named `watch`, here a list of its secrets: it is passed on as a stream with a timeout of
30 minutes. -/
theorem C97_false_namespace :
    let r : HReq := { method := lit "GET", path := lit "/api/v1/namespaces/watch/secrets" }
    proxy exEnv exStore (fun _ m => m) [] r
      = .forward true (lit "c1") (lit "GET") (lit "/api/v1/namespaces/watch/secrets") (lit "timeout=30m") []
    ∧ ¬ Streams r := by
  refine ⟨by decide +kernel, ?_⟩
  have hno : ∀ k v, ¬ First (lit "") k v := by
    rintro k v ⟨vs, h⟩
    rw [show parseQuery (lit "") = [] by decide +kernel] at h
    simp [lookup] at h
  rintro (⟨v, -, h, -⟩ | ⟨v, rest, -, hv, h⟩ | ⟨g, v, rest, -, -, -, h⟩ | ⟨pod, v, -, -, h, -⟩)
  · exact hno _ _ h
  · have ht := congrArg (List.takeWhile (· ≠ 47)) (List.append_cancel_left (as := lit "/api/")
      (show lit "/api/" ++ lit "v1/namespaces/watch/secrets" = lit "/api/" ++ (v ++ (47 :: (lit "watch/" ++ rest))) by
        rw [← List.append_assoc]; simpa [lit] using h))
    rw [List.takeWhile_append_of_pos (by intro a ha; simp only [decide_eq_true_eq]; rintro rfl; exact hv ha)] at ht
    simp only [List.takeWhile_cons, ne_eq, not_true_eq_false, decide_false, Bool.false_eq_true, if_false, List.append_nil] at ht
    have hv1 : v = lit "v1" := by rw [← ht]; decide
    rw [hv1] at h
    simp [lit] at h
  · simp [lit] at h
  · exact hno _ _ h

end Ckube

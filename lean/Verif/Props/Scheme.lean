import Verif.Model.Scheme
import Verif.Props.Watcher

/-! # C121, C122: the scheme -/

namespace Ckube
open Spec

/-! ## Registration -/

theorem registerKind_some {s s' : Scheme} {x : List ProxyConf × GVR} (h : registerKind s x = some s') (k : GVK) :
    (lookup k s').isSome = true ↔ (lookup k s).isSome = true ∨ kindOf x.1 x.2 = k := by
  unfold registerKind at h
  by_cases hk : (lookup (kindOf x.1 x.2) s).isSome = true
  · rw [if_pos hk] at h
    obtain rfl := Option.some.inj h
    constructor
    · exact Or.inl
    · rintro (h | rfl)
      · exact h
      · exact hk
  · rw [if_neg hk] at h
    unfold addKnown at h
    by_cases h1 : (kindOf x.1 x.2).version = []
    · rw [if_pos h1] at h
      cases h
    · rw [if_neg h1] at h
      by_cases h2 : lookup (kindOf x.1 x.2) s = some GoType.builtIn
      · rw [if_pos h2] at h
        cases h
      · rw [if_neg h2] at h
        obtain rfl := Option.some.inj h
        rw [lookup_insertKV]
        by_cases hkk : kindOf x.1 x.2 = k
        · simp [hkk]
        · simp [hkk]

/-- **C121**: the kinds known after any number of goroutines have started are those of client-go and the ones these goroutines register, of whatever configuration, cluster or order. -/
theorem C121_known {regs : List (List ProxyConf × GVR)} : ∀ {base s : Scheme}, registerAll base regs = some s → ∀ k : GVK,
    ((lookup k s).isSome = true ↔ (lookup k base).isSome = true ∨ ∃ x ∈ regs, x.2.group = k.group ∧ x.2.version = k.version ∧ watchedKind x.1 x.2 = k.kind) := by
  induction regs with
  | nil =>
    intro base s h k
    obtain rfl := Option.some.inj h
    simp
  | cons x xs ih =>
    intro base s h k
    rw [registerAll, Option.bind_eq_some_iff] at h
    obtain ⟨s1, h1, h2⟩ := h
    rw [ih h2 k, registerKind_some h1 k]
    have : kindOf x.1 x.2 = k ↔ x.2.group = k.group ∧ x.2.version = k.version ∧ watchedKind x.1 x.2 = k.kind := by
      obtain ⟨g, v, kd⟩ := k
      simp [kindOf]
    simp [this, or_assoc]

theorem registerKind_none {s : Scheme} {x : List ProxyConf × GVR} (hs : ∀ k, (lookup k s).isSome = true → k.version ≠ []) :
    registerKind s x = none ↔ x.2.version = [] := by
  unfold registerKind addKnown
  by_cases hk : (lookup (kindOf x.1 x.2) s).isSome = true
  · rw [if_pos hk]
    have := hs _ hk
    simp only [kindOf] at this
    simp [this]
  · rw [if_neg hk]
    have h2 : ¬ lookup (kindOf x.1 x.2) s = some GoType.builtIn := fun e => hk (by rw [e]; rfl)
    rw [if_neg h2]
    have : (kindOf x.1 x.2).version = x.2.version := rfl
    rw [this]
    by_cases h1 : x.2.version = []
    · simp [h1]
    · simp [h1]

/-- **C121**: a goroutine that registers its kind panics, and the process ends, exactly if a type is configured without a version. -/
theorem C121_panics {regs : List (List ProxyConf × GVR)} : ∀ {base : Scheme}, (∀ k, (lookup k base).isSome = true → k.version ≠ []) →
    (registerAll base regs = none ↔ ∃ x ∈ regs, x.2.version = []) := by
  induction regs with
  | nil => intro base _; simp [registerAll]
  | cons x xs ih =>
    intro base hb
    rw [registerAll]
    cases h1 : registerKind base x with
    | none => simp [(registerKind_none hb).mp h1]
    | some s1 =>
      have hx : x.2.version ≠ [] := fun e => by rw [(registerKind_none hb).mpr e] at h1; cases h1
      have hs1 : ∀ k, (lookup k s1).isSome = true → k.version ≠ [] := by
        intro k hk
        rcases (registerKind_some h1 k).mp hk with h | rfl
        · exact hb k h
        · exact hx
      rw [Option.bind_some, ih hs1]
      simp [hx]

/-- The types of a configuration as the goroutines of one cluster register them. -/
def Spec.typesOf (ps : List ProxyConf) : List (List ProxyConf × GVR) := ps.map fun p => (ps, ⟨p.group, p.version, p.resource⟩)

/-- **C121 is false** for a configuration that forgets a version: ckube ends as soon as the goroutine of this type starts, at a reload as well. -/
theorem C121_false_version (base : Scheme) (hb : ∀ k, (lookup k base).isSome = true → k.version ≠ []) (before : List (List ProxyConf × GVR)) :
    registerAll base (before ++ typesOf [{ group := lit "apps", resource := lit "deployments", listKind := lit "DeploymentList" }]) = none := by
  rw [C121_panics hb]
  exact ⟨([{ group := lit "apps", resource := lit "deployments", listKind := lit "DeploymentList" }], ⟨lit "apps", [], lit "deployments"⟩), by simp [typesOf], rfl⟩

/-- Two types, one of which client-go knows; the list kinds of both end with letters of `List`. -/
def exKindTypes : List ProxyConf :=
  [{ group := lit "apps", version := lit "v1", resource := lit "deployments", listKind := lit "DeploymentList" },
   { group := lit "example.com", version := lit "v1", resource := lit "tests", listKind := lit "TestList" },
   { group := lit "example.com", version := lit "v1", resource := lit "foos", listKind := lit "FooList" }]

def exBase : Scheme := [(⟨lit "apps", lit "v1", lit "Deployment"⟩, .builtIn), (⟨[], lit "v1", lit "Pod"⟩, .builtIn)]

example : registerAll exBase (typesOf exKindTypes) = some (exBase ++ [(⟨lit "apps", lit "v1", lit "Deploymen"⟩, .objType), (⟨lit "example.com", lit "v1", lit "Te"⟩, .objType),
    (⟨lit "example.com", lit "v1", lit "Foo"⟩, .objType)]) := by decide +kernel

/-! ## Decoding -/

/-- The apiVersion of objects of a group and version. -/
def Spec.versionText (g v : Str) : Str := if g = [] then v else g ++ [47] ++ v

theorem parseGV_version {g v : Str} (hg : (47 : UInt8) ∉ g) (hv : (47 : UInt8) ∉ v) : parseGV (versionText g v) = some (g, v) := by
  unfold parseGV versionText
  by_cases h : g = []
  · rw [if_pos h, splitByte_of_not_mem _ _ hv, h]
  · rw [if_neg h, List.append_assoc, List.singleton_append, splitByte_append _ _ _ hg, splitByte_of_not_mem _ _ hv]

theorem decodeType_known {s : Scheme} {g v k : Str} (hg : (47 : UInt8) ∉ g) (hv : (47 : UInt8) ∉ v) (hk0 : k ≠ []) (hv0 : v ≠ []) (hu : k ∉ unversioned) :
    decodeType s (versionText g v) k = lookup ⟨g, v, k⟩ s := by
  unfold decodeType
  rw [parseGV_version hg hv]
  dsimp only
  rw [if_neg (by simp [hk0, hv0])]
  cases lookup (⟨g, v, k⟩ : GVK) s with
  | some t => rfl
  | none => simp [hu]

/-- The events that a stream carries for a kind: with types of events that client-go knows, and objects of this version and kind whose texts can be read. -/
structure Spec.CarriesKind (g v k : Str) (f : WatchFrame) (e : EvType × Obj) : Prop where
  type : evTypeOf f.type = some e.1
  version : f.apiVersion = versionText g v
  kind : f.kind = k
  obj : ∀ t, f.obj t = some e.2

theorem receive_known {g v k : Str} (hg : (47 : UInt8) ∉ g) (hv : (47 : UInt8) ∉ v) (hk0 : k ≠ []) (hv0 : v ≠ []) (hu : k ∉ unversioned)
    {fs : List (Scheme × WatchFrame)} {cur : List (EvType × Obj)} (h : List.Forall₂ (fun f e => CarriesKind g v k f.2 e ∧ (lookup (⟨g, v, k⟩ : GVK) f.1).isSome = true) fs cur) :
    receive fs = cur.map fun e => WIn.event e.1 e.2 := by
  induction h with
  | nil => rfl
  | @cons f e fs cur hf _ ih =>
    obtain ⟨s, f⟩ := f
    obtain ⟨hc, hs⟩ := hf
    obtain ⟨t, ht⟩ := Option.isSome_iff_exists.mp hs
    have hd : decodeType s f.apiVersion f.kind = some t := by rw [hc.version, hc.kind, decodeType_known hg hv hk0 hv0 hu, ht]
    rw [receive, decodeFrame, hc.type, hd]
    dsimp only
    rw [hc.obj t, Option.map_some, List.map_cons, ih]
    cases t <;> rfl

theorem decodeFrame_unknown {g v k : Str} (hg : (47 : UInt8) ∉ g) (hv : (47 : UInt8) ∉ v) (hk0 : k ≠ []) (hv0 : v ≠ []) (hu : k ∉ unversioned)
    {s : Scheme} {f : WatchFrame} (h1 : f.apiVersion = versionText g v) (h2 : f.kind = k) (hs : lookup (⟨g, v, k⟩ : GVK) s = none) : decodeFrame s f = none := by
  rw [decodeFrame, h1, h2, decodeType_known hg hv hk0 hv0 hu, hs]
  cases evTypeOf f.type <;> rfl

variable {eval : Str → Obj → Str} {conf : List (GVR × List (Str × Str))} {h : List Notice} {st : Store}

/-- The type of the objects: its group and version, without slashes, and the kind, which is none of the five that client-go knows in all groups. -/
structure Spec.Named (r : GVR) (kind : Str) : Prop where
  group : (47 : UInt8) ∉ r.group
  version : (47 : UInt8) ∉ r.version
  hasVersion : r.version ≠ []
  hasKind : kind ≠ []
  other : kind ∉ unversioned

/-- **C121**: whatever happened before (`rounds`), what the open stream has delivered is what is cached, if client-go knows the kind of the objects or a goroutine that has started
registers it: one of a type of the same group and version whose list kind, without the letters `L`, `i`, `s`, `t` at its end, is the kind. Missing for the full claim: other kinds, for
which it is false (`C121_false_kind`). -/
theorem C121_cached_partial (hrun : (newStore conf).run eval h = some st) {r : GVR} {kind : Str} (hn : Named r kind) (c : Str) (rounds : List Round)
    {fs : List (Scheme × WatchFrame)} {cur : List (EvType × Obj)} (hcur : cur ≠ []) (hf : List.Forall₂ (fun f e => CarriesKind r.group r.version kind f.2 e) fs cur)
    {base : Scheme} (hreg : ∀ f ∈ fs, ∃ regs, registerAll base regs = some f.1 ∧ ((lookup ⟨r.group, r.version, kind⟩ base).isSome = true
      ∨ ∃ x ∈ regs, x.2.group = r.group ∧ x.2.version = r.version ∧ watchedKind x.1 x.2 = kind))
    {p : WPhase} {out : List Notice} (hw : wrun r c .connecting (rounds.flatMap Round.ins ++ .opened :: receive fs) = some (p, out))
    (hh : h.filter (aboutB r c) = out) : Holds st r c (replay (objKey eval (confAt conf r)) cur) := by
  have hrec : receive fs = cur.map fun e => WIn.event e.1 e.2 := by
    refine receive_known hn.group hn.version hn.hasKind hn.hasVersion hn.other ?_
    have hreg' : ∀ f ∈ fs, (lookup (⟨r.group, r.version, kind⟩ : GVK) f.1).isSome = true := by
      intro f hm
      obtain ⟨regs, h1, h2⟩ := hreg f hm
      exact (C121_known h1 _).mpr h2
    clear hreg hw hcur
    induction hf with
    | nil => exact .nil
    | cons h1 _ ih => exact .cons ⟨h1, hreg' _ (by simp)⟩ (ih fun f hm => hreg' f (by simp [hm]))
  rw [hrec] at hw
  exact C35_replay hrun r c (rounds.flatMap Round.ins) [] cur hcur (by simp) (by simpa using hw) hh

/-- A stream with two objects of kind Foo, which is registered by the goroutine of its type. -/
def exFrame (ty k : Str) (o : Obj) : WatchFrame := { type := ty, apiVersion := lit "example.com/v1", kind := k, obj := fun _ => some o }

theorem exNamed (k : Str) (h1 : k ≠ []) (h2 : k ∉ unversioned) (res : Str) : Named ⟨lit "example.com", lit "v1", res⟩ k :=
  ⟨show (47 : UInt8) ∉ lit "example.com" by decide +kernel, show (47 : UInt8) ∉ lit "v1" by decide +kernel, show lit "v1" ≠ [] by decide +kernel, h1, h2⟩

example : ∃ regs s, regs = typesOf exKindTypes ∧ registerAll exBase regs = some s ∧ (∃ x ∈ regs, x.2.group = lit "example.com" ∧ x.2.version = lit "v1" ∧ watchedKind x.1 x.2 = lit "Foo")
    ∧ CarriesKind (lit "example.com") (lit "v1") (lit "Foo") (exFrame (lit "ADDED") (lit "Foo") (exPod "a" "n1")) (.added, exPod "a" "n1")
    ∧ receive [(s, exFrame (lit "ADDED") (lit "Foo") (exPod "a" "n1")), (s, exFrame (lit "MODIFIED") (lit "Foo") (exPod "a" "n2"))]
      = [.event .added (exPod "a" "n1"), .event .modified (exPod "a" "n2")] := by
  refine ⟨_, _, rfl, (by decide +kernel : registerAll exBase (typesOf exKindTypes) = some (exBase ++ [(⟨lit "apps", lit "v1", lit "Deploymen"⟩, .objType), (⟨lit "example.com", lit "v1", lit "Te"⟩, .objType),
    (⟨lit "example.com", lit "v1", lit "Foo"⟩, .objType)])), ?_, ⟨by decide +kernel, by decide +kernel, rfl, fun _ => rfl⟩, by decide +kernel⟩
  exact ⟨(exKindTypes, ⟨lit "example.com", lit "v1", lit "foos"⟩), by simp [typesOf, exKindTypes], by decide +kernel, by decide +kernel, by decide +kernel⟩

theorem wrun_barren {r : GVR} {c : Str} : ∀ {is : List WIn} {p p' : WPhase} {out : List Notice}, (∀ t o, WIn.event t o ∈ is → t = .error) →
    wrun r c p is = some (p', out) → ∀ n ∈ out, n = .clean r c := by
  intro is
  induction is with
  | nil =>
    intro p p' out _ h
    simp only [wrun, Option.some.injEq, Prod.mk.injEq] at h
    obtain ⟨-, rfl⟩ := h
    simp
  | cons i is ih =>
    intro p p' out hb h
    rw [wrun] at h
    cases hs : wstep r c p i with
    | none => rw [hs] at h; cases h
    | some x =>
      obtain ⟨q, o1⟩ := x
      rw [hs] at h
      simp only [Option.map_eq_some_iff] at h
      obtain ⟨y, hy, he⟩ := h
      simp only [Prod.mk.injEq] at he
      obtain ⟨-, rfl⟩ := he
      have ih := ih (fun t o hm => hb t o (by simp [hm])) hy
      have h1 : ∀ n ∈ o1, n = .clean r c := by
        have hcf : ∀ f, ∀ n ∈ cleanFirst r c f, n = .clean r c := by
          intro f n hn
          unfold cleanFirst at hn
          split at hn <;> simp_all
        cases p with
        | connecting => cases i <;> simp [wstep] at hs <;> obtain ⟨-, rfl⟩ := hs <;> simp
        | done => cases i <;> simp [wstep] at hs
        | streaming f =>
          cases i with
          | event t o =>
            obtain rfl := hb t o (by simp)
            simp only [wstep, evNotice, List.append_nil, Option.some.injEq, Prod.mk.injEq] at hs
            obtain ⟨-, rfl⟩ := hs
            exact hcf f
          | closed =>
            simp only [wstep, Option.some.injEq, Prod.mk.injEq] at hs
            obtain ⟨-, rfl⟩ := hs
            exact hcf f
          | stop =>
            simp only [wstep, Option.some.injEq, Prod.mk.injEq] at hs
            obtain ⟨-, rfl⟩ := hs
            simp
          | fail => simp [wstep] at hs
          | opened => simp [wstep] at hs
      intro n hn
      rcases List.mem_append.mp hn with hn | hn
      · exact h1 n hn
      · exact ih n hn

theorem cached_cleans {key : Obj → Str × Str} {r : GVR} {c : Str} (out : List Notice) (h : ∀ n ∈ out, n = .clean r c) : cached key out = fun _ => none := by
  unfold cached
  induction out with
  | nil => rfl
  | cons n out ih =>
    rw [List.foldl_cons, h n (by simp)]
    exact ih fun n hn => h n (by simp [hn])

/-- Every object on the streams of a round has this version and kind, and nobody has registered the kind when it arrives. -/
def Spec.Foreign (base : Scheme) (r : GVR) (kind : Str) (fs : List (Scheme × WatchFrame)) : Prop :=
  ∀ f ∈ fs, f.2.apiVersion = versionText r.group r.version ∧ f.2.kind = kind ∧ ∃ regs, registerAll base regs = some f.1
    ∧ ∀ x ∈ regs, ¬ (x.2.group = r.group ∧ x.2.version = r.version ∧ watchedKind x.1 x.2 = kind)

theorem receive_foreign {base : Scheme} {r : GVR} {kind : Str} (hn : Named r kind) (hb : lookup (⟨r.group, r.version, kind⟩ : GVK) base = none)
    {fs : List (Scheme × WatchFrame)} (hf : Foreign base r kind fs) : ∀ t o, WIn.event t o ∈ receive fs → t = .error := by
  cases fs with
  | nil => simp [receive]
  | cons f fs =>
    obtain ⟨s, f⟩ := f
    obtain ⟨h1, h2, regs, h3, h4⟩ := hf (s, f) (by simp)
    have hs : lookup (⟨r.group, r.version, kind⟩ : GVK) s = none := by
      rw [← Option.not_isSome_iff_eq_none]
      intro hk
      rcases (C121_known h3 _).mp hk with h | ⟨x, hx, h⟩
      · rw [hb] at h
        cases h
      · exact h4 x hx h
    rw [receive, decodeFrame_unknown hn.group hn.version hn.hasKind hn.hasVersion hn.other h1 h2 hs]
    simp

/-- **C121**, the other kinds: if neither client-go nor a goroutine registers the kind of the objects, nothing of the type is ever cached, whatever the API server has, however often and
long its streams are up. -/
theorem C121_never (hrun : (newStore conf).run eval h = some st) {r : GVR} {kind : Str} (hn : Named r kind) (c : Str) {base : Scheme}
    (hb : lookup (⟨r.group, r.version, kind⟩ : GVK) base = none) (rounds : List Round) (hr : ∀ fs, Round.stream fs ∈ rounds → Foreign base r kind fs)
    {fs : List (Scheme × WatchFrame)} (hf : Foreign base r kind fs)
    {p : WPhase} {out : List Notice} (hw : wrun r c .connecting (rounds.flatMap Round.ins ++ .opened :: receive fs) = some (p, out))
    (hh : h.filter (aboutB r c) = out) : Holds st r c fun _ => none := by
  have hho := holds_cached hrun r c hh (wrun_about hw)
  have hc := wrun_barren (fun t o hm => by
    rcases List.mem_append.mp hm with hm | hm
    · obtain ⟨x, hx, hm⟩ := List.mem_flatMap.mp hm
      cases x with
      | fail => simp [Round.ins] at hm
      | stream gs =>
        simp only [Round.ins, List.cons_append, List.mem_cons, List.mem_append, List.not_mem_nil, or_false, reduceCtorEq, false_or] at hm
        exact receive_foreign hn hb (hr gs hx) t o hm
    · simp only [List.mem_cons, reduceCtorEq, false_or] at hm
      exact receive_foreign hn hb hf t o hm) hw
  rw [cached_cleans out hc] at hho
  exact hho

/-- The type `tests` of `exKindTypes`, whose objects have the kind `Test`. -/
def exTests : GVR := ⟨lit "example.com", lit "v1", lit "tests"⟩

/-- **C121 is false** for the type `tests` of `exKindTypes`: its goroutines register `Deploymen`, `Te` and `Foo`. An object that is on the stream of each round is not cached, however many
rounds there are. -/
theorem C121_false_kind (hrun : (newStore conf).run eval h = some st) (c : Str) (o : Obj) (n : Nat) {s : Scheme} (hs : registerAll exBase (typesOf exKindTypes) = some s)
    {p : WPhase} {out : List Notice}
    (hw : wrun exTests c .connecting ((List.replicate n (Round.stream [(s, exFrame (lit "ADDED") (lit "Test") o)])).flatMap Round.ins
      ++ .opened :: receive [(s, exFrame (lit "ADDED") (lit "Test") o)]) = some (p, out))
    (hh : h.filter (aboutB exTests c) = out) : Holds st exTests c fun _ => none := by
  have hf : Foreign exBase exTests (lit "Test") [(s, exFrame (lit "ADDED") (lit "Test") o)] := by
    intro f hm
    rw [List.mem_singleton] at hm
    subst hm
    refine ⟨show lit "example.com/v1" = versionText (lit "example.com") (lit "v1") by decide +kernel, rfl, _, hs, ?_⟩
    have : ∀ x ∈ typesOf exKindTypes, watchedKind x.1 x.2 ≠ lit "Test" := by
      intro x hx
      simp only [typesOf, exKindTypes, List.map_cons, List.map_nil, List.mem_cons, List.not_mem_nil, or_false] at hx
      rcases hx with rfl | rfl | rfl <;> decide +kernel
    exact fun x hx e => this x hx e.2.2
  refine C121_never hrun (exNamed (lit "Test") (by decide +kernel) (by decide +kernel) _) c (by decide +kernel) _ (fun fs hm => ?_) hf hw hh
  obtain rfl := Round.stream.inj (List.eq_of_mem_replicate hm)
  exact hf

/-- Such a run exists, with three streams. -/
example : ∃ s, registerAll exBase (typesOf exKindTypes) = some s
    ∧ (wrun exTests (lit "c1") .connecting ((List.replicate 2 (Round.stream [(s, exFrame (lit "ADDED") (lit "Test") (exPod "a" "n1"))])).flatMap Round.ins
      ++ .opened :: receive [(s, exFrame (lit "ADDED") (lit "Test") (exPod "a" "n1"))])).map (fun x => (x.1, x.2.length)) = some (.streaming false, 3) :=
  ⟨_, (by decide +kernel : registerAll exBase (typesOf exKindTypes) = some (exBase ++ [(⟨lit "apps", lit "v1", lit "Deploymen"⟩, .objType), (⟨lit "example.com", lit "v1", lit "Te"⟩, .objType),
    (⟨lit "example.com", lit "v1", lit "Foo"⟩, .objType)])), by decide +kernel⟩

/-- **C121**: no configuration whatever registers a kind that ends with one of the four letters. -/
theorem C121_letters (ps : List ProxyConf) (r : GVR) : (watchedKind ps r).getLast? ≠ some 76 ∧ (watchedKind ps r).getLast? ≠ some 105
    ∧ (watchedKind ps r).getLast? ≠ some 115 ∧ (watchedKind ps r).getLast? ≠ some 116 := by
  have key : ∀ b, (watchedKind ps r).getLast? = some b → (lit "List").contains b = false := by
    intro b hb
    unfold watchedKind trimRight at hb
    rw [List.getLast?_reverse] at hb
    generalize (gvrKind ps r.group r.version r.resource).reverse = l at hb
    induction l with
    | nil => simp at hb
    | cons x l ih =>
      rw [List.dropWhile_cons] at hb
      by_cases hx : (lit "List").contains x = true
      · rw [if_pos hx] at hb
        exact ih hb
      · rw [if_neg hx, List.head?_cons] at hb
        obtain rfl := Option.some.inj hb
        simpa using hx
  exact ⟨fun e => absurd (key _ e) (by decide +kernel), fun e => absurd (key _ e) (by decide +kernel), fun e => absurd (key _ e) (by decide +kernel),
    fun e => absurd (key _ e) (by decide +kernel)⟩

/-- **C121**: an object of a kind that client-go does not know keeps its apiVersion and kind; one of a kind that it knows loses both. -/
theorem C121_typed {s : Scheme} {f : WatchFrame} {d : Decoded} (h : decodeFrame s f = some d) :
    (decodeType s f.apiVersion f.kind = some .objType ∧ d.apiVersion = f.apiVersion ∧ d.kind = f.kind)
    ∨ (decodeType s f.apiVersion f.kind = some .builtIn ∧ d.apiVersion = [] ∧ d.kind = [] ∧ f.kind ≠ []) := by
  unfold decodeFrame at h
  cases ht : evTypeOf f.type with
  | none => rw [ht] at h; cases h
  | some t =>
    cases hd : decodeType s f.apiVersion f.kind with
    | none => rw [ht, hd] at h; cases h
    | some g =>
      rw [ht, hd] at h
      dsimp only at h
      rw [Option.map_eq_some_iff] at h
      obtain ⟨o, -, rfl⟩ := h
      cases g with
      | objType => exact Or.inl ⟨rfl, rfl, rfl⟩
      | builtIn =>
        refine Or.inr ⟨rfl, rfl, rfl, fun e => ?_⟩
        unfold decodeType at hd
        split at hd
        · cases hd
        · rw [if_pos (Or.inl e)] at hd
          cases hd

/-- **C121 is false** for pods: what is cached of a pod has neither apiVersion nor kind. -/
theorem C121_false_typed : (decodeFrame exBase { type := lit "ADDED", apiVersion := lit "v1", kind := lit "Pod", obj := fun _ => some {} }).map (fun d => (d.apiVersion, d.kind))
    = some ([], []) := by decide +kernel

/-! ## C122 -/

/-- Two goroutines use the map of the scheme at once and one of them writes: what Go's runtime ends the process for, when it notices. -/
def Spec.Racing (σ : SState) : Prop :=
  ∃ (i j : Nat) (x y : Nat × GVK × SPhase), i ≠ j ∧ σ.gs[i]? = some x ∧ σ.gs[j]? = some y ∧ x.2.2 = .writing ∧ (y.2.2 = .writing ∨ y.2.2 = .checking ∨ y.2.2 = .decoding)

theorem split_at {α : Type} {l : List α} {i : Nat} {x : α} (h : l[i]? = some x) :
    ∃ a b, l = a ++ x :: b ∧ (∀ y, l.set i y = a ++ y :: b) ∧ l.eraseIdx i = a ++ b := by
  induction l generalizing i with
  | nil => simp at h
  | cons z l ih =>
    cases i with
    | zero =>
      simp only [List.getElem?_cons_zero, Option.some.injEq] at h
      subst h
      exact ⟨[], l, rfl, fun y => rfl, rfl⟩
    | succ i =>
      rw [List.getElem?_cons_succ] at h
      obtain ⟨a, b, h1, h2, h3⟩ := ih h
      exact ⟨z :: a, b, by rw [h1]; rfl, fun y => by rw [List.set_cons_succ, h2]; rfl, by rw [List.eraseIdx_cons_succ, h3]; rfl⟩

/-- A goroutine has the lock of its watcher. -/
def Spec.Critical (g : Nat × GVK × SPhase) : Prop := g.2.2 = .checking ∨ g.2.2 = .writing

theorem one_critical {ok : GVK → Prop} {known : List GVK} {σ : SState} (h : SRun ok ⟨known, []⟩ σ) :
    σ.gs.Pairwise fun a b => a.1 = b.1 → ¬ (Critical a ∧ Critical b) := by
  induction h with
  | refl => exact .nil
  | step _ hs ih =>
    cases hs with
    | start w ks hw _ =>
      dsimp only
      rw [List.pairwise_append]
      refine ⟨ih, ?_, ?_⟩
      · rw [List.pairwise_map]
        exact List.pairwise_of_forall fun a b => by simp [Critical]
      · intro a _ b hb
        obtain ⟨k, -, rfl⟩ := List.mem_map.mp hb
        simp [Critical]
    | lock hi hl =>
      obtain ⟨a, b, h1, h2, -⟩ := split_at hi
      dsimp only
      rw [h2]
      rw [h1] at ih
      have hl' : ∀ g, g ∈ a ∨ g ∈ b → g.1 = _ → ¬ Critical g := fun g hg e hc => hl ⟨g, by rw [h1]; rcases hg with hg | hg <;> simp [hg], e, hc⟩
      rw [List.pairwise_append, List.pairwise_cons] at ih ⊢
      refine ⟨ih.1, ⟨fun g hg e hc => hl' g (Or.inr hg) e.symm hc.2, ih.2.1.2⟩, fun g hg g' hg' => ?_⟩
      rcases List.mem_cons.mp hg' with rfl | hg'
      · exact fun e hc => hl' g (Or.inl hg) e hc.1
      · exact ih.2.2 g hg g' (by simp [hg'])
    | missing hi _ =>
      obtain ⟨a, b, h1, h2, -⟩ := split_at hi
      dsimp only
      rw [h2]
      rw [h1] at ih
      rw [List.pairwise_append, List.pairwise_cons] at ih ⊢
      refine ⟨ih.1, ⟨fun g hg e hc => ih.2.1.1 g hg e ⟨Or.inl rfl, hc.2⟩, ih.2.1.2⟩, fun g hg g' hg' => ?_⟩
      rcases List.mem_cons.mp hg' with rfl | hg'
      · exact fun e hc => ih.2.2 g hg _ List.mem_cons_self e ⟨hc.1, Or.inl rfl⟩
      · exact ih.2.2 g hg g' (by simp [hg'])
    | found hi _ | wrote hi | decode hi | decoded hi =>
      obtain ⟨a, b, h1, h2, -⟩ := split_at hi
      dsimp only
      rw [h2]
      rw [h1] at ih
      rw [List.pairwise_append, List.pairwise_cons] at ih ⊢
      refine ⟨ih.1, ⟨fun g hg e hc => by simp [Critical] at hc, ih.2.1.2⟩, fun g hg g' hg' => ?_⟩
      rcases List.mem_cons.mp hg' with rfl | hg'
      · exact fun e hc => by simp [Critical] at hc
      · exact ih.2.2 g hg g' (by simp [hg'])
    | done hi =>
      obtain ⟨a, b, h1, -, h3⟩ := split_at hi
      dsimp only
      rw [h3]
      rw [h1] at ih
      rw [List.pairwise_append, List.pairwise_cons] at ih
      rw [List.pairwise_append]
      exact ⟨ih.1, ih.2.1.2, fun g hg g' hg' => ih.2.2 g hg g' (by simp [hg'])⟩

/-- **C122**: the goroutines of one watcher register one after the other. Missing for the full claim: the decoders, and the goroutines of other watchers, for which it is false
(`C122_false_decode`, `C122_false_reload`). -/
theorem C122_lock_partial {ok : GVK → Prop} {known : List GVK} {σ : SState} (h : SRun ok ⟨known, []⟩ σ) {i j : Nat} {x y : Nat × GVK × SPhase} (hij : i ≠ j)
    (hx : σ.gs[i]? = some x) (hy : σ.gs[j]? = some y) (hcx : x.2.2 = .checking ∨ x.2.2 = .writing) (hcy : y.2.2 = .checking ∨ y.2.2 = .writing) : x.1 ≠ y.1 := by
  have hp := List.pairwise_iff_getElem.mp (one_critical h)
  obtain ⟨hi, rfl⟩ := List.getElem?_eq_some_iff.mp hx
  obtain ⟨hj, rfl⟩ := List.getElem?_eq_some_iff.mp hy
  intro e
  rcases Nat.lt_or_gt_of_ne hij with hlt | hlt
  · exact hp i j hi hj hlt e ⟨hcx, hcy⟩
  · exact hp j i hj hi hlt e.symm ⟨hcy, hcx⟩

theorem never_writes {σ τ : SState} (h0 : ∀ g ∈ σ.gs, g.2.2 ≠ .writing ∧ g.2.1 ∈ σ.known) (h : SRun (· ∈ σ.known) σ τ) :
    (∀ k ∈ σ.known, k ∈ τ.known) ∧ ∀ g ∈ τ.gs, g.2.2 ≠ .writing ∧ g.2.1 ∈ τ.known := by
  induction h with
  | refl => exact ⟨fun _ h => h, h0⟩
  | step _ hs ih =>
    obtain ⟨ih1, ih2⟩ := ih
    cases hs with
    | start w ks _ hk =>
      refine ⟨ih1, fun g hg => ?_⟩
      rcases List.mem_append.mp hg with hg | hg
      · exact ih2 g hg
      · obtain ⟨k, hm, rfl⟩ := List.mem_map.mp hg
        exact ⟨by simp, ih1 k (hk k hm)⟩
    | missing hi hk => exact absurd (ih2 _ (List.mem_of_getElem? hi)).2 hk
    | wrote hi => exact absurd rfl (ih2 _ (List.mem_of_getElem? hi)).1
    | lock hi _ | found hi _ | decode hi | decoded hi =>
      have hk := (ih2 _ (List.mem_of_getElem? hi)).2
      refine ⟨ih1, fun g hg => ?_⟩
      rcases List.mem_or_eq_of_mem_set hg with hg | rfl
      · exact ih2 g hg
      · exact ⟨by simp, hk⟩
    | done hi => exact ⟨ih1, fun g hg => ih2 g (List.mem_of_mem_eraseIdx hg)⟩

/-- **C122**: if all kinds are known at some moment, nobody writes from then on, whatever watchers are started for them. Missing for the full claim: kinds that are not known yet. -/
theorem C122_known_partial {σ τ : SState} (h0 : ∀ g ∈ σ.gs, g.2.2 ≠ .writing ∧ g.2.1 ∈ σ.known) (h : SRun (· ∈ σ.known) σ τ) : ¬ Racing τ := by
  rintro ⟨i, j, x, y, -, hx, -, hw, -⟩
  exact ((never_writes h0 h).2 x (List.mem_of_getElem? hx)).1 hw

theorem settled_known {ok : GVK → Prop} {known : List GVK} {σ : SState} (h : SRun ok ⟨known, []⟩ σ) : ∀ g ∈ σ.gs, g.2.2 = .idle ∨ g.2.2 = .decoding → g.2.1 ∈ σ.known := by
  induction h with
  | refl => simp
  | step _ hs ih =>
    cases hs with
    | start w ks _ _ =>
      intro g hg hp
      rcases List.mem_append.mp hg with hg | hg
      · exact ih g hg hp
      · obtain ⟨k, -, rfl⟩ := List.mem_map.mp hg
        simp at hp
    | wrote hi =>
      intro g hg hp
      rcases List.mem_or_eq_of_mem_set hg with hg | rfl
      · exact List.mem_cons_of_mem _ (ih g hg hp)
      · simp
    | found hi hk =>
      intro g hg hp
      rcases List.mem_or_eq_of_mem_set hg with hg | rfl
      · exact ih g hg hp
      · exact hk
    | lock hi _ | missing hi _ =>
      intro g hg hp
      rcases List.mem_or_eq_of_mem_set hg with hg | rfl
      · exact ih g hg hp
      · simp at hp
    | decode hi =>
      intro g hg hp
      rcases List.mem_or_eq_of_mem_set hg with hg | rfl
      · exact ih g hg hp
      · have := ih _ (List.mem_of_getElem? hi) (Or.inl rfl)
        exact this
    | decoded hi =>
      intro g hg hp
      rcases List.mem_or_eq_of_mem_set hg with hg | rfl
      · exact ih g hg hp
      · have := ih _ (List.mem_of_getElem? hi) (Or.inr rfl)
        exact this
    | done hi => exact fun g hg hp => ih g (List.mem_of_mem_eraseIdx hg) hp

/-- **C122**: once all goroutines have registered their kinds, reloads of configurations with the same types, any number of them, are safe. -/
theorem C122_reload_partial {ok : GVK → Prop} {known : List GVK} {σ τ : SState} (h : SRun ok ⟨known, []⟩ σ) (hset : ∀ g ∈ σ.gs, g.2.2 = .idle ∨ g.2.2 = .decoding)
    (h' : SRun (fun k => ∃ g ∈ σ.gs, g.2.1 = k) σ τ) : ¬ Racing τ := by
  have hk : ∀ g ∈ σ.gs, g.2.1 ∈ σ.known := fun g hg => settled_known h g hg (hset g hg)
  refine C122_known_partial (fun g hg => ⟨?_, hk g hg⟩) (σ := σ) ?_
  · rcases hset g hg with e | e <;> rw [e] <;> simp
  · have weaken : ∀ {a b : SState}, SRun (fun k => ∃ g ∈ σ.gs, g.2.1 = k) a b → SRun (· ∈ σ.known) a b := by
      intro a b hab
      induction hab with
      | refl => exact .refl _
      | step _ hs ih =>
        refine .step ih ?_
        cases hs with
        | start w ks hw hks =>
          exact .start w ks hw fun k hm => by
            obtain ⟨g, hg, rfl⟩ := hks k hm
            exact hk g hg
        | lock hi hl => exact .lock hi hl
        | found hi hm => exact .found hi hm
        | missing hi hm => exact .missing hi hm
        | wrote hi => exact .wrote hi
        | decode hi => exact .decode hi
        | decoded hi => exact .decoded hi
        | done hi => exact .done hi
    exact weaken h'

def exKindA : GVK := ⟨lit "apps", lit "v1", lit "Deploymen"⟩
def exKindB : GVK := ⟨lit "example.com", lit "v1", lit "Foo"⟩

theorem not_locked {known : List GVK} {gs : List (Nat × GVK × SPhase)} {w : Nat} (h : ∀ g ∈ gs, g.1 = w → g.2.2 ≠ .checking ∧ g.2.2 ≠ .writing) :
    ¬ SState.locked ⟨known, gs⟩ w := by
  rintro ⟨g, hg, e, hc⟩
  rcases hc with hc | hc
  · exact (h g hg e).1 hc
  · exact (h g hg e).2 hc

/-- **C122 is false**: with two configured types the goroutine of the first has registered its kind and decodes the first object of its stream while the goroutine of the second
registers. -/
theorem C122_false_decode : ∃ σ, SRun (fun _ => True) ⟨[], []⟩ σ ∧ Racing σ := by
  have s1 := SRun.step (.refl ⟨[], []⟩) (SStep.start (ok := fun _ => True) 0 [exKindA, exKindB] (by simp) (by simp))
  have s2 := SRun.step s1 (SStep.lock (i := 0) (w := 0) (k := exKindA) rfl (not_locked (by simp)))
  have s3 := SRun.step s2 (SStep.missing (i := 0) (w := 0) (k := exKindA) rfl (by simp))
  have s4 := SRun.step s3 (SStep.wrote (i := 0) (w := 0) (k := exKindA) rfl)
  have s5 := SRun.step s4 (SStep.decode (i := 0) (w := 0) (k := exKindA) rfl)
  have s6 := SRun.step s5 (SStep.lock (i := 1) (w := 0) (k := exKindB) rfl (not_locked (by simp)))
  have s7 := SRun.step s6 (SStep.missing (i := 1) (w := 0) (k := exKindB) rfl (by decide +kernel))
  exact ⟨_, s7, 1, 0, _, _, by decide, rfl, rfl, rfl, Or.inr (Or.inr rfl)⟩

/-- **C122 is false** for reloads: each watcher has a lock of its own, so that a goroutine of the old and one of the new watcher register at the same time. -/
theorem C122_false_reload : ∃ σ, SRun (fun _ => True) ⟨[], []⟩ σ ∧ ∃ (i j : Nat) (x y : Nat × GVK × SPhase), i ≠ j ∧ σ.gs[i]? = some x ∧ σ.gs[j]? = some y ∧ x.2.2 = .writing ∧ y.2.2 = .writing := by
  have s1 := SRun.step (.refl ⟨[], []⟩) (SStep.start (ok := fun _ => True) 0 [exKindA] (by simp) (by simp))
  have s2 := SRun.step s1 (SStep.start (ok := fun _ => True) 1 [exKindB] (by simp) (by simp))
  have s3 := SRun.step s2 (SStep.lock (i := 0) (w := 0) (k := exKindA) rfl (not_locked (by simp)))
  have s4 := SRun.step s3 (SStep.missing (i := 0) (w := 0) (k := exKindA) rfl (by simp))
  have s5 := SRun.step s4 (SStep.lock (i := 1) (w := 1) (k := exKindB) rfl (not_locked (by simp)))
  have s6 := SRun.step s5 (SStep.missing (i := 1) (w := 1) (k := exKindB) rfl (by simp))
  exact ⟨_, s6, 0, 1, _, _, by decide, rfl, rfl, rfl, rfl⟩

/-- A settled state with an open stream, from which the same configuration is loaded again. -/
example : ∃ σ, SRun (fun _ => True) ⟨[exKindA], []⟩ σ ∧ (∀ g ∈ σ.gs, g.2.2 = .idle ∨ g.2.2 = .decoding) ∧ ∃ τ, SRun (fun k => ∃ g ∈ σ.gs, g.2.1 = k) σ τ ∧ τ.gs.length = 2 := by
  have s1 := SRun.step (.refl ⟨[exKindA], []⟩) (SStep.start (ok := fun _ => True) 0 [exKindA] (by simp) (by simp))
  have s2 := SRun.step s1 (SStep.lock (i := 0) (w := 0) (k := exKindA) rfl (not_locked (by simp)))
  have s3 := SRun.step s2 (SStep.found (i := 0) (w := 0) (k := exKindA) rfl (by simp))
  have s4 := SRun.step s3 (SStep.decode (i := 0) (w := 0) (k := exKindA) rfl)
  exact ⟨_, s4, by simp, _, .step (.refl _) (.start 1 [exKindA] (by simp) (by simp)), rfl⟩

end Ckube

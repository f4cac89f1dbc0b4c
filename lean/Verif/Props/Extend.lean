import Verif.Lemmas.Extend
import Verif.Spec.Deploy
import Verif.Props.Proxy

/-! # C56–C58: the services of a deployment -/

namespace Ckube
open Spec

variable {env : Env} {st : StoreI}
variable {isPrint : Nat → Bool} {eval : Str → Obj → Str} {alg : SliceSort} {pf : Str → Option GoFloat}
  {conf : List (GVR × List (Str × Str))} {h : List Notice} {s : Store}

/-! ## C57 -/

theorem isSubsetOf_iff (parent : List (Str × Str)) : ∀ sub : List (Str × Str),
    isSubsetOf sub parent = true ↔ ∀ k v, (k, v) ∈ sub → lookup k parent = some v
  | [] => by simp [isSubsetOf]
  | (k, v) :: rest => by
    have ih := isSubsetOf_iff parent rest
    unfold isSubsetOf
    simp only [List.mem_cons, Prod.mk.injEq]
    cases hk : lookup k parent with
    | none =>
      simp only [Bool.false_eq_true, false_iff]
      intro hc
      have := hc k v (Or.inl ⟨rfl, rfl⟩)
      rw [hk] at this
      simp at this
    | some pv =>
      simp only
      by_cases hpv : pv = v
      · subst hpv
        rw [if_neg (by simp), ih]
        constructor
        · rintro h1 k' v' (⟨rfl, rfl⟩ | hm)
          · exact hk
          · exact h1 k' v' hm
        · intro h1 k' v' hm; exact h1 k' v' (Or.inr hm)
      · rw [if_pos hpv]
        simp only [Bool.false_eq_true, false_iff]
        intro hc
        have := hc k v (Or.inl ⟨rfl, rfl⟩)
        rw [hk, Option.some.injEq] at this
        exact hpv this

/-- **C57**: the subset test holds exactly when every entry of the first map is an entry of the second. -/
theorem C57_subset (sub parent : List (Str × Str)) (hp : IsMap parent) :
    isSubsetOf sub parent = true ↔ ∀ e ∈ sub, e ∈ parent := by
  rw [isSubsetOf_iff]
  constructor
  · rintro h1 ⟨k, v⟩ he; exact mem_of_lookup (h1 k v he)
  · intro h1 k v he; exact lookup_eq_some_of_mem hp (h1 _ he)

/-- **C57**, order independence: the iteration orders of the two maps do not matter. -/
theorem C57_order (sub sub' parent parent' : List (Str × Str)) (hp : IsMap parent) (h1 : sub.Perm sub')
    (h2 : parent.Perm parent') : isSubsetOf sub parent = isSubsetOf sub' parent' := by
  have hp' : IsMap parent' := (h2.map Prod.fst).nodup_iff.mp hp
  rw [Bool.eq_iff_iff, C57_subset _ _ hp, C57_subset _ _ hp']
  exact ⟨fun hx e he => h2.subset (hx e (h1.symm.subset he)), fun hx e he => h2.symm.subset (hx e (h1.subset he))⟩

/-- A proper subset, a map with another value, and a map with another key. -/
example : IsMap [(lit "app", lit "web"), (lit "tier", lit "front")]
    ∧ isSubsetOf [(lit "tier", lit "front")] [(lit "app", lit "web"), (lit "tier", lit "front")] = true
    ∧ isSubsetOf [(lit "app", lit "web"), (lit "tier", lit "back")] [(lit "app", lit "web"), (lit "tier", lit "front")] = false
    ∧ isSubsetOf [(lit "zone", [])] [(lit "app", lit "web"), (lit "tier", lit "front")] = false := by
  decide +kernel

/-! ## C58 -/

theorem splitByte_last (c : UInt8) (x : Str) (hx : c ∉ x) : ∀ d : Str,
    splitByte c (d ++ c :: x) = splitByte c d ++ [x]
  | [] => by
    simp [splitByte_of_not_mem c x hx, splitByte]
  | b :: d => by
    have ih := splitByte_last c x hx d
    simp only [List.cons_append, splitByte]
    rw [ih]
    cases hs : splitByte c d with
    | nil => exact absurd hs (splitByte_ne_nil c d)
    | cons p ps =>
      simp only [List.cons_append]
      split <;> rfl

/-- **C58**: the deployment name of a pod whose first owner is the ReplicaSet `<d>-<hash>` is `<d>`. Missing for the full
claim: pods with the ReplicaSet as a later owner (`C58_false_second_owner`). -/
theorem C58_replica_set_partial (m : ObjMeta) (d hash : Str) (rest : List (Str × Str))
    (ho : m.owners = (lit "ReplicaSet", d ++ lit "-" ++ hash) :: rest) (hh : (45 : UInt8) ∉ hash) :
    deploymentName m = d := by
  unfold deploymentName
  rw [ho]
  simp only
  rw [if_neg (by simp)]
  have e : d ++ lit "-" ++ hash = d ++ 45 :: hash := by simp [lit]
  rw [e, splitByte_last 45 hash hh, List.dropLast_concat]
  exact join_splitByte 45 d

/-- **C58**, other pods: no deployment name without an owner `<d>-<hash>` of kind ReplicaSet in the first place. -/
theorem C58_other (m : ObjMeta) (hno : ∀ d hash rest,
      m.owners = (lit "ReplicaSet", d ++ lit "-" ++ hash) :: rest → (45 : UInt8) ∈ hash) :
    deploymentName m = [] := by
  unfold deploymentName
  cases ho : m.owners with
  | nil => rfl
  | cons kn rest =>
    obtain ⟨kind, name⟩ := kn
    simp only
    split
    · rfl
    · rename_i hk
      rw [ne_eq, Decidable.not_not] at hk
      subst hk
      have hj := join_splitByte 45 name
      have hn := not_mem_of_splitByte 45 name
      rcases List.eq_nil_or_concat (splitByte 45 name) with h0 | ⟨ps, p, h0⟩
      · rw [h0]; rfl
      · rw [List.concat_eq_append] at h0
        rw [h0] at hj hn ⊢
        rw [List.dropLast_concat]
        cases ps with
        | nil => rfl
        | cons a ps =>
          exfalso
          have hjoin : ∀ (l : List Str) (x : Str), l ≠ [] → join [45] (l ++ [x]) = join [45] l ++ 45 :: x := by
            intro l x
            induction l with
            | nil => intro hx; exact absurd rfl hx
            | cons y l ih =>
              intro _
              cases l with
              | nil => simp [join]
              | cons z l => simp only [List.cons_append, join] at ih ⊢; rw [ih (by simp)]; simp
          rw [hjoin _ _ (by simp)] at hj
          have hnm : name = join [45] (a :: ps) ++ lit "-" ++ p := by rw [← hj]; simp [lit]
          exact hn p (by simp) (hno (join [45] (a :: ps)) p rest (by rw [← hnm]; exact ho))

/-- A deployment name with dashes, a ReplicaSet without dash, and a StatefulSet. -/
example : deploymentName { owners := [(lit "ReplicaSet", lit "my-web-app" ++ lit "-" ++ lit "7f9c")] } = lit "my-web-app"
    ∧ deploymentName { owners := [(lit "ReplicaSet", lit "web")] } = []
    ∧ deploymentName { owners := [(lit "StatefulSet", lit "db-1")] } = [] := by
  decide +kernel

/-- **C58 is false** for pods that have the ReplicaSet as a later owner: only the first owner is looked at. -/
theorem C58_false_second_owner :
    deploymentName { owners := [(lit "Node", lit "n1"), (lit "ReplicaSet", lit "web-7f9c")] } = [] := by
  decide +kernel

/-! ## C56 -/

theorem owned_iff {o : Obj} {m : ObjMeta} (hm : o.om = some m) : deploymentName m ≠ [] ↔ ∃ d, d ≠ [] ∧ OwnedBy o d := by
  constructor
  · intro hne
    by_contra hc
    refine hne (C58_other m ?_)
    intro d hash rest ho
    by_contra hh
    have hd := C58_replica_set_partial m d hash rest ho hh
    exact hc ⟨d, hd ▸ hne, m, hash, rest, hm, ho, hh⟩
  · rintro ⟨d, hd, m', hash, rest, hm', ho, hh⟩
    rw [hm, Option.some.injEq] at hm'
    subst hm'
    rwa [C58_replica_set_partial m d hash rest ho hh]

/-- The services are picked by their selectors. -/
theorem pickServices_spec {labels : List (Str × Str)} (f : Ident × Obj × SObj → Bool)
    (hf : ∀ e, f e = true ↔ SelectsLabels e.2.2.obj labels) :
    ∀ l : List (Ident × Obj × SObj), (∀ e ∈ l, e.2.2.obj.om ≠ none) →
      pickServices labels (l.map fun e => e.2.2.obj) = some ((l.filter f).map fun e => e.2.2.obj)
  | [], _ => rfl
  | e :: l, hom => by
    have ih := pickServices_spec f hf l (fun x hx => hom x (by simp [hx]))
    have hsome := hom e (by simp)
    rw [List.map_cons, pickServices]
    cases ho : e.2.2.obj.om with
    | none => exact absurd ho hsome
    | some m =>
      simp only
      rw [ih, Option.map_some, List.filter_cons]
      have hfe := hf e
      unfold SelectsLabels at hfe
      cases hsel : e.2.2.obj.selector with
      | none =>
        rw [hsel] at hfe
        have : f e = false := by rw [← Bool.not_eq_true, hfe]; simp
        rw [this]; rfl
      | some sel =>
        rw [hsel] at hfe
        simp only [Option.some.injEq, exists_eq_left'] at hfe
        rw [← isSubsetOf_iff labels sel] at hfe
        have : f e = isSubsetOf sel labels := by rw [Bool.eq_iff_iff]; exact hfe
        rw [this]
        simp only
        split <;> rfl

/-- Objects in the cache are the latest ones. -/
theorem get_latest (hrun : (newStore conf).run eval h = some s) {g : GVR} {c ns name : Str} {o' : Obj}
    (hg : s.get g c ns name = some o') : ∃ o, Latest eval (confAt conf) h ⟨g, c, ns, name⟩ o ∧ SameButMarks o o' := by
  obtain ⟨h1, h2⟩ := C20_latest hrun ⟨g, c, ns, name⟩
  by_cases hex : ∃ o, Latest eval (confAt conf) h ⟨g, c, ns, name⟩ o
  · obtain ⟨o, ho⟩ := hex
    obtain ⟨o'', hg'', hs⟩ := h1 o ho
    rw [hg] at hg''
    rw [Option.some.injEq] at hg''
    exact ⟨o, ho, hg'' ▸ hs⟩
  · rw [h2 (fun o ho => hex ⟨o, ho⟩)] at hg
    simp at hg

/-- What a query restricted to one cluster finds. -/
theorem cluster_found (hconf : ConfOK conf) (hrun : (newStore conf).run eval h = some s) (hapi : ApiObjects h)
    (hst : Serves isPrint alg pf s st) {g : GVR} (hg : s.isStoreGVR g = true) {ns c search : Str} (hns : ns ≠ [])
    (hc : c ≠ []) (hl : validLabelValue c = true) (P : Str → Prop)
    (hplain : ∀ p ∈ searchParts search, ¬ advPrefix <+: p) (hsemi : ∀ p ∈ searchParts search, ∀ t, p ≠ lit ";" ++ t)
    (hok : ∀ m, lookup (lit "name") m ≠ none → ∀ p ∈ searchParts search, matchParts isPrint m [p] ≠ none)
    (hP : ∀ name o m, s.get g c ns name = some o → lookup (lit "name") m = some name →
      ((∀ p ∈ searchParts search, matchParts isPrint m [p] = some true) ↔ P name)) :
    ∃ found : List (Ident × Obj × SObj), InOrder (found.map fun e => e.1.name)
      ∧ (∀ name o, (∃ e ∈ found, e.1.name = name ∧ e.2.2.obj = o) ↔ s.get g c ns name = some o ∧ P name)
      ∧ (∀ e ∈ found, e.2.2.obj.om ≠ none)
      ∧ st.query g ⟨ns, { search := clusterSearch search c }⟩
        = some { error := false, items := found.map fun e => e.2.2.obj, total := found.length } := by
  have hs := fun m => clusterSearch_spec (isPrint := isPrint) hc hl hplain hsemi m
  obtain ⟨found, f1, f2, ford, f3⟩ := query_plain hconf hrun hapi hst hg ns (clusterSearch search c) (by
    intro m hm hn
    obtain ⟨p, hp, hn⟩ := (hs m).2.mp hn
    exact hok m hm p hp hn)
  have hfm := found_mem f1
  have hname : ∀ {c' n name : Str} {o : Obj}, Latest eval (confAt conf) h ⟨g, c', n, name⟩ o → ∃ m, o.om = some m ∧ m.name = name := by
    intro c' n name o ho
    obtain ⟨m, hm⟩ := latest_api hapi ho
    have := latest_objKey ho
    unfold objKey at this
    rw [hm] at this
    simp only [Prod.mk.injEq] at this
    exact ⟨m, hm, this.2⟩
  have hid : ∀ e ∈ found, e.1 = ⟨g, c, ns, e.1.name⟩ := by
    intro e he
    obtain ⟨⟨_, hgv, hnse, idx, hidx, hmt⟩, _⟩ := (hfm e).mp he
    have hcl := ((hs idx).1.mp hmt).1
    rw [hidx.2] at hcl
    have hcl : e.1.cluster = c := by simpa [indexValueOf] using hcl
    have hn : e.1.ns = ns := by
      rcases hnse with h0 | h0
      · exact absurd h0 hns
      · exact h0.symm
    rcases hx : e.1 with ⟨a1, a2, a3, a4⟩
    rw [hx] at hgv hcl hn
    simp_all
  have hidx : ∀ {o : Obj} {idx : List (Str × Str)} {name : Str}, Latest eval (confAt conf) h ⟨g, c, ns, name⟩ o →
      IsIndex eval (confAt conf g) c o idx → lookup (lit "name") idx = some name := by
    intro o idx name ho hi
    obtain ⟨m, hm, hn⟩ := hname ho
    rw [hi.2, indexValueOf, hm]
    simp [hn, show lit "name" ≠ lit "cluster" by decide, show lit "name" ≠ lit "is_deleted" by decide,
      show lit "name" ≠ lit "namespace" by decide]
  refine ⟨found, ?_, ?_, ?_, f3⟩
  · have hnd : (found.map fun e => e.1.name).Nodup := by
      refine List.Nodup.of_map (fun n => (⟨g, c, ns, n⟩ : Ident)) ?_
      rw [List.map_map]
      have : found.map ((fun n => (⟨g, c, ns, n⟩ : Ident)) ∘ fun e => e.1.name) = found.map Prod.fst :=
        List.map_congr_left fun e he => (hid e he).symm
      rw [this]
      exact f1.1
    have hval : ∀ e ∈ found, ∀ e' ∈ found, e.1.name ≠ e'.1.name → LexLe pf defaultKeys e.2.2 e'.2.2 →
        strLt e.1.name e'.1.name = true := by
      have hv : ∀ e ∈ found, e.2.2.val (lit "cluster") = c ∧ e.2.2.val (lit "namespace") = ns
          ∧ e.2.2.val (lit "name") = e.1.name := by
        intro e he
        obtain ⟨⟨hlat, _⟩, hb⟩ := (hfm e).mp he
        have hide := hid e he
        obtain ⟨m, hm⟩ := latest_api hapi hlat
        have hk := latest_objKey hlat
        unfold objKey at hk
        rw [hm, hide] at hk
        simp only [Prod.mk.injEq] at hk
        have hi := (build_index eval (confAt_isMap hconf g) e.1.cluster e.2.1).2
        have hcl : e.1.cluster = c := by rw [hide]
        unfold SObj.val
        rw [hb, hi, hi, hi]
        simp [indexValueOf, hm, hcl, hk, show lit "name" ≠ lit "cluster" by decide,
          show lit "name" ≠ lit "is_deleted" by decide, show lit "name" ≠ lit "namespace" by decide,
          show lit "namespace" ≠ lit "cluster" by decide, show lit "namespace" ≠ lit "is_deleted" by decide]
      intro e he e' he' hne hle
      obtain ⟨a1, a2, a3⟩ := hv e he
      obtain ⟨b1, b2, b3⟩ := hv e' he'
      simp only [defaultKeys, LexLe, ValueLt, ValueEq, Bool.false_eq_true, if_false, a1, a2, a3, b1, b2, b3,
        strLt_irrefl, true_and, false_or, and_true] at hle
      rcases hle with hle | hle
      · exact hle
      · exact absurd hle hne
    unfold InOrder
    rw [List.pairwise_map] at ford ⊢
    rw [List.Nodup, List.pairwise_map] at hnd
    exact (ford.and hnd).imp_of_mem fun he he' hx => hval _ he _ he' hx.2 hx.1
  · intro name o
    constructor
    · rintro ⟨e, he, rfl, rfl⟩
      have hget := f2 e he
      obtain ⟨⟨hlat, _, _, idx, hi, hmt⟩, _⟩ := (hfm e).mp he
      have hide := hid e he
      rw [hide] at hget hlat hi
      simp only at hget hi
      exact ⟨hget, (hP _ _ idx hget (hidx hlat hi)).mp ((hs idx).1.mp hmt).2⟩
    · rintro ⟨hget, hp⟩
      obtain ⟨o0, hlat, _⟩ := get_latest hrun hget
      have hi := build_index eval (confAt_isMap hconf g) c o0
      have hn := hidx hlat hi
      have hmat : Matching isPrint eval conf h g ⟨ns, { search := clusterSearch search c }⟩ ⟨g, c, ns, name⟩ o0 := by
        refine ⟨hlat, rfl, Or.inr rfl, _, hi, ?_⟩
        refine (hs _).1.mpr ⟨?_, (hP _ _ _ hget hn).mpr hp⟩
        rw [hi.2]; simp [indexValueOf]
      have hmem := (hfm (⟨g, c, ns, name⟩, o0, (build eval (confAt conf g) c o0).2.2)).mpr ⟨hmat, rfl⟩
      have h2 := f2 _ hmem
      simp only at h2
      rw [hget, Option.some.injEq] at h2
      exact ⟨_, hmem, rfl, h2.symm⟩
  · intro e he hom
    obtain ⟨⟨hlat, _⟩, hb⟩ := (hfm e).mp he
    have := om_same (build_same eval (confAt conf g) e.1.cluster e.2.1)
    obtain ⟨m, hm⟩ := latest_api hapi hlat
    rw [← hb, hom, hm] at this
    simp at this

theorem map_get {get : Str → Option Obj} {l : List (Ident × Obj × SObj)} (hl : ∀ e ∈ l, get e.1.name = some e.2.2.obj) :
    (l.map fun e => e.2.2.obj) = l.filterMap fun e => get e.1.name := by
  induction l with
  | nil => rfl
  | cons e l ih =>
    rw [List.map_cons, ih (fun x hx => hl x (by simp [hx])), List.filterMap_cons_some (f := fun e : Ident × Obj × SObj => get e.1.name) (hl e (by simp))]

/-- The answer in terms of the labels that are used. -/
theorem servicesFor_spec (hconf : ConfOK conf) (hrun : (newStore conf).run eval h = some s) (hapi : ApiObjects h)
    (hst : Serves isPrint alg pf s st) (hg : s.isStoreGVR svcGvr = true) {ns c : Str} (hns : ns ≠ [])
    (hc : c ≠ []) (hl : validLabelValue c = true) (labels : List (Str × Str)) :
    ∃ names : List Str, InOrder names
      ∧ servicesFor st c ns labels = .services (names.filterMap fun name => s.get svcGvr c ns name)
      ∧ ∀ name, name ∈ names ↔ ∃ o, s.get svcGvr c ns name = some o ∧ SelectsLabels o labels := by
  have hnil : searchParts [] = [] := by decide
  obtain ⟨found, f1, f2, f3, f4⟩ := cluster_found hconf hrun hapi hst hg (search := []) hns hc hl (fun _ => True)
    (by simp [hnil]) (by simp [hnil]) (by simp [hnil]) (by simp [hnil])
  classical
  let f : Ident × Obj × SObj → Bool := fun e => decide (SelectsLabels e.2.2.obj labels)
  have hf : ∀ e, f e = true ↔ SelectsLabels e.2.2.obj labels := fun e => decide_eq_true_iff
  have hget : ∀ e ∈ found, s.get svcGvr c ns e.1.name = some e.2.2.obj :=
    fun e he => ((f2 _ _).mp ⟨e, he, rfl, rfl⟩).1
  refine ⟨(found.filter f).map fun e => e.1.name, List.Pairwise.sublist ((List.filter_sublist).map fun e : Ident × Obj × SObj => e.1.name) f1, ?_, ?_⟩
  · unfold servicesFor
    rw [f4]
    simp only [Bool.false_eq_true, if_false]
    rw [pickServices_spec f hf found f3]
    simp only [D2S.services.injEq]
    rw [List.filterMap_map]
    exact map_get (fun e he => hget e (List.mem_filter.mp he).1)
  · intro name
    simp only [List.mem_map, List.mem_filter, hf]
    constructor
    · rintro ⟨e, ⟨he, hsel⟩, rfl⟩; exact ⟨_, hget e he, hsel⟩
    · rintro ⟨o, hg, hsel⟩
      obtain ⟨e, he, hn, ho⟩ := (f2 name o).mpr ⟨hg, trivial⟩
      exact ⟨e, ⟨he, ho ▸ hsel⟩, hn⟩

theorem selectsLabels_congr {svc : Obj} {a b : List (Str × Str)} (hab : ∀ k, lookup k a = lookup k b) :
    SelectsLabels svc a ↔ SelectsLabels svc b := by
  unfold SelectsLabels
  simp only [hab]

/-- What the search for the pods finds. -/
theorem pods_found (hconf : ConfOK conf) (hrun : (newStore conf).run eval h = some s) (hapi : ApiObjects h)
    (hst : Serves isPrint alg pf s st) (hg : s.isStoreGVR podGvr = true) {ns c dep : Str} (hns : ns ≠ [])
    (hc : c ≠ []) (hl : validLabelValue c = true) (hdep : dep ≠ []) (hdt : NameText dep)
    (hnames : ∀ name o, s.get podGvr c ns name = some o → NameText name) :
    ∃ (names : List Str) (total : Nat), InOrder names
      ∧ st.query podGvr ⟨ns, { search := clusterSearch (lit "name=" ++ dep) c }⟩
        = some { error := false, items := names.filterMap fun name => s.get podGvr c ns name, total := total }
      ∧ ∀ name, name ∈ names ↔ (∃ o, s.get podGvr c ns name = some o) ∧ dep <:+: name := by
  have hb : ∀ {t : Str}, NameText t → ∀ b ∈ t, nameByte b = true := by
    intro t ht b hb
    rcases ht b hb with h1 | h1 | h1 <;> simp [nameByte, h1]
  obtain ⟨r, z, hrz⟩ : ∃ r z, dep = r ++ [z] := by
    rcases List.eq_nil_or_concat dep with h0 | ⟨r, z, h0⟩
    · exact absurd h0 hdep
    · exact ⟨r, z, by rw [h0, List.concat_eq_append]⟩
  have hz := nameByte_ok z (hb hdt z (by rw [hrz]; simp))
  have hparts : searchParts (lit "name=" ++ dep) = [lit "name=" ++ dep] := by
    refine searchParts_single (by simp [lit]) ?_
    rw [List.mem_append, not_or]
    exact ⟨by decide, fun hm => (nameByte_ok _ (hb hdt _ hm)).2.2.2.2.1 rfl⟩
  have htrim : trimSpace (lit "name=" ++ dep) = lit "name" ++ lit "=" ++ dep := by
    rw [show lit "name" ++ lit "=" ++ dep = lit "name=" ++ dep from rfl]
    exact trimSpace_visible (a := 110) (z := z) (r := lit "ame=" ++ dep) (r' := lit "name=" ++ r) (by decide) hz.2.2.2.2.2.2.1
      rfl (by rw [hrz]; simp)
  have hadv : ∀ t, ¬ advPrefix <+: lit "name=" ++ t := by
    rintro t ⟨u, hu⟩
    have := congrArg (fun l : Str => l.head?) hu
    simp [advPrefix, lit] at this
  have hbang : ∀ r, dep ≠ lit "!" ++ r := by
    rintro r rfl
    exact (nameByte_ok _ (hb hdt 33 (by simp [lit]))).2.2.2.2.2.1 rfl
  obtain ⟨found, f1, f2, f3, f4⟩ := cluster_found hconf hrun hapi hst hg (search := lit "name=" ++ dep) hns hc hl (fun name => dep <:+: name)
    (by rw [hparts]; simpa using hadv dep)
    (by rw [hparts]; simp [lit])
    (by
      rw [hparts]
      intro m hm p hp hn
      rw [List.mem_singleton] at hp
      subst hp
      exact hm ((C11_key_value isPrint m _ (lit "name") dep htrim (by decide) (by decide) (hadv dep) hbang).1.mp hn))
    (by
      rw [hparts]
      intro name o m hget hm
      simp only [List.mem_singleton, forall_eq]
      rw [C15_substring_partial isPrint m _ (lit "name") dep name htrim (by decide) (by decide) (hadv dep) hbang hm
        (quoteBody_name (hb (hnames name o hget))) (fun hq => (nameByte_ok _ (hb hdt _ hq)).2.2.1 rfl)]
      exact ⟨fun ⟨a, b, hab⟩ => ⟨a, b, hab.symm⟩, fun ⟨a, b, hab⟩ => ⟨a, b, hab.symm⟩⟩)
  refine ⟨found.map fun e => e.1.name, found.length, f1, ?_, ?_⟩
  · rw [f4, map_get (fun e he => ((f2 _ _).mp ⟨e, he, rfl, rfl⟩).1), List.filterMap_map]
    rfl
  · intro name
    simp only [List.mem_map]
    constructor
    · rintro ⟨e, he, rfl⟩
      obtain ⟨a, b⟩ := (f2 _ _).mp ⟨e, he, rfl, rfl⟩
      exact ⟨⟨_, a⟩, b⟩
    · rintro ⟨⟨o, ho⟩, hn⟩
      obtain ⟨e, he, h1, _⟩ := (f2 name o).mpr ⟨ho, hn⟩
      exact ⟨e, he, h1⟩

/-- The labels that are used, for pods in the order of their names: those of the first one that has a deployment. -/
theorem podLabels_names (get : Str → Option Obj) : ∀ names : List Str, InOrder names → (∀ n ∈ names, get n ≠ none) →
    (∃ name o d, name ∈ names ∧ get name = some o ∧ d ≠ [] ∧ OwnedBy o d
        ∧ (∀ name' o' d', name' ∈ names → get name' = some o' → d' ≠ [] → OwnedBy o' d' →
          name' = name ∨ strLt name name' = true)
        ∧ podLabels (names.filterMap get) = labelsOf o)
      ∨ (podLabels (names.filterMap get) = [] ∧ ∀ name o d, name ∈ names → get name = some o → d ≠ [] → ¬ OwnedBy o d)
  | [], _, _ => Or.inr ⟨rfl, by simp⟩
  | n :: names, hord, hget => by
    obtain ⟨o, ho⟩ := Option.ne_none_iff_exists'.mp (hget n (by simp))
    obtain ⟨hlt, hord'⟩ := List.pairwise_cons.mp hord
    have ih := podLabels_names get names hord' (fun x hx => hget x (by simp [hx]))
    rw [List.filterMap_cons_some ho]
    by_cases hown : ∃ d, d ≠ [] ∧ OwnedBy o d
    · obtain ⟨d, hd, hod⟩ := hown
      refine Or.inl ⟨n, o, d, by simp, ho, hd, hod, ?_, ?_⟩
      · intro name' o' d' hm _ _ _
        rcases List.mem_cons.mp hm with rfl | hm
        · exact Or.inl rfl
        · exact Or.inr (hlt _ hm)
      · obtain ⟨m, hash, rest, hm, _⟩ := id hod
        have := (owned_iff hm).mpr ⟨d, hd, hod⟩
        simp only [podLabels, hm, ne_eq, this, not_false_eq_true, if_true, labelsOf, Option.map_some, Option.getD_some]
    · have hskip : podLabels (o :: names.filterMap get) = podLabels (names.filterMap get) := by
        rw [podLabels]
        cases hom : o.om with
        | none => rfl
        | some m =>
          simp only
          rw [if_neg]
          intro hne
          exact hown ((owned_iff hom).mp hne)
      rw [hskip]
      rcases ih with ⟨name, o', d, h1, h2, h3, h4, h5, h6⟩ | ⟨h1, h2⟩
      · refine Or.inl ⟨name, o', d, by simp [h1], h2, h3, h4, ?_, h6⟩
        intro name' o'' d' hm hg hd' ho''
        rcases List.mem_cons.mp hm with rfl | hm
        · rw [ho, Option.some.injEq] at hg
          subst hg
          exact absurd ⟨d', hd', ho''⟩ hown
        · exact h5 name' o'' d' hm hg hd' ho''
      · refine Or.inr ⟨h1, ?_⟩
        intro name' o'' d' hm hg hd' ho''
        rcases List.mem_cons.mp hm with rfl | hm
        · rw [ho, Option.some.injEq] at hg
          subst hg
          exact hown ⟨d', hd', ho''⟩
        · exact h2 name' o'' d' hm hg hd' ho''

/-- The pod `name` is the one whose labels are used for the deployment `dep`: of the pods in the namespace and cluster whose names contain
`dep` and that belong to some deployment it has the least name. -/
def Spec.FirstPod (s : Store) (c ns dep name : Str) (o : Obj) : Prop :=
  s.get podGvr c ns name = some o ∧ dep <:+: name ∧ (∃ d, d ≠ [] ∧ OwnedBy o d)
    ∧ ∀ name' o' d', s.get podGvr c ns name' = some o' → dep <:+: name' → d' ≠ [] → OwnedBy o' d' →
      name' = name ∨ strLt name name' = true

/-- **C56**, exactly, for cached types and cluster names that are label values: the services are those whose selector is satisfied by the labels of the pod with
the least name among the pods of the namespace and cluster whose names contain the deployment's name and that belong
to some deployment, in the order of their names and each once; without such a pod the services with an empty selector. Missing for the full claim: the pod need not belong to the
deployment asked for (`C56_false_other`), cluster names that are no label values (`C56_false_cluster`), types that are not in the
cache (`C56_false_type`). -/
theorem C56_first_partial (hconf : ConfOK conf) (hrun : (newStore conf).run eval h = some s) (hapi : ApiObjects h)
    (hst : Serves isPrint alg pf s st) (hpods : s.isStoreGVR podGvr = true) (hsvcs : s.isStoreGVR svcGvr = true)
    {cluster ns dep c : Str} (hcl : c = if cluster = [] then env.defaultCluster else cluster) (hns : ns ≠ [])
    (hc : c ≠ []) (hl : validLabelValue c = true) (hdep : dep ≠ []) (hdt : NameText dep)
    (hnames : ∀ name o, s.get podGvr c ns name = some o → NameText name) :
    ∃ names : List Str, InOrder names
      ∧ deploy2service env st cluster ns dep = .services (names.filterMap fun name => s.get svcGvr c ns name)
      ∧ (∀ name o, FirstPod s c ns dep name o →
          ∀ n, n ∈ names ↔ ∃ svc, s.get svcGvr c ns n = some svc ∧ SelectsLabels svc (labelsOf o))
      ∧ ((∀ name o d, s.get podGvr c ns name = some o → dep <:+: name → d ≠ [] → ¬ OwnedBy o d) →
          ∀ n, n ∈ names ↔ ∃ svc, s.get svcGvr c ns n = some svc ∧ svc.selector = some []) := by
  obtain ⟨pods, total, hord, hq, hmem⟩ := pods_found hconf hrun hapi hst hpods hns hc hl hdep hdt hnames
  obtain ⟨names, n1, n2, n3⟩ := servicesFor_spec hconf hrun hapi hst hsvcs hns hc hl
    (podLabels (pods.filterMap fun name => s.get podGvr c ns name))
  have hpl := podLabels_names (fun name => s.get podGvr c ns name) pods hord (fun n hn => by
    obtain ⟨⟨o, ho⟩, _⟩ := (hmem n).mp hn
    simp [ho])
  refine ⟨names, n1, ?_, ?_, ?_⟩
  · unfold deploy2service
    simp only
    rw [← hcl, hq]
    exact n2
  · rintro name o ⟨hg, hi, ⟨d, hd, hown⟩, hleast⟩ n
    have hin : name ∈ pods := (hmem name).mpr ⟨⟨o, hg⟩, hi⟩
    rw [n3]
    rcases hpl with ⟨name', o', d', h1, h2, h3, h4, h5, h6⟩ | ⟨_, h2⟩
    · have he : name' = name := by
        have hi' := ((hmem name').mp h1).2
        rcases hleast name' o' d' h2 hi' h3 h4 with he | hlt
        · exact he
        · rcases h5 name o d hin hg hd hown with he | hlt'
          · exact he.symm
          · exact absurd (strLt_trans hlt hlt') (by simp [strLt_irrefl])
      subst he
      rw [hg, Option.some.injEq] at h2
      subst h2
      rw [h6]
    · exact absurd hown (h2 name o d hin hg hd)
  · intro hnone n
    rw [n3]
    rcases hpl with ⟨name', o', d', h1, h2, h3, h4, _⟩ | ⟨hnil, _⟩
    · exact absurd h4 (hnone name' o' d' h2 ((hmem name').mp h1).2 h3)
    · rw [hnil]
      have : ∀ o : Obj, SelectsLabels o [] ↔ o.selector = some [] := by
        intro o
        unfold SelectsLabels
        constructor
        · rintro ⟨sel, hs, hall⟩
          cases sel with
          | nil => exact hs
          | cons e sel =>
            have := hall e.1 e.2 (by simp)
            simp [lookup] at this
        · intro hs; exact ⟨[], hs, by simp⟩
      simp only [this]

/-- There is a least name among names of a list. -/
theorem least_name {P : Str → Prop} : ∀ {l : List Str}, InOrder l → (∃ n ∈ l, P n) →
    ∃ n ∈ l, P n ∧ ∀ n' ∈ l, P n' → n' = n ∨ strLt n n' = true
  | [], _, hex => by simp at hex
  | a :: l, hord, hex => by
    obtain ⟨h1, h2⟩ := List.pairwise_cons.mp hord
    by_cases ha : P a
    · refine ⟨a, by simp, ha, ?_⟩
      intro n' hn' _
      rcases List.mem_cons.mp hn' with rfl | hn'
      · exact Or.inl rfl
      · exact Or.inr (h1 _ hn')
    · obtain ⟨n, hn, hP⟩ := hex
      have hnl : n ∈ l := by
        rcases List.mem_cons.mp hn with rfl | hn
        · exact absurd hP ha
        · exact hn
      obtain ⟨n, k1, k2, k3⟩ := least_name h2 ⟨n, hnl, hP⟩
      refine ⟨n, by simp [k1], k2, ?_⟩
      intro n' hn' hP'
      rcases List.mem_cons.mp hn' with rfl | hn'
      · exact absurd hP' ha
      · exact k3 n' hn' hP'

/-- There is such a pod as soon as some pod whose name contains the deployment's name belongs to a deployment. -/
theorem C56_first_exists (hconf : ConfOK conf) (hrun : (newStore conf).run eval h = some s) (hapi : ApiObjects h)
    (hst : Serves isPrint alg pf s st) (hpods : s.isStoreGVR podGvr = true)
    {ns dep c : Str} (hns : ns ≠ []) (hc : c ≠ []) (hl : validLabelValue c = true) (hdep : dep ≠ []) (hdt : NameText dep)
    (hnames : ∀ name o, s.get podGvr c ns name = some o → NameText name)
    {name d : Str} {o : Obj} (hg : s.get podGvr c ns name = some o) (hi : dep <:+: name) (hd : d ≠ []) (hown : OwnedBy o d) :
    ∃ name o, FirstPod s c ns dep name o := by
  obtain ⟨pods, total, hord, hq, hmem⟩ := pods_found hconf hrun hapi hst hpods hns hc hl hdep hdt hnames
  obtain ⟨n, k1, ⟨o', d', k2, k3, k4⟩, k5⟩ := least_name
    (P := fun n => ∃ o d, s.get podGvr c ns n = some o ∧ d ≠ [] ∧ OwnedBy o d) hord
    ⟨name, (hmem name).mpr ⟨⟨o, hg⟩, hi⟩, o, d, hg, hd, hown⟩
  refine ⟨n, o', k2, ((hmem n).mp k1).2, ⟨d', k3, k4⟩, ?_⟩
  intro name' o'' d'' g1 g2 g3 g4
  exact k5 name' ((hmem name').mpr ⟨⟨_, g1⟩, g2⟩) ⟨o'', d'', g1, g3, g4⟩

/-- **C56**: if the pods of the namespace and cluster whose names contain the deployment's name and that belong to some deployment
all have the labels `labels`, and there is such a pod, then exactly the services of that namespace and cluster whose
selector these labels satisfy are returned, each once. Missing for the full claim: pods of other deployments with
such names (`C56_false_other`), cluster names that are no label values (`C56_false_cluster`), types that are not in the
cache (`C56_false_type`). -/
theorem C56_services_partial (hconf : ConfOK conf) (hrun : (newStore conf).run eval h = some s) (hapi : ApiObjects h)
    (hst : Serves isPrint alg pf s st) (hpods : s.isStoreGVR podGvr = true) (hsvcs : s.isStoreGVR svcGvr = true)
    {cluster ns dep c : Str} (hcl : c = if cluster = [] then env.defaultCluster else cluster) (hns : ns ≠ [])
    (hc : c ≠ []) (hl : validLabelValue c = true) (hdep : dep ≠ []) (hdt : NameText dep)
    (hnames : ∀ name o, s.get podGvr c ns name = some o → NameText name) {labels : List (Str × Str)}
    (hone : ∃ name o, s.get podGvr c ns name = some o ∧ dep <:+: name ∧ OwnedBy o dep)
    (hlab : ∀ name o d, s.get podGvr c ns name = some o → dep <:+: name → d ≠ [] → OwnedBy o d →
      ∀ k, lookup k (labelsOf o) = lookup k labels) :
    ∃ names : List Str, InOrder names
      ∧ deploy2service env st cluster ns dep = .services (names.filterMap fun name => s.get svcGvr c ns name)
      ∧ ∀ name, name ∈ names ↔ ∃ o, s.get svcGvr c ns name = some o ∧ SelectsLabels o labels := by
  obtain ⟨pn, po, hg, hi, hown⟩ := hone
  obtain ⟨n, o, hf⟩ := C56_first_exists hconf hrun hapi hst hpods hns hc hl hdep hdt hnames hg hi hdep hown
  obtain ⟨names, n1, n2, n3, _⟩ :=
    C56_first_partial (env := env) hconf hrun hapi hst hpods hsvcs hcl hns hc hl hdep hdt hnames
  refine ⟨names, n1, n2, ?_⟩
  intro name
  obtain ⟨f1, f2, ⟨d, f3, f4⟩, _⟩ := id hf
  rw [n3 n o hf]
  simp only [selectsLabels_congr (hlab n o d f1 f2 f3 f4)]

/-- **C56**, a deployment without pods: only services with an empty selector are returned. -/
theorem C56_no_pods_partial (hconf : ConfOK conf) (hrun : (newStore conf).run eval h = some s) (hapi : ApiObjects h)
    (hst : Serves isPrint alg pf s st) (hpods : s.isStoreGVR podGvr = true) (hsvcs : s.isStoreGVR svcGvr = true)
    {cluster ns dep c : Str} (hcl : c = if cluster = [] then env.defaultCluster else cluster) (hns : ns ≠ [])
    (hc : c ≠ []) (hl : validLabelValue c = true) (hdep : dep ≠ []) (hdt : NameText dep)
    (hnames : ∀ name o, s.get podGvr c ns name = some o → NameText name)
    (hnone : ∀ name o d, s.get podGvr c ns name = some o → dep <:+: name → d ≠ [] → ¬ OwnedBy o d) :
    ∃ names : List Str, InOrder names
      ∧ deploy2service env st cluster ns dep = .services (names.filterMap fun name => s.get svcGvr c ns name)
      ∧ ∀ name, name ∈ names ↔ ∃ o, s.get svcGvr c ns name = some o ∧ o.selector = some [] := by
  obtain ⟨names, n1, n2, _, n4⟩ :=
    C56_first_partial (env := env) hconf hrun hapi hst hpods hsvcs hcl hns hc hl hdep hdt hnames
  exact ⟨names, n1, n2, n4 hnone⟩

/-! ### Examples -/

/-- A pod of the ReplicaSet `<dep>-<hash>`. -/
def exDepPod (name rs app : String) : Obj :=
  { om := some { name := lit name, ns := lit "prod", labels := [(lit "app", lit app)], owners := [(lit "ReplicaSet", lit rs)] } }

/-- A service that selects `app`. -/
def exSvc (name app : String) : Obj :=
  { om := some { name := lit name, ns := lit "prod" }, selector := some [(lit "app", lit app)] }

def exD2sConf : List (GVR × List (Str × Str)) := [(podGvr, []), (svcGvr, [])]

/-- A deployment `web` with a pod and a service in `c1`, other services, and a service `web` in `c2`. -/
def exD2sHist : List Notice :=
  [.added podGvr (lit "c1") (exDepPod "web-7f-x" "web-7f" "web"), .added podGvr (lit "c1") (exDepPod "db-1-x" "db-1" "db"),
   .added svcGvr (lit "c1") (exSvc "front" "web"), .added svcGvr (lit "c1") (exSvc "back" "db"),
   .added svcGvr (lit "c2") (exSvc "front" "web")]

def exStoreOf (conf : List (GVR × List (Str × Str))) (h : List Notice) : Store :=
  ((newStore conf).run exEval h).getD (newStore conf)

def exServe (s : Store) : StoreI :=
  ⟨s.isStoreGVR, s.get, s.query (fun _ => true) insertionSort (fun _ => none)⟩

/-- The hypotheses of C56 hold and the service of the deployment is found. -/
example : ((newStore exD2sConf).run exEval exD2sHist).isSome = true
    ∧ (exStoreOf exD2sConf exD2sHist).isStoreGVR podGvr = true ∧ (exStoreOf exD2sConf exD2sHist).isStoreGVR svcGvr = true
    ∧ validLabelValue (lit "c1") = true ∧ lit "web" <:+: lit "web-7f-x" ∧ lit "web-7f" = lit "web" ++ lit "-" ++ lit "7f"
    ∧ (((exStoreOf exD2sConf exD2sHist).get podGvr (lit "c1") (lit "prod") (lit "web-7f-x")).bind Obj.om).map ObjMeta.owners
      = some [(lit "ReplicaSet", lit "web-7f")]
    ∧ deploy2service exEnv (exServe (exStoreOf exD2sConf exD2sHist)) [] (lit "prod") (lit "web")
      = .services (((exStoreOf exD2sConf exD2sHist).get svcGvr (lit "c1") (lit "prod") (lit "front")).toList) :=
  ⟨by decide +kernel, by decide +kernel, by decide +kernel, by decide +kernel, ⟨[], lit "-7f-x", rfl⟩, rfl, by decide +kernel,
    by decide +kernel⟩

/-- The names of the pods of `prod` in `c1`. -/
theorem exD2s_names {name : Str} {o : Obj} (hg : (exStoreOf exD2sConf exD2sHist).get podGvr (lit "c1") (lit "prod") name = some o) :
    name = lit "web-7f-x" ∨ name = lit "db-1-x" := by
  have hall : ∀ l ∈ ((lookup podGvr (exStoreOf exD2sConf exD2sHist).data).bind fun cm => (lookup (lit "c1") cm).bind fun nm =>
      lookup (lit "prod") nm), ∀ e ∈ l, e.1 = lit "web-7f-x" ∨ e.1 = lit "db-1-x" := by decide +kernel
  unfold Store.get at hg
  simp only [Option.bind_eq_some_iff, Option.map_eq_some_iff] at hg
  obtain ⟨cm, h1, nm, h2, leaf, h3, so, h4, _⟩ := hg
  exact hall leaf (by simp [h1, h2, h3]) _ (mem_of_lookup h4)

/-- All hypotheses about names hold in the example, and the pod that is used for `web` is `web-7f-x`. -/
example : (∀ name o, (exStoreOf exD2sConf exD2sHist).get podGvr (lit "c1") (lit "prod") name = some o → NameText name)
    ∧ NameText (lit "web")
    ∧ ∃ o, FirstPod (exStoreOf exD2sConf exD2sHist) (lit "c1") (lit "prod") (lit "web") (lit "web-7f-x") o := by
  have h1 : NameText (lit "web-7f-x") ∧ NameText (lit "db-1-x") ∧ NameText (lit "web") := by
    unfold NameText; decide +kernel
  refine ⟨?_, h1.2.2, ?_⟩
  · intro name o hg
    rcases exD2s_names hg with rfl | rfl
    · exact h1.1
    · exact h1.2.1
  · have hx : (((exStoreOf exD2sConf exD2sHist).get podGvr (lit "c1") (lit "prod") (lit "web-7f-x")).bind Obj.om).map ObjMeta.owners
        = some [(lit "ReplicaSet", lit "web" ++ lit "-" ++ lit "7f")] := by decide +kernel
    cases hg : (exStoreOf exD2sConf exD2sHist).get podGvr (lit "c1") (lit "prod") (lit "web-7f-x") with
    | none => rw [hg] at hx; simp at hx
    | some o =>
      rw [hg] at hx
      simp only [Option.bind_some, Option.map_eq_some_iff] at hx
      obtain ⟨m, hm, ho⟩ := hx
      refine ⟨o, hg, ⟨[], lit "-7f-x", rfl⟩, ⟨lit "web", by decide, m, lit "7f", [], hm, ho, by decide⟩, ?_⟩
      intro name' o' d' hg' hi _ _
      rcases exD2s_names hg' with rfl | rfl
      · exact Or.inl rfl
      · exact absurd hi (by decide +kernel)

/-- **C56 is false** when another deployment's pods have names that contain the deployment's name: here the pods of
`admin-web` come first, and the services of `admin-web` are returned for `web`. -/
theorem C56_false_other :
    let hist := .added podGvr (lit "c1") (exDepPod "admin-web-5c-y" "admin-web-5c" "admin") ::
      .added svcGvr (lit "c1") (exSvc "admin-svc" "admin") :: exD2sHist
    let s := exStoreOf exD2sConf hist
    ((newStore exD2sConf).run exEval hist).isSome = true
    ∧ deploy2service exEnv (exServe s) (lit "c1") (lit "prod") (lit "web")
      = .services ((s.get svcGvr (lit "c1") (lit "prod") (lit "admin-svc")).toList)
    ∧ (s.get svcGvr (lit "c1") (lit "prod") (lit "admin-svc")).isSome = true := by
  decide +kernel

/-- **C56 is false** for a cluster name that is no label value: the restriction fails unnoticed and services of
every cluster are returned. -/
theorem C56_false_cluster :
    let s := exStoreOf exD2sConf exD2sHist
    deploy2service exEnv (exServe s) (lit "admin@prod") (lit "prod") (lit "web")
      = .services ((s.get svcGvr (lit "c1") (lit "prod") (lit "front")).toList
        ++ (s.get svcGvr (lit "c2") (lit "prod") (lit "front")).toList)
    ∧ (s.get svcGvr (lit "c1") (lit "prod") (lit "front")).isSome = true
    ∧ (s.get svcGvr (lit "c2") (lit "prod") (lit "front")).isSome = true := by
  decide +kernel

/-- **C56 is false** when services are not kept in the cache: the handler crashes. -/
theorem C56_false_type :
    deploy2service exEnv (exServe (exStoreOf [(podGvr, [])] [])) (lit "c1") (lit "prod") (lit "web") = .crash := by
  decide +kernel

end Ckube

import Verif.Lemmas.Table
import Verif.Props.Marks
import Verif.Props.ProxyList

/-! # C49: table output -/

namespace Ckube
open Spec

variable {isPrint : Nat → Bool} {eval : Str → Obj → Str} {alg : SliceSort} {pf : Str → Option GoFloat}
  {conf : List (GVR × List (Str × Str))} {h : List Notice} {s : Store}

/-- The index that the annotation of a cached object holds. -/
def annoIndex (eval : Str → Obj → Str) (conf : List (Str × Str)) (c : Str) (m : ObjMeta) (o : Obj) : List (Str × Str) :=
  insertKV (lit "is_deleted") (if m.deleted then lit "true" else lit "false")
    (insertKV (lit "cluster") c (confIndex eval conf o))

theorem annoIndex_keys {cf : List (Str × Str)} {c : Str} {m : ObjMeta} {o : Obj} (k : Str) :
    k ∈ (annoIndex eval cf c m o).map Prod.fst ↔ k = lit "is_deleted" ∨ k = lit "cluster" ∨ k ∈ cf.map Prod.fst := by
  unfold annoIndex
  rw [mem_map_fst_insertKV, mem_map_fst_insertKV]
  have : (confIndex eval cf o).map Prod.fst = cf.map Prod.fst := by simp [confIndex]
  rw [this]

theorem lookup_annoIndex {cf : List (Str × Str)} {c : Str} {m : ObjMeta} {o : Obj} (hm : o.om = some m) {k : Str}
    (hk : k = lit "namespace" ∨ k = lit "name" → (lookup k cf).map (indexValue eval o) = indexValueOf eval cf c o k) :
    lookup k (annoIndex eval cf c m o) = indexValueOf eval cf c o k := by
  unfold annoIndex
  rw [lookup_insertKV, lookup_insertKV, lookup_confIndex]
  simp only [eq_comm (a := lit "is_deleted"), eq_comm (a := lit "cluster")]
  by_cases hkn : k = lit "namespace" ∨ k = lit "name"
  · rw [← hk hkn, if_neg, if_neg]
    · rcases hkn with rfl | rfl <;> decide
    · rcases hkn with rfl | rfl <;> decide
  · simp only [not_or] at hkn
    unfold indexValueOf
    simp only [hm, if_neg hkn.1, if_neg hkn.2]
    by_cases h1 : k = lit "cluster"
    · rw [if_pos h1, if_neg (by rw [h1]; decide), if_pos h1]
    · by_cases h2 : k = lit "is_deleted"
      · rw [if_pos h2, if_neg h1, if_pos h2]
      · rw [if_neg h2, if_neg h1, if_neg h1, if_neg h2]

/-- What the table shows of a cached object. -/
theorem printed_cached (hconf : ConfOK conf) (hrun : (newStore conf).run eval h = some s) (hapi : ApiObjects h)
    {id : Ident} {o₀ o : Obj} (ho₀ : Latest eval (confAt conf) h id o₀) (hget : s.get id.gvr id.cluster id.ns id.name = some o)
    (hcl : validUtf8 id.cluster = true)
    (hval : ∀ e ∈ confAt conf id.gvr, validUtf8 e.1 = true ∧ validUtf8 (indexValue eval o₀ e.2) = true) :
    ∃ m, o₀.om = some m ∧ IsMap (annoIndex eval (confAt conf id.gvr) id.cluster m o₀)
      ∧ Printed o (sortBy (fun a b => strLe a.1 b.1) (annoIndex eval (confAt conf id.gvr) id.cluster m o₀)) := by
  obtain ⟨_, hc, hl⟩ := run_look h hrun
  have hcf : s.confOf = confAt conf := by unfold Store.confOf confAt; rw [hc]
  rw [hcf] at hl
  obtain ⟨m, hm⟩ := latest_api hapi ho₀
  have hmap := confAt_isMap hconf id.gvr
  have hlk := (hl id).1 o₀ ho₀
  have hidx : IsMap (annoIndex eval (confAt conf id.gvr) id.cluster m o₀) :=
    isMap_insertKV (isMap_insertKV (isMap_map_snd (indexValue eval o₀) hmap))
  have hutf : ∀ e ∈ annoIndex eval (confAt conf id.gvr) id.cluster m o₀, validUtf8 e.1 = true ∧ validUtf8 e.2 = true := by
    intro e he
    unfold annoIndex at he
    rcases mem_insertKV he with rfl | he
    · refine ⟨show validUtf8 (lit "is_deleted") = true by decide +kernel, ?_⟩
      show validUtf8 (if m.deleted then lit "true" else lit "false") = true
      split <;> decide +kernel
    rcases mem_insertKV he with rfl | he
    · exact ⟨show validUtf8 (lit "cluster") = true by decide +kernel, hcl⟩
    obtain ⟨x, hx, rfl⟩ := List.mem_map.mp he
    exact hval x hx
  rw [get_look, hlk] at hget
  simp only [Option.map_some, Option.some.injEq] at hget
  refine ⟨m, hm, hidx, ?_⟩
  subst hget
  refine ⟨_, encodeMap (annoIndex eval (confAt conf id.gvr) id.cluster m o₀), by unfold build; simp only [hm]; rfl, ?_, ?_,
    decodeStrMap_encodeMap hidx hutf⟩
  · rw [lookup_insertKV]
    exact if_pos rfl
  · rw [encodeMap_eq]; simp

/-- **C49**: the table of cached objects of one type has one row per object and one cell per column. There is a column for every
configured index and for `cluster`, `is_deleted` and `name`; the cell under a column is the object's index value of that name. Missing
for the full claim: values that are not valid UTF-8, and the columns `namespace` and `name` when the configuration does not extract
the object's own (`C49_false_name`). `es` lists identity, received and cached object. -/
theorem C49_table_partial (hconf : ConfOK conf) (hrun : (newStore conf).run eval h = some s) (hapi : ApiObjects h)
    {tord : Nat → List (Str × Str) → List (Str × Str)} (htord : ∀ i m, (tord i m).Perm m) (g : GVR)
    (es : List (Ident × Obj × Obj)) (hne : es ≠ [])
    (he : ∀ e ∈ es, e.1.gvr = g ∧ Latest eval (confAt conf) h e.1 e.2.1 ∧ s.get g e.1.cluster e.1.ns e.1.name = some e.2.2
      ∧ validUtf8 e.1.cluster = true
      ∧ ∀ c ∈ confAt conf g, validUtf8 c.1 = true ∧ validUtf8 (indexValue eval e.2.1 c.2) = true) :
    ∃ cols rows, serverPrint tord (es.map fun e => e.2.2) = .table cols rows ∧ (cols.map Column.name).Nodup
      ∧ (∀ k, k ∈ cols.map Column.name ↔ k ∈ [lit "cluster", lit "name", lit "is_deleted"] ∨ k ∈ (confAt conf g).map Prod.fst)
      ∧ rows.length = es.length
      ∧ ∀ (j : Nat) (e : Ident × Obj × Obj) (row : List (Option Str)), es[j]? = some e → rows[j]? = some row →
        row.length = cols.length ∧ ∀ (n : Nat) (col : Column), cols[n]? = some col →
          (col.name = lit "namespace" ∨ col.name = lit "name" →
            (lookup col.name (confAt conf g)).map (indexValue eval e.2.1)
              = indexValueOf eval (confAt conf g) e.1.cluster e.2.1 col.name) →
          row[n]? = some (indexValueOf eval (confAt conf g) e.1.cluster e.2.1 col.name) := by
  let f : Ident × Obj × Obj → List (Str × Str) := fun e => match e.2.1.om with
    | some m => sortBy (fun a b => strLe a.1 b.1) (annoIndex eval (confAt conf g) e.1.cluster m e.2.1)
    | none => []
  have hf : ∀ e ∈ es, Printed e.2.2 (f e) ∧ IsMap (f e)
      ∧ (∀ k, k ∈ (f e).map Prod.fst ↔ k = lit "is_deleted" ∨ k = lit "cluster" ∨ k ∈ (confAt conf g).map Prod.fst)
      ∧ ∀ k, (k = lit "namespace" ∨ k = lit "name" →
          (lookup k (confAt conf g)).map (indexValue eval e.2.1) = indexValueOf eval (confAt conf g) e.1.cluster e.2.1 k) →
          lookup k (f e) = indexValueOf eval (confAt conf g) e.1.cluster e.2.1 k := by
    intro e hm
    obtain ⟨hg, h1, h2, h3, h4⟩ := he e hm
    rw [← hg] at h2 h4
    obtain ⟨m, hom, hmap, hp⟩ := printed_cached hconf hrun hapi h1 h2 h3 h4
    rw [hg] at hmap hp
    have hfe : f e = sortBy (fun a b => strLe a.1 b.1) (annoIndex eval (confAt conf g) e.1.cluster m e.2.1) := by
      show (match e.2.1.om with | some m => _ | none => _) = _
      rw [hom]
    have hperm := sortBy_perm (fun a b : Str × Str => strLe a.1 b.1) (annoIndex eval (confAt conf g) e.1.cluster m e.2.1)
    rw [hfe]
    refine ⟨hp, (hperm.map Prod.fst).nodup_iff.mpr hmap, ?_, ?_⟩
    · intro k
      rw [(hperm.map Prod.fst).mem_iff, annoIndex_keys]
    · intro k hk
      rw [lookup_sortBy hmap]
      exact lookup_annoIndex hom hk
  obtain ⟨e₀, es', rfl⟩ := List.exists_cons_of_ne_nil hne
  have key := serverPrint_eq htord (e₀.2.2, f e₀) (es'.map fun e => (e.2.2, f e)) (by
    intro x hx
    rw [show (e₀.2.2, f e₀) :: es'.map (fun e => (e.2.2, f e)) = (e₀ :: es').map fun e => (e.2.2, f e) from rfl] at hx
    obtain ⟨e, hm, rfl⟩ := List.mem_map.mp hx
    obtain ⟨h1, h2, h3, _⟩ := hf e hm
    refine ⟨h1, h2, ?_⟩
    intro k hk
    rw [(hf e₀ (by simp)).2.2.1]
    exact (h3 k).mp hk)
  rw [show (e₀.2.2, f e₀) :: es'.map (fun e => (e.2.2, f e)) = (e₀ :: es').map fun e => (e.2.2, f e) from rfl,
    List.map_map, List.map_map] at key
  have hnames : ((tableCols (f e₀)).map fun c => (⟨c, colPriority c⟩ : Column)).map Column.name = tableCols (f e₀) := by
    simp [List.map_map, Function.comp_def]
  refine ⟨_, _, key, ?_, ?_, by simp, ?_⟩
  · rw [hnames]; exact tableCols_nodup (hf e₀ (by simp)).2.1
  · intro k
    rw [hnames, tableCols_mem, (hf e₀ (by simp)).2.2.1]
    simp only [List.mem_cons, List.not_mem_nil, or_false]
    tauto
  · intro j e row hj hrow
    have hm : e ∈ e₀ :: es' := List.mem_of_getElem? hj
    rw [List.getElem?_map, hj] at hrow
    simp only [Option.map_some, Option.some.injEq, Function.comp_apply] at hrow
    subst hrow
    refine ⟨by simp, ?_⟩
    intro n col hcol hk
    rw [List.getElem?_map, Option.map_eq_some_iff] at hcol
    obtain ⟨c, hc, rfl⟩ := hcol
    rw [List.getElem?_map, hc, Option.map_some, (hf e hm).2.2.2 c hk]

/-- Pods with configured `name` and `namespace`. -/
def exConf2 : List (GVR × List (Str × Str)) :=
  [(exPods, [(lit "namespace", lit "{.ns}"), (lit "name", lit "{.name}"), (lit "node", lit "{.node}")])]
def exEval2 : Str → Obj → Str := fun k o =>
  if k = lit "{.ns}" then (o.om.map ObjMeta.ns).getD [] else if k = lit "{.name}" then (o.om.map ObjMeta.name).getD [] else o.body
def exStore2 (conf : List (GVR × List (Str × Str))) (eval : Str → Obj → Str) : StoreI :=
  let s := ((newStore conf).run eval exHist).getD (newStore conf)
  ⟨s.isStoreGVR, s.get, s.query (fun _ => true) insertionSort (fun _ => none)⟩

/-- The table of the pods of the default cluster. -/
example : proxy exEnv (exStore2 exConf2 exEval2) (fun _ m => m.reverse) [] { exSearched with rawQuery := [], accept := lit "application/json;as=Table;v=v1;g=meta.k8s.io" }
    = .table [⟨lit "cluster", 1⟩, ⟨lit "namespace", 0⟩, ⟨lit "name", 0⟩, ⟨lit "is_deleted", 2⟩, ⟨lit "node", 0⟩]
        [[some (lit "c1"), some (lit "prod"), some (lit "web"), some (lit "false"), some (lit "n3")]] := by
  decide +kernel

/-- **C49 is false** for a type whose configured indexes lack `name`: the cell under `name` is empty, though `name` is an index
of every object. -/
theorem C49_false_name :
    proxy exEnv (exStore2 exConf exEval) (fun _ m => m) [] { exSearched with rawQuery := [], accept := lit "application/json;as=Table;v=v1;g=meta.k8s.io" }
      = .table [⟨lit "cluster", 1⟩, ⟨lit "name", 0⟩, ⟨lit "is_deleted", 2⟩, ⟨lit "node", 0⟩]
          [[some (lit "c1"), none, some (lit "false"), some (lit "n3")]]
    ∧ indexValueOf exEval (confAt exConf exPods) (lit "c1") (exPod "web" "n3") (lit "name") = some (lit "web") := by
  decide +kernel

end Ckube

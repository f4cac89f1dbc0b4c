import Verif.Model.Plugin
import Verif.Spec.Plugin
import Verif.Props.Clusters
import Verif.Props.ListOptions

/-! # Lemmas about the command line tools -/

namespace Ckube
open Spec

theorem plugLoop_clusters (i : Nat) (v : Str) (rest : List Str) (st : PlugState) :
    plugLoop i (lit "--clusters" :: v :: rest) st = plugLoop (i + 2) rest { st with clusters := v } := by
  rw [plugLoop.eq_def]
  simp only [if_true]
  rw [show plugTyp (lit "--clusters") st.typ = st.typ by
    unfold plugTyp; rw [if_neg (by decide), if_neg (by decide)]]

theorem plugLoop_other (i : Nat) {a : Str} (ha : a ≠ lit "--clusters") (rest : List Str) (st : PlugState) :
    plugLoop i (a :: rest) st = plugLoop (i + 1) rest { st with
        typ := plugTyp a st.typ
        args := st.args ++ [a]
        selectorPos := if (a = lit "-l" ∨ a = lit "--selector") ∧ rest ≠ [] then i + 1 else st.selectorPos } := by
  rw [plugLoop.eq_def]
  simp only [if_neg ha]

theorem plugLoop_nil (i : Nat) (st : PlugState) : plugLoop i [] st = st := by rw [plugLoop.eq_def]

/-- The loop over the first arguments. -/
theorem plugLoop_prefix {pre a : List Str} {c : Option Str} (h : KubectlArgs pre a c) : ∀ (i : Nat) (st : PlugState) (rest : List Str),
    ∃ p, plugLoop i (pre ++ rest) st
      = plugLoop (i + pre.length) rest
        { clusters := c.getD st.clusters, args := st.args ++ a, typ := a.foldl (fun t x => plugTyp x t) st.typ, selectorPos := p }
      ∧ ((∀ x ∈ a, x ∉ selFlags) → p = st.selectorPos) := by
  induction h with
  | nil => intro i st rest; exact ⟨st.selectorPos, by simp, fun _ => rfl⟩
  | clusters v h ih =>
    intro i st rest
    obtain ⟨p, hp, hp'⟩ := ih (i + 2) { st with clusters := v } rest
    refine ⟨p, ?_, hp'⟩
    rw [List.cons_append, List.cons_append, plugLoop_clusters, hp]
    simp only [List.length_cons, Option.getD_some]
    congr 1
    omega
  | other x hx h ih =>
    intro i st rest
    obtain ⟨p, hp, hp'⟩ := ih (i + 1) { st with
        typ := plugTyp x st.typ
        args := st.args ++ [x]
        selectorPos := if (x = lit "-l" ∨ x = lit "--selector") ∧ _ ++ rest ≠ [] then i + 1 else st.selectorPos } rest
    refine ⟨p, ?_, ?_⟩
    · rw [List.cons_append, plugLoop_other _ hx, hp]
      simp only [List.length_cons, List.append_assoc, List.singleton_append, List.foldl_cons]
      congr 1
      omega
    · intro hno
      rw [hp' (fun y hy => hno y (List.mem_cons_of_mem _ hy))]
      simp only
      rw [if_neg]
      rintro ⟨h1, _⟩
      exact hno x (List.mem_cons_self ..) (by simpa [selFlags] using h1)

theorem args_length {pre a : List Str} {c : Option Str} (h : KubectlArgs pre a c) : a.length ≤ pre.length := by
  induction h with
  | nil => simp
  | clusters v h ih => simp only [List.length_cons]; omega
  | other x hx h ih => simp only [List.length_cons]; omega

theorem typ_get {a : List Str} (hg : lit "get" ∈ a) (hc : lit "create" ∉ a) (t : PlugCmd) :
    a.foldl (fun t x => plugTyp x t) t = .get := by
  have keep : ∀ (l : List Str), lit "create" ∉ l → l.foldl (fun t x => plugTyp x t) .get = .get := by
    intro l
    induction l with
    | nil => intro _; rfl
    | cons x l ih =>
      intro hl
      have hx : plugTyp x .get = .get := by
        unfold plugTyp
        split
        · rfl
        · rw [if_neg]
          rintro rfl
          exact hl (List.mem_cons_self ..)
      rw [List.foldl_cons, hx]
      exact ih (fun h => hl (List.mem_cons_of_mem _ h))
  induction a generalizing t with
  | nil => simp at hg
  | cons x l ih =>
    rw [List.foldl_cons]
    rcases List.mem_cons.mp hg with rfl | hg
    · rw [show plugTyp (lit "get") t = .get by unfold plugTyp; rw [if_pos rfl]]
      exact keep l (fun h => hc (List.mem_cons_of_mem _ h))
    · exact ih hg (fun h => hc (List.mem_cons_of_mem _ h)) _

theorem typ_create {a : List Str} (hg : lit "create" ∈ a) (hc : lit "get" ∉ a) (t : PlugCmd) :
    a.foldl (fun t x => plugTyp x t) t = .create := by
  have keep : ∀ (l : List Str), lit "get" ∉ l → l.foldl (fun t x => plugTyp x t) .create = .create := by
    intro l
    induction l with
    | nil => intro _; rfl
    | cons x l ih =>
      intro hl
      have hx : plugTyp x .create = .create := by
        unfold plugTyp
        rw [if_neg (fun h : x = lit "get" => hl (h ▸ List.mem_cons_self ..))]
        split <;> rfl
      rw [List.foldl_cons, hx]
      exact ih (fun h => hl (List.mem_cons_of_mem _ h))
  induction a generalizing t with
  | nil => simp at hg
  | cons x l ih =>
    rw [List.foldl_cons]
    rcases List.mem_cons.mp hg with rfl | hg
    · rw [show plugTyp (lit "create") t = .create by unfold plugTyp; rw [if_neg (by decide), if_pos rfl]]
      exact keep l (fun h => hc (List.mem_cons_of_mem _ h))
    · exact ih hg (fun h => hc (List.mem_cons_of_mem _ h)) _

/-- `Clusters` on an empty search, with names that are label values. -/
theorem setClusters_nil {cs : List Str} (hne : cs ≠ []) (h : ∀ c ∈ cs, c ≠ [] ∧ validLabelValue c = true) :
    ∃ s', setClusters [] cs = some s' ∧ (∀ b ∈ s', plainByte b = true) := by
  have hs : searchSelector [] = some {} := by decide +kernel
  have hsp : searchParts [] = [] := by decide +kernel
  have hval : (exprReq ⟨clusterKey, .isIn, cs⟩).Valid := by
    unfold Req.Valid newReq
    rw [if_pos]
    simp only [Bool.and_eq_true]
    refine ⟨⟨show validLabelKey clusterKey = true by decide +kernel, ?_⟩, ?_⟩
    · simp only [exprReq, LOp.toOp, okVals]
      exact decide_eq_true (fun h => hne (List.length_eq_zero_iff.mp h))
    · exact List.all_eq_true.mpr (fun c hc => (h c hc).2)
  have hsel := asSelector_of_valid (ls := { matchExprs := [⟨clusterKey, .isIn, cs⟩] }) (by simp) (by simpa using hval)
  have hn : [] ∉ cs := fun hm => (h [] hm).1 rfl
  unfold setClusters
  rw [hs, Option.bind_some, if_neg hn]
  unfold setSearchSelector formatSelector restrictTo
  simp only [List.filter_nil]
  rw [hsel, hsp]
  simp only [Option.map_some, List.filter_nil]
  refine ⟨_, rfl, ?_⟩
  have hname : ∀ b : UInt8, isNameChar b = true → plainByte b = true := forall_byte (by decide +kernel)
  have hvals : ∀ b ∈ (exprReq ⟨clusterKey, .isIn, cs⟩).valsText, plainByte b = true := by
    unfold Req.valsText
    have hc : ∀ c ∈ cs, ∀ b ∈ c, plainByte b = true := fun c hc b hb => hname b (validLabelValue_chars (h c hc).2 b hb)
    split
    · rename_i v hv
      simp only [exprReq] at hv
      exact hc v (by rw [hv]; simp)
    · simp only [exprReq]
      exact join_bytes (P := fun b => plainByte b = true) (by decide) (fun x hx => hc x ((mem_sortBy ..).mp hx))
  have hreq : ∀ b ∈ (exprReq ⟨clusterKey, .isIn, cs⟩).toStr, plainByte b = true := by
    intro b hb
    simp only [Req.toStr, exprReq, LOp.toOp, List.mem_append, List.mem_singleton] at hb
    rcases hb with ((hb | hb) | hb) | rfl
    · exact (show ∀ b ∈ clusterKey, plainByte b = true by decide) b hb
    · exact (show ∀ b ∈ lit " in (", plainByte b = true by decide) b hb
    · exact hvals b hb
    · decide
  have hsort : sortBy Req.keyLe (([] : List (Str × Str)).map labelReq ++ [(⟨clusterKey, .isIn, cs⟩ : LReq)].map exprReq)
    = [exprReq ⟨clusterKey, .isIn, cs⟩] := rfl
  rw [hsort]
  unfold joinParts
  refine join_bytes (P := fun b => plainByte b = true) (by decide) ?_
  intro x hx
  simp only [List.map_cons, List.map_nil, List.mem_singleton] at hx
  subst hx
  intro b hb
  unfold double at hb
  obtain ⟨d, hd, hb⟩ := List.mem_flatMap.mp hb
  have hdp : plainByte d = true := by
    rw [List.mem_append] at hd
    rcases hd with hd | hd
    · exact (show ∀ b ∈ advPrefix, plainByte b = true by decide) d hd
    · split at hd
      · exact (show ∀ b ∈ lit "<none>", plainByte b = true by decide) d hd
      · refine join_bytes (P := fun b => plainByte b = true) (by decide) ?_ d hd
        intro y hy
        simp only [List.map_cons, List.map_nil, List.mem_singleton] at hy
        subst hy
        exact hreq
  split at hb
  · simp only [List.mem_cons, List.not_mem_nil, or_false, or_self] at hb
    subst hb
    decide
  · rw [List.mem_singleton] at hb
    subst hb
    exact hdp

theorem plain_utf8 {s : Str} (h : ∀ b ∈ s, plainByte b = true) : validUtf8 s = true := by
  have hp : ∀ a : UInt8, plainByte a = true → a < 0x80 := forall_byte (by decide +kernel)
  unfold validUtf8
  rw [chunks_ascii (fun b hb => hp b (h b hb))]
  simp

end Ckube

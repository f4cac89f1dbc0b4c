import Verif.Lemmas.GoSortStable
import Verif.Lemmas.Selector
import Verif.Props.Sort

/-! # C104: `sort.Slice` of Go 1.19 with the comparison function of ckube -/

namespace Ckube
open Spec GoSort

variable {isPrint : Nat → Bool} {eval : Str → Obj → Str} {alg : SliceSort} {pf : Str → Option GoFloat}
  {conf : List (GVR × List (Str × Str))} {h : List Notice} {s : Store}

/-- The algorithm of Go 1.19 meets the contract under which the other properties are proved. -/
def goSort (rnd : Nat → Nat → Nat) : SliceSort where
  run := goSlice rnd
  perm := goSlice_perm rnd
  mem := goSlice_mem rnd
  touched := goSlice_touched rnd
  sorted := goSlice_sorted rnd

/-- **C104**, the algorithm, for elements of any type: it only uses indices of the slice, whatever `less` answers; it loses and invents nothing;
if `less` answers in accordance with a total preorder on the elements, on ties in any way, the slice is sorted; of two or more
elements each is compared with some other or with itself. The random numbers play no role. -/
theorem C104_slice {α : Type} [Inhabited α] (rnd : Nat → Nat → Nat) (less : α → α → Bool) (l : List α) :
    In 0 l.length (sortSlice rnd l.length) (fun _ => True)
      ∧ (goSlice rnd less l).result.Perm l
      ∧ (∀ le : α → α → Prop, (∀ a b, le a b ∨ le b a) → (∀ a b c, le a b → le b c → le a c) →
          (∀ a ∈ l, ∀ b ∈ l, (less a b = true → le a b) ∧ (less a b = false → le b a)) → (goSlice rnd less l).result.Pairwise le)
      ∧ (2 ≤ l.length → ∀ a ∈ l, ∃ b ∈ l, (a, b) ∈ (goSlice rnd less l).trace ∨ (b, a) ∈ (goSlice rnd less l).trace) := by
  refine ⟨in_sortSlice rnd l.length, goSlice_perm rnd less l, fun le total trans hacc => ?_, fun hl a ha => ?_⟩
  · refine goSlice_sorted rnd less l le total trans (fun a b hab => ?_)
    obtain ⟨ha, hb⟩ := goSlice_mem rnd less l a b hab
    exact hacc a ha b hb
  · obtain ⟨b, hb⟩ := goSlice_touched rnd less l hl a ha
    refine ⟨b, ?_, hb⟩
    rcases hb with hb | hb
    · exact (goSlice_mem rnd less l a b hb).2
    · exact (goSlice_mem rnd less l b a hb).1

/-- Sixteen numbers, compared by a function that answers `true` on ties. -/
example : (goSlice (fun n i => n * 7919 + i) (fun a b : Nat => decide (a ≤ b)) [5, 3, 9, 1, 1, 1, 7, 2, 5, 3, 9, 1, 1, 1, 7, 2]).result
    = [1, 1, 1, 1, 1, 1, 2, 2, 3, 3, 5, 5, 7, 7, 9, 9] := by decide +kernel

/-- Up to 12 objects it is insertion sort, with which the counterexamples to C24, C25 and C27 were computed. -/
theorem C104_short (rnd : Nat → Nat → Nat) (less : SObj → SObj → Bool) (l : List SObj) (hl : l.length ≤ 12) :
    (goSort rnd).run less l = insertionSort.run less l := goSlice_short rnd less l hl

/-- **C104**, strings: `sort.Strings` (kube/label.go:34, the values of a requirement) and the `sort.Slice` of the columns
(api/proxy.go:371-373) give the list that the model computes with `sortBy strLe`. -/
theorem C104_strings (rnd : Nat → Nat → Nat) (l : List Str) : (goSlice rnd (fun a b => strLt a b) l).result = sortBy strLe l :=
  goSlice_key_inj (key := fun x : Str => x) rnd l (fun _ _ _ _ h => h)

example : (goSlice (fun n i => n + i) (fun a b => strLt a b) (["m", "b", "x", "b", "", "a", "z", "y", "q", "r", "s", "t", "u", "v"].map lit)).result
    = ["", "a", "b", "b", "m", "q", "r", "s", "t", "u", "v", "x", "y", "z"].map lit := by decide +kernel

instance : Inhabited Req := ⟨⟨[], .exist, []⟩⟩

/-- **C104**, requirements: `sort.Sort(ByKey(..))` gives the list that the model computes with `sortBy Req.keyLe`, for up to 12
requirements or if no two have the same key. -/
theorem C104_byKey (rnd : Nat → Nat → Nat) (rs : List Req) (h : rs.length ≤ 12 ∨ (rs.map Req.key).Nodup) :
    (goSlice rnd (fun a b => strLt a.key b.key) rs).result = sortBy Req.keyLe rs := by
  rcases h with h | h
  · exact goSlice_key_short (key := Req.key) rnd rs h
  · exact goSlice_key_inj (key := Req.key) rnd rs (fun a ha b hb hab => List.inj_on_of_nodup_map h ha hb hab)

/-- Thirteen requirements, twelve of them with the same key. -/
def exThirteen : List Req := (List.range 13).map fun i => ⟨if i = 5 then lit "a" else lit "b", .neq, [[UInt8.ofNat (97 + i)]]⟩

/-- Beyond that they differ: the order among requirements with the same key is another one. -/
theorem C104_byKey_unstable : ∃ rs, (goSlice (fun n i => n * 7919 + i) (fun a b => strLt a.key b.key) rs).result ≠ sortBy Req.keyLe rs :=
  ⟨exThirteen, by decide +kernel⟩

/-- **C104**, what does not depend on that order: of a selector, whatever order the sort leaves its requirements in, the printed text can be
parsed, to a selector that accepts the same labels (as C08 says of the order of the model). -/
theorem C104_selector (rnd rnd' : Nat → Nat → Nat) (ls : LabelSelector) (rs : List Req) (hrs : asSelector ls = some rs)
    (hvals : ∀ e ∈ ls.matchExprs, e.op = .isIn ∨ e.op = .notIn → ∃ v ∈ e.vals, v ≠ [])
    (perm : List Req) (hperm : perm.Perm (ls.matchLabels.map labelReq ++ ls.matchExprs.map exprReq)) :
    ∃ qs, parseReqs (selStr (goSlice rnd (fun a b => strLt a.key b.key) perm).result) = some qs
      ∧ ∀ m, selMatches (goSlice rnd' (fun a b => strLt a.key b.key) qs).result m = true ↔ SelectorHolds ls m := by
  have h1 : (goSlice rnd (fun a b => strLt a.key b.key) perm).result.Perm rs := by
    rw [(asSelector_some hrs).1]
    exact (goSlice_perm rnd _ perm).trans (hperm.trans (sortBy_perm _ _).symm)
  have hv : ∀ r ∈ (goSlice rnd (fun a b => strLt a.key b.key) perm).result, r.Valid := fun r hr => (asSelector_some hrs).2 r (h1.mem_iff.mp hr)
  have hp : ∀ r ∈ (goSlice rnd (fun a b => strLt a.key b.key) perm).result, r.Printable :=
    fun r hr => printable_reqs hrs hvals r (h1.mem_iff.mp hr)
  refine ⟨_, parseReqs_selStr hv hp, fun m => ?_⟩
  rw [selMatches_perm (goSlice_perm rnd' _ _), selMatches_perm (sortBy_perm _ _), selMatches_norm, selMatches_perm h1]
  exact asSelector_matches hrs m

example : asSelector ⟨[(lit "z", lit "1")], [⟨lit "k", .isIn, [lit "y", [], lit "x"]⟩, ⟨lit "k", .notExist, []⟩]⟩
    = some [⟨lit "k", .isIn, [lit "y", [], lit "x"]⟩, ⟨lit "k", .notExist, []⟩, ⟨lit "z", .eq, [lit "1"]⟩] := by decide +kernel

theorem cmpObjs_self : ∀ (ks : List SortKey) (o : SObj), (∀ k ∈ ks, k.num = true → (number pf (o.val k.key)).isSome = true) →
    cmpObjs pf ks o o = (true, false)
  | [], _, _ => rfl
  | k :: ks, o, hn => by
    have he : cmpKey pf k o o = .eq := by
      unfold cmpKey
      by_cases hk : k.num = true
      · rw [if_pos hk]
        have := hn k (by simp) hk
        unfold number at this
        cases hp : pf (o.val k.key) with
        | none => rw [hp] at this; simp at this
        | some x =>
          cases x with
          | nan => rw [hp] at this; simp at this
          | num n => simp [GoFloat.eq]
      · rw [if_neg hk, if_pos rfl]
    rw [cmpObjs, he]
    exact cmpObjs_self ks o (fun k hk => hn k (by simp [hk]))

/-- **C104**: the comparison function of ckube is not what Go asks for: every object whose values can be compared is "less" than
itself. -/
theorem C104_reflexive (ks : List SortKey) (o : SObj) (hn : Numbers pf ks [o]) : cmpObjs pf ks o o = (true, false) :=
  cmpObjs_self ks o (fun k hk hnum => hn k hk hnum o (by simp))

example : Numbers exFloat [⟨lit "node", true, true⟩, ⟨lit "name", false, false⟩] [⟨[(lit "node", lit "2"), (lit "name", lit "x")], {}⟩] := by
  intro k hk hnum o ho
  simp only [List.mem_singleton] at ho
  subst ho
  simp only [List.mem_cons, List.not_mem_nil, or_false] at hk
  rcases hk with rfl | rfl
  · decide +kernel
  · simp at hnum

/-- **C104**, queries: nevertheless the objects are sorted by the keys of the sort expression. -/
theorem C104_sorted (rnd : Nat → Nat → Nat) (hconf : ConfOK conf) (hrun : (newStore conf).run eval h = some s) (g : GVR) (q : Query)
    (hp : ValidPaging q.page) (ks : List SortKey) (hks : SortMeans q.page.sort ks) (he : EmptyNoNaN pf)
    (hn : NoNaNs isPrint eval pf conf h g q ks)
    (res : QueryResult) (hans : s.mayAnswer isPrint (goSort rnd) pf g q (some res)) (hok : res.error = false) :
    ∃ found, Lists isPrint eval conf h s g q found ∧ res.total = found.length
      ∧ res.items = pageOf q.page.page q.page.pageSize (found.map fun e => e.2.2.obj)
      ∧ (found.map fun e => e.2.2).Pairwise (LexLe pf ks) :=
  C25_sorted_partial hconf hrun g q hp ks hks he hn res hans hok

theorem cmpObjs_fail {k : SortKey} {ks : List SortKey} {a b : SObj} (hk : k.num = true)
    (hab : pf (a.val k.key) = none ∨ pf (b.val k.key) = none) : (cmpObjs pf (k :: ks) a b).2 = true := by
  have : cmpKey pf k a b = .fail := by
    unfold cmpKey
    rw [if_pos hk]
    rcases hab with h | h <;> rw [h]
    cases pf (a.val k.key) <;> rfl
  rw [cmpObjs, this]

/-- **C104**, refusal: if the first key asks for numbers and one of several objects has a value there that is none, the query
fails, because every object takes part in a comparison. (Under a later key such a value matters only among objects equal in the keys
before.) -/
theorem C104_refused (hconf : ConfOK conf) (hrun : (newStore conf).run eval h = some s) (g : GVR) (q : Query)
    (hp : ValidPaging q.page) (k : SortKey) (ks : List SortKey) (hks : SortMeans q.page.sort (k :: ks)) (hk : k.num = true)
    (id id' : Ident) (o o' : Obj) (hm : Matching isPrint eval conf h g q id o) (hm' : Matching isPrint eval conf h g q id' o') (hne : id ≠ id')
    (v : Str) (hv : indexValueOf eval (confAt conf g) id.cluster o k.key = some v) (hbad : pf v = none)
    (res : QueryResult) (hans : s.mayAnswer isPrint alg pf g q (some res)) : res.error = true := by
  by_contra hok
  have hok : res.error = false := by simpa using hok
  obtain ⟨found, f1, _, _, _, f5⟩ := answer_lists hconf hrun g q hp res hans hok
  obtain ⟨so, hso⟩ := (f1.2.1 id o).mpr hm
  obtain ⟨so', hso'⟩ := (f1.2.1 id' o').mpr hm'
  rcases f5 with rfl | ⟨rs, hperm, hs⟩
  · simp at hso
  have hmem : ∀ x, x ∈ found → x.2.2 ∈ rs := fun x hx => hperm.symm.subset (List.mem_map.mpr ⟨x, hx, rfl⟩)
  have hlen : 2 ≤ rs.length := by
    rw [hperm.length_eq, List.length_map]
    match found, hso, hso' with
    | [], h1, _ => simp at h1
    | [e], h1, h2 =>
      rw [List.mem_singleton] at h1 h2
      exact absurd (by rw [← h2] at h1; exact (Prod.mk.injEq .. ▸ h1).1) hne
    | _ :: _ :: _, _, _ => simp
  have hrs : rs ≠ [] := by rintro rfl; simp at hlen
  obtain ⟨ks', k1, _, k3⟩ := sortObjs_run hs hrs (sortMeans_twoParts hks)
  obtain rfl := sortMeans_det hks k1
  have hval : pf (so.val k.key) = none := by
    have := (f1.2.2 _ hso).1.2 k.key
    unfold SObj.val
    rw [this, hv]
    exact hbad
  obtain ⟨b, hb⟩ := alg.touched (fun a b => (cmpObjs pf (k :: ks) a b).1) rs hlen so (hmem _ hso)
  rw [List.any_eq_false] at k3
  rcases hb with hb | hb
  · exact k3 _ hb (cmpObjs_fail hk (Or.inl hval))
  · exact k3 _ hb (cmpObjs_fail hk (Or.inr hval))

/-- Three pods, one with a node that is no number, sorted by the node as a number: refused. -/
example : (exQuery (exThree "1" "n" "2") backwards { sort := lit "node!int" }).bind (fun r => r.map fun r => r.error) = some true
    ∧ exFloat (lit "n") = none
    ∧ SortMeans (lit "node!int") [⟨lit "node", true, false⟩]
    ∧ Matching (fun _ => true) exEval exConf (exThree "1" "n" "2") exPods { page := { sort := lit "node!int" } }
        ⟨exPods, lit "c1", lit "prod", lit "y"⟩ (exPod "y" "n")
    ∧ Matching (fun _ => true) exEval exConf (exThree "1" "n" "2") exPods { page := { sort := lit "node!int" } }
        ⟨exPods, lit "c1", lit "prod", lit "z"⟩ (exPod "z" "2") := by
  have hc : IsMap (confAt exConf exPods) := confAt_isMap (conf := exConf) ⟨by decide +kernel, by decide +kernel⟩ exPods
  refine ⟨by decide +kernel, by decide +kernel, Or.inr ⟨by decide, ?_⟩, ⟨?_, rfl, Or.inl rfl, _, build_index exEval hc _ _, by decide +kernel⟩,
    ⟨?_, rfl, Or.inl rfl, _, build_index exEval hc _ _, by decide +kernel⟩⟩
  · have : ((splitByte 44 (lit "node!int")).filter fun i => trimSpace i ≠ []) = [lit "node!int"] := by decide +kernel
    rw [this]
    exact .cons ⟨by decide, by decide, lit "!int", [], by decide +kernel, Or.inr (Or.inr ⟨rfl, rfl⟩), Or.inl ⟨rfl, rfl⟩⟩ .nil
  · refine ⟨[_], _, [_], rfl, ⟨rfl, by decide +kernel⟩, ?_⟩
    intro n' hn'
    rw [List.mem_singleton] at hn'
    subst hn'
    refine ⟨fun o' hw => ?_, fun hr => hr⟩
    exact absurd hw.2 (by decide +kernel)
  · refine ⟨[_, _], _, [], rfl, ⟨rfl, by decide +kernel⟩, fun n' hn' => by simp at hn'⟩

end Ckube

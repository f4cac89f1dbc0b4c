import Verif.Lemmas.Selector
import Verif.Lemmas.Kube
import Verif.Lemmas.Base64
import Verif.Lemmas.PageJson
import Verif.Model.Selector

/-! # Lemmas about `QueryListOptions` and the server's reading of the selector -/

namespace Ckube
open Spec

theorem takeWhile_chunkAt (i : Nat) (t : Str) : (chunkAt i t).takeWhile isDigit = pad4 i := by
  have h := pad4_all i
  unfold chunkAt
  generalize pad4 i = p at h ⊢
  induction p with
  | nil => rfl
  | cons a p ih =>
    simp only [List.all_cons, Bool.and_eq_true] at h
    simp only [List.cons_append, List.takeWhile_cons, h.1, if_true]
    exact congrArg _ (ih h.2)

theorem chunkAt_inj {i j : Nat} {t u : Str} (h : chunkAt i t = chunkAt j u) : i = j := by
  have h1 := takeWhile_chunkAt i t
  rw [h, takeWhile_chunkAt] at h1
  rw [← digitsVal_pad4 i, ← h1, digitsVal_pad4]

theorem splitFrom_nodup : ∀ f i (rest : Str), rest.length ≤ f → (splitFrom f i rest).Nodup
  | 0, i, rest, _ => by simp [splitFrom]
  | f + 1, i, rest, hf => by
    simp only [splitFrom]
    have he : eachPartLen = 56 := rfl
    split
    · simp
    · rename_i hl
      have hlen : (rest.drop eachPartLen).length ≤ f := by
        rw [List.length_drop, he]; rw [he] at hl; omega
      rw [List.nodup_cons]
      refine ⟨?_, splitFrom_nodup f _ _ hlen⟩
      intro hc
      obtain ⟨j, t, h1, h2, _⟩ := mem_splitFrom f _ _ _ hlen hc
      have := chunkAt_inj (i := i) (t := rest.take eachPartLen) h1
      omega

theorem splittingValue_nodup (s : Str) : (splittingValue s).Nodup := by
  unfold splittingValue
  split
  · simp
  · exact splitFrom_nodup _ _ _ (Nat.le_refl _)

theorem splittingValue_ne_nil (s : Str) : splittingValue s ≠ [] := by
  unfold splittingValue
  split
  · simp
  · cases h : s.length with
    | zero => simp [splitFrom]
    | succ n => simp only [splitFrom]; split <;> simp

theorem setList_perm {vs : List Str} (h : vs.Nodup) : (setList vs).Perm vs := by
  unfold setList
  rw [dedup_of_nodup vs h]
  exact sortBy_perm _ _

theorem merge_setList {s : Str} (hdot : (46 : UInt8) ∉ s) (hlen : s.length ≤ 10024) :
    mergeValues (setList (splittingValue s)) = some s :=
  mergeValues_splittingValue hdot hlen (setList_perm (splittingValue_nodup s))

theorem encode_ne_nil {s : Str} (h : s ≠ []) : Base64.encode s ≠ [] := by
  intro he
  have := Base64.decode_encode s
  rw [he] at this
  have h0 : Base64.decode [] = some [] := by decide
  rw [h0] at this
  exact h (Option.some.inj this).symm

theorem splittingValue_nonempty {s : Str} (h : s ≠ []) : ∃ v ∈ splittingValue s, v ≠ [] := by
  unfold splittingValue
  split
  · exact ⟨s, by simp, h⟩
  · have hne := splittingValue_ne_nil s
    unfold splittingValue at hne
    rw [if_neg (by assumption)] at hne
    obtain ⟨a, l, hal⟩ := List.exists_cons_of_ne_nil hne
    obtain ⟨j, t, h1, _⟩ := mem_splitFrom s.length 0 s a (Nat.le_refl _) (by rw [hal]; simp)
    refine ⟨a, by rw [hal]; simp, ?_⟩
    rw [h1]; simp [chunkAt]

/-- `paginateLoop` on a list with exactly one expression on the pagination key. -/
theorem paginateLoop_none : ∀ (es : List LReq) (acc : Str), (∀ e ∈ es, e.key ≠ paginateKey) →
    paginateLoop es acc = some acc
  | [], _, _ => rfl
  | e :: es, acc, h => by
    simp only [paginateLoop]
    rw [if_neg (h e (by simp))]
    exact paginateLoop_none es acc (fun x hx => h x (by simp [hx]))

theorem paginateLoop_one : ∀ (es : List LReq) (acc : Str) (e0 : LReq) (others : List LReq) (s : Str),
    es.Perm (e0 :: others) → e0.key = paginateKey → (∀ e ∈ others, e.key ≠ paginateKey) →
    e0.vals ≠ [] → mergeValues e0.vals = some s → paginateLoop es acc = some s
  | [], _, _, _, _, hp, _, _, _, _ => by simp at hp
  | e :: es, acc, e0, others, s, hp, hk, ho, hv, hm => by
    simp only [paginateLoop]
    by_cases h : e.key = paginateKey
    · have hmem : e ∈ e0 :: others := hp.subset (by simp)
      rcases List.mem_cons.mp hmem with rfl | hmem
      · have hp' : es.Perm others := (List.perm_cons e).mp hp
        rw [if_pos h, if_pos (List.length_pos_iff.mpr hv), hm]
        exact paginateLoop_none _ _ (fun x hx => ho x (hp'.subset hx))
      · exact absurd h (ho e hmem)
    · rw [if_neg h]
      have hne : e ≠ e0 := fun he => h (he ▸ hk)
      have hmem : e ∈ others := by
        rcases List.mem_cons.mp (hp.subset (List.mem_cons_self)) with he | he
        · exact absurd he hne
        · exact he
      refine paginateLoop_one es acc e0 (others.erase e) s ?_ hk
        (fun x hx => ho x (List.mem_of_mem_erase hx)) hv hm
      have h1 : (e :: es).Perm (e :: e0 :: others.erase e) :=
        hp.trans (((List.perm_cons_erase hmem).cons e0).trans (List.Perm.swap _ _ _))
      exact (List.perm_cons e).mp h1

/-- What parsing the caller's selector gives. -/
theorem caller_parsed {sel : Str} {qs : List Req} (hqs : parseReqs sel = some qs)
    (hop : ∀ q ∈ qs, q.op ≠ .gt ∧ q.op ≠ .lt) :
    ∃ ls, parseToLabelSelector sel = some ls ∧ selectorLoop qs {} = some ls ∧ IsMap ls.matchLabels
      ∧ (∀ q ∈ qs, q.op.supported = true)
      ∧ (∀ kv ∈ ls.matchLabels, ∃ q ∈ qs, q.key = kv.1)
      ∧ (∀ e ∈ ls.matchExprs, ∃ q ∈ qs, e = q.toExpr ∧ q.isEq = false)
      ∧ ∃ rs, asSelector ls = some rs := by
  have hv := parseReqs_valid hqs
  have hs : ∀ q ∈ qs, q.op.supported = true := by
    intro q hq
    have := hop q hq
    cases hq : q.op <;> simp_all [Op.supported]
  have hloop := selectorLoop_eq qs {} hv hs
  refine ⟨_, by unfold parseToLabelSelector; rw [hqs]; exact hloop, hloop,
    isMap_eqFold _ _ (by simp [IsMap]), hs, ?_, ?_, asSelector_parsed hv hloop⟩
  · have aux : ∀ (l : List Req) (m0 : List (Str × Str)), (∀ q ∈ l, q ∈ qs) →
        (∀ kv ∈ m0, ∃ q ∈ qs, q.key = kv.1) →
        ∀ kv ∈ l.foldl (fun m q => insertKV q.key (q.vals.headD []) m) m0, ∃ q ∈ qs, q.key = kv.1 := by
      intro l
      induction l with
      | nil => intro m0 _ h0; exact h0
      | cons q l ih =>
        intro m0 hl h0
        rw [List.foldl_cons]
        refine ih _ (fun x hx => hl x (by simp [hx])) ?_
        intro kv hkv
        have hk : kv.1 ∈ (insertKV q.key (q.vals.headD []) m0).map Prod.fst := List.mem_map_of_mem hkv
        rw [mem_map_fst_insertKV] at hk
        rcases hk with hk | hk
        · exact ⟨q, hl q (by simp), hk.symm⟩
        · obtain ⟨x, hx, hxk⟩ := List.mem_map.mp hk
          obtain ⟨q', hq', he⟩ := h0 x hx
          exact ⟨q', hq', he.trans hxk⟩
    exact aux _ _ (fun q hq => (List.mem_filter.mp hq).1) (by simp)
  · intro e he
    simp only [List.nil_append, List.mem_map, List.mem_filter] at he
    obtain ⟨q, ⟨hq, hb⟩, rfl⟩ := he
    exact ⟨q, hq, rfl, by simpa using hb⟩

/-- The `NotIn` expression carrying the payload. -/
def pageExpr (p : Paginate) : LReq := ⟨paginateKey, .notIn, splittingValue (Base64.encode p.toJson)⟩

theorem toJson_ne_nil (p : Paginate) : p.toJson ≠ [] := by simp [Paginate.toJson]

theorem eraseKV_of_lookup_none {κ ν : Type} [DecidableEq κ] {k : κ} : ∀ {m : List (κ × ν)},
    lookup k m = none → eraseKV k m = m
  | [], _ => rfl
  | (k', v) :: m, h => by
    simp only [lookup] at h
    split at h
    · simp at h
    · rename_i hk
      simp only [eraseKV, if_neg hk]
      rw [eraseKV_of_lookup_none h]

/-- The server's reading of a formatted selector that carries a payload. -/
theorem parseSelector_payload {ls : LabelSelector} {p : Paginate} {rs : List Req}
    (hrs : asSelector { ls with matchExprs := pageExpr p :: ls.matchExprs } = some rs)
    (hm : IsMap ls.matchLabels) (hl : ∀ kv ∈ ls.matchLabels, kv.1 ≠ paginateKey)
    (he : ∀ e ∈ ls.matchExprs, e.key ≠ paginateKey) (hpr : ls.Printable)
    (hlen : (Base64.encode p.toJson).length ≤ 10024) (hwf : p.WF) :
    ∃ l, parseSelector (selStr rs) = some (selInfo p l) ∧ IsMap l.matchLabels
      ∧ (∀ kv, kv ∈ l.matchLabels ↔ kv ∈ ls.matchLabels)
      ∧ l.matchExprs.Perm (ls.matchExprs.map LReq.norm) := by
  have hne : Base64.encode p.toJson ≠ [] := encode_ne_nil (toJson_ne_nil p)
  have hpr' : LabelSelector.Printable { ls with matchExprs := pageExpr p :: ls.matchExprs } := by
    intro e hemem hop
    rcases List.mem_cons.mp hemem with rfl | hemem
    · exact splittingValue_nonempty hne
    · exact hpr e hemem hop
  obtain ⟨ls', h1, h2, h3, h4⟩ := parse_format hrs (printable_reqs hrs hpr') hm
  simp only [List.map_cons] at h4
  have hrsne : rs ≠ [] := by
    have hp : rs.Perm _ := (asSelector_some hrs).1 ▸ sortBy_perm _ _
    rintro rfl
    have := hp.length_eq
    simp at this
  have hs := selStr_ne_nil hrsne (asSelector_some hrs).2
  have hlk : lookup paginateKey ls'.matchLabels = none := by
    rw [lookup_eq_none]
    intro v hv
    exact hl _ ((h3 _).mp hv) rfl
  have hot : ∀ e ∈ ls.matchExprs.map LReq.norm, e.key ≠ paginateKey := by
    intro e hemem
    obtain ⟨x, hx, rfl⟩ := List.mem_map.mp hemem
    exact he x hx
  have hloop : paginateLoop ls'.matchExprs [] = some (Base64.encode p.toJson) :=
    paginateLoop_one _ _ _ _ _ h4 rfl hot
      (setList_ne_nil (splittingValue_ne_nil _))
      (merge_setList (Base64.dot_not_mem_encode _) hlen)
  have htake : takePaginate ls' = some ({ ls' with matchExprs := ls'.matchExprs.filter (fun m => m.key ≠ paginateKey) },
      Base64.encode p.toJson) := by
    unfold takePaginate
    rw [hlk]
    simp only [hloop, Option.map_some]
  refine ⟨{ ls' with matchExprs := ls'.matchExprs.filter (fun m => m.key ≠ paginateKey) },
    ?_, h2, h3, ?_⟩
  rotate_left 1
  · have := h4.filter (fun m => m.key ≠ paginateKey)
    rw [List.filter_cons] at this
    have e1 : decide ((pageExpr p).norm.key ≠ paginateKey) = false := by
      simp [LReq.norm, pageExpr]
    have e2 : (ls.matchExprs.map LReq.norm).filter (fun m => decide (m.key ≠ paginateKey))
        = ls.matchExprs.map LReq.norm :=
      List.filter_eq_self.mpr (fun a ha => by simpa using hot a ha)
    rw [e1, e2] at this
    simpa using this
  · unfold parseSelector
    rw [if_neg hs, h1, Option.bind_some, htake, Option.bind_some]
    dsimp only
    rw [if_neg hne, Base64.decode_encode, Option.map_some, decode_toJson hwf,
      eraseKV_of_lookup_none hlk]

theorem toJson_eq_braces {p : Paginate} : p.toJson = lit "{}" ↔ p = {} := by
  constructor
  · intro h
    obtain ⟨a, b, c, d, e⟩ := p
    simp only [Paginate.toJson] at h
    have hj : join [44] (Paginate.members ⟨a, b, c, d, e⟩ |>.map encMember) = [] := by
      have h' : [123] ++ join [44] (List.map encMember (Paginate.members ⟨a, b, c, d, e⟩)) ++ [125] = [123] ++ [125] := h
      rw [List.append_assoc] at h'
      have := List.append_cancel_left h'
      exact List.append_cancel_right (cs := []) this
    have hm : Paginate.members ⟨a, b, c, d, e⟩ = [] := by
      cases hmm : Paginate.members ⟨a, b, c, d, e⟩ with
      | nil => rfl
      | cons x l =>
        rw [hmm] at hj
        cases l with
        | nil => simp [join, encMember] at hj
        | cons y l => simp [join, encMember] at hj
    simp only [Paginate.members, List.append_eq_nil_iff] at hm
    obtain ⟨⟨⟨⟨h1, h2⟩, h3⟩, h4⟩, h5⟩ := hm
    have f : ∀ {α : Type} {c : Prop} [Decidable c] {x : α}, (if c then [] else [x]) = [] → c := by
      intro α c _ x hh
      by_contra hc
      simp [hc] at hh
    have := f h1; have := f h2; have := f h3; have := f h4; have := f h5
    simp_all
  · rintro rfl; decide

/-- The server's reading of a selector without a payload. -/
theorem parseSelector_plain {sel : Str} {ls : LabelSelector} (hp : parseToLabelSelector sel = some ls)
    (hl : ∀ kv ∈ ls.matchLabels, kv.1 ≠ paginateKey)
    (he : ∀ e ∈ ls.matchExprs, e.key ≠ paginateKey) :
    parseSelector sel = some (if sel = [] then ⟨{}, none, none⟩ else selInfo {} ls) := by
  unfold parseSelector
  by_cases hs : sel = []
  · rw [if_pos hs, if_pos hs]
  · have hlk : lookup paginateKey ls.matchLabels = none := by
      rw [lookup_eq_none]
      intro v hv
      exact hl _ hv rfl
    have htake : takePaginate ls = some (ls, []) := by
      unfold takePaginate
      rw [hlk]
      simp only [paginateLoop_none _ _ he, Option.map_some]
      rw [List.filter_eq_self.mpr (fun a ha => by simpa using he a ha)]
    rw [if_neg hs, if_neg hs, hp, Option.bind_some, htake, Option.bind_some]
    dsimp only
    rw [if_pos rfl]

theorem asSelector_valid {ls : LabelSelector} {rs : List Req} (h : asSelector ls = some rs) :
    (∀ kv ∈ ls.matchLabels, (labelReq kv).Valid) ∧ ∀ e ∈ ls.matchExprs, (exprReq e).Valid := by
  obtain ⟨h1, h2⟩ := asSelector_some h
  constructor
  · intro kv hkv
    refine h2 _ ?_
    rw [h1, mem_sortBy, List.mem_append]
    exact Or.inl (List.mem_map_of_mem hkv)
  · intro e he
    refine h2 _ ?_
    rw [h1, mem_sortBy, List.mem_append]
    exact Or.inr (List.mem_map_of_mem he)

theorem lreq_norm_valid {e : LReq} (h : (exprReq e).Valid) : (exprReq e.norm).Valid := by
  have hn := norm_valid h
  have hc := h.count
  obtain ⟨k, op, vs⟩ := e
  cases op
  · exact hn
  · exact hn
  · simp only [exprReq, LOp.toOp] at hc; subst hc; exact h
  · simp only [exprReq, LOp.toOp] at hc; subst hc; exact h

theorem matches_iff_reqHolds {q : Req} (hs : q.op.supported = true) (m : List (Str × Str)) :
    q.matches m = true ↔ ReqHolds q m := by
  obtain ⟨k, op, vs⟩ := q
  cases op <;> simp only [Req.matches, ReqHolds, Op.supported] at hs ⊢ <;>
    cases lookup k m <;> simp at hs ⊢

/-- The requirements that count mean the same as all of them exactly when no two equalities ask one key
for different values, or the requirements that count cannot be satisfied. -/
theorem last_exact {qs : List Req} (hv : ∀ q ∈ qs, q.Valid) :
    (∀ m, (∀ q ∈ lastEqualities qs, ReqHolds q m) ↔ ∀ q ∈ qs, ReqHolds q m)
      ↔ (∀ a ∈ qs, ∀ b ∈ qs, (a.op = .eq ∨ a.op = .deq) → (b.op = .eq ∨ b.op = .deq) → a.key = b.key → a.vals = b.vals)
        ∨ ∀ m, ∃ q ∈ lastEqualities qs, ¬ ReqHolds q m := by
  have hsub := lastEqualities_subset qs
  have hval : ∀ q ∈ qs, (q.op = .eq ∨ q.op = .deq) → ∃ v, q.vals = [v] := by
    intro q hq he
    have hcount := (hv q hq).count
    obtain ⟨k, op, vs⟩ := q
    rcases he with he | he <;> simp only at he <;> subst he <;> simpa using hcount
  have hreq : ∀ q ∈ qs, (q.op = .eq ∨ q.op = .deq) → ∀ v m, q.vals = [v] → (ReqHolds q m ↔ lookup q.key m = some v) := by
    intro q hq he v m hqv
    obtain ⟨k, op, vs⟩ := q
    simp only at hqv
    subst hqv
    rcases he with he | he <;> simp only at he <;> subst he <;> simp [ReqHolds]
  constructor
  · intro hall
    by_cases hsat : ∀ m, ∃ q ∈ lastEqualities qs, ¬ ReqHolds q m
    · exact Or.inr hsat
    · left
      simp only [not_forall, not_exists, not_and, not_not] at hsat
      obtain ⟨m, hm⟩ := hsat
      have hm' := (hall m).mp hm
      intro a ha b hb hae hbe hk
      obtain ⟨va, hva⟩ := hval a ha hae
      obtain ⟨vb, hvb⟩ := hval b hb hbe
      have h1 := (hreq a ha hae va m hva).mp (hm' a ha)
      have h2 := (hreq b hb hbe vb m hvb).mp (hm' b hb)
      rw [hk, h2] at h1
      rw [hva, hvb, Option.some.inj h1]
  · rintro (hd | hsat) m
    · constructor
      · intro hm q hq
        cases he : q.isEq with
        | false => exact hm q (mem_lastEqualities_ne he qs hq)
        | true =>
          obtain ⟨r, hr, hre, hrk⟩ := lastEqualities_key he qs hq
          have hrv := hd r (hsub r hr) q hq (isEq_ops.mp hre) (isEq_ops.mp he) hrk
          obtain ⟨v, hqv⟩ := hval q hq (isEq_ops.mp he)
          rw [hreq q hq (isEq_ops.mp he) v m hqv, ← hrk]
          exact (hreq r (hsub r hr) (isEq_ops.mp hre) v m (hrv.trans hqv)).mp (hm r hr)
      · exact fun hm q hq => hm q (hsub q hq)
    · obtain ⟨q, hq, hn⟩ := hsat m
      exact ⟨fun hm => absurd (hm q hq) hn, fun hm => absurd (hm q (hsub q hq)) hn⟩

theorem mem_splitFrom_of_mem : ∀ f i (rest : Str) b, rest.length ≤ f → b ∈ rest →
    ∃ c ∈ splitFrom f i rest, b ∈ c
  | 0, _, rest, b, hf, hb => by
    have : rest = [] := List.length_eq_zero_iff.mp (by omega)
    subst this; simp at hb
  | f + 1, i, rest, b, hf, hb => by
    simp only [splitFrom]
    have he : eachPartLen = 56 := rfl
    split
    · exact ⟨_, List.mem_singleton_self _, by simp [hb]⟩
    · rename_i hl
      rw [← List.take_append_drop eachPartLen rest, List.mem_append] at hb
      rcases hb with hb | hb
      · exact ⟨_, List.mem_cons_self, by simp [hb]⟩
      · obtain ⟨c, hc, hbc⟩ := mem_splitFrom_of_mem f (i + eachPartLen) (rest.drop eachPartLen) b
          (by rw [List.length_drop, he]; rw [he] at hl; omega) hb
        exact ⟨c, List.mem_cons_of_mem _ hc, hbc⟩

theorem mem_splittingValue_of_mem {s : Str} {b : UInt8} (h : b ∈ s) : ∃ c ∈ splittingValue s, b ∈ c := by
  unfold splittingValue
  split
  · exact ⟨s, by simp, h⟩
  · exact mem_splitFrom_of_mem _ _ _ _ (Nat.le_refl _) h

theorem encode_chars (s : Str) : ∀ b ∈ Base64.encode s, isAlnum b = true ∨ b = 43 ∨ b = 47 := by
  rw [Base64.encode_eq]
  intro b hb
  obtain ⟨n, hn, rfl⟩ := List.mem_map.mp hb
  have key : ∀ n, n < 64 → isAlnum (Base64.char n) = true ∨ Base64.char n = 43 ∨ Base64.char n = 47 := by
    decide +kernel
  exact key n (Base64.sextets_lt s n hn)

theorem validLabelValue_chars {v : Str} (h : validLabelValue v = true) :
    ∀ b ∈ v, isNameChar b = true := by
  intro b hb
  unfold validLabelValue nameOk at h
  cases v with
  | nil => simp at hb
  | cons a r =>
    simp only [List.isEmpty_cons, Bool.false_or, Bool.and_eq_true, List.all_eq_true] at h
    exact h.2.1.1 b hb

end Ckube

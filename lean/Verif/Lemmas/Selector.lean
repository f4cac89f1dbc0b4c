import Verif.Lemmas.SelParse
import Verif.Spec.Selector

/-! # `LabelSelectorAsSelector`, `FormatLabelSelector`, `ParseToLabelSelector` -/

namespace Ckube
open Spec

theorem mapM_forall2 {α β : Type} {f : α → Option β} : ∀ {l : List α} {l' : List β},
    l.mapM f = some l' → List.Forall₂ (fun a b => f a = some b) l l'
  | [], l', h => by
    simp [List.mapM_nil] at h; subst h; exact List.Forall₂.nil
  | a :: l, l', h => by
    rw [List.mapM_cons] at h
    cases ha : f a with
    | none => rw [ha] at h; simp at h
    | some b =>
      rw [ha] at h
      cases hl : l.mapM f with
      | none => rw [hl] at h; simp at h
      | some bs =>
        rw [hl] at h
        simp at h
        subst h
        exact List.Forall₂.cons ha (mapM_forall2 hl)

theorem mapM_some_of {α β : Type} {f : α → Option β} {g : α → β} : ∀ {l : List α},
    (∀ a ∈ l, f a = some (g a)) → l.mapM f = some (l.map g)
  | [], _ => rfl
  | a :: l, h => by
    rw [List.mapM_cons, h a (by simp), mapM_some_of (l := l) (fun x hx => h x (by simp [hx]))]
    rfl

theorem mapM_eq_map {α β : Type} {f : α → Option β} {g : α → β} (hg : ∀ a b, f a = some b → b = g a)
    {l : List α} {l' : List β} (h : l.mapM f = some l') : l' = l.map g ∧ ∀ a ∈ l, f a = some (g a) := by
  have := mapM_forall2 h
  induction this with
  | nil => simp
  | @cons a b l l' hab _ ih =>
    have hb := hg a b hab
    subst hb
    have hl : l.mapM f = some l' := by
      rw [List.mapM_cons, hab] at h
      cases hl : l.mapM f with
      | none => rw [hl] at h; simp at h
      | some x => rw [hl] at h; simp at h; rw [h]
    obtain ⟨h1, h2⟩ := ih hl
    subst h1
    exact ⟨rfl, fun x hx => by
      rcases List.mem_cons.mp hx with rfl | hx
      · exact hab
      · exact h2 x hx⟩

/-- The requirement made from a `matchLabels` entry. -/
def labelReq (kv : Str × Str) : Req := ⟨kv.1, .eq, [kv.2]⟩
/-- The requirement made from an expression. -/
def exprReq (e : LReq) : Req := ⟨e.key, e.op.toOp, e.vals⟩

theorem asSelector_some {ls : LabelSelector} {rs : List Req} (h : asSelector ls = some rs) :
    rs = sortBy Req.keyLe (ls.matchLabels.map labelReq ++ ls.matchExprs.map exprReq)
    ∧ (∀ r ∈ rs, r.Valid) := by
  unfold asSelector at h
  rw [Option.bind_eq_some_iff] at h
  obtain ⟨a, ha, h⟩ := h
  rw [Option.map_eq_some_iff] at h
  obtain ⟨b, hb, h⟩ := h
  obtain ⟨ha1, ha2⟩ := mapM_eq_map (g := labelReq) (fun _ _ h => (newReq_eq_some h).1) ha
  obtain ⟨hb1, hb2⟩ := mapM_eq_map (g := exprReq) (fun _ _ h => (newReq_eq_some h).1) hb
  subst ha1 hb1 h
  refine ⟨rfl, ?_⟩
  intro r hr
  rw [mem_sortBy, List.mem_append, List.mem_map, List.mem_map] at hr
  rcases hr with ⟨x, hx, rfl⟩ | ⟨x, hx, rfl⟩
  · exact newReq_valid (ha2 x hx)
  · exact newReq_valid (hb2 x hx)

theorem asSelector_of_valid {ls : LabelSelector} (h1 : ∀ kv ∈ ls.matchLabels, (labelReq kv).Valid)
    (h2 : ∀ e ∈ ls.matchExprs, (exprReq e).Valid) :
    asSelector ls = some (sortBy Req.keyLe (ls.matchLabels.map labelReq ++ ls.matchExprs.map exprReq)) := by
  have e1 : ls.matchLabels.mapM (fun kv => newReq kv.1 .eq [kv.2]) = some (ls.matchLabels.map labelReq) :=
    mapM_some_of h1
  have e2 : ls.matchExprs.mapM (fun e => newReq e.key e.op.toOp e.vals) = some (ls.matchExprs.map exprReq) :=
    mapM_some_of h2
  unfold asSelector
  rw [e1, e2]
  rfl

theorem labelReq_matches (kv : Str × Str) (m : List (Str × Str)) :
    (labelReq kv).matches m = true ↔ lookup kv.1 m = some kv.2 := by
  simp only [labelReq, Req.matches]
  cases lookup kv.1 m <;> simp

theorem exprReq_matches (e : LReq) (m : List (Str × Str)) :
    (exprReq e).matches m = true ↔ ExprHolds e m := by
  obtain ⟨k, op, vs⟩ := e
  cases op <;> simp only [exprReq, LOp.toOp, Req.matches, ExprHolds] <;> cases lookup k m <;> simp

/-- A selector object means what the specification says. -/
theorem asSelector_matches {ls : LabelSelector} {rs : List Req} (h : asSelector ls = some rs)
    (m : List (Str × Str)) : selMatches rs m = true ↔ SelectorHolds ls m := by
  rw [(asSelector_some h).1, selMatches_perm (sortBy_perm _ _)]
  simp only [selMatches, List.all_eq_true, List.mem_append, List.mem_map, SelectorHolds]
  constructor
  · intro hh
    refine ⟨fun k v hkv => ?_, fun e he => ?_⟩
    · exact (labelReq_matches (k, v) m).mp (hh _ (Or.inl ⟨_, hkv, rfl⟩))
    · exact (exprReq_matches e m).mp (hh _ (Or.inr ⟨_, he, rfl⟩))
  · rintro ⟨h1, h2⟩ r (⟨kv, hkv, rfl⟩ | ⟨e, he, rfl⟩)
    · exact (labelReq_matches kv m).mpr (h1 kv.1 kv.2 hkv)
    · exact (exprReq_matches e m).mpr (h2 e he)

theorem asSelector_sorted {ls : LabelSelector} {rs : List Req} (h : asSelector ls = some rs) :
    rs.Pairwise (fun x y => Req.keyLe x y = true) := by
  rw [(asSelector_some h).1]
  exact sortBy_sorted keyLe_total keyLe_trans _

theorem toStr_ne_nil {r : Req} (h : r.Valid) : r.toStr ≠ [] := by
  have := (word_of_key h.key).1
  unfold Req.toStr
  cases r.op <;> simp [this]

theorem selStr_ne_nil {rs : List Req} (hne : rs ≠ []) (h : ∀ r ∈ rs, r.Valid) : selStr rs ≠ [] := by
  obtain ⟨r, l, rfl⟩ := List.exists_cons_of_ne_nil hne
  have := toStr_ne_nil (h r (by simp))
  cases l with
  | nil => simpa [selStr, join] using this
  | cons a l => simp [selStr, join]

/-- A selector with at least one requirement formats to its printed requirements. -/
theorem formatSelector_eq {ls : LabelSelector} {rs : List Req} (h : asSelector ls = some rs)
    (hne : rs ≠ []) : formatSelector ls = some (selStr rs) := by
  unfold formatSelector
  rw [h]
  have := selStr_ne_nil hne (asSelector_some h).2
  simp [this]

/-- The expressions of `ls` that print in a form the parser understands. -/
def LabelSelector.Printable (ls : LabelSelector) : Prop :=
  ∀ e ∈ ls.matchExprs, (e.op = .isIn ∨ e.op = .notIn) → ∃ v ∈ e.vals, v ≠ []

theorem legible_reqs {ls : LabelSelector} {rs : List Req} (h : asSelector ls = some rs)
    (hp : ∀ e ∈ ls.matchExprs, (e.op = .isIn ∨ e.op = .notIn) → (∃ v ∈ e.vals, v ≠ []) ∨ e.vals.length % 2 = 0) :
    ∀ r ∈ rs, r.Printable := by
  intro r hr
  rw [(asSelector_some h).1, mem_sortBy, List.mem_append, List.mem_map, List.mem_map] at hr
  rcases hr with ⟨x, hx, rfl⟩ | ⟨x, hx, rfl⟩
  · intro hop; simp [labelReq] at hop
  · intro hop
    refine hp x hx ?_
    obtain ⟨k, op, vs⟩ := x
    cases op <;> simp_all [exprReq, LOp.toOp]

theorem printable_reqs {ls : LabelSelector} {rs : List Req} (h : asSelector ls = some rs)
    (hp : ls.Printable) : ∀ r ∈ rs, r.Printable := legible_reqs h (fun e he hop => Or.inl (hp e he hop))

/-! ## The loop of `ParseToLabelSelector` -/

/-- Operators `ParseToLabelSelector` supports. -/
def Op.supported : Op → Bool
  | .gt => false
  | .lt => false
  | _ => true

/-- The equality requirements. -/
def Req.isEq (r : Req) : Bool := r.op = .eq || r.op = .deq

/-- The expression made from a non-equality requirement. -/
def Req.toExpr (r : Req) : LReq :=
  ⟨r.key, match r.op with
    | .isIn => .isIn
    | .notIn | .neq => .notIn
    | .exist => .exist
    | _ => .notExist, setList r.vals⟩

theorem selectorLoop_eq : ∀ (qs : List Req) (acc : LabelSelector), (∀ q ∈ qs, q.Valid) →
    (∀ q ∈ qs, q.op.supported = true) →
    selectorLoop qs acc = some
      { matchLabels := (qs.filter Req.isEq).foldl (fun m q => insertKV q.key (q.vals.headD []) m) acc.matchLabels
        matchExprs := acc.matchExprs ++ (qs.filter (fun q => !q.isEq)).map Req.toExpr }
  | [], acc, _, _ => by simp [selectorLoop]
  | q :: qs, acc, hv, hs => by
    have ih := fun acc => selectorLoop_eq qs acc (fun x hx => hv x (by simp [hx]))
      (fun x hx => hs x (by simp [hx]))
    have hc := (hv q (by simp)).count
    have hsq := hs q (by simp)
    obtain ⟨k, op, vs⟩ := q
    cases op <;> simp only at hc <;>
      simp only [selectorLoop, ih, Req.isEq, List.filter_cons, decide_true, Bool.or_true, Bool.true_or,
        if_true, List.foldl_cons, List.map_cons, List.append_assoc, List.singleton_append, Req.toExpr,
        Bool.not_true, Bool.false_eq_true, if_false, reduceCtorEq, decide_false, Bool.or_self,
        Bool.not_false]
    · obtain ⟨v, rfl⟩ := hc
      simp
    · obtain ⟨v, rfl⟩ := hc
      simp
    · simp [Op.supported] at hsq
    · simp [Op.supported] at hsq

theorem selectorLoop_unsupported : ∀ (qs : List Req) (acc : LabelSelector) (ls : LabelSelector),
    selectorLoop qs acc = some ls → ∀ q ∈ qs, q.op.supported = true
  | [], _, _, _ => by simp
  | q :: qs, acc, ls, h => by
    have ih := fun acc => selectorLoop_unsupported qs acc ls
    intro x hx
    rw [List.mem_cons] at hx
    simp only [selectorLoop] at h
    cases hop : q.op <;> rw [hop] at h <;> dsimp only at h
    case gt => simp at h
    case lt => simp at h
    case eq =>
      split at h
      · rcases hx with rfl | hx
        · simp [hop, Op.supported]
        · exact ih _ h x hx
      · simp at h
    case deq =>
      split at h
      · rcases hx with rfl | hx
        · simp [hop, Op.supported]
        · exact ih _ h x hx
      · simp at h
    all_goals
      rcases hx with rfl | hx
      · simp [hop, Op.supported]
      · exact ih _ h x hx

theorem toExpr_holds {q : Req} (hs : q.op.supported = true) (he : q.isEq = false)
    (m : List (Str × Str)) : ExprHolds q.toExpr m ↔ q.matches m = true := by
  obtain ⟨k, op, vs⟩ := q
  cases op <;> simp [Req.isEq, Op.supported] at he hs <;>
    simp only [Req.toExpr, ExprHolds, Req.matches] <;> cases lookup k m <;> simp [mem_setList]

/-- Entries of the folded equality map. -/
theorem mem_eqFold {ν : Type} {f : Req → ν} : ∀ (qs : List Req) (m0 : List (Str × ν)) (k : Str) (v : ν),
    IsMap m0 → (qs.map Req.key).Nodup → (∀ q ∈ qs, lookup q.key m0 = none) →
    ((k, v) ∈ qs.foldl (fun m q => insertKV q.key (f q) m) m0 ↔
      (k, v) ∈ m0 ∨ ∃ q ∈ qs, q.key = k ∧ f q = v)
  | [], m0, k, v, _, _, _ => by simp
  | q :: qs, m0, k, v, hm, hn, h0 => by
    rw [List.map_cons, List.nodup_cons] at hn
    have hm' : IsMap (insertKV q.key (f q) m0) := isMap_insertKV hm
    have ih := mem_eqFold (f := f) qs (insertKV q.key (f q) m0) k v hm' hn.2 (by
      intro x hx
      rw [lookup_insertKV, if_neg]
      · exact h0 x (by simp [hx])
      · intro he
        exact hn.1 (List.mem_map.mpr ⟨x, hx, he.symm⟩))
    rw [List.foldl_cons, ih, ← lookup_iff hm', lookup_insertKV]
    have hq0 := h0 q (by simp)
    by_cases hk : q.key = k
    · subst hk
      have : (q.key, v) ∉ m0 := fun hmem => by
        rw [← lookup_iff hm, hq0] at hmem; simp at hmem
      have hno : ¬ ∃ x ∈ qs, x.key = q.key ∧ f x = v := by
        rintro ⟨x, hx, he, _⟩
        exact hn.1 (List.mem_map.mpr ⟨x, hx, he⟩)
      simp only [if_true, Option.some.injEq, this, hno, or_false, false_or, List.mem_cons]
      constructor
      · rintro rfl; exact ⟨q, Or.inl rfl, rfl, rfl⟩
      · rintro ⟨x, rfl | hx, he, hf⟩
        · exact hf
        · exact absurd ⟨x, hx, he, hf⟩ hno
    · simp only [hk, if_false, lookup_iff hm, List.mem_cons]
      constructor
      · rintro (h | ⟨x, hx, h⟩)
        · exact Or.inl h
        · exact Or.inr ⟨x, Or.inr hx, h⟩
      · rintro (h | ⟨x, rfl | hx, h⟩)
        · exact Or.inl h
        · exact absurd h.1 hk
        · exact Or.inr ⟨x, hx, h⟩

theorem isEq_matches {q : Req} (hv : q.Valid) (he : q.isEq = true) (m : List (Str × Str)) :
    q.matches m = true ↔ lookup q.key m = some (q.vals.headD []) := by
  have hc := hv.count
  obtain ⟨k, op, vs⟩ := q
  cases op <;> simp [Req.isEq] at he <;> simp only at hc <;> obtain ⟨v, rfl⟩ := hc <;>
    simp only [Req.matches] <;> cases lookup k m <;> simp

/-- When no two equality requirements share a key, the parsed selector means the conjunction of
the requirements. -/
theorem selectorLoop_holds {qs : List Req} (hv : ∀ q ∈ qs, q.Valid)
    (hs : ∀ q ∈ qs, q.op.supported = true) (hn : ((qs.filter Req.isEq).map Req.key).Nodup)
    {ls : LabelSelector} (h : selectorLoop qs {} = some ls) (m : List (Str × Str)) :
    SelectorHolds ls m ↔ selMatches qs m = true := by
  rw [selectorLoop_eq qs {} hv hs] at h
  simp only [Option.some.injEq] at h
  subst h
  simp only [SelectorHolds, selMatches, List.all_eq_true, List.nil_append, List.mem_map, List.mem_filter]
  have hmem := fun k v => mem_eqFold (f := fun q => q.vals.headD []) (qs.filter Req.isEq) [] k v
    (by simp [IsMap]) hn (by simp [lookup])
  constructor
  · rintro ⟨h1, h2⟩ q hq
    cases he : q.isEq with
    | true =>
      rw [isEq_matches (hv q hq) he]
      exact h1 _ _ ((hmem _ _).mpr (Or.inr ⟨q, List.mem_filter.mpr ⟨hq, he⟩, rfl, rfl⟩))
    | false =>
      rw [← toExpr_holds (hs q hq) he]
      exact h2 _ ⟨q, ⟨hq, by simp [he]⟩, rfl⟩
  · intro hh
    constructor
    · intro k v hkv
      rcases (hmem k v).mp hkv with h | ⟨q, hq, rfl, rfl⟩
      · simp at h
      · obtain ⟨hq, he⟩ := List.mem_filter.mp hq
        exact (isEq_matches (hv q hq) he m).mp (hh q hq)
    · rintro e ⟨q, ⟨hq, he⟩, rfl⟩
      have he : q.isEq = false := by simpa using he
      exact (toExpr_holds (hs q hq) he m).mpr (hh q hq)

theorem isEq_ops {q : Req} : q.isEq = true ↔ (q.op = .eq ∨ q.op = .deq) := by
  simp [Req.isEq]

theorem lastEqualities_subset : ∀ (qs : List Req), ∀ q ∈ lastEqualities qs, q ∈ qs
  | [], _, h => by simp [lastEqualities] at h
  | x :: qs, q, h => by
    simp only [lastEqualities] at h
    split at h
    · exact List.mem_cons_of_mem _ (lastEqualities_subset qs q h)
    · rcases List.mem_cons.mp h with rfl | h
      · simp
      · exact List.mem_cons_of_mem _ (lastEqualities_subset qs q h)

theorem mem_lastEqualities_ne {q : Req} (he : q.isEq = false) : ∀ (qs : List Req), q ∈ qs → q ∈ lastEqualities qs
  | [], h => by simp at h
  | x :: qs, h => by
    simp only [lastEqualities]
    split
    · rename_i hx
      rcases List.mem_cons.mp h with rfl | h
      · rw [← isEq_ops, he] at hx; simp at hx
      · exact mem_lastEqualities_ne he qs h
    · rcases List.mem_cons.mp h with rfl | h
      · simp
      · exact List.mem_cons_of_mem _ (mem_lastEqualities_ne he qs h)

/-- Every equality is repeated or overruled by one that counts. -/
theorem lastEqualities_key {q : Req} (he : q.isEq = true) : ∀ (qs : List Req), q ∈ qs →
    ∃ r ∈ lastEqualities qs, r.isEq = true ∧ r.key = q.key
  | [], h => by simp at h
  | x :: qs, h => by
    simp only [lastEqualities]
    split
    · rename_i hx
      rcases List.mem_cons.mp h with rfl | h
      · obtain ⟨_, r, hr, hre, hrk⟩ := hx
        obtain ⟨t, ht, hte, htk⟩ := lastEqualities_key (q := r) (isEq_ops.mpr hre) qs hr
        exact ⟨t, ht, hte, htk.trans hrk⟩
      · exact lastEqualities_key he qs h
    · rcases List.mem_cons.mp h with rfl | h
      · exact ⟨q, by simp, he, rfl⟩
      · obtain ⟨t, ht, h⟩ := lastEqualities_key he qs h
        exact ⟨t, List.mem_cons_of_mem _ ht, h⟩

/-- Without repeated equalities all requirements count. -/
theorem lastEqualities_eq : ∀ {qs : List Req}, qs.Pairwise (fun a b => (a.op = .eq ∨ a.op = .deq) →
    (b.op = .eq ∨ b.op = .deq) → a.key ≠ b.key) → lastEqualities qs = qs
  | [], _ => rfl
  | x :: qs, h => by
    rw [List.pairwise_cons] at h
    rw [lastEqualities, if_neg, lastEqualities_eq h.2]
    rintro ⟨hx, r, hr, hre, hrk⟩
    exact h.1 r hr hx hre hrk.symm

/-- Entries of the folded equality map: the last equality of every key. -/
theorem mem_eqFold_last {ν : Type} {f : Req → ν} : ∀ (qs : List Req) (m0 : List (Str × ν)) (k : Str) (v : ν),
    IsMap m0 →
    ((k, v) ∈ (qs.filter Req.isEq).foldl (fun m q => insertKV q.key (f q) m) m0 ↔
      (∃ q ∈ lastEqualities qs, q.isEq = true ∧ q.key = k ∧ f q = v)
        ∨ ((k, v) ∈ m0 ∧ ∀ q ∈ qs, q.isEq = true → q.key ≠ k))
  | [], m0, k, v, _ => by simp [lastEqualities]
  | q :: qs, m0, k, v, hm => by
    cases he : q.isEq with
    | false =>
      have hne : ¬ (q.op = .eq ∨ q.op = .deq) := by rw [← isEq_ops, he]; simp
      rw [List.filter_cons_of_neg (by simp [he]), mem_eqFold_last qs m0 k v hm, lastEqualities,
        if_neg (fun h => hne h.1)]
      simp [he]
    | true =>
      have heq : (q.op = .eq ∨ q.op = .deq) := isEq_ops.mp he
      have hm' : IsMap (insertKV q.key (f q) m0) := isMap_insertKV hm
      rw [List.filter_cons_of_pos he, List.foldl_cons, mem_eqFold_last qs _ k v hm', ← lookup_iff hm', lookup_insertKV]
      by_cases hr : ∃ r ∈ qs, (r.op = .eq ∨ r.op = .deq) ∧ r.key = q.key
      · have hl : lastEqualities (q :: qs) = lastEqualities qs := by rw [lastEqualities, if_pos ⟨heq, hr⟩]
        rw [hl]
        obtain ⟨r, hr, hre, hrk⟩ := hr
        refine or_congr_right ?_
        by_cases hk : q.key = k
        · constructor
          · rintro ⟨_, h⟩
            exact absurd (hrk.trans hk) (h r hr (isEq_ops.mpr hre))
          · rintro ⟨_, h⟩
            exact absurd hk (h q (by simp) he)
        · rw [if_neg hk, lookup_iff hm]
          simp [he, hk]
      · have hl : lastEqualities (q :: qs) = q :: lastEqualities qs := by
          rw [lastEqualities, if_neg (fun h => hr h.2)]
        rw [hl]
        by_cases hk : q.key = k
        · subst hk
          have hno : ∀ x ∈ qs, x.isEq = true → x.key ≠ q.key := fun x hx hxe hxk =>
            hr ⟨x, hx, isEq_ops.mp hxe, hxk⟩
          rw [if_pos rfl]
          constructor
          · rintro (⟨x, hx, h⟩ | ⟨h, _⟩)
            · exact Or.inl ⟨x, List.mem_cons_of_mem _ hx, h⟩
            · exact Or.inl ⟨q, by simp, he, rfl, Option.some.inj h⟩
          · rintro (⟨x, hx, h⟩ | ⟨_, h⟩)
            · rcases List.mem_cons.mp hx with rfl | hx
              · exact Or.inr ⟨by rw [h.2.2], hno⟩
              · exact Or.inl ⟨x, hx, h⟩
            · exact absurd rfl (h q (by simp) he)
        · rw [if_neg hk, lookup_iff hm]
          simp [he, hk]

/-- The parsed selector means the conjunction of the requirements that count. -/
theorem selectorLoop_holds_last {qs : List Req} (hv : ∀ q ∈ qs, q.Valid)
    (hs : ∀ q ∈ qs, q.op.supported = true)
    {ls : LabelSelector} (h : selectorLoop qs {} = some ls) (m : List (Str × Str)) :
    SelectorHolds ls m ↔ ∀ q ∈ lastEqualities qs, q.matches m = true := by
  rw [selectorLoop_eq qs {} hv hs] at h
  simp only [Option.some.injEq] at h
  subst h
  simp only [SelectorHolds, List.nil_append, List.mem_map, List.mem_filter]
  have hmem := fun k v => mem_eqFold_last (f := fun q => q.vals.headD []) qs [] k v (by simp [IsMap])
  have hsub := lastEqualities_subset qs
  constructor
  · rintro ⟨h1, h2⟩ q hq
    cases he : q.isEq with
    | true =>
      rw [isEq_matches (hv q (hsub q hq)) he]
      exact h1 _ _ ((hmem _ _).mpr (Or.inl ⟨q, hq, he, rfl, rfl⟩))
    | false =>
      rw [← toExpr_holds (hs q (hsub q hq)) he]
      exact h2 _ ⟨q, ⟨hsub q hq, by simp [he]⟩, rfl⟩
  · intro hh
    constructor
    · intro k v hkv
      rcases (hmem k v).mp hkv with ⟨q, hq, he, rfl, rfl⟩ | h
      · exact (isEq_matches (hv q (hsub q hq)) he m).mp (hh q hq)
      · simp at h
    · rintro e ⟨q, ⟨hq, he⟩, rfl⟩
      have he : q.isEq = false := by simpa using he
      exact (toExpr_holds (hs q hq) he m).mpr (hh q (mem_lastEqualities_ne he qs hq))

theorem pReqBody_valid {neg : Bool} {is : List Item} {q : Req} {r : List Item}
    (h : pReqBody neg is = some (q, r)) : q.Valid := by
  have aux : ∀ {k op vs x}, (newReq k op vs).map (·, x) = some (q, r) → q.Valid := by
    intro k op vs x hx
    rw [Option.map_eq_some_iff] at hx
    obtain ⟨q', hq', he⟩ := hx
    cases he
    exact newReq_valid hq'
  unfold pReqBody at h
  repeat' split at h
  all_goals first
    | exact aux h
    | simp at h

theorem pReq_valid {is : List Item} {q : Req} {r : List Item} (h : pReq is = some (q, r)) : q.Valid := by
  unfold pReq at h
  split at h
  · simp at h
  · split at h <;> exact pReqBody_valid h

theorem pReqs_valid : ∀ {f : Nat} {is : List Item} {qs : List Req}, pReqs f is = some qs →
    ∀ q ∈ qs, q.Valid
  | 0, _, _, h => by simp [pReqs] at h
  | f + 1, is, qs, h => by
    have step : (match pReq is with
      | none => none
      | some (q, r) =>
        match r with
        | [] => none
        | i :: r1 =>
          match valTok i.tok with
          | .eos => some [q]
          | .comma =>
            if ahead r1 = .ident ∨ ahead r1 = .bang then (pReqs f r1).map (q :: ·) else none
          | _ => none) = some qs → ∀ q ∈ qs, q.Valid := by
      intro h
      split at h
      · simp at h
      · rename_i q r hq
        have hqv := pReq_valid hq
        split at h
        · simp at h
        · split at h
          · simp at h; subst h; simpa using hqv
          · split at h
            · rw [Option.map_eq_some_iff] at h
              obtain ⟨qs', hqs', rfl⟩ := h
              have := pReqs_valid hqs'
              intro x hx
              rcases List.mem_cons.mp hx with rfl | hx
              · exact hqv
              · exact this x hx
            · simp at h
          · simp at h
    rw [pReqs] at h
    split at h
    · exact step h
    · exact step h
    · simp at h; subst h; simp
    · simp at h

theorem parseReqs_valid {s : Str} {qs : List Req} (h : parseReqs s = some qs) : ∀ q ∈ qs, q.Valid := by
  unfold parseReqs at h
  rw [Option.map_eq_some_iff] at h
  obtain ⟨a, ha, rfl⟩ := h
  intro q hq
  exact pReqs_valid ha q ((mem_sortBy _).mp hq)

/-- An expression with its values as the parser returns them. -/
def LReq.norm (e : LReq) : LReq := { e with vals := setList e.vals }

theorem lreq_norm_holds (e : LReq) (m : List (Str × Str)) : ExprHolds e.norm m ↔ ExprHolds e m := by
  obtain ⟨k, op, vs⟩ := e
  cases op <;> simp [LReq.norm, ExprHolds, mem_setList]

theorem norm_isEq (r : Req) : r.norm.isEq = r.isEq := by
  unfold Req.norm; split <;> rfl

theorem norm_supported (r : Req) : r.norm.op = r.op := by
  unfold Req.norm; split <;> rfl

theorem isMap_eqFold {ν : Type} {f : Req → ν} : ∀ (qs : List Req) (m0 : List (Str × ν)), IsMap m0 →
    IsMap (qs.foldl (fun m q => insertKV q.key (f q) m) m0)
  | [], _, h => h
  | _ :: qs, _, h => isMap_eqFold qs _ (isMap_insertKV h)

/-- Parsing the printed form of a selector gives the selector back, with the values of each
expression sorted and without repetitions. -/
theorem parse_format {ls : LabelSelector} {rs : List Req} (h : asSelector ls = some rs)
    (hp : ∀ r ∈ rs, r.Printable) (hm : IsMap ls.matchLabels) :
    ∃ ls', parseToLabelSelector (selStr rs) = some ls' ∧ IsMap ls'.matchLabels
      ∧ (∀ kv, kv ∈ ls'.matchLabels ↔ kv ∈ ls.matchLabels)
      ∧ ls'.matchExprs.Perm (ls.matchExprs.map LReq.norm) := by
  obtain ⟨hrs, hv⟩ := asSelector_some h
  have hperm : rs.Perm (ls.matchLabels.map labelReq ++ ls.matchExprs.map exprReq) := by
    rw [hrs]; exact sortBy_perm _ _
  have hsup : ∀ q ∈ rs.map Req.norm, q.op.supported = true := by
    intro q hq
    obtain ⟨r, hr, rfl⟩ := List.mem_map.mp hq
    rw [norm_supported]
    rw [hperm.mem_iff, List.mem_append, List.mem_map, List.mem_map] at hr
    rcases hr with ⟨x, _, rfl⟩ | ⟨x, _, rfl⟩
    · rfl
    · obtain ⟨k, op, vs⟩ := x
      cases op <;> rfl
  have hvn : ∀ q ∈ rs.map Req.norm, q.Valid := by
    intro q hq
    obtain ⟨r, hr, rfl⟩ := List.mem_map.mp hq
    exact norm_valid (hv r hr)
  have hparse : parseReqs (selStr rs) = some (rs.map Req.norm) :=
    parseReqs_selStr_sorted hv hp (asSelector_sorted h)
  have hexprEq : ∀ e : LReq, (exprReq e).isEq = false := by
    rintro ⟨k, op, vs⟩; cases op <;> rfl
  have hpe : ((rs.map Req.norm).filter Req.isEq).Perm (ls.matchLabels.map labelReq) := by
    have := ((hperm.map Req.norm).filter Req.isEq)
    rw [List.map_append, List.filter_append, List.map_map, List.map_map] at this
    have e1 : (ls.matchLabels.map (Req.norm ∘ labelReq)).filter Req.isEq = ls.matchLabels.map labelReq := by
      rw [List.filter_eq_self.mpr]
      · rfl
      · intro a ha
        obtain ⟨x, _, rfl⟩ := List.mem_map.mp ha
        rfl
    have e2 : (ls.matchExprs.map (Req.norm ∘ exprReq)).filter Req.isEq = [] := by
      rw [List.filter_eq_nil_iff]
      intro a ha
      obtain ⟨x, _, rfl⟩ := List.mem_map.mp ha
      simp [norm_isEq, hexprEq]
    rw [e1, e2, List.append_nil] at this
    exact this
  have hpn : ((rs.map Req.norm).filter (fun q => !q.isEq)).Perm (ls.matchExprs.map (fun e => (exprReq e).norm)) := by
    have := ((hperm.map Req.norm).filter (fun q => !q.isEq))
    rw [List.map_append, List.filter_append, List.map_map, List.map_map] at this
    have e1 : (ls.matchLabels.map (Req.norm ∘ labelReq)).filter (fun q => !q.isEq) = [] := by
      rw [List.filter_eq_nil_iff]
      intro a ha
      obtain ⟨x, _, rfl⟩ := List.mem_map.mp ha
      have hx : (labelReq x).isEq = true := rfl
      simp [norm_isEq, hx]
    have e2 : (ls.matchExprs.map (Req.norm ∘ exprReq)).filter (fun q => !q.isEq)
        = ls.matchExprs.map (fun e => (exprReq e).norm) := by
      rw [List.filter_eq_self.mpr]
      · rfl
      · intro a ha
        obtain ⟨x, _, rfl⟩ := List.mem_map.mp ha
        simp [norm_isEq, hexprEq]
    rw [e1, e2, List.nil_append] at this
    exact this
  refine ⟨_, by unfold parseToLabelSelector; rw [hparse]; exact selectorLoop_eq _ {} hvn hsup, ?_, ?_, ?_⟩
  · exact isMap_eqFold _ _ (by simp [IsMap])
  · have hnod : (((rs.map Req.norm).filter Req.isEq).map Req.key).Nodup := by
      rw [(hpe.map Req.key).nodup_iff, List.map_map]
      exact hm
    rintro ⟨k, v⟩
    have := mem_eqFold (f := fun q => q.vals.headD []) ((rs.map Req.norm).filter Req.isEq) [] k v
      (by simp [IsMap]) hnod (by simp [lookup])
    rw [this]
    simp only [List.not_mem_nil, false_or, hpe.mem_iff, List.mem_map]
    constructor
    · rintro ⟨q, ⟨x, hx, rfl⟩, rfl, rfl⟩
      exact hx
    · intro hkv
      exact ⟨_, ⟨_, hkv, rfl⟩, rfl, rfl⟩
  · have := hpn.map Req.toExpr
    rw [List.map_map] at this
    have e : ls.matchExprs.map (Req.toExpr ∘ fun e => (exprReq e).norm) = ls.matchExprs.map LReq.norm := by
      apply List.map_congr_left
      rintro ⟨k, op, vs⟩ he
      cases op <;> simp [exprReq, LOp.toOp, Req.norm, Req.toExpr, LReq.norm, setList_idem]
    rw [e] at this
    simpa using this

theorem setMap_valid {q : Req} (hv : q.Valid) (hs : q.op.supported = true) (he : q.isEq = false) :
    (exprReq q.toExpr).Valid := by
  have hc := hv.count
  have hk := hv.key
  have hvals : ∀ v ∈ setList q.vals, validLabelValue v = true := fun v h => hv.vals v (mem_setList.mp h)
  obtain ⟨k, op, vs⟩ := q
  have hall : (setList vs).all validLabelValue = true := List.all_eq_true.mpr hvals
  unfold Req.Valid newReq
  rw [if_pos]
  cases op <;> simp [Req.isEq, Op.supported] at he hs <;>
    simp only [Req.toExpr, exprReq, LOp.toOp, okVals] <;> simp only at hc hk <;>
    rw [hk, hall] <;> simp only [Bool.true_and, Bool.and_true]
  · exact decide_eq_true (fun h0 => setList_ne_nil hc (List.length_eq_zero_iff.mp h0))
  · exact decide_eq_true (fun h0 => setList_ne_nil hc (List.length_eq_zero_iff.mp h0))
  · obtain ⟨v, rfl⟩ := hc; simp [setList_of_sorted]
  · subst hc; rfl
  · subst hc; rfl

/-- A parsed selector is always accepted by `LabelSelectorAsSelector`. -/
theorem asSelector_parsed {qs : List Req} (hv : ∀ q ∈ qs, q.Valid) {ls : LabelSelector}
    (h : selectorLoop qs {} = some ls) : ∃ rs, asSelector ls = some rs := by
  have hs := selectorLoop_unsupported qs {} ls h
  rw [selectorLoop_eq qs {} hv hs] at h
  simp only [Option.some.injEq] at h
  subst h
  refine ⟨_, asSelector_of_valid ?_ ?_⟩
  · have aux : ∀ (l : List Req) (m0 : List (Str × Str)), (∀ q ∈ l, q ∈ qs ∧ q.isEq = true) →
        (∀ kv ∈ m0, (labelReq kv).Valid) →
        ∀ kv ∈ l.foldl (fun m q => insertKV q.key (q.vals.headD []) m) m0, (labelReq kv).Valid := by
      intro l
      induction l with
      | nil => intro m0 _ h0; exact h0
      | cons q l ih =>
        intro m0 hl h0
        rw [List.foldl_cons]
        refine ih _ (fun x hx => hl x (by simp [hx])) ?_
        intro kv hkv
        have hmem : kv = (q.key, q.vals.headD []) ∨ kv ∈ m0 := by
          clear ih h0 hl
          induction m0 with
          | nil => simpa [insertKV] using hkv
          | cons a m0 ih =>
            obtain ⟨k', v'⟩ := a
            simp only [insertKV] at hkv
            split at hkv
            · rcases List.mem_cons.mp hkv with h | h
              · exact Or.inl h
              · exact Or.inr (by simp [h])
            · rcases List.mem_cons.mp hkv with h | h
              · exact Or.inr (by simp [h])
              · rcases ih h with h | h
                · exact Or.inl h
                · exact Or.inr (by simp [h])
        rcases hmem with rfl | hmem
        · obtain ⟨hq, he⟩ := hl q (by simp)
          have hvq := hv q hq
          have hc := hvq.count
          have hk := hvq.key
          have hvals := hvq.vals
          obtain ⟨k, op, vs⟩ := q
          cases op <;> simp [Req.isEq] at he <;> simp only at hc <;> obtain ⟨v, rfl⟩ := hc <;>
            simp only at hk hvals <;>
            simp [labelReq, Req.Valid, newReq, okVals, hk, hvals v (by simp)]
        · exact h0 kv hmem
    exact aux _ _ (fun q hq => List.mem_filter.mp hq) (by simp)
  · intro e he
    simp only [List.nil_append, List.mem_map, List.mem_filter] at he
    obtain ⟨q, ⟨hq, hb⟩, rfl⟩ := he
    exact setMap_valid (hv q hq) (hs q hq) (by simpa using hb)

theorem holds_congr {a b : LabelSelector} (h1 : ∀ kv, kv ∈ a.matchLabels ↔ kv ∈ b.matchLabels)
    (h2 : a.matchExprs.Perm (b.matchExprs.map LReq.norm)) (m : List (Str × Str)) :
    SelectorHolds a m ↔ SelectorHolds b m := by
  unfold SelectorHolds
  simp only [h1, h2.mem_iff, List.mem_map]
  constructor
  · rintro ⟨x, y⟩
    exact ⟨x, fun e he => (lreq_norm_holds e m).mp (y _ ⟨e, he, rfl⟩)⟩
  · rintro ⟨x, y⟩
    refine ⟨x, ?_⟩
    rintro _ ⟨e, he, rfl⟩
    exact (lreq_norm_holds e m).mpr (y e he)

end Ckube

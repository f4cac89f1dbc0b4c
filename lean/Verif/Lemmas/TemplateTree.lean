import Verif.Spec.TemplateTree
import Verif.Lemmas.TemplateTrim
import Verif.Lemmas.TemplateRun

/-! # Lemmas about Go templates with nested conditions -/

namespace Ckube
open Spec Json

/-! ## More fuel -/

theorem tNodes_more : ∀ (f : Nat),
    (∀ is, tNodes f is ≠ .other → tNodes (f + 1) is = tNodes f is)
    ∧ (∀ p is, tIf f p is ≠ .other → tIf (f + 1) p is = tIf f p is)
  | 0 => ⟨fun is h => absurd (by rw [tNodes]) h, fun p is h => absurd (by rw [tIf]) h⟩
  | f + 1 => by
    obtain ⟨ih1, ih2⟩ := tNodes_more f
    constructor
    · intro is h
      cases is with
      | nil => simp [tNodes]
      | cons i is =>
        cases i with
        | text s =>
          rw [tNodes] at h
          rw [tNodes, tNodes, ih1 is (by intro e; rw [e] at h; exact h rfl)]
        | act toks =>
          rw [tNodes] at h
          rw [tNodes, tNodes]
          cases ha : tAct toks with
          | bad => rfl
          | other => rfl
          | ok a =>
            rw [ha] at h
            cases a with
            | pipe p =>
              simp only at h ⊢
              rw [ih1 is (by intro e; rw [e] at h; exact h rfl)]
            | cond p =>
              simp only at h ⊢
              have hi : tIf f p is ≠ .other := by intro e; rw [e] at h; exact h rfl
              rw [ih2 p is hi]
              cases hf : tIf f p is with
              | bad => rfl
              | other => rfl
              | ok x =>
                rw [hf] at h
                simp only at h ⊢
                rw [ih1 x.2 (by intro e; rw [e] at h; exact h rfl)]
            | elseIf p => rfl
            | els => rfl
            | fin => rfl
    · intro p is h
      rw [tIf] at h
      rw [tIf, tIf]
      have h0 : tNodes f is ≠ .other := by intro e; rw [e] at h; exact h rfl
      rw [ih1 is h0]
      cases hn : tNodes f is with
      | bad => rfl
      | other => rfl
      | ok x =>
        obtain ⟨yes, e, is'⟩ := x
        rw [hn] at h
        cases e with
        | eof => rfl
        | fin => rfl
        | els =>
          simp only at h ⊢
          rw [ih1 is' (by intro e; rw [e] at h; exact h rfl)]
        | elseIf q =>
          simp only at h ⊢
          rw [ih2 q is' (by intro e; rw [e] at h; exact h rfl)]

theorem tNodes_le {f g : Nat} (h : f ≤ g) {is : List TItem} (hn : tNodes f is ≠ .other) : tNodes g is = tNodes f is := by
  induction h with
  | refl => rfl
  | step _ ih => rw [(tNodes_more _).1 is (by rw [ih]; exact hn), ih]

/-! ## Items and nodes -/

def elseIfToks (p : List Str) : List TTok := [.word (lit "else"), .sp] ++ condToks p

mutual
def treeItems : TTree → List TItem
  | .leaf l => [leafItem l]
  | .cond p yes no => .act (condToks p) :: (treesItems yes ++ elseItems no)

def treesItems : TTrees → List TItem
  | .nil => []
  | .cons t ts => treeItems t ++ treesItems ts

def elseItems : TElse → List TItem
  | .fin => [.act [.word (lit "end")]]
  | .els no => .act [.word (lit "else")] :: (treesItems no ++ [.act [.word (lit "end")]])
  | .elseIf p yes no => .act (elseIfToks p) :: (treesItems yes ++ elseItems no)
end

mutual
def treeNode : TTree → TNode
  | .leaf l => leafNode l
  | .cond p yes no => .cond [.val (.field p)] (treesNodes yes) (elseNodes no)

def treesNodes : TTrees → List TNode
  | .nil => []
  | .cons t ts => treeNode t :: treesNodes ts

def elseNodes : TElse → List TNode
  | .fin => []
  | .els no => treesNodes no
  | .elseIf p yes no => [.cond [.val (.field p)] (treesNodes yes) (elseNodes no)]
end

theorem condToks_text (p : List Str) : (condToks p).flatMap tokText = lit "if " ++ chainText p := by
  simp [condToks, tokText, pathToks_text, lit]

mutual
theorem treeItems_text : ∀ t : TTree, (treeItems t).flatMap itemText = t.written
  | .leaf l => by simp [treeItems, TTree.written, leafItem_text]
  | .cond p yes no => by
    rw [treeItems, List.flatMap_cons, List.flatMap_append, treesItems_text yes, elseItems_text no, TTree.written, itemText, condToks_text]
    simp [lit]

theorem treesItems_text : ∀ ts : TTrees, (treesItems ts).flatMap itemText = ts.written
  | .nil => rfl
  | .cons t ts => by rw [treesItems, List.flatMap_append, treeItems_text t, treesItems_text ts, TTrees.written]

theorem elseItems_text : ∀ e : TElse, (elseItems e).flatMap itemText = e.written
  | .fin => by decide +kernel
  | .els no => by
    rw [elseItems, List.flatMap_cons, List.flatMap_append, treesItems_text no, TElse.written, ← List.append_assoc]
    congr 1
  | .elseIf p yes no => by
    rw [elseItems, List.flatMap_cons, List.flatMap_append, treesItems_text yes, elseItems_text no, TElse.written, itemText, elseIfToks, List.flatMap_append,
      condToks_text]
    simp [lit, tokText]
end

theorem condToks_ok {p : List Str} (hp : PathOk p) : ToksOk (condToks p) := by
  have hif : FieldName (lit "if") := by unfold FieldName; decide +kernel
  refine toksOk_append ?_ (toksOk_path hp.2) ?_
  · simp [ToksOk, TokOk, TokNext, hif]
  · intro t ht
    simp at ht; subst ht
    cases p with
    | nil => exact absurd rfl hp.1
    | cons n p => simp [pathToks, TokNext]

theorem elseIfToks_ok {p : List Str} (hp : PathOk p) : ToksOk (elseIfToks p) := by
  have hel : FieldName (lit "else") := by unfold FieldName; decide +kernel
  refine toksOk_append ?_ (condToks_ok hp) ?_
  · simp [ToksOk, TokOk, TokNext, hel]
  · intro t ht
    simp at ht; subst ht
    simp [condToks, TokNext]

theorem end_ok : ItemOk (.act [.word (lit "end")]) := by
  have : FieldName (lit "end") := by unfold FieldName; decide +kernel
  simp [ItemOk, ToksOk, TokOk, TokNext, this]

theorem else_ok : ItemOk (.act [.word (lit "else")]) := by
  have : FieldName (lit "else") := by unfold FieldName; decide +kernel
  simp [ItemOk, ToksOk, TokOk, TokNext, this]

mutual
theorem treeItems_ok : ∀ {t : TTree}, t.Ok → ∀ i ∈ treeItems t, ItemOk i
  | .leaf l, h, i, hi => by simp [treeItems] at hi; subst hi; rw [TTree.Ok] at h; exact leafItem_ok h
  | .cond p yes no, h, i, hi => by
    rw [TTree.Ok] at h
    rw [treeItems, List.mem_cons, List.mem_append] at hi
    rcases hi with rfl | hi | hi
    · exact condToks_ok h.1
    · exact treesItems_ok h.2.1 i hi
    · exact elseItems_ok h.2.2 i hi

theorem treesItems_ok : ∀ {ts : TTrees}, ts.Ok → ∀ i ∈ treesItems ts, ItemOk i
  | .nil, _, i, hi => by simp [treesItems] at hi
  | .cons t ts, h, i, hi => by
    rw [TTrees.Ok] at h
    rw [treesItems, List.mem_append] at hi
    rcases hi with hi | hi
    · exact treeItems_ok h.1 i hi
    · exact treesItems_ok h.2.1 i hi

theorem elseItems_ok : ∀ {e : TElse}, e.Ok → ∀ i ∈ elseItems e, ItemOk i
  | .fin, _, i, hi => by simp [elseItems] at hi; subst hi; exact end_ok
  | .els no, h, i, hi => by
    rw [TElse.Ok] at h
    simp only [elseItems, List.mem_cons, List.mem_append, List.not_mem_nil, or_false] at hi
    rcases hi with rfl | hi | rfl
    · exact else_ok
    · exact treesItems_ok h i hi
    · exact end_ok
  | .elseIf p yes no, h, i, hi => by
    rw [TElse.Ok] at h
    rw [elseItems, List.mem_cons, List.mem_append] at hi
    rcases hi with rfl | hi | hi
    · exact elseIfToks_ok h.1
    · exact treesItems_ok h.2.1 i hi
    · exact elseItems_ok h.2.2 i hi
end

theorem elseItems_head (e : TElse) : ∀ x ∈ (elseItems e).head?, itemIsText x = false := by
  cases e <;> simp [elseItems, itemIsText]

theorem elseItems_last : ∀ (e : TElse), (elseItems e).getLast? = some (.act [.word (lit "end")])
  | .fin => rfl
  | .els no => by rw [elseItems, ← List.cons_append, List.getLast?_concat]
  | .elseIf p yes no => by
    have ih := elseItems_last no
    rw [elseItems, ← List.cons_append, List.getLast?_append, ih]
    rfl

theorem treeItems_head (t : TTree) : ∃ x, (treeItems t).head? = some x ∧ itemIsText x = t.isText := by
  cases t with
  | leaf l => exact ⟨_, rfl, leafItem_isText l⟩
  | cond p yes no => exact ⟨_, rfl, rfl⟩

theorem treeItems_last (t : TTree) : ∃ x, (treeItems t).getLast? = some x ∧ itemIsText x = t.isText := by
  cases t with
  | leaf l => exact ⟨_, rfl, leafItem_isText l⟩
  | cond p yes no =>
    refine ⟨.act [.word (lit "end")], ?_, rfl⟩
    rw [treeItems, ← List.cons_append, List.getLast?_append, elseItems_last]
    rfl

theorem treesItems_head (ts : TTrees) : ∀ x ∈ (treesItems ts).head?, itemIsText x = ts.textFirst := by
  cases ts with
  | nil => simp [treesItems]
  | cons t ts =>
    intro x hx
    obtain ⟨y, h1, h2⟩ := treeItems_head t
    rw [treesItems, List.head?_append, h1] at hx
    simp at hx
    rw [← hx, h2]; rfl

mutual
theorem treeItems_chain : ∀ {t : TTree}, t.Ok → ItemChain (treeItems t)
  | .leaf l, _ => by simp [treeItems]
  | .cond p yes no, h => by
    rw [TTree.Ok] at h
    exact chain_append (a := [_]) (by simp) (chain_append (treesItems_chain h.2.1) (elseItems_chain h.2.2) (.inr (elseItems_head no))) (.inl (by simp [itemIsText]))

theorem treesItems_chain : ∀ {ts : TTrees}, ts.Ok → ItemChain (treesItems ts)
  | .nil, _ => by simp [treesItems]
  | .cons t ts, h => by
    rw [TTrees.Ok] at h
    refine chain_append (treeItems_chain h.1) (treesItems_chain h.2.1) ?_
    by_cases ht : t.isText = true
    · refine .inr fun x hx => ?_
      rw [treesItems_head ts x hx]
      simpa [ht] using h.2.2
    · refine .inl fun x hx => ?_
      obtain ⟨y, h1, h2⟩ := treeItems_last t
      rw [h1] at hx
      simp at hx
      rw [← hx, h2]
      simpa using ht

theorem elseItems_chain : ∀ {e : TElse}, e.Ok → ItemChain (elseItems e)
  | .fin, _ => by simp [elseItems]
  | .els no, h => by
    rw [TElse.Ok] at h
    exact chain_append (a := [_]) (by simp) (chain_append (treesItems_chain h) (by simp) (.inr (by simp [itemIsText]))) (.inl (by simp [itemIsText]))
  | .elseIf p yes no, h => by
    rw [TElse.Ok] at h
    exact chain_append (a := [_]) (by simp) (chain_append (treesItems_chain h.2.1) (elseItems_chain h.2.2) (.inr (elseItems_head no))) (.inl (by simp [itemIsText]))
end

/-! ## Parsing -/

theorem tAct_elseIf {p : List Str} (h : p ≠ []) : tAct (elseIfToks p) = .ok (.elseIf [.val (.field p)]) := by
  have e : elseIfToks p = .word (lit "else") :: .sp :: .word (lit "if") :: .sp :: pathToks p := rfl
  have hp : tPipe (.sp :: pathToks p) = .ok [.val (.field p)] := by
    have ha := tArgs_path h (r := []) rfl
    rw [List.append_nil] at ha
    have hc : tCmd true (.sp :: pathToks p) = .ok (.val (.field p)) := by
      rw [tCmd, tArgs, ha]; rfl
    rw [tPipe, tSplit_nil_pipe (by simp [no_pipe_path])]
    simp only [tCmds, hc]
  rw [tAct, e]
  simp [List.dropWhile_cons, hp, lit]

theorem prep_ne_other {ns : List TNode} {x : JpRes (List TNode × TEnd × List TItem)} (h : x ≠ .other) : prep ns x ≠ .other := by
  cases x with
  | other => exact absurd rfl h
  | _ => simp [prep]

mutual
theorem tNodes_tree : ∀ {t : TTree}, t.Ok → ∀ {g : Nat} {rest : List TItem}, tNodes g rest ≠ .other → ∀ {f : Nat}, (treeItems t).length + g ≤ f →
    tNodes f (treeItems t ++ rest) = prep [treeNode t] (tNodes g rest)
  | .leaf l, h, g, rest, hr, f, hf => by
    rw [TTree.Ok] at h
    obtain ⟨f, rfl⟩ : ∃ k, f = k + 1 := ⟨f - 1, by simp [treeItems] at hf; omega⟩
    simp only [treeItems, List.singleton_append, treeNode]
    rw [tNodes_leaf h, tNodes_le (by simp [treeItems] at hf; omega) hr]
  | .cond p yes no, h, g, rest, hr, f, hf => by
    rw [TTree.Ok] at h
    obtain ⟨f, rfl⟩ : ∃ k, f = k + 1 := ⟨f - 1, by simp [treeItems] at hf; omega⟩
    simp only [treeItems, List.length_cons, List.length_append] at hf
    simp only [treeItems, List.cons_append, List.append_assoc, treeNode]
    rw [tNodes, tAct_cond h.1.1]
    simp only
    have hpos : 0 < g := by
      rcases Nat.eq_zero_or_pos g with rfl | hg
      · exact absurd (by rw [tNodes]) hr
      · exact hg
    rw [tIf_else (tNodes_trees h.2.1) h.2.2 rest (by omega)]
    simp only
    rw [tNodes_le (by omega) hr]
    cases tNodes g rest <;> rfl

theorem tNodes_trees : ∀ {ts : TTrees}, ts.Ok → ∀ {g : Nat} {rest : List TItem}, tNodes g rest ≠ .other → ∀ {f : Nat}, (treesItems ts).length + g ≤ f →
    tNodes f (treesItems ts ++ rest) = prep (treesNodes ts) (tNodes g rest)
  | .nil, _, g, rest, hr, f, hf => by
    simp only [treesItems, List.nil_append, treesNodes]
    rw [tNodes_le (by simp [treesItems] at hf; omega) hr]
    cases tNodes g rest <;> rfl
  | .cons t ts, h, g, rest, hr, f, hf => by
    rw [TTrees.Ok] at h
    simp only [treesItems, List.length_append] at hf
    have ih := tNodes_trees h.2.1 hr (f := (treesItems ts).length + g) (Nat.le_refl _)
    have hne : tNodes ((treesItems ts).length + g) (treesItems ts ++ rest) ≠ .other := by rw [ih]; exact prep_ne_other hr
    rw [treesItems, List.append_assoc, tNodes_tree h.1 hne (by omega), ih, prep_prep]
    rfl

theorem tIf_else : ∀ {no : TElse} {yes : TTrees}, (∀ {g : Nat} {rest : List TItem}, tNodes g rest ≠ .other → ∀ {f : Nat}, (treesItems yes).length + g ≤ f →
      tNodes f (treesItems yes ++ rest) = prep (treesNodes yes) (tNodes g rest)) → no.Ok → ∀ (rest : List TItem) {p : List TCmd} {f : Nat},
    (treesItems yes).length + (elseItems no).length + 1 ≤ f →
    tIf f p (treesItems yes ++ (elseItems no ++ rest)) = .ok (.cond p (treesNodes yes) (elseNodes no), rest)
  | .fin, yes, hy, hn, rest, p, f, hf => by
    obtain ⟨f, rfl⟩ : ∃ k, f = k + 1 := ⟨f - 1, by omega⟩
    simp only [elseItems, List.length_singleton] at hf
    have h1 : tNodes 1 (.act [.word (lit "end")] :: rest) = .ok ([], .fin, rest) := tNodes_end 0 rest
    rw [tIf]
    simp only [elseItems, List.singleton_append]
    rw [hy (g := 1) (by rw [h1]; simp) (by omega), h1]
    simp [prep, elseNodes]
  | .els no, yes, hy, hn, rest, p, f, hf => by
    rw [TElse.Ok] at hn
    obtain ⟨f, rfl⟩ : ∃ k, f = k + 1 := ⟨f - 1, by omega⟩
    simp only [elseItems, List.length_cons, List.length_append, List.length_nil] at hf
    have h1 : tNodes 1 (.act [.word (lit "end")] :: rest) = .ok ([], .fin, rest) := tNodes_end 0 rest
    have h2 : ∀ r, tNodes 1 (.act [.word (lit "else")] :: r) = .ok ([], .els, r) := tNodes_else 0
    rw [tIf]
    simp only [elseItems, List.cons_append, List.append_assoc, List.nil_append]
    rw [hy (g := 1) (by rw [h2]; simp) (by omega), h2]
    simp only [prep, List.append_nil]
    rw [tNodes_trees hn (g := 1) (by rw [h1]; simp) (by omega), h1]
    simp [prep, elseNodes]
  | .elseIf q y n, yes, hy, hn, rest, p, f, hf => by
    rw [TElse.Ok] at hn
    obtain ⟨f, rfl⟩ : ∃ k, f = k + 1 := ⟨f - 1, by omega⟩
    simp only [elseItems, List.length_cons, List.length_append] at hf
    have h2 : ∀ r, tNodes 1 (.act (elseIfToks q) :: r) = .ok ([], .elseIf [.val (.field q)], r) := by
      intro r; rw [tNodes, tAct_elseIf hn.1.1]
    rw [tIf]
    simp only [elseItems, List.cons_append, List.append_assoc]
    rw [hy (g := 1) (by rw [h2]; simp) (by omega), h2]
    simp only [prep, List.append_nil]
    rw [tIf_else (tNodes_trees hn.2.1) hn.2.2 rest (by omega)]
    simp [elseNodes]
end

theorem tLex_itemsText {is : List TItem} (hok : ∀ i ∈ is, ItemOk i) (hch : ItemChain is) :
    tLex ((is.flatMap itemText).length + 1) (is.flatMap itemText) = .ok is := by
  refine tLex_items _ _ ?_ hok hch
  have : ∀ is : List TItem, (∀ i ∈ is, ItemOk i) → is.length ≤ (is.flatMap itemText).length := by
    intro is
    induction is with
    | nil => simp
    | cons i is ih =>
      intro hi
      have := ih (fun j hj => hi j (by simp [hj]))
      have h1 : 1 ≤ (itemText i).length := by
        cases i with
        | text s =>
          have hs : s ≠ [] := (hi (.text s) (by simp)).1
          exact List.length_pos_iff.mpr hs
        | act ts => simp [itemText]
      simp only [List.flatMap_cons, List.length_append, List.length_cons]; omega
  have := this _ hok
  omega

/-- What is made of the items of a template. -/
def afterLex (is : List TItem) : JpRes (List TNode) :=
  match tNodes (2 * is.length + 2) is with
  | .ok (ns, .eof, _) => .ok ns
  | .ok _ => .bad
  | .bad => .bad
  | .other => .other

theorem tmplParse_items {is : List TItem} (hok : ∀ i ∈ is, ItemOk i) (hch : ItemChain is) : tmplParse (is.flatMap itemText) = afterLex is := by
  rw [tmplParse, tLex_itemsText hok hch]
  rfl

/-- A template that is written as trees is parsed to the nodes of its trees. -/
theorem tmplParse_trees {ts : TTrees} (h : ts.Ok) : tmplParse ts.written = .ok (treesNodes ts) := by
  rw [← treesItems_text, tmplParse_items (treesItems_ok h) (treesItems_chain h), afterLex]
  have h1 : tNodes 1 [] = .ok ([], .eof, []) := by rw [tNodes]
  have := tNodes_trees h (g := 1) (rest := []) (by rw [h1]; simp) (f := 2 * (treesItems ts).length + 2) (by omega)
  rw [List.append_nil, h1] at this
  rw [this]
  simp [prep]

/-! ## Executing -/

variable {num : Str → Option Str} {isPrint : Nat → Bool}

mutual
theorem tWalk_tree {doc : JV} : ∀ {t : TTree} {s : Str} {b : Bool}, TreeWrites num doc t s b → tWalk isPrint (toGo num doc) (treeNode t) = (s, b)
  | .leaf l, s, b, h => by
    cases h with
    | leaf h => exact tWalk_piece (.leaf h)
    | fails h => exact tWalk_fails h
  | .cond p yes no, s, b, h => by
    rw [treeNode, tWalk]
    cases h with
    | yes h ht hb =>
      simp only [tPipeline, tEval, tArg, tField_has h, Option.bind_some, truthy_toGo ht, if_true]
      exact tWalks_trees hb
    | no h hb =>
      rcases h with h | ⟨v, h, hf⟩
      · rcases absent_toGo h with h | h <;>
          simp only [tPipeline, tEval, tArg, h, Option.bind_some, tTrue, Bool.false_eq_true, if_false] <;> exact tWalks_else hb
      · simp only [tPipeline, tEval, tArg, tField_has h, Option.bind_some, falsy_toGo hf, Bool.false_eq_true, if_false]
        exact tWalks_else hb
    | blocked h => simp only [tPipeline, tEval, tArg, tField_blocked h, Option.bind_none]

theorem tWalks_trees {doc : JV} : ∀ {ts : TTrees} {s : Str} {b : Bool}, TreesWrite num doc ts s b → tWalks isPrint (toGo num doc) (treesNodes ts) = (s, b)
  | .nil, s, b, h => by cases h; rfl
  | .cons t ts, s, b, h => by
    rw [treesNodes, tWalks]
    cases h with
    | cons h hs =>
      simp only [tWalk_tree h, tWalks_trees hs, if_true]
    | stop h =>
      simp only [tWalk_tree h, Bool.false_eq_true, if_false]

theorem tWalks_else {doc : JV} : ∀ {e : TElse} {s : Str} {b : Bool}, ElseWrites num doc e s b → tWalks isPrint (toGo num doc) (elseNodes e) = (s, b)
  | .fin, s, b, h => by cases h; rfl
  | .els no, s, b, h => by
    cases h with
    | els h => exact tWalks_trees h
  | .elseIf p yes no, s, b, h => by
    cases h with
    | elseIf h =>
      have : tWalk isPrint (toGo num doc) (treeNode (.cond p yes no)) = (s, b) := by
        rw [treeNode, tWalk]
        cases h with
        | yes h ht hb =>
          simp only [tPipeline, tEval, tArg, tField_has h, Option.bind_some, truthy_toGo ht, if_true]
          exact tWalks_trees hb
        | no h hb =>
          rcases h with h | ⟨v, h, hf⟩
          · rcases absent_toGo h with h | h <;>
              simp only [tPipeline, tEval, tArg, h, Option.bind_some, tTrue, Bool.false_eq_true, if_false] <;> exact tWalks_else hb
          · simp only [tPipeline, tEval, tArg, tField_has h, Option.bind_some, falsy_toGo hf, Bool.false_eq_true, if_false]
            exact tWalks_else hb
        | blocked h => simp only [tPipeline, tEval, tArg, tField_blocked h, Option.bind_none]
      rw [elseNodes, tWalks, tWalks]
      rw [treeNode] at this
      rw [this]
      cases b <;> simp
end

end Ckube

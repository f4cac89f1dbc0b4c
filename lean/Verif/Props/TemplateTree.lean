import Verif.Lemmas.TemplateTree
import Verif.Lemmas.Url
import Verif.Props.Template

/-! # What index expressions that are Go templates yield: C87 with nested conditions, and what is refused -/

namespace Ckube
open Spec Json

variable {num : Str → Option Str} {isPrint : Nat → Bool} {other : Str → Str → Str} {js : Obj → Str}

/-- The value of an expression that is a template. -/
theorem indexValue_parsed (o : Obj) {e : Str} (hc : contains e (lit "{{") = true) :
    (∀ ns, tmplParse e = .ok ns → indexValue (ixEval num isPrint other js) o e = (tWalks isPrint (.obj (decodeMap num (js o))) ns).1)
    ∧ (tmplParse e = .bad → indexValue (ixEval num isPrint other js) o e = []) := by
  refine ⟨fun ns h => ?_, fun h => ?_⟩ <;> simp only [indexValue, hc, if_true, ixEval, jpEval, tmplOther, h]

theorem contains_items {is : List TItem} {ts : List TTok} (h : .act ts ∈ is) : contains (is.flatMap itemText) (lit "{{") = true := by
  obtain ⟨a, b, rfl⟩ := List.append_of_mem h
  rw [contains_iff]
  refine ⟨a.flatMap itemText, ts.flatMap tokText ++ [125, 125] ++ b.flatMap itemText, ?_⟩
  simp [itemText, lit]

theorem trees_text {doc : JV} : ∀ {ts : TTrees} {t : Str} {b : Bool}, TreesWrite num doc ts t b → ts.Ok → (∀ toks, .act toks ∉ treesItems ts) →
    t = ts.written ∧ (123 : UInt8) ∉ ts.written
  | .nil, t, b, h, _, _ => by cases h; exact ⟨rfl, by simp [TTrees.written]⟩
  | .cons (.leaf (.text s)) ts, t, b, h, hok, ha => by
    rw [TTrees.Ok, TTree.Ok] at hok
    cases h with
    | cons h hs =>
      obtain ⟨h1, h2⟩ := trees_text hs hok.2.1 (fun toks hm => ha toks (by rw [treesItems]; exact List.mem_append_right _ hm))
      cases h with
      | leaf h =>
        cases h
        refine ⟨by rw [h1]; rfl, ?_⟩
        rw [TTrees.written, List.mem_append, not_or]
        exact ⟨hok.1.2, h2⟩
    | stop h => cases h with | fails h => cases h
  | .cons (.leaf (.act a l r)) ts, _, _, _, _, ha => absurd (by simp [treesItems, treeItems, leafItem]) (ha (spTok l ++ actToks a ++ spTok r))
  | .cons (.cond p yes no) ts, _, _, _, _, ha => absurd (by simp [treesItems, treeItems]) (ha (condToks p))

/-- **C87**: an index expression made of text, field actions, `default`, `quote`, `join` and conditions, which may be nested and have any number of `else if`, yields,
for every object, its text with every action replaced by what it denotes and every condition by what the branch for its value writes; the first action or condition that
cannot be evaluated ends the value. Missing for the full claim: what is missing in `C87_template_partial` except nested conditions. -/
theorem C87_nested_partial (o : Obj) (ms : List (Str × JV)) (hjs : Json.parse (js o) = some (.obj ms)) {ts : TTrees} (hok : ts.Ok) {t : Str} {b : Bool}
    (h : TreesWrite num (.obj ms) ts t b) : indexValue (ixEval num isPrint other js) o ts.written = t := by
  by_cases ha : ∃ toks, .act toks ∈ treesItems ts
  · obtain ⟨toks, ha⟩ := ha
    have hc : contains ts.written (lit "{{") = true := by rw [← treesItems_text]; exact contains_items ha
    rw [(indexValue_parsed o hc).1 _ (tmplParse_trees hok)]
    have hd : JV.obj (decodeMap num (js o)) = toGo num (.obj ms) := by rw [decodeMap, hjs, toGo]
    rw [hd, tWalks_trees h]
  · obtain ⟨h1, h2⟩ := trees_text h hok (fun toks hm => ha ⟨toks, hm⟩)
    have g1 : contains ts.written (lit "{") = false := by
      rw [← Bool.not_eq_true, contains_iff]
      rintro ⟨a, b, e⟩
      exact h2 (by rw [← e]; simp [lit])
    have g2 : contains ts.written (lit "{{") = false := by
      rw [← Bool.not_eq_true, contains_iff]
      rintro ⟨a, b, e⟩
      exact h2 (by rw [← e]; simp [lit])
    rw [indexValue, g2, g1, h1]
    simp

def mistakeToks : TMistake → List TTok
  | .function p f => pathToks p ++ [.sp, .pipe, .sp, .word f]
  | .noEnd p => condToks p
  | .noIf => [.word (lit "end")]
  | .noIfElse => [.word (lit "else")]

theorem mistakeToks_text (m : TMistake) : itemText (.act (mistakeToks m)) = m.written := by
  cases m with
  | function p f => simp [mistakeToks, TMistake.written, itemText, pathToks_text, tokText, lit]
  | noEnd p => simp [mistakeToks, TMistake.written, itemText, condToks_text, lit]
  | noIf => decide +kernel
  | noIfElse => decide +kernel

theorem mistakeToks_ok {m : TMistake} (h : m.Ok) : ItemOk (.act (mistakeToks m)) := by
  cases m with
  | function p f =>
    obtain ⟨hp, hf, -⟩ := h
    show ToksOk _
    refine toksOk_append (toksOk_path hp.2) ?_ ?_
    · simp [ToksOk, TokOk, TokNext, hf]
    · intro t ht
      obtain ⟨n, rfl⟩ := path_last ht
      simp [TokNext]
  | noEnd p => exact condToks_ok h
  | noIf => exact end_ok
  | noIfElse => exact else_ok

theorem tAct_function {p : List Str} {f : Str} (hp : PathOk p) (h1 : tFn f = none) (h2 : tKnown.contains f = false) :
    tAct (pathToks p ++ [.sp, .pipe, .sp, .word f]) = .bad := by
  obtain ⟨n, q, rfl⟩ : ∃ n q, p = n :: q := by
    cases p with
    | nil => exact absurd rfl hp.1
    | cons n q => exact ⟨n, q, rfl⟩
  have hpipe : tPipe (pathToks (n :: q) ++ [.sp, .pipe, .sp, .word f]) = .bad := by
    have e : pathToks (n :: q) ++ [.sp, .pipe, .sp, .word f] = (pathToks (n :: q) ++ [.sp]) ++ .pipe :: [.sp, .word f] := by simp
    have hc := tCmd_path hp.1 (sps := [.sp]) (by simp)
    have h3 : tCmd false [.sp, .word f] = .bad := by
      have h2' : f ∉ tKnown := by simpa using h2
      simp [tCmd, tArgs, tSep, h1, h2']
    rw [tPipe, e, tSplit_pipe (by simp [no_pipe_path]), tSplit_nil_pipe (by simp)]
    simp only [tCmds, hc, h3]
  rw [tAct]
  simp only [pathToks, List.map_cons, List.cons_append, List.dropWhile_cons, reduceCtorEq, decide_false, Bool.false_eq_true, if_false, List.headD_cons]
  have := hpipe
  simp only [pathToks, List.map_cons, List.cons_append] at this
  rw [this]

theorem mistake_text (ts us : TTrees) (m : TMistake) :
    ts.written ++ m.written ++ us.written = (treesItems ts ++ (.act (mistakeToks m) :: treesItems us)).flatMap itemText := by
  rw [List.flatMap_append, List.flatMap_cons, treesItems_text, treesItems_text, mistakeToks_text, List.append_assoc]

theorem tmplParse_mistake {ts us : TTrees} (ht : ts.Ok) (hu : us.Ok) {m : TMistake} (hm : m.Ok) :
    tmplParse (ts.written ++ m.written ++ us.written) = .bad := by
  rw [mistake_text]
  rw [tmplParse_items]
  · have hend : tNodes 1 [] = .ok ([], .eof, []) := by rw [tNodes]
    have hus : tNodes ((treesItems us).length + 1) (treesItems us) = .ok (treesNodes us, .eof, []) := by
      have := tNodes_trees hu (g := 1) (rest := []) (by rw [hend]; simp) (f := (treesItems us).length + 1) (Nat.le_refl _)
      rw [List.append_nil, hend] at this
      rw [this]
      simp [prep]
    have key : (tNodes ((treesItems us).length + 3) (.act (mistakeToks m) :: treesItems us) = .bad)
        ∨ (∃ r, tNodes ((treesItems us).length + 3) (.act (mistakeToks m) :: treesItems us) = .ok ([], .fin, r))
        ∨ (∃ r, tNodes ((treesItems us).length + 3) (.act (mistakeToks m) :: treesItems us) = .ok ([], .els, r)) := by
      cases m with
      | function p f =>
        left
        obtain ⟨hp, hf, hn⟩ := hm
        have h1 : tFn f = none := by
          have hw : lit "default" ∈ templateWords ∧ lit "quote" ∈ templateWords ∧ lit "join" ∈ templateWords := by decide +kernel
          rw [tFn, if_neg (fun e : f = _ => hn (e ▸ hw.1)), if_neg (fun e : f = _ => hn (e ▸ hw.2.1)), if_neg (fun e : f = _ => hn (e ▸ hw.2.2))]
        have h2 : tKnown.contains f = false := by
          have hw : ∀ k ∈ tKnown, k ∈ templateWords := by decide +kernel
          rw [← Bool.not_eq_true, List.contains_iff_mem]
          exact fun hk => hn (hw f hk)
        rw [tNodes, mistakeToks, tAct_function hp h1 h2]
      | noEnd p =>
        left
        rw [tNodes, mistakeToks, tAct_cond hm.1]
        simp only
        rw [tIf, hus]
      | noIf => exact Or.inr (Or.inl ⟨_, tNodes_end _ _⟩)
      | noIfElse => exact Or.inr (Or.inr ⟨_, tNodes_else _ _⟩)
    have hne : tNodes ((treesItems us).length + 3) (.act (mistakeToks m) :: treesItems us) ≠ .other := by
      rcases key with h | ⟨r, h⟩ | ⟨r, h⟩ <;> rw [h] <;> simp
    have hlen : (treesItems ts).length + ((treesItems us).length + 3)
        ≤ 2 * (treesItems ts ++ (.act (mistakeToks m) :: treesItems us)).length + 2 := by
      simp only [List.length_append, List.length_cons]; omega
    rw [afterLex, tNodes_trees ht hne hlen]
    rcases key with h | ⟨r, h⟩ | ⟨r, h⟩ <;> rw [h] <;> rfl
  · intro i hi
    rw [List.mem_append, List.mem_cons] at hi
    rcases hi with hi | rfl | hi
    · exact treesItems_ok ht i hi
    · exact mistakeToks_ok hm
    · exact treesItems_ok hu i hi
  · exact chain_append (treesItems_chain ht) (chain_append (a := [_]) (by simp) (treesItems_chain hu) (.inl (by simp [itemIsText]))) (.inr (by simp [itemIsText]))

/-- **C87**, what cannot be parsed: with a mistake anywhere the index is empty, whatever the rest of the template would write. -/
theorem C87_refused (o : Obj) {ts us : TTrees} (ht : ts.Ok) (hu : us.Ok) {m : TMistake} (hm : m.Ok) :
    indexValue (ixEval num isPrint other js) o (ts.written ++ m.written ++ us.written) = [] := by
  refine (indexValue_parsed o ?_).2 (tmplParse_mistake ht hu hm)
  rw [mistake_text]
  exact contains_items (ts := mistakeToks m) (by simp)

/-! ## The shared template -/

theorem trees_not_empty {ts : TTrees} (hc : contains ts.written (lit "{{") = true) (hok : ts.Ok) : tEmpty (treesNodes ts) = false := by
  have main : ∀ {ts : TTrees}, ts.Ok → tEmpty (treesNodes ts) = true → (123 : UInt8) ∉ ts.written := by
    intro ts hok he
    exact go ts hok he
  rw [← Bool.not_eq_true]
  intro he
  rw [contains_iff] at hc
  obtain ⟨a, b, e⟩ := hc
  exact main hok he (by rw [← e]; simp [lit])
where
  go : ∀ ts : TTrees, ts.Ok → tEmpty (treesNodes ts) = true → (123 : UInt8) ∉ ts.written
    | .nil, _, _ => by simp [TTrees.written]
    | .cons (.leaf (.text s)) ts, hok, he => by
      rw [TTrees.Ok, TTree.Ok] at hok
      rw [treesNodes, tEmpty, List.all_cons, Bool.and_eq_true] at he
      rw [TTrees.written, List.mem_append, not_or]
      exact ⟨hok.1.2, go ts hok.2.1 he.2⟩
    | .cons (.leaf (.act a l r)) ts, _, he => by simp [treesNodes, treeNode, leafNode, tEmpty] at he
    | .cons (.cond p yes no) ts, _, he => by simp [treesNodes, treeNode, tEmpty] at he

/-- **C88** for nested conditions and for templates with a mistake: whatever the order in which the expressions of a type are evaluated, and whatever template was parsed
before, every index is what its expression yields alone. Missing for the full claim: as in `C88_independent_partial`. -/
theorem C88_nested_partial (o : Obj) (conf : List (Str × Str))
    (h : ∀ e ∈ conf, contains e.2 (lit "{{") = true →
      ∃ ts : TTrees, ts.Ok ∧ (e.2 = ts.written ∨ ∃ (us : TTrees) (m : TMistake), us.Ok ∧ m.Ok ∧ e.2 = ts.written ++ m.written ++ us.written))
    (tree : Option (List TNode)) :
    sharedIndex num isPrint other js o tree conf = conf.map (fun e => (e.1, indexValue (ixEval num isPrint other js) o e.2)) := by
  induction conf generalizing tree with
  | nil => rfl
  | cons e conf ih =>
    obtain ⟨k, e⟩ := e
    have ih := fun tree => ih (fun x hx => h x (List.mem_cons_of_mem _ hx)) tree
    rw [sharedIndex, List.map_cons]
    by_cases hc : contains e (lit "{{") = true
    · obtain ⟨ts, hok, he | ⟨us, m, hu, hm, he⟩⟩ := h (k, e) List.mem_cons_self hc
      · simp only at he
        subst he
        have hv := (indexValue_parsed (num := num) (isPrint := isPrint) (other := other) (js := js) o hc).1 _ (tmplParse_trees hok)
        simp only [hc, if_true, tmplParse_trees hok, trees_not_empty hc hok, Bool.false_eq_true, if_false, ih, hv]
      · simp only at he
        subst he
        simp only [hc, if_true, tmplParse_mistake hok hu hm, ih, C87_refused o hok hu hm]
    · simp only [hc, Bool.false_eq_true, if_false, ih]

/-! ## Objects -/

theorem goMap_increasing {kvs : List (Str × Str)} (h : kvs.Pairwise fun a b => strLt a.1 b.1 = true) :
    goMap (toGoMembers num (kvs.map fun e => (e.1, .str e.2))) = kvs.map fun e => (e.1, .str e.2) := by
  have e1 : toGoMembers num (kvs.map fun e => (e.1, .str e.2)) = kvs.map fun e => (e.1, JV.str e.2) := by
    induction kvs with
    | nil => rfl
    | cons e kvs ih => rw [List.map_cons, toGoMembers, ih (List.pairwise_cons.mp h).2, toGo]
  have irr : ∀ x : Str, ¬ strLt x x = true := fun x => by simp [strLt_irrefl]
  have fold : ∀ (l acc : List (Str × JV)), (acc ++ l).Pairwise (fun a b => strLt a.1 b.1 = true) →
      l.foldl (fun m e => insertKV e.1 e.2 m) acc = acc ++ l := by
    intro l
    induction l with
    | nil => simp
    | cons e l ih =>
      intro acc hp
      rw [List.foldl_cons, insertKV_new]
      · rw [ih]
        · simp
        · simpa using hp
      · intro hm
        obtain ⟨x, hx, hk⟩ := List.mem_map.mp hm
        have := (List.pairwise_append.mp hp).2.2 x hx e (by simp)
        rw [hk] at this
        exact irr _ this
  have hp : (kvs.map fun e => (e.1, JV.str e.2)).Pairwise (fun a b => strLt a.1 b.1 = true) := by
    rw [List.pairwise_map]; exact h
  rw [goMap, e1, fold _ [] (by simpa using hp), List.nil_append]
  refine sortBy_of_sorted _ (hp.imp fun {a b} hab => ?_)
  unfold strLt at hab
  rcases strLe_total a.1 b.1 with h1 | h1
  · exact h1
  · simp [h1] at hab

/-- **C87 is false** for `quote` of an object, such as the labels: the index is no string of the object's JSON but the text in which Go shows a map. -/
theorem C87_false_map (o : Obj) (ms : List (Str × JV)) (hjs : Json.parse (js o) = some (.obj ms)) (p : List Str) (hp : PathOk p) (kvs : List (Str × Str))
    (hs : kvs.Pairwise fun a b => strLt a.1 b.1 = true) (ha : ∀ e ∈ kvs, PlainAscii e.1 ∧ PlainAscii e.2)
    (h : HasAt p (.obj ms) (.obj (kvs.map fun e => (e.1, .str e.2)))) :
    indexValue (ixEval num isPrint other js) o (lit "{{" ++ chainText p ++ lit " | quote}}")
      = lit "map[" ++ [32].intercalate (kvs.map fun e => [34] ++ e.1 ++ lit "\":\"" ++ e.2 ++ [34]) ++ lit "]" := by
  have := indexValue_action (num := num) (isPrint := isPrint) (other := other) hjs (a := .quoted p) hp false false
  have e : lit "{{" ++ blank false ++ (TAction.quoted p).written ++ blank false ++ lit "}}" = lit "{{" ++ chainText p ++ lit " | quote}}" := by
    simp [blank, TAction.written, lit]
  rw [e] at this
  have hg := tField_has (num := num) h
  rw [toGo, toGo, goMap_increasing hs] at hg
  rw [this, tWalk, toGo]
  simp only [actCmds, tPipeline, tEval, tArg, hg, Option.bind_some, List.mapM_nil, Option.pure_def, List.nil_append]
  show fmtVerb isPrint 113 (.obj (kvs.map fun e => (e.1, .str e.2))) = _
  rw [fmtVerb]
  have hm : fmtMembers isPrint 113 (kvs.map fun e => (e.1, .str e.2)) = kvs.map fun e => (e.1, [34] ++ e.2 ++ [34]) := by
    clear this hg h hs e
    induction kvs with
    | nil => rfl
    | cons e kvs ih =>
      rw [List.map_cons, fmtMembers, ih (fun x hx => ha x (by simp [hx])), fmtVerb, if_pos rfl, quote_plain (ha e (by simp)).2]
      rfl
  rw [hm, sortBy_of_sorted]
  · rw [List.map_map, join_intercalate]
    have : kvs.map ((fun e : Str × Str => (if (113 : UInt8) = 113 then quote isPrint e.1 else e.1) ++ [58] ++ e.2) ∘ fun e => (e.1, [34] ++ e.2 ++ [34]))
        = kvs.map fun e => [34] ++ e.1 ++ lit "\":\"" ++ e.2 ++ [34] := by
      refine List.map_congr_left fun e he => ?_
      simp only [Function.comp, if_true, quote_plain (ha e he).1]
      simp [lit]
    rw [this]
    rfl
  · rw [List.pairwise_map]
    refine hs.imp fun {a b} hab => ?_
    unfold strLt at hab
    rcases strLe_total a.1 b.1 with h1 | h1
    · exact h1
    · simp [h1] at hab

/-! ## The hypotheses are met -/

def exPath (a : String) : List Str := [lit a]

/-- `{{if .a}}1{{else if .b}}{{if .c}}2{{end}}{{.d}}{{else}}3{{end}}!` -/
def exNested : TTrees :=
  .cons (.cond (exPath "a") (.cons (.leaf (.text (lit "1"))) .nil)
    (.elseIf (exPath "b") (.cons (.cond (exPath "c") (.cons (.leaf (.text (lit "2"))) .nil) .fin) (.cons (.leaf (.act (.field (exPath "d")) false false)) .nil))
      (.els (.cons (.leaf (.text (lit "3"))) .nil)))) (.cons (.leaf (.text (lit "!"))) .nil)

theorem exNested_ok : exNested.Ok := by
  have hn : ∀ s ∈ ["a", "b", "c", "d"], PathOk (exPath s) := by
    intro s hs
    refine ⟨by simp [exPath], ?_⟩
    simp only [exPath, List.mem_singleton, forall_eq]
    simp only [List.mem_cons, List.not_mem_nil, or_false] at hs
    rcases hs with rfl | rfl | rfl | rfl <;> (unfold FieldName; decide +kernel)
  have ht : ∀ s ∈ ["1", "2", "3", "!"], (TLeaf.text (lit s)).Ok := by
    intro s hs
    simp only [List.mem_cons, List.not_mem_nil, or_false] at hs
    rcases hs with rfl | rfl | rfl | rfl <;> (simp only [TLeaf.Ok]; decide +kernel)
  simp only [exNested, TTrees.Ok, TTree.Ok, TElse.Ok, TLeaf.Ok, TAction.Ok, TTree.isText, TTrees.textFirst, TLeaf.isText]
  simp [hn "a", hn "b", hn "c", hn "d", show lit "1" ≠ [] ∧ (123 : UInt8) ∉ lit "1" from ht "1" (by simp),
    show lit "2" ≠ [] ∧ (123 : UInt8) ∉ lit "2" from ht "2" (by simp), show lit "3" ≠ [] ∧ (123 : UInt8) ∉ lit "3" from ht "3" (by simp),
    show lit "!" ≠ [] ∧ (123 : UInt8) ∉ lit "!" from ht "!" (by simp)]

/-- The second branch, in which a nested condition holds. -/
example : exNested.Ok ∧ exNested.written = lit "{{if .a}}1{{else if .b}}{{if .c}}2{{end}}{{.d}}{{else}}3{{end}}!"
    ∧ TreesWrite some (.obj [(lit "b", .bool true), (lit "c", .str (lit "x")), (lit "d", .str (lit "y"))]) exNested (lit "2y!") true := by
  refine ⟨exNested_ok, by decide +kernel, ?_⟩
  have e : lit "2y!" = (([50] ++ []) ++ ([121] ++ [])) ++ ([33] ++ []) := by decide +kernel
  rw [e]
  refine .cons (.no (Or.inl (Or.inl (.here rfl))) (.elseIf (.yes (v := .bool true) (.step rfl (.nil _)) .tt (.cons ?_ (.cons ?_ .nil))))) (.cons (.leaf (.text _)) .nil)
  · exact .yes (v := .str (lit "x")) (.step rfl (.nil _)) (.str (by decide)) (.cons (.leaf (.text _)) .nil)
  · exact .leaf (.act (.str (.step rfl (.nil _))))

/-- A mistake after a nested template, and what is made of it. -/
example : (TMistake.function [lit "b"] (lit "lower")).Ok
    ∧ exNested.written ++ (TMistake.function [lit "b"] (lit "lower")).written ++ exNested.written
      = lit "{{if .a}}1{{else if .b}}{{if .c}}2{{end}}{{.d}}{{else}}3{{end}}!{{.b | lower}}{{if .a}}1{{else if .b}}{{if .c}}2{{end}}{{.d}}{{else}}3{{end}}!" := by
  refine ⟨⟨⟨by simp, ?_⟩, by unfold FieldName; decide +kernel, by decide +kernel⟩, by decide +kernel⟩
  intro n hn
  rw [List.mem_singleton] at hn
  subst hn
  unfold FieldName
  decide +kernel

/-- Two labels. -/
example : [(lit "app", lit "web"), (lit "tier", lit "db")].Pairwise (fun a b => strLt a.1 b.1 = true)
    ∧ HasAt [lit "labels"] (.obj [(lit "labels", .obj ([(lit "app", lit "web"), (lit "tier", lit "db")].map fun e => (e.1, .str e.2)))])
      (.obj ([(lit "app", lit "web"), (lit "tier", lit "db")].map fun e => (e.1, .str e.2)))
    ∧ indexValue (ixEval some (fun _ => true) (fun _ _ => []) (fun _ => lit "{\"labels\":{\"app\":\"web\",\"tier\":\"db\"}}")) {} (lit "{{.labels | quote}}")
      = lit "map[\"app\":\"web\" \"tier\":\"db\"]" :=
  ⟨by decide +kernel, .step rfl (.nil _), by decide +kernel⟩

/-- Expressions with nested conditions and with a mistake, in both orders. -/
example :
    let js : Obj → Str := fun _ => lit "{\"b\":\"x\",\"d\":\"y\"}"
    let run := sharedIndex some (fun _ => true) (fun _ _ => []) js {} none
    run [(lit "i", exNested.written), (lit "j", lit "{{.b | lower}}"), (lit "k", lit "{{.b}}")] = [(lit "i", lit "y!"), (lit "j", []), (lit "k", lit "x")]
    ∧ run [(lit "k", lit "{{.b}}"), (lit "j", lit "{{.b | lower}}"), (lit "i", exNested.written)] = [(lit "k", lit "x"), (lit "j", []), (lit "i", lit "y!")] := by
  decide +kernel

end Ckube

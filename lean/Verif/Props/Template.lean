import Verif.Lemmas.TemplateRun
import Verif.Lemmas.TemplateTrim
import Verif.Props.Index

/-! # What index expressions that are Go templates yield: C87 and C88 -/

namespace Ckube
open Spec Json

variable {num : Str → Option Str} {isPrint : Nat → Bool} {other : Str → Str → Str} {js : Obj → Str}

/-- Pieces without an action are text, and others contain `{{`. -/
theorem written_cases (ps : List TPiece) :
    (∀ p ∈ ps, ∃ s, p = .leaf (.text s)) ∨ contains (ps.flatMap TPiece.written) (lit "{{") = true := by
  induction ps with
  | nil => left; simp
  | cons p ps ih =>
    have hin : ∀ a b c : Str, contains (a ++ (lit "{{" ++ b) ++ c) (lit "{{") = true := by
      intro a b c; rw [contains_iff]; exact ⟨a, b ++ c, by simp⟩
    rw [List.flatMap_cons]
    cases p with
    | leaf l => cases l with
      | text s =>
        rcases ih with ih | ih
        · left
          intro q hq
          rcases List.mem_cons.mp hq with rfl | hq
          · exact ⟨s, rfl⟩
          · exact ih q hq
        · right
          rw [contains_iff] at ih ⊢
          exact ih.trans (List.suffix_append _ _).isInfix
      | act a l r =>
        right
        have := hin [] (blank l ++ a.written ++ blank r ++ lit "}}") (ps.flatMap TPiece.written)
        simpa [TPiece.written, TLeaf.written] using this
    | cond p yes no =>
      right
      have := hin [] (lit "if " ++ chainText p ++ lit "}}" ++ yes.flatMap TLeaf.written
        ++ (if no.isEmpty then [] else lit "{{else}}" ++ no.flatMap TLeaf.written) ++ lit "{{end}}") (ps.flatMap TPiece.written)
      simpa [TPiece.written, lit] using this

/-- The value of an expression that is a template. -/
theorem indexValue_template {o : Obj} {ms : List (Str × JV)} (hjs : Json.parse (js o) = some (.obj ms)) {ps : List TPiece}
    (hok : TemplateOk ps) (hc : contains (ps.flatMap TPiece.written) (lit "{{") = true) :
    indexValue (ixEval num isPrint other js) o (ps.flatMap TPiece.written) = (tWalks isPrint (toGo num (.obj ms)) (ps.map pieceNode)).1 := by
  have hd : JV.obj (decodeMap num (js o)) = toGo num (.obj ms) := by rw [decodeMap, hjs, toGo]
  simp only [indexValue, hc, if_true, ixEval, jpEval, tmplOther, tmplParse_written hok, hd]

/-- **C87**: an index expression made of text, field actions, `default`, `quote`, `join` and `if` yields, for every object, its text with every
action replaced by what it denotes; the first action that cannot be evaluated ends the value. Missing for the full claim: fields that the object does not
have (`C87_false_missing`), `default` of something that is no string (`C87_false_default`), `join` of something that is no string
(`C87_false_join`), arrays and objects, large numbers and fractions, and the other actions of Go templates. -/
theorem C87_template_partial (o : Obj) (ms : List (Str × JV)) (hjs : Json.parse (js o) = some (.obj ms)) (ps : List TPiece) (hok : TemplateOk ps)
    (ts : List Str) :
    (List.Forall₂ (PieceDenotes num (.obj ms)) ps ts →
      indexValue (ixEval num isPrint other js) o (ps.flatMap TPiece.written) = ts.flatten)
    ∧ (∀ qs q rest, ps = qs ++ q :: rest → List.Forall₂ (PieceDenotes num (.obj ms)) qs ts → PieceFails (.obj ms) q →
      indexValue (ixEval num isPrint other js) o (ps.flatMap TPiece.written) = ts.flatten) := by
  constructor
  · intro h
    rcases written_cases ps with ht | hc
    · have hw : ∀ {ps : List TPiece} {ts : List Str}, (∀ p ∈ ps, ∃ s, p = .leaf (.text s)) → List.Forall₂ (PieceDenotes num (.obj ms)) ps ts →
          ps.flatMap TPiece.written = ts.flatten := by
        intro ps ts ht h
        induction h with
        | nil => rfl
        | cons h _ ih =>
          obtain ⟨s, rfl⟩ := ht _ List.mem_cons_self
          rw [List.flatMap_cons, ih (fun q hq => ht q (List.mem_cons_of_mem _ hq)), List.flatten_cons]
          cases h with
          | leaf h => cases h; rfl
      have hn : (123 : UInt8) ∉ ps.flatMap TPiece.written := by
        intro hm
        obtain ⟨p, hp, hm⟩ := List.mem_flatMap.mp hm
        obtain ⟨s, rfl⟩ := ht p hp
        exact (hok.1 _ hp).2 hm
      have h1 : contains (ps.flatMap TPiece.written) (lit "{") = false := by
        rw [← Bool.not_eq_true, contains_iff]
        rintro ⟨a, b, e⟩
        exact hn (by rw [← e]; simp [lit])
      have h2 : contains (ps.flatMap TPiece.written) (lit "{{") = false := by
        rw [← Bool.not_eq_true, contains_iff]
        rintro ⟨a, b, e⟩
        exact hn (by rw [← e]; simp [lit])
      rw [indexValue, h2, h1]
      simp only [Bool.false_eq_true, if_false, Bool.not_false, if_true]
      exact hw ht h
    · rw [indexValue_template hjs hok hc, tWalks_pieces h]
  · rintro qs q rest rfl h hf
    have hc : contains ((qs ++ q :: rest).flatMap TPiece.written) (lit "{{") = true := by
      rcases written_cases (qs ++ q :: rest) with ht | hc
      · obtain ⟨s, rfl⟩ := ht q (by simp)
        cases hf
      · exact hc
    rw [indexValue_template hjs hok hc, List.map_append, tWalks_append, tWalks_pieces h]
    simp only [if_true, List.map_cons, tWalks, tWalk_fails hf, Bool.false_eq_true, if_false, List.append_nil]

/-- The templates of store/memory/memory_test.go:876-879, one after the other, and a template that ends where it cannot be evaluated. -/
example :
    let js : Obj → Str := fun _ => lit "{\"metadata\":{\"namespace\":\"test\",\"name\":\"ok\"},\"status\":{\"phase\":\"Run\"}}"
    let o : Obj := {}
    let phase := [lit "status", lit "phase"]
    let e := lit "{{if .metadata.deletionTimestamp}}Deleting{{else}}{{.status.phase}}{{end}} {{ .x | default \"no spec\"}} {{ .status.phase | quote }} {{ join \"/\" .metadata.namespace .metadata.name }}"
    let ps : List TPiece := [.cond [lit "metadata", lit "deletionTimestamp"] [.text (lit "Deleting")] [.act (.field phase) false false], .leaf (.text (lit " ")),
      .leaf (.act (.fallback [lit "x"] (lit "no spec")) true false), .leaf (.text (lit " ")), .leaf (.act (.quoted phase) true true), .leaf (.text (lit " ")),
      .leaf (.act (.joined (lit "/") [[lit "metadata", lit "namespace"], [lit "metadata", lit "name"]]) true true)]
    e = ps.flatMap TPiece.written
    ∧ indexValue (ixEval some (fun _ => true) (fun _ _ => []) js) o e = lit "Run no spec \"Run\" test/ok"
    ∧ indexValue (ixEval some (fun _ => true) (fun _ _ => []) js) o (lit "p={{.status.phase}} {{.status.phase.q}} rest") = lit "p=Run " := by
  decide +kernel

/-- The hypotheses of `C87_template_partial` hold for a condition and an action. -/
example :
    let doc : JV := .obj [(lit "a", .obj [(lit "b", .str (lit "x"))])]
    let ps : List TPiece := [.leaf (.text (lit "v=")), .cond [lit "a"] [.act (.field [lit "a", lit "b"]) true false] [.text (lit "none")]]
    Json.parse (lit "{\"a\":{\"b\":\"x\"}}") = some doc ∧ TemplateOk ps ∧ List.Forall₂ (PieceDenotes some doc) ps [lit "v=", lit "x"] := by
  have hj : Json.parse (lit "{\"a\":{\"b\":\"x\"}}") = some (.obj [(lit "a", .obj [(lit "b", .str (lit "x"))])]) := by
    rw [show lit "{\"a\":{\"b\":\"x\"}}" = enc (.obj [(lit "a", .obj [(lit "b", .str (lit "x"))])]) by decide +kernel]
    exact parse_enc (by simp only [Good, GoodMembers]; decide +kernel)
  refine ⟨hj, ⟨?_, ?_⟩, .cons (.leaf (.text _)) (.cons ?_ .nil)⟩
  · have ha : FieldName (lit "a") := by unfold FieldName; decide +kernel
    have hb : FieldName (lit "b") := by unfold FieldName; decide +kernel
    intro p hp
    simp only [List.mem_cons, List.not_mem_nil, or_false] at hp
    rcases hp with rfl | rfl
    · exact ⟨by decide, by decide⟩
    · refine ⟨⟨by simp, by simpa using ha⟩, ?_, by simp [OnePiece], ?_, by simp [OnePiece]⟩
      · intro l hl
        simp only [List.mem_singleton] at hl
        subst hl
        exact ⟨by simp, by simp [ha, hb]⟩
      · intro l hl
        simp only [List.mem_singleton] at hl
        subst hl
        exact ⟨by decide, by decide⟩
  · simp [TPiece.isText]
  · have h1 : HasAt [lit "a"] (.obj [(lit "a", .obj [(lit "b", .str (lit "x"))])]) (.obj [(lit "b", .str (lit "x"))]) :=
      .step rfl (.nil _)
    have h2 : HasAt [lit "a", lit "b"] (.obj [(lit "a", .obj [(lit "b", .str (lit "x"))])]) (.str (lit "x")) :=
      .step (w := .obj [(lit "b", .str (lit "x"))]) rfl (.step rfl (.nil _))
    exact .yes (ts := [lit "x"]) h1 .obj (.cons (.act (.str h2)) .nil)

/-- The value of an expression that is a single action. -/
theorem indexValue_action {o : Obj} {ms : List (Str × JV)} (hjs : Json.parse (js o) = some (.obj ms)) {a : TAction} (ha : a.Ok) (l r : Bool) :
    indexValue (ixEval num isPrint other js) o (lit "{{" ++ blank l ++ a.written ++ blank r ++ lit "}}")
      = (tWalk isPrint (toGo num (.obj ms)) (.act (actCmds a))).1 := by
  have hok : TemplateOk [.leaf (.act a l r)] := ⟨by simpa [TPiece.Ok, TLeaf.Ok] using ha, by simp⟩
  have hc : contains ([TPiece.leaf (.act a l r)].flatMap TPiece.written) (lit "{{") = true := by
    rcases written_cases [TPiece.leaf (.act a l r)] with h | h
    · obtain ⟨s, hs⟩ := h _ List.mem_cons_self; simp at hs
    · exact h
  have h := indexValue_template (num := num) (isPrint := isPrint) (other := other) hjs hok hc
  have e : [TPiece.leaf (.act a l r)].flatMap TPiece.written = lit "{{" ++ blank l ++ a.written ++ blank r ++ lit "}}" := by
    simp [TPiece.written, TLeaf.written]
  rw [e] at h
  rw [h, List.map_cons, List.map_nil, tWalks, tWalks]
  simp only [pieceNode, leafNode, List.append_nil]
  split <;> rfl

/-- **C87 is false** for fields that the object does not have: the index is the text `<no value>`, whatever the field. -/
theorem C87_false_missing (o : Obj) (ms : List (Str × JV)) (hjs : Json.parse (js o) = some (.obj ms)) (p : List Str) (hp : PathOk p)
    (h : AbsentAt num p (.obj ms)) :
    indexValue (ixEval num isPrint other js) o (lit "{{" ++ chainText p ++ lit "}}") = lit "<no value>" := by
  have := indexValue_action (num := num) (isPrint := isPrint) (other := other) hjs (a := .field p) hp false false
  simp only [blank, Bool.false_eq_true, if_false, List.append_nil, TAction.written] at this
  rw [this, tWalk]
  rcases absent_toGo h with h | h <;> simp only [actCmds, tPipeline, tEval, tArg, h, Option.bind_some] <;> rfl

/-- An object without the field. -/
example : AbsentAt some [lit "spec", lit "x"] (.obj [(lit "spec", .obj [])]) ∧ Json.parse (lit "{\"spec\":{}}") = some (.obj [(lit "spec", .obj [])]) :=
  ⟨.inl (.step (w := .obj []) rfl (.here rfl)), by
    rw [show lit "{\"spec\":{}}" = enc (.obj [(lit "spec", .obj [])]) by decide +kernel]
    exact parse_enc (by simp only [Good, GoodMembers]; decide +kernel)⟩

/-- An object with a number. -/
example : HasAt [lit "spec", lit "n"] (.obj [(lit "spec", .obj [(lit "n", .num (intDigits 3))])]) (.num (intDigits 3)) :=
  .step (w := .obj [(lit "n", .num (intDigits 3))]) rfl (.step rfl (.nil _))

/-- **C87 is false** for `default` of a small number: the index is a message about a wrong format, with the number in it. -/
theorem C87_false_default (o : Obj) (ms : List (Str × JV)) (hjs : Json.parse (js o) = some (.obj ms)) (p : List Str) (d : Str)
    (hp : PathOk p ∧ ConstOk d) (n : Int) (h : HasAt p (.obj ms) (.num (intDigits n))) (hs : num (intDigits n) = some (intDigits n))
    (hn : n.natAbs < 1000000) :
    indexValue (ixEval num isPrint other js) o (lit "{{" ++ chainText p ++ lit " | default \"" ++ d ++ lit "\"}}")
      = lit "%!s(float64=" ++ intDigits n ++ lit ")" := by
  have := indexValue_action (num := num) (isPrint := isPrint) (other := other) hjs (a := .fallback p d) hp false false
  have e : lit "{{" ++ blank false ++ (TAction.fallback p d).written ++ blank false ++ lit "}}"
      = lit "{{" ++ chainText p ++ lit " | default \"" ++ d ++ lit "\"}}" := by
    simp [blank, TAction.written, lit]
  rw [e] at this
  have hg := tField_has (num := num) h
  rw [toGo, toGo, hs] at hg
  rw [this, tWalk, toGo]
  simp only [actCmds, tPipeline, tEval, tArg, hg, Option.bind_some, List.mapM_cons, List.mapM_nil, Option.pure_def, Option.bind_eq_bind]
  show fmtVerb isPrint 115 (.num (intDigits n)) = _
  rw [fmtVerb, gText_small hn]
  rfl

/-- **C87 is false** for `join` of a field that the object does not have: the rest of the value is lost. -/
theorem C87_false_join : ∃ (js : Obj → Str) (o : Obj),
    indexValue (ixEval some (fun _ => true) (fun _ _ => []) js) o (lit "n={{join \"/\" .metadata.namespace .metadata.name}} kind={{.kind}}") = lit "n="
    ∧ indexValue (ixEval some (fun _ => true) (fun _ _ => []) js) o (lit "n={{.metadata.name}} kind={{.kind}}") = lit "n=x kind=Node" :=
  ⟨fun _ => lit "{\"kind\":\"Node\",\"metadata\":{\"name\":\"x\"}}", {}, by decide +kernel⟩

theorem marked_contains : ∀ (m : Marked) (ms : List Marked) (last : Str) (b : Bool),
    contains (markedText (m :: ms) last) (lit "{{") = true ∧ contains (unmarkedText b (m :: ms) last) (lit "{{") = true := by
  intro m ms last b
  simp only [contains_iff, markedText, unmarkedText]
  constructor
  · have : ∃ r, (if m.left then lit "{{- " else lit "{{") = lit "{{" ++ r := by cases m.left <;> [exact ⟨[], rfl⟩; exact ⟨lit "- ", rfl⟩]
    obtain ⟨r, hr⟩ := this
    rw [hr]
    exact ⟨m.before, r ++ m.cmd.written ++ (if m.right then lit " -}}" else lit "}}") ++ markedText ms last, by simp⟩
  · exact ⟨trimEnd m.left (trimStart b m.before), m.cmd.written ++ blank (m.right && !m.cmd.isNote) ++ lit "}}" ++ unmarkedText m.right ms last, by simp⟩

/-- **C87**: trim markers remove the blanks beside them and nothing else, in templates of text, comments and the actions of C87, whether or not every `if`
has its `end`: the index is that of the template without the markers and without these blanks. -/
theorem C87_trim (o : Obj) (ms : List Marked) (last : Str) (hok : ∀ m ∈ ms, m.Ok) (hl : (123 : UInt8) ∉ last) :
    indexValue (ixEval num isPrint other js) o (markedText ms last) = indexValue (ixEval num isPrint other js) o (unmarkedText false ms last) := by
  cases ms with
  | nil => rfl
  | cons m ms =>
    obtain ⟨h1, h2⟩ := marked_contains m ms last false
    obtain ⟨e, hne⟩ := tmplParse_marked hok hl
    simp only [indexValue, h1, h2, if_true, ixEval, jpEval, tmplOther, e]
    cases hx : tmplParse (unmarkedText false (m :: ms) last) with
    | other => exact absurd hx hne
    | bad => rfl
    | ok ns => rfl

/-- A template with markers, a comment and an `if`. -/
example :
    let js : Obj → Str := fun _ => lit "{\"a\":\"x\",\"b\":true}"
    let ms : List Marked := [⟨lit "n = ", true, .out (.field [lit "a"]), false⟩, ⟨lit " \n ", true, .note (lit " later "), true⟩,
      ⟨lit " \t", false, .iff [lit "b"], true⟩, ⟨lit " yes ", false, .fin, true⟩]
    markedText ms (lit "  .") = lit "n = {{- .a}} \n {{- /* later */ -}} \t{{if .b -}} yes {{end -}}  ."
    ∧ unmarkedText false ms (lit "  .") = lit "n ={{.a}}{{/* later */}}{{if .b }}yes {{end }}."
    ∧ indexValue (ixEval some (fun _ => true) (fun _ _ => []) js) {} (markedText ms (lit "  .")) = lit "n =xyes ." := by decide +kernel

/-! ## C88 -/

theorem not_empty {ps : List TPiece} (hc : contains (ps.flatMap TPiece.written) (lit "{{") = true) (hok : TemplateOk ps) :
    tEmpty (ps.map pieceNode) = false := by
  have : ∃ p ∈ ps, ∀ s, p ≠ .leaf (.text s) := by
    by_contra hne
    push Not at hne
    have hn : (123 : UInt8) ∉ ps.flatMap TPiece.written := by
      intro hm
      obtain ⟨p, hp, hm⟩ := List.mem_flatMap.mp hm
      obtain ⟨s, rfl⟩ := hne p hp
      exact (hok.1 _ hp).2 hm
    rw [contains_iff] at hc
    obtain ⟨a, b, e⟩ := hc
    exact hn (by rw [← e]; simp [lit])
  obtain ⟨p, hp, hs⟩ := this
  rw [tEmpty, List.all_eq_false]
  refine ⟨pieceNode p, List.mem_map_of_mem hp, ?_⟩
  cases p with
  | leaf l => cases l with
    | text s => exact absurd rfl (hs s)
    | act a l r => simp [pieceNode, leafNode]
  | cond p yes no => simp [pieceNode]

/-- **C88**: whatever the order in which the expressions of a type are evaluated, every index is what its expression yields alone, if the expressions that
are Go templates are made of the pieces of C87. Missing for the full claim: templates that consist of comments only (`C88_false_comment`), and those
that use other actions. -/
theorem C88_independent_partial (o : Obj) (conf : List (Str × Str))
    (h : ∀ e ∈ conf, contains e.2 (lit "{{") = true → ∃ ps, TemplateOk ps ∧ e.2 = ps.flatMap TPiece.written) (tree : Option (List TNode)) :
    sharedIndex num isPrint other js o tree conf = conf.map (fun e => (e.1, indexValue (ixEval num isPrint other js) o e.2))
    ∧ sharedIndex num isPrint other js o tree conf = confIndex (ixEval num isPrint other js) conf o := by
  have main : sharedIndex num isPrint other js o tree conf = conf.map (fun e => (e.1, indexValue (ixEval num isPrint other js) o e.2)) := by
    induction conf generalizing tree with
    | nil => rfl
    | cons e conf ih =>
      obtain ⟨k, e⟩ := e
      have ih := fun tree => ih (fun x hx => h x (List.mem_cons_of_mem _ hx)) tree
      rw [sharedIndex, List.map_cons]
      by_cases hc : contains e (lit "{{") = true
      · obtain ⟨ps, hok, he⟩ := h (k, e) List.mem_cons_self hc
        simp only at he
        subst he
        have hv : indexValue (ixEval num isPrint other js) o (ps.flatMap TPiece.written)
            = (tWalks isPrint (.obj (decodeMap num (js o))) (ps.map pieceNode)).1 := by
          simp only [indexValue, hc, if_true, ixEval, jpEval, tmplOther, tmplParse_written hok]
        simp only [hc, if_true, tmplParse_written hok, not_empty hc hok, Bool.false_eq_true, if_false, ih, hv]
      · simp only [hc, Bool.false_eq_true, if_false, ih]
  exact ⟨main, main⟩

/-- Two expressions in both orders. -/
example :
    let js : Obj → Str := fun _ => lit "{\"a\":\"x\",\"b\":\"y\"}"
    let o : Obj := {}
    let run := sharedIndex some (fun _ => true) (fun _ _ => []) js o none
    run [(lit "i", lit "{{.a}}"), (lit "j", lit "{.b}"), (lit "k", lit "{{.b}}")] = [(lit "i", lit "x"), (lit "j", lit "y"), (lit "k", lit "y")]
    ∧ run [(lit "k", lit "{{.b}}"), (lit "i", lit "{{.a}}"), (lit "j", lit "{.b}")] = [(lit "k", lit "y"), (lit "i", lit "x"), (lit "j", lit "y")] := by
  decide +kernel

/-- **C88 is false** for a template that consists of a comment: it yields what the template before it yields, so its index depends on the order in which Go
iterates over the configuration. -/
theorem C88_false_comment : ∃ (js : Obj → Str) (o : Obj) (a b : Str × Str),
    lookup (lit "c") (sharedIndex some (fun _ => true) (fun _ _ => []) js o none [a, b]) = some (lit "x")
    ∧ lookup (lit "c") (sharedIndex some (fun _ => true) (fun _ _ => []) js o none [b, a]) = some [] :=
  ⟨fun _ => lit "{\"a\":\"x\"}", {}, (lit "i", lit "{{.a}}"), (lit "c", lit "{{/* later */}}"), by decide +kernel⟩

end Ckube

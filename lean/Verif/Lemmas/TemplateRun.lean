import Verif.Lemmas.Template
import Verif.Lemmas.Plain

/-! # Lemmas about Go templates: parsing and executing what is written -/

namespace Ckube
open Spec Json

/-! ## Parsing -/

theorem tArgs_sp {ts : List TTok} (h : ∀ t ∈ ts, t = .sp) : tArgs ts = some [] := by
  induction ts with
  | nil => rfl
  | cons t ts ih =>
    rw [h t (by simp), tArgs, ih (fun u hu => h u (by simp [hu]))]

theorem tArgs_path : ∀ {p : List Str}, p ≠ [] → ∀ {r : List TTok}, tSep r = true →
    tArgs (pathToks p ++ r) = (tArgs r).map (.inl (.field p) :: ·)
  | [], h, _, _ => absurd rfl h
  | [n], _, r, hr => by
    show tArgs (.field n :: r) = _
    cases r with
    | nil => rfl
    | cons t r =>
      have : t = .sp := by simpa [tSep] using hr
      subst this
      rfl
  | n :: m :: p, _, r, hr => by
    have ih := tArgs_path (p := m :: p) (by simp) hr
    show tArgs (.field n :: .field m :: (pathToks p ++ r)) = _
    rw [tArgs]
    show (match tArgs (pathToks (m :: p) ++ r) with
      | some (Sum.inl (TArg.field p) :: as) => some (Sum.inl (TArg.field (n :: p)) :: as)
      | _ => none) = _
    rw [ih]
    cases tArgs r <;> rfl

theorem tArgs_paths : ∀ {ps : List (List Str)}, (∀ p ∈ ps, PathOk p) → ∀ {sps : List TTok}, (∀ t ∈ sps, t = .sp) →
    tArgs ((ps.flatMap fun p => .sp :: pathToks p) ++ sps) = some (ps.map fun p => .inl (.field p))
  | [], _, sps, hs => by simpa using tArgs_sp hs
  | p :: ps, h, sps, hs => by
    have ih := tArgs_paths (ps := ps) (fun q hq => h q (by simp [hq])) hs
    have hsep : tSep ((ps.flatMap fun p => .sp :: pathToks p) ++ sps) = true := by
      cases ps with
      | nil => cases sps with
        | nil => rfl
        | cons t sps => simp [tSep, hs t (by simp)]
      | cons q ps => simp [tSep]
    rw [List.flatMap_cons, List.cons_append, List.cons_append, tArgs, List.append_assoc, tArgs_path (h p (by simp)).1 hsep, ih]
    rfl

theorem tSplit_nil_pipe {ts : List TTok} (h : .pipe ∉ ts) : tSplit ts = [ts] := by
  induction ts with
  | nil => rfl
  | cons t ts ih =>
    have ih := ih (fun e => h (by simp [e]))
    have ht : t ≠ .pipe := fun e => h (by simp [e])
    cases t <;> simp_all [tSplit]

theorem tSplit_pipe {a : List TTok} (h : .pipe ∉ a) (b : List TTok) : tSplit (a ++ .pipe :: b) = a :: tSplit b := by
  induction a with
  | nil => rfl
  | cons t a ih =>
    have ih := ih (fun e => h (by simp [e]))
    have ht : t ≠ .pipe := fun e => h (by simp [e])
    cases t <;> simp_all [tSplit]

def actCmds : TAction → List TCmd
  | .field p => [.val (.field p)]
  | .fallback p d => [.val (.field p), .call .default [.str d]]
  | .quoted p => [.val (.field p), .call .quote []]
  | .joined sep ps => [.call .join (.str sep :: ps.map .field)]

theorem no_pipe_path (p : List Str) : TTok.pipe ∉ pathToks p := by simp [pathToks]

theorem sp_sep {sps : List TTok} (h : ∀ t ∈ sps, t = .sp) : tSep sps = true := by
  cases sps with
  | nil => rfl
  | cons t sps => simp [tSep, h t (by simp)]

theorem tCmd_path {p : List Str} (h : p ≠ []) {sps : List TTok} (hs : ∀ t ∈ sps, t = .sp) :
    tCmd true (pathToks p ++ sps) = .ok (.val (.field p)) := by
  rw [tCmd, tArgs_path h (sp_sep hs), tArgs_sp hs]; rfl

theorem tPlain_fields (ps : List (List Str)) : tPlain (ps.map fun p => .inl (.field p)) = some (ps.map .field) := by
  induction ps with
  | nil => rfl
  | cons p ps ih => rw [List.map_cons, tPlain, ih]; rfl

theorem tPipe_act {a : TAction} (h : a.Ok) {sps : List TTok} (hs : ∀ t ∈ sps, t = .sp) :
    tPipe (actToks a ++ sps) = .ok (actCmds a) := by
  have hnp : TTok.pipe ∉ sps := fun e => by have := hs _ e; simp at this
  have hsp : ∀ t ∈ [TTok.sp], t = .sp := by simp
  cases a with
  | field p =>
    rw [tPipe, actToks, tSplit_nil_pipe (by simp [no_pipe_path, hnp])]
    simp only [tCmds, tCmd_path h.1 hs, actCmds]
  | fallback p d =>
    have e : actToks (.fallback p d) ++ sps = (pathToks p ++ [.sp]) ++ .pipe :: ([.sp, .word (lit "default"), .sp, .str d] ++ sps) := by
      simp [actToks]
    have hc : tCmd false ([.sp, .word (lit "default"), .sp, .str d] ++ sps) = .ok (.call .default [.str d]) := by
      have hf : tFn (lit "default") = some .default := by decide
      have ha : tArgs ([.sp, .word (lit "default"), .sp, .str d] ++ sps) = some [.inr (lit "default"), .inl (.str d)] := by
        show tArgs (.sp :: .word (lit "default") :: .sp :: .str d :: sps) = _
        rw [tArgs, tArgs, tArgs, tArgs, tArgs_sp hs, sp_sep hs]; rfl
      rw [tCmd, ha]
      simp only [hf, tPlain, Option.map_some]
    rw [tPipe, e, tSplit_pipe (by simp [no_pipe_path]), tSplit_nil_pipe (by simp [hnp])]
    simp only [tCmds, tCmd_path h.1.1 hsp, hc, actCmds]
  | quoted p =>
    have e : actToks (.quoted p) ++ sps = (pathToks p ++ [.sp]) ++ .pipe :: ([.sp, .word (lit "quote")] ++ sps) := by
      simp [actToks]
    have hc : tCmd false ([.sp, .word (lit "quote")] ++ sps) = .ok (.call .quote []) := by
      have hf : tFn (lit "quote") = some .quote := by decide
      rw [tCmd]
      simp [tArgs, tArgs_sp hs, sp_sep hs, hf, tPlain]
    rw [tPipe, e, tSplit_pipe (by simp [no_pipe_path]), tSplit_nil_pipe (by simp [hnp])]
    simp only [tCmds, tCmd_path h.1 hsp, hc, actCmds]
  | joined sep ps =>
    have hp : TTok.pipe ∉ actToks (.joined sep ps) ++ sps := by
      simp only [actToks, List.mem_append, List.mem_flatMap, not_or]
      refine ⟨⟨by simp, ?_⟩, hnp⟩
      rintro ⟨p, _, hm⟩
      rcases List.mem_cons.mp hm with hm | hm
      · simp at hm
      · exact no_pipe_path p hm
    have hf : tFn (lit "join") = some .join := by decide
    have hsep : tSep ((ps.flatMap fun p => .sp :: pathToks p) ++ sps) = true := by
      cases ps with
      | nil => simpa using sp_sep hs
      | cons q ps => simp [tSep]
    have ha : tArgs (actToks (.joined sep ps) ++ sps) = some (.inr (lit "join") :: .inl (.str sep) :: ps.map fun p => .inl (.field p)) := by
      show tArgs (.word (lit "join") :: .sp :: .str sep :: ((ps.flatMap fun p => .sp :: pathToks p) ++ sps)) = _
      rw [tArgs, tArgs, tArgs, tArgs_paths h.2 hs, hsep]; rfl
    have hc : tCmd true (actToks (.joined sep ps) ++ sps) = .ok (.call .join (.str sep :: ps.map .field)) := by
      rw [tCmd, ha]
      simp only [hf, tPlain, tPlain_fields, Option.map_some]
    rw [tPipe, tSplit_nil_pipe hp]
    simp only [tCmds, hc, actCmds]

theorem spTok_sp (b : Bool) : ∀ t ∈ spTok b, t = .sp := by cases b <;> simp [spTok]

theorem tAct_act {a : TAction} (h : a.Ok) (l r : Bool) :
    tAct (spTok l ++ actToks a ++ spTok r) = .ok (.pipe (actCmds a)) := by
  have hh : ∃ t ts, actToks a = t :: ts ∧ t ≠ .sp ∧ t ≠ .word (lit "if") ∧ t ≠ .word (lit "end") ∧ t ≠ .word (lit "else") := by
    cases a with
    | field p => cases p with
      | nil => exact absurd rfl h.1
      | cons n p => exact ⟨.field n, _, rfl, by simp⟩
    | fallback p d => cases p with
      | nil => exact absurd rfl h.1.1
      | cons n p => exact ⟨.field n, _, rfl, by simp⟩
    | quoted p => cases p with
      | nil => exact absurd rfl h.1
      | cons n p => exact ⟨.field n, _, rfl, by simp⟩
    | joined sep ps => exact ⟨.word (lit "join"), _, rfl, by decide⟩
  obtain ⟨t, ts, ht, h0, h1, h2, h3⟩ := hh
  have hd : (spTok l ++ actToks a ++ spTok r).dropWhile (fun t => decide (t = TTok.sp)) = actToks a ++ spTok r := by
    rw [ht]
    cases l <;> simp [spTok, List.dropWhile_cons, h0]
  have hhd : (actToks a ++ spTok r).headD .sp = t := by rw [ht]; rfl
  have hp := tPipe_act h (spTok_sp r)
  rw [tAct]
  simp only [hd, hhd, h1, h2, h3, if_false, hp]

theorem tAct_cond {p : List Str} (h : p ≠ []) : tAct (condToks p) = .ok (.cond [.val (.field p)]) := by
  have e : condToks p = .word (lit "if") :: .sp :: pathToks p := rfl
  have hp : tPipe (.sp :: pathToks p) = .ok [.val (.field p)] := by
    have ha := tArgs_path h (r := []) rfl
    rw [List.append_nil] at ha
    have hc : tCmd true (.sp :: pathToks p) = .ok (.val (.field p)) := by
      rw [tCmd, tArgs, ha]; rfl
    rw [tPipe, tSplit_nil_pipe (by simp [no_pipe_path])]
    simp only [tCmds, hc]
  rw [tAct, e]
  simp [List.dropWhile_cons, hp]

def leafNode : TLeaf → TNode
  | .text s => .text s
  | .act a _ _ => .act (actCmds a)

def pieceNode : TPiece → TNode
  | .leaf l => leafNode l
  | .cond p yes no => .cond [.val (.field p)] (yes.map leafNode) (no.map leafNode)

def prep (ns : List TNode) : JpRes (List TNode × TEnd × List TItem) → JpRes (List TNode × TEnd × List TItem)
  | .ok x => .ok (ns ++ x.1, x.2)
  | .bad => .bad
  | .other => .other

theorem tNodes_leaf {l : TLeaf} (h : l.Ok) (f : Nat) (rest : List TItem) :
    tNodes (f + 1) (leafItem l :: rest) = prep [leafNode l] (tNodes f rest) := by
  cases l with
  | text s => rw [leafItem, tNodes]; cases tNodes f rest <;> rfl
  | act a l r => rw [leafItem, tNodes, tAct_act h]; simp only; cases tNodes f rest <;> rfl

theorem prep_prep (a b : List TNode) (x) : prep a (prep b x) = prep (a ++ b) x := by
  cases x <;> simp [prep]

theorem tNodes_leaves : ∀ (ls : List TLeaf), (∀ l ∈ ls, l.Ok) → ∀ (f : Nat) (rest : List TItem), ls.length ≤ f →
    tNodes f (ls.map leafItem ++ rest) = prep (ls.map leafNode) (tNodes (f - ls.length) rest)
  | [], _, f, rest, _ => by simp only [List.map_nil, List.nil_append, List.length_nil, Nat.sub_zero]; cases tNodes f rest <;> rfl
  | l :: ls, h, f, rest, hf => by
    obtain ⟨f, rfl⟩ : ∃ g, f = g + 1 := ⟨f - 1, by simp at hf; omega⟩
    have ih := tNodes_leaves ls (fun x hx => h x (by simp [hx])) f rest (by simp at hf; omega)
    rw [List.map_cons, List.cons_append, tNodes_leaf (h l (by simp)), ih, prep_prep]
    simp

theorem tNodes_end (f : Nat) (rest : List TItem) : tNodes (f + 1) (.act [.word (lit "end")] :: rest) = .ok ([], .fin, rest) := by
  rw [tNodes]; rfl

theorem tNodes_else (f : Nat) (rest : List TItem) : tNodes (f + 1) (.act [.word (lit "else")] :: rest) = .ok ([], .els, rest) := by
  rw [tNodes]; rfl

theorem tNodes_pieces : ∀ (ps : List TPiece), (∀ p ∈ ps, p.Ok) → ∀ (f : Nat), (ps.flatMap pieceItems).length + 2 ≤ f →
    tNodes f (ps.flatMap pieceItems) = .ok (ps.map pieceNode, .eof, [])
  | [], _, f, hf => by
    obtain ⟨f, rfl⟩ : ∃ g, f = g + 1 := ⟨f - 1, by simp at hf; omega⟩
    simp [tNodes]
  | .leaf l :: ps, h, f, hf => by
    obtain ⟨f, rfl⟩ : ∃ g, f = g + 1 := ⟨f - 1, by omega⟩
    have hl : (List.flatMap pieceItems (.leaf l :: ps)).length = (ps.flatMap pieceItems).length + 1 := by
      simp [pieceItems]
    have ih := tNodes_pieces ps (fun x hx => h x (by simp [hx])) f (by omega)
    show tNodes (f + 1) (leafItem l :: ps.flatMap pieceItems) = _
    rw [tNodes_leaf (h (.leaf l) (by simp)), ih]; rfl
  | .cond p yes no :: ps, h, f, hf => by
    obtain ⟨hp, hy, _, hn, _⟩ := h (.cond p yes no) (by simp)
    have hps : ∀ x ∈ ps, x.Ok := fun x hx => h x (by simp [hx])
    obtain ⟨f, rfl⟩ : ∃ g, f = g + 2 := ⟨f - 2, by omega⟩
    have hl : (List.flatMap pieceItems (.cond p yes no :: ps)).length
        = (ps.flatMap pieceItems).length + 2 + yes.length + (if no.isEmpty then 0 else no.length + 1) := by
      cases no <;> simp [pieceItems] <;> omega
    rw [hl] at hf
    have ih := tNodes_pieces ps hps (f + 1) (by split at hf <;> omega)
    have hif : tIf (f + 1) [.val (.field p)] ((yes.map leafItem ++ (if no.isEmpty then [] else .act [.word (lit "else")] :: no.map leafItem)
        ++ [.act [.word (lit "end")]]) ++ ps.flatMap pieceItems)
        = .ok (pieceNode (.cond p yes no), ps.flatMap pieceItems) := by
      rw [tIf]
      cases no with
      | nil =>
        simp only [List.isEmpty_nil, if_true, List.append_nil, List.append_assoc] at hf ⊢
        rw [tNodes_leaves yes hy f _ (by omega)]
        obtain ⟨g, hg⟩ : ∃ g, f - yes.length = g + 1 := ⟨f - yes.length - 1, by omega⟩
        rw [hg, List.singleton_append, tNodes_end]
        simp [prep, pieceNode]
      | cons x xs =>
        simp only [List.isEmpty_cons, Bool.false_eq_true, if_false, List.append_assoc, List.cons_append] at hf ⊢
        rw [tNodes_leaves yes hy f _ (by omega)]
        obtain ⟨g, hg⟩ : ∃ g, f - yes.length = g + 1 := ⟨f - yes.length - 1, by omega⟩
        rw [hg, tNodes_else]
        simp only [prep, List.append_nil]
        rw [tNodes_leaves (x :: xs) hn f _ (by simp only [List.length_cons] at hf ⊢; omega)]
        obtain ⟨g, hg⟩ : ∃ g, f - (x :: xs).length = g + 1 := ⟨f - (x :: xs).length - 1, by simp only [List.length_cons] at hf ⊢; omega⟩
        rw [hg, List.nil_append, tNodes_end]
        simp [prep, pieceNode]
    show tNodes (f + 1 + 1) (.act (condToks p) :: ((yes.map leafItem ++ (if no.isEmpty then [] else .act [.word (lit "else")] :: no.map leafItem)
        ++ [.act [.word (lit "end")]]) ++ ps.flatMap pieceItems)) = _
    rw [tNodes, tAct_cond hp.1]
    simp only [hif, ih]
    rfl

/-- A template that is written in pieces is parsed to the nodes of its pieces. -/
theorem tmplParse_written {ps : List TPiece} (h : TemplateOk ps) :
    tmplParse (ps.flatMap TPiece.written) = .ok (ps.map pieceNode) := by
  rw [tmplParse, tLex_written h]
  simp only
  rw [tNodes_pieces ps h.1 _ (by omega)]

/-! ## Executing -/

variable {num : Str → Option Str} {isPrint : Nat → Bool}

theorem tField_has {p : List Str} {doc v : JV} (h : HasAt p doc v) : tField p (some (toGo num doc)) = some (some (toGo num v)) := by
  induction h with
  | nil v => rfl
  | step h _ ih => rw [toGo, tField, lookup_toGo, h]; exact ih

theorem tField_lacks {p : List Str} {doc : JV} (h : LacksAt p doc) : tField p (some (toGo num doc)) = some none := by
  induction h with
  | @here n ns ms h => rw [toGo, tField, lookup_toGo, h]; cases ns <;> rfl
  | step h _ ih => rw [toGo, tField, lookup_toGo, h]; exact ih

theorem toGo_obj {v : JV} (h : ∀ ms, v ≠ .obj ms) : ∀ ms, toGo num v ≠ .obj ms := by
  cases v with
  | obj ms => exact absurd rfl (h ms)
  | num raw => rw [toGo]; cases num raw <;> simp
  | _ => simp [toGo]

theorem tField_blocked {p : List Str} {doc : JV} (h : BlockedAt p doc) : tField p (some (toGo num doc)) = none := by
  induction h with
  | @here n ns v h =>
    have := toGo_obj (num := num) h
    revert this
    generalize toGo num v = w
    intro hw
    cases w with
    | obj ms => exact absurd rfl (hw ms)
    | _ => rfl
  | step h _ ih => rw [toGo, tField, lookup_toGo, h]; exact ih

/-- A path leads to a value, or some object lacks the field, or something is no object. -/
theorem at_cases : ∀ (p : List Str) (doc : JV), (∃ v, HasAt p doc v) ∨ LacksAt p doc ∨ BlockedAt p doc
  | [], doc => .inl ⟨doc, .nil doc⟩
  | n :: ns, .obj ms => by
    cases h : lastOf n ms with
    | none => exact .inr (.inl (.here h))
    | some w =>
      rcases at_cases ns w with ⟨v, hv⟩ | hv | hv
      · exact .inl ⟨v, .step h hv⟩
      · exact .inr (.inl (.step h hv))
      · exact .inr (.inr (.step h hv))
  | _ :: _, .null => .inr (.inr (.here (by simp)))
  | _ :: _, .bool _ => .inr (.inr (.here (by simp)))
  | _ :: _, .num _ => .inr (.inr (.here (by simp)))
  | _ :: _, .str _ => .inr (.inr (.here (by simp)))
  | _ :: _, .arr _ => .inr (.inr (.here (by simp)))

theorem tString_toGo {v : JV} {s : Str} (h : tString (some (toGo num v)) = some s) : v = .str s := by
  cases v with
  | str t => simpa [toGo, tString] using h
  | num raw => rw [toGo] at h; cases hn : num raw <;> rw [hn] at h <;> simp [tString] at h
  | _ => simp [toGo, tString] at h

theorem join_intercalate (sep : Str) : ∀ (l : List Str), join sep l = sep.intercalate l
  | [] => rfl
  | [x] => by simp [join]
  | x :: y :: l => by
    rw [join, join_intercalate sep (y :: l), List.intercalate_cons_cons]

theorem quote_plain {s : Str} (h : PlainAscii s) : quote isPrint s = [34] ++ s ++ [34] := by
  have hc : chunks s = s.map Chunk.ascii := chunks_ascii fun b hb => by
    have := (h b hb).2.1
    have key : ∀ b : UInt8, b ≤ 126 → b < 0x80 := forall_byte (by decide +kernel)
    exact key b this
  have : quoteBody isPrint s = s := by
    rw [quoteBody, hc, List.flatMap_map]
    conv => rhs; rw [← List.flatMap_singleton' s]
    refine List.flatMap_congr fun b hb => ?_
    obtain ⟨h1, h2, h3, h4⟩ := h b hb
    rw [quoteChunk, if_neg (by simp [h3, h4]), if_pos ⟨h1, h2⟩]
  rw [quote, this]

theorem absent_toGo {p : List Str} {doc : JV} (h : AbsentAt num p doc) :
    tField p (some (toGo num doc)) = some none ∨ tField p (some (toGo num doc)) = some (some .null) := by
  rcases h with h | h | ⟨raw, h, hn⟩
  · exact .inl (tField_lacks h)
  · exact .inr (tField_has h)
  · right; rw [tField_has h, toGo, hn]

theorem mapM_paths {ps : List (List Str)} {ss : List Str} {doc : JV} (h : List.Forall₂ (fun p s => HasAt p doc (.str s)) ps ss) :
    (ps.map TArg.field).mapM (tArg (toGo num doc)) = some (ss.map fun s => some (.str s)) := by
  induction h with
  | nil => rfl
  | cons h _ ih =>
    rw [List.map_cons, List.mapM_cons, ih, tArg, tField_has h]; rfl

theorem mapM_strings (ss : List Str) : (ss.map fun s => some (JV.str s)).mapM tString = some ss := by
  induction ss with
  | nil => rfl
  | cons s ss ih => rw [List.map_cons, List.mapM_cons, ih]; rfl

theorem tWalk_act {doc : JV} {a : TAction} {t : Str} (h : TmplDenotes num doc a t) :
    tWalk isPrint (toGo num doc) (.act (actCmds a)) = (t, true) := by
  rw [tWalk]
  cases h with
  | str h => simp only [actCmds, tPipeline, tEval, tArg, tField_has h, Option.bind_some]; rfl
  | tt h => simp only [actCmds, tPipeline, tEval, tArg, tField_has h, Option.bind_some]; rfl
  | ff h => simp only [actCmds, tPipeline, tEval, tArg, tField_has h, Option.bind_some]; rfl
  | int h hn hs =>
    simp only [actCmds, tPipeline, tEval, tArg, tField_has h, Option.bind_some, toGo, hs, tShow, fmtVerb, if_true, gText_small hn]
  | dec h hs hd =>
    simp only [actCmds, tPipeline, tEval, tArg, tField_has h, Option.bind_some, toGo, hs, tShow, fmtVerb, if_true, gText_decimal hd]
  | present h =>
    simp only [actCmds, tPipeline, tEval, tArg, tField_has h, Option.bind_some]; rfl
  | absent h =>
    rcases absent_toGo h with h | h <;> simp only [actCmds, tPipeline, tEval, tArg, h, Option.bind_some] <;> rfl
  | @quoted p s h hp =>
    have : tCall isPrint .quote [some (.str s)] = some ([34] ++ s ++ [34]) := by
      show some (quote isPrint s) = _
      rw [quote_plain hp]
    simp only [actCmds, tPipeline, tEval, tArg, tField_has h, Option.bind_some, List.mapM_nil, Option.pure_def, List.nil_append, toGo, this]
    rfl
  | @joined sep ps ss h =>
    have h1 := mapM_paths (num := num) h
    have h2 : (TArg.str sep :: ps.map TArg.field).mapM (tArg (toGo num doc)) = some (some (.str sep) :: ss.map fun s => some (.str s)) := by
      rw [List.mapM_cons, h1]; rfl
    have h3 : tCall isPrint .join (some (.str sep) :: ss.map fun s => some (.str s)) = some (sep.intercalate ss) := by
      rw [tCall]
      simp only [tString, Option.bind_some, mapM_strings, Option.map_some, join_intercalate]
    simp only [actCmds, tPipeline, tEval, h2, Option.bind_some, List.append_nil, h3]
    rfl

theorem tWalks_append (doc : JV) (a b : List TNode) : tWalks isPrint doc (a ++ b) =
    if (tWalks isPrint doc a).2 then ((tWalks isPrint doc a).1 ++ (tWalks isPrint doc b).1, (tWalks isPrint doc b).2)
    else tWalks isPrint doc a := by
  induction a with
  | nil => simp [tWalks]
  | cons n a ih =>
    rw [List.cons_append, tWalks, tWalks, ih]
    by_cases h1 : (tWalk isPrint doc n).2 = true
    · by_cases h2 : (tWalks isPrint doc a).2 = true
      · simp [h1, h2]
      · simp [h1, h2]
    · simp [h1]

theorem tWalks_leaves {doc : JV} {ls : List TLeaf} {ts : List Str} (h : List.Forall₂ (LeafDenotes num doc) ls ts) :
    tWalks isPrint (toGo num doc) (ls.map leafNode) = (ts.flatten, true) := by
  induction h with
  | nil => rfl
  | @cons l t ls ts h _ ih =>
    have h1 : tWalk isPrint (toGo num doc) (leafNode l) = (t, true) := by
      cases h with
      | text s => rfl
      | act h => exact tWalk_act h
    rw [List.map_cons, tWalks, h1, ih]; rfl

theorem natDigits_zero {k : Nat} (h : natDigits k = [48]) : k = 0 := by
  rw [← digitsVal_natDigits k, h]; rfl

theorem truthy_toGo {v : JV} (h : Truthy num v) : tTrue (some (toGo num v)) = true := by
  cases h with
  | tt => rfl
  | str h => simpa [toGo, tTrue] using h
  | @int n h hs =>
    rw [toGo, hs]
    simp only [tTrue, Bool.and_eq_true, bne_iff_ne, ne_eq]
    unfold intDigits
    split
    · refine ⟨by simp [natDigits_ne_nil], fun e => ?_⟩
      simp only [List.cons.injEq, true_and] at e
      have := natDigits_zero e
      omega
    · refine ⟨fun e => ?_, fun e => ?_⟩
      · have := natDigits_zero e; omega
      · exact natDigits_head_digit _ _ _ e rfl
  | arr => simp [toGo, toGoElems, tTrue]
  | @obj m ms =>
    rw [toGo]
    simp only [tTrue, bne_iff_ne, ne_eq, List.length_eq_zero_iff]
    intro e
    have h1 := lookup_toGo (num := num) m.1 (m :: ms)
    rw [e] at h1
    have : lastOf m.1 (m :: ms) = none := by
      cases hl : lastOf m.1 (m :: ms) with
      | none => rfl
      | some x => rw [hl] at h1; simp [lookup] at h1
    rw [lastOf, lookup_eq_none] at this
    exact this m.2 (by simp)

theorem falsy_toGo {v : JV} (h : Falsy num v) : tTrue (some (toGo num v)) = false := by
  cases h with
  | zero hs => rw [toGo, hs]; rfl
  | _ => rfl

theorem tWalk_piece {doc : JV} {p : TPiece} {t : Str} (h : PieceDenotes num doc p t) :
    tWalk isPrint (toGo num doc) (pieceNode p) = (t, true) := by
  cases h with
  | leaf h => cases h with
    | text s => rfl
    | act h => exact tWalk_act h
  | yes h ht hb =>
    rw [pieceNode, tWalk]
    simp only [tPipeline, tEval, tArg, tField_has h, Option.bind_some, truthy_toGo ht, if_true, tWalks_leaves hb]
  | no h hb =>
    rw [pieceNode, tWalk]
    rcases h with h | ⟨v, h, hf⟩
    · rcases absent_toGo h with h | h <;>
        simp only [tPipeline, tEval, tArg, h, Option.bind_some, tTrue, Bool.false_eq_true, if_false, tWalks_leaves hb]
    · simp only [tPipeline, tEval, tArg, tField_has h, Option.bind_some, falsy_toGo hf, Bool.false_eq_true, if_false, tWalks_leaves hb]

theorem tWalks_pieces {doc : JV} {ps : List TPiece} {ts : List Str} (h : List.Forall₂ (PieceDenotes num doc) ps ts) :
    tWalks isPrint (toGo num doc) (ps.map pieceNode) = (ts.flatten, true) := by
  induction h with
  | nil => rfl
  | cons h _ ih => rw [List.map_cons, tWalks, tWalk_piece h, ih]; rfl

theorem mapM_blocked {ps : List (List Str)} {doc : JV} {p : List Str} (hp : p ∈ ps) (h : ∀ s, ¬ HasAt p doc (.str s)) :
    (ps.map TArg.field).mapM (tArg (toGo num doc)) = none
    ∨ ∃ vs, (ps.map TArg.field).mapM (tArg (toGo num doc)) = some vs ∧ vs.mapM tString = none := by
  induction ps with
  | nil => simp at hp
  | cons q ps ih =>
    rw [List.map_cons, List.mapM_cons]
    rcases List.mem_cons.mp hp with rfl | hp
    · rcases at_cases p doc with ⟨v, hv⟩ | hv | hv
      · rw [tArg, tField_has hv]
        cases hm : (ps.map TArg.field).mapM (tArg (toGo num doc)) with
        | none => exact .inl rfl
        | some vs =>
          refine .inr ⟨_, rfl, ?_⟩
          rw [List.mapM_cons]
          cases hs : tString (some (toGo num v)) with
          | none => rfl
          | some s => exact absurd (tString_toGo hs ▸ hv) (h s)
      · rw [tArg, tField_lacks hv]
        cases hm : (ps.map TArg.field).mapM (tArg (toGo num doc)) with
        | none => exact .inl rfl
        | some vs => exact .inr ⟨_, rfl, by rw [List.mapM_cons]; rfl⟩
      · left; rw [tArg, tField_blocked hv]; rfl
    · rcases ih hp with ih | ⟨vs, ih, hvs⟩
      · left; rw [ih]; cases tArg (toGo num doc) (.field q) <;> rfl
      · rw [ih]
        cases tArg (toGo num doc) (.field q) with
        | none => exact .inl rfl
        | some v =>
          refine .inr ⟨v :: vs, rfl, ?_⟩
          rw [List.mapM_cons, hvs]; cases tString v <;> rfl

theorem tWalk_fails {doc : JV} {q : TPiece} (h : PieceFails doc q) : tWalk isPrint (toGo num doc) (pieceNode q) = ([], false) := by
  cases h with
  | field h =>
    simp only [pieceNode, leafNode, actCmds, tWalk, tPipeline, tEval, tArg, tField_blocked h, Option.bind_none]
  | fallback h =>
    simp only [pieceNode, leafNode, actCmds, tWalk, tPipeline, tEval, tArg, tField_blocked h, Option.bind_none]
  | quoted h =>
    simp only [pieceNode, leafNode, actCmds, tWalk, tPipeline, tEval, tArg, tField_blocked h, Option.bind_none]
  | @joined sep ps l r p hp h =>
    have key : tEval isPrint (toGo num doc) [] (.call .join (.str sep :: ps.map .field)) = none := by
      rw [tEval, List.mapM_cons]
      rcases mapM_blocked (num := num) hp h with h1 | ⟨vs, h1, h2⟩
      · rw [h1]; rfl
      · rw [h1]
        show ((tString (some (.str sep))).bind fun sep => (((vs ++ []).mapM tString).map fun ins => join sep ins)).map _ = none
        rw [List.append_nil, h2]; rfl
    simp only [pieceNode, leafNode, actCmds, tWalk, tPipeline, key, Option.bind_none]
  | cond h =>
    simp only [pieceNode, tWalk, tPipeline, tEval, tArg, tField_blocked h, Option.bind_none]

end Ckube

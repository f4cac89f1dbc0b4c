import Verif.Spec.PageText
import Verif.Lemmas.JsonText
import Verif.Props.ConfigFile

/-! # C113: JSON texts are read as what they mean -/

namespace Ckube
open Spec Json

/-- **C113**: a JSON text is read as the value it means, whatever white space, escapes, letter case of hexadecimal digits and
surrogate pairs it is written with. -/
theorem C113_read {t : Str} {v : JV} (h : JsonText Spells t v) : parse t = some v :=
  parse_text (fun _ _ h r => spells_pStr h r) h

/-- **C113**: a JSON text has one meaning. -/
theorem C113_unique {t : Str} {v w : JV} (h : JsonText Spells t v) (h' : JsonText Spells t w) : v = w := by
  have := C113_read h
  rw [C113_read h'] at this
  exact (Option.some.inj this).symm

/-- **C113**: which texts are accepted at all: those with the structure of JSON, in which any bytes but control characters and
any escapes may stand between quotes. -/
theorem C113_accepted (t : Str) : (∃ v, parse t = some v) ↔ ∃ v, JsonText (fun u _ => Loose u) t v := by
  constructor
  · rintro ⟨v, h⟩
    exact jsonText_map (fun u s h => ⟨s, h.1⟩) (text_parse h)
  · rintro ⟨v, h⟩
    obtain ⟨v', h'⟩ := jsonText_map (S' := ReadsAs) (fun u s h => loose_reads h) h
    exact ⟨v', parse_iff.mpr h'⟩

/-- **C113**, configuration files: a file is loaded as the configuration its text means, however it is written. Missing for the full
claim: files with repeated names (`C93_false_twice`). -/
theorem C113_config_partial {bs : Str} {doc : JV} (hd : JsonText Spells bs doc) (hp : PlainConfig doc) (c : Config) :
    configText bs = some c ↔ MeansConfig doc c :=
  C93_read_partial (C113_read hd) hp c

/-- **C113**, configuration files: a file without the structure of JSON is not loaded. -/
theorem C113_config_refused {kubeArg : Bool} {f : Files} {bs : Str} (hf : f.config = configText bs)
    (hn : ∀ v, ¬ JsonText (fun u _ => Loose u) bs v) : findConf kubeArg f = none := by
  refine C94_refused_partial hf (Or.inl ?_)
  cases hp : parse bs with
  | none => rfl
  | some v =>
    obtain ⟨w, hw⟩ := (C113_accepted bs).mp ⟨v, hp⟩
    exact absurd hw (hn w)

/-! ## Pages -/

theorem whole64_iff {raw : Str} {v : ℤ} : parseInt64 raw = some v ↔ Whole64 raw v := by
  have lm : lit "-" = [45] := by decide
  have hmin : minInt64 = -2 ^ 63 := by decide
  have hmax : maxInt64 = 2 ^ 63 - 1 := by decide
  have hw : ∀ d, whole d = digitsVal d := fun _ => rfl
  unfold Whole64
  simp only [digits_iff, lm, hw]
  cases raw with
  | nil =>
    simp only [parseInt64, if_true, reduceCtorEq, false_iff, not_and]
    rintro ⟨d, ⟨_, hd⟩, ⟨e, _⟩ | ⟨e, _⟩⟩
    · exact absurd e.symm hd
    · cases e
  | cons c r =>
    by_cases hc : c = 45
    · subst hc
      simp only [parseInt64, if_true]
      constructor
      · intro h
        split at h
        · cases h
        · rename_i hr
          split at h
          · rename_i ha
            split at h
            · rename_i hb
              cases h
              exact ⟨⟨r, ⟨ha, hr⟩, Or.inr ⟨rfl, rfl⟩⟩, by omega⟩
            · cases h
          · cases h
      · rintro ⟨⟨d, ⟨ha, hd⟩, ⟨rfl, _⟩ | ⟨e, rfl⟩⟩, hb⟩
        · rw [List.all_cons] at ha
          exact absurd ha (by simp [show isDigit 45 = false by decide])
        · obtain ⟨_, rfl⟩ := List.cons.inj e
          rw [if_neg hd, if_pos ha, if_pos (by omega)]
    · simp only [parseInt64, hc, if_false, reduceCtorEq]
      constructor
      · intro h
        split at h
        · rename_i ha
          split at h
          · rename_i hb
            have h := Option.some.inj h
            exact ⟨⟨c :: r, ⟨ha, by simp⟩, Or.inl ⟨rfl, h.symm⟩⟩, by omega⟩
          · cases h
        · cases h
      · rintro ⟨⟨d, ⟨ha, hd⟩, ⟨rfl, rfl⟩ | ⟨e, _⟩⟩, hb⟩
        · rw [if_pos ha, if_pos (by omega)]
        · exact absurd (List.cons.inj e).1 hc

theorem setInt_means {x : JV} {v : ℤ} : some (setInt 0 x) = some v ↔ MeansInt x v := by
  unfold MeansInt
  cases x with
  | num raw =>
    simp only [setInt, Option.some.injEq, JV.num.injEq, exists_eq_left']
    cases hp : parseInt64 raw with
    | none =>
      have hn : ∀ w, ¬ Whole64 raw w := fun w hw => by rw [whole64_iff.mpr hw] at hp; cases hp
      simp only [Option.getD_none, hn, false_or]
      constructor
      · intro h; exact ⟨h.symm, fun r w hr => hr ▸ hn w⟩
      · intro h; exact h.1.symm
    | some w =>
      have hw := whole64_iff.mp hp
      simp only [Option.getD_some]
      constructor
      · rintro rfl; exact Or.inl hw
      · rintro (h | ⟨_, h⟩)
        · rw [whole64_iff.mpr h] at hp; exact (Option.some.inj hp).symm
        · exact absurd hw (h raw w rfl)
  | _ => simp [setInt, eq_comm]

theorem setStr_means {x : JV} {v : Str} : some (setStr [] x) = some v ↔ MeansText x v := by
  unfold MeansText
  cases x <;> simp [setStr, eq_comm]

theorem setMember_fold : ∀ (ms : List (Str × JV)) (p q : Paginate), PlainNames ms →
    (ms.foldl setMember p = q ↔ AfterAll (fun o x => some (setInt o x)) p.page ms (lit "page") q.page
      ∧ AfterAll (fun o x => some (setInt o x)) p.pageSize ms (lit "page_size") q.pageSize
      ∧ AfterAll (fun o x => some (setInt o x)) p.total ms (lit "total") q.total
      ∧ AfterAll (fun o x => some (setStr o x)) p.sort ms (lit "sort") q.sort
      ∧ AfterAll (fun o x => some (setStr o x)) p.search ms (lit "search") q.search)
  | [], p, q, _ => by
    obtain ⟨a, b, c, d, e⟩ := p
    obtain ⟨a', b', c', d', e'⟩ := q
    simp [AfterAll, eq_comm]
  | e :: ms, p, q, hp => by
    obtain ⟨ht, hne⟩ := plain_tail hp
    have ih := fun p => setMember_fold ms p q ht
    have hf : foldKey 0 e.1 = asciiLower e.1 := foldKey_ascii (hp.1 e (by simp))
    have d1 : lit "page" ≠ lit "page_size" := by decide
    have d2 : lit "page" ≠ lit "total" := by decide
    have d3 : lit "page" ≠ lit "sort" := by decide
    have d4 : lit "page" ≠ lit "search" := by decide
    have d5 : lit "page_size" ≠ lit "total" := by decide
    have d6 : lit "page_size" ≠ lit "sort" := by decide
    have d7 : lit "page_size" ≠ lit "search" := by decide
    have d8 : lit "total" ≠ lit "sort" := by decide
    have d9 : lit "total" ≠ lit "search" := by decide
    have d0 : lit "sort" ≠ lit "search" := by decide
    simp only [List.foldl_cons, setMember, hf, afterAll_cons]
    generalize hk : asciiLower e.1 = k at hne ⊢
    have abs : ∀ {α : Type} {R : α → JV → Option α} {old v : α}, AfterAll R old ms k v ↔ v = old := fun {_ _ _ _} => afterAll_absent hne
    by_cases h1 : k = lit "page"
    · subst h1
      simp only [if_true, d1, d2, d3, d4, if_false]
      rw [ih]; simp [abs, eq_comm]
    by_cases h2 : k = lit "page_size"
    · subst h2
      simp only [if_true, d1.symm, d5, d6, d7, if_false]
      rw [ih]; simp [abs, eq_comm]
    by_cases h3 : k = lit "total"
    · subst h3
      simp only [if_true, d2.symm, d5.symm, d8, d9, if_false]
      rw [ih]; simp [abs, eq_comm]
    by_cases h4 : k = lit "sort"
    · subst h4
      simp only [if_true, d3.symm, d6.symm, d8.symm, d0, if_false]
      rw [ih]; simp [abs, eq_comm]
    by_cases h5 : k = lit "search"
    · subst h5
      simp only [if_true, d4.symm, d7.symm, d9.symm, d0.symm, if_false]
      rw [ih]; simp [abs, eq_comm]
    · simp only [h1, h2, h3, h4, h5, if_false]
      exact ih p

/-- **C113**, pages: the page a client asks for is the page that its JSON text means, whatever program wrote it: the members in any
order, with any spelling, with any further members. Missing for the full claim: repeated names (`C113_false_twice`). -/
theorem C113_page_partial {t : Str} {ms : List (Str × JV)} (ht : JsonText Spells t (.obj ms)) (hp : PlainNames ms) (p : Paginate) :
    decodePaginate t = p ↔ MeansPage ms p := by
  unfold decodePaginate MeansPage
  rw [C113_read ht]
  simp only
  rw [setMember_fold ms {} p hp, member_iff (means := MeansInt) hp fun _ _ _ _ => setInt_means,
    member_iff (means := MeansInt) hp fun _ _ _ _ => setInt_means, member_iff (means := MeansInt) hp fun _ _ _ _ => setInt_means,
    member_iff (means := MeansText) hp fun _ _ _ _ => setStr_means, member_iff (means := MeansText) hp fun _ _ _ _ => setStr_means]

/-- **C113**, pages: what does not have the structure of a JSON object asks for no page. -/
theorem C113_page_none {t : Str} (h : ∀ ms, ¬ JsonText (fun u _ => Loose u) t (.obj ms)) : decodePaginate t = {} := by
  unfold decodePaginate
  split
  · rename_i ms hp
    obtain ⟨a, u, b, ha, hu, hb, e⟩ := text_parse hp
    have : ∃ ms', ValueText (fun u _ => Loose u) u (.obj ms') := by
      cases hu with
      | obj0 hw => exact ⟨_, .obj0 hw⟩
      | obj hm =>
        obtain ⟨ms', hm'⟩ := membersText_map (S' := fun u _ => Loose u) (fun u s h => ⟨s, h.1⟩) hm
        exact ⟨_, .obj hm'⟩
    obtain ⟨ms', hu'⟩ := this
    exact absurd ⟨a, u, b, ha, hu', hb, e⟩ (h ms')
  · rfl

/-! ## Examples and what is wrong -/

/-- One character as it is. -/
theorem spells_raw {r s : Str} (c : Char) (h : 0x20 ≤ c.toNat ∧ c ≠ '"' ∧ c ≠ '\\') (hr : Spells r s) :
    Spells (String.utf8EncodeChar c ++ r) (String.utf8EncodeChar c ++ s) := .cons (.raw h.1 h.2.1 h.2.2) hr

/-- The bytes of a text. -/
def utf8Text (s : String) : Str := s.toList.flatMap String.utf8EncodeChar

/-- The text `"é😀\n"` means `é😀` and a line feed. -/
theorem C113_example : JsonText Spells (utf8Text " \"é\\ud83d\\uDE00\\n\"\n") (.str (utf8Text "é😀\n")) := by
  refine ⟨lit " ", utf8Text "\"é\\ud83d\\uDE00\\n\"", lit "\n", by unfold Blank; decide, ?_, by unfold Blank; decide, by decide +kernel⟩
  have hn : Spells (lit "\\n" ++ []) (String.utf8EncodeChar '\n' ++ []) := .cons (.short (by unfold shortEscapes; decide +kernel)) .nil
  have hx1 : Hex4 (lit "d83d") 0xD83D :=
    ⟨100, 56, 51, 100, 13, 8, 3, 13, by decide, Or.inl (by decide), Or.inl (by decide), Or.inl (by decide), Or.inl (by decide), by decide⟩
  have hx2 : Hex4 (lit "DE00") 0xDE00 :=
    ⟨68, 69, 48, 48, 13, 14, 0, 0, by decide, Or.inr (by decide), Or.inr (by decide), Or.inl (by decide), Or.inl (by decide), by decide⟩
  have hp := Spells.cons (SpellsChar.pair (c := '😀') hx1 hx2 (by decide) (by decide) (by decide +kernel)) hn
  have ha := spells_raw 'é' (by decide +kernel) hp
  have := ValueText.str (S := Spells) ha
  have e1 : utf8Text "\"é\\ud83d\\uDE00\\n\"" = lit "\"" ++ (String.utf8EncodeChar 'é' ++ (lit "\\u" ++ lit "d83d" ++ lit "\\u" ++ lit "DE00" ++ (lit "\\n" ++ []))) ++ lit "\"" := by
    decide +kernel
  have e2 : utf8Text "é😀\n" = String.utf8EncodeChar 'é' ++ (String.utf8EncodeChar '😀' ++ (String.utf8EncodeChar '\n' ++ [])) := by decide +kernel
  rw [e1, e2]
  exact this

/-- It is read so. -/
example : parse (utf8Text " \"é\\ud83d\\uDE00\\n\"\n") = some (.str (utf8Text "é😀\n")) := C113_read C113_example

/-- **C113 is false** for texts that are not UTF-8: no JSON text has the byte 255 in a string, and yet such a text is accepted. -/
theorem C113_false_utf8 : (∀ v, ¬ JsonText Spells [34, 255, 34] v) ∧ ∃ v, parse [34, 255, 34] = some v := by
  constructor
  · rintro v ⟨a, u, b, ha, hu, hb, e⟩
    have ha' : a = [] := by
      cases a with
      | nil => rfl
      | cons x a =>
        obtain ⟨rfl, _⟩ := List.cons.inj e
        have := (ws_iff _).mpr (ha 34 (by simp))
        exact absurd this (by decide)
    subst ha'
    rw [List.nil_append] at e
    have h255 : ∀ t s, Spells t s → ∀ r, t ≠ 255 :: r := by
      intro t s hs r ht
      cases hs with
      | nil => cases ht
      | @cons t r' s c hc hr =>
        cases hc with
        | raw _ _ _ =>
          obtain ⟨k, hk, hbad, he⟩ := char_chunk c
          cases k with
          | bad b => exact hbad b rfl
          | ascii b =>
            simp only [Chunk.bytes] at he
            rw [← he] at ht
            obtain ⟨rfl, _⟩ := List.cons.inj ht
            exact absurd (show (255 : UInt8) < 0x80 from hk) (by decide)
          | multi n bs =>
            simp only [Chunk.bytes] at he
            rw [← he] at ht
            have hm : MultiOk n bs := hk
            cases hm with
            | two h => obtain ⟨rfl, _⟩ := List.cons.inj ht; rw [is2_iff] at h; simp at h
            | three h => obtain ⟨rfl, _⟩ := List.cons.inj ht; rw [is3_iff] at h; simp at h
            | four h => obtain ⟨rfl, _⟩ := List.cons.inj ht; rw [is4_iff] at h; simp at h
        | short hm =>
          obtain ⟨e, b, rfl, _⟩ := shortEscape_toks hm
          exact absurd (List.cons.inj ht).1 (by decide)
        | unit h => rw [lit_u] at ht; exact absurd (List.cons.inj ht).1 (by decide)
        | pair h h' => rw [lit_u] at ht; exact absurd (List.cons.inj ht).1 (by decide)
    cases hu with
    | null => exact absurd (List.cons.inj e).1 (by decide)
    | true => exact absurd (List.cons.inj e).1 (by decide)
    | false => exact absurd (List.cons.inj e).1 (by decide)
    | num h =>
      obtain ⟨c, r, rfl, hc⟩ := okNum_head (jsonNumber_iff.mp h)
      obtain ⟨rfl, _⟩ := List.cons.inj e
      exact absurd hc (by decide)
    | @str t s h =>
      rw [lq] at e
      cases t with
      | nil => exact absurd (List.cons.inj (List.cons.inj e).2).1 (by decide)
      | cons x t =>
        obtain ⟨rfl, _⟩ := List.cons.inj (List.cons.inj e).2
        exact h255 _ _ h t rfl
    | arr0 h => rw [llb] at e; exact absurd (List.cons.inj e).1 (by decide)
    | arr h => rw [llb] at e; exact absurd (List.cons.inj e).1 (by decide)
    | obj0 h => rw [llc] at e; exact absurd (List.cons.inj e).1 (by decide)
    | obj h => rw [llc] at e; exact absurd (List.cons.inj e).1 (by decide)
  · exact ⟨_, rfl⟩

/-- **C113 is false** for repeated names: of two members that differ only in case the later one counts, and the earlier one if the
later one is not a number. -/
theorem C113_false_twice : (decodePaginate (lit "{\"page\": 1, \"Page\": 2}")).page = 2
    ∧ (decodePaginate (lit "{\"page\": 1, \"page\": \"2\"}")).page = 1 := by
  decide +kernel

/-- A page as another program may write it. -/
example : decodePaginate (lit " { \"Search\" :\"name=\\u0061\", \"x\":[ 1,{}, -0.5E+3] ,\"page_SIZE\":5}\n") = { pageSize := 5, search := lit "name=a" } := by
  decide +kernel

/-- `{"page": 2}` is a JSON text of the object with this member, so that page 2 is asked for. -/
example : decodePaginate (lit "{\"page\": 2}") = { page := 2 } := by
  have hb : Blank [] := by intro c hc; cases hc
  have hs : Blank (lit " ") := by unfold Blank; decide
  have hk : Spells (lit "page") (lit "page") := by
    have := spells_raw 'p' (by decide +kernel) (spells_raw 'a' (by decide +kernel) (spells_raw 'g' (by decide +kernel)
      (spells_raw 'e' (by decide +kernel) .nil)))
    have e : lit "page" = String.utf8EncodeChar 'p' ++ (String.utf8EncodeChar 'a' ++ (String.utf8EncodeChar 'g' ++ (String.utf8EncodeChar 'e' ++ []))) := by
      decide +kernel
    rw [e]; exact this
  have hn : JsonNumber (lit "2") :=
    ⟨[], lit "2", [], [], by decide, Or.inl rfl, Or.inr ⟨⟨by decide, by decide⟩, by decide⟩, Or.inl rfl, Or.inl rfl⟩
  have hv : ValueText Spells _ _ := .obj (.one hb hk hb hs (.num hn) hb)
  have ht : JsonText Spells (lit "{\"page\": 2}") (.obj [(lit "page", .num (lit "2"))]) := ⟨[], _, [], hb, hv, hb, by decide +kernel⟩
  have hw : Whole64 (lit "2") 2 := ⟨⟨lit "2", ⟨by decide, by decide⟩, Or.inl ⟨rfl, by decide⟩⟩, by decide, by decide⟩
  rw [C113_page_partial ht ⟨by decide, by decide⟩]
  refine ⟨Or.inr ⟨lit "page", _, by simp, by decide, Or.inl ⟨_, rfl, hw⟩⟩, Or.inl ⟨rfl, ?_⟩, Or.inl ⟨rfl, ?_⟩, Or.inl ⟨rfl, ?_⟩, Or.inl ⟨rfl, ?_⟩⟩ <;>
    (intro e he; rw [List.mem_singleton] at he; subst he; decide)

/-- What is no JSON at all. -/
example : (parse (lit "{\"a\":01}")).isNone = true ∧ (parse (lit "[1,]")).isNone = true ∧ (parse (lit "{\"a\" 1}")).isNone = true
    ∧ (parse (lit "nul")).isNone = true ∧ (parse (lit "1 2")).isNone = true ∧ (parse (lit "\"\\x\"")).isNone = true := by
  decide +kernel

end Ckube

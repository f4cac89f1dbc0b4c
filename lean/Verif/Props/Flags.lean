import Verif.Lemmas.Flags
import Verif.Props.Plugin

/-! # C102: command lines are read as they are written -/

namespace Ckube

open Spec

theorem goodName_of {n : Str} {l : List Str} (h : n ∈ l) (hl : ∀ n ∈ l, n ≠ [] ∧ 61 ∉ n ∧ n.head? ≠ some 45) : goodName n := hl n h

theorem good_cli : GoodFlags cliFormal := by
  intro n k h
  refine goodName_of (l := [lit "p", lit "s", lit "sort", lit "search", lit "c"]) ?_ (by decide +kernel)
  unfold cliFormal at h
  split at h
  · next h => simp only [List.mem_cons]; tauto
  · split at h
    · next h => simp only [List.mem_cons]; tauto
    · simp at h

theorem good_proxy : GoodFlags proxyFormal := by
  intro n k h
  refine goodName_of (l := [lit "c", lit "a", lit "k", lit "d"]) ?_ (by decide +kernel)
  unfold proxyFormal at h
  split at h
  · next h => simp only [List.mem_cons]; tauto
  · split at h
    · next h => simp only [List.mem_cons]; tauto
    · simp at h

theorem given_eq {set : List (Str × FlagVal)} {n : Str} {dflt x : FlagVal} (h : Given set n dflt x) : flagValue set n dflt = x :=
  Given.unique (flagValue_given n dflt set) h

theorem Spec.CmdLine.kinds {formal : Str → Option FlagKind} {argv left : List Str} {set : List (Str × FlagVal)} (h : CmdLine formal argv set left) :
    ∀ x ∈ set, ∃ k, formal x.1 = some k ∧ HasKind k x.2 := by
  induction h with
  | done => simp
  | word _ => simp
  | stop => simp
  | flag hw _ ih =>
    intro y hy
    rcases List.mem_cons.1 hy with rfl | hy
    · cases hw with
      | eq _ hf hk _ => exact ⟨_, hf, hk⟩
      | sep _ hf _ hk _ => exact ⟨_, hf, hk⟩
      | bare _ hf => exact ⟨_, hf, trivial⟩
    · exact ih y hy

theorem flagValue_kind {formal : Str → Option FlagKind} {argv left : List Str} {set : List (Str × FlagVal)} (h : CmdLine formal argv set left)
    {n : Str} {k : FlagKind} (hf : formal n = some k) {dflt : FlagVal} (hd : HasKind k dflt) : HasKind k (flagValue set n dflt) := by
  rcases flagValue_given n dflt set with ⟨a, b, h1, _⟩ | ⟨_, h1⟩
  · obtain ⟨k', h2, h3⟩ := h.kinds (n, flagValue set n dflt) (by
      generalize flagValue set n dflt = x at h1 ⊢
      rw [h1]
      simp)
    rw [hf] at h2
    obtain rfl := Option.some.inj h2
    exact h3
  · rw [h1]
    exact hd

theorem kind_text {x : FlagVal} (h : HasKind .text x) : x = .text x.asText := by cases x <;> simp_all [HasKind, FlagVal.asText]
theorem kind_int {x : FlagVal} (h : HasKind .int x) : x = .int x.asInt := by cases x <;> simp_all [HasKind, FlagVal.asInt]
theorem kind_bool {x : FlagVal} (h : HasKind .bool x) : x = .bool x.asBool := by cases x <;> simp_all [HasKind, FlagVal.asBool]

/-- **C102** for cacheproxy: it starts exactly with the command lines that are flags, written in any of the forms, and perhaps other arguments after them; it takes each flag
as it was given last. Missing for the full claim: arguments that are no flags (`C102_false_words`, `C102_false_bool`). -/
theorem C102_proxy_partial (argv : List Str) (a : ProxyArgs) :
    proxyArgs argv = some a ↔ ∃ set left, CmdLine proxyFormal argv set left
      ∧ Given set (lit "c") (.text (lit "config/local.json")) (.text a.configFile) ∧ Given set (lit "a") (.text (lit ":80")) (.text a.listen)
      ∧ Given set (lit "k") (.text []) (.text a.kubeConfig) ∧ Given set (lit "d") (.bool false) (.bool a.debug) := by
  constructor
  · intro h
    unfold proxyArgs at h
    split at h
    · simp at h
    · next set left hp =>
      obtain rfl := Option.some.inj h
      have hr := (flagParse_iff good_proxy _ _ _).1 hp
      refine ⟨set, left, hr, ?_, ?_, ?_, ?_⟩
      · exact kind_text (flagValue_kind hr (n := lit "c") (k := .text) (dflt := .text (lit "config/local.json")) (by decide +kernel) trivial) ▸ flagValue_given _ _ _
      · exact kind_text (flagValue_kind hr (n := lit "a") (k := .text) (dflt := .text (lit ":80")) (by decide +kernel) trivial) ▸ flagValue_given _ _ _
      · exact kind_text (flagValue_kind hr (n := lit "k") (k := .text) (dflt := .text []) (by decide +kernel) trivial) ▸ flagValue_given _ _ _
      · exact kind_bool (flagValue_kind hr (n := lit "d") (k := .bool) (dflt := .bool false) (by decide +kernel) trivial) ▸ flagValue_given _ _ _
  · rintro ⟨set, left, hr, h1, h2, h3, h4⟩
    simp only [proxyArgs, (flagParse_iff good_proxy _ _ _).2 hr, given_eq h1, given_eq h2, given_eq h3, given_eq h4]
    rfl

/-- A command line with all forms. -/
example : proxyArgs [lit "-c", lit "a.json", lit "--a=:8080", lit "-d", lit "-c=b.json"] = some ⟨lit "b.json", lit ":8080", [], true⟩
    ∧ proxyArgs [lit "-d=maybe"] = none ∧ proxyArgs [lit "-kube", lit "x"] = none := by
  decide +kernel

/-- **C102** for ckubecli: from what it prints for a command line without `-c` the server reads the page, the page size, the sort and the search that were given last.
Missing: other arguments (`C102_false_words`), and the texts `C70_flags_partial` excludes. -/
theorem C102_cli_partial {printf : Str → Str} (hprintf : ∀ t, 37 ∉ t → printf t = t) {argv left : List Str} {set : List (Str × FlagVal)}
    (hr : CmdLine cliFormal argv set left) {page size : Int} {sort search : Str}
    (hp : Given set (lit "p") (.int 0) (.int page)) (hs : Given set (lit "s") (.int 0) (.int size)) (hso : Given set (lit "sort") (.text []) (.text sort))
    (hse : Given set (lit "search") (.text []) (.text search)) (hc : lit "c" ∉ set.map Prod.fst)
    (hsort : ∀ b ∈ sort, b < 0x80 ∧ b ∉ lit "?~\x7f") (hsearch : ∀ b ∈ search, b < 0x80 ∧ b ∉ lit "?~\x7f")
    (hlen : (Base64.encode (Paginate.toJson ⟨page, size, 0, sort, search⟩)).length ≤ 10024) :
    ∃ text i, ckubecliMain printf argv = .prints text ∧ parseSelector text = some i ∧ i.paginate = ⟨page, size, 0, sort, search⟩ := by
  have range : ∀ {n : Str} {i : Int}, Given set n (.int 0) (.int i) → -2^63 ≤ i ∧ i < 2^63 := by
    rintro n i (⟨a, b, h, _⟩ | ⟨_, h⟩)
    · have key : ∀ {argv set left}, CmdLine cliFormal argv set left → ∀ x ∈ set, ∀ i, x.2 = .int i → -2^63 ≤ i ∧ i < 2^63 := by
        intro argv set left h
        induction h with
        | done => simp
        | word _ => simp
        | stop => simp
        | flag hw _ ih =>
          intro y hy i hi
          rcases List.mem_cons.1 hy with rfl | hy
          · cases hw with
            | eq _ _ _ hv => cases hi; obtain ⟨_, _, _, _, _, _, _, h⟩ := hv; exact h
            | sep _ _ _ _ hv => cases hi; obtain ⟨_, _, _, _, _, _, _, h⟩ := hv; exact h
            | bare _ _ => simp at hi
          · exact ih y hy i hi
      exact key hr (n, .int i) (by rw [h]; simp) i rfl
    · obtain rfl := FlagVal.int.inj h
      omega
  obtain ⟨text, i, h1, h2, h3⟩ := C70_flags_partial hprintf (range hp) (range hs) hsort hsearch hlen
  refine ⟨text, i, ?_, h2, h3⟩
  simp only [ckubecliMain, (flagParse_iff good_cli _ _ _).2 hr, given_eq hp, given_eq hs, given_eq hso, given_eq hse, given_eq (Or.inr ⟨hc, rfl⟩ : Given set (lit "c") (.text []) _)]
  simp only [FlagVal.asInt, FlagVal.asText, h1]

/-- **C102** for ckubecli with `-c c1,c2,…` and no search: the server reads these clusters. -/
theorem C102_clusters_partial {printf : Str → Str} (hprintf : ∀ t, 37 ∉ t → printf t = t) {argv left : List Str} {set : List (Str × FlagVal)}
    (hr : CmdLine cliFormal argv set left) {page size : Int} {sort cl : Str} (hpage : -2^63 ≤ page ∧ page < 2^63) (hsize : -2^63 ≤ size ∧ size < 2^63)
    (hp : Given set (lit "p") (.int 0) (.int page)) (hs : Given set (lit "s") (.int 0) (.int size)) (hso : Given set (lit "sort") (.text []) (.text sort))
    (hse : lit "search" ∉ set.map Prod.fst) (hc : Given set (lit "c") (.text []) (.text cl))
    (hsort : ∀ b ∈ sort, b < 0x80 ∧ b ∉ lit "?~\x7f") (hnames : ∀ c ∈ splitByte 44 cl, c ≠ [] ∧ validLabelValue c = true)
    (hlen : (Base64.encode (Paginate.toJson ⟨page, size, 0, sort, (setClusters [] (splitByte 44 cl)).getD []⟩)).length ≤ 10024) :
    ∃ text i, ckubecliMain printf argv = .prints text ∧ parseSelector text = some i
      ∧ i.paginate.page = page ∧ i.paginate.pageSize = size ∧ i.paginate.sort = sort
      ∧ ∀ c, c ∈ getClusters i.paginate.search ↔ c ∈ splitByte 44 cl := by
  obtain ⟨text, i, h1, h2⟩ := C70_clusters_partial hprintf hpage hsize hsort hnames hlen
  refine ⟨text, i, ?_, h2⟩
  simp only [ckubecliMain, (flagParse_iff good_cli _ _ _).2 hr, given_eq hp, given_eq hs, given_eq hso, given_eq hc, given_eq (Or.inr ⟨hse, rfl⟩ : Given set (lit "search") (.text []) _)]
  simp only [FlagVal.asInt, FlagVal.asText, h1]

/-- `-p 1 --s=10 -sort name -p 2`. -/
example : CmdLine cliFormal [lit "-p", lit "1", lit "--s=10", lit "-sort", lit "name", lit "-p", lit "2"]
      [(lit "p", .int 1), (lit "s", .int 10), (lit "sort", .text (lit "name")), (lit "p", .int 2)] []
    ∧ Given [(lit "p", .int 1), (lit "s", .int 10), (lit "sort", .text (lit "name")), (lit "p", .int 2)] (lit "p") (.int 0) (.int 2)
    ∧ ckubecliMain id [lit "-p", lit "1", lit "--s=10", lit "-p", lit "2"]
      = .prints (lit "ckube.daocloud.io/query notin (eyJwYWdlIjoyLCJwYWdlX3NpemUiOjEwfQ)") :=
  ⟨(flagParse_iff good_cli _ _ _).1 (by decide +kernel),
    Or.inl ⟨[(lit "p", .int 1), (lit "s", .int 10), (lit "sort", .text (lit "name"))], [], rfl, by simp⟩, by decide +kernel⟩

/-- **C102**: any other command line is refused by both programs. -/
theorem C102_refused {printf : Str → Str} {argv : List Str} :
    ((¬ ∃ set left, CmdLine cliFormal argv set left) → ∃ code, ckubecliMain printf argv = .exit code)
    ∧ ((¬ ∃ set left, CmdLine proxyFormal argv set left) → proxyArgs argv = none) := by
  constructor
  · intro h
    unfold ckubecliMain
    cases hp : flagParse cliFormal argv with
    | exit code => exact ⟨code, rfl⟩
    | ok set left => exact absurd ⟨set, left, (flagParse_iff good_cli _ _ _).1 hp⟩ h
  · intro h
    unfold proxyArgs
    cases hp : flagParse proxyFormal argv with
    | exit code => rfl
    | ok set left => exact absurd ⟨set, left, (flagParse_iff good_proxy _ _ _).1 hp⟩ h

/-- There are such command lines: a flag that does not exist, a page that is no number. -/
example : (¬ ∃ set left, CmdLine cliFormal [lit "-page", lit "2"] set left) ∧ (¬ ∃ set left, CmdLine cliFormal [lit "-p=two"] set left) := by
  constructor
  all_goals
    rintro ⟨set, left, h⟩
    have h := (flagParse_iff good_cli _ _ _).2 h
    revert h
  · rw [show flagParse cliFormal [lit "-page", lit "2"] = .exit 2 by decide +kernel]; simp
  · rw [show flagParse cliFormal [lit "-p=two"] = .exit 2 by decide +kernel]; simp

theorem uintLoop_digits : ∀ (s : Str) (m : Nat), s.all isDigit = true → uintLoop 10 s m = some (s.foldl (fun a c => a * 10 + (c.toNat - 48)) m)
  | [], _, _ => rfl
  | c :: s, m, h => by
    simp only [List.all_cons, Bool.and_eq_true] at h
    have hc : ∀ c : UInt8, isDigit c = true → c ≠ 95 ∧ digitOf c = some (c.toNat - 48) ∧ c.toNat - 48 < 10 := forall_byte (by decide +kernel)
    obtain ⟨h1, h2, h3⟩ := hc c h.1
    simp only [uintLoop, h1, if_false, h2, List.foldl_cons]
    rw [if_neg (by omega), uintLoop_digits s _ h.2]

/-- **C102**: a number written in decimal is read as this number. -/
theorem C102_decimal {i : Int} (h : -2^63 ≤ i ∧ i < 2^63) : IntText (intDigits i) i := by
  have hu : ∀ n : Nat, Unsigned (natDigits n) n := by
    intro n
    rw [← parseUint0_iff]
    rcases Nat.eq_zero_or_pos n with rfl | hn
    · decide +kernel
    · have h1 := natDigits_head hn
      have h2 := natDigits_all n
      have h3 := digitsVal_natDigits n
      have h4 := natDigits_ne_nil n
      generalize natDigits n = s at h1 h2 h3 h4
      have hb : baseOf s = (10, s) := by
        unfold baseOf
        split
        · simp at h1
        · simp at h1
        · rfl
      have h9 : 95 ∉ s := fun h => by
        have := List.all_eq_true.1 h2 95 h
        exact absurd this (by decide)
      unfold parseUint0
      rw [if_neg h4, hb]
      simp only [uintLoop_digits s 0 h2, h9, false_and, if_false]
      rw [← h3]
      rfl
  by_cases hi : i < 0
  · refine ⟨lit "-", natDigits i.natAbs, i.natAbs, ?_, by simp, hu _, ?_, h⟩
    · simp [intDigits, hi, lit]
    · rw [if_pos rfl]; omega
  · refine ⟨[], natDigits i.natAbs, i.natAbs, ?_, by simp, hu _, ?_, h⟩
    · simp [intDigits, hi]
    · rw [if_neg (by decide)]; omega

/-- **C102 is false** for numbers with zeros before them: `-p 010` is page 8. -/
theorem C102_false_zeros : ckubecliMain id [lit "-p", lit "010", lit "-s", lit "10"] = ckubecliMain id [lit "-p", lit "8", lit "-s", lit "10"]
    ∧ ckubecliMain id [lit "-p", lit "010", lit "-s", lit "10"] ≠ ckubecliMain id [lit "-p", lit "10", lit "-s", lit "10"] := by
  decide +kernel

/-- **C102 is false** for flags after another argument: they are ignored without a message. `ckubecli pods -c c1` asks for all clusters; `cacheproxy serve -c my.json` takes
the default configuration file. -/
theorem C102_false_words : ckubecliMain id [lit "pods", lit "-c", lit "c1"] = ckubecliMain id []
    ∧ ckubecliMain id [lit "-c", lit "c1"] ≠ ckubecliMain id []
    ∧ proxyArgs [lit "serve", lit "-c", lit "my.json"] = some ⟨lit "config/local.json", lit ":80", [], false⟩ := by
  decide +kernel

/-- **C102 is false** for the debug flag with a value in an argument of its own: `-d false` switches debugging on, and the flags after it are ignored. -/
theorem C102_false_bool : proxyArgs [lit "-d", lit "false", lit "-c", lit "my.json"] = some ⟨lit "config/local.json", lit ":80", [], true⟩ := by
  decide +kernel

end Ckube

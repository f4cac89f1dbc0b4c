import Verif.Lemmas.Plugin
import Verif.Lemmas.Sort

/-! # C63, C70: the command line tools -/

namespace Ckube
open Spec

/-! ## C63 -/

/-- **C63 is false for every command line with a selector**: whatever is given before and after, the argument the user gave as
selector is passed on as it is (or the plugin crashes); the new selector, if any, replaces a later argument. `pre` and `post`:
the arguments before and after; `a`, `b`: those of them meant for kubectl. -/
theorem C63_false_always {pre post a b : List Str} {c c' : Option Str} {flag v : Str} (hpre : KubectlArgs pre a c)
    (hpost : KubectlArgs post b c') (hf : flag ∈ selFlags) (hv : v ∉ selFlags) (hv' : v ≠ lit "--clusters")
    (hb : ∀ x ∈ b, x ∉ selFlags) (hget : lit "get" ∈ a ++ flag :: v :: b) (hcreate : lit "create" ∉ a ++ flag :: v :: b) :
    plugin (pre ++ flag :: v :: post) = .crash
    ∨ ∃ args, plugin (pre ++ flag :: v :: post) = .run args ∧ args[a.length + 1]? = some v := by
  have hfc : flag ≠ lit "--clusters" := by
    rintro rfl
    exact absurd hf (by decide)
  obtain ⟨p, hp, _⟩ := plugLoop_prefix hpre 1 {} (flag :: v :: post)
  obtain ⟨q, hq, hq'⟩ := plugLoop_prefix hpost (1 + pre.length + 1 + 1)
    ⟨c.getD [], a ++ [flag] ++ [v], plugTyp v (plugTyp flag (a.foldl (fun t x => plugTyp x t) .notSupport)), 1 + pre.length + 1⟩ []
  have hpos : q = 1 + pre.length + 1 := hq' hb
  rw [List.append_nil, plugLoop_nil] at hq
  have hf1 : flag = lit "-l" ∨ flag = lit "--selector" := by simpa [selFlags] using hf
  have hv1 : ¬ (v = lit "-l" ∨ v = lit "--selector") := by simpa [selFlags] using hv
  have hloop : plugLoop 1 (pre ++ flag :: v :: post) {} =
      { clusters := c'.getD (c.getD []), args := a ++ flag :: v :: b, typ := .get, selectorPos := pre.length + 2 } := by
    rw [hp, plugLoop_other _ hfc, plugLoop_other _ hv']
    simp only [List.nil_append, hf1, true_and, if_true, ne_eq, reduceCtorEq, not_false_eq_true, hv1, false_and, if_false]
    rw [hq]
    have ht := typ_get hget hcreate .notSupport
    rw [List.foldl_append, List.foldl_cons, List.foldl_cons] at ht
    rw [ht, hpos]
    simp only [List.append_assoc, List.singleton_append, PlugState.mk.injEq, true_and]
    exact ⟨by simp, by omega⟩
  have hlen := args_length hpre
  have hget1 : (a ++ flag :: v :: b)[a.length + 1]? = some v := by
    rw [List.getElem?_append_right (by omega)]
    simp
  unfold plugin
  simp only [hloop]
  split
  · exact Or.inr ⟨_, rfl, hget1⟩
  · rw [if_neg (by omega)]
    split
    · exact Or.inl rfl
    · refine Or.inr ⟨_, rfl, ?_⟩
      rw [List.getElem?_set_ne (by omega)]
      exact hget1

/-- So the clusters are not asked for where the selector is, unless the user's own text does. -/
theorem C63_false_clusters {pre post a b : List Str} {c c' : Option Str} {flag v : Str} (hpre : KubectlArgs pre a c)
    (hpost : KubectlArgs post b c') (hf : flag ∈ selFlags) (hv : v ∉ selFlags) (hv' : v ≠ lit "--clusters")
    (hb : ∀ x ∈ b, x ∉ selFlags) (hget : lit "get" ∈ a ++ flag :: v :: b) (hcreate : lit "create" ∉ a ++ flag :: v :: b)
    (cs : List Str) (hown : ¬ ForClusters v cs) :
    ¬ ∃ args text, plugin (pre ++ flag :: v :: post) = .run args ∧ args[a.length + 1]? = some text ∧ ForClusters text cs := by
  rintro ⟨args, text, h1, h2, h3⟩
  rcases C63_false_always hpre hpost hf hv hv' hb hget hcreate with h | ⟨args', h, h'⟩
  · rw [h1] at h; cases h
  · rw [h1] at h
    cases h
    rw [h2] at h'
    cases h'
    exact hown h3

/-- `get pods -l app=a -o yaml --clusters x`: the argument `-o` is taken for the selector, and nothing says `x`;
without `-o yaml` the plugin crashes. -/
example : KubectlArgs [lit "get", lit "pods"] [lit "get", lit "pods"] none
    ∧ KubectlArgs [lit "-o", lit "yaml", lit "--clusters", lit "x"] [lit "-o", lit "yaml"] (some (lit "x"))
    ∧ plugin ([lit "get", lit "pods"] ++ lit "-l" :: lit "app=a" :: [lit "-o", lit "yaml", lit "--clusters", lit "x"])
      = .run [lit "get", lit "pods", lit "-l", lit "app=a", lit "-o", lit "yaml"]
    ∧ ¬ ForClusters (lit "app=a") [lit "x"]
    ∧ plugin [lit "get", lit "pods", lit "-l", lit "app=a", lit "--clusters", lit "x"] = .crash := by
  refine ⟨.other _ (by decide) (.other _ (by decide) .nil),
    .other _ (by decide) (.other _ (by decide) (.clusters (lit "x") .nil)), by decide +kernel, ?_, by decide +kernel⟩
  rintro ⟨i, hi, h⟩
  have : (parseSelector (lit "app=a")).map (fun i => getClusters i.paginate.search) = some [] := by decide +kernel
  rw [hi] at this
  simp only [Option.map_some, Option.some.injEq] at this
  have := (h (lit "x")).mpr (by simp)
  simp_all

/-- **C63**, what does hold: without a selector of the user, `get` with `--clusters` passes the arguments on and adds a selector that
asks ckube for exactly these clusters. Missing: command lines with a selector, for which it is false. -/
theorem C63_no_selector_partial {argv a : List Str} {cl : Str} (hargs : KubectlArgs argv a (some cl)) (hget : lit "get" ∈ a)
    (hcreate : lit "create" ∉ a) (hno : ∀ x ∈ a, x ∉ selFlags)
    (hnames : ∀ c ∈ splitByte 44 cl, c ≠ [] ∧ validLabelValue c = true)
    (hlen : (Base64.encode (Paginate.toJson { search := (setClusters [] (splitByte 44 cl)).getD [] })).length ≤ 10024) :
    ∃ text, plugin argv = .run (a ++ [lit "-l", text]) ∧ ForClusters text (splitByte 44 cl) := by
  have hne := splitByte_ne_nil 44 cl
  obtain ⟨s', hs', hplain⟩ := setClusters_nil hne hnames
  have hcl : cl ≠ [] := by
    rintro rfl
    exact (hnames [] (by simp [splitByte])).1 rfl
  obtain ⟨p, hp, hp'⟩ := plugLoop_prefix hargs 1 {} []
  rw [hp' hno, List.append_nil, plugLoop_nil] at hp
  rw [hs'] at hlen
  simp only [Option.getD_some] at hlen hp
  have hpb : ∀ b : UInt8, plainByte b = true → b < 0x80 ∧ b ∉ lit "?~\x7f" := forall_byte (by decide +kernel)
  obtain ⟨text, htext⟩ := C07_accepts_plain_partial [] [] { search := s' } (by decide +kernel) (by simp) (by simp)
    (fun b hb => hpb b (hplain b hb)) (by omega)
  refine ⟨text, ?_, ?_⟩
  · unfold plugin
    rw [hp]
    simp only [typ_get hget hcreate, if_neg hcl, List.nil_append, if_true]
    simp only [plugSelector, plugPage, hs', Option.getD_some, htext]
  · obtain ⟨i, hi, hpg⟩ := C05_delivered_partial [] text [] { search := s' } ⟨by decide +kernel, by simp, by simp, by simp⟩
      (by simp) (by simp) (by simp) (show validUtf8 [] = true by decide +kernel) (plain_utf8 hplain) hlen htext
    refine ⟨i, hi, ?_⟩
    rw [hpg]
    exact (C19_read_back_partial [] s' _ [] hs' (Or.inl ⟨by decide +kernel, rfl⟩) ⟨by
      rw [show searchParts [] = [] by decide +kernel]
      simp, by simp, by simp, by simp⟩).1

/-- `get pods --clusters c1,c2 -A`. -/
example : KubectlArgs [lit "get", lit "pods", lit "--clusters", lit "c1,c2", lit "-A"] [lit "get", lit "pods", lit "-A"] (some (lit "c1,c2"))
    ∧ splitByte 44 (lit "c1,c2") = [lit "c1", lit "c2"]
    ∧ (∀ c ∈ splitByte 44 (lit "c1,c2"), c ≠ [] ∧ validLabelValue c = true)
    ∧ (Base64.encode (Paginate.toJson { search := (setClusters [] (splitByte 44 (lit "c1,c2"))).getD [] })).length ≤ 10024 := by
  refine ⟨.other _ (by decide) (.other _ (by decide) (.clusters (lit "c1,c2") (.other _ (by decide) .nil))), by decide +kernel,
    by decide +kernel, by decide +kernel⟩

/-- **C63**, create: with one cluster the arguments are passed on with the marker of the cluster as field manager; with several the
plugin ends with code 2. -/
theorem C63_create {argv a : List Str} {cl : Str} (hargs : KubectlArgs argv a (some cl)) (hcreate : lit "create" ∈ a)
    (hget : lit "get" ∉ a) (hcl : cl ≠ []) :
    (44 ∉ cl → plugin argv = .run (a ++ [lit "--field-manager", lit "dsm-cluster-" ++ cl])) ∧ (44 ∈ cl → plugin argv = .exit 2) := by
  obtain ⟨p, hp, _⟩ := plugLoop_prefix hargs 1 {} []
  rw [List.append_nil, plugLoop_nil] at hp
  simp only [Option.getD_some] at hp
  constructor
  · intro hc
    unfold plugin
    rw [hp]
    simp only [typ_create hcreate hget, if_neg hcl, List.nil_append, splitByte_of_not_mem 44 cl hc]
    rfl
  · intro hc
    have hl : (splitByte 44 cl).length > 1 := by
      have h1 := splitByte_ne_nil 44 cl
      have h2 := join_splitByte 44 cl
      generalize hs : splitByte 44 cl = l at *
      match l, h1, h2 with
      | [x], _, h2 =>
        exfalso
        have hx := not_mem_of_splitByte 44 cl x (by rw [hs]; simp)
        simp only [join] at h2
        rw [h2] at hx
        exact hx hc
      | _ :: _ :: _, _, _ => simp
    unfold plugin
    rw [hp]
    simp only [typ_create hcreate hget, if_neg hcl, List.nil_append, if_pos hl]

example : KubectlArgs [lit "create", lit "--clusters", lit "c1", lit "-f", lit "x"] [lit "create", lit "-f", lit "x"] (some (lit "c1")) :=
  .other _ (by decide) (.clusters (lit "c1") (.other _ (by decide) (.other _ (by decide) .nil)))

/-! ## C70 -/

/-- The text of the options contains no `%`. -/
theorem options_percent {page : Paginate} {text : Str} (h : queryListOptions [] page = some text) : 37 ∉ text := by
  have hl : parseToLabelSelector [] = some {} := by decide +kernel
  unfold queryListOptions at h
  split at h
  · cases h; simp
  · rw [hl, Option.bind_some] at h
    unfold formatSelector at h
    rw [Option.map_eq_some_iff] at h
    obtain ⟨rs, hrs, rfl⟩ := h
    have hv := (asSelector_valid hrs).2 ⟨paginateKey, .notIn, splittingValue (Base64.encode page.toJson)⟩ (by simp)
    obtain ⟨hrs', _⟩ := asSelector_some hrs
    have hname : ∀ b : UInt8, isNameChar b = true → b ≠ 37 := forall_byte (by decide +kernel)
    have hc : ∀ c ∈ splittingValue (Base64.encode page.toJson), ∀ b ∈ c, b ≠ 37 :=
      fun c hc b hb => hname b (validLabelValue_chars (hv.vals c hc) b hb)
    have hone : rs = [exprReq ⟨paginateKey, .notIn, splittingValue (Base64.encode page.toJson)⟩] := by rw [hrs']; rfl
    have hvals : ∀ b ∈ (exprReq ⟨paginateKey, .notIn, splittingValue (Base64.encode page.toJson)⟩).valsText, b ≠ 37 := by
      unfold Req.valsText
      split
      · rename_i v hv
        simp only [exprReq] at hv
        exact hc v (by rw [hv]; simp)
      · simp only [exprReq]
        exact join_bytes (P := fun b => b ≠ 37) (by decide) (fun x hx => hc x ((mem_sortBy ..).mp hx))
    have hreq : ∀ b ∈ (exprReq ⟨paginateKey, .notIn, splittingValue (Base64.encode page.toJson)⟩).toStr, b ≠ 37 := by
      intro b hb
      simp only [Req.toStr, exprReq, LOp.toOp, List.mem_append, List.mem_singleton] at hb
      rcases hb with ((hb | hb) | hb) | rfl
      · exact (show ∀ b ∈ paginateKey, b ≠ 37 by decide) b hb
      · exact (show ∀ b ∈ lit " notin (", b ≠ 37 by decide) b hb
      · exact hvals b hb
      · decide
    intro hm
    split at hm
    · exact absurd hm (by decide)
    · rw [hone] at hm
      exact hreq 37 (by simpa [selStr, join] using hm) rfl

/-- **C70**, partially: without `-c`, ckubecli prints a selector from which the server reads exactly the given page, page size,
sort and search. `printf` is what `fmt.Printf` makes of a format; of it is assumed only that a text without `%` is printed as it
is. Missing: strings that are not ASCII or contain `?`, `~` or DEL may be refused (`C07_accepts_iff_partial` says which). -/
theorem C70_flags_partial {printf : Str → Str} (hprintf : ∀ t, 37 ∉ t → printf t = t) {page size : Int} {sort search : Str}
    (hpage : -2^63 ≤ page ∧ page < 2^63) (hsize : -2^63 ≤ size ∧ size < 2^63)
    (hsort : ∀ b ∈ sort, b < 0x80 ∧ b ∉ lit "?~\x7f") (hsearch : ∀ b ∈ search, b < 0x80 ∧ b ∉ lit "?~\x7f")
    (hlen : (Base64.encode (Paginate.toJson ⟨page, size, 0, sort, search⟩)).length ≤ 10024) :
    ∃ text i, ckubecli printf page size sort search [] = some text ∧ parseSelector text = some i
      ∧ i.paginate = ⟨page, size, 0, sort, search⟩ := by
  have hb : ∀ b : UInt8, b < 0x80 ∧ b ∉ lit "?~\x7f" → plainByte b = true := forall_byte (by decide +kernel)
  obtain ⟨text, htext⟩ := C07_accepts_plain_partial [] [] ⟨page, size, 0, sort, search⟩ (by decide +kernel) (by simp) hsort hsearch (by omega)
  obtain ⟨i, hi, hp⟩ := C05_delivered_partial [] text [] ⟨page, size, 0, sort, search⟩ ⟨by decide +kernel, by simp, by simp, by simp⟩
    hpage hsize (by simp) (plain_utf8 fun b h => hb b (hsort b h)) (plain_utf8 fun b h => hb b (hsearch b h)) hlen htext
  refine ⟨text, i, ?_, hi, hp⟩
  unfold ckubecli
  simp only [if_true, htext, Option.map_some, hprintf text (options_percent htext)]

/-- **C70**, partially: with `-c c1,c2,…` and no search the server reads the given page, page size and sort and exactly these
clusters. -/
theorem C70_clusters_partial {printf : Str → Str} (hprintf : ∀ t, 37 ∉ t → printf t = t) {page size : Int} {sort cl : Str}
    (hpage : -2^63 ≤ page ∧ page < 2^63) (hsize : -2^63 ≤ size ∧ size < 2^63)
    (hsort : ∀ b ∈ sort, b < 0x80 ∧ b ∉ lit "?~\x7f")
    (hnames : ∀ c ∈ splitByte 44 cl, c ≠ [] ∧ validLabelValue c = true)
    (hlen : (Base64.encode (Paginate.toJson ⟨page, size, 0, sort, (setClusters [] (splitByte 44 cl)).getD []⟩)).length ≤ 10024) :
    ∃ text i, ckubecli printf page size sort [] cl = some text ∧ parseSelector text = some i
      ∧ i.paginate.page = page ∧ i.paginate.pageSize = size ∧ i.paginate.sort = sort
      ∧ ∀ c, c ∈ getClusters i.paginate.search ↔ c ∈ splitByte 44 cl := by
  have hb : ∀ b : UInt8, b < 0x80 ∧ b ∉ lit "?~\x7f" → plainByte b = true := forall_byte (by decide +kernel)
  have hb' : ∀ b : UInt8, plainByte b = true → b < 0x80 ∧ b ∉ lit "?~\x7f" := forall_byte (by decide +kernel)
  obtain ⟨s', hs', hplain⟩ := setClusters_nil (splitByte_ne_nil 44 cl) hnames
  have hcl : cl ≠ [] := by
    rintro rfl
    exact (hnames [] (by simp [splitByte])).1 rfl
  rw [hs'] at hlen
  simp only [Option.getD_some] at hlen
  obtain ⟨text, htext⟩ := C07_accepts_plain_partial [] [] ⟨page, size, 0, sort, s'⟩ (by decide +kernel) (by simp) hsort
    (fun b h => hb' b (hplain b h)) (by omega)
  obtain ⟨i, hi, hp⟩ := C05_delivered_partial [] text [] ⟨page, size, 0, sort, s'⟩ ⟨by decide +kernel, by simp, by simp, by simp⟩
    hpage hsize (by simp) (plain_utf8 fun b h => hb b (hsort b h)) (plain_utf8 hplain) hlen htext
  refine ⟨text, i, ?_, hi, by rw [hp], by rw [hp], by rw [hp], ?_⟩
  · unfold ckubecli
    simp only [if_neg hcl, hs', Option.getD_some, htext, Option.map_some, hprintf text (options_percent htext)]
  · rw [hp]
    exact (C19_read_back_partial [] s' _ [] hs' (Or.inl ⟨by decide +kernel, rfl⟩) ⟨by
      rw [show searchParts [] = [] by decide +kernel]
      simp, by simp, by simp, by simp⟩).1

/-- Page 2 of size 10 of clusters `c1` and `c2`, sorted by name. -/
example : (∀ b ∈ lit "name", b < 0x80 ∧ b ∉ lit "?~\x7f")
    ∧ (∀ c ∈ splitByte 44 (lit "c1,c2"), c ≠ [] ∧ validLabelValue c = true)
    ∧ (Base64.encode (Paginate.toJson ⟨2, 10, 0, lit "name", (setClusters [] (splitByte 44 (lit "c1,c2"))).getD []⟩)).length ≤ 10024
    ∧ ckubecli id 2 10 [] [] [] = some (lit "ckube.daocloud.io/query notin (eyJwYWdlIjoyLCJwYWdlX3NpemUiOjEwfQ)") := by
  decide +kernel

/-- **C70** is false for cluster names `Clusters` does not accept: they are dropped without a message, and the selector asks for
all clusters. -/
theorem C70_false_name : ckubecli id 2 10 [] [] (lit "c1,,c2") = ckubecli id 2 10 [] [] []
    ∧ plugin [lit "get", lit "pods", lit "--clusters", lit "c1,"] = .run [lit "get", lit "pods", lit "-l", []] := by
  decide +kernel

end Ckube

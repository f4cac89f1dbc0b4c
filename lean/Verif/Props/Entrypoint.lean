import Verif.Lemmas.Entrypoint

/-! # C110: entrypoint.sh -/

namespace Ckube
open Spec

/-- The holes of nginx.conf. -/
theorem token_pieces : nginxLines.map (sedPieces (lit "__KUBE_TOKEN__") 0) = ((nginxLines.map fun l => [l]).set 36
      [lit "            proxy_set_header 'Authorization' \"Bearer ", lit "\";"]).set 80
      [lit "            proxy_set_header 'Authorization' \"Bearer ", lit "\";"] := by
  decide +kernel

theorem server_pieces : nginxLines.map (sedPieces (lit "__KUBE_SERVER__") 0) = (nginxLines.map fun l => [l]).set 17 [lit "    server ", lit ";"] := by
  decide +kernel

theorem token_pass (t : Str) : nginxLines.map (sedLine (lit "__KUBE_TOKEN__") t 0) =
    (nginxLines.set 36 (lit "            proxy_set_header 'Authorization' \"Bearer " ++ t ++ lit "\";")).set 80
      (lit "            proxy_set_header 'Authorization' \"Bearer " ++ t ++ lit "\";") := by
  have h : nginxLines.map (sedLine (lit "__KUBE_TOKEN__") t 0) = (nginxLines.map (sedPieces (lit "__KUBE_TOKEN__") 0)).map (join t) := by
    rw [List.map_map]
    exact List.map_congr_left fun l _ => sedLine_join _ t 0 l
  rw [h, token_pieces, List.map_set, List.map_set, List.map_map]
  have hid : (join t ∘ fun l : Str => [l]) = id := by funext l; rfl
  rw [hid, List.map_id]
  rfl

theorem server_pass (v : Str) : nginxLines.map (sedLine (lit "__KUBE_SERVER__") v 0) = nginxLines.set 17 (lit "    server " ++ v ++ lit ";") := by
  have h : nginxLines.map (sedLine (lit "__KUBE_SERVER__") v 0) = (nginxLines.map (sedPieces (lit "__KUBE_SERVER__") 0)).map (join v) := by
    rw [List.map_map]
    exact List.map_congr_left fun l _ => sedLine_join _ v 0 l
  rw [h, server_pieces, List.map_set, List.map_map]
  have hid : (join v ∘ fun l : Str => [l]) = id := by funext l; rfl
  rw [hid, List.map_id]
  rfl

theorem token_line {t : Str} (ht : ¬ lit "__KUBE_SERVER__" <:+: t) (v : Str) :
    sedLine (lit "__KUBE_SERVER__") v 0 (lit "            proxy_set_header 'Authorization' \"Bearer " ++ t ++ lit "\";")
      = lit "            proxy_set_header 'Authorization' \"Bearer " ++ t ++ lit "\";" := by
  apply sedLine_id
  intro h
  have e1 : lit "            proxy_set_header 'Authorization' \"Bearer " = lit "            proxy_set_header 'Authorization' \"Bearer" ++ [32] := by decide
  have e2 : lit "\";" = 34 :: [59] := by decide
  rw [e1, e2] at h
  rcases infix_of_append_cons (by decide) h with h | h
  · rw [List.append_assoc, List.singleton_append] at h
    rcases infix_of_append_cons (by decide) h with h | h
    · revert h; decide +kernel
    · exact ht h
  · revert h; decide +kernel

/-- The holes filled. -/
def filledConf (t v : Str) : List Str :=
  ((nginxLines.set 17 (lit "    server " ++ v ++ lit ";")).set 36 (lit "            proxy_set_header 'Authorization' \"Bearer " ++ t ++ lit "\";")).set 80
    (lit "            proxy_set_header 'Authorization' \"Bearer " ++ t ++ lit "\";")

theorem entryConf_filled {file t host port : Str} (n : Nat) (hf : file = t ++ List.replicate n 10) (ht : PlainToken t) (hs : ¬ lit "__KUBE_SERVER__" <:+: t)
    (hv : ∀ c ∈ host ++ 58 :: port, c ≠ 47 ∧ c ≠ 38 ∧ c ≠ 92 ∧ c ≠ 10) :
    entryConf file host port nginxLines = some (filledConf t (host ++ 58 :: port)) := by
  unfold entryConf
  rw [hf, shellSubst_newlines n fun c hc => (ht c hc).2.2.2.1,
    sedFile_plain _ _ fun c hc => ⟨(ht c hc).1, (ht c hc).2.1, (ht c hc).2.2.1, (ht c hc).2.2.2.1⟩, Option.bind_some, sedFile_plain _ _ hv, token_pass]
  rw [List.map_set, List.map_set, server_pass, token_line hs]
  rfl

set_option maxRecDepth 10000 in
theorem filledConf_parts (t v : Str) : filledConf t v = nginxLines.take 17 ++ ((lit "    server " ++ v ++ lit ";") :: ((nginxLines.drop 18).take 18 ++
    ((lit "            proxy_set_header 'Authorization' \"Bearer " ++ t ++ lit "\";") :: ((nginxLines.drop 37).take 43 ++
    ((lit "            proxy_set_header 'Authorization' \"Bearer " ++ t ++ lit "\";") :: nginxLines.drop 81))))) := rfl

theorem header_line (t : Str) (ht : PlainToken t) :
    authHeader (lit "            proxy_set_header 'Authorization' \"Bearer " ++ t ++ lit "\";") = some (some (lit "Bearer " ++ t)) := by
  have e : lit "            proxy_set_header 'Authorization' \"Bearer " ++ t ++ lit "\";"
      = List.replicate 12 32 ++ (112 :: lit "roxy_set_header 'Authorization' \"" ++ (lit "Bearer " ++ t ++ lit "\";")) := by
    rw [show lit "            proxy_set_header 'Authorization' \"Bearer "
      = List.replicate 12 32 ++ (112 :: lit "roxy_set_header 'Authorization' \"" ++ lit "Bearer ") by decide +kernel]
    simp only [List.append_assoc]
  unfold authHeader
  rw [e, show lit "proxy_set_header 'Authorization' \"" = 112 :: lit "roxy_set_header 'Authorization' \"" by decide +kernel, afterText_pad _ (by decide)]
  simp only [Option.map_some]
  rw [nginxQuoted_plain]
  intro c hc
  rcases List.mem_append.mp hc with hc | hc
  · exact (by decide : ∀ c ∈ lit "Bearer ", c ≠ 34 ∧ c ≠ 36 ∧ c ≠ 92) c hc
  · have := ht c hc; tauto

theorem server_header (v : Str) : authHeader (lit "    server " ++ v ++ lit ";") = none := by
  unfold authHeader
  rw [show lit "    server " = 32 :: 32 :: 32 :: 32 :: 115 :: lit "erver " by decide +kernel,
    show lit "proxy_set_header 'Authorization' \"" = 112 :: lit "roxy_set_header 'Authorization' \"" by decide +kernel]
  simp [afterText, List.isPrefixOf]

theorem header_server (t : Str) : upstreamLine (lit "            proxy_set_header 'Authorization' \"Bearer " ++ t ++ lit "\";") = none := by
  unfold upstreamLine
  rw [show lit "            proxy_set_header 'Authorization' \"Bearer "
      = 32 :: 32 :: 32 :: 32 :: 32 :: 32 :: 32 :: 32 :: 32 :: 32 :: 32 :: 32 :: 112 :: lit "roxy_set_header 'Authorization' \"Bearer " by decide +kernel,
    show lit "server " = 115 :: lit "erver " by decide +kernel]
  simp [afterText, List.isPrefixOf]

theorem upstreams_filled (t v : Str) : upstreams (filledConf t v) = [upstreamAddr v, some (lit "127.0.0.1", lit "3033")] := by
  have hl : upstreamLine (lit "    server " ++ v ++ lit ";") = some (upstreamAddr v) := by
    unfold upstreamLine
    rw [show lit "    server " = List.replicate 4 32 ++ (115 :: lit "erver ") by decide +kernel, show lit "server " = 115 :: lit "erver " by decide +kernel,
      List.append_assoc, List.append_assoc, afterText_pad _ (by decide)]
    rw [show lit ";" = [59] by decide, Option.bind_some, List.reverse_append]
    simp only [List.reverse_cons, List.reverse_nil, List.nil_append, List.cons_append]
    rw [List.reverse_reverse]
  unfold upstreams
  rw [filledConf_parts, List.filterMap_append, List.filterMap_cons_some hl, List.filterMap_append, List.filterMap_cons_none (header_server t),
    List.filterMap_append, List.filterMap_cons_none (header_server t),
    show (nginxLines.take 17).filterMap upstreamLine = [] by decide +kernel,
    show ((nginxLines.drop 18).take 18).filterMap upstreamLine = [some (lit "127.0.0.1", lit "3033")] by decide +kernel,
    show ((nginxLines.drop 37).take 43).filterMap upstreamLine = [] by decide +kernel,
    show (nginxLines.drop 81).filterMap upstreamLine = [] by decide +kernel]
  rfl

theorem headers_filled {t : Str} (ht : PlainToken t) (v : Str) : authHeaders (filledConf t v) = [some (lit "Bearer " ++ t), some (lit "Bearer " ++ t)] := by
  unfold authHeaders
  rw [filledConf_parts, List.filterMap_append, List.filterMap_cons_none (server_header _), List.filterMap_append, List.filterMap_cons_some (header_line t ht),
    List.filterMap_append, List.filterMap_cons_some (header_line t ht),
    show (nginxLines.take 17).filterMap authHeader = [] by decide +kernel,
    show ((nginxLines.drop 18).take 18).filterMap authHeader = [] by decide +kernel,
    show ((nginxLines.drop 37).take 43).filterMap authHeader = [] by decide +kernel,
    show (nginxLines.drop 81).filterMap authHeader = [] by decide +kernel]
  rfl

/-- **C110**: with a token of other bytes than `/`, `&`, `\`, `"`, `$` and newline, which does not contain the other hole's name, and a host that is a name or an IPv4
address, the lines of nginx.conf with the holes hold the token and the address; all others are as they were. nginx reads the address as the host and the port, and
the headers it sets hold the token, without the newlines at the end of the file. -/
theorem C110_filled_partial {file t host port : Str} (n : Nat) (hf : file = t ++ List.replicate n 10) (ht : PlainToken t) (hs : ¬ lit "__KUBE_SERVER__" <:+: t)
    (hh : PlainHost host) (hp : PlainPort port) :
    ∃ conf, entryConf file host port nginxLines = some conf ∧ Filled t host port conf
      ∧ upstreams conf = [some (host, port), some (lit "127.0.0.1", lit "3033")]
      ∧ authHeaders conf = [some (lit "Bearer " ++ t), some (lit "Bearer " ++ t)] := by
  have hv : ∀ c ∈ host ++ 58 :: port, c ≠ 47 ∧ c ≠ 38 ∧ c ≠ 92 ∧ c ≠ 10 := by
    intro c hc
    rcases List.mem_append.mp hc with hc | hc
    · have := hh.2 c hc; tauto
    · rcases List.mem_cons.mp hc with rfl | hc
      · decide
      · have := hp.2 c hc
        refine ⟨?_, ?_, ?_, ?_⟩ <;> rintro rfl <;> revert this <;> decide
  refine ⟨filledConf t (host ++ 58 :: port), entryConf_filled n hf ht hs hv, ⟨?_, ?_, ?_, ?_⟩, ?_, ?_⟩
  · simp [filledConf]
  · simp only [filledConf, List.getElem?_set]
    rw [if_neg (by decide), if_neg (by decide), if_pos trivial, if_pos (by decide)]
    simp [List.append_assoc]
  · intro i hi
    simp only [List.mem_cons, List.not_mem_nil, or_false] at hi
    simp only [filledConf, List.getElem?_set, List.length_set]
    rcases hi with rfl | rfl
    · rw [if_neg (by decide), if_pos rfl, if_pos (by decide)]
    · rw [if_pos rfl, if_pos (by decide)]
  · intro i hi
    simp only [List.mem_cons, List.not_mem_nil, or_false, not_or] at hi
    simp only [filledConf, List.getElem?_set]
    rw [if_neg (Ne.symm hi.2.2), if_neg (Ne.symm hi.2.1), if_neg (Ne.symm hi.1)]
  · rw [upstreams_filled, upstreamAddr_plain hh hp]
  · exact headers_filled ht _

/-- **C110 is false** for a token with an ampersand: the script succeeds, and nginx sends another token. -/
theorem C110_ampersand_false : ∃ conf, entryConf (lit "a&b") (lit "10.0.0.1") (lit "443") nginxLines = some conf
    ∧ authHeaders conf = [some (lit "Bearer a__KUBE_TOKEN__b"), some (lit "Bearer a__KUBE_TOKEN__b")] := by
  have h1 : sedFile (lit "__KUBE_TOKEN__") (shellSubst (lit "a&b")) nginxLines = some (nginxLines.map (sedLine (lit "__KUBE_TOKEN__") (lit "a__KUBE_TOKEN__b") 0)) := by
    unfold sedFile
    rw [show sedScript (shellSubst (lit "a&b") ++ lit "/g") = some [.byte 97, .matched, .byte 98] by decide +kernel, Option.map_some,
      show sedText (lit "__KUBE_TOKEN__") [.byte 97, .matched, .byte 98] = lit "a__KUBE_TOKEN__b" by decide +kernel]
  have h2 : entryConf (lit "a&b") (lit "10.0.0.1") (lit "443") nginxLines = some (filledConf (lit "a__KUBE_TOKEN__b") (lit "10.0.0.1" ++ 58 :: lit "443")) := by
    unfold entryConf
    rw [h1, Option.bind_some, sedFile_plain _ _ (by decide +kernel), token_pass, List.map_set, List.map_set, server_pass, token_line (by decide +kernel)]
    rfl
  refine ⟨_, h2, ?_⟩
  rw [headers_filled (by unfold PlainToken; decide +kernel)]
  decide +kernel

/-- **C110 is false** for a token with a slash, as tokens in base 64 have it: `sed` does not get the substitution. -/
theorem C110_slash_false : entryConf (lit "a/b") (lit "10.0.0.1") (lit "443") nginxLines = none := by
  unfold entryConf sedFile
  rw [show sedScript (shellSubst (lit "a/b") ++ lit "/g") = none by decide +kernel]
  rfl

/-- **C110 is false** for an IPv6 address of the API server, which the environment holds without brackets: nginx does not accept the upstream. -/
theorem C110_ipv6_false : ∃ conf, entryConf (lit "abc") (lit "fd00::1") (lit "443") nginxLines = some conf
    ∧ upstreams conf = [none, some (lit "127.0.0.1", lit "3033")] := by
  refine ⟨_, entryConf_filled 0 (t := lit "abc") rfl (by unfold PlainToken; decide +kernel) (by decide +kernel) (by decide +kernel), ?_⟩
  rw [upstreams_filled, show upstreamAddr (lit "fd00::1" ++ 58 :: lit "443") = none by decide +kernel]

/-- **C110**, the arguments: ckube gets the script's arguments exactly if none of them is empty or has white space. -/
theorem C110_args (args : List Str) : entryArgs args = args ↔ ∀ a ∈ args, a ≠ [] ∧ ∀ c ∈ a, c ≠ 32 ∧ c ≠ 9 ∧ c ≠ 10 := by
  have hsep : ∀ c : UInt8, fieldSep c = false ↔ c ≠ 32 ∧ c ≠ 9 ∧ c ≠ 10 := by
    intro c; simp [fieldSep, and_assoc]
  have hlen : ∀ l : List Str, ((entryArgs l).map List.length).sum + (l.map fun a => (a.filter fieldSep).length).sum = (l.map List.length).sum := by
    intro l
    induction l with
    | nil => rfl
    | cons a l ih =>
      unfold entryArgs at ih ⊢
      rw [List.flatMap_cons, List.map_append, List.sum_append, shellFields_length, List.map_cons, List.sum_cons, List.map_cons, List.sum_cons]
      have : (a.filter fun c => !fieldSep c).length + (a.filter fieldSep).length = a.length := by
        induction a with
        | nil => rfl
        | cons c a iha => cases h : fieldSep c <;> simp [h] <;> omega
      simp only [List.length_nil]
      omega
  have hfs : ∀ l : List Str, (∀ a ∈ l, ∀ c ∈ a, fieldSep c = false) → entryArgs l = l.filter fun a => a ≠ [] := by
    intro l
    induction l with
    | nil => intro _; rfl
    | cons a l ih =>
      intro h
      unfold entryArgs at ih ⊢
      rw [List.flatMap_cons, ih fun b hb => h b (List.mem_cons_of_mem _ hb), shellFields_plain (h a List.mem_cons_self), List.nil_append]
      by_cases ha : a = [] <;> simp [ha]
  constructor
  · intro h
    have h0 : (args.map fun a => (a.filter fieldSep).length).sum = 0 := by
      have := hlen args
      rw [h] at this
      omega
    have h1 : ∀ a ∈ args, ∀ c ∈ a, fieldSep c = false := by
      intro a ha c hc
      have hz : (a.filter fieldSep).length = 0 := sum_zero_mem (f := fun a : Str => (a.filter fieldSep).length) h0 ha
      by_contra hn
      have : c ∈ a.filter fieldSep := List.mem_filter.mpr ⟨hc, by simpa using hn⟩
      rw [List.length_eq_zero_iff.mp hz] at this
      cases this
    rw [hfs args h1] at h
    intro a ha
    have h2 := List.filter_eq_self.mp h a ha
    exact ⟨by simpa using h2, fun c hc => (hsep c).mp (h1 a ha c hc)⟩
  · intro h
    rw [hfs args fun a ha c hc => (hsep c).mpr ((h a ha).2 c hc)]
    exact List.filter_eq_self.mpr fun a ha => by simpa using (h a ha).1

/-- **C110 is false** for other arguments: a path with a space becomes two arguments, and an empty one is lost. -/
theorem C110_args_false : entryArgs [lit "-c", lit "/etc/my conf/local.json", [], lit "-a"] = [lit "-c", lit "/etc/my", lit "conf/local.json", lit "-a"] := by
  decide +kernel

/-- The hypotheses hold for a token as service accounts have it. -/
example : ∃ conf, entryConf (lit "eyJhbGciOiJSUzI1NiJ9.e30.x-_9\n") (lit "10.96.0.1") (lit "443") nginxLines = some conf
    ∧ Filled (lit "eyJhbGciOiJSUzI1NiJ9.e30.x-_9") (lit "10.96.0.1") (lit "443") conf :=
  let ⟨conf, h1, h2, _⟩ := C110_filled_partial (file := lit "eyJhbGciOiJSUzI1NiJ9.e30.x-_9\n") (t := lit "eyJhbGciOiJSUzI1NiJ9.e30.x-_9") (host := lit "10.96.0.1")
    (port := lit "443") 1 (by decide +kernel) (by unfold PlainToken; decide +kernel) (by decide +kernel) (by unfold PlainHost; decide +kernel) (by unfold PlainPort; decide +kernel)
  ⟨conf, h1, h2⟩

end Ckube

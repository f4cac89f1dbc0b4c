# A Lean 4 model of DaoCloud/ckube

## 1. What is modelled

Go strings are byte lists (`Str = List UInt8`): Go strings are byte sequences and every place the code inspects
them (`search[i]`, `len`, `<`, label lexing, base64) is byte-wise. A Go map is an association list with distinct keys
(`IsMap`); the list order is *the iteration order of that run*, so a theorem that holds for every list holds for
every iteration order. Errors are values, panics are an explicit outcome (`none` or `crash`), 64-bit arithmetic wraps
(`wrap64`) where numbers from requests are used.

| module of `Verif/Model` | code |
|---|---|
| `Str`, `Num`, `Utf8`, `Quote`, `Base64`, `Json`, `Url` | the parts of the Go 1.19 standard library the code calls (`strings`, `strconv`, `unicode/utf8`, `encoding/base64`, `encoding/json`, `net/url`) |
| `Labels` | k8s.io/apimachinery v0.21.0 label selectors: validation, `NewRequirement`, lexer, parser, printer, `Matches`, `LabelSelectorAsSelector`, `FormatLabelSelector` |
| `DeleteOpts` | `metav1.DeleteOptions` and its JSON form |
| `Constants` | `common/constants/ckube.go` |
| `Kube` | `kube/label.go` |
| `Page` | `page/page.go` |
| `Store`, `Sort` | `store/memory/memory.go`, one call after the other |
| `Conc` | `store/memory/memory.go` at the granularity of lock-protected steps, any number of goroutines |
| `Watcher`, `WatchClock`, `ObjType` | `watcher/watcher.go` |
| `Float` | numbers that are read into `interface{}` and printed (`watcher/watcher.go` 52–94; Go `strconv.ParseFloat`, `AppendFloat`, `encoding/json`'s notation, from their source) |
| `ParseFloat` | `strconv.ParseFloat(v, 64)` as `store/memory/memory.go` sorts by it (Go `src/strconv/atof.go`, `atoi.go`; not part of /repo) |
| `Fleet` | all goroutines `Start` makes and `Stop` (`watcher/watcher.go`); each is proved to be the machine of `Watcher` |
| `Selector`, `Proxy`, `Stream`, `WatchLife`, `UrlPath`, `Throttle`, `Retry` | `api/proxy.go` |
| `Server` | `server/server.go`, `server/route.go` |
| `AccessLog` | the writer and the line of the access log (`server/server.go` 40–81) |
| `WatchReq` | `watcher/watcher.go` (the URL of a watcher); client-go's `RequestURI`, `url.Parse` |
| `Scheme` | `watcher/watcher.go` (registration of kinds); client-go's scheme and the decoder of watch streams |
| `Reload` | `cmd/cacheproxy/main.go`, `common/config.go`, `utils/fs_watcher.go` |
| `KubeConfig` | the API servers of the contexts of a kube config (`cmd/cacheproxy/main.go` 26–65, 82–138; client-go `tools/clientcmd`, from memory of its source) |
| `Metrics` | the gauge of cached resources, shared by the stores of all reloads (`utils/prommonitor/metrics.go`, `cmd/cacheproxy/main.go`) |
| `Extend` | `api/extend/deploy2service.go`, `utils/subset.go` |
| `Fake` | `pkg/client/fake/fake_ckube.go` (proxy and watch handlers) |
| `FakeServer` | routes, discovery documents and channels of the watchers of the fake server (`pkg/client/fake/fake_ckube.go`) |
| `FakeConc` | writes from several goroutines, step by step (`pkg/client/fake/fake_ckube.go:371-479`) |
| `GoSort` | `sort.Slice` of Go 1.19 (`src/sort/zsortfunc.go`; not part of /repo) |
| `FakeSession` | the calls of a test: writes, `Clean`, `Events` (`pkg/client/fake/fake_ckube.go`) |
| `Upstream` | client-go `rest.Request` as `api/proxy.go` 464–521 uses it; the shared `Client.Timeout` |
| `Index` | index expressions that are JSON paths (`store/memory/memory.go` 359–390, `utils/utils.go`; client-go `util/jsonpath`: text, fields, `[*]`, `[n]`) |
| `Template` | index expressions that are Go templates (`store/memory/memory.go` 339–390; Go `text/template`: text, comments, trim markers, field chains, string constants, pipelines with `default`, `quote` and `join`, `if`), and the template object they share |
| `Wire` | the JSON text of response bodies (`server/server.go` 124–129, 145–193; `api/proxy.go` 64–83, 314–403): lists, objects, tables, `Status` objects, with the distinction of nil and empty slices |
| `ConfigFile` | `json.Unmarshal` of the configuration file (`common/config.go` 3–20, `cmd/cacheproxy/main.go` 70–80) |
| `Header` | the writer of `Server` with the `Content-Type` header (`server/server.go` 46–60, 124–193; `api/proxy.go` 64–70, 434–461, 513–520) |
| `Plugin` | `cmd/ckube-plugin/main.go`, `cmd/ckubecli/main.go` |
| `Flags` | the command lines of ckubecli and cacheproxy (Go `flag`, `strconv.ParseInt` with base 0, from their source) |
| `Nginx` | `nginx.conf` (nginx itself from its documentation): locations, `if`, `$arg_watch`, the Authorization header |
| `Entrypoint` | `entrypoint.sh` with the text of `nginx.conf` (shell, `sed` and nginx's reader from their documentation) |
| `FakeStart` | starting and stopping fake servers: `NewFakeCKubeServer`, `Stop` (`pkg/client/fake/fake_ckube.go`), `Run`, `Stop` (`server/server.go`); sockets of the machine |
| `Client` | `examples/paginate/main.go`, `examples/search/main.go` and client-go's `List` as they use it |

Property theorems live in `Verif/Props/*.lean`, small independent specifications in `Verif/Spec/*.lean`, helper lemmas
in `Verif/Lemmas/*.lean`. Every model definition names the file and lines it models.

## 2. What is not modelled

- `log/`, `kube/kube.go` (called by nothing in /repo), `Dockerfile`; of `nginx.conf` the buffering, timeouts and headers other than Authorization;
  of `utils/prommonitor` everything except the gauge of cached resources and the counters of reloads; tests.
- Response headers other than `Content-Type`, error texts, the expiry of timeouts, sleeps and tickers (they only delay) except for watchers (`WatchClock`), proxied watches (`WatchLife`) and forwarded requests (`Upstream`).
- client-go below `Watch`, `ResultChan`, `Do` and `Stream`: what the API server answers is a parameter. `Upstream` models the URL, headers, body
  and timeouts of the requests client-go sends (from memory of its source), `Throttle` its limit on requests, `Retry` its retries after `Retry-After` and lost connections; not its credentials.
- Of the fake server: the requests that are under way when it is stopped, its `/version` and `/api` documents, and its reaction to a client that goes away (it has none).
- The run of kubectl by the plugin.
- A configuration that names a resource type twice starts two watchers of the type per cluster; C106, C107 and C109 are about one watcher for each
  type and cluster; C124 is about several, without requests and reloads.
- Prometheus panics when a label value is not valid UTF-8 (`WithLabelValues`); names of Kubernetes objects are ASCII, so the
  model does not have this panic.
- `template`/`jsonpath` evaluation of index expressions is the parameter `eval`. For C81 to C83 it is `jpEval`, which models JSON paths made of
  text, fields, `[n]` and `[*]` (from memory of client-go's source); for C87 and C88 it is `ixEval`, which adds Go templates (from memory of Go 1.19's source). What these do not
  cover (filters, unions, ranges and escapes of JSON paths; variables, `range`, `with`, `define`, parentheses, numbers and built-in functions of
  templates) is left to the parameter `other`.
- The code reuses one template and one JSON path object for the expressions of a type. `sharedIndex` models the state of the template object, and C88 says when it
  makes no difference. `tEmpty` knows ASCII blanks only. State that an unfinished range leaves in the JSON path object is not modelled.
- Aliasing of objects: the store writes its two annotations into the object it is given. In the model it writes them to its
  copy. The watcher and the fake server hand over objects they do not use again (the fake server's response shows the
  annotations, which `FReply.done` models).

## 3. Trusted base

1. Lean's kernel (Lean 4.33.0). No `sorry`, no `native_decide`, no `bv_decide`, no axiom of our own, no `implemented_by`. Concrete
   computations are checked by `decide +kernel`, that is by the kernel.
2. The axioms of the theorems, as printed by `#print axioms` (list generated by `tools/axioms.py`):

<!-- axioms -->
- **propext, Classical.choice, Quot.sound** (509 theorems): `C01_merge_split_partial`, `C01_false_beyond`, `C02_chunks_legal`, `C03_base64_roundtrip`, `C03_base64_rejects`, `C04_json_roundtrip`, `C05_delivered_partial`, `C05_exact`, `C05_false_key`, `C05_false_empty`, `C06_selector_kept_partial`, `C06_kept_last`, `C06_exact`, `C06_false`, `C07_accepts_iff_partial`, `C07_accepts_plain_partial`, `C07_false`, `C08_format_parse_partial`, `C08_exact`, `C08_false`, `C08_false_empty`, `C09_false`, `C10_conjunction`, `C10_search_text`, `C11_key_value`, `C12_fuzzy`, `C12_order_independent`, `C13_negation_key_partial`, `C13_negation_text_partial`, `C13_key_exact`, `C13_text_exact`, `C13_false_value`, `C13_false_text`, `C14_quoted_partial`, `C14_exact_partial`, `C14_false`, `C15_substring_partial`, `C15_no_miss_partial`, `C15_start_partial`, `C15_start_false`, `C15_false`, `C15_false_miss`, `C16_advanced_partial`, `C16_last`, `C16_exact`, `C16_gt_lt_rejected`, `C16_empty_rejected`, `C16_false`, `C17_clusters_partial`, `C17_any_partial`, `C17_sound`, `C17_breaks`, `C17_equality_stays`, `C17_false_second_part`, `C17_false_equality`, `C17_false_semicolon`, `C17_false_empty_value`, `C18_namespaces_partial`, `C18_any_partial`, `C18_sound`, `C18_breaks`, `C18_false_empty`, `C19_exact`, `C19_any_search_partial`, `C19_read_back_partial`, `C20_latest`, `C21_get_isolated`, `C21_query_other_type`, `C21_query_isolated`, `C22_clean`, `C23_exact`, `C24_pages_partial`, `C24_false_ties`, `C25_sorted_partial`, `C25_accepted`, `C25_false_nan`, `C26_default_order`, `C27_honoured_partial`, `C27_exact`, `C27_passed`, `C27_false_blanks`, `C28_pages_partial`, `C28_exact`, `C28_crash_exact`, `C28_false_page_zero`, `C28_false_negative`, `C28_false_overflow`, `C28_false_wrapped`, `C29_cluster`, `C29_cluster_query`, `C29_index_partial`, `C29_false_name`, `C30_same_keys`, `C30_unknown_search_key`, `C30_unknown_sort_key`, `C31_no_crash`, `C31_unconfigured_crashes`, `C32_linearizable`, `C32_no_crash`, `C33_query_stable`, `C34_progress`, `C34_all_return`, `C35_replay`, `C35_fleet`, `C36_converges_partial`, `C36_exact`, `C36_false`, `C37_survives_partial`, `C37_false`, `C38_kind_partial`, `C38_false`, `C39_from_cache`, `C39_forwarded_partial`, `C39_readable`, `C39_false_method`, `C40_never_from_cache`, `C41_default_cluster_partial`, `C41_false_name`, `C41_false_search`, `C42_selected_partial`, `C42_false`, `C43_total_partial`, `C43_false_no_size`, `C43_false_page_zero`, `C44_out_of_page_partial`, `C45_single_object`, `C46_cluster_partial`, `C46_function_partial`, `C46_false_order`, `C46_false_list`, `C47_query_partial`, `C47_options`, `C47_false_unreadable`, `C48_field_partial`, `C48_delete_partial`, `C48_false_empty`, `C49_table_partial`, `C49_false_name`, `C50_refused`, `C50_admitted`, `C50_open`, `C50_redirect`, `C51_proxy`, `C51_false_after_write`, `C52_variables_partial`, `C52_subresource_route`, `C52_subresource_partial`, `C52_false_namespace`, `C52_false_method`, `C53_failed_reload`, `C54_one_watcher`, `C55_one_generation_partial`, `C55_false_default`, `C55_false_store`, `C56_first_partial`, `C56_first_exists`, `C56_services_partial`, `C56_no_pods_partial`, `C56_false_other`, `C56_false_cluster`, `C56_false_type`, `C58_replica_set_partial`, `C58_other`, `C58_false_second_owner`, `C59_false_last_byte`, `C59_false_empty_read`, `C60_exact`, `C60_kept_partial`, `C60_crash`, `C60_number`, `C60_false_empty`, `C61_refuses`, `C61_writes_partial`, `C61_false_name`, `C61_false_overwrite`, `C61_false_type`, `C62_watch_partial`, `C62_clusters_partial`, `C62_false_selector`, `C62_false_busy`, `C63_false_always`, `C63_false_clusters`, `C63_no_selector_partial`, `C63_create`, `C64_gauge_partial`, `C64_absent`, `C64_false_clean`, `C65_exact`, `C65_false_late`, `C65_false_moved`, `C65_false_pod`, `C66_default_cluster_partial`, `C66_false_ignored`, `C67_forwarded_unchanged_partial`, `C67_false_delete_body`, `C68_exact`, `C68_false_created`, `C69_default_client_partial`, `C69_false_no_context`, `C70_flags_partial`, `C70_clusters_partial`, `C70_false_name`, `C71_gauge_partial`, `C71_false_reset`, `C71_false_old`, `C72_object_partial`, `C72_false`, `C73_ends_partial`, `C73_false`, `C74_converges_partial`, `C74_false`, `C75_undisturbed_partial`, `C75_false_deaf`, `C75_false_stuck`, `C76_discovery_partial`, `C76_false_types`, `C76_false_core`, `C77_write_partial`, `C77_read`, `C77_local`, `C77_false_patch`, `C77_false_status`, `C78_arrives_partial`, `C78_false_base_path`, `C78_false_timeout`, `C78_false_headers`, `C78_false_body`, `C79_false`, `C80_list_partial`, `C80_get`, `C81_path_partial`, `C81_single`, `C81_float`, `C81_integer`, `C81_false_number`, `C81_false_fraction`, `C81_false_empty`, `C81_hidden`, `C82_label`, `C82_unescaped`, `C83_created`, `C84_head`, `C85_proxy`, `C85_get`, `C85_list`, `C85_health`, `C86_selector_partial`, `C86_false_sent`, `C87_template_partial`, `C87_nested_partial`, `C87_refused`, `C87_trim`, `C87_false_map`, `C87_false_missing`, `C87_false_default`, `C87_false_join`, `C88_independent_partial`, `C88_nested_partial`, `C88_false_comment`, `C89_list_partial`, `C89_object`, `C89_table`, `C89_false_empty`, `C90_status_partial`, `C90_false_cluster`, `C90_false_token`, `C91_watch_partial`, `C91_default_partial`, `C91_false_clusters`, `C91_false_marker`, `C91_false_search`, `C91_false_excluded`, `C92_informer_partial`, `C92_false_deleted`, `C92_version`, `C93_read_partial`, `C93_in_force`, `C93_false_twice`, `C94_refused_partial`, `C94_false_ignored`, `C94_false_open`, `C95_labelled`, `C95_token`, `C95_own_partial`, `C95_false_forwarded`, `C96_clusters_partial`, `C96_page_partial`, `C96_together`, `C96_any_partial`, `keys_unique`, `C96_false`, `C97_exactly`, `C97_streamed_partial`, `C97_only_partial`, `C97_false_follow`, `C97_false_value`, `C97_false_namespace`, `C98_ignored`, `C98_complete`, `C98_false_bound`, `C99_session_partial`, `C99_false_watch`, `C99_false_config`, `C100_writes_partial`, `C100_false_param`, `C100_false_empty`, `C100_false_options`, `C100_false_dryRun`, `C100_false_watch`, `C101_log_partial`, `C101_false_silent`, `C101_false_head`, `C101_false_redirect`, `C101_false_informational`, `C102_proxy_partial`, `C102_cli_partial`, `C102_clusters_partial`, `C102_refused`, `C102_decimal`, `C102_false_zeros`, `C102_false_words`, `C102_false_bool`, `C103_serial_partial`, `C103_events`, `C103_store`, `fakeProxy_split`, `C103_false_create`, `C103_false_delete`, `C103_false_events`, `C104_slice`, `C104_sorted`, `C104_refused`, `C104_short`, `C104_strings`, `C104_byKey`, `C104_byKey_unstable`, `C104_selector`, `C105_program_partial`, `C105_paginate_example`, `C105_search_example`, `C105_false_fuzzy`, `C106_at_rest`, `C106_list`, `C106_page`, `C106_any`, `C106_get`, `C106_one_query`, `C106_one_get`, `C106_lag`, `C107_drain`, `C107_reached`, `C107_cache_partial`, `C107_get_partial`, `C107_list_partial`, `C107_any_partial`, `C107_false`, `C108_routed`, `C108_kept`, `C108_read_partial`, `C108_token`, `C108_local`, `C108_subresource`, `C108_false_token`, `C108_false_cluster`, `C108_false_namespace`, `C108_false_watch`, `C109_get`, `C109_at_rest`, `C109_served`, `C109_settled_partial`, `C109_gap`, `C109_false`, `C110_filled_partial`, `C110_ampersand_false`, `C110_slash_false`, `C110_ipv6_false`, `C110_args_false`, `C111_started_partial`, `C111_own`, `C111_kept`, `C111_again`, `C111_false`, `C111_leak_false`, `C111_form_false`, `C111_conf_false`, `C112_few_partial`, `C112_object_partial`, `C112_integer`, `C112_number`, `C112_again`, `C112_close`, `C112_null`, `C112_false`, `C112_false_null`, `C112_false_object`, `C113_read`, `C113_unique`, `C113_accepted`, `C113_config_partial`, `C113_config_refused`, `C113_page_partial`, `C113_page_none`, `C113_example`, `C113_false_utf8`, `C113_false_twice`, `C114_accepted`, `C114_nearest`, `C114_special`, `C114_unique`, `C114_same`, `C114_order`, `C114_few`, `C114_small`, `C114_sorted_partial`, `C114_false_long`, `C114_false_large`, `C115_servers_partial`, `C115_repeated`, `C115_clusters`, `C115_false_dangling`, `C115_false_local`, `C115_false_unnamed`, `C115_false_nowhere`, `C116_config`, `C116_rewrite`, `C116_kube_partial`, `C116_panics`, `C116_false_panic`, `C116_false_empty`, `C116_false_mixed`, `C116_false_other`, `C117_snapshots`, `C117_requests`, `C117_false_missing`, `C117_false_back`, `C118_options_partial`, `C118_false_lost`, `C118_false_unknown`, `C118_false_type`, `C119_values`, `C119_spelling`, `C119_ignored`, `C120_read`, `C120_only_partial`, `C120_listed_partial`, `C120_search_partial`, `C120_refused`, `C120_false_nul`, `C120_false_list`, `C121_known`, `C121_panics`, `C121_cached_partial`, `C121_never`, `C121_letters`, `C121_typed`, `C121_false_version`, `C121_false_kind`, `C121_false_typed`, `C122_false_decode`, `C122_false_reload`, `C124_converges_partial`, `C124_drains`, `C124_false`, `C125_asks_partial`, `C125_served`, `C125_false_base_path`, `C125_false_name`, `C126_read_partial`, `C126_listed_partial`, `C126_program_partial`, `C126_false_end`, `C126_false_cluster`, `C127_answered_partial`, `C127_program_partial`, `C127_settled_partial`, `C127_false_default`, `C128_pace`, `C128_hour`, `C128_again`, `C128_stop_partial`, `C128_opening`, `C128_false_stop`, `C129_untimed`, `C129_gone_partial`, `C129_false`, `C130_arrives_partial`, `C130_request`, `C130_segments`, `C130_false_slash`, `C130_false_hash`, `C131_exact`, `C131_prompt_partial`, `C131_steady`, `C131_recovers`, `C131_rate`, `C131_order`, `C131_false`, `C131_false_late`, `C131_false_refused`, `C131_false_watches`, `C132_listed_partial`, `C132_false_twice`, `C133_answered_partial`, `C133_few`, `C133_once`, `C133_bounded`, `C133_body`, `C133_false_body`, `C133_false_minute`
- **propext, Quot.sound** (28 theorems): `C09_parts_roundtrip_partial`, `C09_exact`, `C51_contained`, `C51_failure_partial`, `C57_subset`, `C57_order`, `C59_stream_partial`, `C59_client_gone`, `C59_exact`, `C65_notices_partial`, `C68_answer_partial`, `C76_false_versions`, `C79_own_partial`, `C79_plain`, `C99_false_events`, `C110_args`, `C111_stopped`, `C122_lock_partial`, `C122_known_partial`, `C122_reload_partial`, `C123_exact`, `C123_next_partial`, `C123_bound_partial`, `C123_stays`, `C123_lines`, `C123_false`, `C130_written`, `C131_apart`
- **propext** (5 theorems): `C01_false`, `C36_drains`, `C68_stream`, `C85_status`, `C104_reflexive`
<!-- /axioms -->

3. The correspondence between the Go code and `Verif/Model`, made by reading. The source of the Go standard library, of
   apimachinery v0.21.0, client-go, gorilla/mux, fsnotify and net/http is not available in the sandbox; their models are from
   knowledge of their documented and actual behaviour. Notable choices:
   - `sort.Slice` (pdqsort in Go 1.19, not stable) is any function that meets the contract `SliceSort`: it returns a permutation,
     and a sorted one when the comparator lies between the strict and the weak form of a total preorder. `goSort` (C104), the algorithm of
     Go 1.19 written down from memory, is an instance; `insertionSort`, to which it is equal up to 12 elements, is another.
   - `sort.Sort(ByKey(..))` on requirements is modelled as a stable sort by key. With the algorithm of Go 1.19 that is exact for up to
     12 requirements and for distinct keys (`C104_byKey`), and not beyond (`C104_byKey_unstable`); the meaning of a selector and of its
     text does not depend on it (`C104_selector`), the text itself may. `sort.Strings` and the sort of the columns are exact (`C104_strings`).
   - `strconv.IsPrint` above ASCII, `strconv.ParseFloat` and number formatting are parameters (`isPrint`, `pf`, `num`): theorems hold for all of them.
     C114 puts the model `parseFloat64` in for `pf`.
   - `strings.ToLower` is modelled on ASCII (`asciiLower`) where it is compared with ASCII constants.
   - encoding/json's nesting limit of 10000 is not modelled.
   - `sync.RWMutex`: a waiting writer blocks new readers; a writer that releases lets waiting goroutines compete.
   - gorilla/mux: routes are tried in order, the path is cleaned first (redirect), `{x}` matches one segment.
   - fsnotify: events of a watched file arrive in order; a removed file is no longer watched.
4. Assumptions on the environment of a property are hypotheses of its theorems, for example the behaviour of an API server in
   C36 (`Spec/Watch.lean`).

## 4. Parameters

| parameter | stands for | assumed |
|---|---|---|
| `isPrint` | `strconv.IsPrint` above ASCII | nothing |
| `pf` | `strconv.ParseFloat` | nothing, except in C24, C25, C27 and C42: the values sorted by number (C42: missing values) are not NaN |
| `alg` | `sort.Slice` | contract `SliceSort`, which C104 proves for the algorithm of Go 1.19 |
| `base` (C121) | the kinds that client-go registers | each has a version |
| `rnd` (C104) | the random numbers of `breakPatterns_func` | nothing |
| `eval` | index expression on an object | nothing, except in C29 and C49: its results are valid UTF-8 |
| `num`, `om` (C60, C81) | numbers through `float64` (C112: `goNum`), `ObjectMeta` through its struct | `C60_kept_partial`, `C81_path_partial`: `num` prints a JSON number, `om` gives a value that `json.Marshal` can print (valid UTF-8, JSON numbers); `C60_number`: `num` rounds 2^53+1 to 2^53; `C60_crash`: nothing |
| `dec`, `enc` (C61) | JSON of objects | nothing |
| `printf` (C70) | `fmt.Printf` of a format without arguments | text without `%` is printed as it is |
| `obj`, `texts`, `failure` (C89, C90) | JSON value of an object, messages and reasons with texts of other packages, body after a panic | `Good (obj o)`: valid UTF-8 and JSON numbers; `texts` are valid UTF-8 |
| `ord`, `tord` | iteration orders of maps | permutations |

## 5. Where the code disagrees with the properties

Generated by `tools/disagreements.py`. What remains true is the `_partial` theorem of the same property.

<!-- false -->
| theorem | what happens (comment of the theorem) |
|---|---|
| `C01_false` | **C01 is false** beyond 10024 bytes, even for values that arrive in the order in which they were produced. |
| `C01_false_beyond` | **C01 is false** at every length beyond 10024: there is a payload of this length that no order of its label values gives back. |
| `C05_false_empty` | **C05 is false** for the caller selector `k!=` (label absent or not empty): the options it produces cannot be parsed by the server. |
| `C05_false_key` | **C05 is false** when the caller's selector has an equality on the pagination key: the server reads that value instead (here it cannot be decoded and the request fails). |
| `C06_false` | **C06 is false** for repeated equality keys: `a=1,a=2` accepts nothing, the server's selector accepts objects with `a=2`. |
| `C07_false` | **C07 is false**: page 1, size 10, search `na=?` is rejected with an empty selector. |
| `C08_false` | **C08 is false** for an expression whose only value is empty: the text cannot be parsed. |
| `C08_false_empty` | **C08 is false** for the selector without requirements, which accepts everything: its text is `<none>`. |
| `C09_false` | **C09 is false** for a later part that starts with `;`: the semicolon moves to the part before. |
| `C13_false_text` | **C13 is false** for a text that contains `=`: `!k=y` looks for the index `!k`. |
| `C13_false_value` | **C13 is false** for a value that starts with `!`: `k=!!x` and `k=!x` both accept `y`. |
| `C14_false` | **C14 is false**: `name="b"` accepts the index value `a"b`. |
| `C15_false` | **C15 is false**: the index value is a single line break, which does not contain `n`, but `key=n` accepts it because its quoted form is `"\n"`. |
| `C15_false_miss` | **C15 is false** in the other direction: the index value `a\b` contains `a\b`, but is not found. |
| `C15_start_false` | **C15 is false** for every printable ASCII value without `"` and `\` that starts with `a`–`f`, `n`, `r`, `t`, `v` or a digit: there is an index value that does not contain it and is accepted, whatever else the object's index has. |
| `C16_false` | **C16 is false** for repeated equality keys: `a=1,a=2` accepts an object with `a=2`. |
| `C17_false_empty_value` | **C17 and C19 are false** for a requirement that lists only the empty value: the new search cannot be parsed. |
| `C17_false_equality` | **C17 is false** for a search with an equality on `cluster`: it stays, and no object of the requested cluster matches. |
| `C17_false_second_part` | **C17 is false** for a search with two advanced parts: `Clusters` drops the second one, and an object that it excluded matches afterwards. |
| `C17_false_semicolon` | **C17 and C19 are false** for a search that starts with `;;`: the new search cannot be parsed. |
| `C18_false_empty` | **C18 is false** for the empty namespace name (cluster-scoped objects): the new search is rejected for every object. |
| `C24_false_ties` | **C24 is false** for a sort expression that leaves ties: with the three pods on the same node, page 1 seen in one map order and page 2 in another show the same pod. |
| `C25_false_nan` | **C25 is false** when an index value is NaN: sorted by number, 2 stays before 1. |
| `C27_false_blanks` | **C27 is false** for items with two blanks inside: `name desc` asks for nothing the specification knows, yet it is answered without error, in the order of the map. |
| `C28_false_negative` | **C28 is false** for a negative page. |
| `C28_false_overflow` | **C28 is false** for a page that ends past 2^63 - 1: the end of the slice wraps around. |
| `C28_false_page_zero` | **C28 is false** for page 0 with a page size: one object, page 0, page size 1 crashes. |
| `C28_false_wrapped` | **C28 is false** for a page whose begin overflows: page 2^62 + 1 of size 4 shows the first objects once more, instead of none. |
| `C29_false_name` | **C29 is false** for the keys `namespace` and `name` of the index annotation: the pod is found under the name `web`, but its annotation has no such entry, because the name is added to the index after the annotation was written. |
| `C36_false` | **C36** does not hold in general: a pod is cached, the stream breaks, the pod is deleted, the next stream has no event to deliver because the server has no pods any more, and the pod stays in the cache. |
| `C37_false` | **C37** does not hold in general: when the API server accepts the watch and the connection breaks before the first event, the cached objects are dropped. |
| `C38_false` | **C38** does not hold in general: the characters `L`, `i`, `s`, `t` are all cut off the end. |
| `C39_false_method` | **C39 is false** for methods such as HEAD and OPTIONS, which the router lets through: the handler dereferences a nil request. |
| `C41_false_name` | **C41 is false** for a default cluster whose name is no label value, as kubeconfig contexts such as `admin@prod`: the restriction fails, the error is only logged, and the objects of all clusters are listed. |
| `C41_false_search` | **C41 is false** for a search whose advanced part is only readable after trimming blanks, here a vertical tab after `is_deleted=false`: the restriction fails, the search itself works. |
| `C42_false` | **C42 is false** for a page with a negative number (`{"page":-1,"page_size":1}`): the handler panics when it cuts the page out of the objects whose labels satisfy the selector. |
| `C43_false_no_size` | **C43 and C44 are false** for a page number without page size (`{"page":2}`): everything is listed on every page, and the client computes twice the number of objects. |
| `C43_false_page_zero` | **C43 is false** for a page size without page number (`{"page_size":1}`) and a label selector: everything is listed, and the client computes -1 for an empty result. |
| `C46_false_list` | **C46 is false** for lists from the cache: the cluster named by a marker is removed from the query and then ignored; the list is that of the default cluster. |
| `C46_false_order` | **C46 is false** for a request that names two clusters: which one serves it depends on the order in which Go iterates the map of query parameters. |
| `C47_false_unreadable` | **C47 is false** for a request whose label selector cannot be parsed: its query is forwarded as it came, with the marker. |
| `C48_false_empty` | **C48 is false** for the empty cluster name: it is accepted by the client library and means the default cluster to the server. |
| `C49_false_name` | **C49 is false** for a type whose configured indexes lack `name`: the cell under `name` is empty, though `name` is an index of every object. |
| `C51_false_after_write` | **C51 is false** for a handler that fails after it has begun to write: the response keeps its status. No handler of ckube does (`C51_proxy`; the other handlers write nothing before they fail). |
| `C52_false_method` | **C52 is false** for methods other than GET on the list of a namespaced type outside the core group: a creation reaches the proxy without group, version, type and namespace. (It is forwarded all the same, `C40_never_from_cache`.) |
| `C52_false_namespace` | **C52 is false** for the subresources of namespaces: `/api/v1/namespaces/prod/status` reaches the proxy as the list of the type `status` in the namespace. |
| `C55_false_default` | **C55 is false**: between `InitConfig` and `ResetStore` a request sees the new default cluster and the old clients. A request for the default cluster, which is forwarded before and after the reload, is told that the cluster does not exist. |
| `C55_false_store` | **C55 is false** also for store and clients: between the two assignments of `ResetStore` the new store is served with the old clients. |
| `C56_false_cluster` | **C56 is false** for a cluster name that is no label value: the restriction fails unnoticed and services of every cluster are returned. |
| `C56_false_other` | **C56 is false** when another deployment's pods have names that contain the deployment's name: here the pods of `admin-web` come first, and the services of `admin-web` are returned for `web`. |
| `C56_false_type` | **C56 is false** when services are not kept in the cache: the handler crashes. |
| `C58_false_second_owner` | **C58 is false** for pods that have the ReplicaSet as a later owner: only the first owner is looked at. |
| `C59_false_empty_read` | **C59 is false** when a read gives nothing and no error, which `io.Reader` permits: the client receives a zero byte. |
| `C59_false_last_byte` | **C59 is false** when the last byte comes together with `io.EOF`, as Go's reader of chunked bodies does when the end is already in its buffer: the byte is lost, here the line end of the last event. |
| `C60_crash` | **C60**, the gaps: decoding crashes exactly when kind or API version is given and not a string. |
| `C60_false_empty` | **C60 is false** for an empty kind: the member is dropped. |
| `C60_number` | **C60** does not hold for numbers: with any printing of numbers that, like `float64`, turns 2^53+1 into 2^53, the replicas of this object change. |
| `C61_false_name` | **C61** is false for an update whose body has another name than the path: it is stored under the name of the body, and a read of the updated object finds the old one. |
| `C61_false_overwrite` | **C61** is false for a create with a name in the path: the check looks for that name, the object is stored under the name of the body, and an existing object is replaced. |
| `C61_false_type` | **C61** is false for a type the server does not cache: a create panics, and net/http closes the connection. |
| `C62_false_busy` | **C62** is false while the watcher is busy: the same events with and without a watcher that waits. |
| `C62_false_selector` | **C62** is false for a label selector that does not parse: the watch panics. |
| `C63_false_always` | **C63 is false for every command line with a selector**: whatever is given before and after, the argument the user gave as selector is passed on as it is (or the plugin crashes); the new selector, if any, replaces a later argument. `pre` and `post`: the arguments before and after; `a`, `b`: those of them meant for kubectl. |
| `C63_false_clusters` | So the clusters are not asked for where the selector is, unless the user's own text does. |
| `C64_false_clean` | **C64 is false** after a clean: nothing is cached, the metric still says 1. |
| `C65_false_late` | **C65 is false** when a replaced file is away for more than two seconds: its later changes are not noticed. |
| `C65_false_moved` | **C65 is false** when the file is moved away and made anew: nothing is noticed from then on. |
| `C65_false_pod` | **C65 is false** in a pod: without `-k` the file `~/.kube/config` is to be watched too; where it does not exist, as with a service account, there is no file watcher at all. |
| `C66_false_ignored` | **C66 is false** with a kube config: the configured default cluster `main` is ignored, the default cluster is the current context `a`. |
| `C67_false_delete_body` | **C67 is false** for a DELETE whose options name no cluster: the body has been read and is not put back. Here the API server is asked to really delete what the client asked to delete as a dry run. |
| `C68_false_created` | **C68 is false**: a creation the API server answered with 201 is reported as 200. |
| `C69_false_no_context` | **C69 is false** for a kube config without current context: it is loaded, and every request without cluster is told that the cluster `default` does not exist. |
| `C70_false_name` | **C70** is false for cluster names `Clusters` does not accept: they are dropped without a message, and the selector asks for all clusters. |
| `C71_false_old` | **C71 is false** also when the old watcher, which is stopped after the reset, is still handling an event: the metric is the number of objects in the store that is no longer served. |
| `C71_false_reset` | **C71 is false**: the new watcher is started before the metric is reset. What it has reported by then is no longer counted: the pod is cached, the metric is absent. |
| `C72_false` | **C72 is false** for several objects: two pods of one cluster have been added; while a clean of the cluster runs, a reader finds the first gone and afterwards the second still there. No order of the calls explains this. |
| `C73_false` | **C73 is false**: Go takes either ready case of a `select`, so a goroutine may handle any number of events that come after `Stop`. |
| `C74_false` | **C74 is false** for the time in between: two pods exist and the first watcher has cached both; when the second watcher receives its first event it clears the cache, and a pod that exists and whose stream never broke can not be read. |
| `C75_false_deaf` | **C75 is false** when an address is used again: the end of the first handler closes the channel of the second, which waits from then on for nothing and receives no event, ever. |
| `C75_false_stuck` | **C75 is false** when an address is used again: the end of the second handler closes a nil channel and panics with the lock, and every later write waits for it, for ever. |
| `C76_false_core` | **C76 is false** for the core group: it is in the list of the groups, under the empty name. |
| `C76_false_types` | **C76 is false** for the types: the list of `apps/v1` offers pods. |
| `C76_false_versions` | **C76 is false** for the versions, whatever is configured outside the core group: no group has any. |
| `C77_false_patch` | **C77 is false** for patches, which the resource list offers for every type: they reach ckube's proxy, which answers that the cluster does not exist. |
| `C77_false_status` | **C77 is false** for subresources: the update of a status is refused in the same way. |
| `C78_false_base_path` | **C78 is false** for a cluster whose server address has a path: the path is lost, here that of a cluster behind a management platform. |
| `C78_false_body` | **C78 is false** for a creation in a namespace named `watch`: the request is taken for a watch and sent without its body. |
| `C78_false_headers` | **C78 is false** for headers: a creation in YAML arrives without its content type, so that the API server takes it for JSON, and the Accept header is that of client-go. |
| `C78_false_timeout` | **C78 is false** for the parameter `timeout`: whatever the client asks for, the API server is told one minute. |
| `C79_false` | **C79 is false** when another request to the same cluster is between the two steps: the watch is cut off after a minute and tells the API server so. |
| `C81_false_empty` | **C81 is false** for `[*]` within `[*]`: once it meets an empty array, the elements of the arrays after it are left out, and those before it are not. With the containers `{"ports":[1]}`, `{"ports":[]}` and `{"ports":[2]}`, the index `{.cs[*].ports[*]}` is `1`. |
| `C81_false_fraction` | **C81 is false** for small fractions: the index of a field with the value 0.00001 is `1e-05`, and that of 0.0001 is `0.0001`. |
| `C81_false_number` | **C81 is false** for numbers from one million on: the index of a field with the value 1000000 is `1e+06`. |
| `C86_false_sent` | **C86 is false** for a page without selector: the API server is sent the pagination request. |
| `C87_false_default` | **C87 is false** for `default` of a small number: the index is a message about a wrong format, with the number in it. |
| `C87_false_join` | **C87 is false** for `join` of a field that the object does not have: the rest of the value is lost. |
| `C87_false_map` | **C87 is false** for `quote` of an object, such as the labels: the index is no string of the object's JSON but the text in which Go shows a map. |
| `C87_false_missing` | **C87 is false** for fields that the object does not have: the index is the text `<no value>`, whatever the field. |
| `C88_false_comment` | **C88 is false** for a template that consists of a comment: it yields what the template before it yields, so its index depends on the order in which Go iterates over the configuration. |
| `C89_false_empty` | **C89 is false** for every empty list that is not selected by labels: `items` is null. |
| `C90_false_cluster` | **C90 is false** for an unknown cluster: the status is 404, but the reason is a sentence and not `NotFound`, whatever the cluster. |
| `C90_false_token` | **C90 is false** for a wrong token: the body of the 401 has no `kind`, and its `status` is not `Failure`. |
| `C91_false_clusters` | **C91 is false** for several clusters: the list `__ckube_as__:cluster in (c1,c2)` shows the pods of both clusters, the watch with the same options goes to the first only. |
| `C91_false_excluded` | **C91 is false** for a search that excludes a cluster: `cluster notin (c1)` lists the pods of the other clusters, but the watch goes to `c1`, because every cluster that the search mentions is taken for one that is asked for. |
| `C91_false_marker` | **C91 is false** for a list that names its cluster in its resource version, as single objects, watches and writes do: the list shows the default cluster, the watch goes to the named one. |
| `C91_false_search` | **C91 is false** for searches: the list `name=db` shows the pod `db` only. The watch asks the API server for all pods: what is sent has no parameter besides the label selector with the search, which an API server takes as a condition on a label no object has, and the parameters of the watch. |
| `C92_false_deleted` | **C92 is false** for every object that is deleted between the state the cache has and the start of the watch, and not created again: the client keeps it for ever. The list has no resource version from which the watch could start (`C92_version`). |
| `C93_false_twice` | **C93 is false** for repeated names, which may differ in case: the last token counts, and of `proxies` the second is written over the first, member by member, so that the group of the first type becomes the group of another. An index given twice is the union of both, in which the later expression counts. |
| `C94_false_ignored` | **C94 is false** for every member with a misspelt name: the file is loaded as if the member were not there. |
| `C94_false_open` | **C94 is false**: with `tokens` for `token` every request is admitted without token. |
| `C95_false_forwarded` | **C95 is false** for forwarded requests whose answer is no JSON, such as the log of a container: every body is labelled as JSON. |
| `C96_false` | **C96 is false** for an API server that has no objects any more when a new stream begins: no event is due, all that were sent have been handled, and the first page still shows the pod that was deleted between the streams. |
| `C97_false_follow` | **C97 is false** for a followed log: it is read to its end before anything is passed on, and has to end within a minute (C79). |
| `C97_false_namespace` | **C97 is false** for every request below a namespace named `watch`, here a list of its secrets: it is passed on as a stream with a timeout of 30 minutes. |
| `C97_false_value` | **C97 is false** for `watch=t`, which is a watch for the API server but not for ckube, as are `watch=yes` and a `watch` without value. |
| `C98_false_bound` | **C98 is false** for the bound: a list with `limit=1` has two items. |
| `C99_false_config` | **C99 is false** when another fake server has been started in the process: the configuration is global, `Clean` uses that of the other server, and a type that only the first one caches can no longer be written. |
| `C99_false_events` | **C99 is false** for a test that is not waiting on `Events` when a write is handled: it never learns of it. A test that writes and then reads the channel is such a test. |
| `C99_false_watch` | **C99 is false** for watchers: `Clean` tells nobody, so that the last event of an object says that it was created although it is gone. |
| `C100_false_dryRun` | **C100 is false** for dry runs: the real server forwards the parameter and the API server changes nothing, the fake one stores the object. |
| `C100_false_empty` | **C100 is false** for the marker of the empty cluster: the real server uses the default cluster, the fake one a cluster without name. |
| `C100_false_options` | **C100 is false** for delete options with the marker of a cluster and a dry run: the real server forwards a dry run to that cluster, the fake one deletes the object of the default cluster. |
| `C100_false_param` | **C100 is false** for the query parameter `cluster`, which only the real server knows. |
| `C100_false_watch` | **C100 is false** for watches: without a cluster the real server forwards the watch to the default cluster, the fake one reports the changes of all clusters; and of several clusters the real server watches only the first. |
| `C101_false_head` | **C101 is false** for requests with HEAD: the log counts the bytes of a body that is not sent. |
| `C101_false_informational` | **C101 is false** for a failure with an informational status: the client receives 200. |
| `C101_false_redirect` | **C101 is false** for paths that are not clean: the redirect leaves no line. |
| `C101_false_silent` | **C101 is false** when the client of a watch goes away before the first line: the log says status 0, sent is 200. |
| `C102_false_bool` | **C102 is false** for the debug flag with a value in an argument of its own: `-d false` switches debugging on, and the flags after it are ignored. |
| `C102_false_words` | **C102 is false** for flags after another argument: they are ignored without a message. `ckubecli pods -c c1` asks for all clusters; `cacheproxy serve -c my.json` takes the default configuration file. |
| `C102_false_zeros` | **C102 is false** for numbers with zeros before them: `-p 010` is page 8. |
| `C103_false_create` | **C103 is false** for creations of the same object: both goroutines are told that they have created it. One after the other, the second one is refused. |
| `C103_false_delete` | **C103 is false** for deletions of the same object: both goroutines are told that they have deleted it, and there are two events. |
| `C103_false_events` | **C103 is false** for events, even if the object is asked for and changed without interruption: the goroutine that changed the object last may send first, and whoever follows the events ends with content that the store no longer has. |
| `C105_false_fuzzy` | **C105 is false** for the second list of examples/search/main.go, whose search `e` should find the namespaces with an `e` in their name: it finds all namespaces of the default cluster, whatever they are called, because the index `is_deleted` of every object is `false` or `true`. |
| `C107_false` | **C107 is false** for an API server without objects: when the last pod of a cluster is deleted while the stream is down, ckube shows the pod as long as no new one is made and the new stream stays open (for up to an hour, C129). |
| `C108_false_cluster` | **C108 is false** for writes and watches of other clusters: a creation for the cluster `c2` (with the field manager ckube's client library gives it) and a watch of `c2` reach the API server of the container's own cluster, where the name of the cluster means nothing. |
| `C108_false_namespace` | **C108 is false** for the subresources of namespaces: the status of the namespace `prod` is asked of ckube, as a list of the type `status` (C52). |
| `C108_false_token` | **C108 is false** for ckube's token: with the token `secret` a client without any is served when the service account's token happens to contain it, and otherwise a client with the right token is refused. |
| `C108_false_watch` | **C108 is false** for watches that are asked for in another way: `watch=t` is a watch for ckube (C97) but no watch for nginx. |
| `C109_false` | **C109 is false**: the configuration file is written with the same content. A request for a pod gets it before the reload and is told that there is none afterwards, although the API server has the pod all the time. |
| `C110_ampersand_false` | **C110 is false** for a token with an ampersand: the script succeeds, and nginx sends another token. |
| `C110_args_false` | **C110 is false** for other arguments: a path with a space becomes two arguments, and an empty one is lost. |
| `C110_ipv6_false` | **C110 is false** for an IPv6 address of the API server, which the environment holds without brackets: nginx does not accept the upstream. |
| `C110_slash_false` | **C110 is false** for a token with a slash, as tokens in base 64 have it: `sed` does not get the substitution. |
| `C111_conf_false` | **C111 is false** for the configuration: servers in one process share it. Starting a second server, even in vain, gives the first one the second one's. |
| `C111_false` | **C111 is false** when the port is taken: the second server is returned without an error although it could not listen. The requests of its clients are answered by the first server, from the first server's store; once the first one is stopped, nobody answers them. |
| `C111_form_false` | **C111 is false** for other addresses that `http.Server` accepts or would refuse: the port is lost with IPv6, port 0 is not looked up (the server listens, at a port of the machine's choice, but an error is returned), and without a colon the constructor panics. |
| `C111_leak_false` | **C111 is false** for an address of another interface: the server listens, but its clients would be sent to the loopback interface, so that an error is returned. The socket stays open, and the caller has nothing to stop it with. |
| `C112_false` | **C112 is false** for integers beyond 2^53, also those that fit `int64`. |
| `C112_false_null` | **C112 is false** for numbers out of range: they become null. |
| `C112_false_object` | **C112 is false** for this object: its number is another one when it is written again. |
| `C113_false_twice` | **C113 is false** for repeated names: of two members that differ only in case the later one counts, and the earlier one if the later one is not a number. |
| `C113_false_utf8` | **C113 is false** for texts that are not UTF-8: no JSON text has the byte 255 in a string, and yet such a text is accepted. |
| `C114_false_large` | **C114 is false** for numbers beyond the largest `float64`: the query is answered with an error. |
| `C114_false_long` | **C114 is false** for whole numbers above 2^53: 9007199254740993 is put before 9007199254740992. |
| `C115_false_dangling` | **C115 is false** for a context whose cluster is not in the kube config: nothing is refused. In a pod the API server of the cluster in which ckube runs is watched and shown under the name of the context, elsewhere whatever listens at `http://localhost:8080`. |
| `C115_false_local` | **C115 is false** in a pod for a context at the address `http://localhost:8080`, where a proxy may listen: the API server of the pod's cluster is used instead. |
| `C115_false_nowhere` | **C115 is false** without any kube config outside of a pod: ckube does not give up, but watches whatever listens at `http://localhost:8080`. |
| `C115_false_unnamed` | **C115 is false** for a context without a name: it gets the API server of the current context. |
| `C116_false_empty` | **C116 is false**: when the file is seen while it is empty (an empty file is a kube config without contexts), the reload succeeds: ckube has no cluster any more, the running watcher is stopped, and requests without cluster are for a cluster `default` that nobody has mentioned. |
| `C116_false_mixed` | **C116 is false**: when the file is replaced by one with another address for `prod` between the two times, the objects of `prod` come from the old API server, while writes go to the new one. |
| `C116_false_other` | **C116 is false**: when the file is gone or empty after its contexts have been read, which is so for a moment while it is replaced, the contexts are looked up in the kube config of the user who runs ckube. Its `prod` may be another cluster; ckube serves that under the name of the one that was asked for. |
| `C116_false_panic` | **C116 is false**: an editor empties the kube config and writes it anew. When the file is emptied between the two times that it is read for the context `prod`, the process panics. |
| `C117_false_back` | **C117 is false** for a type that is listed twice in the configuration: both watchers report to one cache, and after the pod has been read as it is (moved to `n2`), it is read as it was before (on `n1`). |
| `C117_false_missing` | **C117 is false** for what is not there: a pod exists from step 2 on and does not change; after 5 steps it can be read, after 8 steps, when the stream was reopened and has delivered the other pod, it is answered 404, and after 9 steps it can be read again. |
| `C118_false_lost` | **C118 is false** for options that name no cluster: whatever they say, nothing of them reaches the API server. |
| `C118_false_type` | **C118 is false** for a grace period that is no integer, such as `"30"`: an API server would refuse it, but gets a grace period of 0 instead, which means that the object is removed at once. |
| `C118_false_unknown` | **C118 is false** for members that ckube does not know: they do not reach the API server, and what is done is the same as without them. |
| `C120_false_list` | **C120 is false** for lists that end with two empty values: they are written like other lists, but not read. With one or three empty values at the end they are. |
| `C120_false_nul` | **C120 is false** for texts with a NUL byte: what follows it is ignored, whatever it is. |
| `C121_false_kind` | **C121 is false** for the type `tests` of `exKindTypes`: its goroutines register `Deploymen`, `Te` and `Foo`. An object that is on the stream of each round is not cached, however many rounds there are. |
| `C121_false_typed` | **C121 is false** for pods: what is cached of a pod has neither apiVersion nor kind. |
| `C121_false_version` | **C121 is false** for a configuration that forgets a version: ckube ends as soon as the goroutine of this type starts, at a reload as well. |
| `C122_false_decode` | **C122 is false**: with two configured types the goroutine of the first has registered its kind and decodes the first object of its stream while the goroutine of the second registers. |
| `C122_false_reload` | **C122 is false** for reloads: each watcher has a lock of its own, so that a goroutine of the old and one of the new watcher register at the same time. |
| `C123_false` | **C123 is false** for quiet streams: any number of clients can come and go while all their watches stay open at the API server for half an hour, for nobody reads the loss of a client while it waits for the next byte. |
| `C124_false` | **C124 is false** without the condition on all watchers: both have shown a pod, the pod is changed and deleted, the first watcher has received everything, and the second one receives the change and then loses its stream. The deleted pod is back in the cache, although the first watcher is connected and up to date; with the first watcher alone it would not be there. |
| `C125_false_base_path` | **C125 is false** for a cluster whose server address has a path, here one behind a management platform: the watcher asks the platform itself, so that the cluster is never cached, and lists of it are empty. |
| `C125_false_name` | **C125 is false** for a type that is configured with a question mark: `watch=true` becomes part of another parameter, the API server answers with a list, and the cache stays empty. |
| `C126_false_cluster` | **C126 is false** for the clusters of a request whose search has a blank before the selector, as in the example of PAGINATE_SPEC.md: the cluster that `name=w; __ckube_as__:cluster in (c2)` asks for is not seen, the default cluster is required as well, and nothing is listed although `web` of `c2` is cached. |
| `C126_false_end` | **C126 is false** for a semicolon at the end, although it separates nothing: `name=we;` looks for `we;`. |
| `C127_false_default` | **C127 is false** for queries without a sort text, which PAGINATE_SPEC.md says are sorted by uid and name first: with an index `uid` (here the only configured index) that is `3`, `2` and `1` for the pods `x`, `y` and `z`, they are listed in the order of their names. |
| `C128_false_stop` | **C128 is false** for a watcher that is opening a stream when it is stopped, because `Watch` does not look at the `stop` channel: with an API server that accepts the connection and does not answer, an hour later the watcher clears the type in its store and writes an object. |
| `C129_false` | **C129 is false** for any shorter time than two hours and three seconds: with a lost connection a pod is in the cache that long after it was deleted, although every attempt to open a stream succeeds at once. |
| `C130_false_hash` | **C130 is false** for queries with `#` in them, which Go's server reads as part of the query: if the handler leaves the query as it is, as it does when the label selector cannot be read, only what stands before `#` is sent; and with an illegal escape behind `#` nothing is. |
| `C130_false_slash` | **C130 is false** for segments with an escaped slash: the name `a/b c` behind a service arrives as the two segments `a` and `b c`. |
| `C131_false` | **C131 is false** for the 101st request at a time: it waits for 200 ms, though its API server is idle. |
| `C131_false_late` | The 400th request at a time is sent when its minute is over. |
| `C131_false_refused` | **C131 is false** for the 401st request at a time: it is refused without being sent. |
| `C131_false_watches` | **C131 is false** behind watches: after 9100 watches at a time, a request that is none is refused even if it comes alone and 29 minutes later. |
| `C132_false_twice` | **C132 is false** for a type that the file names twice: the first entry defines the index `node`, the second one `zone`. Everything has been received and nothing is under way, and a request that sorts the pods by `node` is refused. |
| `C133_false_body` | **C133 is false** for requests with a body: the API server is busy and asks to send a `POST` again in a second; it would then carry it out. The client gets a 500, and the API server is not asked again. |
| `C133_false_minute` | **C133 is false** for long pauses: the API server asks to come back in an hour. The handler sleeps for the hour, though its context ends after a minute; then it fails, and the client gets a 500 instead of the 429 of an hour ago. |
<!-- /false -->

## 6. How each property is approached

| id | what is modelled, how it is proved |
|---|---|
| C01 | `SplittingValue`, `MergeValues` as list functions. Chunk prefixes `%04d` are strictly increasing in byte order while offsets have four digits; sorting any permutation gives the original chunks (uniqueness of sorted permutations). Above 10024 bytes the claim is false: counterexample evaluated by the kernel. |
| C02 | length and character class of each chunk, by recursion over the chunks. |
| C03 | base64 on 3-byte groups; the group law by bit arithmetic on `Nat`, lists by recursion. |
| C04 | JSON writer and reader for the five fields; string part by induction over UTF-8 sequences, numbers by digit induction. |
| C05, C06 | composition of C01, C03, C04, C08 through `QueryListOptions` and the server's parser. |
| C07 | expected false (`+` and `/` are not label characters): counterexample; the exact acceptance condition is proved. |
| C08 | lexer run on printed selectors, then parser on the resulting tokens, by induction over requirements. |
| C09 | induction over the parts; counterexample for parts starting with `;` or empty. |
| C10-C13 | case analysis of `Match`, specification with `∀`/`∃` over parts and index entries. |
| C14, C15 | `strconv.Quote` modelled byte by byte; counterexamples for values containing `"`; theorem for all values without. |
| C16 | `ParseToLabelSelector` and `LabelSelectorAsSelector` preserve `Matches`; expected false for repeated equality keys. |
| C17-C19 | C08 and C09 composed with `Clusters`/`Namespaces`; expected false when several advanced parts are present. |
| C20-C23 | refinement of the nested maps to a function from identities to objects, induction over histories. |
| C24 | slices of one sorted list; determinism from C26. |
| C25-C27 | the comparator is a total preorder on index values; `sort.Slice` enters through an explicit contract (permutation; sorted when the comparator lies between the strict and the weak order), for which an instance is constructed. |
| C28 | 64-bit wrap-around; counterexamples for page 0, negative and overflowing pages; theorem for the rest. |
| C29, C30 | direct on `buildResourceWithIndex`, lifted to histories by invariant. |
| C31 | every operation in the model returns `panic` or a value; invariant "configured types are present". |
| C32, C33 | small-step interleaving model with heap pointers; forward simulation, history invariants. |
| C34 | lock-level model with writer preference; lock order argument. |
| C35-C37 | watcher as a state machine over stream events and an API server; invariants. C36 and C37 are expected to be false in corner cases (server with no objects; stream closing before its first event). |
| C38 | expected false (`TrimRight` takes a cut set). |
| C39-C48 | `parsePaginateAndLabelsAndClean`, `Proxy`, `proxyPass` as decision functions returning what is answered or forwarded. |
| C49 | `serverPrint` as a function of the annotation maps. |
| C50-C52 | route table and dispatcher. |
| C53-C55 | reload loop as a state machine; C55 expected false. |
| C56-C58 | as functions of the cache. C56 expected false. |
| C59 | the byte loop as a fold over reader results. |
| C60 | objects as lists of members. |
| C61, C62 | fake server as a state machine. |
| C63 | argument rewriting; expected false. |
| C64 | gauge carried in the store model; expected false after `Clean`. |
| C65 | fs watcher state machine; partial. |
| C66 | direct. |
| C67 | the forwarded method, path, query and body are compared field by field with the request; counterexample for DELETE bodies. |
| C68 | the answer of the API server is a parameter; `proxyPass` and the JSON response writer are functions of it. |
| C69 | case analysis of the load over all kube configs; false without current context. |
| C70 | C05, C07, C17 and C19 composed through the flags of ckubecli. |
| C71 | The invariant of C64 for one store, kept by the steps of all others and by the making of stores. |
| C72 | One register per object; a clear takes effect on an object when it empties its namespace, or when it finds the namespace or the cluster missing. |
| C73 | What a goroutine can do after `Stop`, by cases on where it is; C35 is carried over to all goroutines together. |
| C74 | One view of the server per stream; the cache agrees at every key with one of the views, and all views are the server when all events are delivered. |
| C75 | An invariant over the channels: every running handler owns the entry of its address, no closed channel is in the map. |
| C76 | The fold over the types is described by an accumulator lemma. |
| C77 | The route of a path by cases on which pieces are present; the routes of the fake server come first. |
| C78 | C67 composed with a model of client-go's `Request.URL`; four counterexamples refute `Spec.Arrived`. |
| C79 | Small-step model of the shared timeout; invariant from the store to the sending of a request. |
| C80 | C36, C25, C42 and C45 composed: what the history received last is what the API server has; `Spec.CaughtUp` says when. |
| C81 | The written form of a list of pieces is parsed to nodes that write the same; walking a decoded value is walking the value (`jpSteps_toGo`); `Spec.valuesAt` and `Spec.ShownAs` say what stands at a path and how it is shown. `evalArray` stops at an empty range, so nested `[*]` need `Spec.Undisturbed`, which paths with one `[*]` always meet (`undisturbed_one`). `C81_float` and `C81_integer` put `goNum` in the place of `num`. |
| C82 | The search text begins with a backslash, so it can only be found at a backslash of the quoted index; comparing the pieces between backslashes leaves the items of the list of labels. |
| C83 | C25 with the index value of C81; texts of fixed width are ordered like the numbers in them. |
| C84 | Only the last branch of `Proxy` answers with a list; added after a mutant of `apiVersionOf` broke no theorem. |
| C85 | C50, C52, C45 and `list_outcome` composed through `serveReq`; `C50_open` and `C85_status` added after mutants of the health route and of `Refusal.code` broke no theorem. |
| C86 | The text made by `QueryListOptions` is read with the parser lemmas of C06, once as the server rewrites it and once as it stands; added after a mutant of `selInfo` broke no theorem. |
| C87 | The lexer is inverted on token lists, the parser on items, then the walk follows the pieces; nested conditions by mutual recursion over trees, with the fuel of the parser bounded by the number of items; `C87_false_missing` and `C87_false_default` hold for all paths. |
| C88 | Induction over the expressions; a template of the pieces of C87 with `{{` has an action, so it is not empty. |
| C89 | C85 gives the answer, `Answer.json` its JSON value, `parse_enc` reads the text back; whether `items` is nil follows from what the label selector reads as. |
| C90 | As C89 for `Status` objects; `C90_false_cluster` and `C90_false_token` hold for all clusters and tokens. |
| C91 | The list as in C41 with C17 and C19 for the search; the watch is not cacheable and `watch_goes` follows `proxyPass`. |
| C92 | C80 gives what is listed; the events of a fresh watch overwrite every key that exists, so only keys that the server no longer has can differ. |
| C93 | Each field is followed through the fold over the members (`AfterAll`), which is what the file means if no name occurs twice. |
| C94 | C93 read backwards; unknown names leave the fold unchanged; C50 admits everybody for an empty token. |
| C95 | The header is an extension of the writer (`erase_respond`); it is followed through every way to end a request. |
| C96 | C80 for the search of `Clusters(cs)` (C17, C19); a strictly ordered list is determined by its members (`place_unique`, `keys_unique`), so that all pages belong to one list. |
| C97 | `isWatch` on the cleaned query equals that on the client's query (C67); the spec names what Kubernetes streams. |
| C98 | Two requests that differ only in these parameters read the same selector and select the same cluster; the JSON form of answers has no `continue`. |
| C99 | Invariant: the store is the result of a history whose latest objects are those of the map (`SInv`); C80 and C96 are proved from this alone (`Mirrors`), so gets and lists follow. |
| C100 | `FakeTarget` and `Selects` agree for requests with one marker; `C40` and the event of a write (`done_target`) say where the two servers act. |
| C101 | Handlers are given as the calls they make on the writer; running the calls on the logging writer and on the plain one is compared (`answerLogged_eq`), then `Agree` is an invariant of the calls of a handler that uses one status. |
| C102 | A grammar of command lines (`CmdLine`) and of Go's integers (`IntText`); `flagParse_iff` and `parseInt0_iff` prove that the parsers accept exactly these, C70 does the rest. |
| C103 | `fakeProxy_split` cuts a write into asking, changing and sending; a goroutine that nobody disturbs finds the store as it was when it asked (`Fresh`), so the step that decides its answer is the whole write (`step_serial`). |
| C104 | the algorithm as a tree of comparisons and swaps (`Prog`), so that permutation, bounds of indices and dependence on the answers only are proved once for all trees; Hoare-style rules (`wp`) for the parts; the invariant of `pdqsort_func` allows ties to change places left of the range, because `partialInsertionSort_func` shifts beyond it; a run with inconsistent answers elsewhere is compared with one with a consistent comparison function. |
| C105 | `clientReads` reads back what C89 says is in the body; `mirror_search` (the general form of C42) gives the list, C07 the total. `name="default"` is a quoted search of C14, `e` a fuzzy one of C12. |
| C106 | `World` has an API server, a watcher and its pending store calls for each type and cluster next to the store of C34; its runs are executions of C34, so its answers are those of one sequential order (C34). The order agrees with the calls of each watcher, which makes one at a time, so the objects of a cluster whose watcher waits are those its notices leave (C36), and lists follow from C80 and C96. |
| C107 | A measure: instructions left in running calls, plus for each notice a watcher has still to tell the cost of its call, plus events to be received. The cost of a clean up depends on the number of objects, which is bounded by the number present plus those under way (`room`, does not grow). Each step makes the measure smaller. A state without steps is at rest by C34_progress; what the store has then is C106. |
| C108 | The regular expression of nginx.conf is data, matched by a function that returns all possible rests; it is proved to accept exactly the texts of the paths of `Spec/Route.lean` (plus a final newline, which PCRE's `$` allows). Routing inside ckube is C52, its token C50. |
| C109 | A whole has the reload goroutine of C54, the API servers' objects and a list of generations, each a `World` of C106. A change of an API server is reported to all generations. By induction each generation has made a run of C106 (a new one: the changes so far, made while its watchers were not connected), and the states of its calls are states of the whole; then C106 and C107 apply. The invariant of the goroutine says for each of its positions which watcher fills which store. |
| C110 | A line splits into pieces between the holes, whatever is put in; the pieces of nginx.conf are computed. The second substitution cannot match inside the token's lines unless the token contains the other hole, as the hole has neither a space nor a quote. |
| C111 | Sockets that take the same connection clash, so at most one listens; dialling finds the first, and starting adds at the end. |
| C112 | All numbers that are rounded to a mantissa and exponent lie in an interval, and the intervals of different ones are disjoint. The loop for the shortest decimal stays in the interval and finds at most as many digits as any decimal in it: a decimal of that many digits lies at or beyond one of the two candidates. Two decimals of 15 digits in one interval differ by less than their last place. |
| C113 | The grammar is an inductive relation between texts and values, with a relation for what stands between quotes as parameter. The reader finds the value of every text by induction on its fuel, and what it accepts is in the grammar with the relation "the reader reads it so"; characters are related to tokens one by one. |
| C114 | A numeral is a relation between texts and rationals. The reader's digits and exponent are those of the relation; its rounding puts the value in the interval of one float64 (C112), whose members are nearer to it than to any other. Values of at most 15 digits, or whole ones up to 2^53, lie in different intervals, so C25 gives their order. |
| C115 | Names in a kube config that is accepted occur once, so looking up is membership; the configuration of a context is computed from its entries, and differs from the default one by its address. |
| C116 | The reader reads a value that is not a number up to its end, whatever follows; so a text that is cut off is refused unless only white space is missing. Loads are sequences of reads that may see different contents. |
| C117 | An invariant finds for every reachable state a moment of the past, at which the server had all that the cache holds, and from which the events on their way lead to the present; each step moves it forward or leaves it. |
| C118 | What the JSON members say is given by `Member` of C93 for each of the seven options; a generic lemma follows one field through the fold over the members, in both directions, so that the text written by `Marshal` is shown to say what was written. |
| C119 | The decoder is inverted by induction over the text, each piece is classified, and the fold over the pieces is the fold over the pairs they say; two queries with the same pairs give the same map. |
| C120 | A text of the grammar is followed through the lexer (each piece gives its tokens whatever follows) and the parser; for the converse the tokens of any text are turned back into pieces, and each function of the parser is inverted. |
| C121 | The known kinds are computed by induction over the registrations; a stream of a known kind is the list of its events, a stream of an unknown one is an error, after which only clean ups reach the store. |
| C122 | Invariants of a transition system: at most one goroutine of a watcher has its lock; goroutines past the registration have a known kind. |
| C123 | Model/WatchLife.lean interleaves any number of copy loops with their clients, streams and the clock; the invariant over histories tells exactly when each is over (induction from the end of the history). Quiet streams give the counterexample for every number of clients. |
| C124 | Spec/Twins.lean: one API server, n streams, one log of store calls. Invariant: a stream that has delivered nothing replays to the server's objects, any other stream does so for the names it still carries, and when all have delivered something the cache is right for every name that no stream still carries. The first event of a stream empties the cache and so restores it from whatever was there. |
| C125 | Model/WatchReq.lean: the URL text, `url.Parse`, `RequestURI` and `URL`. The text is the path of the type (Spec/Route.lean) followed by the query; composition with C52 for the own router. |
| C126 | Spec/SearchText.lean gives the search language of PAGINATE_SPEC.md as a grammar (conditions, doubled semicolons, Unicode white space) with its own meaning; Lemmas/SearchText.lean shows that `TrimSpace` removes exactly the white space characters at both ends; each kind of condition is compared with `match1`, the conjunction comes from C09 and C10, the cache from C23. `C126_program_partial` (Props/SearchProgram.lean) carries this through the wire format to a program that lists the default cluster. |
| C127 | Spec/SortText.lean gives the sort language as a grammar and an order on index maps with whole numbers; the grammar is shown to imply `SortMeans`, so that C25 applies with `parseFloat64`; C114 turns the order of `float64` ranks into that of the numbers. Props/SortProgram.lean carries this to a program that lists several clusters (`C105_program_partial` with `parseFloat64`), Props/SortSettled.lean to requests to the running system of C107; whether a search is rejected depends on the names of the indexes only. Lemmas/SearchSelect.lean shows that restricting a search with one label selector to clusters keeps all its conditions, so that the program and the running system are covered for such searches too. |
| C128 | Model/WatchClock.lean is the loop of the watcher with a clock in milliseconds: time passes only while the goroutine waits, and not beyond the end of the wait. One invariant (Lemmas/WatchClock.lean) ties every position of the loop to the time of the last attempt; the claims about stopping follow by induction over the run after Stop. |
| C129 | The watcher with its clock is put next to an API server (Spec/WatchClock.lean); a simulation shows that without time this is the system of C36. From the moment at which the object is gone a run goes through stages (old stream, pause, new stream that has told nothing yet, cleaned), each with a bound on the clock; the last one is never left. |
| C130 | Model/UrlPath.lean follows the target through `ParseRequestURI`, `URL.String`, `url.Parse`, `RequestURI` and `http.NewRequest`; `pathUnescape` is shown to be the relation `PathSays`, so that only the round trips of `EscapedPath` remain. mux lets no path through that begins with `//` (`clean_single`). This also discharges the simplification of Model/Upstream.lean that paths are decoded. |
| C131 | Model/Throttle.lean is the limiter of client-go's discovery client (from memory of client-go and x/time/rate), in milliseconds and without rounding. An invariant ties its tokens to the least slack of any window of the past, so that the wait of a request is the shortest that keeps the limit, a statement without tokens; the rate and the order of what is sent follow from how tokens fall along a sublist of the requests. |
| C132 | The file is read with `configText` (C83's model of encoding/json), and an invariant of the readers gives that the index of every entry is a map. `indexConf` folds the entries into the table of the store, so that the last entry for a type wins (`confAt_last`). C109_served ties the generation that is served to the configuration in force and to the API servers; C127_settled_partial then speaks about this generation. The witness loads a file with two entries for pods at run time. |
| C133 | Model/Retry.lean is the loop of client-go's `Request.request` (from memory), with the API server, the connection and the limiter as functions of the number and time of the attempt. One induction (`resend_story`) gives how the attempts follow each other, how many there are and what the outcome is; the header is read as the relation `SaysSeconds`. C68 says what the client gets. That a body that was read cannot be sent again follows from `net/http`: the server's `*http.body` is no `io.Seeker` and refuses reads after `Close`. |

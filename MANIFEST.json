{
 "claims": [
  {
   "property": "C01",
   "status": "partial",
   "theorems": [
    "Ckube.C01_merge_split_partial",
    "Ckube.C01_false",
    "Ckube.C01_false_beyond"
   ],
   "note": "Proved for payloads up to 10024 bytes; for every greater length some payload is lost in every order of the pieces: the five-digit offset sorts before four-digit ones."
  },
  {
   "property": "C02",
   "status": "proved",
   "theorems": [
    "Ckube.C02_chunks_legal"
   ],
   "note": ""
  },
  {
   "property": "C03",
   "status": "proved",
   "theorems": [
    "Ckube.C03_base64_roundtrip",
    "Ckube.C03_base64_rejects"
   ],
   "note": "Line breaks are skipped by Go's decoder and are therefore excluded from the rejection claim."
  },
  {
   "property": "C04",
   "status": "proved",
   "theorems": [
    "Ckube.C04_json_roundtrip"
   ],
   "note": "The hypothesis of valid UTF-8 is needed: Ckube.C04_invalid_utf8."
  },
  {
   "property": "C05",
   "status": "partial",
   "theorems": [
    "Ckube.C05_delivered_partial",
    "Ckube.C05_exact",
    "Ckube.C05_false_key",
    "Ckube.C05_false_empty"
   ],
   "note": "Proved for payloads up to 10024 base64 characters and caller selectors that do not mention the pagination key and have no all-empty value list; false otherwise (counterexamples). C05_exact: without an equality on the pagination key, a request is delivered if and only if no other value list is all empty."
  },
  {
   "property": "C06",
   "status": "partial",
   "theorems": [
    "Ckube.C06_selector_kept_partial",
    "Ckube.C06_kept_last",
    "Ckube.C06_exact",
    "Ckube.C06_false"
   ],
   "note": "Under the conditions of C05 the server applies and forwards the caller's requirements except that of several equalities on one label only the last counts (C06_kept_last); so the selector is kept if and only if no two equalities ask one label for different values or what counts cannot be satisfied (C06_exact); false for a=1,a=2."
  },
  {
   "property": "C07",
   "status": "partial",
   "theorems": [
    "Ckube.C07_accepts_iff_partial",
    "Ckube.C07_accepts_plain_partial",
    "Ckube.C07_false"
   ],
   "note": "False as stated; the exact acceptance condition (no + or / in the base64 text) is proved."
  },
  {
   "property": "C08",
   "status": "partial",
   "theorems": [
    "Ckube.C08_format_parse_partial",
    "Ckube.C08_exact",
    "Ckube.C08_false",
    "Ckube.C08_false_empty"
   ],
   "note": "Proved for non-empty selectors whose In/NotIn lists contain a non-empty value; C08_exact: the text can be read if and only if the selector is not empty and every In/NotIn list has a non-empty value or an even number of values."
  },
  {
   "property": "C09",
   "status": "partial",
   "theorems": [
    "Ckube.C09_parts_roundtrip_partial",
    "Ckube.C09_exact",
    "Ckube.C09_false"
   ],
   "note": "True exactly for parts of which only the first may start with a semicolon (C09_exact)."
  },
  {
   "property": "C10",
   "status": "proved",
   "theorems": [
    "Ckube.C10_conjunction",
    "Ckube.C10_search_text"
   ],
   "note": ""
  },
  {
   "property": "C11",
   "status": "proved",
   "theorems": [
    "Ckube.C11_key_value"
   ],
   "note": ""
  },
  {
   "property": "C12",
   "status": "proved",
   "theorems": [
    "Ckube.C12_fuzzy",
    "Ckube.C12_order_independent"
   ],
   "note": ""
  },
  {
   "property": "C13",
   "status": "partial",
   "theorems": [
    "Ckube.C13_negation_key_partial",
    "Ckube.C13_negation_text_partial",
    "Ckube.C13_key_exact",
    "Ckube.C13_text_exact",
    "Ckube.C13_false_value",
    "Ckube.C13_false_text"
   ],
   "note": "Proved for values and texts that do not start with '!' (and texts without '='); false for all others (C13_key_exact, C13_text_exact)."
  },
  {
   "property": "C14",
   "status": "partial",
   "theorems": [
    "Ckube.C14_quoted_partial",
    "Ckube.C14_exact_partial",
    "Ckube.C14_false"
   ],
   "note": "False as stated; the exact set of accepted index values is proved, and the claim for index values without a quote."
  },
  {
   "property": "C15",
   "status": "partial",
   "theorems": [
    "Ckube.C15_substring_partial",
    "Ckube.C15_no_miss_partial",
    "Ckube.C15_start_partial",
    "Ckube.C15_start_false",
    "Ckube.C15_false",
    "Ckube.C15_false_miss"
   ],
   "note": "Proved for index values that need no escaping, and for every index value if the printable ASCII value searched for starts with a character that is in no escape sequence; false for every value that starts with a-f, n, r, t, v or a digit (C15_start_false); no object is missed for printable ASCII values."
  },
  {
   "property": "C16",
   "status": "partial",
   "theorems": [
    "Ckube.C16_advanced_partial",
    "Ckube.C16_last",
    "Ckube.C16_exact",
    "Ckube.C16_gt_lt_rejected",
    "Ckube.C16_empty_rejected",
    "Ckube.C16_false"
   ],
   "note": "Proved when no two equality requirements share a key; C16_last says what every readable selector means (the last equality for a key counts) and C16_exact when that is what is written. > and < and empty selectors are rejected."
  },
  {
   "property": "C17",
   "status": "partial",
   "theorems": [
    "Ckube.C17_clusters_partial",
    "Ckube.C17_any_partial",
    "Ckube.C17_sound",
    "Ckube.C17_breaks",
    "Ckube.C17_equality_stays",
    "Ckube.C17_false_second_part",
    "Ckube.C17_false_equality",
    "Ckube.C17_false_semicolon",
    "Ckube.C17_false_empty_value"
   ],
   "note": "Proved for searches with at most one advanced part, without an equality on the same key, and values that survive the selector text (Spec.PlainSearch); false otherwise (counterexamples). C17_any_partial says what the new search asks for with any number of advanced parts and any equalities: only the first advanced part, and of its equalities the last for every key, the one on cluster included. C17_sound holds for every search: no object of another cluster ever matches. C17_breaks: a search whose first plain part starts with a semicolon, or with a requirement of empty values only, is an error for every object afterwards."
  },
  {
   "property": "C18",
   "status": "partial",
   "theorems": [
    "Ckube.C18_namespaces_partial",
    "Ckube.C18_any_partial",
    "Ckube.C18_sound",
    "Ckube.C18_breaks",
    "Ckube.C18_false_empty"
   ],
   "note": "As C17; false for an empty list."
  },
  {
   "property": "C19",
   "status": "partial",
   "theorems": [
    "Ckube.C19_exact",
    "Ckube.C19_any_search_partial",
    "Ckube.C19_read_back_partial",
    "Ckube.C17_false_semicolon",
    "Ckube.C17_false_empty_value"
   ],
   "note": "Proved for every search, also with several advanced parts and equalities, in which no part starts with a semicolon and no other requirement lists only empty values; false otherwise: no cluster is read back. C19_exact says which searches these are (Spec.Breaks)."
  },
  {
   "property": "C20",
   "status": "proved",
   "theorems": [
    "Ckube.C20_latest"
   ],
   "note": ""
  },
  {
   "property": "C21",
   "status": "proved",
   "theorems": [
    "Ckube.C21_get_isolated",
    "Ckube.C21_query_other_type",
    "Ckube.C21_query_isolated"
   ],
   "note": ""
  },
  {
   "property": "C22",
   "status": "proved",
   "theorems": [
    "Ckube.C22_clean"
   ],
   "note": "Calls are serial here; concurrent calls are C32."
  },
  {
   "property": "C23",
   "status": "proved",
   "theorems": [
    "Ckube.C23_exact"
   ],
   "note": "Sorting is any function meeting the contract of sort.Slice (Ckube.SliceSort)."
  },
  {
   "property": "C24",
   "status": "partial",
   "theorems": [
    "Ckube.C24_pages_partial",
    "Ckube.C24_false_ties"
   ],
   "note": "Proved, for a fresh map order per request, for sort keys that include cluster, namespace and name (the default order does), without NaN values and for pages ending below 2^63; false for sort expressions that leave ties."
  },
  {
   "property": "C25",
   "status": "partial",
   "theorems": [
    "Ckube.C25_sorted_partial",
    "Ckube.C25_accepted",
    "Ckube.C25_false_nan"
   ],
   "note": "Proved for index values that are not NaN; false otherwise."
  },
  {
   "property": "C26",
   "status": "proved",
   "theorems": [
    "Ckube.C26_default_order"
   ],
   "note": "For API objects; the stores may have been filled by different histories."
  },
  {
   "property": "C27",
   "status": "partial",
   "theorems": [
    "Ckube.C27_honoured_partial",
    "Ckube.C27_exact",
    "Ckube.C27_passed",
    "Ckube.C27_false_blanks",
    "Ckube.C25_false_nan"
   ],
   "note": "Proved for items with at most two blank separated parts, whatever else is in the expression; C27_exact and C27_passed: otherwise the expression is passed over without an error exactly if the items before the first such item ask for known keys."
  },
  {
   "property": "C28",
   "status": "partial",
   "theorems": [
    "Ckube.C28_pages_partial",
    "Ckube.C28_exact",
    "Ckube.C28_crash_exact",
    "Ckube.C28_false_page_zero",
    "Ckube.C28_false_negative",
    "Ckube.C28_false_overflow",
    "Ckube.C28_false_wrapped"
   ],
   "note": "Proved for page size 0 and for positive pages ending below 2^63; otherwise the query crashes or, when the begin of the page overflows, may show another page (counterexamples). C28_exact gives the result for all pages and page sizes, C28_crash_exact says when it crashes if nothing overflows."
  },
  {
   "property": "C29",
   "status": "partial",
   "theorems": [
    "Ckube.C29_cluster",
    "Ckube.C29_cluster_query",
    "Ckube.C29_index_partial",
    "Ckube.C29_false_name"
   ],
   "note": "The cluster annotation is proved in full; the index annotation lacks the built-in namespace and name."
  },
  {
   "property": "C30",
   "status": "proved",
   "theorems": [
    "Ckube.C30_same_keys",
    "Ckube.C30_unknown_search_key",
    "Ckube.C30_unknown_sort_key"
   ],
   "note": ""
  },
  {
   "property": "C31",
   "status": "proved",
   "theorems": [
    "Ckube.C31_no_crash",
    "Ckube.C31_unconfigured_crashes"
   ],
   "note": ""
  },
  {
   "property": "C32",
   "status": "proved",
   "theorems": [
    "Ckube.C32_linearizable",
    "Ckube.C32_no_crash"
   ],
   "note": "Adds, modifies, deletes and gets, with concurrent queries; a concurrent clean is excluded from the linearizability theorem."
  },
  {
   "property": "C33",
   "status": "proved",
   "theorems": [
    "Ckube.C33_query_stable"
   ],
   "note": "With any concurrent notifications, cleans, gets and queries."
  },
  {
   "property": "C34",
   "status": "proved",
   "theorems": [
    "Ckube.C34_progress",
    "Ckube.C34_all_return"
   ],
   "note": ""
  },
  {
   "property": "C35",
   "status": "proved",
   "theorems": [
    "Ckube.C35_replay",
    "Ckube.C35_fleet"
   ],
   "note": "For one watcher among others, and for all goroutines of a started watcher together. Histories may interleave the calls of any number of other watchers; calls are atomic (see C32-C34 for the locking)."
  },
  {
   "property": "C36",
   "status": "partial",
   "theorems": [
    "Ckube.C36_converges_partial",
    "Ckube.C36_exact",
    "Ckube.C36_drains",
    "Ckube.C36_false"
   ],
   "note": "False when a stream has delivered nothing because the server has no object of the type: stale objects stay (C36_false). C36_exact: the cache is right if and only if the stream delivered something, the server has an object, or nothing was left in the cache."
  },
  {
   "property": "C37",
   "status": "partial",
   "theorems": [
    "Ckube.C37_survives_partial",
    "Ckube.C37_false"
   ],
   "note": "False when a watch is accepted and breaks before its first event: the cache is emptied (C37_false). Proved for broken streams that had delivered something and failing connections."
  },
  {
   "property": "C38",
   "status": "partial",
   "theorems": [
    "Ckube.C38_kind_partial",
    "Ckube.C38_false"
   ],
   "note": "False: strings.TrimRight takes a set of characters, SecretList gives Secre (C38_false). The exact condition is proved."
  },
  {
   "property": "C39",
   "status": "partial",
   "theorems": [
    "Ckube.C39_from_cache",
    "Ckube.C39_forwarded_partial",
    "Ckube.C39_readable",
    "Ckube.C39_false_method"
   ],
   "note": "Proved for the methods that are forwarded; false for others such as OPTIONS and HEAD, which crash the handler."
  },
  {
   "property": "C40",
   "status": "proved",
   "theorems": [
    "Ckube.C40_never_from_cache"
   ],
   "note": "Any method other than GET and any request with a watch parameter; a method that cannot be forwarded is answered with a panic, not from the cache."
  },
  {
   "property": "C41",
   "status": "partial",
   "theorems": [
    "Ckube.C41_default_cluster_partial",
    "Ckube.C41_false_name",
    "Ckube.C41_false_search"
   ],
   "note": "Proved for default clusters that are label values and all searches whose first advanced part can be read as it is written and does not use < and >; false otherwise: the failed restriction is only logged and all clusters are listed."
  },
  {
   "property": "C42",
   "status": "partial",
   "theorems": [
    "Ckube.C42_selected_partial",
    "Ckube.C42_false"
   ],
   "note": "Proved for the pages, sort expressions and index values for which C25, C27 and C28 hold."
  },
  {
   "property": "C43",
   "status": "partial",
   "theorems": [
    "Ckube.C43_total_partial",
    "Ckube.C43_false_no_size",
    "Ckube.C43_false_page_zero"
   ],
   "note": "Proved for requests without paging and for positive pages and page sizes ending below 2^63; false for a page without size and a size without page."
  },
  {
   "property": "C44",
   "status": "partial",
   "theorems": [
    "Ckube.C44_out_of_page_partial",
    "Ckube.C43_false_no_size"
   ],
   "note": "Proved for positive pages and page sizes ending below 2^63; false for page size 0."
  },
  {
   "property": "C45",
   "status": "proved",
   "theorems": [
    "Ckube.C45_single_object"
   ],
   "note": ""
  },
  {
   "property": "C46",
   "status": "partial",
   "theorems": [
    "Ckube.C46_cluster_partial",
    "Ckube.C46_function_partial",
    "Ckube.C46_false_order",
    "Ckube.C46_false_list"
   ],
   "note": "Proved for requests that do not name two clusters and are not lists; false otherwise: the random map order decides, and a list from the cache ignores the marker."
  },
  {
   "property": "C47",
   "status": "partial",
   "theorems": [
    "Ckube.C47_query_partial",
    "Ckube.C47_options",
    "Ckube.C47_false_unreadable"
   ],
   "note": "Proved when the label selector is readable; false otherwise."
  },
  {
   "property": "C48",
   "status": "partial",
   "theorems": [
    "Ckube.C48_field_partial",
    "Ckube.C48_delete_partial",
    "Ckube.C48_false_empty"
   ],
   "note": "Proved for non-empty cluster names (in delete options: valid UTF-8); false for the empty name."
  },
  {
   "property": "C49",
   "status": "partial",
   "theorems": [
    "Ckube.C49_table_partial",
    "Ckube.C49_false_name"
   ],
   "note": "Proved for valid UTF-8 values; false for the columns namespace and name when the configuration does not extract them."
  },
  {
   "property": "C50",
   "status": "proved",
   "theorems": [
    "Ckube.C50_refused",
    "Ckube.C50_admitted",
    "Ckube.C50_open",
    "Ckube.C50_redirect"
   ],
   "note": "Requests with a path that is not clean are redirected before any handler or token check."
  },
  {
   "property": "C51",
   "status": "partial",
   "theorems": [
    "Ckube.C51_contained",
    "Ckube.C51_failure_partial",
    "Ckube.C51_proxy",
    "Ckube.C51_false_after_write"
   ],
   "note": "Proved for handlers that have written nothing when they fail, which includes the proxy; false otherwise."
  },
  {
   "property": "C52",
   "status": "partial",
   "theorems": [
    "Ckube.C52_variables_partial",
    "Ckube.C52_subresource_route",
    "Ckube.C52_subresource_partial",
    "Ckube.C52_false_namespace",
    "Ckube.C52_false_method"
   ],
   "note": "False for the subresources of namespaces (routed as a type of that name) and for methods other than GET on lists of namespaced types outside the core group (no variables)."
  },
  {
   "property": "C53",
   "status": "proved",
   "theorems": [
    "Ckube.C53_failed_reload"
   ],
   "note": "For every failure point; the count of failed reloads changes."
  },
  {
   "property": "C54",
   "status": "proved",
   "theorems": [
    "Ckube.C54_one_watcher"
   ],
   "note": "Stopping closes a channel; that a goroutine ends when it sees the channel closed is not modelled."
  },
  {
   "property": "C55",
   "status": "partial",
   "theorems": [
    "Ckube.C55_one_generation_partial",
    "Ckube.C55_false_default",
    "Ckube.C55_false_store"
   ],
   "note": "Proved for requests during which no reload succeeds; false otherwise: the configuration is replaced before store and clients."
  },
  {
   "property": "C56",
   "status": "partial",
   "theorems": [
    "Ckube.C56_first_partial",
    "Ckube.C56_first_exists",
    "Ckube.C56_services_partial",
    "Ckube.C56_no_pods_partial",
    "Ckube.C56_false_other",
    "Ckube.C56_false_cluster",
    "Ckube.C56_false_type"
   ],
   "note": "Proved exactly for cached types and cluster names that are label values: the services are those selecting the labels of the pod with the least name among the pods whose names contain the deployment's name and that have a deployment, in the order of names; so it is right when these pods agree on their labels. It is false when another deployment's pods have such names, for cluster names that are no label values, and when pods or services are not cached (crash)."
  },
  {
   "property": "C57",
   "status": "proved",
   "theorems": [
    "Ckube.C57_subset",
    "Ckube.C57_order"
   ],
   "note": ""
  },
  {
   "property": "C58",
   "status": "partial",
   "theorems": [
    "Ckube.C58_replica_set_partial",
    "Ckube.C58_other",
    "Ckube.C58_false_second_owner"
   ],
   "note": "Only the first owner is looked at; false when the ReplicaSet is a later owner."
  },
  {
   "property": "C59",
   "status": "partial",
   "theorems": [
    "Ckube.C59_stream_partial",
    "Ckube.C59_client_gone",
    "Ckube.C59_exact",
    "Ckube.C59_false_last_byte",
    "Ckube.C59_false_empty_read"
   ],
   "note": "Proved for readers that return a byte or an error with every read; false when the last byte comes with the error (lost) and for empty reads (a zero byte is added). C59_exact gives what is written for all reads."
  },
  {
   "property": "C60",
   "status": "partial",
   "theorems": [
    "Ckube.C60_exact",
    "Ckube.C60_kept_partial",
    "Ckube.C60_crash",
    "Ckube.C60_number",
    "Ckube.C60_false_empty"
   ],
   "note": "Numbers go through float64 and metadata through ObjectMeta (both parameters); a kind or version that is not a string crashes the decoder, an empty one is dropped."
  },
  {
   "property": "C61",
   "status": "partial",
   "theorems": [
    "Ckube.C61_refuses",
    "Ckube.C61_writes_partial",
    "Ckube.C61_false_name",
    "Ckube.C61_false_overwrite",
    "Ckube.C61_false_type"
   ],
   "note": "Refusals are proved without assumptions. Writes: the type must be cached and a name in the path must be that of the body; false otherwise (counterexamples)."
  },
  {
   "property": "C62",
   "status": "partial",
   "theorems": [
    "Ckube.C62_watch_partial",
    "Ckube.C62_clusters_partial",
    "Ckube.C62_false_selector",
    "Ckube.C62_false_busy"
   ],
   "note": "A watch whose label selector ckube can read writes exactly the events it asked for that happen while it waits. An unreadable selector makes it panic."
  },
  {
   "property": "C63",
   "status": "partial",
   "theorems": [
    "Ckube.C63_false_always",
    "Ckube.C63_false_clusters",
    "Ckube.C63_no_selector_partial",
    "Ckube.C63_create"
   ],
   "note": "False for every command line with -l/--selector: the index of the selector is that in os.Args, not in the arguments passed on, so another argument is replaced or the plugin crashes. Holds without a selector and for create."
  },
  {
   "property": "C64",
   "status": "partial",
   "theorems": [
    "Ckube.C64_gauge_partial",
    "Ckube.C64_absent",
    "Ckube.C64_false_clean"
   ],
   "note": "Proved unless the type was cleaned after the last notification of the namespace; false then."
  },
  {
   "property": "C65",
   "status": "partial",
   "theorems": [
    "Ckube.C65_notices_partial",
    "Ckube.C65_exact",
    "Ckube.C65_false_late",
    "Ckube.C65_false_moved",
    "Ckube.C65_false_pod"
   ],
   "note": "False for files that are away for more than two seconds or moved away, and without kube config file (nothing is watched)."
  },
  {
   "property": "C66",
   "status": "partial",
   "theorems": [
    "Ckube.C66_default_cluster_partial",
    "Ckube.C66_false_ignored"
   ],
   "note": "Never empty; with a kube config the configured default cluster is ignored and the current context is used."
  },
  {
   "property": "C67",
   "status": "partial",
   "theorems": [
    "Ckube.C67_forwarded_unchanged_partial",
    "Ckube.C67_false_delete_body"
   ],
   "note": "False: a DELETE whose options name no cluster is forwarded without its body, a dry run becomes a real deletion. Everything else is proved."
  },
  {
   "property": "C68",
   "status": "partial",
   "theorems": [
    "Ckube.C68_answer_partial",
    "Ckube.C68_exact",
    "Ckube.C68_stream",
    "Ckube.C68_false_created"
   ],
   "note": "False: the status of every success becomes 200. Bodies and described failures are kept."
  },
  {
   "property": "C69",
   "status": "partial",
   "theorems": [
    "Ckube.C69_default_client_partial",
    "Ckube.C69_false_no_context"
   ],
   "note": "False for a kube config without current context."
  },
  {
   "property": "C70",
   "status": "partial",
   "theorems": [
    "Ckube.C70_flags_partial",
    "Ckube.C70_clusters_partial",
    "Ckube.C70_false_name"
   ],
   "note": "Proved for ASCII text without '?', '~', DEL. False for cluster names that Clusters refuses: the error is ignored and all clusters are asked for."
  },
  {
   "property": "C71",
   "status": "partial",
   "theorems": [
    "Ckube.C71_gauge_partial",
    "Ckube.C71_false_reset",
    "Ckube.C71_false_old"
   ],
   "note": "Holds from the first notification after the reset on, while no other store is notified of the namespace. False for what the new watcher reported before the reset, and when the old watcher still handles an event."
  },
  {
   "property": "C72",
   "status": "partial",
   "theorems": [
    "Ckube.C72_object_partial",
    "Ckube.C72_false"
   ],
   "note": "Proved for each object by itself, with all calls that write, remove, clear or read it. False for two objects in different namespaces: a clear empties the namespaces one after the other."
  },
  {
   "property": "C73",
   "status": "partial",
   "theorems": [
    "Ckube.C73_ends_partial",
    "Ckube.C73_false"
   ],
   "note": "False: Go takes either ready case of a select, so a goroutine may handle any number of events after Stop. Proved: it opens at most one connection, the one it was opening; ends with its stream; and can return at once whenever it is not connecting."
  },
  {
   "property": "C74",
   "status": "partial",
   "theorems": [
    "Ckube.C74_converges_partial",
    "Ckube.C74_false"
   ],
   "note": "Proved: the cache converges for any number of watchers of one type (except as in C36 for a server without objects). False: the second watcher's first event clears what the first has cached."
  },
  {
   "property": "C75",
   "status": "partial",
   "theorems": [
    "Ckube.C75_undisturbed_partial",
    "Ckube.C75_false_deaf",
    "Ckube.C75_false_stuck"
   ],
   "note": "Proved as long as no watch comes from the remote address of a handler that has not ended. False otherwise: the end of the first handler closes the channel of the second, which is deaf from then on; when that one ends it panics with the lock and every later write waits for ever."
  },
  {
   "property": "C76",
   "status": "partial",
   "theorems": [
    "Ckube.C76_discovery_partial",
    "Ckube.C76_false_versions",
    "Ckube.C76_false_types",
    "Ckube.C76_false_core"
   ],
   "note": "Proved: every group once, every configured type with its kind. False: no group ever has a version, every resource list offers the types of all groups, and the core group is listed under the empty name."
  },
  {
   "property": "C77",
   "status": "partial",
   "theorems": [
    "Ckube.C77_write_partial",
    "Ckube.C77_read",
    "Ckube.C77_local",
    "Ckube.C77_false_patch",
    "Ckube.C77_false_status"
   ],
   "note": "Proved for creations, replacements, deletions, reads and watches of paths without subresource; nothing is forwarded. False for patches and subresources, which ckube's proxy refuses because the cluster has no client."
  },
  {
   "property": "C78",
   "status": "partial",
   "theorems": [
    "Ckube.C78_arrives_partial",
    "Ckube.C78_false_base_path",
    "Ckube.C78_false_timeout",
    "Ckube.C78_false_headers",
    "Ckube.C78_false_body"
   ],
   "note": "Proved for method, decoded path, host, parameters other than timeout, the body of requests that are not streamed and the content type of a PATCH. False: the path of the server's address is lost, timeout is replaced, Accept and the content type of POST and PUT are lost, streamed requests lose their body."
  },
  {
   "property": "C79",
   "status": "partial",
   "theorems": [
    "Ckube.C79_own_partial",
    "Ckube.C79_plain",
    "Ckube.C79_false"
   ],
   "note": "Proved for requests that are no watches, for every interleaving; for watches if no other kind of request stores its timeout in between. False otherwise: the watch is cut off after one minute."
  },
  {
   "property": "C80",
   "status": "partial",
   "theorems": [
    "Ckube.C80_list_partial",
    "Ckube.C80_get",
    "Ckube.C41_false_name",
    "Ckube.C36_false"
   ],
   "note": "Proved end to end, from the events of the API server to the answer, for lists of the default cluster and for single objects of any cluster. False: a default cluster whose name is no label value shows other clusters too, and a server that has lost its last object while no stream was open keeps it in the cache."
  },
  {
   "property": "C81",
   "status": "partial",
   "theorems": [
    "Ckube.C81_path_partial",
    "Ckube.C81_single",
    "Ckube.C81_float",
    "Ckube.C81_integer",
    "Ckube.C81_false_number",
    "Ckube.C81_false_fraction",
    "Ckube.C81_false_empty",
    "Ckube.C81_hidden"
   ],
   "note": "Proved for expressions of text, fields, [n] and [*], with integers below one million and fractions from 0.0001 to one million; with [*] inside [*] unless an array before the last one is empty. C81_float and C81_integer: with numbers as Go reads and prints them. False for other numbers: 1000000 becomes 1e+06, 0.00001 becomes 1e-05. False for nested [*]: an empty array hides the elements of the arrays after it, in every object (C81_hidden). Not modelled: filters, unions, ranges, escapes and Go templates."
  },
  {
   "property": "C82",
   "status": "proved",
   "theorems": [
    "Ckube.C82_label",
    "Ckube.C82_unescaped"
   ],
   "note": "For labels whose keys and values consist of letters, digits and -_./ (all that Kubernetes admits). C82_unescaped: with unescaped quotes the search accepts nothing."
  },
  {
   "property": "C83",
   "status": "proved",
   "theorems": [
    "Ckube.C83_created"
   ],
   "note": "For whole seconds before the year 10000, which is what metav1.Time writes."
  },
  {
   "property": "C84",
   "status": "proved",
   "theorems": [
    "Ckube.C84_head"
   ],
   "note": "Group and version come from path segments, so they contain no slash."
  },
  {
   "property": "C85",
   "status": "proved",
   "theorems": [
    "Ckube.C85_proxy",
    "Ckube.C85_get",
    "Ckube.C85_list",
    "Ckube.C85_status",
    "Ckube.C85_health"
   ],
   "note": "For paths without subresource and objects with metadata; tables are the subject of C49. The JSON text of the body is abstract."
  },
  {
   "property": "C86",
   "status": "partial",
   "theorems": [
    "Ckube.C86_selector_partial",
    "Ckube.C86_false_sent"
   ],
   "note": "Proved under the conditions of C05 and C06 for the objects that are accepted; the pagination request is removed if the caller has a selector. False without selector: the pagination request reaches the API server (where it excludes nothing)."
  },
  {
   "property": "C87",
   "status": "partial",
   "theorems": [
    "Ckube.C87_template_partial",
    "Ckube.C87_nested_partial",
    "Ckube.C87_refused",
    "Ckube.C87_trim",
    "Ckube.C87_false_map",
    "Ckube.C87_false_missing",
    "Ckube.C87_false_default",
    "Ckube.C87_false_join"
   ],
   "note": "Proved for templates of text, fields, default, quote, join and if over strings, truth values, small integers and plain fractions, including where an error ends the value; C87_nested_partial has conditions inside conditions and else if. C87_refused: with an unknown function, a condition without end or a stray end or else the index is empty. C87_trim: trim markers remove the blanks beside them and nothing else. False: a field that the object does not have shows as <no value>, default of a number as %!s(float64=3), quote of an object is the text in which Go shows a map, and join of a missing field drops the rest. Not modelled: range, with, variables and built-in functions."
  },
  {
   "property": "C88",
   "status": "partial",
   "theorems": [
    "Ckube.C88_independent_partial",
    "Ckube.C88_nested_partial",
    "Ckube.C88_false_comment"
   ],
   "note": "Proved for every configuration whose templates are made of the pieces of C87, with nested conditions or a mistake (C88_nested_partial). False for a template that consists of a comment: it yields what the template evaluated before it yields."
  },
  {
   "property": "C89",
   "status": "partial",
   "theorems": [
    "Ckube.C89_list_partial",
    "Ckube.C89_object",
    "Ckube.C89_table",
    "Ckube.C89_false_empty"
   ],
   "note": "Proved for objects whose JSON text can be read back, which is a parameter. False for an empty list without label selector: items is null instead of an empty array."
  },
  {
   "property": "C90",
   "status": "partial",
   "theorems": [
    "Ckube.C90_status_partial",
    "Ckube.C90_false_cluster",
    "Ckube.C90_false_token"
   ],
   "note": "Proved for what the proxy refuses. False for an unknown cluster, whose reason is a sentence, and for a wrong token, whose body has no kind and the status Unauthorized. The body after a panic is a parameter."
  },
  {
   "property": "C91",
   "status": "partial",
   "theorems": [
    "Ckube.C91_watch_partial",
    "Ckube.C91_default_partial",
    "Ckube.C91_false_clusters",
    "Ckube.C91_false_marker",
    "Ckube.C91_false_search",
    "Ckube.C91_false_excluded"
   ],
   "note": "Proved for lists restricted to one cluster by Clusters (exactly the searches for which C19 holds) and for lists without cluster, for which the default cluster is listed and watched. False for several clusters (only the first is watched), for a list that names its cluster in its resource version (the list ignores it) for searches (the watch sends all objects) and for searches that exclude a cluster (that cluster is watched)."
  },
  {
   "property": "C92",
   "status": "partial",
   "theorems": [
    "Ckube.C92_informer_partial",
    "Ckube.C92_false_deleted",
    "Ckube.C92_version"
   ],
   "note": "Proved if nothing is deleted between the state of the cache and the start of the watch. False for every object deleted in between: lists carry no resource version (C92_version), so the watch starts with what exists then and the client never learns of the deletion."
  },
  {
   "property": "C93",
   "status": "partial",
   "theorems": [
    "Ckube.C93_read_partial",
    "Ckube.C93_in_force",
    "Ckube.C93_false_twice"
   ],
   "note": "Proved as an equivalence for files without repeated member names. False for repeated names, also in different case: the last token counts, and a second list of types is written over the first, member by member."
  },
  {
   "property": "C94",
   "status": "partial",
   "theorems": [
    "Ckube.C94_refused_partial",
    "Ckube.C94_false_ignored",
    "Ckube.C94_false_open"
   ],
   "note": "Proved for texts that are no JSON and values of the wrong kind. False for every misspelt member name, which is ignored; with a misspelt token every request is admitted."
  },
  {
   "property": "C95",
   "status": "partial",
   "theorems": [
    "Ckube.C95_labelled",
    "Ckube.C95_token",
    "Ckube.C95_own_partial",
    "Ckube.C95_false_forwarded"
   ],
   "note": "Every response of the proxy is labelled as JSON, also refusals and recovered panics; what ckube answers from the cache is JSON. False for every forwarded answer that is not JSON, such as logs of containers."
  },
  {
   "property": "C96",
   "status": "partial",
   "theorems": [
    "Ckube.C96_clusters_partial",
    "Ckube.C96_page_partial",
    "Ckube.C96_together",
    "Ckube.C96_any_partial",
    "Ckube.keys_unique",
    "Ckube.C96_false"
   ],
   "note": "Proved for every set of clusters that Clusters accepts and for the default cluster of requests that name none, every search that can be taken apart and put together again (C17_any, several advanced parts and equalities included), every order, by text or number, that distinguishes objects, and pages whose end is below 2^63; C80 is the case of the default cluster without pages. False for API servers that have no objects when a stream begins (C96_false). Missing: NaN under a numeric key, orders with ties (C24_false_ties)."
  },
  {
   "property": "C97",
   "status": "partial",
   "theorems": [
    "Ckube.C97_exactly",
    "Ckube.C97_streamed_partial",
    "Ckube.C97_only_partial",
    "Ckube.C97_false_follow",
    "Ckube.C97_false_value",
    "Ckube.C97_false_namespace"
   ],
   "note": "The exact condition is proved. False for followed logs, which are collected for at most a minute, for values such as watch=t, and for everything below a namespace named watch."
  },
  {
   "property": "C98",
   "status": "partial",
   "theorems": [
    "Ckube.C98_ignored",
    "Ckube.C98_complete",
    "Ckube.C98_false_bound"
   ],
   "note": "The parameters limit, timeout and timeoutSeconds change nothing and no answer asks the client to continue, so the first chunk has everything. False: it has more than n items."
  },
  {
   "property": "C99",
   "status": "partial",
   "theorems": [
    "Ckube.C99_session_partial",
    "Ckube.C99_false_watch",
    "Ckube.C99_false_events",
    "Ckube.C99_false_config"
   ],
   "note": "Proved for every sequence of calls on cached types whose names in path and body agree (C61 has the others), one after the other, with gets and with lists of clusters read page by page. False: Clean tells no watcher; events that the test or watcher is not waiting for are lost; Clean uses the configuration of the fake server that was started last."
  },
  {
   "property": "C100",
   "status": "partial",
   "theorems": [
    "Ckube.C100_writes_partial",
    "Ckube.C100_false_param",
    "Ckube.C100_false_empty",
    "Ckube.C100_false_options",
    "Ckube.C100_false_dryRun",
    "Ckube.C100_false_watch"
   ],
   "note": "Proved for the writes the client library makes. False for the parameter cluster, the marker of the empty cluster, delete options with a marker and a dry run, dry runs in general, and watches, which report the changes of all clusters."
  },
  {
   "property": "C101",
   "status": "partial",
   "theorems": [
    "Ckube.C101_log_partial",
    "Ckube.C101_false_silent",
    "Ckube.C101_false_head",
    "Ckube.C101_false_redirect",
    "Ckube.C101_false_informational"
   ],
   "note": "Proved for requests with a clean path and another method than HEAD, where the metrics and deployment handlers set at most one status. When a handler writes nothing the log says status 0. False for HEAD (bytes that are not sent are counted), paths that mux redirects (no line), informational statuses and watches that end before anything was written."
  },
  {
   "property": "C102",
   "status": "partial",
   "theorems": [
    "Ckube.C102_proxy_partial",
    "Ckube.C102_cli_partial",
    "Ckube.C102_clusters_partial",
    "Ckube.C102_refused",
    "Ckube.C102_decimal",
    "Ckube.C102_false_zeros",
    "Ckube.C102_false_words",
    "Ckube.C102_false_bool"
   ],
   "note": "Proved against a grammar of command lines and of Go's integers: exactly the command lines of the grammar are accepted, each flag has its last value, and decimal numbers are read as such. False: words that are no flags are accepted and everything after them is ignored, `-d false` switches debugging on, and numbers with zeros before them are octal. For ckubecli the texts that C70 excludes are missing."
  },
  {
   "property": "C103",
   "status": "partial",
   "theorems": [
    "Ckube.C103_serial_partial",
    "Ckube.C103_events",
    "Ckube.C103_store",
    "Ckube.fakeProxy_split",
    "Ckube.C103_false_create",
    "Ckube.C103_false_delete",
    "Ckube.C103_false_events"
   ],
   "note": "Proved for all interleavings: each write carried out is reported once, and the store has gone through exactly the changes of the writes answered with success. Proved for goroutines that do not write the object another one is about to write: the run is serial. False for writes of the same object: two creations or two deletions both succeed, and the events may come in the wrong order."
  },
  {
   "property": "C104",
   "status": "proved",
   "theorems": [
    "Ckube.C104_slice",
    "Ckube.C104_reflexive",
    "Ckube.C104_sorted",
    "Ckube.C104_refused",
    "Ckube.C104_short",
    "Ckube.C104_strings",
    "Ckube.C104_byKey",
    "Ckube.C104_byKey_unstable",
    "Ckube.C104_selector"
   ],
   "note": "The algorithm is written down from memory of Go 1.19's src/sort/zsortfunc.go; its random numbers are arbitrary. It meets the contract SliceSort, so all claims on sorted results hold for it."
  },
  {
   "property": "C105",
   "status": "partial",
   "theorems": [
    "Ckube.C105_program_partial",
    "Ckube.C105_paginate_example",
    "Ckube.C105_search_example",
    "Ckube.C105_false_fuzzy"
   ],
   "note": "Proved from the options of the program through the bytes of URL and response body to the numbers it prints, for requests ckube answers from a cache that has caught up; examples/paginate and the first list of examples/search follow. False: the search `e` of examples/search counts every namespace, because the index is_deleted (`true` or `false`) contains an `e`. Missing: label selectors with requirements ckube refuses (C05), searches with a part that starts with a semicolon or a requirement with only empty values (C17), orders that are not total, sizes whose product with the page overflows."
  },
  {
   "property": "C106",
   "status": "proved",
   "theorems": [
    "Ckube.C106_at_rest",
    "Ckube.C106_list",
    "Ckube.C106_page",
    "Ckube.C106_any",
    "Ckube.C106_get",
    "Ckube.C106_one_query",
    "Ckube.C106_one_get",
    "Ckube.C106_lag"
   ],
   "note": "The conditions of the statement are those of the theorems; C106_lag shows that they are needed. For lists also: the default cluster's name is a label value (C41), no index value is read as NaN from an empty text. Which requests are answered from the cache is C05."
  },
  {
   "property": "C107",
   "status": "partial",
   "theorems": [
    "Ckube.C107_drain",
    "Ckube.C107_reached",
    "Ckube.C107_cache_partial",
    "Ckube.C107_get_partial",
    "Ckube.C107_list_partial",
    "Ckube.C107_any_partial",
    "Ckube.C107_false"
   ],
   "note": "Proved for watchers that have not been ended by a reload. The part on the cache and on requests is proved for API servers with at least one object of the type, for watchers whose open stream has delivered something, and for watchers that have told the store nothing since their last clean up. False for an API server without objects otherwise: what was deleted while the stream was down is shown as long as the new stream stays open and empty (for up to an hour, C129). Lists: of the default cluster without search, and of any clusters (or the default cluster) with any search and total order as in C96."
  },
  {
   "property": "C108",
   "status": "partial",
   "theorems": [
    "Ckube.C108_routed",
    "Ckube.C108_kept",
    "Ckube.C108_read_partial",
    "Ckube.C108_token",
    "Ckube.C108_local",
    "Ckube.C108_subresource",
    "Ckube.C108_false_token",
    "Ckube.C108_false_cluster",
    "Ckube.C108_false_namespace",
    "Ckube.C108_false_watch"
   ],
   "note": "Proved as an equivalence: exactly the paths of lists and objects (names of letters, digits, dots, dashes, underscores) with GET and without an argument watch that contains 1 or true go to ckube, besides its own paths. False: nginx replaces the Authorization header, so ckube's token admits all clients or none; writes and watches of other clusters reach the API server of the container's cluster; the status of a namespace is asked of ckube; watch=t is no watch for nginx."
  },
  {
   "property": "C109",
   "status": "partial",
   "theorems": [
    "Ckube.C109_get",
    "Ckube.C109_at_rest",
    "Ckube.C109_served",
    "Ckube.C109_settled_partial",
    "Ckube.C109_gap",
    "Ckube.C109_false"
   ],
   "note": "Proved: the served store belongs to the configuration in force and has running watchers; answers are those of the API servers as far as the watchers of the generation have received everything; after a reload this is reached in a bounded number of steps (with the exception of C107). False: until the new watcher has received its first event every object of the type is answered 404, also after a reload of an unchanged file."
  },
  {
   "property": "C110",
   "status": "partial",
   "theorems": [
    "Ckube.C110_filled_partial",
    "Ckube.C110_ampersand_false",
    "Ckube.C110_slash_false",
    "Ckube.C110_ipv6_false",
    "Ckube.C110_args",
    "Ckube.C110_args_false"
   ],
   "note": "Proved for tokens without / & \\ \" $ and inner newlines that do not contain the other placeholder, and for hosts that are names or IPv4 addresses. False for an ampersand (another token is sent), a slash (sed gets another script) and an IPv6 address (nginx rejects the upstream). The arguments are passed on exactly if none is empty or has white space. sed, the shell and nginx's reader are modelled from their documentation; backslashes and file name patterns are not."
  },
  {
   "property": "C111",
   "status": "partial",
   "theorems": [
    "Ckube.C111_started_partial",
    "Ckube.C111_own",
    "Ckube.C111_kept",
    "Ckube.C111_stopped",
    "Ckube.C111_again",
    "Ckube.C111_false",
    "Ckube.C111_leak_false",
    "Ckube.C111_form_false",
    "Ckube.C111_conf_false"
   ],
   "note": "Proved for addresses host:port whose host hears the loopback interface and whose port is free; C111_own says exactly when it holds. False when the port is taken (the clients reach the other server), for other interfaces and IPv6 (an error, and the socket stays open), for port 0, without a colon (panic), and for the configuration, which all servers of a process share."
  },
  {
   "property": "C112",
   "status": "partial",
   "theorems": [
    "Ckube.C112_few_partial",
    "Ckube.C112_object_partial",
    "Ckube.C112_integer",
    "Ckube.C112_number",
    "Ckube.C112_again",
    "Ckube.C112_close",
    "Ckube.C112_null",
    "Ckube.C112_false",
    "Ckube.C112_false_null",
    "Ckube.C112_false_object"
   ],
   "note": "Proved for numbers of up to 15 digits between 10^-307 and 10^308, and for integers up to 2^53, whose text is kept as well; every number keeps its value up to 2^-51 of it, and a second pass changes nothing. False for 2^53+1, and for numbers of at least 2^1024 - 2^970, which become null. strconv and the notation of encoding/json are modelled from their source; the bound of four digits that strconv puts on exponents is not."
  },
  {
   "property": "C113",
   "status": "partial",
   "theorems": [
    "Ckube.C113_read",
    "Ckube.C113_unique",
    "Ckube.C113_accepted",
    "Ckube.C113_config_partial",
    "Ckube.C113_config_refused",
    "Ckube.C113_page_partial",
    "Ckube.C113_page_none",
    "Ckube.C113_example",
    "Ckube.C113_false_utf8",
    "Ckube.C113_false_twice"
   ],
   "note": "Proved: every JSON text (RFC 8259, characters and UTF-8 as Lean defines them) is read as its value, and the texts accepted are exactly those with the structure of JSON, whatever bytes and escapes stand between quotes. False: texts that are not UTF-8 are accepted, and of repeated member names the last one of the right kind counts. Not modelled: the limit of 10000 on the nesting."
  },
  {
   "property": "C114",
   "status": "partial",
   "theorems": [
    "Ckube.C114_accepted",
    "Ckube.C114_nearest",
    "Ckube.C114_special",
    "Ckube.C114_unique",
    "Ckube.C114_same",
    "Ckube.C114_order",
    "Ckube.C114_few",
    "Ckube.C114_small",
    "Ckube.C114_sorted_partial",
    "Ckube.C114_false_long",
    "Ckube.C114_false_large"
   ],
   "note": "Proved: the accepted texts are exactly numerals below 2^1024 - 2^970, infinities and NaN; each is read as the nearest float64 (ties to even), so the order never contradicts the values. Results come in the order of the values if they are whole numbers up to 2^53 or have at most 15 digits. False for 2^53 and 2^53+1, which are the same float64, and for 1e400, which makes the query fail. strconv.ParseFloat is modelled from its documentation and source; the bound of four digits it puts on exponents is not."
  },
  {
   "property": "C115",
   "status": "partial",
   "theorems": [
    "Ckube.C115_servers_partial",
    "Ckube.C115_repeated",
    "Ckube.C115_clusters",
    "Ckube.C115_false_dangling",
    "Ckube.C115_false_local",
    "Ckube.C115_false_unnamed",
    "Ckube.C115_false_nowhere"
   ],
   "note": "Proved for contexts with a name whose cluster has an address in the kube config; in a pod the address must not be http://localhost:8080. False for a context whose cluster is missing: in a pod the pod's own cluster appears under its name, elsewhere whatever listens at http://localhost:8080. client-go is modelled from memory of its source."
  },
  {
   "property": "C116",
   "status": "partial",
   "theorems": [
    "Ckube.C116_config",
    "Ckube.C116_rewrite",
    "Ckube.C116_kube_partial",
    "Ckube.C116_panics",
    "Ckube.C116_false_panic",
    "Ckube.C116_false_empty",
    "Ckube.C116_false_mixed",
    "Ckube.C116_false_other"
   ],
   "note": "Proved for the configuration file, and for a kube config that does not change while it is read. False for the kube config: a reload that sees it empty removes all clusters, and one during which it is emptied panics (C116_panics says exactly when); when it is replaced in between, watcher and client of a cluster have different API servers; when it is gone for a moment, the clusters of another kube config are taken for those of this one."
  },
  {
   "property": "C117",
   "status": "partial",
   "theorems": [
    "Ckube.C117_snapshots",
    "Ckube.C117_requests",
    "Ckube.C117_false_missing",
    "Ckube.C117_false_back"
   ],
   "note": "Proved for a type with one watcher for each cluster, for what is answered: it is part of one past state of the cluster, and later answers are of later states. False for what is not answered: after a stream is reopened objects are missing that exist all the time. False for a type that is listed twice: answers go back in time."
  },
  {
   "property": "C118",
   "status": "partial",
   "theorems": [
    "Ckube.C118_options_partial",
    "Ckube.C118_false_lost",
    "Ckube.C118_false_unknown",
    "Ckube.C118_false_type"
   ],
   "note": "Proved for options that name a cluster and whose members have the right types: what the API server reads is what the client wrote, without the cluster. False for options that name no cluster (nothing of them is forwarded), for members that ckube does not know (they are dropped) and for a grace period that is no integer, which becomes 0, that is, removal at once. Simplification: a dryRun member that occurs twice."
  },
  {
   "property": "C119",
   "status": "proved",
   "theorems": [
    "Ckube.C119_values",
    "Ckube.C119_spelling",
    "Ckube.C119_ignored"
   ],
   "note": "The meaning of a query text is a relation of its own (Spec/QueryText.lean); C119_values gives its existence and uniqueness and ties the model's parser to it, which the claims about cluster markers, label selectors and watches use. net/url is modelled after its documentation (Go 1.19)."
  },
  {
   "property": "C120",
   "status": "partial",
   "theorems": [
    "Ckube.C120_read",
    "Ckube.C120_only_partial",
    "Ckube.C120_listed_partial",
    "Ckube.C120_search_partial",
    "Ckube.C120_refused",
    "Ckube.C120_false_nul",
    "Ckube.C120_false_list"
   ],
   "note": "The grammar and the meaning of its texts are relations of their own (Spec/SelectorGrammar.lean). Proved: every text of the grammar is accepted and read as its requirements, in the order of the keys, and every accepted text without a NUL byte is in the grammar. Of several equalities on one label the last one counts (C06); > and < are refused later (C16). False for texts with a NUL byte, the rest of which is ignored; lists in parentheses that end with two empty values are refused, those with one or three are not. The parser of k8s.io/apimachinery is modelled from memory of its source; that requirements with the same key keep their order holds for up to twelve requirements (C104)."
  },
  {
   "property": "C121",
   "status": "partial",
   "theorems": [
    "Ckube.C121_known",
    "Ckube.C121_panics",
    "Ckube.C121_cached_partial",
    "Ckube.C121_never",
    "Ckube.C121_letters",
    "Ckube.C121_typed",
    "Ckube.C121_false_version",
    "Ckube.C121_false_kind",
    "Ckube.C121_false_typed"
   ],
   "note": "Proved exactly: which kinds are known after any goroutines have started, and when the registration panics. Objects of known kinds are cached as the stream delivers them (C35). False: a kind that ends with one of the letters L, i, s, t and is not one of client-go's (Test, for example) is known under no configuration, and nothing of its type is ever cached; a type that is configured without a version ends the process, also at a reload (compare C53); objects of client-go's own kinds lose apiVersion and kind, so that a single object that is read does not say what it is. The scheme and the decoder of watch streams are modelled from memory of apimachinery 0.21; which kinds client-go knows is a parameter."
  },
  {
   "property": "C122",
   "status": "partial",
   "theorems": [
    "Ckube.C122_lock_partial",
    "Ckube.C122_known_partial",
    "Ckube.C122_reload_partial",
    "Ckube.C122_false_decode",
    "Ckube.C122_false_reload"
   ],
   "note": "Proved: goroutines of one watcher register one after the other, and when all kinds are known (those of client-go, or after a settled start with the same types) nobody writes any more. False: with two types of unknown kinds one goroutine decodes while the other one registers, and each watcher has a lock of its own."
  },
  {
   "property": "C123",
   "status": "partial",
   "theorems": [
    "Ckube.C123_exact",
    "Ckube.C123_next_partial",
    "Ckube.C123_bound_partial",
    "Ckube.C123_stays",
    "Ckube.C123_lines",
    "Ckube.C123_false"
   ],
   "note": "Exactly when a proxied watch is over, in every interleaving of any number of watches with their clients, their streams and the clock. The claim is false for quiet streams: the handler looks for the loss of its client only after a byte was read, so any number of abandoned watches stay open for half an hour (C123_false); what holds is that the next byte or the half hour ends them."
  },
  {
   "property": "C124",
   "status": "partial",
   "theorems": [
    "Ckube.C124_converges_partial",
    "Ckube.C124_drains",
    "Ckube.C124_false"
   ],
   "note": "For any number of watchers of the same type the cache has exactly the server's objects when all of them are connected and have received everything. The claim is false otherwise: one watcher that is behind and loses its connection brings a deleted object back, which the connected one does not correct (C124_false)."
  },
  {
   "property": "C125",
   "status": "partial",
   "theorems": [
    "Ckube.C125_asks_partial",
    "Ckube.C125_served",
    "Ckube.C125_false_base_path",
    "Ckube.C125_false_name"
   ],
   "note": "Holds for servers whose address has no path and names without URL syntax. False for a server address with a path, which RequestURI replaces (C125_false_base_path), and for names with a question mark (C125_false_name)."
  },
  {
   "property": "C126",
   "status": "partial",
   "theorems": [
    "Ckube.C126_read_partial",
    "Ckube.C126_listed_partial",
    "Ckube.C126_program_partial",
    "Ckube.C126_false_end",
    "Ckube.C126_false_cluster"
   ],
   "note": "A grammar of search texts (conditions, semicolons, white space of Unicode) and the meaning of its conditions, proved for every text of the grammar and every index map of printable values, for the answers of the cache and for what a program that lists the default cluster through ckube learns. Not covered: index values that strconv.Quote does not leave as they are, sought texts with a quote or with ! first, several equalities for one index. False: a semicolon at the end becomes part of the last value; a selector after a blank, as in the example of the documentation, does not select the clusters of a request."
  },
  {
   "property": "C127",
   "status": "partial",
   "theorems": [
    "Ckube.C127_answered_partial",
    "Ckube.C127_program_partial",
    "Ckube.C127_settled_partial",
    "Ckube.C127_false_default"
   ],
   "note": "The grammars of search and sort texts together with paging: without error, the requested page of exactly the objects that satisfy the conditions, in the order of the keys, with whole numbers up to 2^53 compared by their value (strconv.ParseFloat as modelled); also for what a program learns that lists several clusters, or the default cluster, through ckube with such texts (label selectors in the search included), and for requests to a running system whose API servers have come to rest. False: without a sort text the order is by cluster, namespace and name, not by uid and name as documented."
  },
  {
   "property": "C128",
   "status": "partial",
   "theorems": [
    "Ckube.C128_pace",
    "Ckube.C128_hour",
    "Ckube.C128_again",
    "Ckube.C128_stop_partial",
    "Ckube.C128_opening",
    "Ckube.C128_false_stop"
   ],
   "note": "The loop of the watcher with its clock: pauses, the hour of the context, where it looks at the stop channel. Proved for every run: attempts are three seconds apart, a stream ends within its hour, a new attempt follows within fifteen seconds, a stopped watcher that is not opening a stream has returned within fifteen seconds and writes nothing later. False for a watcher that is opening a stream (up to an hour, and it may then clear the store). Store calls and scheduling are taken to need no time."
  },
  {
   "property": "C129",
   "status": "partial",
   "theorems": [
    "Ckube.C129_untimed",
    "Ckube.C129_gone_partial",
    "Ckube.C129_false"
   ],
   "note": "An API server with a watcher and the clock, proved to refine the system without clock of C36. Proved if no attempt to open a stream fails and the watcher is not stopped; with failing attempts there is no bound, which is what C37 asks for. False for any shorter time: the bound of two hours and three seconds is reached."
  },
  {
   "property": "C130",
   "status": "partial",
   "theorems": [
    "Ckube.C130_arrives_partial",
    "Ckube.C130_request",
    "Ckube.C130_written",
    "Ckube.C130_segments",
    "Ckube.C130_false_slash",
    "Ckube.C130_false_hash"
   ],
   "note": "The way of a request target through net/url (ParseRequestURI, String, Parse, EscapedPath) and client-go: for every escaping the decoded path arrives, and the segments arrive exactly when none of them says a slash. False for escaped slashes, which arrive as separators, and for queries with a bare # and an unreadable selector, which are cut there or make the request fail."
  },
  {
   "property": "C131",
   "status": "partial",
   "theorems": [
    "Ckube.C131_exact",
    "Ckube.C131_prompt_partial",
    "Ckube.C131_steady",
    "Ckube.C131_recovers",
    "Ckube.C131_apart",
    "Ckube.C131_rate",
    "Ckube.C131_order",
    "Ckube.C131_false",
    "Ckube.C131_false_late",
    "Ckube.C131_false_refused",
    "Ckube.C131_false_watches"
   ],
   "note": "Exactly how long every forwarded request waits: the shortest time that keeps 100 requests at a time and 5 more per second to its cluster, the limit of client-go's discovery client, which ckube forwards with; requests that would wait longer than their context are refused. False beyond this limit; requests of other clusters, requests 200 ms apart and requests after a pause are sent at once."
  },
  {
   "property": "C132",
   "status": "partial",
   "theorems": [
    "Ckube.C132_listed_partial",
    "Ckube.C132_false_twice"
   ],
   "note": "From the bytes of the configuration file through any number of reloads, the watchers of the generation that is served and the store to the answer of a list request: the values searched and sorted by are those of the expressions of the last entry for the type. Missing: what C127 leaves open for the texts of the request. False for a type that the file names twice: the indexes of the first entry are lost, and a request that sorts by one of them is refused."
  },
  {
   "property": "C133",
   "status": "partial",
   "theorems": [
    "Ckube.C133_answered_partial",
    "Ckube.C133_few",
    "Ckube.C133_once",
    "Ckube.C133_bounded",
    "Ckube.C133_body",
    "Ckube.C133_false_body",
    "Ckube.C133_false_minute"
   ],
   "note": "The retry loop of client-go, which ckube forwards with, for every behaviour of API server, connection and limiter: requests without a body get the first answer that does not put them off, or the eleventh, with the pauses the answers ask for; no write is repeated after a lost connection. False for requests with a body, whose body cannot be read a second time: the client gets a 500. False for the limit of a minute: the pause does not look at the context, so an answer that asks for an hour keeps the client waiting for an hour and then for a 500."
  }
 ]
}

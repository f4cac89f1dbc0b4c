{"id": "C01", "title": "Chunked pagination payload is reassembled exactly", "statement": "When the client library splits an encoded pagination payload into several label values, the server, receiving those values in any order, reassembles exactly the payload that was split.", "quantifier": "every payload string without '.', of any length, and every order in which the values arrive", "why_tests_cant": "Tests use payloads of a handful of bytes and one order; the offset prefix is only four digits wide, so the failure appears past ten thousand bytes.", "anchors": ["kube/label.go:SplittingValue", "kube/label.go:MergeValues"]}
{"id": "C02", "title": "Every payload chunk is a legal label value", "statement": "Every value produced by splitting an alphanumeric payload is a label value Kubernetes accepts (at most 63 bytes, legal first/last/inner characters), so the selector carrying it is not rejected.", "quantifier": "every alphanumeric payload below one million bytes", "why_tests_cant": "The length of each chunk depends on the width of its offset, which grows with the payload.", "anchors": ["kube/label.go:SplittingValue", "page/page.go:QueryListOptions"]}
{"id": "C03", "title": "Unpadded base64 is lossless", "statement": "Decoding the unpadded base64 form of any byte string gives the same byte string back, and a character outside the alphabet is reported as an error.", "quantifier": "every byte string", "why_tests_cant": "Infinite domain with three residue classes of length.", "anchors": ["page/page.go:QueryListOptions", "api/proxy.go:parsePaginateAndLabelsAndClean"]}
{"id": "C04", "title": "A pagination request survives its JSON form", "statement": "Encoding page, page size, total, sort and search as JSON and decoding it yields the same five fields, for all valid UTF-8 text.", "quantifier": "every Paginate value whose strings are valid UTF-8, including quotes, control characters, HTML characters and U+2028", "why_tests_cant": "Escaping has many character classes and their combinations are unbounded.", "anchors": ["page/page.go:Paginate", "page/page.go:QueryListOptions", "api/proxy.go:parsePaginateAndLabelsAndClean"]}
{"id": "C05", "title": "List options deliver the pagination to the server unchanged", "statement": "If QueryListOptions returns without error, the server parsing the resulting label selector obtains exactly the page, page size, sort and search the client asked for.", "quantifier": "every Paginate value and every caller label selector", "why_tests_cant": "Composes JSON, base64, chunking, selector formatting, selector parsing and merging; tests cover six literal cases.", "anchors": ["page/page.go:QueryListOptions", "api/proxy.go:parsePaginateAndLabelsAndClean", "kube/label.go"]}
{"id": "C06", "title": "List options keep the caller's own label selector", "statement": "The label selector that the server applies after removing the pagination key accepts exactly the objects that the caller's original selector accepted.", "quantifier": "every selector, every Paginate value, every label set", "why_tests_cant": "Quantifies over all selectors and all label sets at once.", "anchors": ["page/page.go:QueryListOptions", "kube/label.go:ParseToLabelSelector", "api/proxy.go:parsePaginateAndLabelsAndClean"]}
{"id": "C07", "title": "Any well-formed pagination request can be sent", "statement": "QueryListOptions accepts every pagination request with valid UTF-8 text and a valid selector.", "quantifier": "every Paginate value", "why_tests_cant": "The failing inputs depend on the bit alignment of single characters inside a base64 group.", "anchors": ["page/page.go:QueryListOptions"]}
{"id": "C08", "title": "Label selectors survive formatting and parsing", "statement": "Formatting a selector as text and parsing the text yields a selector that accepts exactly the same label sets.", "quantifier": "every selector built from valid keys and values, and every label set", "why_tests_cant": "The grammar is recursive and has keyword, empty-value and ordering corner cases.", "anchors": ["kube/label.go:ParseToLabelSelector", "page/page.go:SetSearchSelector"]}
{"id": "C09", "title": "Search parts survive joining and splitting", "statement": "Setting the search from a list of parts and splitting it again yields the same parts.", "quantifier": "every list of non-empty parts over all byte strings", "why_tests_cant": "Escaping of ';' interacts with neighbouring parts; the set of part lists is infinite.", "anchors": ["page/page.go:SearchParts", "page/page.go:SetSearchWithParts"]}
{"id": "C10", "title": "Several search parts are a conjunction", "statement": "An object matches a search made of several parts exactly when it matches each part, and the search is rejected as erroneous when one of the parts is erroneous.", "quantifier": "every list of parts and every index map", "why_tests_cant": "Lists of any length and every order.", "anchors": ["page/page.go:Match"]}
{"id": "C11", "title": "key=value search", "statement": "A part key=value matches exactly the objects whose index under key contains value in its quoted form, and is rejected when the object has no such index key.", "quantifier": "every key, value and index map", "why_tests_cant": "Infinite domain.", "anchors": ["page/page.go:Match"]}
{"id": "C12", "title": "Fuzzy search", "statement": "A part without '=' matches exactly the objects for which some index value contains the text; the verdict does not depend on the map iteration order.", "quantifier": "every text, every index map and every iteration order of the map", "why_tests_cant": "Go's map iteration order is random; a test sees one order per run.", "anchors": ["page/page.go:Match"]}
{"id": "C13", "title": "'!' negates a search", "statement": "key=!value matches exactly the objects key=value does not match, and !text matches exactly the objects text does not match.", "quantifier": "every key, value, text and index map", "why_tests_cant": "Infinite domain.", "anchors": ["page/page.go:Match", "page/page.go:parseValue"]}
{"id": "C14", "title": "Quoted values match exactly", "statement": "key=\"value\" matches exactly the objects whose index under key equals value.", "quantifier": "every printable value and every index value", "why_tests_cant": "The two sides are unbounded strings; the failing index values contain quotes.", "anchors": ["page/page.go:Match"]}
{"id": "C15", "title": "Unquoted values match substrings", "statement": "key=value matches exactly the objects whose index under key contains value as a substring.", "quantifier": "every value and every index value", "why_tests_cant": "Infinite domain; depends on quoting of every byte.", "anchors": ["page/page.go:Match"]}
{"id": "C16", "title": "Advanced search has label-selector semantics", "statement": "An advanced search part matches exactly the objects whose index map satisfies every requirement written in the selector.", "quantifier": "every selector text and every index map", "why_tests_cant": "All selectors and all index maps.", "anchors": ["page/page.go:Match", "kube/label.go:ParseToLabelSelector"]}
{"id": "C17", "title": "Restricting a search to clusters", "statement": "After Clusters(cs) succeeds, an object matches exactly when its cluster is one of cs and it satisfied every other constraint of the search.", "quantifier": "every search text, every list of clusters, every index map", "why_tests_cant": "Search text is unbounded and may contain several advanced parts.", "anchors": ["page/page.go:Clusters", "page/page.go:SearchSelector", "page/page.go:SetSearchSelector"]}
{"id": "C18", "title": "Restricting a search to namespaces", "statement": "After Namespaces(ns) succeeds, an object matches exactly when its namespace is one of ns and it satisfied every other constraint of the search.", "quantifier": "every search text, every list of namespaces, every index map", "why_tests_cant": "As for clusters.", "anchors": ["page/page.go:Namespaces"]}
{"id": "C19", "title": "The cluster list is read back", "statement": "After Clusters(cs) succeeds GetClusters returns exactly the clusters of cs, in sorted order and without repetition.", "quantifier": "every list of clusters, every search", "why_tests_cant": "Lists of any length; the round trip goes through text.", "anchors": ["page/page.go:Clusters", "page/page.go:GetClusters"]}
{"id": "C20", "title": "The cache behaves like a map", "statement": "After any sequence of add, modify, delete and clean notifications, Get(resource type, cluster, namespace, name) returns the object of the latest add or modify for that identity unless a later delete or clean removed it, and nothing otherwise.", "quantifier": "every history of notifications over every identity", "why_tests_cant": "Histories are unbounded.", "anchors": ["store/memory/memory.go:OnResourceAdded", "store/memory/memory.go:OnResourceModified", "store/memory/memory.go:OnResourceDeleted", "store/memory/memory.go:Get", "store/memory/memory.go:Clean"]}
{"id": "C21", "title": "Notifications are isolated", "statement": "A notification for one identity never changes what Get or Query returns for any other resource type, cluster, namespace or name.", "quantifier": "every state reachable by any history, every pair of distinct identities", "why_tests_cant": "Every pair of identities in every state.", "anchors": ["store/memory/memory.go"]}
{"id": "C22", "title": "Clean empties one resource type of one cluster", "statement": "Clean(resource type, cluster) removes every object of that resource type in that cluster, in every namespace, and nothing else; it reports an error exactly when the cluster has never been seen for the type.", "quantifier": "every reachable state", "why_tests_cant": "Every history.", "anchors": ["store/memory/memory.go:Clean"]}
{"id": "C23", "title": "A query returns exactly the matching objects", "statement": "An unpaged query returns every cached object of the resource type whose namespace is the requested one (or any, when none is requested) and which matches the search, each once, and nothing else; Total is their number.", "quantifier": "every reachable state, every search, every map iteration order", "why_tests_cant": "Every history and every iteration order.", "anchors": ["store/memory/memory.go:Query"]}
{"id": "C24", "title": "Pages partition the result", "statement": "For a fixed page size and an unchanged cache, pages 1,2,3,... concatenated are exactly the whole sorted result; no object is repeated or skipped, each page has at most the page size, and Total is the same on every page.", "quantifier": "every state, search, page size and map iteration order of every single request", "why_tests_cant": "Each request iterates the maps in a fresh random order; tests cannot enumerate orders.", "anchors": ["store/memory/memory.go:Query", "store/memory/memory.go:sortObjs"]}
{"id": "C25", "title": "Results are sorted as requested", "statement": "The objects of a query are ordered lexicographically by the requested keys, each ascending or descending and compared as text or as number, as the sort expression says.", "quantifier": "every sort expression, every list of objects, any length", "why_tests_cant": "Lists of any length, any key combination.", "anchors": ["store/memory/memory.go:sortObjs"]}
{"id": "C26", "title": "The default order is total and reproducible", "statement": "With no sort expression, two queries over the same cache contents return the objects in the same order (by cluster, namespace, name), whatever the internal map order.", "quantifier": "every reachable state and every pair of map iteration orders", "why_tests_cant": "Iteration order is random.", "anchors": ["store/memory/memory.go:sortObjs", "store/memory/memory.go:buildResourceWithIndex"]}
{"id": "C27", "title": "A sort expression is honoured or rejected", "statement": "A query with a sort expression either returns its objects in the order the expression asks for or reports an error; it never silently ignores the expression.", "quantifier": "every sort expression", "why_tests_cant": "The set of malformed expressions is infinite.", "anchors": ["store/memory/memory.go:sortObjs"]}
{"id": "C28", "title": "Page parameters never crash a query", "statement": "For every page and page size a query returns an answer: page 0 or page size 0 mean no paging, a page past the end is empty.", "quantifier": "all 64-bit page and page size values, every state", "why_tests_cant": "Arithmetic wraps at 64 bits; 2^128 combinations.", "anchors": ["store/memory/memory.go:Query", "PAGINATE_SPEC.md"]}
{"id": "C29", "title": "Cached objects carry their cluster", "statement": "Every object that Get or Query returns is annotated with the cluster it was received from, and the index annotation records its index values.", "quantifier": "every history, every object", "why_tests_cant": "Every object of every history.", "anchors": ["store/memory/memory.go:buildResourceWithIndex", "page/page.go:GetObjectCluster"]}
{"id": "C30", "title": "All objects of a type share their index keys", "statement": "All cached objects of one resource type have the same set of index keys, so an unknown search or sort key is rejected whatever objects are cached.", "quantifier": "every history of API objects", "why_tests_cant": "Sort keys are checked against the first object only, whose identity depends on the random map order.", "anchors": ["store/memory/memory.go:buildResourceWithIndex", "store/memory/memory.go:sortObjs"]}
{"id": "C31", "title": "Cache operations on configured types do not crash", "statement": "No add, modify, delete, clean, get or (validly paged) query on a configured resource type panics, in any state.", "quantifier": "every history of operations", "why_tests_cant": "Nil pointers appear only in particular states.", "anchors": ["store/memory/memory.go"]}
{"id": "C32", "title": "Concurrent notifications and reads are linearizable", "statement": "Under every interleaving of concurrent adds, modifies, deletes and gets, the answers are those of some sequential order of the operations that respects real time.", "quantifier": "every number of threads, every interleaving of lock-protected steps", "why_tests_cant": "Schedules cannot be enumerated.", "anchors": ["store/memory/memory.go:syncResourceStore"]}
{"id": "C33", "title": "A concurrent query sees stable objects", "statement": "An object that matches and stays unchanged in the cache during a query is returned by it, and every returned object was in the cache at some moment during the query.", "quantifier": "every interleaving of one query with any number of notifications", "why_tests_cant": "Schedules cannot be enumerated.", "anchors": ["store/memory/memory.go:Query", "store/memory/memory.go:ForEach"]}
{"id": "C34", "title": "Cache locking never deadlocks", "statement": "Under every schedule of concurrent notifications, gets, cleans and queries, some unfinished operation can always make progress.", "quantifier": "every number of threads and every schedule", "why_tests_cant": "Deadlocks show up on rare schedules.", "anchors": ["store/memory/memory.go:syncResourceStore"]}
{"id": "C35", "title": "The cache equals the replay of the current watch stream", "statement": "Once a watch stream has delivered something, the cached objects of that type and cluster are exactly the result of applying the events of this stream, in order, to an empty cache; nothing survives from earlier streams.", "quantifier": "every sequence of streams, failures, events and closures", "why_tests_cant": "Every history of reconnects.", "anchors": ["watcher/watcher.go:watchResources"]}
{"id": "C36", "title": "The cache converges to the API server", "statement": "When every event of an open watch stream has been consumed, the cache holds exactly the objects the API server holds.", "quantifier": "every interleaving of server changes, deliveries, disconnects and reconnects", "why_tests_cant": "Unbounded interleavings.", "anchors": ["watcher/watcher.go:watchResources"]}
{"id": "C37", "title": "The cache survives connection failures", "statement": "While the API server cannot be reached, the cached objects stay as they were.", "quantifier": "every history, any number of failed attempts and closed streams", "why_tests_cant": "Every history.", "anchors": ["watcher/watcher.go:watchResources"]}
{"id": "C38", "title": "Watched kinds are derived from the list kind", "statement": "The kind registered for decoding watched objects is the configured list kind without its List suffix.", "quantifier": "every list kind", "why_tests_cant": "Every kind name.", "anchors": ["watcher/watcher.go:watchResources"]}
{"id": "C39", "title": "Cache or forward", "statement": "A request is answered from the cache exactly when it is a GET for a configured resource type whose label selector parses and whose remaining query parameters are only labelSelector, timeoutSeconds, timeout and limit; every other request goes to the API server of the selected cluster.", "quantifier": "every request and every configuration", "why_tests_cant": "Combinations of method, path, query and configuration.", "anchors": ["api/proxy.go:Proxy"]}
{"id": "C40", "title": "Writes and watches always reach the API server", "statement": "No create, update, patch, delete or watch request is ever answered from the cache.", "quantifier": "every request", "why_tests_cant": "Every combination of parameters.", "anchors": ["api/proxy.go:Proxy", "api/proxy.go:isWatchRequest"]}
{"id": "C41", "title": "Lists default to the default cluster", "statement": "A list request answered from the cache that names no cluster returns only objects of the default cluster.", "quantifier": "every search, every cache state, every default cluster name", "why_tests_cant": "Default cluster names come from kubeconfig contexts and may contain any character.", "anchors": ["api/proxy.go:Proxy", "page/page.go:Clusters"]}
{"id": "C42", "title": "Label selector listing", "statement": "A list with a label selector returns exactly the page of those matching objects whose labels satisfy the selector, in sorted order.", "quantifier": "every state, selector and page", "why_tests_cant": "All states, selectors and pages.", "anchors": ["api/proxy.go:Proxy"]}
{"id": "C43", "title": "The client can reconstruct the total", "statement": "The total that MakeupResPaginate computes from a list response and the page that was asked is the number of matching objects.", "quantifier": "every total, page and page size", "why_tests_cant": "All page/size/total combinations.", "anchors": ["api/proxy.go:Proxy", "page/page.go:MakeupResPaginate"]}
{"id": "C44", "title": "Pages past the end are refused", "statement": "A list request is refused as out of page exactly when its page is not the first and starts at or past the end of the result.", "quantifier": "every total, page and page size", "why_tests_cant": "All combinations.", "anchors": ["api/proxy.go:Proxy"]}
{"id": "C45", "title": "Single object reads", "statement": "A GET of one object of a configured type answers the cached object of the selected cluster, namespace and name, or 404 when there is none.", "quantifier": "every request and state", "why_tests_cant": "All states.", "anchors": ["api/proxy.go:ProxySingleResources"]}
{"id": "C46", "title": "Cluster selection", "statement": "The cluster that serves a request is the one named by the request, otherwise the first cluster of the search, otherwise the default cluster; the outcome is a function of the request.", "quantifier": "every request, every iteration order of its query parameters", "why_tests_cant": "Query parameters are visited in random map order.", "anchors": ["api/proxy.go:parsePaginateAndLabelsAndClean", "api/proxy.go:proxyPass"]}
{"id": "C47", "title": "Cluster markers do not reach the API server", "statement": "A cluster marker placed by the client library in fieldManager, resourceVersion or dryRun is removed before the request is forwarded.", "quantifier": "every request", "why_tests_cant": "All requests.", "anchors": ["api/proxy.go:parsePaginateAndLabelsAndClean"]}
{"id": "C48", "title": "Client cluster options are understood by the server", "statement": "A cluster wrapped by QueryGetOptions, QueryCreateOptions, QueryUpdateOptions, QueryPatchOptions or QueryDeleteOptions is the cluster the server selects; options already in use are refused and left unchanged.", "quantifier": "every cluster name and every options value", "why_tests_cant": "All names.", "anchors": ["page/page.go:QueryGetOptions", "page/page.go:QueryDeleteOptions", "api/proxy.go:parsePaginateAndLabelsAndClean"]}
{"id": "C49", "title": "Table output", "statement": "In table output each row has one cell per column and the cell under a column is that object's index value of that name.", "quantifier": "every list of cached objects of one type", "why_tests_cant": "Lists of any length, any index configuration, random map order.", "anchors": ["api/proxy.go:serverPrint"]}
{"id": "C50", "title": "Token protection", "statement": "With a token configured, every route except health and metrics answers 401 without running its handler unless the Authorization header contains the token.", "quantifier": "every request and token", "why_tests_cant": "All requests.", "anchors": ["server/server.go:registerRoutes", "server/route.go"]}
{"id": "C51", "title": "Handler failures are contained", "statement": "A handler that panics or returns an error yields a 500 response; the server goes on serving.", "quantifier": "every handler outcome", "why_tests_cant": "All outcomes.", "anchors": ["server/server.go:registerRoutes"]}
{"id": "C52", "title": "Routing identifies the object", "statement": "Every Kubernetes resource path reaches the handler with the group, version, resource type, namespace and name it denotes, and subresource paths are never taken for cached resources.", "quantifier": "every path and method", "why_tests_cant": "Infinitely many paths; first match depends on the order of the route table.", "anchors": ["server/route.go:routeHandles"]}
{"id": "C53", "title": "A failed reload changes nothing", "statement": "When reloading the configuration fails, configuration, cache, clients and watchers keep serving as before.", "quantifier": "every state and every failure point of the load", "why_tests_cant": "All failure points.", "anchors": ["cmd/cacheproxy/main.go:loadFromConfig", "cmd/cacheproxy/main.go:main"]}
{"id": "C54", "title": "Exactly one watcher set is alive", "statement": "After any sequence of reload events exactly one watcher is running, every replaced watcher has been stopped exactly once, and the served store is the one that watcher fills.", "quantifier": "every sequence of reload outcomes", "why_tests_cant": "Unbounded sequences.", "anchors": ["cmd/cacheproxy/main.go:main", "watcher/watcher.go:Stop"]}
{"id": "C55", "title": "Requests see one configuration generation", "statement": "A request handled during a reload uses the configuration, store and clients of a single generation.", "quantifier": "every interleaving of a request with a reload", "why_tests_cant": "Schedules cannot be enumerated.", "anchors": ["cmd/cacheproxy/main.go:main", "server/server.go:ResetStore", "common/config.go:InitConfig"]}
{"id": "C56", "title": "Services of a deployment", "statement": "The deployment-to-services endpoint returns exactly the services of the cluster and namespace whose selector is satisfied by the labels of the deployment's pods.", "quantifier": "every cache state and every deployment name", "why_tests_cant": "All states.", "anchors": ["api/extend/deploy2service.go:Deploy2Service"]}
{"id": "C57", "title": "Subset test", "statement": "IsSubsetOf(sub,parent) is true exactly when every entry of sub is an entry of parent, for every iteration order.", "quantifier": "every pair of maps", "why_tests_cant": "All maps.", "anchors": ["utils/subset.go:IsSubsetOf"]}
{"id": "C58", "title": "Deployment name of a pod", "statement": "For a pod owned by a ReplicaSet named <deployment>-<hash>, the deployment name found is <deployment>; for other pods it is empty.", "quantifier": "every deployment name, every hash without '-'", "why_tests_cant": "All names.", "anchors": ["api/extend/deploy2service.go:getDeploymentName"]}
{"id": "C59", "title": "Watch streams are passed through unchanged", "statement": "The bytes the client receives from a proxied watch are exactly the bytes the API server sent, in order and cut only at line ends until the stream ends.", "quantifier": "every byte stream and every chunking by the reader", "why_tests_cant": "All streams.", "anchors": ["api/proxy.go:proxyPassWatch"]}
{"id": "C60", "title": "Objects of unregistered kinds are preserved", "statement": "Decoding and re-encoding an object of an unregistered kind keeps every top-level field and its type and metadata.", "quantifier": "every object", "why_tests_cant": "All objects.", "anchors": ["watcher/watcher.go:UnmarshalJSON", "watcher/watcher.go:MarshalJSON"]}
{"id": "C61", "title": "Fake server create/update/delete", "statement": "The fake server refuses to create an existing object, to update or delete a missing one, changes nothing when it refuses, and otherwise a following read reflects the write.", "quantifier": "every state and request", "why_tests_cant": "All histories.", "anchors": ["pkg/client/fake/fake_ckube.go:proxy"]}
{"id": "C62", "title": "Fake server watches are filtered", "statement": "A fake watch delivers exactly the events of its resource type, namespace and clusters, in order, while the watcher is ready.", "quantifier": "every sequence of events and every watcher", "why_tests_cant": "All sequences.", "anchors": ["pkg/client/fake/fake_ckube.go:watch"]}
{"id": "C63", "title": "kubectl plugin keeps the user's selector", "statement": "With --clusters and -l/--selector given, the kubectl plugin passes a selector that carries both the clusters and the user's selector in the position of the user's selector.", "quantifier": "every command line", "why_tests_cant": "All argument lists.", "anchors": ["cmd/ckube-plugin/main.go:main"]}
{"id": "C64", "title": "The resource gauge equals the cache size", "statement": "The resources metric of a cluster, type and namespace equals the number of objects cached there.", "quantifier": "every history", "why_tests_cant": "All histories.", "anchors": ["store/memory/memory.go", "utils/prommonitor/metrics.go"]}
{"id": "C65", "title": "Configuration file changes trigger a reload", "statement": "Every write or replacement of a watched file is followed by a change notification.", "quantifier": "every sequence of file events", "why_tests_cant": "All sequences.", "anchors": ["utils/fs_watcher.go:Start"]}
{"id": "C66", "title": "Default cluster", "statement": "After initialisation the default cluster is never empty: it is the configured one, or 'default'.", "quantifier": "every configuration", "why_tests_cant": "All configurations.", "anchors": ["common/config.go:InitConfig"]}
{"id": "C67", "title": "Forwarded requests arrive as they were sent", "statement": "A forwarded request has the method, path, body and query parameters of the client's request, apart from the cluster markers, the pagination request in labelSelector and the timeout of a watch.", "quantifier": "every request", "why_tests_cant": "All requests, bodies and parameters.", "anchors": ["api/proxy.go:parsePaginateAndLabelsAndClean", "api/proxy.go:proxyPass", "api/proxy.go:getRequest"]}
{"id": "C68", "title": "Answers of the API server arrive", "statement": "The client of a forwarded request receives the status and body of the API server's answer.", "quantifier": "every answer of the API server", "why_tests_cant": "All answers.", "anchors": ["api/proxy.go:proxyPass", "api/proxy.go:errorProxy", "server/server.go:registerRoutes"]}
{"id": "C69", "title": "The default cluster can be reached", "statement": "After a successful load the default cluster is one of the clusters that have a client.", "quantifier": "every configuration and kube config", "why_tests_cant": "All configurations.", "anchors": ["cmd/cacheproxy/main.go:loadFromConfig", "common/config.go:InitConfig"]}
{"id": "C70", "title": "ckubecli prints a selector with the given request", "statement": "The selector that ckubecli prints is read by the server as a request for the given page, page size, sort, search and clusters.", "quantifier": "every value of the flags", "why_tests_cant": "All strings and numbers, and the text passes through base64, JSON, the label grammar and a format string.", "anchors": ["cmd/ckubecli/main.go:main", "page/page.go:QueryListOptions"]}
{"id": "C71", "title": "The metric of cached resources survives a reload", "statement": "After a reload the resources metric of a cluster, type and namespace is the number of objects in the store that is served.", "quantifier": "every sequence of reloads and notifications of old and new watchers", "why_tests_cant": "Depends on when notifications of two watchers arrive relative to the reset.", "anchors": ["cmd/cacheproxy/main.go:main", "store/memory/memory.go:OnResourceAdded", "utils/prommonitor/metrics.go"]}
{"id": "C72", "title": "Clearing a cluster takes effect at one moment", "statement": "With clears running at the same time as other calls, the calls that are not queries still have a sequential order that respects real time and explains every answer.", "quantifier": "every interleaving of any number of calls", "why_tests_cant": "All interleavings.", "anchors": ["store/memory/memory.go:Clean", "store/memory/memory.go:Get", "store/memory/memory.go:OnResourceAdded"]}
{"id": "C73", "title": "A stopped watcher makes no more calls", "statement": "After Stop has returned, no goroutine of the watcher opens a connection or calls the store.", "quantifier": "every interleaving of any number of goroutines, every state they are in when Stop is called", "why_tests_cant": "Depends on which ready case a select takes and on where each goroutine is.", "anchors": ["watcher/watcher.go:Stop", "watcher/watcher.go:watchResources"]}
{"id": "C74", "title": "A type that is listed twice is cached like one that is listed once", "statement": "With several watchers of one type and cluster, once all streams are open and all events are delivered the cache holds exactly the objects of the API server, and an object that was cached can be read as long as it exists and no stream breaks.", "quantifier": "every number of watchers, every history of the server and of the streams", "why_tests_cant": "Interleavings of several streams.", "anchors": ["cmd/cacheproxy/main.go:loadFromConfig", "watcher/watcher.go:Start", "watcher/watcher.go:watchResources"]}
{"id": "C75", "title": "Watches of the fake server do not disturb each other", "statement": "In the fake server every handler of a watch that is ready receives the event of every write, whatever other watches do, and no write or watch waits for ever.", "quantifier": "every sequence of connections, writes and timeouts, every interleaving", "why_tests_cant": "Depends on remote addresses that are used again and on handlers that outlive their clients by ten minutes.", "anchors": ["pkg/client/fake/fake_ckube.go:watch", "pkg/client/fake/fake_ckube.go:proxy"]}
{"id": "C76", "title": "The discovery documents describe the configured types", "statement": "The fake server's list of groups contains the configured groups with their versions, and its resource list of a group and version contains the configured types of that group and version with their kinds.", "quantifier": "every configuration, every group and version", "why_tests_cant": "All configurations.", "anchors": ["pkg/client/fake/fake_ckube.go:resources", "pkg/client/fake/fake_ckube.go:apis"]}
{"id": "C77", "title": "The fake server serves every request itself", "statement": "A request to the fake server reaches the handler for what it asks, with the group, version, type, namespace and name its path denotes, and is not sent anywhere else.", "quantifier": "every path of the API, method and query", "why_tests_cant": "All paths and queries, and two tables of routes in one router.", "anchors": ["pkg/client/fake/fake_ckube.go:registerFakeRoute", "server/server.go:NewMuxServer", "api/proxy.go:proxyPass"]}
{"id": "C78", "title": "Forwarded requests reach the API server as the client sent them", "statement": "What the API server of the selected cluster receives for a forwarded request has the client's method, body, Content-Type, Accept and query parameters (apart from cluster markers and the label selector), and the client's path below the path of the server's address.", "quantifier": "every request, header, server address and timeout", "why_tests_cant": "All requests, and client-go rebuilds the URL.", "anchors": ["api/proxy.go:getRequest", "api/proxy.go:proxyPass", "api/proxy.go:proxyPassWatch"]}
{"id": "C79", "title": "Each forwarded request has its own time limit", "statement": "A forwarded watch may last thirty minutes and any other forwarded request one minute, whatever other requests are forwarded at the same time.", "quantifier": "every interleaving of any number of requests to any number of clusters", "why_tests_cant": "Depends on a write of another request between two reads of a shared variable.", "anchors": ["api/proxy.go:getRequest", "api/proxy.go:proxyPass", "api/proxy.go:proxyPassWatch"]}
{"id": "C80", "title": "Clients see what the API server has", "statement": "Once the watcher of a type and cluster has received all events, a list without pagination or search shows exactly the objects that cluster's API server has in the namespace and that satisfy the label selector, each once and in the order of namespace and name, and a GET of one object gives the API server's object or 404.", "quantifier": "every history of the API server and of its streams, every history of other types and clusters, every request answered from the cache", "why_tests_cant": "Ranges over all histories and combines watcher, store, selector parsing, query, sort and proxy.", "anchors": ["watcher/watcher.go:watchResources", "store/memory/memory.go:Query", "api/proxy.go:Proxy", "api/proxy.go:ProxySingleResources"]}
{"id": "C81", "title": "An index expression yields what stands at its paths", "statement": "The index of an object under an expression of text and field paths in braces is the text with every path replaced by the values that stand there in the JSON form of the object: texts as they are, numbers and truth values as in JSON, arrays and objects as JSON, several values separated by blanks, nothing for a missing field; [*] stands for all elements of an array and [n] for one of them, from the end if n is negative.", "quantifier": "every expression of text and field paths, every object", "why_tests_cant": "All expressions and all JSON values, through a parser, a decoder, a path walker and number formatting.", "anchors": ["store/memory/memory.go:buildResourceWithIndex", "utils/utils.go:Obj2JSONMap"]}
{"id": "C82", "title": "Searching by label", "statement": "With an index on {.metadata.labels}, the search for a label and its value, written as in JSON with escaped quotes, accepts exactly the objects that have this label with this value, and the negated search exactly the others.", "quantifier": "every set of labels, every label and value", "why_tests_cant": "Substring search in quoted JSON: all sets of labels, where keys and values contain one another.", "anchors": ["store/memory/memory.go:buildResourceWithIndex", "page/page.go:Match", "page/page.go:match"]}
{"id": "C83", "title": "Sorting by creation time", "statement": "With an index on {.metadata.creationTimestamp}, a query sorted by this index lists the objects in the order of their creation, and newest first with desc.", "quantifier": "every history, query and set of creation times", "why_tests_cant": "All sets of times; the order compares texts.", "anchors": ["store/memory/memory.go:buildResourceWithIndex", "store/memory/memory.go:sortObjs", "store/memory/memory.go:Query"]}
{"id": "C84", "title": "A list says what it is", "statement": "A list answered from the cache carries the apiVersion of the requested group and version, the list kind configured for the type and the path of the request as its self link.", "quantifier": "every list request and configuration", "why_tests_cant": "All groups, versions, types and configurations.", "anchors": ["api/proxy.go:Proxy", "common/config.go:GetGVRKind"]}
{"id": "C85", "title": "Requests are answered over HTTP with the status that belongs to the answer", "statement": "A GET, with the right token, of the path of an object or of the list of a type is answered from the type and object that the path denotes: status 200 with the object last received for the selected cluster and status 404 if there is none; status 200 with a list, or status 400 if the query is refused. The health route answers 200 with the text 1 without a token. Only a crash has status 500.", "quantifier": "every history, configuration, token, header, path and query", "why_tests_cant": "The status depends on the route, the token, the query and the history together; tests try single requests.", "anchors": ["api/proxy.go:Proxy", "api/proxy.go:ProxySingleResources", "server/route.go:routeHandles", "server/server.go:registerRoutes"]}
{"id": "C86", "title": "Forwarded lists carry the caller's selector and no pagination request", "statement": "A list with options made by QueryListOptions that is forwarded to the API server carries a label selector that accepts, among the objects without the pagination label, exactly those the caller's own selector accepts, and that does not mention the pagination key.", "quantifier": "every selector, pagination request, query, label set and cache", "why_tests_cant": "All selectors, requests and label sets at once.", "anchors": ["api/proxy.go:parsePaginateAndLabelsAndClean", "api/proxy.go:proxyPassWatch", "page/page.go:QueryListOptions"]}
{"id": "C87", "title": "A template index yields what its actions denote", "statement": "The index of an object under an expression that is a Go template is its text with every action replaced by what it denotes: a field by its value, or by nothing if the object does not have it, default by the value or else by the given text, quote by the value in quotes, join by the values with the separator between them, if by one of its branches.", "quantifier": "every template of text, fields, default, quote, join and if, every object", "why_tests_cant": "All templates and all JSON values, through a lexer, a parser and an interpreter.", "anchors": ["store/memory/memory.go:buildResourceWithIndex", "store/memory/memory.go:funMap", "utils/utils.go:Obj2JSONMap"]}
{"id": "C88", "title": "Index expressions do not influence each other", "statement": "The value of an index depends on its own expression and on the object only, not on the other expressions of the type or on the order in which they are evaluated.", "quantifier": "every index configuration, every order, every object", "why_tests_cant": "Go iterates over the configuration in random order, and all expressions share one template object.", "anchors": ["store/memory/memory.go:buildResourceWithIndex"]}
{"id": "C89", "title": "Answers from the cache are lists, objects and tables on the wire", "statement": "The body of a list answered from the cache is a JSON object with the group and version, the kind, the path and the number of remaining items, and the array of the listed objects under items; the body of a single object is the object; the body of a table has its columns and rows.", "quantifier": "every request, every cache, every list of objects", "why_tests_cant": "Clients decode the body, and decoders distinguish null from an empty array.", "anchors": ["api/proxy.go:Proxy", "api/proxy.go:serverPrint", "server/server.go:registerRoutes", "store/memory/memory.go:Query"]}
{"id": "C90", "title": "Refusals are Status objects that clients understand", "statement": "Every response with an error status that ckube makes itself carries a Status object: kind Status, version v1, status Failure, the code of the response, and for what does not exist the reason NotFound.", "quantifier": "every refusal, every request", "why_tests_cant": "Clients such as client-go decide on kind and reason, whose values depend on the way the refusal is made.", "anchors": ["api/proxy.go:errorProxy", "api/proxy.go:ProxySingleResources", "server/server.go:registerRoutes"]}
{"id": "C91", "title": "A watch covers what the list shows", "statement": "A client that lists through ckube and then watches with the same options and watch=true receives the changes of the objects the list shows: the watch goes to the API server of every cluster whose objects are listed.", "quantifier": "every history, query, search and set of clusters", "why_tests_cant": "The cluster of a list comes from the search, that of a watch from three places; every combination of options.", "anchors": ["api/proxy.go:Proxy", "api/proxy.go:proxyPassWatch", "page/page.go:GetClusters", "page/page.go:Clusters"]}
{"id": "C92", "title": "Informers that list from the cache and watch the API server converge", "statement": "A client that lists everything through ckube, watches with the same options and applies the events holds, after all events, exactly the objects of the API server of the default cluster.", "quantifier": "every history of the cache, every gap between list and watch, every sequence of changes", "why_tests_cant": "All interleavings of changes with the list, the start of the watch and the state of the cache.", "anchors": ["api/proxy.go:Proxy", "api/proxy.go:proxyPassWatch", "watcher/watcher.go:watchResources", "store/memory/memory.go:Query"]}
{"id": "C93", "title": "The configuration file is read as it is written", "statement": "A configuration file is loaded exactly as the configuration its JSON text means: the types with their list kinds and index expressions in their order, the default cluster and the token, whatever the order of the members and whatever other members there are; the types and the token are then in force.", "quantifier": "every file", "why_tests_cant": "All JSON documents; the rules of encoding/json for case, null, repetition and missing members.", "anchors": ["cmd/cacheproxy/main.go:loadFromConfig", "common/config.go:Config", "common/config.go:InitConfig"]}
{"id": "C94", "title": "Mistakes in the configuration file are noticed", "statement": "A configuration file that is not JSON, has a value of the wrong kind or a member that ckube does not know is refused, so that the load fails and what was in force stays.", "quantifier": "every file", "why_tests_cant": "All documents that are not configurations.", "anchors": ["cmd/cacheproxy/main.go:loadFromConfig", "common/config.go:Config"]}
{"id": "C95", "title": "The content type of a response is that of its body", "statement": "A response is labelled application/json exactly when its body is JSON; this holds for what ckube answers itself and for what it forwards.", "quantifier": "every request, every answer, every behaviour of the API server", "why_tests_cant": "All paths through the handler, including panics and refusals after the header was sent.", "anchors": ["server/server.go:jsonResp", "server/server.go:registerRoutes", "api/proxy.go:errorProxy", "api/proxy.go:proxyPass", "api/proxy.go:proxyPassWatch"]}
{"id": "C96", "title": "Pages of several clusters are pages of one list", "statement": "Once the watchers of the clusters cs have received all events, the pages a client reads with Clusters(cs) are the consecutive pieces of one list: the objects these clusters' API servers have in the namespace and with the labels asked for, each once, ordered by cluster, namespace and name; the total is their number, and exactly the pages after the end are refused.", "quantifier": "every set of clusters, every history of their API servers and streams, every page and page size, every request answered from the cache", "why_tests_cant": "All histories of several API servers, all pages; the cache may change between two pages in everything that is not asked for.", "anchors": ["watcher/watcher.go:watchResources", "store/memory/memory.go:Query", "page/page.go:Clusters", "page/page.go:MakeupTotalCount", "api/proxy.go:Proxy"]}
{"id": "C97", "title": "What the API server streams is passed on as a stream", "statement": "A request is passed on as a stream, line by line and with the long timeout, exactly when the API server answers it with a stream: a watch, by parameter or by a path of the old form, or a followed log.", "quantifier": "every request that is forwarded, every order of its query", "why_tests_cant": "All paths, parameters and their values; the mistakes are in names of namespaces and unusual values.", "anchors": ["api/proxy.go:isWatchRequest", "api/proxy.go:proxyPass", "api/proxy.go:proxyPassWatch"]}
{"id": "C98", "title": "Lists that are read in chunks", "statement": "A client that reads a list in chunks of n (limit=n) gets at most n items at a time, and every object exactly once if it goes on until it is not asked to continue.", "quantifier": "every list and every object answered from the cache, every value of limit, timeout and timeoutSeconds", "why_tests_cant": "All requests and answers, compared with those without the parameters.", "anchors": ["api/proxy.go:Proxy", "api/proxy.go:parsePaginateAndLabelsAndClean"]}
{"id": "C99", "title": "A test sees what it has done to the fake server", "statement": "Whatever a test has done to a fake server, the server has answered as a map of objects would, Events and watchers have told of everything that happened to every object, and gets and lists show exactly the objects of that map; after Clean there are none.", "quantifier": "every sequence of creations, replacements, deletions and Clean, every get and list of clusters afterwards", "why_tests_cant": "All sequences of calls; the tests of the library use the fake server instead of testing it.", "anchors": ["pkg/client/fake/fake_ckube.go:proxy", "pkg/client/fake/fake_ckube.go:Clean", "pkg/client/fake/fake_ckube.go:Events", "pkg/client/fake/fake_ckube.go:NewFakeCKubeServer", "api/proxy.go:Proxy"]}
{"id": "C100", "title": "The fake server acts where the real one would", "statement": "A request that the real server forwards to the API server of a cluster is carried out by the fake server in that cluster, and a watch of the fake server reports the changes of the cluster to which the real server forwards the watch.", "quantifier": "every creation, replacement, deletion and watch, every order of the query", "why_tests_cant": "Two implementations of the choice of the cluster, which agree on the requests of the tests.", "anchors": ["pkg/client/fake/fake_ckube.go:proxy", "pkg/client/fake/fake_ckube.go:watch", "api/proxy.go:parsePaginateAndLabelsAndClean", "api/proxy.go:proxyPass"]}
{"id": "C101", "title": "The access log says what the client received", "statement": "Every request to the server leaves one line in the access log, with the status and the number of bytes of the body that the client received.", "quantifier": "every request, every handler result, every behaviour of the API server", "why_tests_cant": "All paths through the handlers, the token check and the recovery from panics, including statuses set twice and after the body was begun.", "anchors": ["server/server.go:statusWriter", "server/server.go:loggingMiddleware", "server/server.go:jsonResp", "server/server.go:registerRoutes", "api/proxy.go:errorProxy", "api/proxy.go:proxyPassWatch"]}
{"id": "C102", "title": "Command lines are read as they are written", "statement": "ckubecli and cacheproxy take each flag of the command line with the value that is written last for it, in whatever form it is written, and refuse every command line with something else in it; the server reads from what ckubecli prints exactly what the command line says.", "quantifier": "every command line, every number and text", "why_tests_cant": "All command lines; the programs have no tests. The rules of Go's flag package for dashes, equal signs, missing values and other words, and the syntax of its numbers.", "anchors": ["cmd/ckubecli/main.go:main", "cmd/cacheproxy/main.go:main", "page/page.go:QueryListOptions"]}
{"id": "C103", "title": "Writes to the fake server at the same time are as good as writes one after the other", "statement": "When several goroutines of a test write to the fake server, in whatever way they are interleaved with each other and with Clean, they are answered and the store ends as if the writes had been made one after the other, in an order that agrees with time; every write that is carried out is reported once, and the events of an object come in that order.", "quantifier": "every number of writes, every interleaving of their steps, every store, index expression and decoder", "why_tests_cant": "All interleavings; the tests of the fake client write from one goroutine. Asking the store, changing it and sending the event are three steps without a common lock.", "anchors": ["pkg/client/fake/fake_ckube.go:proxy", "pkg/client/fake/fake_ckube.go:Clean"]}
{"id": "C104", "title": "Go's sort sorts with ckube's comparison function", "statement": "ckube's comparison function calls every object less than itself, which Go's sort.Slice does not allow. Still sort.Slice of Go 1.19 stays inside the slice, ends, loses and duplicates no object, and leaves the results of a query sorted by its keys whenever no value under a numeric key is NaN; and a query of several objects whose first key asks for numbers is refused if one of the objects has a value there that is none.", "quantifier": "every number of objects, every sort expression and index value, every sequence of random numbers", "why_tests_cant": "The algorithm (insertion sort, heap sort, partition, partition of equal elements, partial insertion sort, random swaps) takes other paths for other lengths and inputs; what it does when the comparison breaks its rules is nowhere documented.", "anchors": ["store/memory/memory.go:sortObjs", "store/memory/memory.go:Query"]}
{"id": "C105", "title": "A program that lists as the examples do learns the total and gets its page", "statement": "A program that makes its options with QueryListOptions, lists through ckube with client-go and applies MakeupResPaginate to the list (as examples/paginate and examples/search do) learns the number of objects that satisfy its namespace, selector and search, and gets the objects of its page, in the order it asks for; it stops with an error exactly if its page is not the first and lies past the end. examples/paginate prints the number of pods and the size of the second page; examples/search prints the number of namespaces called default and the number of namespaces with an e in their name.", "quantifier": "every pagination request (page, size, sort, search, total), selector, namespace and resource type; every state of the clusters and history of the cache; every map order", "why_tests_cant": "Options, URL, routing, selector, query, JSON body and total are each tested with a handful of values; only together do they give the number a user sees.", "anchors": ["examples/paginate/main.go:main", "examples/search/main.go:main", "page/page.go:QueryListOptions", "page/page.go:MakeupResPaginate", "api/proxy.go:Proxy", "store/memory/memory.go:Query"]}
{"id": "C106", "title": "Requests see the API servers' objects while everything runs at the same time", "statement": "With API servers that change, streams that break, watchers, store calls and requests all interleaved in any way: a list request sees what it would see if everything stood still with the cache caught up, provided the watchers of the clusters it asks for have received everything and wait while its query runs; nothing that happens to other types and clusters in the meantime matters. So a plain list shows exactly the objects of the default cluster's API server, a page for named clusters is that page of the list of these clusters' objects. A request for one object gives what the API server of its cluster had at one moment during its store call, if at that moment the watcher had received everything.", "quantifier": "every number of API servers, watchers and requests; every history of changes, breaks and failed connections; every interleaving of the single lock operations and map accesses; every request", "why_tests_cant": "All interleavings of components that tests run alone: the tests have no API server that changes, no stream that breaks and no concurrent calls.", "anchors": ["watcher/watcher.go:watchResources", "store/memory/memory.go:OnResourceAdded", "store/memory/memory.go:Clean", "store/memory/memory.go:Get", "store/memory/memory.go:Query", "api/proxy.go:Proxy"]}
{"id": "C107", "title": "When the API servers stop changing, ckube shows what they have", "statement": "From any state that can be reached: if the API servers stop changing, streams stay up and no new request arrives, then whatever the order in which the goroutines go on, everything that is under way ends after a bounded number of steps. Then each watcher waits on an open stream with nothing left to receive, the store has exactly the objects of the API servers, and every request that is served from then on sees exactly these.", "quantifier": "every reachable state of API servers, watchers, store calls and requests; every order of the remaining steps; every request", "why_tests_cant": "Liveness over all schedules: a test sees one schedule and waits a fixed time.", "anchors": ["watcher/watcher.go:watchResources", "store/memory/memory.go:Clean", "store/memory/memory.go:OnResourceAdded", "store/memory/memory.go:Query", "api/proxy.go:Proxy"]}
{"id": "C108", "title": "nginx sends reads to ckube and everything else to the API server", "statement": "With nginx.conf, nginx stands in front of ckube. A request sent to nginx has the effect it has when it is sent to ckube: reads of lists and objects reach ckube's proxy with the group, version, type, namespace and name they denote, whatever else is asked for (writes, watches, subresources, discovery) reaches the API server of the cluster it is meant for, ckube's own paths reach ckube, and ckube's token decides who is admitted.", "quantifier": "every method, path, query string, Authorization header, token of the service account and token of ckube", "why_tests_cant": "There is no test of nginx.conf. All paths against a regular expression with nested alternatives and optional parts, all query strings against nginx's rules for $arg_watch.", "anchors": ["nginx.conf:location", "nginx.conf:ACT", "server/route.go:routeHandles", "server/server.go:registerRoutes"]}
{"id": "C109", "title": "A reload does not change what requests see", "statement": "While API servers change, watchers work and requests are answered, the configuration may be reloaded any number of times. Whenever no reload is under way, the store that is served was made for the configuration in force and is filled by running watchers of all configured types. A request gets what the API server of its cluster has at one moment while it is processed. A reload hides nothing: an object that was shown before the reload and that the API server still has is shown after it.", "quantifier": "every sequence of successful and failed reloads with any file contents; every interleaving of reloads with changes of the API servers, watchers, store calls and requests", "why_tests_cant": "Reloads are not tested at all; that stores and watchers of several generations live at the same time is visible only in interleavings.", "anchors": ["cmd/cacheproxy/main.go:main", "cmd/cacheproxy/main.go:loadFromConfig", "server/server.go:ResetStore", "watcher/watcher.go:Start", "watcher/watcher.go:Stop", "watcher/watcher.go:watchResources", "store/memory/memory.go:Get"]}
{"id": "C110", "title": "entrypoint.sh gives nginx the token and the API server's address, and ckube its arguments", "statement": "After entrypoint.sh has run its two substitutions, the lines of nginx.conf that name the token and the API server hold the service account's token (without the newline at the end of its file) and the host and port of the environment, every other line is as it was, nginx reads the upstream as that host and port and sets the header Authorization to the token. ckube gets the arguments the script was called with.", "quantifier": "every token file, host and port, every list of arguments", "why_tests_cant": "The script is not tested. All texts as replacements in a sed script, and again as text in an nginx configuration.", "anchors": ["entrypoint.sh:sed", "nginx.conf:upstream"]}
{"id": "C111", "title": "The address of a fake server leads to that fake server", "statement": "When NewFakeCKubeServer returns a server, requests at the address in its GetKubeConfig are answered by this server, with its configuration and from its store, until Stop is called on it, whatever other servers are started and stopped. After Stop it answers no more, and the address can be used again. When an error is returned, nothing is left behind.", "quantifier": "every listen address, every state of the machine's sockets, every sequence of starts and stops of other servers", "why_tests_cant": "The tests start one server at a time at one address of the form :port, with nothing else listening there.", "anchors": ["pkg/client/fake/fake_ckube.go:NewFakeCKubeServer", "pkg/client/fake/fake_ckube.go:Stop", "server/server.go:Run", "server/server.go:Stop"]}
{"id": "C112", "title": "Numbers in objects of unregistered kinds keep their value", "statement": "An object of an unregistered kind passes through Go's interface{}: a number in it is read as the nearest float64 and printed as the shortest decimal that reads as the same float64. What ckube writes is again a JSON number with the same value; integers are written as before; and passing through ckube a second time changes nothing.", "quantifier": "every JSON number: any digits, fraction, exponent and sign; every JSON document", "why_tests_cant": "All numbers: the rounding to 53 bits, the search for the shortest decimal, and the choice of the notation have cases that hang on single bits.", "anchors": ["watcher/watcher.go:UnmarshalJSON", "watcher/watcher.go:MarshalJSON"]}
{"id": "C113", "title": "JSON is read as what it means, however it is written", "statement": "A configuration file, or the page in a label selector, may be written by any program. Every JSON text is read as the value it means: with any white space, any order of members, raw characters or escapes, either case of hexadecimal digits, surrogate pairs. Hence the configuration in force and the page asked for are those that the text means. A text that is not JSON is refused.", "quantifier": "every byte string; every JSON text of every value", "why_tests_cant": "All texts: escapes, surrogates, UTF-8, numbers and nesting in any combination.", "anchors": ["cmd/cacheproxy/main.go:loadFromConfig", "api/proxy.go:parsePaginateAndLabelsAndClean", "common/config.go:Config", "page/page.go:Paginate"]}
{"id": "C114", "title": "Sorting by number follows the numbers that the texts mean", "statement": "A sort key with !int sorts by number. Every decimal or hexadecimal numeral of Go (with sign, point, exponent, underscores between digits) is accepted unless it is too large, and is read as the nearest float64; two texts of the same number are read alike, and the order of the results never contradicts the order of the numbers. So the results come in the order of the numbers that their texts mean; a text that is no numeral makes the query fail.", "quantifier": "every byte string as index value, every rational number, every history of the cache, every query", "why_tests_cant": "All texts: bases, points, exponents, underscores and rounding in any combination; the tests sort by single digits.", "anchors": ["store/memory/memory.go:sortObjs", "store/memory/memory.go:Query"]}
{"id": "C115", "title": "Each cluster is the API server that the kube config names for it", "statement": "After the kube config has been loaded, the clusters of ckube are its contexts, and the watcher and the client of each send their requests to the address that the kube config gives for the cluster of this context, with the credentials of its user; a kube config that does not give one for every context is refused.", "quantifier": "every kube config (contexts, clusters, users, current context), inside and outside of a pod", "why_tests_cant": "All kube configs with their defaults and fallbacks; there is no test of the program, and tests of client-go do not know how ckube calls it.", "anchors": ["cmd/cacheproxy/main.go:GetK8sConfigConfigWithFile", "cmd/cacheproxy/main.go:GetKubernetesClientWithFile", "cmd/cacheproxy/main.go:loadFromConfig"]}
{"id": "C116", "title": "While a file is rewritten, ckube keeps the old configuration or takes the new one", "statement": "A file that is watched may be rewritten in place: it is emptied and then written piece by piece, and each step may cause a reload. Whenever a reload happens in the meantime, it fails and leaves everything as it was, or it loads what the new file means; it never ends the process, and never loads something that is neither.", "quantifier": "every new content, every point at which the writing may have arrived, every number of reloads, every change between two reads of a file", "why_tests_cant": "Whether a reload happens before the file is complete is a race; the tests do not reload at all. All cut off texts.", "anchors": ["cmd/cacheproxy/main.go:loadFromConfig", "cmd/cacheproxy/main.go:GetKubernetesClientWithFile", "cmd/cacheproxy/main.go:main"]}
{"id": "C117", "title": "What clients read of a cluster is part of one past state of it, and never goes back in time", "statement": "Everything that one answer shows of a cluster existed there at one and the same moment of the past, with exactly these contents; a later answer, to whatever request, shows a moment that is not earlier. An object that exists all the time and has been shown is shown by all later answers.", "quantifier": "every execution of API servers and watchers: changes, broken streams, failed connections, in any order; every sequence of requests", "why_tests_cant": "Needs a server with a history and streams that break at chosen moments; the tests of watcher and store look at single events.", "anchors": ["watcher/watcher.go:watchResources", "store/memory/memory.go:Clean", "store/memory/memory.go:OnResourceAdded", "store/memory/memory.go:Query", "store/memory/memory.go:Get"]}
{"id": "C118", "title": "Delete options reach the API server as the client wrote them", "statement": "The body of a forwarded DELETE says to the API server what the client's body says (kind, apiVersion, grace period, preconditions, orphanDependents, propagation policy, dryRun), apart from the cluster that the client library puts into dryRun; a body that no API server would accept is not turned into one that it accepts.", "quantifier": "every DELETE request, every body, every member of the options, any order and case of the names", "why_tests_cant": "A test sends one or two sets of options; wrong types, unknown members and options without a cluster come in unboundedly many forms.", "anchors": ["api/proxy.go:parsePaginateAndLabelsAndClean", "api/proxy.go:ProxyPass"]}
{"id": "C119", "title": "Query texts are read as what they say", "statement": "Every query text says one list of names and values (pieces between ampersands, plus signs for blanks, percent escapes; pieces with a semicolon or a broken escape say nothing). The values of a parameter are those that the text gives to it, in order. Two requests whose queries say the same are answered alike, however the queries are written, if their label selector and pagination request can be read.", "quantifier": "every query text, every parameter, every spelling, every request and iteration order", "why_tests_cant": "A test writes a handful of queries, mostly those that client-go writes; there are unboundedly many spellings of each.", "anchors": ["api/proxy.go:parsePaginateAndLabelsAndClean", "api/proxy.go:Proxy"]}
{"id": "C120", "title": "Label selector texts are read as what they say", "statement": "A label selector text is a list of requirements (a label, !label, label=value, ==, !=, >, <, in (…), notin (…)) with blanks, tabs and line ends where they are allowed, keys and values being legal label keys and values. Every such text is accepted and read as its requirements, in requests and in the selector parts of searches, and every other text is refused. The objects selected are those that meet the requirements.", "quantifier": "every text of any bytes, every number of requirements and values, every spelling, every label map", "why_tests_cant": "The texts are unbounded, and the parser decides by look-ahead; a test has a handful of usual spellings.", "anchors": ["kube/label.go:ParseToLabelSelector", "page/page.go:Match", "api/proxy.go:parsePaginateAndLabelsAndClean"]}
{"id": "C121", "title": "Objects of every configured type are cached, whatever their kind", "statement": "When ckube watches a configured type, the objects that the API server sends are decoded and cached, whatever the kind of the type is; they keep their apiVersion and kind; and starting to watch a type never ends the process.", "quantifier": "every configuration, every sequence of watchers started by reloads, every kind, every sequence of streams", "why_tests_cant": "Which kinds are known depends on all configurations since the start of the process, and on the last letters of the kind; a test has one or two types.", "anchors": ["watcher/watcher.go:watchResources", "watcher/watcher.go:GetObjectKind"]}
{"id": "C122", "title": "The scheme is never written while it is in use", "statement": "All watchers register kinds in one map of client-go, which their decoders read. No goroutine writes this map while another one reads or writes it (Go ends the process when it notices).", "quantifier": "every interleaving of any number of goroutines of any number of watchers", "why_tests_cant": "Two goroutines have to meet within nanoseconds; the tests of the race detector see one schedule.", "anchors": ["watcher/watcher.go:watchResources", "watcher/watcher.go:Start"]}
{"id": "C123", "title": "A proxied watch ends when its client goes away", "statement": "A watch that is passed on to an API server is over, there and here, when its client goes away; it is over otherwise only when its stream ends or after half an hour, and until then its client is sent every line that comes.", "quantifier": "all numbers of watches, all interleavings of their bytes, failures, clients that leave and the passing of time", "why_tests_cant": "tests use one watch with a fake API server that keeps sending; leaving a quiet stream shows only as connections that pile up", "anchors": ["api/proxy.go:proxyPassWatch"]}
{"id": "C124", "title": "Naming a resource type more than once in the configuration makes no difference", "statement": "Every entry of the configuration starts its own watcher for each cluster, and all of them tell the same store. However they interleave, a type that is named several times is cached as if it were named once: the cache has the API server's objects whenever what was sent has been received.", "quantifier": "all numbers of entries for the type, all histories of the API server, all interleavings of the streams, their failures and reconnections", "why_tests_cant": "tests configure every type once; two watchers disagree only while one of them is behind or disconnected", "anchors": ["watcher/watcher.go:Start", "watcher/watcher.go:watchResources"]}
{"id": "C125", "title": "A watcher asks for all objects of its type", "statement": "The request of the watcher of a configured type and a cluster goes to the address that the kube config gives for the cluster, at the path of the Kubernetes API for the list of the type over all namespaces, and asks for a watch from the beginning, without selector or limit; clients of ckube ask for the same type at the same path.", "quantifier": "every group, version and resource name, every server address", "why_tests_cant": "tests use a fake client instead of the URL, and server addresses without a path", "anchors": ["watcher/watcher.go:watchResources", "server/route.go:routeHandles"]}
{"id": "C126", "title": "Search texts are read as what they say", "statement": "A search text made, as PAGINATE_SPEC.md describes it, of texts, key=value, key=\"value\", their negations and label selectors, separated by semicolons and with any white space around them, is rejected exactly when it names an index that the object does not have, and accepts exactly the objects for which all its conditions hold.", "quantifier": "every search text of the documented language, every index map, every history of the cache", "why_tests_cant": "The language is infinite and its parts interact: doubled semicolons, white space of Unicode, quoting, negation.", "anchors": ["page/page.go:SearchParts", "page/page.go:Match", "page/page.go:parseValue", "page/page.go:GetClusters", "PAGINATE_SPEC.md"]}
{"id": "C127", "title": "Queries in the documented language get what the documentation says", "statement": "A query whose search, sort, page and page size are written as PAGINATE_SPEC.md describes is answered with the requested page of the list of exactly the cached objects for which the conditions hold, in the order the sort text says, numbers compared as numbers.", "quantifier": "every search and sort text of the documented language, every history of the cache, every map order, every sorting algorithm", "why_tests_cant": "Search, sort and paging are each infinite languages, and the order depends on numbers written as text.", "anchors": ["store/memory/memory.go:Query", "store/memory/memory.go:sortObjs", "page/page.go:Match", "PAGINATE_SPEC.md"]}
{"id": "C128", "title": "A watcher does not flood the API server, does not pause for long, and stops soon", "statement": "However the API server behaves, a watcher of a type and cluster calls it at most once in three seconds, keeps a stream for at most an hour and tries again within fifteen seconds after a stream or an attempt has ended. After Stop it returns within fifteen seconds, opens no further stream and changes the store no more.", "quantifier": "every behaviour of the API server and every time at which Stop is called", "why_tests_cant": "the pauses and the hour are real time; tests that wait for them do not exist, and the bad cases need a server that accepts a connection and does not answer", "anchors": ["watcher/watcher.go:watchResources", "watcher/watcher.go:Stop"]}
{"id": "C129", "title": "A deleted object leaves the cache in bounded time", "statement": "An object that no longer exists at the API server is no longer answered from the cache after a bounded time, even when the event of its deletion never arrives and the type has no objects left, as long as watches can be opened.", "quantifier": "every run of an API server and a watcher with their clock, every delay and loss of events", "why_tests_cant": "the bound is two hours and three seconds; it takes a lost connection and an empty type to come near it", "anchors": ["watcher/watcher.go:watchResources", "store/memory/memory.go:Clean"]}
{"id": "C130", "title": "The path of a forwarded request arrives", "statement": "However a client escapes the path of a request, the API server is sent a path that says the same, segment by segment, and the whole query that ckube forwards; no path makes forwarding fail or leads elsewhere.", "quantifier": "every request target that begins with a slash, every escaping of its path, every query", "why_tests_cant": "the path is decoded and encoded four times by three libraries on its way; only escapes that few clients use make a difference", "anchors": ["api/proxy.go:proxyPass", "api/proxy.go:proxyPassWatch", "api/proxy.go:getRequest"]}
{"id": "C131", "title": "Forwarded requests are sent on without delay", "statement": "A request that is forwarded is sent to its API server at once, however many other requests are forwarded before it or at the same time.", "quantifier": "all sequences of requests and watches, to any number of clusters and at any times", "why_tests_cant": "Tests send a handful of requests; the delays and refusals begin with the 101st request to a cluster in a short time.", "anchors": ["api/proxy.go:getRequest", "api/proxy.go:proxyPass", "api/proxy.go:proxyPassWatch", "cmd/cacheproxy/main.go:GetKubernetesClientWithFile"]}
{"id": "C132", "title": "The indexes that the configuration file defines are those that queries see", "statement": "When the configuration file has been loaded, at the start or by a reload while the process runs, and the cache has caught up with API servers that do not change, then every list request can search and sort by every index the file defines for its type, and gets the page of exactly the matching objects of the API servers in the order of the values of these indexes.", "quantifier": "every configuration file, every run of the process with reloads, watchers and requests in between, every search and sort text of the documented language", "why_tests_cant": "All texts of the file, all schedules of reloads and watchers before the request, and infinite query languages.", "anchors": ["cmd/cacheproxy/main.go:loadFromConfig", "cmd/cacheproxy/main.go:main", "common/config.go:InitConfig", "store/memory/memory.go:NewMemoryStore", "store/memory/memory.go:Query", "api/proxy.go:Proxy"]}
{"id": "C133", "title": "A forwarded request that the API server puts off is carried out once, or the client learns of the refusal", "statement": "When the API server answers a forwarded request with 429 or 5xx and asks to send it again after some seconds, the request is sent again when it is time, at most a few times and within its limit of a minute. The client gets the first answer that does not put the request off, or the last refusal. A write is not carried out twice, also when connections fail.", "quantifier": "every request that is no watch, every sequence of answers, lost connections and waits for the limiter, all times", "why_tests_cant": "Tests use API servers that answer at once; sequences of refusals, pauses and failures cannot be enumerated.", "anchors": ["api/proxy.go:proxyPass", "api/proxy.go:getRequest"]}

import json
P=[]
def p(id,title,statement,quantifier,why,anchors):
    P.append(dict(id=id,title=title,statement=statement,quantifier=quantifier,why_tests_cant=why,anchors=anchors))
A=lambda *x:list(x)
p("C01","Chunked pagination payload is reassembled exactly",
"When the client library splits an encoded pagination payload into several label values, the server, receiving those values in any order, reassembles exactly the payload that was split.",
"every payload string without '.', of any length, and every order in which the values arrive",
"Tests use payloads of a handful of bytes and one order; the offset prefix is only four digits wide, so the failure appears past ten thousand bytes.",
A("kube/label.go:SplittingValue","kube/label.go:MergeValues"))
p("C02","Every payload chunk is a legal label value",
"Every value produced by splitting an alphanumeric payload is a label value Kubernetes accepts (at most 63 bytes, legal first/last/inner characters), so the selector carrying it is not rejected.",
"every alphanumeric payload below one million bytes",
"The length of each chunk depends on the width of its offset, which grows with the payload.",
A("kube/label.go:SplittingValue","page/page.go:QueryListOptions"))
p("C03","Unpadded base64 is lossless",
"Decoding the unpadded base64 form of any byte string gives the same byte string back, and a character outside the alphabet is reported as an error.",
"every byte string","Infinite domain with three residue classes of length.",
A("page/page.go:QueryListOptions","api/proxy.go:parsePaginateAndLabelsAndClean"))
p("C04","A pagination request survives its JSON form",
"Encoding page, page size, total, sort and search as JSON and decoding it yields the same five fields, for all valid UTF-8 text.",
"every Paginate value whose strings are valid UTF-8, including quotes, control characters, HTML characters and U+2028",
"Escaping has many character classes and their combinations are unbounded.",
A("page/page.go:Paginate","page/page.go:QueryListOptions","api/proxy.go:parsePaginateAndLabelsAndClean"))
p("C05","List options deliver the pagination to the server unchanged",
"If QueryListOptions returns without error, the server parsing the resulting label selector obtains exactly the page, page size, sort and search the client asked for.",
"every Paginate value and every caller label selector",
"Composes JSON, base64, chunking, selector formatting, selector parsing and merging; tests cover six literal cases.",
A("page/page.go:QueryListOptions","api/proxy.go:parsePaginateAndLabelsAndClean","kube/label.go"))
p("C06","List options keep the caller's own label selector",
"The label selector that the server applies after removing the pagination key accepts exactly the objects that the caller's original selector accepted.",
"every selector, every Paginate value, every label set",
"Quantifies over all selectors and all label sets at once.",
A("page/page.go:QueryListOptions","kube/label.go:ParseToLabelSelector","api/proxy.go:parsePaginateAndLabelsAndClean"))
p("C07","Any well-formed pagination request can be sent",
"QueryListOptions accepts every pagination request with valid UTF-8 text and a valid selector.",
"every Paginate value","The failing inputs depend on the bit alignment of single characters inside a base64 group.",
A("page/page.go:QueryListOptions"))
p("C08","Label selectors survive formatting and parsing",
"Formatting a selector as text and parsing the text yields a selector that accepts exactly the same label sets.",
"every selector built from valid keys and values, and every label set",
"The grammar is recursive and has keyword, empty-value and ordering corner cases.",
A("kube/label.go:ParseToLabelSelector","page/page.go:SetSearchSelector"))
p("C09","Search parts survive joining and splitting",
"Setting the search from a list of parts and splitting it again yields the same parts.",
"every list of non-empty parts over all byte strings",
"Escaping of ';' interacts with neighbouring parts; the set of part lists is infinite.",
A("page/page.go:SearchParts","page/page.go:SetSearchWithParts"))
p("C10","Several search parts are a conjunction",
"An object matches a search made of several parts exactly when it matches each part, and the search is rejected as erroneous when one of the parts is erroneous.",
"every list of parts and every index map","Lists of any length and every order.",
A("page/page.go:Match"))
p("C11","key=value search",
"A part key=value matches exactly the objects whose index under key contains value in its quoted form, and is rejected when the object has no such index key.",
"every key, value and index map","Infinite domain.",A("page/page.go:Match"))
p("C12","Fuzzy search",
"A part without '=' matches exactly the objects for which some index value contains the text; the verdict does not depend on the map iteration order.",
"every text, every index map and every iteration order of the map",
"Go's map iteration order is random; a test sees one order per run.",A("page/page.go:Match"))
p("C13","'!' negates a search",
"key=!value matches exactly the objects key=value does not match, and !text matches exactly the objects text does not match.",
"every key, value, text and index map","Infinite domain.",A("page/page.go:Match","page/page.go:parseValue"))
p("C14","Quoted values match exactly",
"key=\"value\" matches exactly the objects whose index under key equals value.",
"every printable value and every index value",
"The two sides are unbounded strings; the failing index values contain quotes.",A("page/page.go:Match"))
p("C15","Unquoted values match substrings",
"key=value matches exactly the objects whose index under key contains value as a substring.",
"every value and every index value","Infinite domain; depends on quoting of every byte.",A("page/page.go:Match"))
p("C16","Advanced search has label-selector semantics",
"An advanced search part matches exactly the objects whose index map satisfies every requirement written in the selector.",
"every selector text and every index map","All selectors and all index maps.",
A("page/page.go:Match","kube/label.go:ParseToLabelSelector"))
p("C17","Restricting a search to clusters",
"After Clusters(cs) succeeds, an object matches exactly when its cluster is one of cs and it satisfied every other constraint of the search.",
"every search text, every list of clusters, every index map","Search text is unbounded and may contain several advanced parts.",
A("page/page.go:Clusters","page/page.go:SearchSelector","page/page.go:SetSearchSelector"))
p("C18","Restricting a search to namespaces",
"After Namespaces(ns) succeeds, an object matches exactly when its namespace is one of ns and it satisfied every other constraint of the search.",
"every search text, every list of namespaces, every index map","As for clusters.",
A("page/page.go:Namespaces"))
p("C19","The cluster list is read back",
"After Clusters(cs) succeeds GetClusters returns exactly the clusters of cs, in sorted order and without repetition.",
"every list of clusters, every search","Lists of any length; the round trip goes through text.",
A("page/page.go:Clusters","page/page.go:GetClusters"))
p("C20","The cache behaves like a map",
"After any sequence of add, modify, delete and clean notifications, Get(resource type, cluster, namespace, name) returns the object of the latest add or modify for that identity unless a later delete or clean removed it, and nothing otherwise.",
"every history of notifications over every identity","Histories are unbounded.",
A("store/memory/memory.go:OnResourceAdded","store/memory/memory.go:OnResourceModified","store/memory/memory.go:OnResourceDeleted","store/memory/memory.go:Get","store/memory/memory.go:Clean"))
p("C21","Notifications are isolated",
"A notification for one identity never changes what Get or Query returns for any other resource type, cluster, namespace or name.",
"every state reachable by any history, every pair of distinct identities","Every pair of identities in every state.",
A("store/memory/memory.go"))
p("C22","Clean empties one resource type of one cluster",
"Clean(resource type, cluster) removes every object of that resource type in that cluster, in every namespace, and nothing else; it reports an error exactly when the cluster has never been seen for the type.",
"every reachable state","Every history.",A("store/memory/memory.go:Clean"))
p("C23","A query returns exactly the matching objects",
"An unpaged query returns every cached object of the resource type whose namespace is the requested one (or any, when none is requested) and which matches the search, each once, and nothing else; Total is their number.",
"every reachable state, every search, every map iteration order","Every history and every iteration order.",
A("store/memory/memory.go:Query"))
p("C24","Pages partition the result",
"For a fixed page size and an unchanged cache, pages 1,2,3,... concatenated are exactly the whole sorted result; no object is repeated or skipped, each page has at most the page size, and Total is the same on every page.",
"every state, search, page size and map iteration order of every single request",
"Each request iterates the maps in a fresh random order; tests cannot enumerate orders.",
A("store/memory/memory.go:Query","store/memory/memory.go:sortObjs"))
p("C25","Results are sorted as requested",
"The objects of a query are ordered lexicographically by the requested keys, each ascending or descending and compared as text or as number, as the sort expression says.",
"every sort expression, every list of objects, any length","Lists of any length, any key combination.",
A("store/memory/memory.go:sortObjs"))
p("C26","The default order is total and reproducible",
"With no sort expression, two queries over the same cache contents return the objects in the same order (by cluster, namespace, name), whatever the internal map order.",
"every reachable state and every pair of map iteration orders","Iteration order is random.",
A("store/memory/memory.go:sortObjs","store/memory/memory.go:buildResourceWithIndex"))
p("C27","A sort expression is honoured or rejected",
"A query with a sort expression either returns its objects in the order the expression asks for or reports an error; it never silently ignores the expression.",
"every sort expression","The set of malformed expressions is infinite.",A("store/memory/memory.go:sortObjs"))
p("C28","Page parameters never crash a query",
"For every page and page size a query returns an answer: page 0 or page size 0 mean no paging, a page past the end is empty.",
"all 64-bit page and page size values, every state","Arithmetic wraps at 64 bits; 2^128 combinations.",
A("store/memory/memory.go:Query","PAGINATE_SPEC.md"))
p("C29","Cached objects carry their cluster",
"Every object that Get or Query returns is annotated with the cluster it was received from, and the index annotation records its index values.",
"every history, every object","Every object of every history.",
A("store/memory/memory.go:buildResourceWithIndex","page/page.go:GetObjectCluster"))
p("C30","All objects of a type share their index keys",
"All cached objects of one resource type have the same set of index keys, so an unknown search or sort key is rejected whatever objects are cached.",
"every history of API objects","Sort keys are checked against the first object only, whose identity depends on the random map order.",
A("store/memory/memory.go:buildResourceWithIndex","store/memory/memory.go:sortObjs"))
p("C31","Cache operations on configured types do not crash",
"No add, modify, delete, clean, get or (validly paged) query on a configured resource type panics, in any state.",
"every history of operations","Nil pointers appear only in particular states.",A("store/memory/memory.go"))
p("C32","Concurrent notifications and reads are linearizable",
"Under every interleaving of concurrent adds, modifies, deletes and gets, the answers are those of some sequential order of the operations that respects real time.",
"every number of threads, every interleaving of lock-protected steps","Schedules cannot be enumerated.",
A("store/memory/memory.go:syncResourceStore"))
p("C33","A concurrent query sees stable objects",
"An object that matches and stays unchanged in the cache during a query is returned by it, and every returned object was in the cache at some moment during the query.",
"every interleaving of one query with any number of notifications","Schedules cannot be enumerated.",
A("store/memory/memory.go:Query","store/memory/memory.go:ForEach"))
p("C34","Cache locking never deadlocks",
"Under every schedule of concurrent notifications, gets, cleans and queries, some unfinished operation can always make progress.",
"every number of threads and every schedule","Deadlocks show up on rare schedules.",A("store/memory/memory.go:syncResourceStore"))
p("C35","The cache equals the replay of the current watch stream",
"Once a watch stream has delivered something, the cached objects of that type and cluster are exactly the result of applying the events of this stream, in order, to an empty cache; nothing survives from earlier streams.",
"every sequence of streams, failures, events and closures","Every history of reconnects.",
A("watcher/watcher.go:watchResources"))
p("C36","The cache converges to the API server",
"When every event of an open watch stream has been consumed, the cache holds exactly the objects the API server holds.",
"every interleaving of server changes, deliveries, disconnects and reconnects","Unbounded interleavings.",
A("watcher/watcher.go:watchResources"))
p("C37","The cache survives connection failures",
"While the API server cannot be reached, the cached objects stay as they were.",
"every history, any number of failed attempts and closed streams","Every history.",
A("watcher/watcher.go:watchResources"))
p("C38","Watched kinds are derived from the list kind",
"The kind registered for decoding watched objects is the configured list kind without its List suffix.",
"every list kind","Every kind name.",A("watcher/watcher.go:watchResources"))
p("C39","Cache or forward",
"A request is answered from the cache exactly when it is a GET for a configured resource type whose label selector parses and whose remaining query parameters are only labelSelector, timeoutSeconds, timeout and limit; every other request goes to the API server of the selected cluster.",
"every request and every configuration","Combinations of method, path, query and configuration.",
A("api/proxy.go:Proxy"))
p("C40","Writes and watches always reach the API server",
"No create, update, patch, delete or watch request is ever answered from the cache.",
"every request","Every combination of parameters.",A("api/proxy.go:Proxy","api/proxy.go:isWatchRequest"))
p("C41","Lists default to the default cluster",
"A list request answered from the cache that names no cluster returns only objects of the default cluster.",
"every search, every cache state, every default cluster name","Default cluster names come from kubeconfig contexts and may contain any character.",
A("api/proxy.go:Proxy","page/page.go:Clusters"))
p("C42","Label selector listing",
"A list with a label selector returns exactly the page of those matching objects whose labels satisfy the selector, in sorted order.",
"every state, selector and page","All states, selectors and pages.",A("api/proxy.go:Proxy"))
p("C43","The client can reconstruct the total",
"The total that MakeupResPaginate computes from a list response and the page that was asked is the number of matching objects.",
"every total, page and page size","All page/size/total combinations.",
A("api/proxy.go:Proxy","page/page.go:MakeupResPaginate"))
p("C44","Pages past the end are refused",
"A list request is refused as out of page exactly when its page is not the first and starts at or past the end of the result.",
"every total, page and page size","All combinations.",A("api/proxy.go:Proxy"))
p("C45","Single object reads",
"A GET of one object of a configured type answers the cached object of the selected cluster, namespace and name, or 404 when there is none.",
"every request and state","All states.",A("api/proxy.go:ProxySingleResources"))
p("C46","Cluster selection",
"The cluster that serves a request is the one named by the request, otherwise the first cluster of the search, otherwise the default cluster; the outcome is a function of the request.",
"every request, every iteration order of its query parameters","Query parameters are visited in random map order.",
A("api/proxy.go:parsePaginateAndLabelsAndClean","api/proxy.go:proxyPass"))
p("C47","Cluster markers do not reach the API server",
"A cluster marker placed by the client library in fieldManager, resourceVersion or dryRun is removed before the request is forwarded.",
"every request","All requests.",A("api/proxy.go:parsePaginateAndLabelsAndClean"))
p("C48","Client cluster options are understood by the server",
"A cluster wrapped by QueryGetOptions, QueryCreateOptions, QueryUpdateOptions, QueryPatchOptions or QueryDeleteOptions is the cluster the server selects; options already in use are refused and left unchanged.",
"every cluster name and every options value","All names.",
A("page/page.go:QueryGetOptions","page/page.go:QueryDeleteOptions","api/proxy.go:parsePaginateAndLabelsAndClean"))
p("C49","Table output",
"In table output each row has one cell per column and the cell under a column is that object's index value of that name.",
"every list of cached objects of one type","Lists of any length, any index configuration, random map order.",
A("api/proxy.go:serverPrint"))
p("C50","Token protection",
"With a token configured, every route except health and metrics answers 401 without running its handler unless the Authorization header contains the token.",
"every request and token","All requests.",A("server/server.go:registerRoutes","server/route.go"))
p("C51","Handler failures are contained",
"A handler that panics or returns an error yields a 500 response; the server goes on serving.",
"every handler outcome","All outcomes.",A("server/server.go:registerRoutes"))
p("C52","Routing identifies the object",
"Every Kubernetes resource path reaches the handler with the group, version, resource type, namespace and name it denotes, and subresource paths are never taken for cached resources.",
"every path and method","Infinitely many paths; first match depends on the order of the route table.",
A("server/route.go:routeHandles"))
p("C53","A failed reload changes nothing",
"When reloading the configuration fails, configuration, cache, clients and watchers keep serving as before.",
"every state and every failure point of the load","All failure points.",A("cmd/cacheproxy/main.go:loadFromConfig","cmd/cacheproxy/main.go:main"))
p("C54","Exactly one watcher set is alive",
"After any sequence of reload events exactly one watcher is running, every replaced watcher has been stopped exactly once, and the served store is the one that watcher fills.",
"every sequence of reload outcomes","Unbounded sequences.",A("cmd/cacheproxy/main.go:main","watcher/watcher.go:Stop"))
p("C55","Requests see one configuration generation",
"A request handled during a reload uses the configuration, store and clients of a single generation.",
"every interleaving of a request with a reload","Schedules cannot be enumerated.",A("cmd/cacheproxy/main.go:main","server/server.go:ResetStore","common/config.go:InitConfig"))
p("C56","Services of a deployment",
"The deployment-to-services endpoint returns exactly the services of the cluster and namespace whose selector is satisfied by the labels of the deployment's pods.",
"every cache state and every deployment name","All states.",A("api/extend/deploy2service.go:Deploy2Service"))
p("C57","Subset test",
"IsSubsetOf(sub,parent) is true exactly when every entry of sub is an entry of parent, for every iteration order.",
"every pair of maps","All maps.",A("utils/subset.go:IsSubsetOf"))
p("C58","Deployment name of a pod",
"For a pod owned by a ReplicaSet named <deployment>-<hash>, the deployment name found is <deployment>; for other pods it is empty.",
"every deployment name, every hash without '-'","All names.",A("api/extend/deploy2service.go:getDeploymentName"))
p("C59","Watch streams are passed through unchanged",
"The bytes the client receives from a proxied watch are exactly the bytes the API server sent, in order and cut only at line ends until the stream ends.",
"every byte stream and every chunking by the reader","All streams.",A("api/proxy.go:proxyPassWatch"))
p("C60","Objects of unregistered kinds are preserved",
"Decoding and re-encoding an object of an unregistered kind keeps every top-level field and its type and metadata.",
"every object","All objects.",A("watcher/watcher.go:UnmarshalJSON","watcher/watcher.go:MarshalJSON"))
p("C61","Fake server create/update/delete",
"The fake server refuses to create an existing object, to update or delete a missing one, changes nothing when it refuses, and otherwise a following read reflects the write.",
"every state and request","All histories.",A("pkg/client/fake/fake_ckube.go:proxy"))
p("C62","Fake server watches are filtered",
"A fake watch delivers exactly the events of its resource type, namespace and clusters, in order, while the watcher is ready.",
"every sequence of events and every watcher","All sequences.",A("pkg/client/fake/fake_ckube.go:watch"))
p("C63","kubectl plugin keeps the user's selector",
"With --clusters and -l/--selector given, the kubectl plugin passes a selector that carries both the clusters and the user's selector in the position of the user's selector.",
"every command line","All argument lists.",A("cmd/ckube-plugin/main.go:main"))
p("C64","The resource gauge equals the cache size",
"The resources metric of a cluster, type and namespace equals the number of objects cached there.",
"every history","All histories.",A("store/memory/memory.go","utils/prommonitor/metrics.go"))
p("C65","Configuration file changes trigger a reload",
"Every write or replacement of a watched file is followed by a change notification.",
"every sequence of file events","All sequences.",A("utils/fs_watcher.go:Start"))
p("C66","Default cluster",
"After initialisation the default cluster is never empty: it is the configured one, or 'default'.",
"every configuration","All configurations.",A("common/config.go:InitConfig"))
p("C67","Forwarded requests arrive as they were sent",
"A forwarded request has the method, path, body and query parameters of the client's request, apart from the cluster markers, the pagination request in labelSelector and the timeout of a watch.",
"every request","All requests, bodies and parameters.",A("api/proxy.go:parsePaginateAndLabelsAndClean","api/proxy.go:proxyPass","api/proxy.go:getRequest"))
p("C68","Answers of the API server arrive",
"The client of a forwarded request receives the status and body of the API server's answer.",
"every answer of the API server","All answers.",A("api/proxy.go:proxyPass","api/proxy.go:errorProxy","server/server.go:registerRoutes"))
p("C69","The default cluster can be reached",
"After a successful load the default cluster is one of the clusters that have a client.",
"every configuration and kube config","All configurations.",A("cmd/cacheproxy/main.go:loadFromConfig","common/config.go:InitConfig"))
p("C70","ckubecli prints a selector with the given request",
"The selector that ckubecli prints is read by the server as a request for the given page, page size, sort, search and clusters.",
"every value of the flags","All strings and numbers, and the text passes through base64, JSON, the label grammar and a format string.",A("cmd/ckubecli/main.go:main","page/page.go:QueryListOptions"))
p("C71","The metric of cached resources survives a reload",
"After a reload the resources metric of a cluster, type and namespace is the number of objects in the store that is served.",
"every sequence of reloads and notifications of old and new watchers","Depends on when notifications of two watchers arrive relative to the reset.",A("cmd/cacheproxy/main.go:main","store/memory/memory.go:OnResourceAdded","utils/prommonitor/metrics.go"))
p("C72","Clearing a cluster takes effect at one moment",
"With clears running at the same time as other calls, the calls that are not queries still have a sequential order that respects real time and explains every answer.",
"every interleaving of any number of calls","All interleavings.",A("store/memory/memory.go:Clean","store/memory/memory.go:Get","store/memory/memory.go:OnResourceAdded"))
p("C73","A stopped watcher makes no more calls",
"After Stop has returned, no goroutine of the watcher opens a connection or calls the store.",
"every interleaving of any number of goroutines, every state they are in when Stop is called","Depends on which ready case a select takes and on where each goroutine is.",A("watcher/watcher.go:Stop","watcher/watcher.go:watchResources"))
p("C74","A type that is listed twice is cached like one that is listed once",
"With several watchers of one type and cluster, once all streams are open and all events are delivered the cache holds exactly the objects of the API server, and an object that was cached can be read as long as it exists and no stream breaks.",
"every number of watchers, every history of the server and of the streams","Interleavings of several streams.",A("cmd/cacheproxy/main.go:loadFromConfig","watcher/watcher.go:Start","watcher/watcher.go:watchResources"))
p("C75","Watches of the fake server do not disturb each other",
"In the fake server every handler of a watch that is ready receives the event of every write, whatever other watches do, and no write or watch waits for ever.",
"every sequence of connections, writes and timeouts, every interleaving","Depends on remote addresses that are used again and on handlers that outlive their clients by ten minutes.",A("pkg/client/fake/fake_ckube.go:watch","pkg/client/fake/fake_ckube.go:proxy"))
p("C76","The discovery documents describe the configured types",
"The fake server's list of groups contains the configured groups with their versions, and its resource list of a group and version contains the configured types of that group and version with their kinds.",
"every configuration, every group and version","All configurations.",A("pkg/client/fake/fake_ckube.go:resources","pkg/client/fake/fake_ckube.go:apis"))
p("C77","The fake server serves every request itself",
"A request to the fake server reaches the handler for what it asks, with the group, version, type, namespace and name its path denotes, and is not sent anywhere else.",
"every path of the API, method and query","All paths and queries, and two tables of routes in one router.",A("pkg/client/fake/fake_ckube.go:registerFakeRoute","server/server.go:NewMuxServer","api/proxy.go:proxyPass"))
p("C78","Forwarded requests reach the API server as the client sent them",
"What the API server of the selected cluster receives for a forwarded request has the client's method, body, Content-Type, Accept and query parameters (apart from cluster markers and the label selector), and the client's path below the path of the server's address.",
"every request, header, server address and timeout","All requests, and client-go rebuilds the URL.",A("api/proxy.go:getRequest","api/proxy.go:proxyPass","api/proxy.go:proxyPassWatch"))
p("C79","Each forwarded request has its own time limit",
"A forwarded watch may last thirty minutes and any other forwarded request one minute, whatever other requests are forwarded at the same time.",
"every interleaving of any number of requests to any number of clusters","Depends on a write of another request between two reads of a shared variable.",A("api/proxy.go:getRequest","api/proxy.go:proxyPass","api/proxy.go:proxyPassWatch"))
p("C80","Clients see what the API server has",
"Once the watcher of a type and cluster has received all events, a list without pagination or search shows exactly the objects that cluster's API server has in the namespace and that satisfy the label selector, each once and in the order of namespace and name, and a GET of one object gives the API server's object or 404.",
"every history of the API server and of its streams, every history of other types and clusters, every request answered from the cache","Ranges over all histories and combines watcher, store, selector parsing, query, sort and proxy.",A("watcher/watcher.go:watchResources","store/memory/memory.go:Query","api/proxy.go:Proxy","api/proxy.go:ProxySingleResources"))
p("C81","An index expression yields what stands at its paths",
"The index of an object under an expression of text and field paths in braces is the text with every path replaced by the values that stand there in the JSON form of the object: texts as they are, numbers and truth values as in JSON, arrays and objects as JSON, several values separated by blanks, nothing for a missing field; [*] stands for all elements of an array and [n] for one of them, from the end if n is negative.",
"every expression of text and field paths, every object","All expressions and all JSON values, through a parser, a decoder, a path walker and number formatting.",A("store/memory/memory.go:buildResourceWithIndex","utils/utils.go:Obj2JSONMap"))
p("C82","Searching by label",
"With an index on {.metadata.labels}, the search for a label and its value, written as in JSON with escaped quotes, accepts exactly the objects that have this label with this value, and the negated search exactly the others.",
"every set of labels, every label and value","Substring search in quoted JSON: all sets of labels, where keys and values contain one another.",A("store/memory/memory.go:buildResourceWithIndex","page/page.go:Match","page/page.go:match"))
p("C83","Sorting by creation time",
"With an index on {.metadata.creationTimestamp}, a query sorted by this index lists the objects in the order of their creation, and newest first with desc.",
"every history, query and set of creation times","All sets of times; the order compares texts.",A("store/memory/memory.go:buildResourceWithIndex","store/memory/memory.go:sortObjs","store/memory/memory.go:Query"))
p("C84","A list says what it is",
"A list answered from the cache carries the apiVersion of the requested group and version, the list kind configured for the type and the path of the request as its self link.",
"every list request and configuration","All groups, versions, types and configurations.",A("api/proxy.go:Proxy","common/config.go:GetGVRKind"))
p("C85","Requests are answered over HTTP with the status that belongs to the answer",
"A GET, with the right token, of the path of an object or of the list of a type is answered from the type and object that the path denotes: status 200 with the object last received for the selected cluster and status 404 if there is none; status 200 with a list, or status 400 if the query is refused. The health route answers 200 with the text 1 without a token. Only a crash has status 500.",
"every history, configuration, token, header, path and query","The status depends on the route, the token, the query and the history together; tests try single requests.",A("api/proxy.go:Proxy","api/proxy.go:ProxySingleResources","server/route.go:routeHandles","server/server.go:registerRoutes"))
p("C86","Forwarded lists carry the caller's selector and no pagination request",
"A list with options made by QueryListOptions that is forwarded to the API server carries a label selector that accepts, among the objects without the pagination label, exactly those the caller's own selector accepts, and that does not mention the pagination key.",
"every selector, pagination request, query, label set and cache","All selectors, requests and label sets at once.",A("api/proxy.go:parsePaginateAndLabelsAndClean","api/proxy.go:proxyPassWatch","page/page.go:QueryListOptions"))
p("C87","A template index yields what its actions denote",
"The index of an object under an expression that is a Go template is its text with every action replaced by what it denotes: a field by its value, or by nothing if the object does not have it, default by the value or else by the given text, quote by the value in quotes, join by the values with the separator between them, if by one of its branches.",
"every template of text, fields, default, quote, join and if, every object","All templates and all JSON values, through a lexer, a parser and an interpreter.",A("store/memory/memory.go:buildResourceWithIndex","store/memory/memory.go:funMap","utils/utils.go:Obj2JSONMap"))
p("C88","Index expressions do not influence each other",
"The value of an index depends on its own expression and on the object only, not on the other expressions of the type or on the order in which they are evaluated.",
"every index configuration, every order, every object","Go iterates over the configuration in random order, and all expressions share one template object.",A("store/memory/memory.go:buildResourceWithIndex"))
p("C89","Answers from the cache are lists, objects and tables on the wire",
"The body of a list answered from the cache is a JSON object with the group and version, the kind, the path and the number of remaining items, and the array of the listed objects under items; the body of a single object is the object; the body of a table has its columns and rows.",
"every request, every cache, every list of objects","Clients decode the body, and decoders distinguish null from an empty array.",A("api/proxy.go:Proxy","api/proxy.go:serverPrint","server/server.go:registerRoutes","store/memory/memory.go:Query"))
p("C90","Refusals are Status objects that clients understand",
"Every response with an error status that ckube makes itself carries a Status object: kind Status, version v1, status Failure, the code of the response, and for what does not exist the reason NotFound.",
"every refusal, every request","Clients such as client-go decide on kind and reason, whose values depend on the way the refusal is made.",A("api/proxy.go:errorProxy","api/proxy.go:ProxySingleResources","server/server.go:registerRoutes"))
p("C91","A watch covers what the list shows",
"A client that lists through ckube and then watches with the same options and watch=true receives the changes of the objects the list shows: the watch goes to the API server of every cluster whose objects are listed.",
"every history, query, search and set of clusters","The cluster of a list comes from the search, that of a watch from three places; every combination of options.",A("api/proxy.go:Proxy","api/proxy.go:proxyPassWatch","page/page.go:GetClusters","page/page.go:Clusters"))
p("C92","Informers that list from the cache and watch the API server converge",
"A client that lists everything through ckube, watches with the same options and applies the events holds, after all events, exactly the objects of the API server of the default cluster.",
"every history of the cache, every gap between list and watch, every sequence of changes","All interleavings of changes with the list, the start of the watch and the state of the cache.",A("api/proxy.go:Proxy","api/proxy.go:proxyPassWatch","watcher/watcher.go:watchResources","store/memory/memory.go:Query"))
p("C93","The configuration file is read as it is written",
"A configuration file is loaded exactly as the configuration its JSON text means: the types with their list kinds and index expressions in their order, the default cluster and the token, whatever the order of the members and whatever other members there are; the types and the token are then in force.",
"every file","All JSON documents; the rules of encoding/json for case, null, repetition and missing members.",A("cmd/cacheproxy/main.go:loadFromConfig","common/config.go:Config","common/config.go:InitConfig"))
p("C94","Mistakes in the configuration file are noticed",
"A configuration file that is not JSON, has a value of the wrong kind or a member that ckube does not know is refused, so that the load fails and what was in force stays.",
"every file","All documents that are not configurations.",A("cmd/cacheproxy/main.go:loadFromConfig","common/config.go:Config"))
p("C95","The content type of a response is that of its body",
"A response is labelled application/json exactly when its body is JSON; this holds for what ckube answers itself and for what it forwards.",
"every request, every answer, every behaviour of the API server","All paths through the handler, including panics and refusals after the header was sent.",A("server/server.go:jsonResp","server/server.go:registerRoutes","api/proxy.go:errorProxy","api/proxy.go:proxyPass","api/proxy.go:proxyPassWatch"))
p("C96","Pages of several clusters are pages of one list",
"Once the watchers of the clusters cs have received all events, the pages a client reads with Clusters(cs) are the consecutive pieces of one list: the objects these clusters' API servers have in the namespace and with the labels asked for, each once, ordered by cluster, namespace and name; the total is their number, and exactly the pages after the end are refused.",
"every set of clusters, every history of their API servers and streams, every page and page size, every request answered from the cache","All histories of several API servers, all pages; the cache may change between two pages in everything that is not asked for.",A("watcher/watcher.go:watchResources","store/memory/memory.go:Query","page/page.go:Clusters","page/page.go:MakeupTotalCount","api/proxy.go:Proxy"))
p("C97","What the API server streams is passed on as a stream",
"A request is passed on as a stream, line by line and with the long timeout, exactly when the API server answers it with a stream: a watch, by parameter or by a path of the old form, or a followed log.",
"every request that is forwarded, every order of its query","All paths, parameters and their values; the mistakes are in names of namespaces and unusual values.",A("api/proxy.go:isWatchRequest","api/proxy.go:proxyPass","api/proxy.go:proxyPassWatch"))
p("C98","Lists that are read in chunks",
"A client that reads a list in chunks of n (limit=n) gets at most n items at a time, and every object exactly once if it goes on until it is not asked to continue.",
"every list and every object answered from the cache, every value of limit, timeout and timeoutSeconds","All requests and answers, compared with those without the parameters.",A("api/proxy.go:Proxy","api/proxy.go:parsePaginateAndLabelsAndClean"))
p("C99","A test sees what it has done to the fake server",
"Whatever a test has done to a fake server, the server has answered as a map of objects would, Events and watchers have told of everything that happened to every object, and gets and lists show exactly the objects of that map; after Clean there are none.",
"every sequence of creations, replacements, deletions and Clean, every get and list of clusters afterwards","All sequences of calls; the tests of the library use the fake server instead of testing it.",A("pkg/client/fake/fake_ckube.go:proxy","pkg/client/fake/fake_ckube.go:Clean","pkg/client/fake/fake_ckube.go:Events","pkg/client/fake/fake_ckube.go:NewFakeCKubeServer","api/proxy.go:Proxy"))
p("C100","The fake server acts where the real one would",
"A request that the real server forwards to the API server of a cluster is carried out by the fake server in that cluster, and a watch of the fake server reports the changes of the cluster to which the real server forwards the watch.",
"every creation, replacement, deletion and watch, every order of the query","Two implementations of the choice of the cluster, which agree on the requests of the tests.",A("pkg/client/fake/fake_ckube.go:proxy","pkg/client/fake/fake_ckube.go:watch","api/proxy.go:parsePaginateAndLabelsAndClean","api/proxy.go:proxyPass"))
p("C101","The access log says what the client received",
"Every request to the server leaves one line in the access log, with the status and the number of bytes of the body that the client received.",
"every request, every handler result, every behaviour of the API server","All paths through the handlers, the token check and the recovery from panics, including statuses set twice and after the body was begun.",A("server/server.go:statusWriter","server/server.go:loggingMiddleware","server/server.go:jsonResp","server/server.go:registerRoutes","api/proxy.go:errorProxy","api/proxy.go:proxyPassWatch"))
p("C102","Command lines are read as they are written",
"ckubecli and cacheproxy take each flag of the command line with the value that is written last for it, in whatever form it is written, and refuse every command line with something else in it; the server reads from what ckubecli prints exactly what the command line says.",
"every command line, every number and text","All command lines; the programs have no tests. The rules of Go's flag package for dashes, equal signs, missing values and other words, and the syntax of its numbers.",A("cmd/ckubecli/main.go:main","cmd/cacheproxy/main.go:main","page/page.go:QueryListOptions"))
p("C103","Writes to the fake server at the same time are as good as writes one after the other",
"When several goroutines of a test write to the fake server, in whatever way they are interleaved with each other and with Clean, they are answered and the store ends as if the writes had been made one after the other, in an order that agrees with time; every write that is carried out is reported once, and the events of an object come in that order.",
"every number of writes, every interleaving of their steps, every store, index expression and decoder","All interleavings; the tests of the fake client write from one goroutine. Asking the store, changing it and sending the event are three steps without a common lock.",A("pkg/client/fake/fake_ckube.go:proxy","pkg/client/fake/fake_ckube.go:Clean"))
p("C104","Go's sort sorts with ckube's comparison function",
"ckube's comparison function calls every object less than itself, which Go's sort.Slice does not allow. Still sort.Slice of Go 1.19 stays inside the slice, ends, loses and duplicates no object, and leaves the results of a query sorted by its keys whenever no value under a numeric key is NaN; and a query of several objects whose first key asks for numbers is refused if one of the objects has a value there that is none.",
"every number of objects, every sort expression and index value, every sequence of random numbers","The algorithm (insertion sort, heap sort, partition, partition of equal elements, partial insertion sort, random swaps) takes other paths for other lengths and inputs; what it does when the comparison breaks its rules is nowhere documented.",A("store/memory/memory.go:sortObjs","store/memory/memory.go:Query"))
p("C105","A program that lists as the examples do learns the total and gets its page",
"A program that makes its options with QueryListOptions, lists through ckube with client-go and applies MakeupResPaginate to the list (as examples/paginate and examples/search do) learns the number of objects that satisfy its namespace, selector and search, and gets the objects of its page, in the order it asks for; it stops with an error exactly if its page is not the first and lies past the end. examples/paginate prints the number of pods and the size of the second page; examples/search prints the number of namespaces called default and the number of namespaces with an e in their name.",
"every pagination request (page, size, sort, search, total), selector, namespace and resource type; every state of the clusters and history of the cache; every map order","Options, URL, routing, selector, query, JSON body and total are each tested with a handful of values; only together do they give the number a user sees.",A("examples/paginate/main.go:main","examples/search/main.go:main","page/page.go:QueryListOptions","page/page.go:MakeupResPaginate","api/proxy.go:Proxy","store/memory/memory.go:Query"))
p("C106","Requests see the API servers' objects while everything runs at the same time",
"With API servers that change, streams that break, watchers, store calls and requests all interleaved in any way: a list request sees what it would see if everything stood still with the cache caught up, provided the watchers of the clusters it asks for have received everything and wait while its query runs; nothing that happens to other types and clusters in the meantime matters. So a plain list shows exactly the objects of the default cluster's API server, a page for named clusters is that page of the list of these clusters' objects. A request for one object gives what the API server of its cluster had at one moment during its store call, if at that moment the watcher had received everything.",
"every number of API servers, watchers and requests; every history of changes, breaks and failed connections; every interleaving of the single lock operations and map accesses; every request","All interleavings of components that tests run alone: the tests have no API server that changes, no stream that breaks and no concurrent calls.",A("watcher/watcher.go:watchResources","store/memory/memory.go:OnResourceAdded","store/memory/memory.go:Clean","store/memory/memory.go:Get","store/memory/memory.go:Query","api/proxy.go:Proxy"))
p("C107","When the API servers stop changing, ckube shows what they have",
"From any state that can be reached: if the API servers stop changing, streams stay up and no new request arrives, then whatever the order in which the goroutines go on, everything that is under way ends after a bounded number of steps. Then each watcher waits on an open stream with nothing left to receive, the store has exactly the objects of the API servers, and every request that is served from then on sees exactly these.",
"every reachable state of API servers, watchers, store calls and requests; every order of the remaining steps; every request","Liveness over all schedules: a test sees one schedule and waits a fixed time.",A("watcher/watcher.go:watchResources","store/memory/memory.go:Clean","store/memory/memory.go:OnResourceAdded","store/memory/memory.go:Query","api/proxy.go:Proxy"))
p("C108","nginx sends reads to ckube and everything else to the API server",
"With nginx.conf, nginx stands in front of ckube. A request sent to nginx has the effect it has when it is sent to ckube: reads of lists and objects reach ckube's proxy with the group, version, type, namespace and name they denote, whatever else is asked for (writes, watches, subresources, discovery) reaches the API server of the cluster it is meant for, ckube's own paths reach ckube, and ckube's token decides who is admitted.",
"every method, path, query string, Authorization header, token of the service account and token of ckube","There is no test of nginx.conf. All paths against a regular expression with nested alternatives and optional parts, all query strings against nginx's rules for $arg_watch.",A("nginx.conf:location","nginx.conf:ACT","server/route.go:routeHandles","server/server.go:registerRoutes"))
p("C109","A reload does not change what requests see",
"While API servers change, watchers work and requests are answered, the configuration may be reloaded any number of times. Whenever no reload is under way, the store that is served was made for the configuration in force and is filled by running watchers of all configured types. A request gets what the API server of its cluster has at one moment while it is processed. A reload hides nothing: an object that was shown before the reload and that the API server still has is shown after it.",
"every sequence of successful and failed reloads with any file contents; every interleaving of reloads with changes of the API servers, watchers, store calls and requests","Reloads are not tested at all; that stores and watchers of several generations live at the same time is visible only in interleavings.",A("cmd/cacheproxy/main.go:main","cmd/cacheproxy/main.go:loadFromConfig","server/server.go:ResetStore","watcher/watcher.go:Start","watcher/watcher.go:Stop","watcher/watcher.go:watchResources","store/memory/memory.go:Get"))
p("C110","entrypoint.sh gives nginx the token and the API server's address, and ckube its arguments",
"After entrypoint.sh has run its two substitutions, the lines of nginx.conf that name the token and the API server hold the service account's token (without the newline at the end of its file) and the host and port of the environment, every other line is as it was, nginx reads the upstream as that host and port and sets the header Authorization to the token. ckube gets the arguments the script was called with.",
"every token file, host and port, every list of arguments","The script is not tested. All texts as replacements in a sed script, and again as text in an nginx configuration.",A("entrypoint.sh:sed","nginx.conf:upstream"))
p("C111","The address of a fake server leads to that fake server",
"When NewFakeCKubeServer returns a server, requests at the address in its GetKubeConfig are answered by this server, with its configuration and from its store, until Stop is called on it, whatever other servers are started and stopped. After Stop it answers no more, and the address can be used again. When an error is returned, nothing is left behind.",
"every listen address, every state of the machine's sockets, every sequence of starts and stops of other servers","The tests start one server at a time at one address of the form :port, with nothing else listening there.",A("pkg/client/fake/fake_ckube.go:NewFakeCKubeServer","pkg/client/fake/fake_ckube.go:Stop","server/server.go:Run","server/server.go:Stop"))
p("C112","Numbers in objects of unregistered kinds keep their value",
"An object of an unregistered kind passes through Go's interface{}: a number in it is read as the nearest float64 and printed as the shortest decimal that reads as the same float64. What ckube writes is again a JSON number with the same value; integers are written as before; and passing through ckube a second time changes nothing.",
"every JSON number: any digits, fraction, exponent and sign; every JSON document","All numbers: the rounding to 53 bits, the search for the shortest decimal, and the choice of the notation have cases that hang on single bits.",A("watcher/watcher.go:UnmarshalJSON","watcher/watcher.go:MarshalJSON"))
p("C113","JSON is read as what it means, however it is written",
"A configuration file, or the page in a label selector, may be written by any program. Every JSON text is read as the value it means: with any white space, any order of members, raw characters or escapes, either case of hexadecimal digits, surrogate pairs. Hence the configuration in force and the page asked for are those that the text means. A text that is not JSON is refused.",
"every byte string; every JSON text of every value","All texts: escapes, surrogates, UTF-8, numbers and nesting in any combination.",A("cmd/cacheproxy/main.go:loadFromConfig","api/proxy.go:parsePaginateAndLabelsAndClean","common/config.go:Config","page/page.go:Paginate"))
p("C114","Sorting by number follows the numbers that the texts mean",
"A sort key with !int sorts by number. Every decimal or hexadecimal numeral of Go (with sign, point, exponent, underscores between digits) is accepted unless it is too large, and is read as the nearest float64; two texts of the same number are read alike, and the order of the results never contradicts the order of the numbers. So the results come in the order of the numbers that their texts mean; a text that is no numeral makes the query fail.",
"every byte string as index value, every rational number, every history of the cache, every query","All texts: bases, points, exponents, underscores and rounding in any combination; the tests sort by single digits.",A("store/memory/memory.go:sortObjs","store/memory/memory.go:Query"))
p("C115","Each cluster is the API server that the kube config names for it",
"After the kube config has been loaded, the clusters of ckube are its contexts, and the watcher and the client of each send their requests to the address that the kube config gives for the cluster of this context, with the credentials of its user; a kube config that does not give one for every context is refused.",
"every kube config (contexts, clusters, users, current context), inside and outside of a pod","All kube configs with their defaults and fallbacks; there is no test of the program, and tests of client-go do not know how ckube calls it.",A("cmd/cacheproxy/main.go:GetK8sConfigConfigWithFile","cmd/cacheproxy/main.go:GetKubernetesClientWithFile","cmd/cacheproxy/main.go:loadFromConfig"))
p("C116","While a file is rewritten, ckube keeps the old configuration or takes the new one",
"A file that is watched may be rewritten in place: it is emptied and then written piece by piece, and each step may cause a reload. Whenever a reload happens in the meantime, it fails and leaves everything as it was, or it loads what the new file means; it never ends the process, and never loads something that is neither.",
"every new content, every point at which the writing may have arrived, every number of reloads, every change between two reads of a file","Whether a reload happens before the file is complete is a race; the tests do not reload at all. All cut off texts.",A("cmd/cacheproxy/main.go:loadFromConfig","cmd/cacheproxy/main.go:GetKubernetesClientWithFile","cmd/cacheproxy/main.go:main"))
p("C117","What clients read of a cluster is part of one past state of it, and never goes back in time",
"Everything that one answer shows of a cluster existed there at one and the same moment of the past, with exactly these contents; a later answer, to whatever request, shows a moment that is not earlier. An object that exists all the time and has been shown is shown by all later answers.",
"every execution of API servers and watchers: changes, broken streams, failed connections, in any order; every sequence of requests","Needs a server with a history and streams that break at chosen moments; the tests of watcher and store look at single events.",A("watcher/watcher.go:watchResources","store/memory/memory.go:Clean","store/memory/memory.go:OnResourceAdded","store/memory/memory.go:Query","store/memory/memory.go:Get"))
p("C118","Delete options reach the API server as the client wrote them",
"The body of a forwarded DELETE says to the API server what the client's body says (kind, apiVersion, grace period, preconditions, orphanDependents, propagation policy, dryRun), apart from the cluster that the client library puts into dryRun; a body that no API server would accept is not turned into one that it accepts.",
"every DELETE request, every body, every member of the options, any order and case of the names",
"A test sends one or two sets of options; wrong types, unknown members and options without a cluster come in unboundedly many forms.",
A("api/proxy.go:parsePaginateAndLabelsAndClean","api/proxy.go:ProxyPass"))
p("C119","Query texts are read as what they say",
"Every query text says one list of names and values (pieces between ampersands, plus signs for blanks, percent escapes; pieces with a semicolon or a broken escape say nothing). The values of a parameter are those that the text gives to it, in order. Two requests whose queries say the same are answered alike, however the queries are written, if their label selector and pagination request can be read.",
"every query text, every parameter, every spelling, every request and iteration order",
"A test writes a handful of queries, mostly those that client-go writes; there are unboundedly many spellings of each.",
A("api/proxy.go:parsePaginateAndLabelsAndClean","api/proxy.go:Proxy"))
p("C120","Label selector texts are read as what they say",
"A label selector text is a list of requirements (a label, !label, label=value, ==, !=, >, <, in (…), notin (…)) with blanks, tabs and line ends where they are allowed, keys and values being legal label keys and values. Every such text is accepted and read as its requirements, in requests and in the selector parts of searches, and every other text is refused. The objects selected are those that meet the requirements.",
"every text of any bytes, every number of requirements and values, every spelling, every label map",
"The texts are unbounded, and the parser decides by look-ahead; a test has a handful of usual spellings.",
A("kube/label.go:ParseToLabelSelector","page/page.go:Match","api/proxy.go:parsePaginateAndLabelsAndClean"))
p("C121","Objects of every configured type are cached, whatever their kind",
"When ckube watches a configured type, the objects that the API server sends are decoded and cached, whatever the kind of the type is; they keep their apiVersion and kind; and starting to watch a type never ends the process.",
"every configuration, every sequence of watchers started by reloads, every kind, every sequence of streams",
"Which kinds are known depends on all configurations since the start of the process, and on the last letters of the kind; a test has one or two types.",
A("watcher/watcher.go:watchResources","watcher/watcher.go:GetObjectKind"))
p("C122","The scheme is never written while it is in use",
"All watchers register kinds in one map of client-go, which their decoders read. No goroutine writes this map while another one reads or writes it (Go ends the process when it notices).",
"every interleaving of any number of goroutines of any number of watchers",
"Two goroutines have to meet within nanoseconds; the tests of the race detector see one schedule.",
A("watcher/watcher.go:watchResources","watcher/watcher.go:Start"))
p("C123","A proxied watch ends when its client goes away",
"A watch that is passed on to an API server is over, there and here, when its client goes away; it is over otherwise only when its stream ends or after half an hour, and until then its client is sent every line that comes.",
"all numbers of watches, all interleavings of their bytes, failures, clients that leave and the passing of time",
"tests use one watch with a fake API server that keeps sending; leaving a quiet stream shows only as connections that pile up",
A("api/proxy.go:proxyPassWatch"))

p("C124","Naming a resource type more than once in the configuration makes no difference",
"Every entry of the configuration starts its own watcher for each cluster, and all of them tell the same store. However they interleave, a type that is named several times is cached as if it were named once: the cache has the API server's objects whenever what was sent has been received.",
"all numbers of entries for the type, all histories of the API server, all interleavings of the streams, their failures and reconnections",
"tests configure every type once; two watchers disagree only while one of them is behind or disconnected",
A("watcher/watcher.go:Start","watcher/watcher.go:watchResources"))

p("C125","A watcher asks for all objects of its type",
"The request of the watcher of a configured type and a cluster goes to the address that the kube config gives for the cluster, at the path of the Kubernetes API for the list of the type over all namespaces, and asks for a watch from the beginning, without selector or limit; clients of ckube ask for the same type at the same path.",
"every group, version and resource name, every server address",
"tests use a fake client instead of the URL, and server addresses without a path",
A("watcher/watcher.go:watchResources","server/route.go:routeHandles"))

p("C126","Search texts are read as what they say",
"A search text made, as PAGINATE_SPEC.md describes it, of texts, key=value, key=\"value\", their negations and label selectors, separated by semicolons and with any white space around them, is rejected exactly when it names an index that the object does not have, and accepts exactly the objects for which all its conditions hold.",
"every search text of the documented language, every index map, every history of the cache",
"The language is infinite and its parts interact: doubled semicolons, white space of Unicode, quoting, negation.",
A("page/page.go:SearchParts","page/page.go:Match","page/page.go:parseValue","page/page.go:GetClusters","PAGINATE_SPEC.md"))
p("C127","Queries in the documented language get what the documentation says",
"A query whose search, sort, page and page size are written as PAGINATE_SPEC.md describes is answered with the requested page of the list of exactly the cached objects for which the conditions hold, in the order the sort text says, numbers compared as numbers.",
"every search and sort text of the documented language, every history of the cache, every map order, every sorting algorithm",
"Search, sort and paging are each infinite languages, and the order depends on numbers written as text.",
A("store/memory/memory.go:Query","store/memory/memory.go:sortObjs","page/page.go:Match","PAGINATE_SPEC.md"))
p("C128","A watcher does not flood the API server, does not pause for long, and stops soon",
"However the API server behaves, a watcher of a type and cluster calls it at most once in three seconds, keeps a stream for at most an hour and tries again within fifteen seconds after a stream or an attempt has ended. After Stop it returns within fifteen seconds, opens no further stream and changes the store no more.",
"every behaviour of the API server and every time at which Stop is called",
"the pauses and the hour are real time; tests that wait for them do not exist, and the bad cases need a server that accepts a connection and does not answer",
A("watcher/watcher.go:watchResources","watcher/watcher.go:Stop"))
p("C129","A deleted object leaves the cache in bounded time",
"An object that no longer exists at the API server is no longer answered from the cache after a bounded time, even when the event of its deletion never arrives and the type has no objects left, as long as watches can be opened.",
"every run of an API server and a watcher with their clock, every delay and loss of events",
"the bound is two hours and three seconds; it takes a lost connection and an empty type to come near it",
A("watcher/watcher.go:watchResources","store/memory/memory.go:Clean"))
p("C130","The path of a forwarded request arrives",
"However a client escapes the path of a request, the API server is sent a path that says the same, segment by segment, and the whole query that ckube forwards; no path makes forwarding fail or leads elsewhere.",
"every request target that begins with a slash, every escaping of its path, every query",
"the path is decoded and encoded four times by three libraries on its way; only escapes that few clients use make a difference",
A("api/proxy.go:proxyPass","api/proxy.go:proxyPassWatch","api/proxy.go:getRequest"))
p("C131","Forwarded requests are sent on without delay",
  "A request that is forwarded is sent to its API server at once, however many other requests are forwarded before it or at the same time.",
  "all sequences of requests and watches, to any number of clusters and at any times",
  "Tests send a handful of requests; the delays and refusals begin with the 101st request to a cluster in a short time.",
  A("api/proxy.go:getRequest","api/proxy.go:proxyPass","api/proxy.go:proxyPassWatch","cmd/cacheproxy/main.go:GetKubernetesClientWithFile"))

p("C132","The indexes that the configuration file defines are those that queries see",
  "When the configuration file has been loaded, at the start or by a reload while the process runs, and the cache has caught up with API servers that do not change, then every list request can search and sort by every index the file defines for its type, and gets the page of exactly the matching objects of the API servers in the order of the values of these indexes.",
  "every configuration file, every run of the process with reloads, watchers and requests in between, every search and sort text of the documented language",
  "All texts of the file, all schedules of reloads and watchers before the request, and infinite query languages.",
  A("cmd/cacheproxy/main.go:loadFromConfig","cmd/cacheproxy/main.go:main","common/config.go:InitConfig","store/memory/memory.go:NewMemoryStore","store/memory/memory.go:Query","api/proxy.go:Proxy"))

p("C133","A forwarded request that the API server puts off is carried out once, or the client learns of the refusal",
  "When the API server answers a forwarded request with 429 or 5xx and asks to send it again after some seconds, the request is sent again when it is time, at most a few times and within its limit of a minute. The client gets the first answer that does not put the request off, or the last refusal. A write is not carried out twice, also when connections fail.",
  "every request that is no watch, every sequence of answers, lost connections and waits for the limiter, all times",
  "Tests use API servers that answer at once; sequences of refusals, pauses and failures cannot be enumerated.",
  A("api/proxy.go:proxyPass","api/proxy.go:getRequest"))

if __name__=="__main__":
    with open("/verif/properties.jsonl","w") as f:
        for x in P: f.write(json.dumps(x,ensure_ascii=False)+"\n")
    print(len(P))

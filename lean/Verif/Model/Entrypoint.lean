import Verif.Model.Str

/-! # entrypoint.sh

The script puts the token and the API server's address into nginx.conf by `sed`, starts nginx and then ckube. (The Dockerfile of this commit starts ckube alone and
has no nginx.) The shell, `sed` and nginx's reading of its file are not in /repo; they are modelled from their documented behaviour as far as the script needs them. -/

namespace Ckube

/-- nginx.conf (nginx.conf:1-86), line by line. -/
def nginxLines : List Str := [
  lit "user  nginx;",
  lit "worker_processes  1;",
  lit "error_log  /var/log/nginx/error.log warn;",
  lit "pid        /var/run/nginx.pid;",
  lit "events {",
  lit "  worker_connections  1024;",
  lit "}",
  lit "http {",
  lit "  include       /etc/nginx/mime.types;",
  lit "  default_type  application/octet-stream;",
  lit "  log_format  main  '$remote_addr - $remote_user [$time_local] \"$request\" '",
  lit "                    '$status $body_bytes_sent \"$http_referer\" '",
  lit "                    '\"$http_user_agent\" \"$http_x_forwarded_for\"';",
  lit "  access_log  /var/log/nginx/access.log  main;",
  lit "  sendfile        on;",
  lit "",
  lit "  upstream kube {",
  lit "    server __KUBE_SERVER__;",
  lit "  }",
  lit "",
  lit "  upstream proxy {",
  lit "    server 127.0.0.1:3033;",
  lit "  }",
  lit "",
  lit "  server {",
  lit "        listen       80;",
  lit "        server_name  localhost;",
  lit "        location / {",
  lit "            proxy_http_version 1.1;",
  lit "            proxy_buffering off;",
  lit "            proxy_read_timeout 30m;",
  lit "            proxy_set_header Upgrade $http_upgrade;",
  lit "            proxy_set_header Connection \"upgrade\";",
  lit "            proxy_set_header Host $http_host;",
  lit "            proxy_set_header X-Real-IP $remote_addr;",
  lit "            proxy_set_header X-Forwarded-For $proxy_add_x_forwarded_for;",
  lit "            proxy_set_header 'Authorization' \"Bearer __KUBE_TOKEN__\";",
  lit "",
  lit "            proxy_pass https://kube;",
  lit "        }",
  lit "        location /custom {",
  lit "            proxy_http_version 1.1;",
  lit "            proxy_set_header Upgrade $http_upgrade;",
  lit "            proxy_set_header Connection \"upgrade\";",
  lit "            proxy_pass http://proxy;",
  lit "        }",
  lit "        location /metrics {",
  lit "            proxy_http_version 1.1;",
  lit "            proxy_set_header Upgrade $http_upgrade;",
  lit "            proxy_set_header Connection \"upgrade\";",
  lit "            proxy_pass http://proxy;",
  lit "        }",
  lit "        location /healthy {",
  lit "            proxy_http_version 1.1;",
  lit "            proxy_set_header Upgrade $http_upgrade;",
  lit "            proxy_set_header Connection \"upgrade\";",
  lit "            proxy_pass http://proxy;",
  lit "        }",
  lit "        set $ACT \"\";  # G ---> Get Method, N ---> No Watch",
  lit "        if ($request_method = GET) {",
  lit "            set $ACT \"${ACT}G\";",
  lit "        }",
  lit "        if ($arg_watch !~* (1)|(true)) {",
  lit "            set $ACT \"${ACT}N\";",
  lit "        }",
  lit "        set $BACKEND \"https://kube\";",
  lit "        if ($ACT = \"GN\") {",
  lit "            set $BACKEND \"http://proxy\";",
  lit "        }",
  lit "        # /api/v1/pods  /api/v1/namespaces/default/pods /api/v1/namespaces/default/pods/xxx",
  lit "        # /apis/apps/v1/deployments /apis/apps/v1/namespaces/default/deployments /apis/apps/v1/namespaces/default/deployments/xxx",
  lit "        location ~ (((^/api)|(^/apis/[0-9a-zA-Z\\.\\-\\_]+))/[0-9a-zA-Z\\.\\-\\_]+/(namespaces/[0-9a-zA-Z\\.\\-\\_]+/)?[0-9a-zA-Z\\.\\-\\_]+(/[^/]+)?$) {",
  lit "            proxy_http_version 1.1;",
  lit "            proxy_buffering off;",
  lit "            proxy_read_timeout 30m;",
  lit "            proxy_set_header Upgrade $http_upgrade;",
  lit "            proxy_set_header Connection \"upgrade\";",
  lit "            proxy_set_header Host $http_host;",
  lit "            proxy_set_header X-Real-IP $remote_addr;",
  lit "            proxy_set_header X-Forwarded-For $proxy_add_x_forwarded_for;",
  lit "            proxy_set_header 'Authorization' \"Bearer __KUBE_TOKEN__\";",
  lit "",
  lit "            proxy_pass $BACKEND;",
  lit "        }",
  lit "    }",
  lit "}"]

/-- `$(cat file)`: without the newlines at the end (entrypoint.sh:5). -/
def shellSubst (file : Str) : Str := (file.reverse.dropWhile (· == 10)).reverse

/-- A part of the replacement of sed's `s`. -/
inductive SedRep where
  | byte (c : UInt8)
  /-- `&`: what was matched -/
  | matched
deriving DecidableEq

/-- The text `r/g` after `s/…/`: the replacement. None: it is not that, because the replacement ends early and something else than the flag `g` follows, because of a
newline, or because of a backslash, whose meaning is not modelled. -/
def sedScript : Str → Option (List SedRep)
  | [] => none
  | c :: s =>
    if c = 47 then if s = lit "g" then some [] else none
    else if c = 92 ∨ c = 10 then none
    else (sedScript s).map fun r => (if c = 38 then .matched else .byte c) :: r

/-- The text a match is replaced by. -/
def sedText (pat : Str) (r : List SedRep) : Str := r.flatMap fun x => match x with
  | .byte c => [c]
  | .matched => pat

/-- `s/pat/r/g` on a line, for a text `pat`: from the left, matches do not overlap. `k` bytes belong to a match. -/
def sedLine (pat r : Str) : Nat → Str → Str
  | _, [] => []
  | k + 1, _ :: s => sedLine pat r k s
  | 0, c :: s => if pat.isPrefixOf (c :: s) then r ++ sedLine pat r (pat.length - 1) s else c :: sedLine pat r 0 s

/-- `sed -i "s/pat/value/g" file` (entrypoint.sh:8-9). -/
def sedFile (pat value : Str) (file : List Str) : Option (List Str) :=
  (sedScript (value ++ lit "/g")).map fun r => file.map (sedLine pat (sedText pat r) 0)

/-- nginx.conf after entrypoint.sh:5-9. None: `sed` reports an error, which ends the script (`set -e`), or does something else. -/
def entryConf (tokenFile host port : Str) (conf : List Str) : Option (List Str) :=
  (sedFile (lit "__KUBE_TOKEN__") (shellSubst tokenFile) conf).bind (sedFile (lit "__KUBE_SERVER__") (host ++ 58 :: port))

/-- What is left of a line after its spaces and this text. -/
def afterText (t line : Str) : Option Str :=
  let l := line.dropWhile (· == 32)
  if t.isPrefixOf l then some (l.drop t.length) else none

/-- nginx's reading of a quoted text, up to the quote, the semicolon and the end of the line. None: it is not a text (a variable, an error) or it has a backslash, which is not
modelled. -/
def nginxQuoted : Str → Option Str
  | [] => none
  | c :: s => if c = 34 then if s = [59] then some [] else none else if c = 36 ∨ c = 92 then none else (nginxQuoted s).map (c :: ·)

/-- The Authorization header a line sets, if it sets one (nginx.conf:37,81). -/
def authHeader (l : Str) : Option (Option Str) := (afterText (lit "proxy_set_header 'Authorization' \"") l).map nginxQuoted

/-- The Authorization headers nginx sets, in the order of the file. -/
def authHeaders (conf : List Str) : List (Option Str) := conf.filterMap authHeader

/-- A host and a port of an upstream: the host ends at the first colon, the port is a number. None: nginx reports an error. -/
def upstreamAddr (s : Str) : Option (Str × Str) :=
  match splitByte 58 s with
  | [h, p] => if h ≠ [] ∧ p ≠ [] ∧ p.all (fun c => 48 ≤ c && c ≤ 57) then some (h, p) else none
  | _ => none

/-- The server of an upstream (nginx.conf:17-23), if the line names one: the text between `server ` and the semicolon that ends the line. (`server {` has no semicolon.) -/
def upstreamLine (l : Str) : Option (Option (Str × Str)) :=
  (afterText (lit "server ") l).bind fun t => match t.reverse with
    | 59 :: r => some (upstreamAddr r.reverse)
    | _ => none

/-- The servers of the upstreams, in the order of the file. -/
def upstreams (conf : List Str) : List (Option (Str × Str)) := conf.filterMap upstreamLine

/-- White space that separates fields. -/
def fieldSep (c : UInt8) : Bool := c == 32 || c == 9 || c == 10

/-- The fields of a text that is expanded without quotes. `cur` is the field being read. -/
def shellFields (cur : Str) : Str → List Str
  | [] => if cur = [] then [] else [cur]
  | c :: s => if fieldSep c then (if cur = [] then [] else [cur]) ++ shellFields [] s else shellFields (cur ++ [c]) s

/-- `$@` without quotes (entrypoint.sh:14): the arguments ckube gets. They have no `*`, `?` and `[`, which would be replaced by names of files. -/
def entryArgs (args : List Str) : List Str := args.flatMap (shellFields [])

end Ckube

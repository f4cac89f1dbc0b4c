import Verif.Spec.Proxy

/-! # Requests that an API server answers with a stream -/

namespace Ckube.Spec

/-- Kubernetes takes every value of a boolean query parameter for true except `0` and `false` in any case
(apimachinery, `Convert_Slice_string_To_bool`). -/
def KubeTrue (v : Str) : Prop := v ≠ lit "0" ∧ asciiLower v ≠ lit "false"

/-- What an API server answers with a stream: a watch, asked for by parameter or by a path of the old form, and a followed log. -/
inductive Streams (r : HReq) : Prop
  | watch (v : Str) : r.method = lit "GET" → First r.rawQuery (lit "watch") v → KubeTrue v → Streams r
  | oldCore (v rest : Str) : r.method = lit "GET" → 47 ∉ v → r.path = lit "/api/" ++ v ++ lit "/watch/" ++ rest → Streams r
  | oldGroup (g v rest : Str) : r.method = lit "GET" → 47 ∉ g → 47 ∉ v → r.path = lit "/apis/" ++ g ++ lit "/" ++ v ++ lit "/watch/" ++ rest → Streams r
  | follow (pod v : Str) : r.method = lit "GET" → r.path = pod ++ lit "/log" → First r.rawQuery (lit "follow") v → KubeTrue v → Streams r

end Ckube.Spec

import Verif.Model.Header
import Verif.Props.Wire

/-! # C95: content types -/

namespace Ckube
open Spec Json

variable {γ : Type} {up : Answer → UpRes}

/-! ## Without the header it is the writer of `Server` -/

theorem erase_jsonResp (h : Hw γ) (code : Int) (c : Part γ) : (jsonRespH h code c).map Hw.w = jsonResp h.w code c := by
  simp only [jsonRespH, jsonResp, Hw.writeHeader, Hw.label, Option.map_map]
  rfl

theorem erase_finish (h : Hw γ) (res : HRes γ) : (finishH h res).map Hw.w = finish h.w res := by
  cases res with
  | crash => exact erase_jsonResp h 500 .failure
  | err => exact erase_jsonResp h 500 .failure
  | nil => rfl
  | bytes s => rfl
  | value v => exact erase_jsonResp h 200 (.json v)
  | status code v =>
    have h1 := erase_jsonResp h code (.json v)
    simp only [finishH, finish, ← h1]
    cases jsonRespH h code (.json v) with
    | some x => rfl
    | none => exact erase_jsonResp (h.label jsonType) 500 .failure

theorem erase_errorProxy (h : Hw γ) (code : Int) (v : γ) :
    (errorProxyH h code v).1.w = (errorProxy h.w code v).1 ∧ (errorProxyH h code v).2 = (errorProxy h.w code v).2 := by
  simp only [errorProxyH, errorProxy, Hw.writeHeader, Hw.label]
  cases h.w.writeHeader code with
  | none => exact ⟨rfl, rfl⟩
  | some x => exact ⟨rfl, rfl⟩

theorem erase_copy (l : List Str) (h : Hw γ) : (l.foldl (fun h s => h.write (.bytes s)) h).w = l.foldl (fun w s => w.write (.bytes s)) h.w := by
  induction l generalizing h with
  | nil => rfl
  | cons s l ih => rw [List.foldl_cons, List.foldl_cons, ih]; rfl

theorem erase_proxyResult (a : Answer) (h : Hw Answer) :
    (proxyResultH up a h).1.w = (proxyResult up a h.w).1 ∧ (proxyResultH up a h).2 = (proxyResult up a h.w).2 := by
  cases a with
  | forward w c m p q b =>
    simp only [proxyResultH, proxyResult]
    cases up (.forward w c m p q b) with
    | ok _ body => exact ⟨rfl, rfl⟩
    | status code => exact erase_errorProxy h code _
    | fails => exact ⟨rfl, rfl⟩
    | stream rds => exact ⟨erase_copy _ _, rfl⟩
  | refused why => exact erase_errorProxy h _ _
  | noCluster c => exact erase_errorProxy h _ _
  | _ => exact ⟨rfl, rfl⟩

/-- The response to the client when the proxy's answer is `a`, with its content type. -/
def respondH (up : Answer → UpRes) (a : Answer) : Option (Hw Answer) := finishH (proxyResultH up a {}).1 (proxyResultH up a {}).2

theorem erase_respond (a : Answer) : (respondH up a).map Hw.w = respond up a := by
  have h := erase_proxyResult (up := up) a {}
  unfold respondH respond
  rw [erase_finish, h.1, h.2]

/-! ## C95 -/

/-- Whatever is sent is JSON. -/
def Json? (h : Hw γ) : Prop := (h.sent = none ∧ (h.pending = none ∨ h.pending = some jsonType)) ∨ h.sent = some (some jsonType)

theorem json_jsonResp {h h' : Hw γ} {code : Int} {c : Part γ} (hj : Json? h) (hr : jsonRespH h code c = some h') : h'.sent = some (some jsonType) := by
  simp only [jsonRespH, Hw.writeHeader, Hw.label, Option.map_map] at hr
  obtain ⟨w, _, rfl⟩ := Option.map_eq_some_iff.mp hr
  simp only [Function.comp, Hw.write, Option.getD_some]
  rcases hj with ⟨h1, _⟩ | h1 <;> simp [h1]

/-- **C95**: every response of the proxy, whatever it answers and whatever the API server does, is labelled as JSON. -/
theorem C95_labelled (a : Answer) {h : Hw Answer} (hr : respondH up a = some h) : h.contentType = some jsonType := by
  have fin : ∀ {x : Hw Answer} {res : HRes Answer}, Json? x → (res = .nil → x.contentType = some jsonType)
      → (∀ s, res = .bytes s → x.contentType = some jsonType) → finishH x res = some h → h.contentType = some jsonType := by
    intro x res hx hnil hb hf
    cases res with
    | crash => simp [Hw.contentType, json_jsonResp hx hf]
    | err => simp [Hw.contentType, json_jsonResp hx hf]
    | nil => simp only [finishH, Option.some.injEq] at hf; subst hf; exact hnil rfl
    | bytes s =>
      simp only [finishH, Option.some.injEq] at hf
      subst hf
      have := hb s rfl
      simpa [Hw.contentType, Hw.write] using this
    | value v => simp [Hw.contentType, json_jsonResp hx hf]
    | status code v =>
      simp only [finishH] at hf
      cases h1 : jsonRespH x code (.json v) with
      | some y =>
        rw [h1] at hf
        simp only [Option.some.injEq] at hf
        subst hf
        simp [Hw.contentType, json_jsonResp hx h1]
      | none =>
        rw [h1] at hf
        have hx' : Json? (x.label jsonType) := by
          rcases hx with ⟨e, _⟩ | e
          · exact Or.inl ⟨e, Or.inr rfl⟩
          · exact Or.inr e
        simp [Hw.contentType, json_jsonResp hx' hf]
  have h0 : Json? ({} : Hw Answer) := Or.inl ⟨rfl, Or.inl rfl⟩
  have err : ∀ code v, Json? (errorProxyH ({} : Hw Answer) code v).1 ∧ (errorProxyH ({} : Hw Answer) code v).2 ≠ .nil
      ∧ ∀ s, (errorProxyH ({} : Hw Answer) code v).2 ≠ .bytes s := by
    intro code v
    simp only [errorProxyH, Hw.writeHeader, Hw.label]
    cases Wr.writeHeader ({} : Wr Answer) code with
    | none => exact ⟨Or.inl ⟨rfl, Or.inr rfl⟩, by simp, by simp⟩
    | some w => exact ⟨Or.inr rfl, by simp, by simp⟩
  have copies : ∀ (l : List Str) (x : Hw Answer), x.contentType = some jsonType → (l.foldl (fun h s => h.write (.bytes s)) x).contentType = some jsonType := by
    intro l
    induction l with
    | nil => intro x hx; exact hx
    | cons s l ih =>
      intro x hx
      rw [List.foldl_cons]
      exact ih _ (by simpa [Hw.contentType, Hw.write] using hx)
  have hs : ∀ x : Hw Answer, x.contentType = some jsonType → Json? x := by
    intro x hx
    unfold Hw.contentType at hx
    cases hsent : x.sent with
    | none => rw [hsent] at hx; exact Or.inl ⟨hsent, Or.inr hx⟩
    | some y => rw [hsent] at hx; exact Or.inr (by rw [hsent, ← hx]; rfl)
  unfold respondH at hr
  cases a with
  | crash => exact fin h0 (by simp [proxyResultH]) (by simp [proxyResultH]) hr
  | object o => exact fin h0 (by simp [proxyResultH]) (by simp [proxyResultH]) hr
  | list => exact fin h0 (by simp [proxyResultH]) (by simp [proxyResultH]) hr
  | table => exact fin h0 (by simp [proxyResultH]) (by simp [proxyResultH]) hr
  | refused why => exact fin (err _ _).1 (fun e => absurd e (err _ _).2.1) (fun s e => absurd e ((err _ _).2.2 s)) hr
  | noCluster c => exact fin (err _ _).1 (fun e => absurd e (err _ _).2.1) (fun s e => absurd e ((err _ _).2.2 s)) hr
  | forward w c m p q b =>
    simp only [proxyResultH] at hr
    cases hu : up (.forward w c m p q b) with
    | ok code body =>
      rw [hu] at hr
      exact fin (x := Hw.label {} jsonType) (Or.inl ⟨rfl, Or.inr rfl⟩) (fun _ => rfl) (fun _ _ => rfl) hr
    | status code =>
      rw [hu] at hr
      exact fin (err _ _).1 (fun e => absurd e (err _ _).2.1) (fun s e => absurd e ((err _ _).2.2 s)) hr
    | fails => rw [hu] at hr; exact fin h0 (by simp) (by simp) hr
    | stream rds =>
      rw [hu] at hr
      have hc := copies (copyLoop [] rds).1 (Hw.label {} jsonType) rfl
      exact fin (hs _ hc) (fun _ => hc) (fun _ _ => hc) hr

/-- **C95**: a request without the token is refused with a labelled body, too. -/
theorem C95_token {token authz : Str} (f : Hw γ → Hw γ × HRes γ) (ht : token ≠ []) (ha : ¬ token <:+: authz) :
    ∃ h, answerRouteH token true authz f = (some h, false) ∧ h.contentType = some jsonType ∧ h.w = ⟨some 401, [.unauthorized]⟩ := by
  have hc : contains authz token = false := by
    cases hx : contains authz token with
    | false => rfl
    | true => exact absurd (contains_iff.mp hx) ha
  refine ⟨⟨⟨some 401, [.unauthorized]⟩, some jsonType, some (some jsonType)⟩, ?_, rfl, rfl⟩
  unfold answerRouteH
  rw [if_pos ⟨rfl, ht, hc⟩]
  rfl

/-- **C95**: what ckube answers itself from the cache is labelled as JSON and is JSON. -/
theorem C95_own_partial {a : Answer} {obj : Obj → JV} {texts : Answer → Str} {failure : Str} {lab : Bool}
    (ha : (∃ o, a = .object o) ∨ (∃ v k l rc items, a = .list v k l rc items) ∨ ∃ cs rows, a = .table cs rows) (hg : Good (a.json obj texts lab)) :
    ∃ h doc, respondH up a = some h ∧ h.contentType = some (lit "application/json") ∧ parse (h.w.text obj texts lab failure) = some doc := by
  have hw : respond up a = some ⟨some 200, [.json a]⟩ := by
    rcases ha with ⟨o, rfl⟩ | ⟨v, k, l, rc, items, rfl⟩ | ⟨cs, rows, rfl⟩ <;> rfl
  have he := erase_respond (up := up) a
  rw [hw] at he
  obtain ⟨h, h1, h2⟩ := Option.map_eq_some_iff.mp he
  exact ⟨h, _, h1, C95_labelled a h1, by rw [h2]; exact body_parses hg 200⟩

/-- **C95 is false** for forwarded requests whose answer is no JSON, such as the log of a container: every body is labelled as JSON. -/
theorem C95_false_forwarded {w : Bool} {c m p q b body : Str} {code : Int} (hu : up (.forward w c m p q b) = .ok code body) (hn : parse body = none)
    (obj : Obj → JV) (texts : Answer → Str) (failure : Str) (lab : Bool) :
    ∃ h, respondH up (.forward w c m p q b) = some h ∧ h.contentType = some (lit "application/json") ∧ parse (h.w.text obj texts lab failure) = none := by
  have hr : respondH up (.forward w c m p q b) = some ((Hw.label {} jsonType).write (.bytes body)) := by
    simp [respondH, proxyResultH, hu, finishH]
  refine ⟨_, hr, C95_labelled _ hr, ?_⟩
  show parse (body ++ []) = none
  rw [List.append_nil]
  exact hn

/-- A container's log, a list and the health of the server. -/
example : (parse (lit "started")).isNone = true
    ∧ (respondH (fun _ => .ok 200 (lit "started")) (.forward false (lit "c1") (lit "GET") (lit "/api/v1/namespaces/prod/pods/web/log") [] [])).map Hw.contentType
      = some (some (lit "application/json"))
    ∧ (respondH (fun _ => .fails) (.list (lit "v1") (lit "PodList") (lit "/api/v1/pods") 0 [])).map Hw.contentType = some (some (lit "application/json"))
    ∧ (finishH (healthyH ({} : Hw Unit)).1 (healthyH ({} : Hw Unit)).2).map Hw.contentType = some none := by
  decide +kernel

end Ckube

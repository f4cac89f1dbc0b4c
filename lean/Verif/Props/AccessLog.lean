import Verif.Model.AccessLog
import Verif.Props.Http
import Verif.Props.Wire

/-! # C101: the access log -/

namespace Ckube

/-- What the client receives of a response when the handler is done: the status (net/http sends 200 when none was set), and the number of bytes of the body. A
response to HEAD and one with status 1xx, 204 or 304 has no body. -/
def Spec.received {γ : Type} (len : Part γ → Nat) (method : Str) (w : Wr γ) : Int × Nat :=
  let s := w.status.getD 200
  (s, if method = lit "HEAD" ∨ (100 ≤ s ∧ s ≤ 199) ∨ s = 204 ∨ s = 304 then 0 else (w.body.map len).sum)

open Spec

variable {γ : Type} {len : Part γ → Nat}

/-! ## Without the notes it is the writer of `Server` -/

theorem call_w (len : Part γ → Nat) (l : Lw γ) (c : Call γ) :
    (l.call len c).1.w = ((Lw.call (fun _ => 0) { w := l.w } c).1.w) ∧ (l.call len c).2 = (Lw.call (fun _ => 0) { w := l.w } c).2 := by
  cases c with
  | header code =>
    simp only [Lw.call]
    cases l.w.writeHeader code <;> exact ⟨rfl, rfl⟩
  | write p => exact ⟨rfl, rfl⟩

theorem calls_w (len len' : Part γ → Nat) (cs : List (Call γ)) : ∀ (l l' : Lw γ), l.w = l'.w →
    (l.calls len cs).1.w = (l'.calls len' cs).1.w ∧ (l.calls len cs).2 = (l'.calls len' cs).2 := by
  induction cs with
  | nil => intro l l' h; exact ⟨h, rfl⟩
  | cons c cs ih =>
    intro l l' h
    have h1 := call_w len l c
    have h2 := call_w len' l' c
    rw [h] at h1
    have h3 := h1.2.trans h2.2.symm
    have h4 := h1.1.trans h2.1.symm
    simp only [Lw.calls]
    generalize l.call len c = x at h3 h4
    generalize l'.call len' c = y at h3 h4
    obtain ⟨x, b⟩ := x
    obtain ⟨y, b'⟩ := y
    obtain rfl : b = b' := h3
    cases b with
    | true => exact ih _ _ h4
    | false => exact ⟨h4, rfl⟩

theorem calls_append (len : Part γ → Nat) (a b : List (Call γ)) : ∀ l : Lw γ,
    l.calls len (a ++ b) = if (l.calls len a).2 then (l.calls len a).1.calls len b else l.calls len a := by
  induction a with
  | nil => intro l; rfl
  | cons c a ih =>
    intro l
    rcases hx : l.call len c with ⟨x, b⟩
    cases b with
    | true => simp only [List.cons_append, Lw.calls, hx]; exact ih _
    | false => simp [Lw.calls, hx]

theorem jsonCalls_some (len : Part γ → Nat) {l : Lw γ} {code : Int} {w : Wr γ} (p : Part γ) (h : l.w.writeHeader code = some w) :
    (l.calls len (jsonCalls code p)).2 = true ∧ (l.calls len (jsonCalls code p)).1.w = w.write p := by
  simp [jsonCalls, Lw.calls, Lw.call, h]

theorem jsonCalls_none (len : Part γ → Nat) {l : Lw γ} {code : Int} (p : Part γ) (h : l.w.writeHeader code = none) :
    l.calls len (jsonCalls code p) = ({ l with code := code }, false) := by
  simp [jsonCalls, Lw.calls, Lw.call, h]

/-- The calls of `jsonResp` are `jsonResp`. -/
theorem jsonCalls_eq (len : Part γ → Nat) (l : Lw γ) (code : Int) (p : Part γ) :
    jsonResp l.w code p = if (l.calls len (jsonCalls code p)).2 then some (l.calls len (jsonCalls code p)).1.w else none := by
  cases h : l.w.writeHeader code with
  | none => simp [jsonResp, h, jsonCalls_none len p h]
  | some w => simp [jsonResp, h, jsonCalls_some len p h]

/-- The function of a route with the access log is the one without, and no panic escapes. -/
theorem answerLogged_eq (len : Part γ → Nat) (token : Str) (auth : Bool) (authz : Str) (h : List (Call γ) × HRes γ) :
    (answerLogged len token auth authz h).2 = true
    ∧ (answerRoute token auth authz (asHandler h)).1 = some (answerLogged len token auth authz h).1.w := by
  have r500 : ∀ l : Lw γ, (l.calls len (jsonCalls 500 .failure)).2 = true := by
    intro l
    have h1 : l.w.writeHeader 500 ≠ none := by
      simp only [Wr.writeHeader]
      split
      · simp
      · simp
    cases hw : l.w.writeHeader 500 with
    | none => exact absurd hw h1
    | some w => exact (jsonCalls_some len _ hw).1
  have rec500 : ∀ l : Lw γ, recovered l.w = some (l.calls len (jsonCalls 500 .failure)).1.w := by
    intro l
    rw [recovered, jsonCalls_eq len l, r500 l]
    rfl
  by_cases ha : auth = true ∧ token ≠ [] ∧ contains authz token = false
  · have h1 : (Lw.calls len ({} : Lw γ) (jsonCalls 401 .unauthorized)).2 = true := rfl
    simp only [answerLogged, answerRoute, if_pos ha, h1, if_true, true_and]
    rw [show ({} : Wr γ) = ({} : Lw γ).w from rfl, jsonCalls_eq len ({} : Lw γ), h1]
    rfl
  · simp only [answerLogged, answerRoute, if_neg ha, asHandler]
    have hw := calls_w len (fun _ => 0) h.1 ({} : Lw γ) { w := {} } rfl
    rw [calls_append]
    generalize Lw.calls (fun _ => 0) ({ w := {} } : Lw γ) h.1 = y at hw
    generalize Lw.calls len ({} : Lw γ) h.1 = x at hw
    obtain ⟨l, b⟩ := x
    obtain ⟨⟨w', c', n'⟩, b'⟩ := y
    obtain rfl : b = b' := hw.2
    obtain rfl : l.w = w' := hw.1
    cases b with
    | false =>
      simp only [Bool.false_eq_true, if_false, Bool.false_and]
      exact ⟨r500 l, rec500 l⟩
    | true =>
      simp only [if_true]
      cases h.2 with
      | crash =>
        simp only [HRes.calls, HRes.panics, Lw.calls, Bool.not_true, Bool.and_false, Bool.false_eq_true, if_false]
        exact ⟨r500 l, rec500 l⟩
      | err =>
        simp only [HRes.calls, HRes.panics, Lw.calls, Bool.not_true, Bool.and_false, Bool.false_eq_true, if_false]
        exact ⟨r500 l, rec500 l⟩
      | nil => exact ⟨rfl, rfl⟩
      | bytes s => exact ⟨rfl, rfl⟩
      | value v =>
        have hj := jsonCalls_eq len l 200 (.json v)
        simp only [HRes.calls, HRes.panics, Bool.not_false, Bool.and_true, finish, hj]
        by_cases h2 : (l.calls len (jsonCalls 200 (.json v))).2 = true
        · simp [h2]
        · exfalso
          apply h2
          have h1 : l.w.writeHeader 200 ≠ none := by
            simp only [Wr.writeHeader]
            split
            · simp
            · simp
          cases hw : l.w.writeHeader 200 with
          | none => exact absurd hw h1
          | some w => exact (jsonCalls_some len _ hw).1
      | status code v =>
        have hj := jsonCalls_eq len l code (.json v)
        simp only [HRes.calls, HRes.panics, Bool.not_false, Bool.and_true, finish, hj]
        by_cases h2 : (l.calls len (jsonCalls code (.json v))).2 = true
        · simp [h2]
        · have hst : (l.calls len (jsonCalls code (.json v))).1.w = l.w := by
            cases hw : l.w.writeHeader code with
            | none => rw [jsonCalls_none len _ hw]
            | some w => exact absurd (jsonCalls_some len _ hw).1 h2
          simp only [h2, Bool.false_eq_true, if_false]
          refine ⟨r500 _, ?_⟩
          rw [← hst]
          exact rec500 _

theorem asHandler_proxy (up : Answer → UpRes) (a : Answer) (w : Wr Answer) : asHandler (proxyCalls up a) w = proxyResult up a w := by
  have err : ∀ code, asHandler ([.header code], .status code a) w = errorProxy w code a := by
    intro code
    simp only [asHandler, errorProxy, Lw.calls, Lw.call]
    cases w.writeHeader code <;> rfl
  have copy : ∀ (ss : List Str) (l : Lw Answer), (l.calls (fun _ => 0) (ss.map fun s => .write (.bytes s))).2 = true
      ∧ (l.calls (fun _ => 0) (ss.map fun s => .write (.bytes s))).1.w = ss.foldl (fun w s => w.write (.bytes s)) l.w := by
    intro ss
    induction ss with
    | nil => intro l; exact ⟨rfl, rfl⟩
    | cons s ss ih =>
      intro l
      simp only [List.map_cons, Lw.calls, Lw.call, List.foldl_cons]
      exact ih _
  cases a with
  | forward s c m p q b =>
    simp only [proxyCalls, proxyResult]
    cases up (.forward s c m p q b) with
    | ok _ body => rfl
    | status code => exact err code
    | fails => rfl
    | stream rds =>
      simp only [asHandler]
      have h1 := copy (copyLoop [] rds).1 { w := w }
      generalize Lw.calls (fun _ => 0) ({ w := w } : Lw Answer) _ = y at h1
      obtain ⟨l, b⟩ := y
      obtain rfl : b = true := h1.1
      exact congrArg (·, _) h1.2
  | refused why => exact err _
  | noCluster c => exact err _
  | _ => rfl

theorem asHandler_healthy (w : Wr γ) : asHandler healthyCalls w = healthy w := by
  simp only [asHandler, healthyCalls, healthy, Lw.calls, Lw.call]
  have h : (w.write (.bytes (lit "1"))).writeHeader 200 = some (w.write (.bytes (lit "1"))) := by simp [Wr.writeHeader, Wr.write]
  simp only [h]

/-! ## The notes -/

theorem Lw.calls_cons {l : Lw γ} {x : Call γ} (h : (l.call len x).2 = true) (cs : List (Call γ)) : l.calls len (x :: cs) = (l.call len x).1.calls len cs := by
  simp only [Lw.calls]
  generalize l.call len x = y at h
  obtain ⟨y, b⟩ := y
  obtain rfl : b = true := h
  rfl

/-- The notes say what is sent with status `c`. -/
structure Agree (len : Part γ → Nat) (c : Int) (l : Lw γ) : Prop where
  range : 100 ≤ c
  status : l.w.status = some c
  code : l.code = c
  length : l.length = if bodyAllowed c then (l.w.body.map len).sum else 0

theorem Agree.call {c : Int} {l : Lw γ} (h : Agree len c l) {x : Call γ} (hx : ∀ code, x = .header code → code = c) :
    (l.call len x).2 = true ∧ Agree len c (l.call len x).1 := by
  cases x with
  | header code =>
    obtain rfl := hx code rfl
    have h1 : l.w.writeHeader code = some l.w := by simp [Wr.writeHeader, h.status]
    simp only [Lw.call, h1, true_and]
    exact ⟨h.range, h.status, rfl, h.length⟩
  | write p =>
    simp only [Lw.call, true_and]
    have hr := h.range
    refine ⟨hr, ?_, ?_, ?_⟩
    · simp [Wr.write, h.status]
    · rw [h.code]
      split
      · omega
      · rfl
    · simp only [Wr.write, h.status, Option.getD_some, h.length, List.map_append, List.map_cons, List.map_nil, List.sum_append, List.sum_cons, List.sum_nil]
      split <;> simp

theorem Agree.calls {c : Int} (cs : List (Call γ)) : ∀ {l : Lw γ}, Agree len c l → (∀ code, Call.header code ∈ cs → code = c) →
    (l.calls len cs).2 = true ∧ Agree len c (l.calls len cs).1 := by
  induction cs with
  | nil => intro l h _; exact ⟨rfl, h⟩
  | cons x cs ih =>
    intro l h hx
    have h1 := h.call (x := x) fun code e => hx code (e ▸ List.mem_cons_self)
    rw [Lw.calls_cons h1.1]
    exact ih h1.2 fun code hc => hx code (List.mem_cons_of_mem _ hc)

/-- The first write sends 200. -/
theorem Agree.write (p : Part γ) : Agree len 200 (Lw.call len {} (.write p)).1 := by
  refine ⟨by omega, rfl, rfl, ?_⟩
  simp [Lw.call, Wr.write, bodyAllowed]

/-- The first status is sent, unless it is informational. -/
theorem Agree.header {l : Lw γ} (hl : l.w = {} ∧ l.length = 0) {c : Int} (h1 : 100 ≤ c) (h2 : c ≤ 999) (h3 : c ≤ 199 → c = 101) :
    (l.call len (.header c)).2 = true ∧ Agree len c (l.call len (.header c)).1 := by
  have hw : l.w.writeHeader c = some ⟨some c, []⟩ := by
    rw [hl.1]
    simp only [Wr.writeHeader]
    rw [if_neg (by simp), if_neg (by omega), if_neg (by omega)]
  simp only [Lw.call, hw, true_and]
  exact ⟨h1, rfl, rfl, by simp [hl.2]⟩

theorem Agree.received {c : Int} {l : Lw γ} (h : Agree len c l) {m : Str} (hm : m ≠ lit "HEAD") : (l.code, l.length) = received len m l.w := by
  simp only [Spec.received, h.status, Option.getD_some, h.code, h.length, hm, false_or]
  congr 1
  by_cases h1 : (100 ≤ c ∧ c ≤ 199) ∨ c = 204 ∨ c = 304
  · rw [if_pos h1, if_neg]
    rcases h1 with h1 | h1 | h1 <;> simp [bodyAllowed, h1]
  · rw [if_neg h1, if_pos]
    simp only [not_or] at h1
    simp [bodyAllowed, h1.2.1, h1.2.2]
    omega

/-- A handler whose statuses, including that of its result, are all `c`, and not informational; 200 if it writes before it sets a status. It may panic, or return an error,
only before it has done anything. -/
def Steady (h : List (Call γ) × HRes γ) : Prop :=
  ∃ c : Int, (∀ code, Call.header code ∈ h.1 ++ h.2.calls → code = c) ∧ (100 ≤ c → c ≤ 199 → c = 101)
    ∧ (∀ p rest, h.1 ++ h.2.calls = .write p :: rest → c = 200) ∧ (h.2.panics = true → h.1 = [])

theorem steady_proxy (up : Answer → UpRes) (a : Answer) (hu : ∀ code, up a = .status code → 100 ≤ code → code ≤ 199 → code = 101) : Steady (proxyCalls up a) := by
  have err : ∀ code : Int, (100 ≤ code → code ≤ 199 → code = 101) → Steady ([Call.header code], HRes.status code a) := by
    intro code hc
    refine ⟨code, ?_, hc, ?_, ?_⟩
    · simp [HRes.calls, jsonCalls]
    · simp
    · simp [HRes.panics]
  have val : Steady (([], .value a) : List (Call Answer) × HRes Answer) := by
    refine ⟨200, ?_, by omega, ?_, ?_⟩
    · simp [HRes.calls, jsonCalls]
    · simp
    · simp
  cases a with
  | forward s c m p q b =>
    simp only [proxyCalls]
    cases hup : up (.forward s c m p q b) with
    | ok _ body => exact ⟨200, by simp [HRes.calls], by omega, by simp, by simp⟩
    | status code => exact err code (hu code hup)
    | fails => exact ⟨200, by simp [HRes.calls], by omega, by simp, by simp⟩
    | stream rds => exact ⟨200, by simp [HRes.calls], by omega, by simp, by simp [HRes.panics]⟩
  | refused why => cases why <;> exact err _ (by simp [Refusal.code])
  | noCluster c => exact err _ (by omega)
  | crash => exact ⟨200, by simp [proxyCalls, HRes.calls], by omega, by simp, by simp [proxyCalls]⟩
  | object o => exact val
  | list v k l rc items => exact val
  | table cs rows => exact val

theorem steady_healthy : Steady (healthyCalls : List (Call γ) × HRes γ) :=
  ⟨200, by simp [healthyCalls, HRes.calls], by omega, by simp [healthyCalls], by simp [healthyCalls, HRes.panics]⟩

/-- What is noted about a response with something in it is what the client receives; otherwise nothing has been noted. -/
theorem answerLogged_received (token : Str) (auth : Bool) (authz : Str) {h : List (Call γ) × HRes γ} (hs : Steady h) {m : Str} (hm : m ≠ lit "HEAD") :
    let l := (answerLogged len token auth authz h).1
    ((l.code, l.length) = received len m l.w) ∨ (l.w = {} ∧ l.code = 0 ∧ l.length = 0) := by
  have rec500 : ∀ l : Lw γ, (l.w = {} ∧ l.length = 0) → ((l.calls len (jsonCalls 500 .failure)).1.code, (l.calls len (jsonCalls 500 .failure)).1.length)
      = received len m (l.calls len (jsonCalls 500 .failure)).1.w := by
    intro l hl
    have h1 := Agree.header (len := len) hl (c := 500) (by omega) (by omega) (by omega)
    simp only [jsonCalls]
    rw [Lw.calls_cons h1.1]
    exact (h1.2.calls [.write .failure] (by simp)).2.received hm
  by_cases ha : auth = true ∧ token ≠ [] ∧ contains authz token = false
  · left
    have h1 := Agree.header (l := ({} : Lw γ)) (len := len) ⟨rfl, rfl⟩ (c := 401) (by omega) (by omega) (by omega)
    have h2 := h1.2.calls [.write .unauthorized] (by simp)
    have h3 : Lw.calls len ({} : Lw γ) (jsonCalls 401 .unauthorized) = (Lw.call len {} (.header 401)).1.calls len [.write .unauthorized] := by
      simp only [jsonCalls]
      rw [Lw.calls_cons h1.1]
    simp only [answerLogged, if_pos ha, h3, h2.1, if_true]
    exact h2.2.received hm
  · obtain ⟨c, hall, hinf, hwr, hpan⟩ := hs
    simp only [answerLogged, if_neg ha]
    cases hp : h.2.panics with
    | true =>
      have h1 := hpan hp
      have h2 : h.2.calls = [] := by
        cases h3 : h.2 with
        | crash => rfl
        | err => rfl
        | nil => rfl
        | _ => rw [h3] at hp; simp [HRes.panics] at hp
      left
      simp only [h1, h2, List.append_nil, Lw.calls, Bool.not_true, Bool.and_false, Bool.false_eq_true, if_false]
      exact rec500 {} ⟨rfl, rfl⟩
    | false =>
      simp only [Bool.not_false, Bool.and_true]
      generalize h.1 ++ h.2.calls = t at hall hwr
      cases t with
      | nil => right; exact ⟨rfl, rfl, rfl⟩
      | cons x t =>
        left
        have fin : Agree len c (Lw.call len {} x).1 → (Lw.call len ({} : Lw γ) x).2 = true → _ := fun ag hb =>
          ag.calls (len := len) t fun code hc => hall code (List.mem_cons_of_mem _ hc)
        cases x with
        | write p =>
          obtain rfl := hwr p t rfl
          have h1 := fin (Agree.write p) rfl
          have h2 : Lw.calls len ({} : Lw γ) (.write p :: t) = (Lw.call len {} (.write p)).1.calls len t := rfl
          rw [h2]
          simp only [h1.1, if_true]
          exact h1.2.received hm
        | header code =>
          obtain rfl := hall code List.mem_cons_self
          by_cases hr : 100 ≤ code ∧ code ≤ 999
          · have ag := Agree.header (l := ({} : Lw γ)) (len := len) ⟨rfl, rfl⟩ hr.1 hr.2 (hinf hr.1)
            have h1 := fin ag.2 ag.1
            have h2 : Lw.calls len ({} : Lw γ) (.header code :: t) = (Lw.call len {} (.header code)).1.calls len t := by
              rw [Lw.calls_cons ag.1]
            rw [h2]
            simp only [h1.1, if_true]
            exact h1.2.received hm
          · have hw : ({} : Wr γ).writeHeader code = none := by
              simp only [Wr.writeHeader]
              rw [if_neg (by simp), if_pos (by omega)]
            have h2 : Lw.calls len ({} : Lw γ) (.header code :: t) = ({ code := code }, false) := by
              simp only [Lw.calls, Lw.call, hw]
            rw [h2]
            simp only [Bool.false_eq_true, if_false]
            exact rec500 _ ⟨rfl, rfl⟩

/-! ## C101 -/

variable {env : Env} {st : StoreI} {tord : Nat → List (Str × Str) → List (Str × Str)} {ord : Values} {up : Answer → UpRes}

theorem asHandler_ckube (r : HReq) (rest : CallHandlers Answer) :
    (fun h vs => asHandler (ckubeCalls env st tord ord up r rest h vs))
      = ckubeHandlers env st tord ord up r fun h vs => asHandler (rest h vs) := by
  funext h vs w
  cases h with
  | proxy => exact asHandler_proxy up _ w
  | healthy => exact asHandler_healthy w
  | _ => rfl

/-- **C101**: every request that is routed leaves a line in the access log, with the number of bytes and the status the client received; when the handler has written
nothing, the status is noted as 0. Missing for the full claim: requests with HEAD (`C101_false_head`), responses without anything in them (`C101_false_silent`), requests mux
redirects (`C101_false_redirect`), API servers that answer with an informational status (`C101_false_informational`). The other handlers (`rest`: metrics and services of a deployment)
are assumed to be steady. -/
theorem C101_log_partial {len : Part Answer → Nat} {r : HReq} {rest : CallHandlers Answer} (hrest : ∀ h vs, Steady (rest h vs))
    (hup : ∀ a code, up a = .status code → 100 ≤ code → code ≤ 199 → code = 101) (hm : r.method ≠ lit "HEAD") (hp : cleanPath r.path = r.path)
    (token authz : Str) :
    ∃ w ran status length,
      serveReq token (ckubeHandlers env st tord ord up r fun h vs => asHandler (rest h vs)) r.method r.path authz = .answered (some w) ran
      ∧ serveLogged len token (ckubeCalls env st tord ord up r rest) r.method r.path authz = some (w, status, length)
      ∧ length = (received len r.method w).2
      ∧ (status = (received len r.method w).1 ∨ (w = {} ∧ status = 0)) := by
  obtain ⟨rt, vs, hr, _, _⟩ := routeOf_isSome r.method r.path
  have h1 := answerLogged_eq len token rt.auth authz (ckubeCalls env st tord ord up r rest rt.handler vs)
  have h2 : Steady (ckubeCalls env st tord ord up r rest rt.handler vs) := by
    cases rt.handler with
    | proxy => exact steady_proxy up _ (hup _)
    | healthy => exact steady_healthy
    | metrics => exact hrest _ _
    | deploy2service => exact hrest _ _
  have h3 := answerLogged_received (len := len) token rt.auth authz h2 hm
  refine ⟨(answerLogged len token rt.auth authz (ckubeCalls env st tord ord up r rest rt.handler vs)).1.w,
    if (answerRoute token rt.auth authz (asHandler (ckubeCalls env st tord ord up r rest rt.handler vs))).2 then some (rt.handler, vs) else none,
    (answerLogged len token rt.auth authz (ckubeCalls env st tord ord up r rest rt.handler vs)).1.code,
    (answerLogged len token rt.auth authz (ckubeCalls env st tord ord up r rest rt.handler vs)).1.length, ?_, ?_, ?_, ?_⟩
  · rw [← asHandler_ckube]
    simp only [serveReq, hp, ne_eq, not_true_eq_false, if_false, hr, h1.2]
  · simp only [serveLogged, hp, ne_eq, not_true_eq_false, if_false, hr, h1.1, if_true]
  · rcases h3 with h3 | ⟨h3, _, h4⟩
    · exact congrArg Prod.snd h3
    · rw [h3, h4]
      simp [Spec.received]
  · rcases h3 with h3 | ⟨h3, h4, _⟩
    · exact Or.inl (congrArg Prod.fst h3)
    · exact Or.inr ⟨h3, h4⟩

/-- A watch of pods. -/
def exWatched : HReq := { method := lit "GET", path := lit "/api/v1/pods", rawQuery := lit "watch=true" }

/-- The number of bytes of a part, with empty texts. -/
def exLen : Part Answer → Nat := fun p => (p.text (fun _ => .null) (fun _ => []) false (lit "{}")).length

/-- Status and length in the access log for the request `r` to the server of the examples. -/
def exLogged (up : Answer → UpRes) (r : HReq) : Option (Int × Nat) :=
  (serveLogged exLen [] (ckubeCalls exEnv exStore (fun _ m => m) (parseQuery r.rawQuery) up r fun _ _ => ([], .crash)) r.method r.path []).map (·.2)

/-- What its client receives. -/
def exReceived (up : Answer → UpRes) (r : HReq) : Option (Int × Nat) :=
  match serveReq [] (ckubeHandlers exEnv exStore (fun _ m => m) (parseQuery r.rawQuery) up r fun _ _ => asHandler ([], .crash)) r.method r.path [] with
  | .answered (some w) _ => some (received exLen r.method w)
  | _ => none

/-- A watch that sends two lines, a list, and a refusal. -/
example : exLogged (fun _ => .stream [⟨some 123, false, false⟩, ⟨some 10, false, false⟩, ⟨some 125, false, false⟩, ⟨none, true, false⟩]) exWatched = some (200, 3)
    ∧ exReceived (fun _ => .stream [⟨some 123, false, false⟩, ⟨some 10, false, false⟩, ⟨some 125, false, false⟩, ⟨none, true, false⟩]) exWatched = some (200, 3)
    ∧ exLogged (fun _ => .status 403) exWatched = exReceived (fun _ => .status 403) exWatched
    ∧ (exLogged (fun _ => .status 403) exWatched).map Prod.fst = some 403
    ∧ exLogged (fun _ => .status 0) exWatched = some (500, 2) := by
  decide +kernel

/-- The hypothesis on the other handlers can be met. -/
example : ∀ (_ : HandlerId) (_ : Vars), Steady (([], .value (.refused .query)) : List (Call Answer) × HRes Answer) := by
  intro _ _
  exact ⟨200, by simp [HRes.calls, jsonCalls], by omega, by simp, by simp⟩

/-- **C101 is false** when the client of a watch goes away before the first line: the log says status 0, sent is 200. -/
theorem C101_false_silent : exLogged (fun _ => .stream [⟨some 123, false, true⟩]) exWatched = some (0, 0)
    ∧ exReceived (fun _ => .stream [⟨some 123, false, true⟩]) exWatched = some (200, 0) := by
  decide +kernel

/-- **C101 is false** for requests with HEAD: the log counts the bytes of a body that is not sent. -/
theorem C101_false_head : exLogged (fun _ => .fails) { exWatched with method := lit "HEAD" } = some (500, 2)
    ∧ exReceived (fun _ => .fails) { exWatched with method := lit "HEAD" } = some (500, 0) := by
  decide +kernel

/-- **C101 is false** for paths that are not clean: the redirect leaves no line. -/
theorem C101_false_redirect : exLogged (fun _ => .fails) { exWatched with path := lit "/api//v1/pods" } = none
    ∧ serveReq [] (ckubeHandlers exEnv exStore (fun _ m => m) [] (fun _ => .fails) exWatched fun _ _ => asHandler ([], .crash)) (lit "GET") (lit "/api//v1/pods") []
      = .redirect (lit "/api/v1/pods") := by
  have hc : cleanPath (lit "/api//v1/pods") = lit "/api/v1/pods" := by decide +kernel
  refine ⟨by decide +kernel, ?_⟩
  rw [serveReq, if_pos (by rw [hc]; decide), hc]

/-- **C101 is false** for a failure with an informational status: the client receives 200. -/
theorem C101_false_informational : (exLogged (fun _ => .status 103) exWatched).map Prod.fst = some 103
    ∧ (exReceived (fun _ => .status 103) exWatched).map Prod.fst = some 200 := by
  decide +kernel

end Ckube

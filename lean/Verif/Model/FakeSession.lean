import Verif.Model.Fake

/-! # A test with the fake server (pkg/client/fake/fake_ckube.go)

The calls a test makes one after the other: writes (through a client) and `Clean`. `Stop` is not modelled; a test that writes from several
goroutines is in `Verif.Model.FakeConc`. -/

namespace Ckube

/-- A write request, with the order in which its query is iterated, or `Clean`, with the index configuration of the global
configuration at that time. -/
inductive FOp where
  | write (ord : Values) (r : HReq)
  | clean (conf : List (GVR × List (Str × Str)))

/-- One call. `Clean` (pkg/client/fake/fake_ckube.go:96-108) makes a new store from the global configuration and gives it to the
server; it sends nothing to anybody. -/
def fakeOp (eval : Str → Obj → Str) (dec : Str → Option FBody) (enc : Obj → Str) (dflt : Str) (s : Store) : FOp → Option FReply × Store
  | .write ord r => ((fakeProxy eval dec enc dflt s ord r).1, (fakeProxy eval dec enc dflt s ord r).2)
  | .clean conf => (none, newStore conf)

/-- All calls of a test, with their answers. -/
def fakeSession (eval : Str → Obj → Str) (dec : Str → Option FBody) (enc : Obj → Str) (dflt : Str) : Store → List FOp → List (Option FReply) × Store
  | s, [] => ([], s)
  | s, op :: ops =>
    let x := fakeOp eval dec enc dflt s op
    let y := fakeSession eval dec enc dflt x.2 ops
    (x.1 :: y.1, y.2)

/-- What is sent on the channel of `Events` and to the watchers (pkg/client/fake/fake_ckube.go:454-476). -/
def FReply.sent : FReply → List FEvent
  | .done _ e => [e]
  | _ => []

/-- What a test that reads `Events` (pkg/client/fake/fake_ckube.go:110-112) receives: the channel has no buffer and a send does not
wait (pkg/client/fake/fake_ckube.go:464-467); `ready` says of each event whether the test was waiting. -/
def eventsSeen (ready : List Bool) (replies : List (Option FReply)) : List FEvent :=
  ((replies.flatMap fun x => (x.map FReply.sent).getD []).zip ready).filterMap fun x => if x.2 then some x.1 else none

end Ckube

import Verif.Model.Str

/-! # Starting and stopping fake servers (pkg/client/fake/fake_ckube.go:38-95, server/server.go:99-120)

What the operating system does with listening and dialling is modelled as far as it is needed to say who answers at an address. The server
goroutine is taken to have bound its address, or to have failed to, before the last of the five requests (3.1 seconds), and nothing else starts or stops
listening meanwhile. The addresses have no `/`, `?`, `#`, `@` and `%`, which would have a meaning in the URL. -/

namespace Ckube

/-- What a host stands for. -/
inductive HostIs where
  /-- all interfaces: `0.0.0.0`, `::` -/
  | any
  | ip (n : Nat)
deriving DecidableEq

/-- Names and ports of the machine. -/
structure NetEnv where
  /-- hosts that are not empty -/
  host : Str → Option HostIs
  /-- ports, by number or by name -/
  port : Str → Option Nat
  /-- the loopback interface, which `127.0.0.1` stands for -/
  lo : Nat

/-- A listening socket. -/
structure Listener where
  at_ : HostIs
  port : Nat
  /-- the server it belongs to -/
  owner : Nat
deriving DecidableEq

/-- `net.SplitHostPort` (Go's net package): host and port of an address. -/
def splitHostPort (a : Str) : Option (Str × Str) :=
  match (splitByte 58 a).reverse with
  | [] | [_] => none
  | port :: front =>
    let host := join [58] front.reverse
    if hasPrefix host [91] then
      match (host.drop 1).reverse with
      | 93 :: h =>
        let h := h.reverse
        if (91 : UInt8) ∈ h ∨ (93 : UInt8) ∈ h ∨ (91 : UInt8) ∈ port ∨ (93 : UInt8) ∈ port then none else some (h, port)
      | _ => none
    else if (58 : UInt8) ∈ host ∨ (91 : UInt8) ∈ a ∨ (93 : UInt8) ∈ a then none
    else some (host, port)

/-- What the host of an address stands for; an empty one is all interfaces. -/
def NetEnv.hostIs (e : NetEnv) (h : Str) : Option HostIs := if h = [] then some .any else e.host h

/-- Two sockets that cannot both listen. -/
def Listener.clash (a b : Listener) : Bool := a.port == b.port && (a.at_ == .any || b.at_ == .any || a.at_ == b.at_)

/-- `http.Server.ListenAndServe` (server/server.go:99-108): the socket, none when the address is bad or taken. An empty address is `:http`. For port 0 the system
chooses a port, `free`. -/
def listenOn (e : NetEnv) (ls : List Listener) (free : Nat) (a : Str) (owner : Nat) : Option Listener :=
  (splitHostPort (if a = [] then lit ":http" else a)).bind fun hp =>
    (e.hostIs hp.1).bind fun h => (e.port hp.2).bind fun p =>
      let l : Listener := ⟨h, if p = 0 then free else p, owner⟩
      if ls.any l.clash then none else some l

/-- `http.Get("http://" + a + …)`: who answers. Without a port it is port 80; the empty host and all interfaces are the loopback interface. -/
def dial (e : NetEnv) (ls : List Listener) (a : Str) : Option Nat :=
  if a = [] then none else
    (splitHostPort a).bind fun hp =>
      (e.hostIs hp.1).bind fun h => (if hp.2 = [] then some 80 else e.port hp.2).bind fun p =>
        let dst : Nat := match h with
          | .any => e.lo
          | .ip n => n
        (ls.find? fun l => l.port == p && p != 0 && (l.at_ == .any || l.at_ == .ip dst)).map Listener.owner

/-- The address the clients of a fake server get, without `http://` (fake_ckube.go:55-61); none: `parts[1]` panics. -/
def fakeAddr (listenAddr : Str) : Option Str :=
  match splitByte 58 listenAddr with
  | [] => some listenAddr
  | p0 :: rest =>
    if p0 = [] then some listenAddr
    else match rest with
      | [] => none
      | p1 :: _ => some (lit "127.0.0.1:" ++ p1)

/-- What `NewFakeCKubeServer` does. -/
inductive FakeStart where
  /-- an error: the configuration cannot be parsed -/
  | refused
  | panics
  /-- a server; the address its clients get -/
  | started (host : Str)
  /-- an error: wait for server start timeout -/
  | timeout
deriving DecidableEq

/-- What servers share: the sockets of the machine and, in one process, the configuration (common/config.go). -/
structure FNet where
  ls : List Listener := []
  /-- the server whose configuration `common.GetConfig` returns -/
  conf : Option Nat := none
deriving DecidableEq

/-- `NewFakeCKubeServer` (fake_ckube.go:38-80). `parses`: the configuration is JSON of the right form. When nobody answers within the five requests the
server is not stopped. -/
def newFake (e : NetEnv) (n : FNet) (free : Nat) (parses : Bool) (listenAddr : Str) (id : Nat) : FakeStart × FNet :=
  if !parses then (.refused, n)
  else
    let n := { n with conf := some id }
    match fakeAddr listenAddr with
    | none => (.panics, n)
    | some a =>
      let n := { n with ls := n.ls ++ (listenOn e n.ls free listenAddr id).toList }
      if (dial e n.ls a).isSome then (.started a, n) else (.timeout, n)

/-- `Stop` (fake_ckube.go:90-92, server/server.go:110-118): the socket of the server is closed. -/
def stopFake (n : FNet) (id : Nat) : FNet := { n with ls := n.ls.filter fun l => l.owner ≠ id }

/-- What is done with fake servers; each start has its own number. -/
inductive FakeAct where
  | start (free : Nat) (parses : Bool) (listenAddr : Str) (id : Nat)
  | stop (id : Nat)

def FNet.act (e : NetEnv) (n : FNet) : FakeAct → FNet
  | .start free parses a id => (newFake e n free parses a id).2
  | .stop id => stopFake n id

end Ckube

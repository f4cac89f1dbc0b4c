import Verif.Lemmas.FakeStart

/-! # C111: the address of a fake server -/

namespace Ckube
open Spec

/-- **C111**, with an address of the form `host:port` whose host hears the loopback interface and a port nobody listens at: the server is started, and requests at the
address its clients get are answered by it. -/
theorem C111_started_partial {e : NetEnv} {n : FNet} {free : Nat} {a h p : Str} {id k : Nat} (he : Machine e) (ha : HostPort a h p) (hne : p ≠ [])
    (hl : HearsLoopback e h) (hk : e.port p = some k) (h0 : k ≠ 0) (hf : PortFree n.ls k) :
    ∃ host n', newFake e n free true a id = (.started host, n') ∧ dial e n'.ls host = some id := by
  have hane : a ≠ [] := by rw [ha.text]; simp
  obtain ⟨hi, hhi, hhl⟩ : ∃ hi, e.hostIs h = some hi ∧ (hi = .any ∨ hi = .ip e.lo) := by
    unfold NetEnv.hostIs
    by_cases hh : h = []
    · exact ⟨.any, by rw [if_pos hh], Or.inl rfl⟩
    · rcases hl with hl | hl | hl
      · exact absurd hl hh
      · exact ⟨_, by rw [if_neg hh]; exact hl, Or.inl rfl⟩
      · exact ⟨_, by rw [if_neg hh]; exact hl, Or.inr rfl⟩
  have hlis : listenOn e n.ls free a id = some ⟨hi, k, id⟩ := by
    unfold listenOn
    rw [if_neg hane, splitHostPort_plain ha]
    simp only [Option.bind_some, hhi, hk, if_neg h0]
    rw [if_neg]
    intro hc
    obtain ⟨x, hx, hxc⟩ := List.any_eq_true.mp hc
    unfold Listener.clash at hxc
    simp only [Bool.and_eq_true, beq_iff_eq] at hxc
    exact hf x hx hxc.1.symm
  have hto : dialTo e (if h = [] then a else lit "127.0.0.1:" ++ p) = some (k, e.lo) := by
    by_cases hh : h = []
    · unfold dialTo
      rw [if_pos hh, if_neg hane, splitHostPort_plain ha]
      simp [NetEnv.hostIs, hh, hne, hk]
    · have hlo : HostPort (lit "127.0.0.1:" ++ p) (lit "127.0.0.1") p :=
        ⟨by rw [show lit "127.0.0.1:" = lit "127.0.0.1" ++ [58] by decide]; simp, by decide, ha.port⟩
      have h1 : lit "127.0.0.1:" ++ p ≠ [] := by rw [hlo.text]; simp
      have h2 : e.hostIs (lit "127.0.0.1") = some (.ip e.lo) := by
        unfold NetEnv.hostIs
        rw [if_neg (by decide)]; exact he
      unfold dialTo
      rw [if_neg hh, if_neg h1, splitHostPort_plain hlo]
      simp [h2, hne, hk]
  have hd : dial e (n.ls ++ [⟨hi, k, id⟩]) (if h = [] then a else lit "127.0.0.1:" ++ p) = some id := by
    rw [dial_eq, hto]
    simp only [Option.bind_some]
    have hnone : n.ls.find? (Listener.takes k e.lo) = none := by
      rw [List.find?_eq_none]
      intro x hx hxt
      exact hf x hx (takes_iff.mp hxt).1
    have hown : (⟨hi, k, id⟩ : Listener).takes k e.lo = true := takes_iff.mpr ⟨rfl, h0, hhl⟩
    rw [List.find?_append, hnone]
    simp [List.find?_cons, hown]
  refine ⟨_, ⟨n.ls ++ [⟨hi, k, id⟩], some id⟩, ?_, hd⟩
  unfold newFake
  simp only [Bool.not_true, Bool.false_eq_true, if_false, fakeAddr_plain ha, hlis, Option.toList_some]
  rw [if_pos (by rw [hd]; rfl)]

/-- **C111**, exactly when the server that is returned is the one its clients reach: it could listen, and would be reached there if it were the only one. -/
theorem C111_own {e : NetEnv} {n : FNet} {free : Nat} {a : Str} {id : Nat} (hid : ∀ l ∈ n.ls, l.owner ≠ id) (host : Str) :
    ((newFake e n free true a id).1 = .started host ∧ dial e (newFake e n free true a id).2.ls host = some id)
    ↔ fakeAddr a = some host ∧ ∃ l, listenOn e n.ls free a id = some l ∧ dial e [l] host = some id := by
  unfold newFake
  simp only [Bool.not_true, Bool.false_eq_true, if_false]
  cases hfa : fakeAddr a with
  | none => simp
  | some a' =>
    simp only
    constructor
    · intro ⟨h1, h2⟩
      have hs : a' = host := by
        revert h1
        split <;> intro h1
        · cases h1; rfl
        · cases h1
      subst hs
      have h2' : dial e (n.ls ++ (listenOn e n.ls free a id).toList) a' = some id := by
        revert h2
        split <;> exact fun x => x
      refine ⟨rfl, ?_⟩
      cases hlis : listenOn e n.ls free a id with
      | none =>
        rw [hlis] at h2'
        simp only [Option.toList_none, List.append_nil] at h2'
        obtain ⟨l, hl, ho⟩ := dial_owner h2'
        exact absurd ho (hid l hl)
      | some l =>
        refine ⟨l, rfl, ?_⟩
        rw [hlis, dial_eq] at h2'
        rw [dial_eq]
        simp only [Option.bind_eq_some_iff, Option.map_eq_some_iff] at h2' ⊢
        obtain ⟨x, hx, y, hy, ho⟩ := h2'
        refine ⟨x, hx, y, ?_, ho⟩
        have hym := List.mem_of_find?_eq_some hy
        simp only [Option.toList_some, List.mem_append, List.mem_singleton] at hym
        rcases hym with hym | rfl
        · exact absurd ho (hid y hym)
        · rw [List.find?_cons, List.find?_some hy]
    · rintro ⟨hsome, l, hl, hd⟩
      obtain rfl := Option.some.inj hsome
      have hd' : dial e (n.ls ++ [l]) a' = some id := by
        rw [dial_eq] at hd ⊢
        simp only [Option.bind_eq_some_iff, Option.map_eq_some_iff] at hd ⊢
        obtain ⟨x, hx, y, hy, ho⟩ := hd
        refine ⟨x, hx, y, ?_, ho⟩
        have hym := List.mem_of_find?_eq_some hy
        rw [List.mem_singleton] at hym
        subst hym
        have hnone : n.ls.find? (Listener.takes x.1 x.2) = none := by
          rw [List.find?_eq_none]
          intro z hz hzt
          have h1 := (listenOn_some hl).2 z hz
          rw [takes_clash (List.find?_some hy) hzt] at h1
          cases h1
        rw [List.find?_append, hnone]
        simpa using hy
      have hd2 : dial e (n.ls ++ (listenOn e n.ls free a id).toList) a' = some id := by rw [hl]; exact hd'
      have hsm : (dial e (n.ls ++ (listenOn e n.ls free a id).toList) a').isSome = true := by rw [hd2]; rfl
      split
      · exact ⟨rfl, hd2⟩
      · rename_i hx; exact absurd hsm hx

/-- **C111**, as long as it is not stopped: whatever other servers are started and stopped, the requests go on being answered by the same server. -/
theorem C111_kept {e : NetEnv} {a : Str} {id : Nat} : ∀ {n : FNet} {acts : List FakeAct}, dial e n.ls a = some id → (∀ x ∈ acts, NotMine id x) →
    dial e (acts.foldl (FNet.act e) n).ls a = some id
  | n, [], h, _ => h
  | n, .start free parses b j :: acts, h, ha => by
    obtain ⟨more, hm, _⟩ := newFake_ls e n free parses b j
    have h' : dial e (newFake e n free parses b j).2.ls a = some id := by rw [hm]; exact dial_append more h
    exact C111_kept (n := (newFake e n free parses b j).2) h' (fun x hx => ha x (List.mem_cons_of_mem _ hx))
  | n, .stop j :: acts, h, ha =>
    C111_kept (n := stopFake n j) (dial_stop (Ne.symm (ha (.stop j) List.mem_cons_self)) h) (fun x hx => ha x (List.mem_cons_of_mem _ hx))

/-- **C111**, after `Stop` no request at any address is answered by the server; the servers that answered go on answering. -/
theorem C111_stopped (e : NetEnv) (n : FNet) (id : Nat) (a : Str) :
    dial e (stopFake n id).ls a ≠ some id ∧ ∀ j, j ≠ id → dial e n.ls a = some j → dial e (stopFake n id).ls a = some j := by
  refine ⟨fun h => ?_, fun j hj h => dial_stop hj h⟩
  obtain ⟨l, hl, ho⟩ := dial_owner h
  simp only [stopFake, List.mem_filter, decide_eq_true_eq] at hl
  exact hl.2 ho

/-- **C111**, `Stop` gives back what starting took: a server that is started and stopped leaves the sockets of the machine as they were, whatever came of
the start. -/
theorem C111_again {e : NetEnv} {n : FNet} {free : Nat} {parses : Bool} {a : Str} {id : Nat} (hid : ∀ l ∈ n.ls, l.owner ≠ id) :
    (stopFake (newFake e n free parses a id).2 id).ls = n.ls := by
  obtain ⟨more, hm, ho⟩ := newFake_ls e n free parses a id
  unfold stopFake
  simp only [hm, List.filter_append]
  have h1 : n.ls.filter (fun l => decide (l.owner ≠ id)) = n.ls := List.filter_eq_self.mpr fun l hl => by simpa using hid l hl
  have h2 : more.filter (fun l => decide (l.owner ≠ id)) = [] := List.filter_eq_nil_iff.mpr fun l hl => by simpa using ho l hl
  rw [h1, h2, List.append_nil]

/-! ## What is wrong -/

/-- A machine with an address of its own, 7, besides the loopback interface. -/
def exNet : NetEnv where
  host := fun h => if h = lit "127.0.0.1" ∨ h = lit "localhost" then some (.ip 1) else if h = lit "0.0.0.0" then some .any
    else if h = lit "10.0.0.7" then some (.ip 7) else if h = lit "::1" then some (.ip 2) else none
  port := fun p => if p = lit "3033" then some 3033 else if p = lit "3034" then some 3034 else if p = lit "40000" then some 40000
    else if p = lit "0" then some 0 else none
  lo := 1

/-- **C111 is false** when the port is taken: the second server is returned without an error although it could not listen. The requests of its clients are answered by the
first server, from the first server's store; once the first one is stopped, nobody answers them. -/
theorem C111_false : ∃ n n' : FNet, newFake exNet {} 0 true (lit ":3033") 1 = (.started (lit ":3033"), n)
    ∧ newFake exNet n 0 true (lit ":3033") 2 = (.started (lit ":3033"), n')
    ∧ dial exNet n'.ls (lit ":3033") = some 1 ∧ dial exNet (stopFake n' 1).ls (lit ":3033") = none :=
  ⟨(newFake exNet {} 0 true (lit ":3033") 1).2, (newFake exNet (newFake exNet {} 0 true (lit ":3033") 1).2 0 true (lit ":3033") 2).2,
    by decide +kernel, by decide +kernel, by decide +kernel, by decide +kernel⟩

/-- **C111 is false** for an address of another interface: the server listens, but its clients would be sent to the loopback interface, so that an error is returned. The
socket stays open, and the caller has nothing to stop it with. -/
theorem C111_leak_false : ∃ n : FNet, newFake exNet {} 0 true (lit "10.0.0.7:3033") 1 = (.timeout, n)
    ∧ dial exNet n.ls (lit "10.0.0.7:3033") = some 1 ∧ (newFake exNet n 0 true (lit ":3033") 2).1 = .timeout :=
  ⟨(newFake exNet {} 0 true (lit "10.0.0.7:3033") 1).2, by decide +kernel, by decide +kernel, by decide +kernel⟩

/-- **C111 is false** for other addresses that `http.Server` accepts or would refuse: the port is lost with IPv6, port 0 is not looked up (the server listens, at a port of the machine's choice, but an error is returned), and without a colon the
constructor panics. -/
theorem C111_form_false : (newFake exNet {} 0 true (lit "[::1]:3033") 1).1 = .timeout ∧ dial exNet (newFake exNet {} 0 true (lit "[::1]:3033") 1).2.ls (lit "[::1]:3033") = some 1
    ∧ (newFake exNet {} 40000 true (lit ":0") 1).1 = .timeout ∧ dial exNet (newFake exNet {} 40000 true (lit ":0") 1).2.ls (lit ":40000") = some 1
    ∧ (newFake exNet {} 0 true (lit "localhost") 1).1 = .panics := by
  decide +kernel

/-- **C111 is false** for the configuration: servers in one process share it. Starting a second server, even in vain, gives the first one the second one's. -/
theorem C111_conf_false : ∃ n : FNet, newFake exNet {} 0 true (lit ":3033") 1 = (.started (lit ":3033"), n) ∧ n.conf = some 1
    ∧ newFake exNet n 0 true (lit "localhost") 2 = (.panics, ⟨n.ls, some 2⟩) :=
  ⟨(newFake exNet {} 0 true (lit ":3033") 1).2, by decide +kernel, by decide +kernel, by decide +kernel⟩

/-- The hypotheses hold, for a second server beside a first one; then a third one is started and the first one stopped. -/
example : ∃ host n', newFake exNet ⟨[⟨.any, 3033, 1⟩], some 1⟩ 0 true (lit "localhost:3034") 2 = (.started host, n')
    ∧ dial exNet ([FakeAct.start 0 true (lit "0.0.0.0:3034") 3, .stop 1].foldl (FNet.act exNet) n').ls host = some 2 := by
  obtain ⟨host, n', h1, h2⟩ := C111_started_partial (e := exNet) (n := ⟨[⟨.any, 3033, 1⟩], some 1⟩) (free := 0) (a := lit "localhost:3034") (h := lit "localhost")
    (p := lit "3034") (id := 2) (k := 3034) (by unfold Machine; decide +kernel) ⟨by decide +kernel, by decide +kernel, by decide +kernel⟩ (by decide +kernel)
    (Or.inr (Or.inr (by decide +kernel))) (by decide +kernel) (by decide) (by unfold PortFree; decide +kernel)
  exact ⟨host, n', h1, C111_kept h2 (by simp [NotMine])⟩

/-- `C111_own` and `C111_again` on the machine with one server. -/
example : (∀ l ∈ [(⟨.any, 3033, 1⟩ : Listener)], l.owner ≠ 2) ∧ listenOn exNet [⟨.any, 3033, 1⟩] 0 (lit "localhost:3034") 2 = some ⟨.ip 1, 3034, 2⟩
    ∧ dial exNet [⟨.ip 1, 3034, 2⟩] (lit "127.0.0.1:3034") = some 2 ∧ (newFake exNet ⟨[⟨.any, 3033, 1⟩], some 1⟩ 0 true (lit "localhost:3034") 2).2.ls.length = 2 := by
  decide +kernel

end Ckube

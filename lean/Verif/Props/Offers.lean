import Verif.Machine.ClientView
import Verif.Machine.Order
import Verif.Machine.Toy

/-
C43, C44: how a client answers a HelloRetryRequest, and which parameters it lets the server choose.
-/

namespace Verif.Props

open Verif Verif.Crypto Verif.Messages Verif.Negotiation Verif.Handshake Verif.Machine Verif.Spec

/-! ### C43: HelloRetryRequest -/

/-- A client completes a handshake in which it has answered two HelloRetryRequests. -/
theorem C43_one_retry_fails : ∃ (E : Env) (x : Ctx) (cfg : Config) (c : Coins) (es : List (Event × Coins)) (s : Connected)
    (acts : List Action) (x' : Ctx), clientRun E x cfg c es = .ok (.connected s, acts, x') ∧
    ((received es).filter fun m => letterOf m = .helloRetryRequest).length = 2 ∧
    ((sent acts).filter fun m => m.msgType = 1).length = 3 := by
  obtain ⟨s, acts, x', h, hs⟩ := Toy.clientSent_ok (f := fun _ ms => (ms.filter fun m => m.msgType = 1).length == 3)
    (r := clientRun Toy.env Toy.tls Toy.clientCfg (Toy.coins 2) Toy.twoRetries) (by decide +kernel)
  exact ⟨_, _, _, _, _, s, acts, x', h, by decide +kernel, by simpa using hs⟩

theorem waitSH_of_retry {w : List Letter} {s : CState} (h : ClientAt (w ++ [.helloRetryRequest]) s) : ∃ s', s = .waitSH s' := by
  have key : ∀ {a b : List Letter} {l : Letter}, w ++ [Letter.helloRetryRequest] = a ++ (b ++ [l]) → l = .helloRetryRequest := by
    intro a b l h
    rw [← List.append_assoc] at h
    exact (List.cons.inj (List.append_inj' h rfl).2).1.symm
  cases s with
  | start _ => cases h
  | waitSH s => exact ⟨s, rfl⟩
  | waitEE e => obtain ⟨r, h⟩ := h; cases key (b := []) h
  | waitCertCR e => obtain ⟨r, h⟩ := h; cases key (b := [_]) h
  | waitCert e => obtain ⟨r, h⟩ := h; cases key (b := [_, _]) h
  | waitCV e =>
    obtain ⟨r, e, h | h⟩ := h
    · cases key (b := [_, _]) h
    · cases key (b := [_, _, _]) h
  | waitFinished e =>
    obtain ⟨r, psk, auth, ha, h⟩ := h
    rcases ha with ⟨_, rfl⟩ | ⟨_, e, rfl | rfl⟩
    · cases key (b := [_]) (by simpa using h)
    · cases key (b := [_, _, _]) (by simpa using h)
    · cases key (b := [_, _, _, _]) (by simpa using h)
  | connected e =>
    obtain ⟨n, r, psk, auth, post, _, _, hp, h⟩ := h
    rcases List.eq_nil_or_concat post with rfl | ⟨post, l, rfl⟩
    · rw [List.append_nil] at h
      cases key (b := []) h
    · rw [List.concat_eq_append] at h
      have := key h
      subst this
      rcases hp .helloRetryRequest (by simp) with h | h | h <;> cases h

/-- A HelloRetryRequest that a client accepts demands nothing but a cookie and a suite (`Retry`); the client has sent one
hello more than it has received requests, and the last one returns the cookie and offers only that suite, one of its
configuration. Missing: that there is only one request. -/
theorem C43_answer_partial (E : Env) (hP : E.P.Sized) (x : Ctx) (cfg : Config) (c ce : Coins) (es : List (Event × Coins))
    (m : Msg) (s : CState) (acts : List Action) (x' : Ctx)
    (h : clientRun E x cfg c (es ++ [(.msg m, ce)]) = .ok (s, acts, x')) (hm : letterOf m = .helloRetryRequest) :
    ∃ (earlier : List Msg) (hello : Msg) (ch : ClientHello) (suite : UInt16) (cookie : Bytes),
      sent acts = earlier ++ [hello] ∧ earlier.length = (received es).length + 1 ∧
      Retry m suite cookie ∧ suite ∈ cfg.suites ∧ ClientOffer E x.datagram cfg [suite] (some cookie) hello ch := by
  have hat := clientAt h
  rw [word_snoc, letter_msg, hm] at hat
  obtain ⟨w, rfl⟩ := waitSH_of_retry hat
  have a := atSH h
  obtain ⟨ch, hl, hlast, -⟩ := lastHello_waitSH hP a
  obtain ⟨earlier, he⟩ := List.getLast?_eq_some_iff.1 hlast
  have hrec : received (es ++ [(Event.msg m, ce)]) = received es ++ [m] := by simp [received]
  have hlen : earlier.length = (received es).length + 1 := by
    obtain ⟨st, c0, x0, a0, _, _, ⟨h0, _⟩ | hR⟩ := a.made
    · simp at h0
    · obtain ⟨pre, hrr, prev, ch0, _, _, _, hrs, hhs, hsame, _⟩ := hR
      have h1 := congrArg List.length hrs
      have h2 := congrArg List.length (he.symm.trans hhs)
      rw [hrec] at h1
      simp at h1 h2
      omega
  refine ⟨earlier, w.clientHello, ch, ?_⟩
  rw [hrec] at hl
  generalize w.cfg.suites = suites at hl
  generalize hw : w.clientHello = hello at hl he
  generalize hrs : received es ++ [m] = rs at hl
  cases hl with
  | first _ _ _ => simp at hrs
  | retry rs hrr suite ck _ _ hr hs ho =>
    obtain ⟨_, h1⟩ := List.append_inj' hrs rfl
    cases h1
    exact ⟨suite, ck, he, hlen, hr, hs, ho⟩

/-- A client that receives a HelloRetryRequest, and goes on. -/
example : ∃ s acts x', clientRun Toy.env Toy.tls Toy.clientCfg (Toy.coins 2)
    ([] ++ [(.msg (Toy.retryFor Toy.tls (Toy.lastHello Toy.tls Toy.clientCfg [])), Toy.coins 4)]) = .ok (s, acts, x') ∧
    letterOf (Toy.retryFor Toy.tls (Toy.lastHello Toy.tls Toy.clientCfg [])) = .helloRetryRequest := by
  have h1 : (clientRun Toy.env Toy.tls Toy.clientCfg (Toy.coins 2)
    ([] ++ [(.msg (Toy.retryFor Toy.tls (Toy.lastHello Toy.tls Toy.clientCfg [])), Toy.coins 4)])).isOk = true := by decide +kernel
  cases hr : clientRun Toy.env Toy.tls Toy.clientCfg (Toy.coins 2)
    ([] ++ [(.msg (Toy.retryFor Toy.tls (Toy.lastHello Toy.tls Toy.clientCfg [])), Toy.coins 4)]) with
  | ok v => exact ⟨_, _, _, rfl, by decide +kernel⟩
  | err _ => rw [hr] at h1; cases h1
  | panic => rw [hr] at h1; cases h1
  | diverge => rw [hr] at h1; cases h1

/-! ### C44: parameters that were offered -/

/-- A client reports a PSK though it offered none. -/
theorem C44_psk_fails : ∃ (E : Env) (x : Ctx) (cfg : Config) (c : Coins) (es : List (Event × Coins)) (s : Connected)
    (acts : List Action) (x' : Ctx), clientRun E x cfg c es = .ok (.connected s, acts, x') ∧ s.params.usingPSK = true ∧
    ∀ m ∈ sent acts, isHello x.datagram (fun ch => hasExt 41 ch.exts) m = false := by
  obtain ⟨s, acts, x', h, hs⟩ := Toy.clientSent_ok
    (f := fun s ms => s.params.usingPSK && ms.all fun m => !isHello false (fun ch => hasExt 41 ch.exts) m)
    (r := clientRun Toy.env Toy.tls Toy.strictCfg (Toy.coins 2)
      (Toy.forged (Toy.lastHello Toy.tls Toy.strictCfg []) .sha256 0x1301 [] [])) (by decide +kernel)
  simp only [Bool.and_eq_true, List.all_eq_true, Bool.not_eq_true'] at hs
  exact ⟨_, _, _, _, _, s, acts, x', h, hs.1, hs.2⟩

/-- A client reports an application protocol though it offered none. -/
theorem C44_alpn_fails : ∃ (E : Env) (x : Ctx) (cfg : Config) (c : Coins) (es : List (Event × Coins)) (s : Connected)
    (acts : List Action) (x' : Ctx), clientRun E x cfg c es = .ok (.connected s, acts, x') ∧ s.params.nextProto = [104, 50] ∧
    ∀ m ∈ sent acts, isHello x.datagram (fun ch => hasExt 16 ch.exts) m = false := by
  let cfg : Config := { Toy.strictCfg with nextProtos := [] }
  obtain ⟨s, acts, x', h, hs⟩ := Toy.clientSent_ok
    (f := fun s ms => s.params.nextProto == [104, 50] && ms.all fun m => !isHello false (fun ch => hasExt 16 ch.exts) m)
    (r := clientRun Toy.env Toy.tls cfg (Toy.coins 2)
      (Toy.forged (Toy.lastHello Toy.tls cfg []) .sha256 0x1301 [] [(16, [0, 3, 2, 104, 50], ())])) (by decide +kernel)
  simp only [Bool.and_eq_true, List.all_eq_true, Bool.not_eq_true', beq_iff_eq] at hs
  exact ⟨_, _, _, _, _, s, acts, x', h, hs.1, hs.2⟩

/-- A client reports that its early data was accepted though it offered none. -/
theorem C44_early_data_fails : ∃ (E : Env) (x : Ctx) (cfg : Config) (c : Coins) (es : List (Event × Coins)) (s : Connected)
    (acts : List Action) (x' : Ctx), clientRun E x cfg c es = .ok (.connected s, acts, x') ∧ s.params.usingEarlyData = true ∧
    ∀ m ∈ sent acts, isHello x.datagram (fun ch => hasExt 42 ch.exts) m = false := by
  obtain ⟨s, acts, x', h, hs⟩ := Toy.clientSent_ok
    (f := fun s ms => s.params.usingEarlyData && ms.all fun m => !isHello false (fun ch => hasExt 42 ch.exts) m)
    (r := clientRun Toy.env Toy.tls Toy.strictCfg (Toy.coins 2)
      (Toy.forged (Toy.lastHello Toy.tls Toy.strictCfg []) .sha256 0x1301 [] [(42, [], ())])) (by decide +kernel)
  simp only [Bool.and_eq_true, List.all_eq_true, Bool.not_eq_true'] at hs
  exact ⟨_, _, _, _, _, s, acts, x', h, hs.1, hs.2⟩

/-- A client with a PSK reports a suite that is not in its hello. -/
theorem C44_suite_fails : ∃ (E : Env) (x : Ctx) (cfg : Config) (c : Coins) (es : List (Event × Coins)) (s : Connected)
    (acts : List Action) (x' : Ctx), clientRun E x cfg c es = .ok (.connected s, acts, x') ∧
    ∀ m ∈ sent acts, isHello x.datagram (fun ch => ch.suites.elem s.params.suite) m = false := by
  let hello := Toy.lastHello Toy.tls Toy.pskClient []
  obtain ⟨s, acts, x', h, hs⟩ := Toy.clientSent_ok
    (f := fun s ms => ms.all fun m => !isHello false (fun ch => ch.suites.elem s.params.suite) m)
    (r := clientRun Toy.env Toy.tls Toy.pskClient (Toy.coins 2)
      (Toy.forged hello .sha384 0x1302 (earlySecret Toy.prims .sha256 (some Toy.psk.key)) [])) (by decide +kernel)
  simp only [List.all_eq_true, Bool.not_eq_true'] at hs
  exact ⟨_, _, _, _, _, s, acts, x', h, hs⟩

/-- What holds: the suite a connected client reports is one it may offer, and, without a PSK, one in its last hello; the
ServerHello selects version 1.3, which that hello offers; a key share in the ServerHello is of a group for which that
hello has one; a PSK in use is the only one in that hello, if the client has one for the server. Missing: the suite
with a PSK, a PSK if there is none, the protocol and early data, see above. -/
theorem C44_offered_partial (E : Env) (hP : E.P.Sized) (x : Ctx) (cfg : Config) (c : Coins) (es : List (Event × Coins))
    (s : Connected) (acts : List Action) (x' : Ctx) (h : clientRun E x cfg c es = .ok (.connected s, acts, x')) :
    ∃ (hello msh : Msg) (ch : ClientHello) (sh : ServerHello) (n : Nat),
      hello ∈ sent acts ∧ hello.msgType = 1 ∧
      ClientHello.unmarshal (if x.datagram then 0xfefd else 0x0303) hello.body = .ok (ch, hello.body.length) ∧
      msh ∈ received es ∧ msh.msgType = 2 ∧ ServerHello.unmarshal msh.body = .ok (sh, n) ∧ sh.random.1 ≠ hrrRandom ∧
      s.params.suite = sh.suite ∧ s.params.suite ∈ cfg.suites ∧
      (cfg.psks cfg.serverName = none → s.params.suite ∈ ch.suites) ∧
      (dataOf 43 sh.exts).head? = some [3, 4] ∧
      Carries (.supportedVersions 1) ch.exts (.supportedVersions 1 [0x0304]) ∧
      (∃ shares, Carries (.keyShare 1) ch.exts (.keyShare 1 0 shares) ∧
        ∀ d ∈ dataOf 51 sh.exts, ∃ g pub, d = beBytes 2 g ++ beBytes 2 pub.length ++ pub ∧ g ∈ shares.map (·.1.toNat)) ∧
      (∀ k, s.params.usingPSK = true → cfg.psks cfg.serverName = some k → ∃ age b,
        Carries (.preSharedKey 1) ch.exts (.preSharedKey 1 [(k.identity, age, ())] [(b, ())] 0)) := by
  obtain ⟨v⟩ := clientView hP h
  obtain ⟨ck, o⟩ := last_offer v.offer
  have hsub : ∀ u ∈ v.suites, u ∈ cfg.suites := by
    have := v.offer
    generalize v.suites = suites at this
    generalize v.retries = rs at this
    cases this with
    | first _ _ _ => exact fun u hu => hu
    | retry _ _ suite _ _ _ _ hs _ => intro u hu; rw [List.mem_singleton] at hu; rw [hu]; exact hs
  have hmem : v.hello ∈ sent acts := by
    obtain ⟨hs, hhs⟩ := List.getLast?_eq_some_iff.1 v.lastHello
    rw [v.out, hhs]; simp
  obtain ⟨n, hn⟩ := v.shBody
  refine ⟨v.hello, v.F.sh, v.ch, v.sh, n, hmem, o.type, o.body, by rw [v.got]; simp, v.shType, hn, v.notRetry, v.repSuite,
    by rw [v.repSuite]; exact hsub _ v.offered, ?_, v.version, o.versions, ?_, ?_⟩
  · intro h0
    rw [v.repSuite, o.suites_eq, h0]
    exact v.offered
  · obtain ⟨shares, h1, h2⟩ := o.shares
    refine ⟨shares, h1, ?_⟩
    intro d hd
    have hdh := v.dh
    generalize v.F.dh = dh at hdh
    cases hdh with
    | none h0 => rw [h0] at hd; cases hd
    | share g pub _ _ _ _ _ h0 hg _ _ _ _ =>
      rw [h0, List.mem_singleton] at hd
      refine ⟨g.toNat, pub, hd, ?_⟩
      rw [← h2, List.mem_map] at hg
      obtain ⟨e, he, rfl⟩ := hg
      exact List.mem_map.2 ⟨e, he, rfl⟩
  · intro k _ hk
    have := o.psk
    rw [hk] at this
    obtain ⟨_, age, _, b, _, hc, _⟩ := this
    exact ⟨age, b, hc⟩

/-- A client that completes a handshake with a PSK and a key share. -/
example : Toy.env.P.Sized ∧ ∃ s acts x', clientRun Toy.env Toy.tls Toy.pskClient (Toy.coins 2)
    (Toy.exchange Toy.tls Toy.pskClient Toy.pskServer 2).1 = .ok (.connected s, acts, x') ∧ s.params.usingPSK = true :=
  ⟨Toy.prims_sized, Toy.clientHas_ok (f := fun s => s.params.usingPSK) (by decide +kernel)⟩

end Verif.Props

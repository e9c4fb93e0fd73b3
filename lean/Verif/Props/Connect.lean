import Verif.Machine.Deliver
import Verif.Machine.Toy

/-
C42: an honest handshake completes.
-/

namespace Verif.Toy

open Verif Verif.Crypto Verif.Messages Verif.Negotiation Verif.Handshake Verif.Machine Verif.Spec

/-- All clocks show this time. -/
def noon (t : Int) : Prop := t = 1000

theorem coins_good {n : UInt8} (h : (random n).1 ≠ hrrRandom) : GoodCoins noon (coins n) := ⟨⟨_, rfl, h⟩, rfl⟩

/-- Deliver messages one by one, to the client if there is one. -/
def play (x : Ctx) (ccfg scfg : Config) : Nat → List (Event × Coins) × List (Event × Coins)
  | 0 => ([], [])
  | n + 1 =>
    let r := play x ccfg scfg n
    match serverRun env x scfg r.2 with
    | .ok (_, acts, _) =>
      match (sent acts)[r.1.length]? with
      | some m => (r.1 ++ [(.msg (arrived x.datagram m), coins 4)], r.2)
      | none =>
        match clientRun env x ccfg (coins 2) r.1 with
        | .ok (_, acts, _) =>
          match (sent acts)[r.2.length]? with
          | some m => (r.1, r.2 ++ [(.msg (arrived x.datagram m), coins 6)])
          | none => r
        | _ => r
    | _ => r

theorem play_delivery (x : Ctx) (ccfg scfg : Config) (n : Nat) :
    Delivery env x x ccfg scfg (coins 2) noon (play x ccfg scfg n).1 (play x ccfg scfg n).2 := by
  induction n with
  | zero => exact .start
  | succ n ih =>
    rw [play]
    split
    · rename_i h
      split
      · rename_i m hm
        exact .toClient _ _ _ _ m ih h hm (coins_good (by decide))
      · split
        · rename_i h
          split
          · rename_i m hm
            exact .toServer _ _ _ _ m ih h hm (coins_good (by decide))
          · exact ih
        · exact ih
    · exact ih

/-- Whether a result is an alert, or the lack of one. -/
def failsWith {α : Type} (n : Nat) : Res α → Bool
  | .err (.alert k) => k == n
  | _ => false

theorem failsWith_ok {α : Type} {n : Nat} {r : Res α} (h : failsWith n r = true) : r = .err (.alert n) := by
  unfold failsWith at h
  split at h
  · rw [beq_iff_eq.1 h]
  · cases h

def neverEnds {α : Type} : Res α → Bool
  | .diverge => true
  | _ => false

theorem neverEnds_ok {α : Type} {r : Res α} (h : neverEnds r = true) : r = .diverge := by
  unfold neverEnds at h
  split at h
  · rfl
  · cases h

theorem dh_works : DhWorks dh 29 := by
  refine ⟨fun n => ⟨_, _, rfl⟩, ?_⟩
  intro n pub priv n' pub' priv' h h'
  cases h
  cases h'
  refine ⟨beBytes 32 (beNat (beBytes 32 (n + 5)) * beNat (beBytes 32 (n' + 5))), ?_, ?_⟩
  · simp [keyAgreement, isCurve, isFfdhe, keyExchangeSize, dh, Nat.mul_comm]
  · simp [keyAgreement, isCurve, isFfdhe, keyExchangeSize, dh]

theorem clientCfg_fits : ClientFits clientCfg where
  name := by decide
  suites := by decide
  groups := by decide
  distinct := by decide
  schemes := by decide
  protos := by decide
  modes := by decide
  psk := by simp [clientCfg]

theorem cert_usable (n : UInt8) : Usable env [0x0804] (cert n) := by
  refine ⟨?_, ?_, x509 n, [], rfl, ?_⟩
  · intro x hx
    obtain rfl := List.mem_singleton.1 hx
    exact ⟨rfl, by simp [x509]⟩
  · simp [cert, x509]
  · intro s hs _ input
    obtain rfl := List.mem_singleton.1 hs
    refine ⟨prims.hash .sha256 input ++ [UInt8.ofNat n.toNat], rfl, ?_, ?_⟩
    · simp [prims, mix]; decide
    · simp [verify, schemeHash, schemeAlg, env, sig, x509]

theorem compatible : Compatible env noon clientCfg { serverCfg with requireClientAuth := true } where
  fits := clientCfg_fits
  dh g hg := by
    obtain rfl := List.mem_singleton.1 hg
    exact dh_works
  noCookie := rfl
  method := Or.inr
    { noPsk := trivial
      group := ⟨29, by decide, by decide⟩
      suite := ⟨0x1301, by decide, by decide⟩
      known := by decide
      chains := by decide
      certificate := ⟨cert 1, by decide, by decide, 0x0804, by decide, by decide⟩
      usable := fun c hc _ => by
        obtain rfl := List.mem_singleton.1 hc
        exact cert_usable 1
      verified := fun c hc _ => Or.inr fun t _ => by
        obtain rfl := List.mem_singleton.1 hc
        exact ⟨[[[9, 1]]], rfl⟩
      accepted := fun f hf => by cases hf
      clientAuth := fun _ => ⟨by decide, by decide, fun c hc => by
        obtain rfl := List.mem_singleton.1 hc
        exact cert_usable 2, fun f hf => by cases hf⟩ }

theorem compatible_psk : Compatible env noon pskClient pskServer where
  fits :=
    { name := by decide
      suites := by decide
      groups := by decide
      distinct := by decide
      schemes := by decide
      protos := by decide
      modes := by decide
      psk := fun k hk => by
        simp only [pskClient, clientCfg, if_true, Option.some.injEq] at hk
        subst hk
        decide }
  dh g hg := by
    obtain rfl := List.mem_singleton.1 hg
    exact dh_works
  noCookie := rfl
  method := Or.inl ⟨psk, psk,
    { client := rfl
      server := by decide
      key := rfl
      suite := rfl
      sort := rfl
      known := by decide
      offered := ⟨0x1301, by decide, rfl⟩
      modes := by decide
      exchange := Or.inr ⟨29, by decide, by decide⟩
      ages := fun h => by cases h
      protocol := fun h => by cases h
      early := fun _ => rfl }⟩

end Verif.Toy

namespace Verif.Props

open Verif Verif.Crypto Verif.Messages Verif.Negotiation Verif.Handshake Verif.Machine Verif.Spec

/-- Two ends with compatible configurations, each of which reads the messages the other sends in order and unchanged:
neither fails, at most six messages are delivered to the client and five to the server, and once all that have been sent
are delivered both ends are connected, with the same secrets and parameters, and what each of them writes is sealed with
the keys the other reads with.

This is the property, except for configurations that are not `Compatible`: those with a cookie (see C71), a group the client
lists twice, early data sent to a server that does not take it; for most of them it fails, see below. -/
theorem C42_completes_partial {E : Env} (hP : E.P.Sized) {now : Int → Prop} {ccfg scfg : Config} (C : Compatible E now ccfg scfg)
    {x y : Ctx} (hd : y.datagram = x.datagram) {c0 : Coins} (h0 : GoodCoins now c0) {es fs : List (Event × Coins)}
    (h : Delivery E x y ccfg scfg c0 now es fs) :
    ∃ c cacts x' s sacts y', clientRun E x ccfg c0 es = .ok (c, cacts, x') ∧ serverRun E y scfg fs = .ok (s, sacts, y') ∧
      es.length ≤ (sent sacts).length ∧ fs.length ≤ (sent cacts).length ∧ (sent sacts).length ≤ 6 ∧ (sent cacts).length ≤ 5 ∧
      (es.length = (sent sacts).length → fs.length = (sent cacts).length → ∃ cc sc, c = .connected cc ∧ s = .connected sc ∧
        SameConnection cc sc ∧ (∃ k, lastIn cacts = some k ∧ lastOut sacts = some k) ∧
        ∃ k, lastOut cacts = some k ∧ lastIn sacts = some k) := by
  obtain ⟨w, acts0, x0, hw, hx0, hs0⟩ := client_hello hP C x h0
  obtain ⟨c, cacts, x', s, sacts, y', hc, hs, h1, h2, h3, h4, h5⟩ :=
    Stage.ends hP hx0 h0 (Delivery.stage hP C hw hs0 rfl hd h0 h)
  have hlen : (sent (acts0 ++ cacts)).length = 1 + (sent cacts).length := by
    rw [sent_append, hs0, List.length_append]; rfl
  have hc' : clientRun E x ccfg c0 es = .ok (c, acts0 ++ cacts, x') := by
    simp only [clientRun, hw, hc, Res.bind_ok]
  refine ⟨c, _, x', s, sacts, y', hc', hs, h1, by rw [hlen]; exact h2, h3, by rw [hlen]; omega, ?_⟩
  intro h6 h7
  rw [hlen] at h7
  obtain ⟨cc, sc, h8, h9, h10, ⟨k, h11, h12⟩, ⟨k', h13, h14⟩⟩ := h5 h6 h7
  exact ⟨cc, sc, h8, h9, h10, ⟨k, lastIn_append_some _ h11, h12⟩, ⟨k', lastOut_append_some _ h13, h14⟩⟩

/-- Whatever has been delivered so far, delivering the rest, in whatever order, leads to a connection. -/
theorem C42_reaches_partial {E : Env} (hP : E.P.Sized) {now : Int → Prop} {ccfg scfg : Config} (C : Compatible E now ccfg scfg)
    {x y : Ctx} (hd : y.datagram = x.datagram) {c0 : Coins} (h0 : GoodCoins now c0) {es fs : List (Event × Coins)}
    (h : Delivery E x y ccfg scfg c0 now es fs) :
    ∃ es' fs' cc cacts x' sc sacts y', Delivery E x y ccfg scfg c0 now (es ++ es') (fs ++ fs') ∧
      clientRun E x ccfg c0 (es ++ es') = .ok (.connected cc, cacts, x') ∧
      serverRun E y scfg (fs ++ fs') = .ok (.connected sc, sacts, y') ∧ SameConnection cc sc := by
  generalize hn : 11 - (es.length + fs.length) = n
  induction n using Nat.strongRecOn generalizing es fs with
  | ind n ih =>
    obtain ⟨c, cacts, x', s, sacts, y', hc, hs, h1, h2, h3, h4, h5⟩ := C42_completes_partial hP C hd h0 h
    by_cases h6 : es.length = (sent sacts).length
    · by_cases h7 : fs.length = (sent cacts).length
      · obtain ⟨cc, sc, rfl, rfl, h8, _⟩ := h5 h6 h7
        exact ⟨[], [], cc, cacts, x', sc, sacts, y', by simpa using h, by simpa using hc, by simpa using hs, h8⟩
      · have hlt : fs.length < (sent cacts).length := by omega
        have h' := Delivery.toServer c0 c cacts x' _ h hc (List.getElem?_eq_getElem hlt) h0
        obtain ⟨es', fs', cc, cacts, x', sc, sacts, y', g1, g2, g3, g4⟩ := ih _ (by simp; omega) h' rfl
        exact ⟨es', _, cc, cacts, x', sc, sacts, y', by rw [List.append_assoc] at g1; exact g1, g2,
          by rw [List.append_assoc] at g3; exact g3, g4⟩
    · have hlt : es.length < (sent sacts).length := by omega
      have h' := Delivery.toClient c0 s sacts y' _ h hs (List.getElem?_eq_getElem hlt) h0
      obtain ⟨es', fs', cc, cacts, x', sc, sacts, y', g1, g2, g3, g4⟩ := ih _ (by simp; omega) h' rfl
      exact ⟨_, fs', cc, cacts, x', sc, sacts, y', by rw [List.append_assoc] at g1; exact g1,
        by rw [List.append_assoc] at g2; exact g2, g3, g4⟩

/-- The hypotheses hold of an exchange with certificates on both sides, in which nothing remains to be delivered. -/
example : Toy.env.P.Sized ∧ Compatible Toy.env Toy.noon Toy.clientCfg { Toy.serverCfg with requireClientAuth := true } ∧
    GoodCoins Toy.noon (Toy.coins 2) ∧
    let r := Toy.play Toy.tls Toy.clientCfg { Toy.serverCfg with requireClientAuth := true } 12
    Delivery Toy.env Toy.tls Toy.tls Toy.clientCfg { Toy.serverCfg with requireClientAuth := true } (Toy.coins 2) Toy.noon r.1 r.2 ∧
    r.1.length = 6 ∧ r.2.length = 4 :=
  ⟨Toy.prims_sized, Toy.compatible, Toy.coins_good (by decide), Toy.play_delivery .., by decide +kernel, by decide +kernel⟩

/-- And of a datagram exchange with a PSK and early data. -/
example : Compatible Toy.env Toy.noon Toy.pskClient Toy.pskServer ∧
    let r := Toy.play Toy.dtls Toy.pskClient Toy.pskServer 9
    Delivery Toy.env Toy.dtls Toy.dtls Toy.pskClient Toy.pskServer (Toy.coins 2) Toy.noon r.1 r.2 ∧
    r.1.length = 3 ∧ r.2.length = 3 :=
  ⟨Toy.compatible_psk, Toy.play_delivery .., by decide +kernel, by decide +kernel⟩

/-! ### Configurations that do not work -/

/-- A server that wants a cookie cannot be reached with a PSK it shares with the client: after the retry the client
computes the binder over its last hello alone (client-state-machine.go:233-245), the server over the whole exchange
(server-state-machine.go:218-236), and gives up. Without the cookie the two configurations are compatible. -/
theorem C42_psk_with_cookie_fails :
    let scfg := { Toy.pskServer with requireCookie := true }
    let r := Toy.play Toy.tls Toy.pskClient scfg 3
    Compatible Toy.env Toy.noon Toy.pskClient { scfg with requireCookie := false } ∧
    Delivery Toy.env Toy.tls Toy.tls Toy.pskClient scfg (Toy.coins 2) Toy.noon r.1 r.2 ∧
    serverRun Toy.env Toy.tls scfg r.2 = .err (.alert Alert.internalError) :=
  ⟨Toy.compatible_psk, Toy.play_delivery .., Toy.failsWith_ok (by decide +kernel)⟩

/-- Over datagrams a server that wants a cookie cannot be reached at all: the two ends number the HelloRetryRequest
differently in their transcripts, and the client does not accept the server's Finished or CertificateVerify. Over a stream
this exchange completes. -/
theorem C42_datagram_cookie_fails :
    let scfg := { Toy.serverCfg with requireCookie := true }
    let r := Toy.play Toy.dtls Toy.clientCfg scfg 7
    Delivery Toy.env Toy.dtls Toy.dtls Toy.clientCfg scfg (Toy.coins 2) Toy.noon r.1 r.2 ∧
    clientRun Toy.env Toy.dtls Toy.clientCfg (Toy.coins 2) r.1 = .err (.alert Alert.handshakeFailure) ∧
    let t := Toy.play Toy.tls Toy.clientCfg scfg 9
    Delivery Toy.env Toy.tls Toy.tls Toy.clientCfg scfg (Toy.coins 2) Toy.noon t.1 t.2 ∧
    Toy.clientDone (clientRun Toy.env Toy.tls Toy.clientCfg (Toy.coins 2) t.1) = true ∧
    Toy.serverDone (serverRun Toy.env Toy.tls scfg t.2) = true :=
  ⟨Toy.play_delivery .., Toy.failsWith_ok (by decide +kernel), Toy.play_delivery .., by decide +kernel, by decide +kernel⟩

/-- A client that lists a group twice cannot complete a handshake: the server answers the first share, and the client uses
the private key of the last one (client-state-machine.go:77-87). -/
theorem C42_repeated_group_fails :
    let ccfg := { Toy.clientCfg with groups := [29, 29] }
    let r := Toy.play Toy.tls ccfg Toy.serverCfg 6
    Compatible Toy.env Toy.noon { ccfg with groups := [29] } { Toy.serverCfg with requireClientAuth := true } ∧
    Delivery Toy.env Toy.tls Toy.tls ccfg Toy.serverCfg (Toy.coins 2) Toy.noon r.1 r.2 ∧
    clientRun Toy.env Toy.tls ccfg (Toy.coins 2) r.1 = .err (.alert Alert.handshakeFailure) :=
  ⟨Toy.compatible, Toy.play_delivery .., Toy.failsWith_ok (by decide +kernel)⟩

/-- A client that sends early data with a PSK the server does not know, as after a restart of the server, never gets an
answer: the server reads the client's Finished again and again. -/
theorem C42_forgotten_psk_fails :
    let r := Toy.play Toy.tls Toy.pskClient Toy.serverCfg 7
    Delivery Toy.env Toy.tls Toy.tls Toy.pskClient Toy.serverCfg (Toy.coins 2) Toy.noon r.1 r.2 ∧
    Toy.clientDone (clientRun Toy.env Toy.tls Toy.pskClient (Toy.coins 2) r.1) = true ∧
    serverRun Toy.env Toy.tls Toy.serverCfg r.2 = .diverge :=
  ⟨Toy.play_delivery .., by decide +kernel, Toy.neverEnds_ok (by decide +kernel)⟩

/-- A server chooses the first scheme of the client that goes with the kind of its key, even where another one is for its
curve: with a P-256 key and a client that lists P-384 and then P-256, it fails to sign. -/
theorem C42_other_curve_fails :
    let key : PrivKey := ⟨.ecdsa 23, 1⟩
    let scfg := { Toy.serverCfg with certificates := [⟨[⟨[9, 1], [[97]], ⟨.ecdsa 23, 1⟩⟩], key⟩] }
    let ccfg := { Toy.clientCfg with schemes := [0x0503, 0x0403] }
    let r := Toy.play Toy.tls ccfg scfg 1
    (∀ input, (sign Toy.env.P Toy.env.S 0x0403 key input).isOk = true) ∧
    Delivery Toy.env Toy.tls Toy.tls ccfg scfg (Toy.coins 2) Toy.noon r.1 r.2 ∧
    serverRun Toy.env Toy.tls scfg r.2 = .err (.alert Alert.internalError) :=
  ⟨fun _ => rfl, Toy.play_delivery .., Toy.failsWith_ok (by decide +kernel)⟩

end Verif.Props

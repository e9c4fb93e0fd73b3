import Verif.Machine.ServerView
import Verif.Machine.ClientView
import Verif.Machine.Toy

/-
C37, C38, C39: what a side that reports the handshake complete has checked of its peer.
-/

namespace Verif.Props

open Verif Verif.Crypto Verif.Messages Verif.Negotiation Verif.Handshake Verif.Machine Verif.Spec

/-! ### C38: Finished -/

/-- A client that reports the handshake complete has received, after the server's ServerHello, EncryptedExtensions and
possibly certificates, a Finished whose verify data is the MAC of all messages so far under the server's finished key; the
secrets it goes on with come from the same transcript. -/
theorem C38_client (E : Env) (hP : E.P.Sized) (x : Ctx) (cfg : Config) (c : Coins) (es : List (Event × Coins))
    (s : Connected) (acts : List Action) (x' : Ctx) (h : clientRun E x cfg c es = .ok (.connected s, acts, x')) :
    ∃ (F : Flight) (hellos retries post mine postOut : List Msg),
      received es = retries ++ [F.sh, F.ee] ++ F.auth ++ [F.fin] ++ post ∧
      sent acts = hellos ++ mine ++ postOut ∧
      HelloTranscript E.P F.h x.datagram hellos retries F.hellos ∧
      F.fin.msgType = 20 ∧ F.fin.body = F.serverVerify E.P x.datagram ∧
      F.h = s.cp.hash ∧ suiteParams s.params.suite.toNat = some s.cp ∧
      HasSecrets E.P x.datagram F mine (keyUpdates postOut) (keyUpdates post) s := by
  obtain ⟨v⟩ := clientView hP h
  refine ⟨v.F, v.hellos, v.retries, v.post, v.eoed ++ v.cauth ++ [v.cfin], v.postOut, v.got, ?_, v.transcript, v.finType,
    v.fin, by rw [v.hash, v.cp], by rw [v.repSuite, v.suite, v.cp], v.secrets⟩
  rw [v.out]; simp

/-- A server that reports the handshake complete has sent its flight and received, after what it reads before, a Finished
whose verify data is the MAC of all messages so far under the client's finished key. -/
theorem C38_server (E : Env) (hP : E.P.Sized) (x : Ctx) (cfg : Config) (es : List (Event × Coins))
    (s : Connected) (acts : List Action) (x' : Ctx) (h : serverRun E x cfg es = .ok (.connected s, acts, x')) :
    ∃ (F : Flight) (ch : ClientHello) (hello cfin : Msg) (pre retries before post out : List Msg),
      received es = pre ++ [hello] ++ before ++ [cfin] ++ post ∧
      sent acts = retries ++ [F.sh, F.ee] ++ F.auth ++ [F.fin] ++ out ∧
      ClientHello.unmarshal (if x.datagram then 0xfefd else 0x0303) hello.body = .ok (ch, hello.body.length) ∧
      ServerHellos x.datagram cfg s.params.suite ch.exts hello F.hellos ∧
      cfin.msgType = 20 ∧ cfin.body = F.clientVerify E.P x.datagram before ∧
      F.h = s.cp.hash ∧ suiteParams s.params.suite.toNat = some s.cp ∧
      HasSecrets E.P x.datagram F (before ++ [cfin]) (keyUpdates post) (keyUpdates out) s := by
  obtain ⟨v⟩ := serverView hP h
  refine ⟨v.F, v.ch, v.hello, v.cfin, v.pre, v.retries, v.eoed ++ v.cauth, v.post, v.out, ?_, v.out_eq, v.helloBody, ?_, v.cfinType,
    v.cfinBody, by rw [v.hash, v.cp], by rw [v.repSuite, v.suite, v.cp], v.secrets⟩
  · rw [v.got, v.rest_eq]; simp
  · rw [v.repSuite]; exact v.transcript

/-- Both ends of a handshake with certificates, and of one with a PSK and early data. -/
example : Toy.env.P.Sized ∧
    (∃ s acts x', clientRun Toy.env Toy.tls Toy.clientCfg (Toy.coins 2) (Toy.exchange Toy.tls Toy.clientCfg Toy.serverCfg 2).1 =
      .ok (.connected s, acts, x')) ∧
    (∃ s acts x', clientRun Toy.env Toy.tls Toy.pskClient (Toy.coins 2) (Toy.exchange Toy.tls Toy.pskClient Toy.pskServer 2).1 =
      .ok (.connected s, acts, x')) ∧
    (∃ s acts x', serverRun Toy.env Toy.tls Toy.serverCfg (Toy.exchange Toy.tls Toy.clientCfg Toy.serverCfg 2).2 =
      .ok (.connected s, acts, x')) ∧
    ∃ s acts x', serverRun Toy.env Toy.tls Toy.pskServer (Toy.exchange Toy.tls Toy.pskClient Toy.pskServer 2).2 =
      .ok (.connected s, acts, x') :=
  ⟨Toy.prims_sized, Toy.clientDone_ok (by decide +kernel), Toy.clientDone_ok (by decide +kernel),
    Toy.serverDone_ok (by decide +kernel), Toy.serverDone_ok (by decide +kernel)⟩

/-! ### C37: the server is authenticated -/

/-- The server is not authenticated if it selects a PSK though none was offered: a client that has no PSK and accepts no
certificate reports the handshake complete after a flight that anyone who sees its hello can compute. -/
theorem C37_server_authenticated_fails : ∃ (E : Env) (x : Ctx) (cfg : Config) (c : Coins) (es : List (Event × Coins))
    (s : Connected) (acts : List Action) (x' : Ctx), E.P.Sized ∧
    clientRun E x cfg c es = .ok (.connected s, acts, x') ∧
    (∀ n, cfg.psks n = none) ∧ cfg.insecureSkipVerify = false ∧ (∀ now name certs, cfg.verify now name certs = none) ∧
    s.peerCerts = [] ∧ (∀ m ∈ received es, m.msgType ≠ 11 ∧ m.msgType ≠ 15) := by
  obtain ⟨s, acts, x', h⟩ := Toy.clientDone_ok
    (r := clientRun Toy.env Toy.tls Toy.strictCfg (Toy.coins 2)
      (Toy.forged (Toy.lastHello Toy.tls Toy.strictCfg []) .sha256 0x1301 [] [])) (by decide +kernel)
  have hm : ∀ m ∈ received (Toy.forged (Toy.lastHello Toy.tls Toy.strictCfg []) .sha256 0x1301 [] []),
      m.msgType ≠ 11 ∧ m.msgType ≠ 15 := by decide +kernel
  refine ⟨Toy.env, _, _, _, _, s, acts, x', Toy.prims_sized, h, fun _ => rfl, rfl, fun _ _ _ => rfl, ?_, hm⟩
  obtain ⟨v⟩ := clientView (E := Toy.env) Toy.prims_sized h
  cases v.auth with
  | psk _ _ hc _ => exact hc
  | cert _ req mcert mcv ha _ ht =>
    have := (hm mcert (by rw [v.got, ha]; simp)).1
    exact absurd ht this

/-- If the server did not select a PSK: a client that reports the handshake complete has received a Certificate and a
CertificateVerify whose signature verifies, under the first certificate, over the transcript up to the Certificate; and it
has accepted the certificates. -/
theorem C37_certificate_partial (E : Env) (hP : E.P.Sized) (x : Ctx) (cfg : Config) (c : Coins) (es : List (Event × Coins))
    (s : Connected) (acts : List Action) (x' : Ctx) (h : clientRun E x cfg c es = .ok (.connected s, acts, x'))
    (hpsk : s.params.usingPSK = false) :
    ∃ (hellos retries req later mine : List Msg) (msh mee mcert mcv : Msg) (t : Bytes) (cm : CertificateMsg) (cv : CertVerify)
      (pub : PubKey),
      sent acts = hellos ++ mine ∧
      received es = retries ++ [msh, mee] ++ req ++ [mcert, mcv] ++ later ∧
      HelloTranscript E.P s.cp.hash x.datagram hellos retries t ∧
      mcert.msgType = 11 ∧ CertificateMsg.unmarshal E.parses mcert.body = .ok (cm, mcert.body.length) ∧
      mcv.msgType = 15 ∧ CertVerify.unmarshal mcv.body = .ok (cv, mcv.body.length) ∧
      LeafKey E cm.list pub ∧
      SignsTranscript E s.cp.hash cv pub (t ++ wire x.datagram ([msh, mee] ++ req ++ [mcert])) ∧
      s.peerCerts = cm.list.map (·.1) ∧ ChainAccepted cfg s.peerCerts s.chains := by
  obtain ⟨v⟩ := clientView hP h
  have hh : v.F.h = s.cp.hash := by rw [v.hash, v.cp]
  cases v.auth with
  | psk hs _ _ _ => rw [v.repPsk, hs] at hpsk; cases hpsk
  | cert hs req mcert mcv ha hreq ht cm hc hvt cv pub hcv hl hver hce hacc =>
    refine ⟨v.hellos, v.retries, req, [v.F.fin] ++ v.post, v.eoed ++ v.cauth ++ [v.cfin] ++ v.postOut, v.F.sh, v.F.ee, mcert, mcv,
      v.F.hellos, cm, cv, pub, by rw [v.out]; simp, by rw [v.got, ha]; simp, hh ▸ v.transcript, ht, hc, hvt, hcv, hl, ?_, hce, hacc⟩
    rw [← hh]
    have : v.F.hellos ++ wire x.datagram ([v.F.sh, v.F.ee] ++ req ++ [mcert]) =
        v.F.toServerHello x.datagram ++ wire x.datagram [v.F.ee] ++ wire x.datagram (req ++ [mcert]) := by
      simp [Flight.toServerHello, wire]
    rw [this]; exact hver

/-- If the server selected a PSK and the client has one for its name: the last hello of the client offers that PSK alone,
with the right binder; and the Finished the client has received is a MAC under keys derived from the PSK. -/
theorem C37_psk_partial (E : Env) (hP : E.P.Sized) (x : Ctx) (cfg : Config) (c : Coins) (es : List (Event × Coins))
    (s : Connected) (acts : List Action) (x' : Ctx) (h : clientRun E x cfg c es = .ok (.connected s, acts, x'))
    (hpsk : s.params.usingPSK = true) (k : Psk) (hk : cfg.psks cfg.serverName = some k) :
    ∃ (F : Flight) (hellos retries post mine : List Msg) (hello : Msg) (ch : ClientHello) (q : Params) (age : UInt32)
      (trunc : Bytes),
      received es = retries ++ [F.sh, F.ee] ++ F.auth ++ [F.fin] ++ post ∧
      sent acts = hellos ++ [hello] ++ mine ∧
      ClientHello.unmarshal (if x.datagram then 0xfefd else 0x0303) hello.body = .ok (ch, hello.body.length) ∧
      suiteParams k.suite = some q ∧ ch.truncated = .ok trunc ∧
      Carries (.preSharedKey 1) ch.exts (.preSharedKey 1 [(k.identity, age, ())]
        [(binder E.P q.hash k.isResumption k.key trunc, ())] 0) ∧
      HelloTranscript E.P F.h x.datagram (hellos ++ [hello]) retries F.hellos ∧
      F.h = s.cp.hash ∧ F.early = earlySecret E.P q.hash (some k.key) ∧
      F.fin.msgType = 20 ∧ F.fin.body = F.serverVerify E.P x.datagram := by
  obtain ⟨v⟩ := clientView hP h
  obtain ⟨ck, o⟩ := last_offer v.offer
  have ho := o.psk
  rw [hk] at ho
  obtain ⟨q, age, trunc, b, hq, hc, ht, rfl⟩ := ho
  obtain ⟨hs, hhs⟩ := List.getLast?_eq_some_iff.1 v.lastHello
  refine ⟨v.F, hs, v.retries, v.post, v.eoed ++ v.cauth ++ [v.cfin] ++ v.postOut, v.hello, v.ch, q, age, trunc, v.got, ?_, o.body, hq, ht,
    hc, hhs ▸ v.transcript, by rw [v.hash, v.cp], ?_, v.finType, v.fin⟩
  · rw [v.out, hhs]; simp
  · rw [v.early, ← v.repPsk, hpsk]
    simp [clientEarly, hk, hq]

/-- Handshakes with a certificate and with a PSK. -/
example : ∃ s acts x', clientRun Toy.env Toy.tls Toy.clientCfg (Toy.coins 2)
    (Toy.exchange Toy.tls Toy.clientCfg Toy.serverCfg 2).1 = .ok (.connected s, acts, x') ∧ s.params.usingPSK = false := by
  obtain ⟨s, acts, x', h, hs⟩ := Toy.clientHas_ok (f := fun s => !s.params.usingPSK)
    (r := clientRun Toy.env Toy.tls Toy.clientCfg (Toy.coins 2) (Toy.exchange Toy.tls Toy.clientCfg Toy.serverCfg 2).1) (by decide +kernel)
  exact ⟨s, acts, x', h, by simpa using hs⟩
example : ∃ s acts x', clientRun Toy.env Toy.tls Toy.pskClient (Toy.coins 2)
    (Toy.exchange Toy.tls Toy.pskClient Toy.pskServer 2).1 = .ok (.connected s, acts, x') ∧ s.params.usingPSK = true ∧
    Toy.pskClient.psks Toy.pskClient.serverName = some Toy.psk := by
  obtain ⟨s, acts, x', h, hs⟩ := Toy.clientHas_ok (f := fun s => s.params.usingPSK)
    (r := clientRun Toy.env Toy.tls Toy.pskClient (Toy.coins 2) (Toy.exchange Toy.tls Toy.pskClient Toy.pskServer 2).1) (by decide +kernel)
  exact ⟨s, acts, x', h, hs, by decide⟩

/-! ### C39: the client is authenticated if the server requires it -/

/-- RequireClientAuth is not enforced: a client that sends an empty list of certificates is accepted, and so is one that
uses a PSK. -/
theorem C39_require_client_auth_fails : ∃ (E : Env) (x : Ctx) (cfg cfg' : Config) (es es' : List (Event × Coins))
    (s s' : Connected) (acts acts' : List Action) (x' x'' : Ctx), E.P.Sized ∧
    serverRun E x cfg es = .ok (.connected s, acts, x') ∧ cfg.requireClientAuth = true ∧ s.params.usingPSK = false ∧
    s.peerCerts = [] ∧ (∀ m ∈ received es, m.msgType ≠ 15) ∧
    serverRun E x cfg' es' = .ok (.connected s', acts', x'') ∧ cfg'.requireClientAuth = true ∧ s'.params.usingPSK = true ∧
    s'.peerCerts = [] ∧ (∀ m ∈ received es', m.msgType ≠ 11 ∧ m.msgType ≠ 15) := by
  let cfg : Config := { Toy.serverCfg with requireClientAuth := true }
  let cfg' : Config := { Toy.pskServer with requireClientAuth := true }
  let es := (Toy.exchange Toy.tls { Toy.clientCfg with certificates := [] } cfg 2).2
  let es' := (Toy.exchange Toy.tls Toy.pskClient cfg' 2).2
  obtain ⟨s, acts, x', hr, h⟩ := Toy.serverHas_ok (r := serverRun Toy.env Toy.tls cfg es)
    (f := fun s => !s.params.usingPSK && s.peerCerts.isEmpty) (by decide +kernel)
  obtain ⟨s', acts', x'', hr', h'⟩ := Toy.serverHas_ok (r := serverRun Toy.env Toy.tls cfg' es')
    (f := fun s => s.params.usingPSK && s.peerCerts.isEmpty) (by decide +kernel)
  simp only [Bool.and_eq_true, Bool.not_eq_true', List.isEmpty_iff] at h h'
  exact ⟨Toy.env, _, _, _, _, _, _, _, _, _, _, _, Toy.prims_sized, hr, rfl, h.1, h.2, by decide +kernel, hr', rfl, h'.1, h'.2,
    by decide +kernel⟩

/-- A server configured with RequireClientAuth that reports the handshake complete, and uses no PSK, has asked for a
certificate and received a Certificate; if the client's list is not empty, it has received a CertificateVerify whose
signature verifies, under the first certificate, over the transcript. -/
theorem C39_require_client_auth_partial (E : Env) (hP : E.P.Sized) (x : Ctx) (cfg : Config) (es : List (Event × Coins))
    (s : Connected) (acts : List Action) (x' : Ctx) (h : serverRun E x cfg es = .ok (.connected s, acts, x'))
    (hreq : cfg.requireClientAuth = true) (hpsk : s.params.usingPSK = false) :
    ∃ (F : Flight) (ch : ClientHello) (hello mcert : Msg) (pre retries eoed later out : List Msg) (cm : CertificateMsg),
      received es = pre ++ [hello] ++ eoed ++ [mcert] ++ later ∧
      sent acts = retries ++ [F.sh, F.ee] ++ F.auth ++ [F.fin] ++ out ∧
      ClientHello.unmarshal (if x.datagram then 0xfefd else 0x0303) hello.body = .ok (ch, hello.body.length) ∧
      ServerHellos x.datagram cfg s.params.suite ch.exts hello F.hellos ∧
      asksCertificate F.auth = true ∧ mcert.msgType = 11 ∧
      CertificateMsg.unmarshal E.parses mcert.body = .ok (cm, mcert.body.length) ∧ s.peerCerts = cm.list.map (·.1) ∧
      (cm.list ≠ [] → ∃ mcv cv pub later', later = [mcv] ++ later' ∧ mcv.msgType = 15 ∧
        CertVerify.unmarshal mcv.body = .ok (cv, mcv.body.length) ∧ LeafKey E cm.list pub ∧
        SignsTranscript E s.cp.hash cv pub (F.toFinished x.datagram ++ wire x.datagram (eoed ++ [mcert])) ∧
        ∀ f, cfg.verifyPeer = some f → f s.peerCerts [] = true) := by
  obtain ⟨v⟩ := serverView hP h
  have hh : v.F.h = s.cp.hash := by rw [v.hash, v.cp]
  have hasks : asksCertificate v.F.auth = true := by
    cases v.auth with
    | psk hs => rw [v.repPsk, hs] at hpsk; cases hpsk
    | cert _ cert _ req mcert mcv ha hr =>
      rcases hr with ⟨h0, _⟩ | ⟨_, mr, rfl, ht⟩
      · rw [hreq] at h0; cases h0
      · rw [ha]; simp [asksCertificate, ht]
  have htr := v.transcript
  rw [← v.repSuite] at htr
  cases v.cauthOk with
  | none h0 _ _ => rw [hasks] at h0; cases h0
  | empty _ mcert ha ht cm hc he hp =>
    refine ⟨v.F, v.ch, v.hello, mcert, v.pre, v.retries, v.eoed, [v.cfin] ++ v.post, v.out, cm, ?_, v.out_eq, v.helloBody, htr, hasks,
      ht, hc, by rw [hp, he]; rfl, fun h0 => absurd he h0⟩
    rw [v.got, v.rest_eq, ha]; simp
  | cert _ mcert mcv ha ht cm hc hne hvt cv pub hcv hl hver hce hacc =>
    refine ⟨v.F, v.ch, v.hello, mcert, v.pre, v.retries, v.eoed, [mcv, v.cfin] ++ v.post, v.out, cm, ?_, v.out_eq, v.helloBody, htr,
      hasks, ht, hc, hce, fun _ => ⟨mcv, cv, pub, [v.cfin] ++ v.post, by simp, hvt, hcv, hl, ?_, hacc⟩⟩
    · rw [v.got, v.rest_eq, ha]; simp
    · have : v.F.toFinished x.datagram ++ wire x.datagram (v.eoed ++ [mcert]) =
          v.F.toFinished x.datagram ++ wire x.datagram v.eoed ++ wire x.datagram [mcert] := by simp [wire]
      rw [this, ← hh]; exact hver

/-- A handshake in which the server requires a certificate and the client has one. -/
example : ∃ s acts x', serverRun Toy.env Toy.tls { Toy.serverCfg with requireClientAuth := true }
    (Toy.exchange Toy.tls Toy.clientCfg { Toy.serverCfg with requireClientAuth := true } 2).2 = .ok (.connected s, acts, x') ∧
    s.params.usingPSK = false ∧ s.peerCerts = [[9, 2]] := by
  obtain ⟨s, acts, x', h, hs⟩ := Toy.serverHas_ok (f := fun s => !s.params.usingPSK && s.peerCerts == [[9, 2]])
    (r := serverRun Toy.env Toy.tls { Toy.serverCfg with requireClientAuth := true }
      (Toy.exchange Toy.tls Toy.clientCfg { Toy.serverCfg with requireClientAuth := true } 2).2) (by decide +kernel)
  exact ⟨s, acts, x', h, by simpa using hs⟩

end Verif.Props

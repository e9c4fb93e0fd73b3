import Verif.Spec.Rfc
import Verif.Machine.ClientView
import Verif.Machine.ServerView
import Verif.Props.Connect

/-
C66: the secrets are those of RFC 8446.
-/

namespace Verif.Props

open Verif Verif.Crypto Verif.Messages Verif.Negotiation Verif.Handshake Verif.Machine Verif.Spec

theorem rfcTranscript_plain (P : Prims) (h : HashId) (ch m : Msg) (ms : List Msg) (hm : letterOf m ≠ .helloRetryRequest) :
    rfcTranscript P h (ch :: m :: ms) = wire false (ch :: m :: ms) := if_neg hm

theorem wire_append' (d : Bool) (a b : List Msg) : wire d (a ++ b) = wire d a ++ wire d b := by
  simp [wire]

theorem updates_zero (P : Prims) (h : HashId) (l s : Bytes) : updates P h l 0 s = s := rfl

theorem keyUpdates_none {ms : List Msg} (h : ∀ m ∈ ms, m.msgType ≠ 24) : keyUpdates ms = 0 := by
  unfold keyUpdates
  rw [List.length_eq_zero_iff, List.filter_eq_nil_iff]
  intro m hm
  simpa using h m hm

/-- A flight that follows a single hello, and what comes of it. -/
theorem rfc_of_flight {P : Prims} {F : Flight} {ch : Msg} (hh : F.hellos = wire false [ch]) (psk : Option Bytes)
    (he : F.early = earlySecret P F.h psk) (hl : letterOf F.sh ≠ .helloRetryRequest) {last : List Msg} {cfin : Msg} {s : Connected}
    (hf : F.fin.body = F.serverVerify P false) (hc : cfin.body = F.clientVerify P false last)
    (hs : HasSecrets P false F (last ++ [cfin]) 0 0 s) :
    RfcConnection P F.h psk F.dh [ch, F.sh] (F.ee :: F.auth) F.fin last cfin s := by
  have t : ∀ ms, rfcTranscript P F.h ([ch, F.sh] ++ ms) = F.hellos ++ wire false [F.sh] ++ wire false ms := by
    intro ms
    show rfcTranscript P F.h (ch :: F.sh :: ms) = _
    rw [rfcTranscript_plain _ _ _ _ _ hl, hh, ← wire_append', ← wire_append']
    rfl
  have t0 : rfcTranscript P F.h [ch, F.sh] = F.toServerHello false := by
    have := t []
    rw [List.append_nil] at this
    rw [this]
    simp [Flight.toServerHello, wire]
  have t1 : rfcTranscript P F.h ([ch, F.sh] ++ (F.ee :: F.auth)) = F.toServerAuth false := t _
  have t2 : ∀ ms, rfcTranscript P F.h ([ch, F.sh] ++ (F.ee :: F.auth) ++ [F.fin] ++ ms) = F.toFinished false ++ wire false ms := by
    intro ms
    rw [List.append_assoc, List.append_assoc, t, wire_append', wire_append']
    simp only [Flight.toFinished, Flight.toServerAuth, Flight.toServerHello, List.append_assoc]
  have t3 : rfcTranscript P F.h ([ch, F.sh] ++ (F.ee :: F.auth) ++ [F.fin]) = F.toFinished false := by
    have := t2 []
    rw [List.append_nil] at this
    rw [this]
    simp [wire]
  have t4 := t2 (last ++ [cfin])
  rw [← List.append_assoc] at t4
  constructor
  · rw [t0, t1, ← he]; exact hf
  · rw [t0, t2, ← he]; exact hc
  · rw [t3, ← he]; exact hs.clientAp
  · rw [t3, ← he]; exact hs.serverAp
  · rw [t3, ← he]; exact hs.exporter
  · rw [t4, ← he]; exact hs.resumption

/-- C66 for clients over TLS. The client has received no HelloRetryRequest, and no keys were updated (see below); if a PSK is in
use then one is configured (C37, C44 have the other case), and its hash function is that of the suite (C44). Then what was
sent and received is a handshake as in RFC 8446, and all secrets and both Finished messages are what the RFC has. -/
theorem C66_client_partial (E : Env) (hP : E.P.Sized) (x x' : Ctx) (cfg : Config) (c : Coins) (es : List (Event × Coins))
    (s : Connected) (acts : List Action) (hx : x.datagram = false)
    (h : clientRun E x cfg c es = .ok (.connected s, acts, x'))
    (noRetry : ∀ m ∈ received es, letterOf m ≠ .helloRetryRequest)
    (noUpdate : ∀ m ∈ received es ++ sent acts, m.msgType ≠ 24)
    (hpsk : s.params.usingPSK = true → ∃ k q, cfg.psks cfg.serverName = some k ∧ suiteParams k.suite = some q ∧ q.hash = s.cp.hash) :
    ∃ (ch sh ee fin cfin : Msg) (auth last post : List Msg) (offer : ClientHello) (body : ServerHello) (n : Nat) (dh : Option Bytes),
      sent acts = [ch] ++ last ++ [cfin] ∧ received es = [sh, ee] ++ auth ++ [fin] ++ post ∧
      ClientHello.unmarshal 0x0303 ch.body = .ok (offer, ch.body.length) ∧
      ServerHello.unmarshal sh.body = .ok (body, n) ∧ ClientDh E cfg offer.exts body.exts dh ∧
      RfcConnection E.P s.cp.hash
        (if s.params.usingPSK then (cfg.psks cfg.serverName).map (·.key) else none) dh [ch, sh] (ee :: auth) fin last cfin s := by
  obtain ⟨v⟩ := clientView hP h
  rw [hx] at v
  have hr : v.retries = [] := by
    rcases hv : v.retries with - | ⟨r, rs⟩
    · rfl
    · have hm : r ∈ v.retries := by rw [hv]; exact List.mem_cons_self
      exact absurd (v.retryTypes r hm) (noRetry r (by rw [v.got]; simp [hm]))
  have hpost : v.postOut = [] := by
    rcases hv : v.postOut with - | ⟨r, rs⟩
    · rfl
    · have hm : r ∈ v.postOut := by rw [hv]; exact List.mem_cons_self
      exact absurd (v.postOutTypes r hm) (noUpdate r (by rw [v.out]; simp [hm]))
  obtain ⟨ch, hch, hhel⟩ : ∃ ch, v.hellos = [ch] ∧ v.F.hellos = wire false [ch] := by
    have ht := v.transcript
    rw [hr] at ht
    revert ht
    generalize v.hellos = hs, v.F.hellos = b
    intro ht
    generalize hrs : ([] : List Msg) = rs at ht
    cases ht with
    | plain ch => exact ⟨ch, rfl, rfl⟩
    | retry chs rs' => simp at hrs
  have hcp : s.cp.hash = v.F.h := by rw [v.cp, v.hash]
  obtain ⟨n, hbody⟩ := v.shBody
  have hsec := v.secrets
  rw [keyUpdates_none (ms := v.postOut) (by rw [hpost]; simp),
    keyUpdates_none (ms := v.post) (fun m hm => noUpdate m (by rw [v.got]; simp [hm]))] at hsec
  have hl : letterOf v.F.sh ≠ .helloRetryRequest := noRetry _ (by rw [v.got]; simp)
  refine ⟨ch, v.F.sh, v.F.ee, v.F.fin, v.cfin, v.F.auth, v.eoed ++ v.cauth, v.post, v.ch, v.sh, n, v.F.dh, ?_, ?_, ?_, hbody, v.dh, ?_⟩
  · rw [v.out, hch, hpost]; simp
  · rw [v.got, hr]; simp
  · obtain ⟨_, o⟩ := last_offer v.offer
    have hlast := v.lastHello
    rw [hch, List.getLast?_singleton, Option.some.injEq] at hlast
    rw [hlast]
    exact o.body
  · rw [hcp]
    refine rfc_of_flight hhel _ ?_ hl v.fin v.cfinBody hsec
    rw [v.early, clientEarly, ← v.repPsk]
    cases hu : s.params.usingPSK with
    | false => rfl
    | true =>
      obtain ⟨k, q, hk, hq, hqh⟩ := hpsk hu
      simp only [if_true, hk, hq, hqh, hcp, Option.map_some]

/-- C66 for servers over TLS, if there was no HelloRetryRequest, the hello had no cookie, and no keys were updated. -/
theorem C66_server_partial (E : Env) (hP : E.P.Sized) (x x' : Ctx) (cfg : Config) (es : List (Event × Coins))
    (s : Connected) (acts : List Action) (hx : x.datagram = false)
    (h : serverRun E x cfg es = .ok (.connected s, acts, x'))
    (noRetry : ∀ m ∈ sent acts, letterOf m ≠ .helloRetryRequest)
    (noCookie : ∀ m ∈ received es, ∀ ch n, m.msgType = 1 → ClientHello.unmarshal 0x0303 m.body = .ok (ch, n) →
      hasExt 44 ch.exts = false)
    (noUpdate : ∀ m ∈ received es ++ sent acts, m.msgType ≠ 24) :
    ∃ (ch sh ee fin cfin : Msg) (auth last post out : List Msg) (hello : ClientHello) (body : ServerHello) (n n' : Nat)
      (psk : Option Psk) (dh : Option Bytes),
      received es = [ch] ++ last ++ [cfin] ++ post ∧ sent acts = [sh, ee] ++ auth ++ [fin] ++ out ∧
      ClientHello.unmarshal 0x0303 ch.body = .ok (hello, n) ∧ ServerHello.unmarshal sh.body = .ok (body, n') ∧
      ServerPsk E.P cfg hello body.suite body.exts psk ∧ psk.isSome = s.params.usingPSK ∧ ServerDh E cfg hello body.exts dh ∧
      RfcConnection E.P s.cp.hash (psk.map (·.key)) dh [ch, sh] (ee :: auth) fin last cfin s := by
  obtain ⟨w⟩ := serverView hP h
  rw [hx] at w
  have hr : w.retries = [] := by
    rcases hv : w.retries with - | ⟨r, rs⟩
    · rfl
    · have hm : r ∈ w.retries := by rw [hv]; exact List.mem_cons_self
      exact absurd (w.retryTypes r hm) (noRetry r (by rw [w.out_eq]; simp [hm]))
  have hp : w.pre = [] := List.eq_nil_of_length_eq_zero (by rw [w.same, hr]; rfl)
  have hbody : ClientHello.unmarshal 0x0303 w.hello.body = .ok (w.ch, w.hello.body.length) := w.helloBody
  have hhel : w.F.hellos = wire false [w.hello] := by
    have ht := w.transcript
    have hc := noCookie w.hello (by rw [w.got]; simp) w.ch _ w.helloType hbody
    revert ht
    generalize w.F.hellos = b
    intro ht
    cases ht with
    | plain _ => rfl
    | cookie c _ _ _ _ _ hcar _ _ _ _ _ _ =>
      obtain ⟨d, hd, -⟩ := hcar
      cases ((dataOf_nil_iff 44 _).2 hc).symm.trans hd
  have hcp : s.cp.hash = w.F.h := by rw [w.cp, w.hash]
  have hsec := w.secrets
  rw [keyUpdates_none (ms := w.post) (fun m hm => noUpdate m (by rw [w.got, w.rest_eq]; simp [hm])),
    keyUpdates_none (ms := w.out) (fun m hm => noUpdate m (by rw [w.out_eq]; simp [hm]))] at hsec
  have hl : letterOf w.F.sh ≠ .helloRetryRequest := noRetry _ (by rw [w.out_eq]; simp)
  refine ⟨w.hello, w.F.sh, w.F.ee, w.F.fin, w.cfin, w.F.auth, w.eoed ++ w.cauth, w.post, w.out, w.ch, w.sh, _, _, w.psk, w.F.dh,
    ?_, ?_, hbody, w.shBody, w.pskOk, w.repPsk.symm, w.dh, ?_⟩
  · rw [w.got, w.rest_eq, hp]; simp
  · rw [w.out_eq, hr]; simp
  · rw [hcp]
    exact rfc_of_flight hhel _ w.early hl w.fin w.cfinBody hsec

/-- C66 fails after a HelloRetryRequest: whatever the messages were, the transcript of a client that is connected after one is
not one of RFC 8446 that starts with a hello and a HelloRetryRequest, because the length in the header of message_hash is
zero. -/
theorem C66_retry_fails (E : Env) (cfg : Config) (es : List (Event × Coins)) (s : Connected) (acts : List Action)
    (v : ClientView E false cfg es acts s) (hr : v.retries ≠ []) (ch hrr : Msg) (ms : List Msg)
    (hl : letterOf hrr = .helloRetryRequest) : v.F.toFinished false ≠ rfcTranscript E.P v.F.h (ch :: hrr :: ms) := by
  have hsz := suiteParams_size v.suite
  rw [← v.hash] at hsz
  have ht := v.transcript
  obtain ⟨b, hb⟩ : ∃ b, v.F.hellos = [254, 0, 0, 0] ++ b := by
    revert ht hr
    generalize v.retries = rs, v.hellos = hs, v.F.hellos = t
    intro hr ht
    cases ht with
    | plain => exact absurd rfl hr
    | retry _ _ ch1 hrr1 ch2 _ => exact ⟨_, by unfold helloHash; rw [List.append_assoc]⟩
  intro h
  simp only [Flight.toFinished, Flight.toServerAuth, Flight.toServerHello, hb, rfcTranscript, hl, if_true] at h
  have h3 := congrArg (fun l : Bytes => l[3]?) h
  revert hsz h3
  generalize v.F.h = hid
  intro hsz h3
  cases hid <;> simp [HashId.size, beBytes] at hsz h3

end Verif.Props

namespace Verif.Toy

open Verif Verif.Crypto Verif.Messages Verif.Negotiation Verif.Handshake Verif.Machine Verif.Spec

/-- A ServerHello whose X25519 share is zero, a point of small order. -/
def zeroShareHello : Msg :=
  message (.serverHello ⟨0x0303, random 9, [], 0x1301, 0, [(43, [3, 4], ()), (51, [0, 29, 0, 32] ++ List.replicate 32 0, ())]⟩)

/-- The flight of a server that sends it: every Diffie-Hellman secret is zero. -/
def zeroShareFlight (hello : Msg) : Flight :=
  let sh := zeroShareHello
  let ee := message (.encryptedExtensions [])
  let crt := message (certBody (cert 1))
  let cv := message (.certificateVerify
    (match CertVerify.sign prims sig 0x0804 (cert 1).key (prims.hash .sha256 (wire false [hello, sh, ee, crt])) with
      | .ok cv => cv
      | _ => ⟨0, []⟩))
  let F : Flight := ⟨.sha256, earlySecret prims .sha256 none, none, wire false [hello], sh, ee, [crt, cv], ⟨0, 0, [], 0, 0⟩⟩
  { F with fin := message (.finished ⟨32, F.serverVerify prims false⟩) }

def zeroShare : List (Event × Coins) :=
  let F := zeroShareFlight (lastHello tls clientCfg [])
  ([F.sh, F.ee] ++ F.auth ++ [F.fin]).map (arrive tls 4)

end Verif.Toy

namespace Verif.Props

open Verif Verif.Crypto Verif.Messages Verif.Negotiation Verif.Handshake Verif.Machine Verif.Spec

/-- C66 fails for an X25519 share for which the shared secret is zero: RFC 8446 (7.4.2) has the client end the handshake,
mint completes it, and the secrets are functions of the messages alone. -/
theorem C66_share_fails : ∃ s acts x', clientRun Toy.env Toy.tls Toy.clientCfg (Toy.coins 2) Toy.zeroShare =
    .ok (.connected s, acts, x') ∧
    s.exporter = exporterMaster Toy.prims .sha256
      (masterSecret Toy.prims .sha256 (handshakeSecret Toy.prims .sha256 (earlySecret Toy.prims .sha256 none) (some (noInput .sha256))))
      (wire false ((sent acts).take 1) ++ wire false (received Toy.zeroShare)) := by
  obtain ⟨s, acts, x', h, hf⟩ := Toy.clientSent_ok (f := fun s ms => s.exporter == exporterMaster Toy.prims .sha256
      (masterSecret Toy.prims .sha256 (handshakeSecret Toy.prims .sha256 (earlySecret Toy.prims .sha256 none) (some (noInput .sha256))))
      (wire false (ms.take 1) ++ wire false (received Toy.zeroShare)))
    (r := clientRun Toy.env Toy.tls Toy.clientCfg (Toy.coins 2) Toy.zeroShare) (by decide +kernel)
  exact ⟨s, acts, x', h, by simpa using hf⟩

/-- Whether the secret after a key update differs from that of the RFC. -/
def updateDiffers (s : Connected) : Bool :=
  s.isClient && match s.keyUpdate Toy.env Toy.tls 0 with
    | .ok (s', _, _) => s'.clientAp != rfcUpdate Toy.prims s.cp.hash s.clientAp
    | _ => false

/-- C66 fails for key updates: the next secret of a connected client is not the one of RFC 8446, 7.2. -/
theorem C66_update_fails : ∃ s acts x' s' acts' x'',
    Toy.clientEnd Toy.tls Toy.clientCfg Toy.serverCfg 3 = .ok (.connected s, acts, x') ∧
    s.keyUpdate Toy.env Toy.tls 0 = .ok (s', acts', x'') ∧ s'.clientAp ≠ rfcUpdate Toy.prims s.cp.hash s.clientAp := by
  obtain ⟨s, acts, x', h, hf⟩ := Toy.clientHas_ok (f := updateDiffers)
    (r := Toy.clientEnd Toy.tls Toy.clientCfg Toy.serverCfg 3) (by decide +kernel)
  simp only [updateDiffers, Bool.and_eq_true] at hf
  obtain ⟨-, hf⟩ := hf
  split at hf
  · rename_i s' acts' x'' hk
    exact ⟨s, acts, x', s', acts', x'', h, hk, by simpa using hf⟩
  · cases hf

/-! ### Cases -/

/-- A handshake with certificates that meets the hypotheses of both theorems. -/
example : let r := Toy.exchange Toy.tls Toy.clientCfg Toy.serverCfg 3
    Toy.bothHave (fun c s => !c.params.usingPSK && !s.params.usingPSK) (clientRun Toy.env Toy.tls Toy.clientCfg (Toy.coins 2) r.1)
      (serverRun Toy.env Toy.tls Toy.serverCfg r.2) = true ∧
    ((received r.1 ++ received r.2).all fun m => decide (letterOf m ≠ .helloRetryRequest) && m.msgType != 24 &&
      !isHello false (fun ch => hasExt 44 ch.exts) m) = true := by
  decide +kernel

/-- One with a PSK, which is configured and goes with the suite. -/
example : let r := Toy.exchange Toy.tls Toy.pskClient Toy.pskServer 3
    Toy.bothHave (fun c s => c.params.usingPSK && s.params.usingPSK && decide (c.cp.hash = .sha256))
      (clientRun Toy.env Toy.tls Toy.pskClient (Toy.coins 2) r.1) (serverRun Toy.env Toy.tls Toy.pskServer r.2) = true ∧
    ((received r.1 ++ received r.2).all fun m => decide (letterOf m ≠ .helloRetryRequest) && m.msgType != 24) = true := by
  decide +kernel

/-- A client connected after a HelloRetryRequest. -/
example : let r := Toy.exchange Toy.tls Toy.clientCfg { Toy.serverCfg with requireCookie := true } 4
    Toy.clientDone (clientRun Toy.env Toy.tls Toy.clientCfg (Toy.coins 2) r.1) = true ∧
    (received r.1).any (fun m => decide (letterOf m = .helloRetryRequest)) = true := by
  decide +kernel

end Verif.Props

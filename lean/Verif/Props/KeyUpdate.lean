import Verif.Machine.LinkLemmas
import Verif.Machine.Installed
import Verif.Machine.ServerView
import Verif.Machine.ClientView
import Verif.Machine.Toy
import Verif.Props.Crypto

/-
C47, C48, C57: key updates, tickets and the lifetime of PSKs.
-/

namespace Verif.Props

open Verif Verif.Crypto Verif.Messages Verif.Negotiation Verif.Handshake Verif.Machine Verif.Spec

/-! ### C47: key updates -/

/-- The keys derived from a traffic secret after any number of updates. -/
def KeyOfLine (P : Prims) (cp : Params) (label secret : Bytes) (k : Keys) : Prop :=
  ∃ n, k = trafficKeys P cp.hash cp.keyLen cp.ivLen (updates P cp.hash label n secret)

theorem linkOk_start {E : Env} (hP : E.P.Sized) {x y x' y' : Ctx} {ccfg scfg : Config} {c : Coins} {es es' : List (Event × Coins)}
    {cl sv : Connected} {ca sa : List Action} (hc : clientRun E x ccfg c es = .ok (.connected cl, ca, x'))
    (hs : serverRun E y scfg es' = .ok (.connected sv, sa, y'))
    (hcp : cl.cp = sv.cp) (hck : cl.clientAp = sv.clientAp) (hsk : cl.serverAp = sv.serverAp) {co ci so si : Keys}
    (hco : lastOut ca = some co) (hci : lastIn ca = some ci) (hso : lastOut sa = some so) (hsi : lastIn sa = some si) :
    0 < cl.cp.hash.size ∧ LinkOk E cl.cp cl.clientAp cl.serverAp ⟨⟨cl, x', co, ci⟩, ⟨sv, y', so, si⟩, [], []⟩ := by
  obtain ⟨v⟩ := clientView hP hc
  obtain ⟨w⟩ := serverView hP hs
  have hz : 0 < cl.cp.hash.size := by rw [v.cp]; exact suiteParams_size v.suite
  obtain ⟨k1, k2, h1, h2, h3⟩ := client_installed hc
  obtain ⟨k3, k4, h4, h5, h6⟩ := server_installed hs
  rw [v.isClient] at h3
  rw [w.isClient] at h6
  rw [makeTrafficKeys_eq E.P hP _ hz, Res.ok.injEq] at h1 h2
  rw [makeTrafficKeys_eq E.P hP _ (hcp ▸ hz), Res.ok.injEq] at h4 h5
  simp only [if_true] at h3
  simp only [Bool.false_eq_true, if_false] at h6
  rw [hco, hci, Option.some.injEq, Option.some.injEq] at h3
  rw [hso, hsi, Option.some.injEq, Option.some.injEq] at h6
  refine ⟨hz, ⟨rfl, v.isClient, ?_, ?_⟩, ⟨hcp.symm, w.isClient, ?_, ?_⟩, ?_, ?_, ?_, ?_⟩
  · rw [h3.1, ← h1]; rfl
  · rw [h3.2, ← h2]; rfl
  · rw [h6.1, ← h5, hcp]; rfl
  · rw [h6.2, ← h4, hcp]; rfl
  · show Follows E cl.cp true [] sv.clientAp cl.clientAp
    rw [hck]; exact .nil _
  · show Follows E cl.cp false [] cl.serverAp sv.serverAp
    rw [hsk]; exact .nil _
  · show Derived E.P cl.cp true cl.clientAp sv.clientAp
    rw [hck]; exact .refl _ _ _ _
  · exact .refl _ _ _ _

/-- After a handshake that gave both ends the same suite and traffic secrets, whatever the two sides do on the connection —
key updates from either side, with or without a request for one in return, tickets, data — as long as records arrive in
order:
* when no record is in flight towards the server, it reads with the secret and the keys the client writes with; and vice
  versa;
* when some are, the reader can read the first of them;
* every record towards the server, and the keys of the client for writing, use a key derived from the client's traffic
  secret; every record towards the client, and the keys of the server for writing, one derived from the server's. -/
theorem C47_in_step (E : Env) (hP : E.P.Sized) (x y x' y' : Ctx) (ccfg scfg : Config) (c : Coins) (es es' : List (Event × Coins))
    (cl sv : Connected) (ca sa : List Action) (hc : clientRun E x ccfg c es = .ok (.connected cl, ca, x'))
    (hs : serverRun E y scfg es' = .ok (.connected sv, sa, y'))
    (hcp : cl.cp = sv.cp) (hck : cl.clientAp = sv.clientAp) (hsk : cl.serverAp = sv.serverAp) (co ci so si : Keys)
    (hco : lastOut ca = some co) (hci : lastIn ca = some ci) (hso : lastOut sa = some so) (hsi : lastIn sa = some si)
    (l : Link) (hl : LinkRun E ⟨⟨cl, x', co, ci⟩, ⟨sv, y', so, si⟩, [], []⟩ l) :
    (l.toServer = [] → l.client.st.clientAp = l.server.st.clientAp ∧ l.client.outKeys = l.server.inKeys) ∧
    (l.toClient = [] → l.server.st.serverAp = l.client.st.serverAp ∧ l.server.outKeys = l.client.inKeys) ∧
    (∀ p rest now, l.toServer = p :: rest → ∃ e ps, l.server.read E now p = .ok (e, ps)) ∧
    (∀ p rest now, l.toClient = p :: rest → ∃ e ps, l.client.read E now p = .ok (e, ps)) ∧
    (∀ p ∈ l.toServer, KeyOfLine E.P cl.cp (ascii "c ap traffic") cl.clientAp p.1) ∧
    (∀ p ∈ l.toClient, KeyOfLine E.P cl.cp (ascii "s ap traffic") cl.serverAp p.1) ∧
    KeyOfLine E.P cl.cp (ascii "c ap traffic") cl.clientAp l.client.outKeys ∧
    KeyOfLine E.P cl.cp (ascii "c ap traffic") cl.clientAp l.server.inKeys ∧
    KeyOfLine E.P cl.cp (ascii "s ap traffic") cl.serverAp l.server.outKeys ∧
    KeyOfLine E.P cl.cp (ascii "s ap traffic") cl.serverAp l.client.inKeys := by
  obtain ⟨hz, h0⟩ := linkOk_start hP hc hs hcp hck hsk hco hci hso hsi
  have h := h0.run hP hz hl
  have line : ∀ {b : Bool} {s u : Bytes} {k : Keys}, Derived E.P cl.cp b s u → k = keysOf E.P cl.cp u →
      KeyOfLine E.P cl.cp (dirLabel b) s k := by
    rintro b s u k ⟨n, rfl⟩ rfl
    exact ⟨n, rfl⟩
  have fc := h.toServer.derived
  have fs := h.toClient.derived
  refine ⟨?_, ?_, ?_, ?_, ?_, ?_, ?_, ?_, ?_, ?_⟩
  · intro hq
    have hf := h.toServer
    rw [hq] at hf
    have he := hf.nil_eq
    refine ⟨he.symm, ?_⟩
    rw [h.client.out, h.server.in_]
    show keysOf E.P cl.cp l.client.st.clientAp = keysOf E.P cl.cp l.server.st.clientAp
    rw [he]
  · intro hq
    have hf := h.toClient
    rw [hq] at hf
    have he := hf.nil_eq
    refine ⟨he.symm, ?_⟩
    rw [h.server.out, h.client.in_]
    show keysOf E.P cl.cp l.server.st.serverAp = keysOf E.P cl.cp l.client.st.serverAp
    rw [he]
  · intro p rest now hq
    have hf := h.toServer
    rw [hq] at hf
    obtain ⟨e, ps, hr, _⟩ := read_ok hP hz h.server now hf
    exact ⟨e, ps, hr⟩
  · intro p rest now hq
    have hf := h.toClient
    rw [hq] at hf
    obtain ⟨e, ps, hr, _⟩ := read_ok hP hz h.client now hf
    exact ⟨e, ps, hr⟩
  · intro p hp
    obtain ⟨u, hu, hk⟩ := fc.2 p hp
    exact line (b := true) (h.chainC.trans hu) hk
  · intro p hp
    obtain ⟨u, hu, hk⟩ := fs.2 p hp
    exact line (b := false) (h.chainS.trans hu) hk
  · exact line (b := true) (h.chainC.trans fc.1) h.client.out
  · exact line (b := true) h.chainC h.server.in_
  · exact line (b := false) (h.chainS.trans fs.1) h.server.out
  · exact line (b := false) h.chainS h.client.in_

/-- A key update by a connected end never fails; the secret for writing is the next one, the other stays. -/
theorem C47_update_possible (E : Env) (hP : E.P.Sized) (e : Endpoint) (hz : 0 < e.st.cp.hash.size) (request : Bool) :
    ∃ e' m, e.update E request = .ok (e', [(e.outKeys, .msg m)]) ∧ m.msgType = 24 ∧ m.body = [if request then 1 else 0] ∧
      e'.st.clientAp = (if e.st.isClient then updates E.P e.st.cp.hash (ascii "c ap traffic") 1 e.st.clientAp else e.st.clientAp) ∧
      e'.st.serverAp = (if e.st.isClient then e.st.serverAp else updates E.P e.st.cp.hash (ascii "s ap traffic") 1 e.st.serverAp) := by
  obtain ⟨s', m, x', hk, _, hty, hbd, _, _, hw, hr⟩ := connected_keyUpdate hP e.x e.st hz (if request then 1 else 0)
  refine ⟨_, m, by rw [Endpoint.update, hk]; rfl, hty, hbd, ?_, ?_⟩
  · cases hc : e.st.isClient <;> rw [hc] at hw hr <;> simp [Endpoint.takeAll, Endpoint.take]
    · exact hr
    · exact hw
  · cases hc : e.st.isClient <;> rw [hc] at hw hr <;> simp [Endpoint.takeAll, Endpoint.take]
    · exact hw
    · exact hr

/-- Two ends after a handshake; the client updates its keys and requests the same of the server. -/
example : ∃ (x' y' : Ctx) (cl sv : Connected) (ca sa : List Action) (co ci so si : Keys) (l : Link),
    clientRun Toy.env Toy.tls Toy.pskClient (Toy.coins 2) (Toy.exchange Toy.tls Toy.pskClient Toy.pskServer 2).1 =
      .ok (.connected cl, ca, x') ∧
    serverRun Toy.env Toy.tls Toy.pskServer (Toy.exchange Toy.tls Toy.pskClient Toy.pskServer 2).2 = .ok (.connected sv, sa, y') ∧
    cl.cp = sv.cp ∧ cl.clientAp = sv.clientAp ∧ cl.serverAp = sv.serverAp ∧
    lastOut ca = some co ∧ lastIn ca = some ci ∧ lastOut sa = some so ∧ lastIn sa = some si ∧
    LinkRun Toy.env ⟨⟨cl, x', co, ci⟩, ⟨sv, y', so, si⟩, [], []⟩ l ∧ l.toServer.length = 1 := by
  obtain ⟨cl, ca, x', sv, sa, y', hc, hs, h⟩ := Toy.bothHave_ok
    (f := fun c s => c.cp == s.cp && c.clientAp == s.clientAp && c.serverAp == s.serverAp)
    (r := clientRun Toy.env Toy.tls Toy.pskClient (Toy.coins 2) (Toy.exchange Toy.tls Toy.pskClient Toy.pskServer 2).1)
    (r' := serverRun Toy.env Toy.tls Toy.pskServer (Toy.exchange Toy.tls Toy.pskClient Toy.pskServer 2).2) (by decide +kernel)
  simp only [Bool.and_eq_true, beq_iff_eq] at h
  obtain ⟨v⟩ := clientView (E := Toy.env) Toy.prims_sized hc
  obtain ⟨w⟩ := serverView (E := Toy.env) Toy.prims_sized hs
  obtain ⟨k1, k2, _, _, h3⟩ := client_installed hc
  obtain ⟨k3, k4, _, _, h6⟩ := server_installed hs
  rw [v.isClient, if_pos rfl] at h3
  rw [w.isClient, if_neg (by decide)] at h6
  have hz : 0 < cl.cp.hash.size := by rw [v.cp]; exact suiteParams_size v.suite
  obtain ⟨e, m, hu, _⟩ := C47_update_possible Toy.env Toy.prims_sized ⟨cl, x', k1, k2⟩ hz true
  exact ⟨x', y', cl, sv, ca, sa, k1, k2, k4, k3, _, hc, hs, h.1.1, h.1.2, h.2, h3.1, h3.2, h6.1, h6.2,
    .step _ _ _ (.refl _) (.clientUpdate _ true e _ hu), by simp⟩

/-! ### C48: tickets -/

/-- What a server stores for a ticket, and what a client with the same secrets stores when it reads the message the server
sent, are the same but for the times: the key of RFC 8446, 4.6.1 for the nonce, under the ticket as identity, with the suite
and the protocol of the connection. -/
theorem C48_same_psk (E : Env) (hP : E.P.Sized) (cl sv : Connected) (x x' xc : Ctx) (now now' : Int)
    (lifetime early ageAdd : UInt32) (nonce ticket : Bytes) (acts : List Action)
    (h : sv.newSessionTicket E x now lifetime early ageAdd nonce ticket = .ok (acts, x'))
    (hc : cl.isClient = true) (hcp : cl.cp = sv.cp) (hz : 0 < sv.cp.hash.size) (hres : cl.resumption = sv.resumption)
    (hproto : cl.params.nextProto = sv.params.nextProto) :
    ∃ (psk : Psk) (m : Msg), acts = [.storePsk psk, .queue m, .sendQueued] ∧ m.msgType = 4 ∧
      psk.key = resumptionPsk E.P sv.cp.hash sv.resumption nonce ∧ psk.identity = ticket ∧ psk.suite = sv.cp.suite ∧
      psk.isResumption = true ∧ psk.nextProto = sv.params.nextProto ∧ psk.ticketAgeAdd = ageAdd ∧
      ∀ m' : Msg, m'.msgType = m.msgType → m'.body = m.body →
        ∃ psk', cl.process E xc now' m' = .ok (cl, [.storePsk psk'], xc) ∧
          psk' = { psk with receivedAt := psk'.receivedAt, expiresAt := psk'.expiresAt } := by
  simp only [Connected.newSessionTicket, Res.bind_eq_ok, orAlert_ok, Res.ok.injEq, Prod.mk.injEq] at h
  obtain ⟨exts, _, psk, hpsk, ⟨m, x2⟩, hm, rfl, rfl⟩ := h
  obtain ⟨d, hd, hme, _⟩ := mkMsg_ok hm
  have hb := C31_body_roundtrip_partial E.parses (.newSessionTicket ⟨lifetime, ageAdd, nonce, ticket, exts⟩) d trivial hd
  simp only [ticketPsk, hkdfExpandLabel_eq E.P hP _ hz, Res.bind_ok, Res.ok.injEq] at hpsk
  subst hpsk
  refine ⟨_, m, rfl, by rw [hme]; rfl, by rw [label_resumption]; rfl, rfl, rfl, rfl, rfl, rfl, ?_⟩
  intro m' ht hbody
  have hb' : toBody E.parses m'.msgType m'.body = .ok (.newSessionTicket ⟨lifetime, ageAdd, nonce, ticket, exts⟩) := by
    rw [ht, hbody, hme]; exact hb
  refine ⟨⟨sv.cp.suite, true, ticket, expandLabel E.P sv.cp.hash sv.resumption labelResumption nonce sv.cp.hash.size,
    sv.params.nextProto, now', now' + lifetime.toNat * 1000000000, ageAdd⟩, ?_, rfl⟩
  simp only [Connected.process, hb', orAlert, Res.bind_ok, hc, Bool.not_true, Bool.false_eq_true, if_false, ticketPsk, hcp, hres,
    hproto, hkdfExpandLabel_eq E.P hP _ hz]

/-- Tickets with distinct nonces: the PSKs are outputs of HMAC, under the resumption secret, for distinct inputs. -/
theorem C48_distinct_nonces (P : Prims) (hP : P.Sized) (h : HashId) (hz : 0 < h.size) (secret a b : Bytes) (hab : a ≠ b) :
    ∃ i j : Bytes, i ≠ j ∧ resumptionPsk P h secret a = P.hmac h secret i ∧ resumptionPsk P h secret b = P.hmac h secret j := by
  have one : ∀ n, resumptionPsk P h secret n = P.hmac h secret (hkdfLabel h.size (ascii "resumption") n ++ [1]) := by
    intro n
    have hdiv : (h.size + h.size - 1) / h.size = 1 := by
      rw [Nat.div_eq_iff hz]; omega
    have hl : (P.hmac h secret (hkdfLabel h.size (ascii "resumption") n ++ [1])).length = h.size := hP.2 _ _ _
    simp only [resumptionPsk, expandLabel, expand, hdiv]
    simp only [List.range_one, List.map_cons, List.map_nil, List.flatten_cons, List.flatten_nil, List.append_nil, block,
      List.nil_append]
    rw [List.take_of_length_le (by exact Nat.le_of_eq hl)]
    rfl
  refine ⟨_, _, ?_, one a, one b⟩
  intro h0
  have h1 := (List.append_inj' h0 rfl).1
  have hs : h.size < 65536 := by cases h <;> decide
  exact hab (hkdfLabel_parts (by decide) (by decide) hs hs h1).2.2

/-- A server that sends a ticket to a client after a handshake. -/
theorem ticket_case : ∃ (cl sv : Connected) (acts : List Action) (x' : Ctx),
    sv.newSessionTicket Toy.env Toy.tls 5 100 10 7 [1, 2] [8, 9] = .ok (acts, x') ∧ cl.isClient = true ∧ cl.cp = sv.cp ∧
    0 < sv.cp.hash.size ∧ cl.resumption = sv.resumption ∧ cl.params.nextProto = sv.params.nextProto ∧
    sv.params.nextProto = [104, 50] := by
  obtain ⟨cl, ca, x', sv, sa, y', hc, hs, h⟩ := Toy.bothHave_ok
    (f := fun c s => c.isClient && c.cp == s.cp && decide (0 < s.cp.hash.size) && c.resumption == s.resumption &&
      c.params.nextProto == s.params.nextProto && s.params.nextProto == [104, 50] &&
      (s.newSessionTicket Toy.env Toy.tls 5 100 10 7 [1, 2] [8, 9]).isOk)
    (r := clientRun Toy.env Toy.tls Toy.pskClient (Toy.coins 2) (Toy.exchange Toy.tls Toy.pskClient Toy.pskServer 2).1)
    (r' := serverRun Toy.env Toy.tls Toy.pskServer (Toy.exchange Toy.tls Toy.pskClient Toy.pskServer 2).2) (by decide +kernel)
  simp only [Bool.and_eq_true, beq_iff_eq, decide_eq_true_eq] at h
  obtain ⟨⟨⟨⟨⟨⟨h1, h2⟩, h3⟩, h4⟩, h5⟩, h6⟩, h7⟩ := h
  cases hr : sv.newSessionTicket Toy.env Toy.tls 5 100 10 7 [1, 2] [8, 9] with
  | ok v => exact ⟨cl, sv, v.1, v.2, hr, h1, h2, h3, h4, h5, h6⟩
  | err _ => rw [hr] at h7; cases h7
  | panic => rw [hr] at h7; cases h7
  | diverge => rw [hr] at h7; cases h7

/-! ### C57: expiry of PSKs -/

/-- Neither side minds that a PSK has expired: a client offers one, and completes with it, at times that all lie after its
expiry; and so does a server. -/
theorem C57_expired_psk_fails : ∃ (E : Env) (x x' y' : Ctx) (ccfg scfg : Config) (c : Coins) (es es' : List (Event × Coins))
    (cl sv : Connected) (ca sa : List Action) (k : Psk) (name : Bytes),
    clientRun E x ccfg c es = .ok (.connected cl, ca, x') ∧ serverRun E x scfg es' = .ok (.connected sv, sa, y') ∧
    ccfg.psks ccfg.serverName = some k ∧ scfg.psks name = some k ∧
    k.expiresAt < c.now ∧ (∀ e ∈ es, k.expiresAt < e.2.now) ∧ (∀ e ∈ es', k.expiresAt < e.2.now) ∧
    cl.params.usingPSK = true ∧ sv.params.usingPSK = true := by
  obtain ⟨cl, ca, x', sv, sa, y', hc, hs, h⟩ := Toy.bothHave_ok (f := fun c s => c.params.usingPSK && s.params.usingPSK)
    (r := clientRun Toy.env Toy.tls Toy.pskClient (Toy.coins 2) (Toy.exchange Toy.tls Toy.pskClient Toy.pskServer 2).1)
    (r' := serverRun Toy.env Toy.tls Toy.pskServer (Toy.exchange Toy.tls Toy.pskClient Toy.pskServer 2).2) (by decide +kernel)
  simp only [Bool.and_eq_true] at h
  exact ⟨_, _, _, _, _, _, _, _, _, cl, sv, ca, sa, Toy.psk, [48, 49, 48, 50, 48, 51], hc, hs, by decide, by decide, by decide,
    by decide +kernel, by decide +kernel, h.1, h.2⟩

/-- What holds: the PSK stored for a ticket, at either end, expires when the lifetime of the ticket, in seconds, is over.
Missing: that the expiry has an effect. -/
theorem C57_expiry_partial (E : Env) (cl sv : Connected) (x x' xc xc' : Ctx) (now now' : Int) (lifetime early ageAdd : UInt32)
    (nonce ticket : Bytes) (acts acts' : List Action) (s' : Connected) (m : Msg) (psk psk' : Psk)
    (h : sv.newSessionTicket E x now lifetime early ageAdd nonce ticket = .ok (acts, x'))
    (hp : .storePsk psk ∈ acts) (hm : .queue m ∈ acts)
    (h' : cl.process E xc now' m = .ok (s', acts', xc')) (hp' : .storePsk psk' ∈ acts') :
    psk.receivedAt = now ∧ psk.expiresAt = now + lifetime.toNat * 1000000000 ∧
    psk'.receivedAt = now' ∧ psk'.expiresAt = now' + lifetime.toNat * 1000000000 := by
  simp only [Connected.newSessionTicket, Res.bind_eq_ok, orAlert_ok, Res.ok.injEq, Prod.mk.injEq] at h
  obtain ⟨exts, _, psk0, hpsk, ⟨m0, x2⟩, hm0, rfl, rfl⟩ := h
  simp only [List.mem_cons, Action.storePsk.injEq, reduceCtorEq, List.not_mem_nil, or_false] at hp
  simp only [List.mem_cons, Action.queue.injEq, reduceCtorEq, List.not_mem_nil, or_false, false_or] at hm
  subst hp hm
  obtain ⟨d, hd, hme, _⟩ := mkMsg_ok hm0
  have hb := C31_body_roundtrip_partial E.parses (.newSessionTicket ⟨lifetime, ageAdd, nonce, ticket, exts⟩) d trivial hd
  have hb' : toBody E.parses m.msgType m.body = .ok (.newSessionTicket ⟨lifetime, ageAdd, nonce, ticket, exts⟩) := by
    rw [hme]; exact hb
  simp only [ticketPsk, Res.bind_eq_ok, Res.ok.injEq] at hpsk
  obtain ⟨_, _, rfl⟩ := hpsk
  simp only [Connected.process, hb', orAlert, Res.bind_ok] at h'
  split at h'
  · simp [alert] at h'
  · simp only [ticketPsk, Res.bind_eq_ok, Res.ok.injEq, Prod.mk.injEq] at h'
    obtain ⟨_, ⟨_, _, rfl⟩, rfl, rfl, rfl⟩ := h'
    simp only [List.mem_singleton, Action.storePsk.injEq] at hp'
    subst hp'
    exact ⟨rfl, rfl, rfl, rfl⟩

/-- A ticket that is sent and read. -/
example : ∃ (cl sv s' : Connected) (acts acts' : List Action) (x' xc' : Ctx) (m : Msg) (psk psk' : Psk),
    sv.newSessionTicket Toy.env Toy.tls 5 100 10 7 [1, 2] [8, 9] = .ok (acts, x') ∧ .storePsk psk ∈ acts ∧ .queue m ∈ acts ∧
    cl.process Toy.env Toy.tls 6 m = .ok (s', acts', xc') ∧ .storePsk psk' ∈ acts' := by
  obtain ⟨cl, sv, acts, x', h, h1, h2, h3, h4, h5, _⟩ := ticket_case
  obtain ⟨psk, m, rfl, _, _, _, _, _, _, _, h6⟩ :=
    C48_same_psk Toy.env Toy.prims_sized cl sv Toy.tls x' Toy.tls 5 6 100 10 7 _ _ acts h h1 h2 h3 h4 h5
  obtain ⟨psk', h7, _⟩ := h6 m rfl rfl
  exact ⟨cl, sv, _, _, _, x', _, m, psk, psk', h, by simp, by simp, h7, by simp⟩

end Verif.Props

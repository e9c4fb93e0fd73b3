import Verif.Machine.Wire

/-
The handshake of a client and a server that have exchanged hellos, to the end.
-/

namespace Verif.Machine

open Verif Verif.Crypto Verif.Messages Verif.Negotiation Verif.Handshake Verif.Spec

/-- What a client waiting for a ServerHello and a server about to send it have in common. -/
structure Matched (E : Env) (d : Bool) (now : Int → Prop) (w : CWaitSH) (s : SNegotiated) : Prop where
  suiteOffered : s.params.suite ∈ w.cfg.suites
  suiteKnown : (suiteParams s.params.suite.toNat).isSome
  session : s.sessionId.length ≤ 32
  hellos : ∀ y : Ctx, y.datagram = d → hashMsgBytes s.firstHello ++ y.bytesOpt s.retry ++ y.bytes s.clientHello =
    hashMsgBytes w.firstHello ++ y.bytesOpt w.retry ++ y.bytes w.clientHello
  dh : s.params.usingDH = true → ∃ (g : UInt16) (priv z : Bytes), s.dhGroup = g.toNat ∧ 0 < s.dhPublic.length ∧
    s.dhPublic.length = keyExchangeSize g.toNat ∧ lookupDH w.offeredDH g = some priv ∧
    keyAgreement E.D g.toNat s.dhPublic priv = .ok z ∧ s.dhSecret = some z
  noDh : s.params.usingDH = false → s.dhSecret = none
  psk : s.params.usingPSK = true → s.selectedPSK = 0 ∧
    ∀ p, suiteParams s.params.suite.toNat = some p → w.earlySecret = hkdfExtract E.P p.hash (some (zeros p.hash)) s.pskSecret
  clientParams : w.params = { serverName := s.params.serverName, clientSendingEarlyData := s.params.clientSendingEarlyData }
  early : s.params.usingEarlyData = s.params.clientSendingEarlyData
  notRejected : s.params.rejectedEarlyData = false
  earlyPsk : s.params.usingEarlyData = true → s.params.usingPSK = true
  earlyKeys : s.params.usingEarlyData = true → (∀ k, w.cfg.psks w.cfg.serverName = some k → k.suite = s.params.suite.toNat) ∧
    ∀ p, suiteParams s.params.suite.toNat = some p → ∀ y : Ctx, y.datagram = d →
      s.earlyTraffic = clientEarlyTraffic E.P p.hash w.earlySecret (y.bytes w.clientHello)
  notAuth : s.params.usingClientAuth = false
  proto : s.params.nextProto.length < 256
  agreed : s.params.nextProto = [] ∨ (s.params.nextProto ∈ w.cfg.nextProtos ∧ s.params.nextProto ∈ s.cfg.nextProtos)
  resumed : ∀ k k', SharePsk now w.cfg s.cfg k k' → s.params.usingPSK = true ∧ s.params.suite.toNat = k.suite ∧
    (k.isResumption = true → s.params.nextProto = if w.cfg.nextProtos = [] then [] else k'.nextProto)
  cert : s.params.usingPSK = false → ∃ (c : Cert) (a : UInt16), s.cert = some c ∧ s.certScheme = a.toNat ∧
    Usable E [a] c ∧ schemeValidForKey a.toNat c.key = true ∧
    (w.cfg.insecureSkipVerify = true ∨ ∀ t, now t → ∃ chains, w.cfg.verify t w.cfg.serverName (rawChain c) = some chains) ∧
    ∀ f, w.cfg.verifyPeer = some f → ∀ chains, f (rawChain c) chains = true
  auth : s.params.usingPSK = false → s.cfg.requireClientAuth = true → 0 < s.cfg.schemes.length ∧ s.cfg.schemes.length ≤ 1000 ∧
    (∀ c ∈ w.cfg.certificates, Usable E s.cfg.schemes c) ∧
    ∀ f, s.cfg.verifyPeer = some f → ∀ c ∈ w.cfg.certificates, f (rawChain c) [] = true

variable {E : Env} {d : Bool} {now : Int → Prop} {w : CWaitSH} {s : SNegotiated}

/-! ### Certificates -/

theorem certs_sum (l : List X509) : certsSize (l.map (·.raw)) = (l.map fun x => 5 + x.raw.length).sum := by
  induction l with
  | nil => rfl
  | cons x l ih => simp only [certsSize, List.map_cons, Syntax.sumBy_cons, List.sum_cons] at *; omega

theorem usable_marshals {schemes : List UInt16} {c : Cert} (h : Usable E schemes c) : ∃ b, (certBody c).marshal = .ok b := by
  have := fits_certificate (l := c.chain.map (·.raw)) (fun d hd => by
    obtain ⟨x, hx, rfl⟩ := List.mem_map.1 hd
    exact (h.chain x hx).2) (by rw [certs_sum]; have := h.size; omega)
  simpa [certBody, Body.marshal, Function.comp_def] using this

theorem usable_reads {schemes : List UInt16} {c : Cert} (h : Usable E schemes c) {x x' : Ctx} {m : Msg}
    (hm : mkMsg x (certBody c) = .ok (m, x')) :
    m.msgType = 11 ∧
      safeUnmarshal (CertificateMsg.unmarshal E.parses) m.body = .ok ⟨[], c.chain.map fun x => (x.raw, [], ())⟩ := by
  obtain ⟨b, hb, rfl, _⟩ := mkMsg_ok hm
  refine ⟨rfl, ?_⟩
  have := C31_body_roundtrip_partial E.parses (certBody c) b (by
    intro e he
    simp only [List.mem_map] at he
    obtain ⟨x, hx, rfl⟩ := he
    simp [Env.parses, (h.chain x hx).1]) hb
  have ht : (certBody c).type = typeCertificate := rfl
  simp only [toBody, ht, show (typeCertificate : UInt8) ≠ typeClientHello by decide, show (typeCertificate : UInt8) ≠ typeServerHello by decide,
    show (typeCertificate : UInt8) ≠ typeEncryptedExtensions by decide, if_true, if_false, Res.bind_eq_ok, Res.ok.injEq] at this
  obtain ⟨v, hv, hc⟩ := this
  rw [hv]
  simp only [certBody, Body.certificate.injEq] at hc
  rw [hc]

/-- Signing the transcript with a usable certificate, and verifying. -/
theorem usable_signs {schemes : List UInt16} {c : Cert} (h : Usable E schemes c) {a : UInt16} (ha : a ∈ schemes)
    (hv : schemeValidForKey a.toNat c.key = true) (t : Bytes) :
    ∃ cv b pub, CertVerify.sign E.P E.S a c.key t = .ok cv ∧ cv.marshal = .ok b ∧
      leafKey E ⟨[], c.chain.map fun x => (x.raw, [], ())⟩ = .ok pub ∧ cv.verify E.P E.S pub t = true := by
  obtain ⟨leaf, rest, hc, hs⟩ := h.signs
  obtain ⟨sig, h1, h2, h3⟩ := hs a ha hv (signatureInput t)
  obtain ⟨b, hb⟩ := fits_certVerify (cv := ⟨a, sig⟩) h2
  refine ⟨⟨a, sig⟩, b, leaf.pub, by rw [CertVerify.sign, h1, Res.bind_ok], hb, ?_, h3⟩
  have := (h.chain leaf (by rw [hc]; simp)).1
  simp only [leafKey, hc, List.map_cons, this]

theorem certVerify_reads {x x' : Ctx} {cv : CertVerify} {m : Msg} (hm : mkMsg x (.certificateVerify cv) = .ok (m, x')) :
    m.msgType = 15 ∧ safeUnmarshal CertVerify.unmarshal m.body = .ok cv := by
  obtain ⟨b, hb, rfl, _⟩ := mkMsg_ok hm
  refine ⟨rfl, safeUnmarshal_ok.2 ?_⟩
  have := plain_self plain_certVerify (show Syntax.marshal certVerifyTy (cv.algorithm, cv.signature, ()) = .ok b from hb)
  simp [CertVerify.unmarshal, this]

/-! ### The server's flight is sent -/

theorem serverHello_marshals (M : Matched E d now w s) : ∀ b ∈ serverHelloExts s, ∃ e, b.marshal = .ok e ∧ e.length ≤ 2000 := by
  intro b hb
  simp only [serverHelloExts, List.mem_append, List.mem_singleton] at hb
  rcases hb with (rfl | hb) | hb
  · exact ⟨[3, 4], by decide, by decide⟩
  · split at hb
    · rename_i hd
      obtain ⟨g, priv, z, h1, h2, h3, _⟩ := M.dh hd
      simp only [List.mem_singleton] at hb
      subst hb
      have hg : UInt16.ofNat s.dhGroup = g := by rw [h1]; simp
      rw [hg]
      obtain ⟨e, he, hl⟩ := fits_serverShare (e := (g, s.dhPublic, ())) h2 h3 0
      exact ⟨e, he, by omega⟩
    · cases hb
  · split at hb
    · simp only [List.mem_singleton] at hb
      subst hb
      refine ⟨_, by simp [ExtBody.marshal, marshal_u16, typeServerHello, typeClientHello]; rfl, by simp⟩
    · cases hb

theorem serverHello_nodup (s : SNegotiated) : ((serverHelloExts s).map fun b => b.kind.type).Nodup := by
  cases h1 : s.params.usingDH <;> cases h2 : s.params.usingPSK <;>
    simp [serverHelloExts, h1, h2, ExtBody.kind, ExtKind.type]

theorem ee_nodup (s : SNegotiated) : ((encryptedExts s).map fun b => b.kind.type).Nodup := by
  by_cases h1 : s.params.nextProto = [] <;> cases h2 : s.params.usingEarlyData <;>
    simp [encryptedExts, h1, h2, ExtBody.kind, ExtKind.type]

theorem ee_marshals (M : Matched E d now w s) : ∀ b ∈ encryptedExts s, ∃ e, b.marshal = .ok e ∧ e.length ≤ 2000 := by
  intro b hb
  simp only [encryptedExts, List.mem_append] at hb
  rcases hb with hb | hb
  · split at hb
    · rename_i hne
      simp only [List.mem_singleton] at hb
      subst hb
      obtain ⟨e, he, hl⟩ := fits_alpn (l := [s.params.nextProto]) (by simp) (by
        intro p hp
        simp only [List.mem_singleton] at hp
        subst hp
        exact ⟨List.length_pos_iff.2 hne, M.proto⟩) (by simp)
      exact ⟨e, he, by simp at hl; omega⟩
    · cases hb
  · split at hb
    · simp only [List.mem_singleton] at hb
      subst hb
      exact ⟨[], by decide, by decide⟩
    · cases hb

/-- Extensions each of which has at most 2000 bytes, and of which there are at most three, fit. -/
theorem extsSize_three {bs : List ExtBody} (h : ∀ b ∈ bs, ∃ e, b.marshal = .ok e ∧ e.length ≤ 2000) (hl : bs.length ≤ 3) :
    extsSize (bs.map bodyExt) < 65536 := by
  have := extsSize_bodies bs (fun _ => 2000) (by
    intro b hb
    obtain ⟨e, he, hle⟩ := h b hb
    simp only [bodyData, he]; exact hle)
  rw [Syntax.sumBy_const] at this
  omega

theorem serverAuth_fits (M : Matched E d now w s) (x : Ctx) (h : HashId) (t : Bytes) :
    ∃ r, serverAuth E x s h t = .ok r := by
  unfold serverAuth
  cases hp : s.params.usingPSK with
  | true => exact ⟨_, rfl⟩
  | false =>
    simp only [Bool.not_false, if_true]
    have hreq : ∃ r, serverRequest x s t = .ok r := by
      unfold serverRequest
      split
      · rename_i hr
        obtain ⟨h1, h2, _⟩ := M.auth hp hr
        obtain ⟨e, he, hel⟩ := fits_u16List (l := s.cfg.schemes) h1 (by omega)
        have hm : (ExtBody.signatureAlgorithms s.cfg.schemes).marshal = .ok e := he
        have ha : addExt [] (.signatureAlgorithms s.cfg.schemes) = .ok [(13, e, ())] := by
          simp only [addExt, hm, Res.bind_ok]; rfl
        obtain ⟨b, hb⟩ := fits_certRequest (exts := [(13, e, ())]) (by simp [extsSize]; omega)
        obtain ⟨m, x', hmk⟩ := mkMsg_fits (b := .certificateRequest ⟨[], [(13, e, ())]⟩) x hb
        simp only [ha, orAlert, Res.bind_ok, hmk]
        exact ⟨_, rfl⟩
      · exact ⟨_, rfl⟩
    obtain ⟨⟨acts, t1, x1⟩, hr⟩ := hreq
    obtain ⟨c, a, hc, ha, hu, hv, _⟩ := M.cert hp
    simp only [hr, Res.bind_ok, hc]
    obtain ⟨b, hb⟩ := usable_marshals hu
    obtain ⟨m, x2, hm⟩ := mkMsg_fits x1 hb
    have ha' : UInt16.ofNat s.certScheme = a := by rw [ha]; simp
    obtain ⟨cv, cb, pub, h1, h2, _, _⟩ := usable_signs hu (List.mem_singleton.2 rfl) hv (E.P.hash h (t1 ++ x.bytes m))
    obtain ⟨mv, x3, h3⟩ := mkMsg_fits (b := .certificateVerify cv) x2 h2
    simp only [hm, orAlert, Res.bind_ok, ha', h1, h3]
    exact ⟨_, rfl⟩

theorem finished_fits (v : Bytes) : ∃ b, (Body.finished ⟨v.length, v⟩).marshal = .ok b := by
  exact ⟨v, by simp [Body.marshal, Finished.marshal]⟩

theorem flight_fits (hP : E.P.Sized) (M : Matched E d now w s) (x : Ctx) {c : Coins} (hc : ∃ r, c.random = some r) :
    ∃ s' acts x', s.next E x c = .ok (s', acts, x') := by
  obtain ⟨r, hr⟩ := hc
  obtain ⟨p, hp⟩ := Option.isSome_iff_exists.1 M.suiteKnown
  have hsz := suiteParams_size hp
  obtain ⟨exts, he⟩ := addAll_fits [] (serverHelloExts s) fun b hb => (serverHello_marshals M b hb).imp fun _ h => h.1
  obtain ⟨_, he'⟩ := addAll_made he (serverHello_nodup s)
  obtain ⟨bsh, hbsh⟩ := fits_serverHello (sh := ⟨tls12Version, r, s.sessionId, s.params.suite, 0, exts⟩) M.session (by
    rw [he']
    refine extsSize_three (serverHello_marshals M) ?_
    simp only [serverHelloExts]; split <;> split <;> simp)
  obtain ⟨sh, x1, hsh⟩ := mkMsg_fits (b := .serverHello ⟨tls12Version, r, s.sessionId, s.params.suite, 0, exts⟩) x hbsh
  obtain ⟨eexts, hee⟩ := addAll_fits [] (encryptedExts s) fun b hb => (ee_marshals M b hb).imp fun _ h => h.1
  obtain ⟨_, hee'⟩ := addAll_made hee (ee_nodup s)
  obtain ⟨bee, hbee⟩ := fits_ee (exts := eexts) (by
    rw [hee']
    refine extsSize_three (ee_marshals M) ?_
    simp only [encryptedExts]; split <;> split <;> simp)
  obtain ⟨ee, x2, hmee⟩ := mkMsg_fits x1 hbee
  have hrej : s.params.rejectedEarlyData = false := M.notRejected
  simp only [SNegotiated.next, hr, he, orAlert, Res.bind_ok, hsh, hp, hsSecrets_eq E.P hP _ hsz, makeTrafficKeys_eq E.P hP p hsz, hee,
    hmee, hrej]
  obtain ⟨⟨acts, t3, x3⟩, ha⟩ := serverAuth_fits M x2 p.hash
    (hashMsgBytes s.firstHello ++ x.bytesOpt s.retry ++ x.bytes s.clientHello ++ x.bytes sh ++ x.bytes ee)
  simp only [ha, Res.bind_ok, computeFinishedData_eq E.P hP _ hsz]
  obtain ⟨bf, hbf⟩ := finished_fits (finishedMac E.P p.hash
    (serverHsTraffic E.P p.hash (handshakeSecret E.P p.hash (if s.params.usingPSK then hkdfExtract E.P p.hash (some (zeros p.hash)) s.pskSecret
        else hkdfExtract E.P p.hash (some (zeros p.hash)) (zeros p.hash)) s.dhSecret)
      (hashMsgBytes s.firstHello ++ x.bytesOpt s.retry ++ x.bytes s.clientHello ++ x.bytes sh)) t3)
  obtain ⟨fin, x4, hfin⟩ := mkMsg_fits x3 hbf
  simp only [hfin, Res.bind_ok, apSecrets_eq E.P hP _ hsz]
  split
  · exact ⟨_, _, _, rfl⟩
  · exact ⟨_, _, _, rfl⟩

/-! ### The client reads the server's flight -/

theorem serverHello_reads {x x' : Ctx} {sh : ServerHello} {m : Msg} (hm : mkMsg x (.serverHello sh) = .ok (m, x')) :
    m.msgType = typeServerHello ∧ ServerHello.unmarshal m.body = .ok (sh, m.body.length) := by
  obtain ⟨b, hb, rfl, _⟩ := mkMsg_ok hm
  refine ⟨rfl, ?_⟩
  have := plain_self plain_sh (show Syntax.marshal shTy (sh.version, sh.random, sh.sessionId, sh.suite, sh.compression, sh.exts, ()) = .ok b from hb)
  simp [ServerHello.unmarshal, this]

theorem client_sh (M : Matched E d now w s) {x y : Ctx} {c : Coins} (f : NegFacts E x c s) (hr : f.random.1 ≠ hrrRandom)
    (hx : x.datagram = d) (hy : y.datagram = d) :
    w.next E y (arrived d f.sh) = .ok (.waitEE ⟨w.cfg,
        { w.params with usingPSK := s.params.usingPSK, usingDH := s.params.usingDH, suite := s.params.suite },
        ⟨f.p, helloTranscript x s f.sh, f.hs⟩⟩,
      .rekeyIn epochHandshake f.serverKeys ::
        (if !s.params.clientSendingEarlyData then [.rekeyOut epochHandshake f.clientKeys] else []), y) := by
  obtain ⟨ht, hu⟩ := serverHello_reads f.shOk
  obtain ⟨hmar, hexts⟩ := addAll_made f.extsOk (serverHello_nodup s)
  have hvm : ExtBody.supportedVersions typeServerHello [tls13Version] ∈ serverHelloExts s := by simp [serverHelloExts]
  have hfind : findExt (.supportedVersions typeServerHello) f.exts = .ok (some (.supportedVersions typeServerHello [tls13Version])) := by
    rw [C30_find, hexts]
    have := dataOf_bodies (serverHello_nodup s) hvm
    rw [show (ExtBody.supportedVersions typeServerHello [tls13Version]).kind.type = (ExtKind.supportedVersions typeServerHello).type from rfl] at this
    rw [this]
    have := C31_extension_roundtrip_partial _ _ (by simp [expressible]) (hmar _ hvm)
    rw [show (ExtBody.supportedVersions typeServerHello [tls13Version]).kind = ExtKind.supportedVersions typeServerHello from rfl] at this
    simp only [this, Res.bind_ok]; rfl
  have hcheck : checkHello w (arrived d f.sh) = .ok ⟨tls12Version, f.random, s.sessionId, s.params.suite, 0, f.exts⟩ := by
    have hany : w.cfg.suites.any (· == s.params.suite) = true := by
      simpa using M.suiteOffered
    simp only [checkHello, arrived_type, ht, ne_eq, not_true_eq_false, if_false, arrived_body, hu, orAlert, Res.bind_ok, hfind, hany,
      Bool.not_true]
    simp
  obtain ⟨found, hparse, hfound⟩ := parse_bodies (ks := [.preSharedKey typeServerHello, .keyShare typeServerHello])
    (serverHello_nodup s) hmar
    (by
      intro b hb
      simp only [serverHelloExts, List.mem_append, List.mem_singleton] at hb
      rcases hb with (rfl | hb) | hb
      · simp [expressible]
      · split at hb
        · simp only [List.mem_singleton] at hb; subst hb; simp [expressible]
        · cases hb
      · split at hb
        · simp only [List.mem_singleton] at hb; subst hb; simp [expressible, typeServerHello, typeClientHello]
        · cases hb)
    (by decide)
    (by
      intro b hb k hk
      simp only [serverHelloExts, List.mem_append, List.mem_singleton] at hb
      simp only [List.mem_cons, List.not_mem_nil, or_false] at hk
      rcases hb with (rfl | hb) | hb
      · rcases hk with rfl | rfl <;> simp [ExtBody.kind, ExtKind.type]
      · split at hb
        · simp only [List.mem_singleton] at hb; subst hb
          rcases hk with rfl | rfl <;> simp [ExtBody.kind, ExtKind.type]
        · cases hb
      · split at hb
        · simp only [List.mem_singleton] at hb; subst hb
          rcases hk with rfl | rfl <;> simp [ExtBody.kind, ExtKind.type]
        · cases hb)
  have hpsk := hfound asPsk (.preSharedKey typeServerHello) (by simp) isSome_psk
  have hsh := hfound asShares (.keyShare typeServerHello) (by simp) isSome_shares
  rw [← hexts] at hparse
  have hT : hashMsgBytes w.firstHello ++ y.bytesOpt w.retry ++ y.bytes w.clientHello ++ y.bytes (arrived d f.sh) =
      helloTranscript x s f.sh := by
    rw [← M.hellos y hy, bytes_same hx hy, helloTranscript]
    congr 1
    have hxy : y.datagram = x.datagram := hy.trans hx.symm
    rw [bytes_congr hxy]
    cases s.retry with
    | none => rfl
    | some r => simp only [Ctx.bytesOpt, bytes_congr hxy]
  have hpsk' : findPsk found = if s.params.usingPSK then some ([], [], 0) else none := by
    simp only [findPsk, hpsk]
    cases hp : s.params.usingPSK <;> cases hd : s.params.usingDH <;>
      simp [serverHelloExts, hp, hd, ExtBody.kind, ExtKind.type, List.find?, contents, asPsk]
    all_goals rw [(M.psk hp).1]; rfl
  have hdh : clientDH E w (findShares found) = .ok (s.params.usingDH, s.dhSecret) := by
    simp only [findShares, hsh]
    cases hd : s.params.usingDH with
    | false =>
      rw [M.noDh hd]
      cases hp : s.params.usingPSK <;>
        simp [serverHelloExts, hp, hd, ExtBody.kind, ExtKind.type, List.find?, clientDH]
    | true =>
      obtain ⟨g, priv, z, h1, h2, h3, h4, h5, h6⟩ := M.dh hd
      have hg : UInt16.ofNat s.dhGroup = g := by rw [h1]; simp
      rw [h6]
      cases hp : s.params.usingPSK <;>
        simp [serverHelloExts, hp, hd, ExtBody.kind, ExtKind.type, List.find?, clientDH, contents, asShares, hg, h4, h5]
  have hearly : (if s.params.usingPSK then w.earlySecret else hkdfExtract E.P f.p.hash (some (zeros f.p.hash)) (zeros f.p.hash)) =
      serverEarlySecret E.P f.p.hash s := by
    unfold serverEarlySecret
    cases hp : s.params.usingPSK with
    | true => simp only [if_true]; exact (M.psk hp).2 _ f.suiteOk
    | false => rfl
  have hsend : w.params.clientSendingEarlyData = s.params.clientSendingEarlyData := by rw [M.clientParams]
  cases hp : s.params.usingPSK <;>
    simp only [hp, if_true, Bool.false_eq_true, if_false] at hpsk' hearly <;>
    simp only [CWaitSH.next, hcheck, Res.bind_ok, if_neg hr, handleHello, hparse, orAlert, hpsk', hdh, f.suiteOk, hearly, hT, f.hsOk,
      f.serverKeysOk, f.clientKeysOk, hsend, beq_self_eq_true, if_true, Bool.false_eq_true, if_false]

theorem client_ee (M : Matched E d now w s) {x y : Ctx} {c : Coins} (f : NegFacts E x c s) (hx : x.datagram = d)
    (hy : y.datagram = d) :
    CWaitEE.next E y ⟨w.cfg, { w.params with usingPSK := s.params.usingPSK, usingDH := s.params.usingDH, suite := s.params.suite },
        ⟨f.p, helloTranscript x s f.sh, f.hs⟩⟩ (arrived d f.ee) =
      .ok (if s.params.usingPSK then
          .waitFinished ⟨s.params, ⟨f.p, helloTranscript x s f.sh ++ x.bytes f.ee, f.hs⟩, w.cfg.certificates, none, [], []⟩
        else .waitCertCR ⟨w.cfg, s.params, ⟨f.p, helloTranscript x s f.sh ++ x.bytes f.ee, f.hs⟩⟩, [], y) := by
  obtain ⟨ht, hu⟩ := unmarshalEE_made f.eeOk
  obtain ⟨hmar, hexts⟩ := addAll_made f.eeExtsOk (ee_nodup s)
  obtain ⟨found, hparse, hfound⟩ := parse_bodies (ks := [.alpn, .earlyData])
    (ee_nodup s) hmar
    (by
      intro b hb
      simp only [encryptedExts, List.mem_append] at hb
      rcases hb with hb | hb <;> split at hb
      · simp only [List.mem_singleton] at hb; subst hb; simp [expressible]
      · cases hb
      · simp only [List.mem_singleton] at hb; subst hb; simp [expressible]
      · cases hb)
    (by decide)
    (by
      intro b hb k hk
      simp only [encryptedExts, List.mem_append] at hb
      simp only [List.mem_cons, List.not_mem_nil, or_false] at hk
      rcases hb with hb | hb <;> split at hb
      · simp only [List.mem_singleton] at hb; subst hb
        rcases hk with rfl | rfl <;> simp [ExtBody.kind, ExtKind.type]
      · cases hb
      · simp only [List.mem_singleton] at hb; subst hb
        rcases hk with rfl | rfl <;> simp [ExtBody.kind, ExtKind.type]
      · cases hb)
  have hal := hfound asAlpn .alpn (by simp) isSome_alpn
  have hed := hfound asEarlyData .earlyData (by simp) isSome_early
  rw [← hexts] at hparse
  have hed' : findEarlyData found = s.params.usingEarlyData := by
    simp only [findEarlyData, hed]
    by_cases hn : s.params.nextProto = [] <;> cases hu : s.params.usingEarlyData <;>
      simp [encryptedExts, hn, hu, ExtBody.kind, ExtKind.type, List.find?, contents, asEarlyData]
  have hal' : findAlpn found = if s.params.nextProto = [] then none else some [s.params.nextProto] := by
    simp only [findAlpn, hal]
    by_cases hn : s.params.nextProto = [] <;> cases hu : s.params.usingEarlyData <;>
      simp [encryptedExts, hn, hu, ExtBody.kind, ExtKind.type, List.find?, contents, asAlpn]
  have hparams : (⟨s.params.usingPSK, s.params.usingDH, s.params.clientSendingEarlyData, s.params.usingEarlyData, false, false,
      s.params.suite, s.params.serverName, s.params.nextProto⟩ : ConnParams) = s.params := by
    have h1 := M.notRejected
    have h2 := M.notAuth
    cases hs : s.params
    simp only [hs] at h1 h2 ⊢
    rw [h1, h2]
  have hw := M.clientParams
  have hearly := M.early
  by_cases hn : s.params.nextProto = [] <;>
    simp only [hn, if_true, if_false] at hal' hparams <;>
    simp only [CWaitEE.next, arrived_type, arrived_body, ht, typeEncryptedExtensions, ne_eq, not_true_eq_false, if_false,
      safeUnmarshal_ok.2 hu, orAlert, Res.bind_ok, hparse, hed', hal', CSecrets.add, f.clientKeysOk, bytes_same hx hy, hw, hparams] <;>
    rw [hearly] <;> simp only [Bool.and_not_self] <;>
    cases s.params.usingPSK <;> rfl

/-- The messages `ms`, as they arrive. -/
def Over (d : Bool) (now : Int → Prop) (ms : List Msg) (es : List (Event × Coins)) : Prop :=
  es.map (·.1) = ms.map (fun m => Event.msg (arrived d m)) ∧ ∀ e ∈ es, GoodCoins now e.2

theorem over_nil {es : List (Event × Coins)} (h : Over d now [] es) : es = [] := by simpa using h.1

theorem over_cons {m : Msg} {ms : List Msg} {es : List (Event × Coins)} (h : Over d now (m :: ms) es) :
    ∃ c es', es = (.msg (arrived d m), c) :: es' ∧ GoodCoins now c ∧ Over d now ms es' := by
  obtain ⟨h1, h2⟩ := h
  cases es with
  | nil => simp at h1
  | cons e es =>
    obtain ⟨ev, c⟩ := e
    simp only [List.map_cons, List.cons.injEq] at h1
    exact ⟨c, es, by rw [← h1.1], h2 _ (List.mem_cons_self ..), h1.2, fun e he => h2 e (List.mem_cons_of_mem _ he)⟩

theorem over_append {ms ms' : List Msg} {es : List (Event × Coins)} (h : Over d now (ms ++ ms') es) :
    ∃ es₁ es₂, es = es₁ ++ es₂ ∧ Over d now ms es₁ ∧ Over d now ms' es₂ := by
  induction ms generalizing es with
  | nil => exact ⟨[], es, rfl, ⟨rfl, by simp⟩, h⟩
  | cons m ms ih =>
    obtain ⟨c, es', rfl, hg, h'⟩ := over_cons h
    obtain ⟨es₁, es₂, rfl, h1, h2⟩ := ih h'
    refine ⟨_ :: es₁, es₂, rfl, ⟨by simp [h1.1], ?_⟩, h2⟩
    intro e he
    rcases List.mem_cons.1 he with rfl | he
    · exact hg
    · exact h1.2 e he

theorem CState.run_cons {x x' x'' : Ctx} {c : Coins} {s s' s'' : CState} {e : Event} {es : List (Event × Coins)}
    {acts acts' : List Action} (h : s.step E x c e = .ok (s', acts, x')) (h' : s'.run E x' es = .ok (s'', acts', x'')) :
    s.run E x ((e, c) :: es) = .ok (s'', acts ++ acts', x'') := by
  simp only [CState.run, h, Res.bind_ok, h']

theorem SState.run_cons {x x' x'' : Ctx} {c : Coins} {s s' s'' : SState} {e : Event} {es : List (Event × Coins)}
    {acts acts' : List Action} (h : s.step E x c e = .ok (s', acts, x')) (h' : s'.run E x' es = .ok (s'', acts', x'')) :
    s.run E x ((e, c) :: es) = .ok (s'', acts ++ acts', x'') := by
  simp only [SState.run, h, Res.bind_ok, h']

theorem client_run_waitEE {x x' x'' : Ctx} {c : Coins} {v : CWaitEE} {s' s'' : CState} {m : Msg} {es : List (Event × Coins)}
    {acts acts' : List Action} (h : v.next E x m = .ok (s', acts, x')) (h' : s'.run E x' es = .ok (s'', acts', x'')) :
    CState.run E x (.waitEE v) ((.msg m, c) :: es) = .ok (s'', acts ++ acts', x'') := CState.run_cons (by exact h) h'

theorem client_run_waitCertCR {x x' x'' : Ctx} {c : Coins} {v : CWaitEE} {s' s'' : CState} {m : Msg} {es : List (Event × Coins)}
    {acts acts' : List Action} (h : v.nextCertCR E x m = .ok (s', acts, x')) (h' : s'.run E x' es = .ok (s'', acts', x'')) :
    CState.run E x (.waitCertCR v) ((.msg m, c) :: es) = .ok (s'', acts ++ acts', x'') := CState.run_cons (by exact h) h'

theorem client_run_waitCert {x x' x'' : Ctx} {c : Coins} {v : CWaitCert} {s' s'' : CState} {m : Msg} {es : List (Event × Coins)}
    {acts acts' : List Action} (h : v.next E x m = .ok (s', acts, x')) (h' : s'.run E x' es = .ok (s'', acts', x'')) :
    CState.run E x (.waitCert v) ((.msg m, c) :: es) = .ok (s'', acts ++ acts', x'') := CState.run_cons (by exact h) h'

theorem client_run_waitCV {x x' x'' : Ctx} {c : Coins} {v : CWaitCV} {s' s'' : CState} {m : Msg} {es : List (Event × Coins)}
    {acts acts' : List Action} (h : v.next E x c m = .ok (s', acts, x')) (h' : s'.run E x' es = .ok (s'', acts', x'')) :
    CState.run E x (.waitCV v) ((.msg m, c) :: es) = .ok (s'', acts ++ acts', x'') := CState.run_cons (by exact h) h'

theorem client_run_waitFinished {x x' x'' : Ctx} {c : Coins} {v : CWaitFinished} {s' s'' : CState} {m : Msg} {es : List (Event × Coins)}
    {acts acts' : List Action} (h : v.next E x m = .ok (s', acts, x')) (h' : s'.run E x' es = .ok (s'', acts', x'')) :
    CState.run E x (.waitFinished v) ((.msg m, c) :: es) = .ok (s'', acts ++ acts', x'') := CState.run_cons (by exact h) h'

/-- The request a client got, if any, names the schemes of the server. -/
def Requested (scfg : Config) (params : ConnParams) (request : Option CertRequest) : Prop :=
  params.usingClientAuth = true → scfg.requireClientAuth = true ∧ params.usingPSK = false ∧
    ∃ r, request = some r ∧ findExt .signatureAlgorithms r.exts = .ok (some (.signatureAlgorithms scfg.schemes))

/-- What the client has when it waits for the server's Finished. -/
structure FlightRead {x : Ctx} {c : Coins} (f : NegFacts E x c s) (w : CWaitSH) (wf : CWaitFinished) : Prop where
  params : wf.params = f.wait.params
  sec : wf.sec = ⟨f.p, f.transcript3, f.hs⟩
  certificates : wf.certificates = w.cfg.certificates
  request : Requested s.cfg wf.params wf.request

theorem certificate_step {x y : Ctx} (hx : x.datagram = d) (hy : y.datagram = d) {c : Cert} {schemes : List UInt16} (hu : Usable E schemes c)
    {x1 x2 : Ctx} {m : Msg} (hm : mkMsg x1 (certBody c) = .ok (m, x2)) (cfg : Config) (params : ConnParams) (sec : CSecrets)
    (request : CertRequest) :
    CWaitEE.nextCertCR E y ⟨cfg, params, sec⟩ (arrived d m) =
      .ok (.waitCV ⟨cfg, params, sec.add (x.bytes m), ⟨[], c.chain.map fun x => (x.raw, [], ())⟩, none⟩, [], y) ∧
    CWaitCert.next E y ⟨cfg, params, sec, request⟩ (arrived d m) =
      .ok (.waitCV ⟨cfg, params, sec.add (x.bytes m), ⟨[], c.chain.map fun x => (x.raw, [], ())⟩, some request⟩, [], y) := by
  obtain ⟨ht, hr⟩ := usable_reads hu hm
  have ht' : m.msgType = typeCertificate := ht
  constructor
  · have : toBody E.parses m.msgType m.body = .ok (.certificate ⟨[], c.chain.map fun x => (x.raw, [], ())⟩) := by
      simp only [toBody, ht', show (typeCertificate : UInt8) ≠ typeClientHello by decide, show (typeCertificate : UInt8) ≠ typeServerHello by decide,
        show (typeCertificate : UInt8) ≠ typeEncryptedExtensions by decide, if_true, if_false, hr, Res.bind_ok]
    simp only [CWaitEE.nextCertCR, arrived_type, arrived_body, this, orAlert, Res.bind_ok, bytes_same hx hy]
  · simp only [CWaitCert.next, arrived_type, arrived_body, ht', ne_eq, not_true_eq_false, if_false, hr, orAlert, Res.bind_ok,
      bytes_same hx hy]

/-- CertificateVerify is accepted. -/
theorem certVerify_step {x y : Ctx} (hx : x.datagram = d) (hy : y.datagram = d) {c : Cert} {a : UInt16} (hu : Usable E [a] c)
    (hv : schemeValidForKey a.toNat c.key = true) {cfg : Config}
    (hver : cfg.insecureSkipVerify = true ∨ ∀ t, now t → ∃ chains, cfg.verify t cfg.serverName (rawChain c) = some chains)
    (hacc : ∀ f, cfg.verifyPeer = some f → ∀ chains, f (rawChain c) chains = true)
    {params : ConnParams} {sec : CSecrets} {request : Option CertRequest} {cv : CertVerify} {x1 x2 : Ctx} {mv : Msg}
    (hs : CertVerify.sign E.P E.S a c.key (E.P.hash sec.cp.hash sec.transcript) = .ok cv)
    (hm : mkMsg x1 (.certificateVerify cv) = .ok (mv, x2)) {co : Coins} (hg : GoodCoins now co) :
    ∃ chains, CWaitCV.next E y co ⟨cfg, params, sec, ⟨[], c.chain.map fun x => (x.raw, [], ())⟩, request⟩ (arrived d mv) =
      .ok (.waitFinished ⟨params, sec.add (x.bytes mv), cfg.certificates, request, rawChain c, chains⟩, [], y) := by
  obtain ⟨ht, hr⟩ := certVerify_reads hm
  have ht' : mv.msgType = typeCertificateVerify := ht
  obtain ⟨cv', b, pub, h1, _, h3, h4⟩ := usable_signs hu (List.mem_singleton.2 rfl) hv (E.P.hash sec.cp.hash sec.transcript)
  rw [hs, Res.ok.injEq] at h1
  subst h1
  have hraw : (c.chain.map fun x => ((x.raw, [], ()) : CertEntry)).map (·.1) = rawChain c := by
    simp [rawChain, Function.comp_def]
  have hch : ∃ chains, (if cfg.insecureSkipVerify then some [] else cfg.verify co.now cfg.serverName (rawChain c)) = some chains := by
    cases hi : cfg.insecureSkipVerify with
    | true => exact ⟨[], rfl⟩
    | false =>
      rcases hver with h | h
      · rw [hi] at h; cases h
      · exact h _ hg.2
  obtain ⟨chains, hch⟩ := hch
  refine ⟨chains, ?_⟩
  cases hvp : cfg.verifyPeer with
  | none =>
    simp only [CWaitCV.next, arrived_type, arrived_body, ht', ne_eq, not_true_eq_false, if_false, hr, orAlert, Res.bind_ok, h3, h4, hraw,
      hch, hvp, Bool.not_true, Bool.false_eq_true, bytes_same hx hy]
  | some g =>
    simp only [CWaitCV.next, arrived_type, arrived_body, ht', ne_eq, not_true_eq_false, if_false, hr, orAlert, Res.bind_ok, h3, h4, hraw,
      hch, hvp, hacc g hvp chains, Bool.not_true, Bool.false_eq_true, bytes_same hx hy]

theorem request_step {x y : Ctx} (hx : x.datagram = d) (hy : y.datagram = d) {schemes : List UInt16} {exts : List Ext} {x1 x2 : Ctx}
    {m : Msg} (ha : addExt [] (.signatureAlgorithms schemes) = .ok exts)
    (hm : mkMsg x1 (.certificateRequest ⟨[], exts⟩) = .ok (m, x2)) (cfg : Config) (params : ConnParams) (sec : CSecrets) :
    CWaitEE.nextCertCR E y ⟨cfg, params, sec⟩ (arrived d m) =
      .ok (.waitCert ⟨cfg, { params with usingClientAuth := true }, sec.add (x.bytes m), ⟨[], exts⟩⟩, [], y) ∧
    findExt .signatureAlgorithms exts = .ok (some (.signatureAlgorithms schemes)) := by
  refine ⟨?_, (C30_add _ _ _ ha).1 (by simp [expressible])⟩
  obtain ⟨b, hb, rfl, _⟩ := mkMsg_ok hm
  have := C31_body_roundtrip_partial E.parses (.certificateRequest ⟨[], exts⟩) b trivial hb
  simp only [CWaitEE.nextCertCR, arrived_type, arrived_body, this, orAlert, Res.bind_ok, bytes_same hx hy, List.length_nil]
  rfl

/-- Messages as they arrive. -/
def letters (d : Bool) (ms : List Msg) : List Sym := ms.map fun m => .msg (arrived d m)

/-- The client reads the server's flight up to Finished, and sends nothing. -/
theorem client_flight_heard (M : Matched E d now w s) {x y : Ctx} {c : Coins} (f : NegFacts E x c s) (hr : f.random.1 ≠ hrrRandom)
    (hx : x.datagram = d) (hy : y.datagram = d) {es : List (Event × Coins)} (ho : Over d now ([f.sh, f.ee] ++ sent f.acts) es) :
    ∃ wf acts, CState.run E y (.waitSH w) es = .ok (.waitFinished wf, acts, y) ∧ sent acts = [] ∧ FlightRead f w wf ∧
      outs d acts = (if !s.params.clientSendingEarlyData then [.key epochHandshake f.clientKeys] else []) ∧
      CState.heard E y (.waitSH w) es =
        [.msg (arrived d f.sh), .key epochHandshake f.serverKeys, .msg (arrived d f.ee)] ++ letters d (sent f.acts) := by
  obtain ⟨c1, es, rfl, _, ho⟩ := over_cons ho
  obtain ⟨c2, es, rfl, _, ho⟩ := over_cons ho
  have hd2 := f.datagram.2.1
  have h1 : CState.step E y c1 (.waitSH w) (.msg (arrived d f.sh)) = .ok (.waitEE ⟨w.cfg,
        { w.params with usingPSK := s.params.usingPSK, usingDH := s.params.usingDH, suite := s.params.suite },
        ⟨f.p, helloTranscript x s f.sh, f.hs⟩⟩,
      .rekeyIn epochHandshake f.serverKeys ::
        (if !s.params.clientSendingEarlyData then [.rekeyOut epochHandshake f.clientKeys] else []), y) := by
    simp only [CState.step, client_sh M f hr hx hy, Res.bind_ok]
  have h2 := client_ee M f hx hy
  have hs1 : sent (Action.rekeyIn epochHandshake f.serverKeys ::
      (if !s.params.clientSendingEarlyData then [Action.rekeyOut epochHandshake f.clientKeys] else [])) = [] := by
    split <;> rfl
  have ho1 : outs d (Action.rekeyIn epochHandshake f.serverKeys ::
      (if !s.params.clientSendingEarlyData then [Action.rekeyOut epochHandshake f.clientKeys] else [])) =
      (if !s.params.clientSendingEarlyData then [.key epochHandshake f.clientKeys] else []) := by
    split <;> rfl
  have hi1 : ins (Action.rekeyIn epochHandshake f.serverKeys ::
      (if !s.params.clientSendingEarlyData then [Action.rekeyOut epochHandshake f.clientKeys] else [])) =
      [.key epochHandshake f.serverKeys] := by
    split <;> rfl
  have hw : ∀ b, (!s.params.usingPSK && s.cfg.requireClientAuth) = b → f.wait.params = { s.params with usingClientAuth := b } := by
    intro b hb; rw [NegFacts.wait, hb]
  have hself : ({ s.params with usingClientAuth := false } : ConnParams) = s.params := by
    have := M.notAuth
    cases hsp : s.params
    simp only [hsp] at this ⊢
    rw [this]
  rcases serverAuth_ok f.authOk with ⟨hp, ha, ht, _⟩ | ⟨hp, acts1, t1, x1, cert, m, x2, cv, mv, hreq, hcert, hm, hcv, hmv, ha, ht⟩
  · rw [ha] at ho
    have : es = [] := over_nil (by simpa [sent] using ho)
    subst this
    rw [if_pos hp] at h2
    refine ⟨_, _, CState.run_cons h1 (client_run_waitEE h2 rfl), ?_, ?_, ?_, ?_⟩
    · simp only [sent_append, hs1]; rfl
    · refine ⟨?_, by simp only [ht], rfl, ?_⟩
      · rw [hw false (by rw [hp]; rfl), hself]
      · intro hu; simp [M.notAuth] at hu
    · simp only [outs_append, ho1]; simp [outs]
    · rw [CState.heard_cons h1 (CState.heard_cons (CState.step_waitEE h2) rfl), hi1, ha]
      rfl
  · rw [if_neg (by simp [hp])] at h2
    obtain ⟨c0, a, hc, hsch, hu, hv, hver, hacc⟩ := M.cert hp
    rw [hcert, Option.some.injEq] at hc
    subst hc
    have hsch' : UInt16.ofNat s.certScheme = a := by rw [hsch]; simp
    rw [hsch'] at hcv
    rw [ha, sent_append] at ho
    rcases serverRequest_ok hreq with ⟨hra, rfl, rfl, rfl⟩ | ⟨hra, exts, mr, hext, hmr, rfl, rfl⟩
    · obtain ⟨c3, es, rfl, _, ho⟩ := over_cons (by simpa [sent] using ho)
      obtain ⟨c4, es, rfl, hg, ho⟩ := over_cons ho
      have := over_nil ho
      subst this
      have h3 := (certificate_step (d := d) (y := y) hx hy hu hm w.cfg s.params ⟨f.p, helloTranscript x s f.sh ++ x.bytes f.ee, f.hs⟩ ⟨[], []⟩).1
      have hx2b : ∀ m, f.x2.bytes m = x.bytes m := fun m => bytes_congr hd2 m
      rw [hx2b] at hcv
      obtain ⟨chains, h4⟩ := certVerify_step (x := x) (y := y) (params := s.params) (request := none)
        (sec := CSecrets.add ⟨f.p, helloTranscript x s f.sh ++ x.bytes f.ee, f.hs⟩ (x.bytes m)) hx hy hu hv hver hacc hcv hmv hg
      refine ⟨_, _, CState.run_cons h1 (client_run_waitEE h2 (client_run_waitCertCR h3 (client_run_waitCV h4 rfl))), ?_, ?_, ?_, ?_⟩
      · simp only [sent_append, hs1]; rfl
      · refine ⟨?_, ?_, rfl, ?_⟩
        · rw [hw false (by rw [hp, hra]; rfl), hself]
        · simp only [CSecrets.add, ht, hx2b]
        · intro hu; simp [M.notAuth] at hu
      · simp only [outs_append, ho1]; simp [outs]
      · rw [CState.heard_cons h1 (CState.heard_cons (CState.step_waitEE h2) (CState.heard_cons (CState.step_waitCertCR h3)
          (CState.heard_cons (CState.step_waitCV h4) rfl))), hi1, ha]
        rfl
    · obtain ⟨c3, es, rfl, _, ho⟩ := over_cons (by simpa [sent] using ho)
      obtain ⟨c4, es, rfl, _, ho⟩ := over_cons ho
      obtain ⟨c5, es, rfl, hg, ho⟩ := over_cons ho
      have := over_nil ho
      subst this
      have hx2b : ∀ m, f.x2.bytes m = x.bytes m := fun m => bytes_congr hd2 m
      simp only [hx2b] at hcv ht
      obtain ⟨h3, hfind⟩ := request_step (E := E) (x := x) (y := y) hx hy hext hmr w.cfg s.params
        ⟨f.p, helloTranscript x s f.sh ++ x.bytes f.ee, f.hs⟩
      have h4 := (certificate_step (x := x) (y := y) hx hy hu hm w.cfg { s.params with usingClientAuth := true }
        (CSecrets.add ⟨f.p, helloTranscript x s f.sh ++ x.bytes f.ee, f.hs⟩ (x.bytes mr)) ⟨[], exts⟩).2
      obtain ⟨chains, h5⟩ := certVerify_step (x := x) (y := y) (params := { s.params with usingClientAuth := true })
        (request := some ⟨[], exts⟩)
        (sec := CSecrets.add (CSecrets.add ⟨f.p, helloTranscript x s f.sh ++ x.bytes f.ee, f.hs⟩ (x.bytes mr)) (x.bytes m))
        hx hy hu hv hver hacc hcv hmv hg
      refine ⟨_, _, CState.run_cons h1 (client_run_waitEE h2 (client_run_waitCertCR h3 (client_run_waitCert h4 (client_run_waitCV h5 rfl)))), ?_, ?_, ?_, ?_⟩
      · simp only [sent_append, hs1]; rfl
      · refine ⟨?_, ?_, rfl, ?_⟩
        · rw [hw true (by rw [hp, hra]; rfl)]
        · simp only [CSecrets.add, ht]
        · intro _; exact ⟨hra, hp, _, rfl, hfind⟩
      · simp only [outs_append, ho1]; simp [outs]
      · rw [CState.heard_cons h1 (CState.heard_cons (CState.step_waitEE h2) (CState.heard_cons (CState.step_waitCertCR h3)
          (CState.heard_cons (CState.step_waitCert h4) (CState.heard_cons (CState.step_waitCV h5) rfl)))), hi1, ha]
        rfl

theorem client_flight (M : Matched E d now w s) {x y : Ctx} {c : Coins} (f : NegFacts E x c s) (hr : f.random.1 ≠ hrrRandom)
    (hx : x.datagram = d) (hy : y.datagram = d) {es : List (Event × Coins)} (ho : Over d now ([f.sh, f.ee] ++ sent f.acts) es) :
    ∃ wf acts, CState.run E y (.waitSH w) es = .ok (.waitFinished wf, acts, y) ∧ sent acts = [] ∧ FlightRead f w wf := by
  obtain ⟨wf, acts, h1, h2, h3, _⟩ := client_flight_heard M f hr hx hy ho
  exact ⟨wf, acts, h1, h2, h3⟩

end Verif.Machine

import Verif.Machine.Client
import Verif.Crypto.Lemmas

/-
What a step of the client that succeeds implies.
-/

namespace Verif.Machine

open Verif Verif.Crypto Verif.Messages Verif.Negotiation Verif.Handshake

theorem orAlert_ok {α : Type} {a : Nat} {r : Res α} {v : α} : orAlert a r = .ok v ↔ r = .ok v := by
  cases r <;> simp [orAlert]

theorem alert_ok {α : Type} {a : Nat} {v : α} : (alert a : Res α) = .ok v ↔ False := by simp [alert]

theorem mkMsg_ok {x x' : Ctx} {b : Body} {m : Msg} (h : mkMsg x b = .ok (m, x')) :
    ∃ data, b.marshal = .ok data ∧ m = ⟨b.type, x.outSeq, data, 0, data.length % 2 ^ 32⟩ ∧
      x' = { x with outSeq := (x.outSeq + 1) % 2 ^ 32 } := by
  simp only [mkMsg, Res.bind_eq_ok, Res.ok.injEq, Prod.mk.injEq] at h
  obtain ⟨d, h1, h2, h3⟩ := h
  exact ⟨d, h1, h2.symm, h3.symm⟩

theorem mkMsg_datagram {x x' : Ctx} {b : Body} {m : Msg} (h : mkMsg x b = .ok (m, x')) : x'.datagram = x.datagram := by
  obtain ⟨d, _, _, rfl⟩ := mkMsg_ok h; rfl

theorem mkMsg_type {x x' : Ctx} {b : Body} {m : Msg} (h : mkMsg x b = .ok (m, x')) : m.msgType = b.type := by
  obtain ⟨d, _, rfl, _⟩ := mkMsg_ok h; rfl

theorem bytes_congr {x y : Ctx} (h : x.datagram = y.datagram) (m : Msg) : x.bytes m = y.bytes m := by
  simp [Ctx.bytes, h]

/-! ### Inversion of the transition functions -/

theorem CWaitSH.next_ok {E : Env} {x x' : Ctx} {w : CWaitSH} {m : Msg} {s' : CState} {acts : List Action}
    (h : w.next E x m = .ok (s', acts, x')) :
    ∃ sh, checkHello w m = .ok sh ∧
      ((sh.random.1 = hrrRandom ∧ ∃ st, handleRetry E x w m sh = .ok st ∧ s' = .start st ∧ acts = [.resetOut 1] ∧ x' = x) ∨
       (sh.random.1 ≠ hrrRandom ∧ ∃ e, handleHello E x w m sh = .ok (e, acts, x') ∧ s' = .waitEE e)) := by
  simp only [CWaitSH.next, Res.bind_eq_ok] at h
  obtain ⟨sh, h1, h⟩ := h
  refine ⟨sh, h1, ?_⟩
  split at h
  · rename_i hr
    simp only [Res.bind_eq_ok, Res.ok.injEq, Prod.mk.injEq] at h
    obtain ⟨st, h2, rfl, rfl, rfl⟩ := h
    exact Or.inl ⟨hr, st, h2, rfl, rfl, rfl⟩
  · rename_i hr
    simp only [Res.bind_eq_ok, Res.ok.injEq, Prod.mk.injEq] at h
    obtain ⟨⟨e, a, y⟩, h2, rfl, rfl, rfl⟩ := h
    exact Or.inr ⟨hr, e, h2, rfl⟩

theorem checkHello_ok {w : CWaitSH} {m : Msg} {sh : ServerHello} (h : checkHello w m = .ok sh) :
    m.msgType = typeServerHello ∧ (∃ n, ServerHello.unmarshal m.body = .ok (sh, n)) ∧ sh.version = tls12Version ∧
      (∃ hs vs, findExt (.supportedVersions typeServerHello) sh.exts =
        .ok (some (.supportedVersions hs (tls13Version :: vs)))) ∧ sh.suite ∈ w.cfg.suites := by
  simp only [checkHello] at h
  split at h
  · simp [alert] at h
  · rename_i ht
    simp only [Res.bind_eq_ok, orAlert_ok] at h
    obtain ⟨⟨sh', n⟩, h1, h⟩ := h
    dsimp only at h
    split at h
    · simp [alert] at h
    · rename_i hv
      simp only [Res.bind_eq_ok, orAlert_ok] at h
      obtain ⟨found, h2, h⟩ := h
      split at h
      · rename_i hs v vs
        split at h
        · simp [alert] at h
        · rename_i hver
          split at h
          · simp [alert] at h
          · rename_i hsu
            cases h
            have hv' : v = tls13Version := by simpa using hver
            subst hv'
            refine ⟨by simpa using ht, ⟨n, h1⟩, by simpa using hv, ⟨hs, vs, h2⟩, ?_⟩
            have hsu' : w.cfg.suites.any (· == sh.suite) = true := by simpa using hsu
            obtain ⟨y, hy1, hy2⟩ := List.any_eq_true.mp hsu'
            rwa [← (beq_iff_eq.mp hy2)]
      · cases h
      · cases h
      · simp [alert] at h

theorem handleRetry_ok {E : Env} {x : Ctx} {w : CWaitSH} {m : Msg} {hrr : ServerHello} {st : CStart}
    (h : handleRetry E x w m hrr = .ok st) :
    ∃ ck p, findExt .cookie hrr.exts = .ok (some (.cookie ck)) ∧ hrr.exts.length = 2 ∧
      suiteParams hrr.suite.toNat = some p ∧
      st = { cfg := { w.cfg with suites := [hrr.suite] }, cookie := some ck,
             firstHello := some (E.P.hash p.hash (x.bytes w.clientHello)), retry := some m } := by
  simp only [handleRetry, Res.bind_eq_ok, orAlert_ok] at h
  obtain ⟨found, h1, h⟩ := h
  split at h
  · rename_i ck
    split at h
    · simp [alert] at h
    · rename_i hl
      split at h
      · cases h
      · rename_i p hp
        cases h
        exact ⟨ck, p, h1, by simpa using hl, hp, rfl⟩
  · cases h
  · simp [alert] at h

/-- Whether the ServerHello selects the first PSK identity. -/
def pskSelected (found : List ExtBody) : Bool :=
  match findPsk found with
  | some (_, _, selected) => selected == 0
  | none => false

theorem handleHello_ok {E : Env} {x x' : Ctx} {w : CWaitSH} {m : Msg} {sh : ServerHello} {e : CWaitEE} {acts : List Action}
    (h : handleHello E x w m sh = .ok (e, acts, x')) :
    ∃ found usingDH dhs p hs sk ck,
      parseExts sh.exts [.preSharedKey typeServerHello, .keyShare typeServerHello] = .ok found ∧
      clientDH E w (findShares found) = .ok (usingDH, dhs) ∧ suiteParams sh.suite.toNat = some p ∧
      hsSecrets E.P p.hash
        (if pskSelected found then w.earlySecret else hkdfExtract E.P p.hash (some (zeros p.hash)) (zeros p.hash)) dhs
        (hashMsgBytes w.firstHello ++ x.bytesOpt w.retry ++ x.bytes w.clientHello ++ x.bytes m) = .ok hs ∧
      makeTrafficKeys E.P p hs.serverHs = .ok sk ∧ makeTrafficKeys E.P p hs.clientHs = .ok ck ∧
      e = ⟨w.cfg, { w.params with usingPSK := pskSelected found, usingDH := usingDH, suite := sh.suite },
        ⟨p, hashMsgBytes w.firstHello ++ x.bytesOpt w.retry ++ x.bytes w.clientHello ++ x.bytes m, hs⟩⟩ ∧
      acts = .rekeyIn epochHandshake sk ::
        (if !w.params.clientSendingEarlyData then [.rekeyOut epochHandshake ck] else []) ∧ x' = x := by
  simp only [handleHello, Res.bind_eq_ok, orAlert_ok] at h
  obtain ⟨found, h1, ⟨usingDH, dhs⟩, h2, h⟩ := h
  dsimp only at h
  split at h
  · simp [alert] at h
  · rename_i p hp
    simp only [Res.bind_eq_ok, Res.ok.injEq, Prod.mk.injEq] at h
    obtain ⟨hs, h3, sk, h4, ck, h5, rfl, rfl, rfl⟩ := h
    exact ⟨found, usingDH, dhs, p, hs, sk, ck, h1, h2, hp, h3, h4, h5, rfl, rfl, rfl⟩

/-- The parameters after EncryptedExtensions. -/
def eeParams (p : ConnParams) (found : List ExtBody) : ConnParams :=
  { p with
    usingEarlyData := findEarlyData found
    nextProto := match findAlpn found with | some (p :: _) => p | _ => p.nextProto }

theorem CWaitEE.next_ok {E : Env} {x x' : Ctx} {s : CWaitEE} {m : Msg} {s' : CState} {acts : List Action}
    (h : s.next E x m = .ok (s', acts, x')) :
    m.msgType = typeEncryptedExtensions ∧ ∃ exts found keys,
      safeUnmarshal unmarshalEE m.body = .ok exts ∧ parseExts exts [.alpn, .earlyData] = .ok found ∧
      makeTrafficKeys E.P s.sec.cp s.sec.hs.clientHs = .ok keys ∧
      acts = (if s.params.clientSendingEarlyData && !findEarlyData found then [.rekeyOut epochHandshake keys] else []) ∧
      x' = x ∧
      ((s.params.usingPSK = true ∧
          s' = .waitFinished ⟨eeParams s.params found, s.sec.add (x.bytes m), s.cfg.certificates, none, [], []⟩) ∨
       (s.params.usingPSK = false ∧ s' = .waitCertCR ⟨s.cfg, eeParams s.params found, s.sec.add (x.bytes m)⟩)) := by
  simp only [CWaitEE.next] at h
  split at h
  · simp [alert] at h
  · rename_i ht
    simp only [Res.bind_eq_ok, orAlert_ok] at h
    obtain ⟨exts, h1, found, h2, keys, h3, h⟩ := h
    refine ⟨by simpa using ht, exts, found, keys, h1, h2, h3, ?_⟩
    split at h
    · rename_i hp
      simp only [Res.ok.injEq, Prod.mk.injEq] at h
      obtain ⟨rfl, rfl, rfl⟩ := h
      exact ⟨rfl, rfl, Or.inl ⟨hp, rfl⟩⟩
    · rename_i hp
      simp only [Res.ok.injEq, Prod.mk.injEq] at h
      obtain ⟨rfl, rfl, rfl⟩ := h
      exact ⟨rfl, rfl, Or.inr ⟨by simpa using hp, rfl⟩⟩

theorem toBody_type {parses : Bytes → Bool} {t : UInt8} {bs : Bytes} {b : Body} (h : toBody parses t bs = .ok b) :
    b.type = t := by
  unfold toBody at h
  repeat' split at h
  all_goals first
    | (cases h; done)
    | (simp only [Res.bind_eq_ok, Res.ok.injEq] at h
       obtain ⟨_, _, rfl⟩ := h
       simp [Body.type, *])

theorem toBody_certificate' {parses : Bytes → Bool} {bs : Bytes} {c : CertificateMsg}
    (h : toBody parses typeCertificate bs = .ok (.certificate c)) :
    safeUnmarshal (CertificateMsg.unmarshal parses) bs = .ok c := by
  simp only [toBody, typeCertificate, typeClientHello, typeServerHello, typeEncryptedExtensions] at h
  simp only [show ¬ (11 : UInt8) = 1 by decide, show ¬ (11 : UInt8) = 2 by decide, show ¬ (11 : UInt8) = 8 by decide,
    if_false, if_true, Res.bind_eq_ok, Res.ok.injEq, Body.certificate.injEq] at h
  obtain ⟨_, h, rfl⟩ := h; exact h

theorem CWaitEE.nextCertCR_ok {E : Env} {x x' : Ctx} {s : CWaitEE} {m : Msg} {s' : CState} {acts : List Action}
    (h : s.nextCertCR E x m = .ok (s', acts, x')) :
    acts = [] ∧ x' = x ∧
      ((∃ c, m.msgType = typeCertificate ∧ toBody E.parses m.msgType m.body = .ok (.certificate c) ∧
          s' = .waitCV ⟨s.cfg, s.params, s.sec.add (x.bytes m), c, none⟩) ∨
       (∃ r, m.msgType = typeCertificateRequest ∧ toBody E.parses m.msgType m.body = .ok (.certificateRequest r) ∧
          r.context = [] ∧
          s' = .waitCert ⟨s.cfg, { s.params with usingClientAuth := true }, s.sec.add (x.bytes m), r⟩)) := by
  simp only [CWaitEE.nextCertCR, Res.bind_eq_ok, orAlert_ok] at h
  obtain ⟨b, h1, h⟩ := h
  have ht := toBody_type h1
  split at h
  · simp only [Res.ok.injEq, Prod.mk.injEq] at h
    obtain ⟨rfl, rfl, rfl⟩ := h
    exact ⟨rfl, rfl, Or.inl ⟨_, ht.symm, h1, rfl⟩⟩
  · rename_i r
    split at h
    · simp [alert] at h
    · rename_i hl
      simp only [Res.ok.injEq, Prod.mk.injEq] at h
      obtain ⟨rfl, rfl, rfl⟩ := h
      refine ⟨rfl, rfl, Or.inr ⟨_, ht.symm, h1, ?_, rfl⟩⟩
      cases hc : r.context with
      | nil => rfl
      | cons a l => simp [hc] at hl
  · simp [alert] at h

theorem CWaitCert.next_ok {E : Env} {x x' : Ctx} {s : CWaitCert} {m : Msg} {s' : CState} {acts : List Action}
    (h : s.next E x m = .ok (s', acts, x')) :
    m.msgType = typeCertificate ∧ acts = [] ∧ x' = x ∧
      ∃ c, safeUnmarshal (CertificateMsg.unmarshal E.parses) m.body = .ok c ∧
        s' = .waitCV ⟨s.cfg, s.params, s.sec.add (x.bytes m), c, some s.request⟩ := by
  simp only [CWaitCert.next] at h
  split at h
  · simp [alert] at h
  · rename_i ht
    simp only [Res.bind_eq_ok, orAlert_ok, Res.ok.injEq, Prod.mk.injEq] at h
    obtain ⟨c, h1, rfl, rfl, rfl⟩ := h
    exact ⟨by simpa using ht, rfl, rfl, c, h1, rfl⟩

theorem leafKey_ok {E : Env} {c : CertificateMsg} {pub : PubKey} (h : leafKey E c = .ok pub) :
    ∃ e rest cert, c.list = e :: rest ∧ E.x509 e.1 = some cert ∧ pub = cert.pub := by
  simp only [leafKey] at h
  split at h
  · cases h
  · rename_i e rest hl
    split at h
    · rename_i cert hc
      cases h
      exact ⟨e, rest, cert, hl, hc, rfl⟩
    · cases h

/-- The certificate chain is acceptable to the client: verified (unless that is switched off) and not refused by the
application. -/
def chainAccepted (cfg : Config) (now : Int) (raw : List Bytes) (chains : List (List Bytes)) : Prop :=
  (if cfg.insecureSkipVerify then chains = [] else cfg.verify now cfg.serverName raw = some chains) ∧
    ∀ f, cfg.verifyPeer = some f → f raw chains = true

theorem CWaitCV.next_ok {E : Env} {x x' : Ctx} {c : Coins} {s : CWaitCV} {m : Msg} {s' : CState} {acts : List Action}
    (h : s.next E x c m = .ok (s', acts, x')) :
    m.msgType = typeCertificateVerify ∧ acts = [] ∧ x' = x ∧ ∃ cv pub chains,
      safeUnmarshal CertVerify.unmarshal m.body = .ok cv ∧ leafKey E s.cert = .ok pub ∧
      cv.verify E.P E.S pub (E.P.hash s.sec.cp.hash s.sec.transcript) = true ∧
      chainAccepted s.cfg c.now (s.cert.list.map (·.1)) chains ∧
      s' = .waitFinished ⟨s.params, s.sec.add (x.bytes m), s.cfg.certificates, s.request, s.cert.list.map (·.1), chains⟩ := by
  simp only [CWaitCV.next] at h
  split at h
  · simp [alert] at h
  · rename_i ht
    simp only [Res.bind_eq_ok, orAlert_ok] at h
    obtain ⟨cv, h1, pub, h2, h⟩ := h
    split at h
    · simp [alert] at h
    · rename_i hver
      split at h
      · simp [alert] at h
      · rename_i chains hch
        have hch' : if s.cfg.insecureSkipVerify then chains = []
            else s.cfg.verify c.now s.cfg.serverName (s.cert.list.map (·.1)) = some chains := by
          split at hch
          · rename_i hi; rw [if_pos hi]; exact (Option.some.inj hch).symm
          · rename_i hi; rw [if_neg hi]; exact hch
        cases hvp : s.cfg.verifyPeer with
        | none =>
          rw [hvp] at h
          simp only [Bool.not_true, Bool.false_eq_true, if_false, Res.ok.injEq, Prod.mk.injEq] at h
          obtain ⟨rfl, rfl, rfl⟩ := h
          exact ⟨by simpa using ht, rfl, rfl, cv, pub, chains, h1, h2, by simpa using hver,
            ⟨hch', fun f hf => by rw [hvp] at hf; cases hf⟩, rfl⟩
        | some f =>
          rw [hvp] at h
          cases hf : f (s.cert.list.map (·.1)) chains with
          | false => simp [hf, alert] at h
          | true =>
            simp only [hf, Bool.not_true, Bool.false_eq_true, if_false, Res.ok.injEq, Prod.mk.injEq] at h
            obtain ⟨rfl, rfl, rfl⟩ := h
            exact ⟨by simpa using ht, rfl, rfl, cv, pub, chains, h1, h2, by simpa using hver,
              ⟨hch', fun g hg => by rw [hvp] at hg; cases hg; exact hf⟩, rfl⟩

theorem CWaitFinished.next_ok {E : Env} {x x' : Ctx} {s : CWaitFinished} {m : Msg} {s' : CState} {acts : List Action}
    (h : s.next E x m = .ok (s', acts, x')) :
    m.msgType = typeFinished ∧ ∃ expected fin ap ck sk acts1 t1 x1 acts2 t2 x2 vd finm res,
      computeFinishedData E.P s.sec.cp.hash s.sec.hs.serverHs (E.P.hash s.sec.cp.hash s.sec.transcript) = .ok expected ∧
      safeUnmarshal (Finished.unmarshal expected.length) m.body = .ok fin ∧ fin.verifyData = expected ∧
      apSecrets E.P s.sec.cp.hash s.sec.hs.master (s.sec.transcript ++ x.bytes m) = .ok ap ∧
      makeTrafficKeys E.P s.sec.cp ap.clientAp = .ok ck ∧ makeTrafficKeys E.P s.sec.cp ap.serverAp = .ok sk ∧
      clientEOED E x s (s.sec.transcript ++ x.bytes m) = .ok (acts1, t1, x1) ∧
      clientAuth E x1 s t1 = .ok (acts2, t2, x2) ∧
      computeFinishedData E.P s.sec.cp.hash s.sec.hs.clientHs (E.P.hash s.sec.cp.hash t2) = .ok vd ∧
      mkMsg x2 (.finished ⟨vd.length, vd⟩) = .ok (finm, x') ∧
      deriveSecret E.P s.sec.cp.hash s.sec.hs.master labelResumptionSecret
        (E.P.hash s.sec.cp.hash (t2 ++ x2.bytes finm)) = .ok res ∧
      s' = .connected
          { params := s.params, isClient := true, cp := s.sec.cp, resumption := res, clientAp := ap.clientAp,
            serverAp := ap.serverAp, exporter := ap.exporter, peerCerts := s.peerCerts, chains := s.chains } ∧
      acts = acts1 ++ acts2 ++
          [.queue finm, .sendQueued, .rekeyIn epochApplication sk, .rekeyOut epochApplication ck] := by
  simp only [CWaitFinished.next] at h
  split at h
  · simp [alert] at h
  · rename_i ht
    simp only [Res.bind_eq_ok, orAlert_ok] at h
    obtain ⟨expected, h1, fin, h2, h⟩ := h
    split at h
    · simp [alert] at h
    · rename_i hv
      simp only [Res.bind_eq_ok, Res.ok.injEq, Prod.mk.injEq, orAlert_ok] at h
      obtain ⟨ap, h3, ck, h4, sk, h5, ⟨acts1, t1, x1⟩, h6, ⟨acts2, t2, x2⟩, h7, vd, h8, ⟨finm, x3⟩, h9, res, h10, rfl, rfl,
        rfl⟩ := h
      exact ⟨by simpa using ht, expected, fin, ap, ck, sk, acts1, t1, x1, acts2, t2, x2, vd, finm, res, h1, h2,
        by simpa using hv, h3, h4, h5, h6, h7, h8, h9, h10, rfl, rfl⟩

/-- The private keys a client keeps, by group. -/
def privates (shares : List (UInt16 × Bytes × Bytes)) : List (UInt16 × Bytes) := shares.map fun k => (k.1, k.2.2)

theorem CStart.next_ok {E : Env} {x x' : Ctx} {c : Coins} {s : CStart} {w : CWaitSH} {acts : List Action}
    (h : s.next E x c = .ok (w, acts, x')) :
    ∃ shares random exts, makeShares E.D c.dh s.cfg.groups = .ok shares ∧ c.random = some random ∧
      addAll [] (helloExts s shares) = .ok exts ∧
      ((∃ psk o, s.cfg.psks s.cfg.serverName = some psk ∧
          offerPsk E x s.cfg (s.cfg.allowEarlyData && s.retry.isNone) c.now psk
            ⟨wireVersion x, random, [], s.cfg.suites, exts⟩ = .ok o ∧
          w = ⟨s.cfg, { serverName := s.cfg.serverName, clientSendingEarlyData := s.cfg.allowEarlyData && s.retry.isNone },
            privates shares, o.earlySecret, o.hash, s.firstHello, s.retry, o.hello⟩ ∧
          acts = [.queue o.hello, .sendQueued] ++
            (if s.cfg.allowEarlyData && s.retry.isNone then [.rekeyOut epochEarlyData o.keys] else []) ∧ x' = o.ctx) ∨
       (s.cfg.psks s.cfg.serverName = none ∧ ∃ hello,
          mkMsg x (.clientHello ⟨wireVersion x, random, [], s.cfg.suites, exts⟩) = .ok (hello, x') ∧
          w = ⟨s.cfg, { serverName := s.cfg.serverName }, privates shares, [], .none, s.firstHello, s.retry, hello⟩ ∧
          acts = [.queue hello, .sendQueued])) := by
  simp only [CStart.next, Res.bind_eq_ok] at h
  obtain ⟨shares, h1, h⟩ := h
  split at h
  · simp [alert] at h
  · rename_i random hr
    simp only [Res.bind_eq_ok, orAlert_ok] at h
    obtain ⟨exts, h2, h⟩ := h
    refine ⟨shares, random, exts, h1, hr, h2, ?_⟩
    split at h
    · rename_i psk hpsk
      simp only [Res.bind_eq_ok, Res.ok.injEq, Prod.mk.injEq] at h
      obtain ⟨o, h3, rfl, rfl, rfl⟩ := h
      exact Or.inl ⟨psk, o, hpsk, h3, rfl, rfl, rfl⟩
    · rename_i hpsk
      simp only [Res.bind_eq_ok, orAlert_ok, Res.ok.injEq, Prod.mk.injEq] at h
      obtain ⟨⟨hello, x1⟩, h3, rfl, rfl, rfl⟩ := h
      exact Or.inr ⟨hpsk, hello, h3, rfl, rfl⟩

theorem offerPsk_ok {E : Env} {x : Ctx} {cfg : Config} {early : Bool} {now : Int} {psk : Psk} {ch : ClientHello} {o : PskOffer}
    (h : offerPsk E x cfg early now psk ch = .ok o) :
    ∃ p exts exts0 bk trunc binder exts1 et, suiteParams psk.suite = some p ∧
      (if early then addExt ch.exts .earlyData else .ok ch.exts) = .ok exts ∧ cfg.pskModes.length ≠ 0 ∧
      addIgnore exts (pskExt psk now (zeros p.hash)) = .ok exts0 ∧
      deriveSecret E.P p.hash (hkdfExtract E.P p.hash (some (zeros p.hash)) psk.key)
        (if psk.isResumption then labelResumptionBinder else labelExternalBinder) (E.P.hash p.hash []) = .ok bk ∧
      ({ ch with suites := compatibleSuites p.hash ch.suites, exts := exts0 } : ClientHello).truncated = .ok trunc ∧
      computeFinishedData E.P p.hash bk (E.P.hash p.hash trunc) = .ok binder ∧
      addIgnore exts0 (pskExt psk now binder) = .ok exts1 ∧
      mkMsg x (.clientHello { ch with suites := compatibleSuites p.hash ch.suites, exts := exts1 }) = .ok (o.hello, o.ctx) ∧
      o.earlySecret = hkdfExtract E.P p.hash (some (zeros p.hash)) psk.key ∧ o.hash = p.hash ∧
      earlyTraffic E.P p.hash o.earlySecret (x.bytes o.hello) = .ok et ∧ makeTrafficKeys E.P p et = .ok o.keys := by
  simp only [offerPsk] at h
  split at h
  · simp [alert] at h
  · rename_i p hp
    simp only [Res.bind_eq_ok] at h
    obtain ⟨exts, h1, h⟩ := h
    split at h
    · simp [alert] at h
    · rename_i hm
      simp only [Res.bind_eq_ok, orAlert_ok] at h
      obtain ⟨exts0, h2, bk, h3, trunc, h4, binder, h5, exts1, h6, h⟩ := h
      split at h
      · rename_i hello x' hmk
        simp only [Res.bind_eq_ok, Res.ok.injEq] at h
        obtain ⟨et, h7, keys, h8, rfl⟩ := h
        refine ⟨p, exts, exts0, bk, trunc, binder, exts1, et, hp, ?_, hm, h2, h3, h4, h5, h6, hmk, rfl, rfl, h7, h8⟩
        cases early with
        | true => simpa [orAlert_ok] using h1
        | false => simpa using h1
      · cases h
      · cases h
      · cases h

theorem CStart.next_datagram {E : Env} {x x' : Ctx} {c : Coins} {s : CStart} {w : CWaitSH} {acts : List Action}
    (h : s.next E x c = .ok (w, acts, x')) : x'.datagram = x.datagram := by
  obtain ⟨_, _, _, _, _, _, ⟨psk, o, _, h1, _, _, rfl⟩ | ⟨_, _, h1, _, _⟩⟩ := CStart.next_ok h
  · obtain ⟨_, _, _, _, _, _, _, _, _, _, _, _, _, _, _, _, h2, _⟩ := offerPsk_ok h1
    exact mkMsg_datagram h2
  · exact mkMsg_datagram h1

theorem clientEOED_ok {E : Env} {x x' : Ctx} {s : CWaitFinished} {t t' : Bytes} {acts : List Action}
    (h : clientEOED E x s t = .ok (acts, t', x')) :
    (s.params.usingEarlyData = false ∧ acts = [] ∧ t' = t ∧ x' = x) ∨
    (s.params.usingEarlyData = true ∧ ∃ m keys, mkMsg x .endOfEarlyData = .ok (m, x') ∧
      makeTrafficKeys E.P s.sec.cp s.sec.hs.clientHs = .ok keys ∧ acts = [.queue m, .rekeyOut epochHandshake keys] ∧
      t' = t ++ x.bytes m) := by
  simp only [clientEOED] at h
  split at h
  · rename_i hu
    simp only [Res.bind_eq_ok, Res.ok.injEq, Prod.mk.injEq] at h
    obtain ⟨⟨m, x1⟩, h1, keys, h2, rfl, rfl, rfl⟩ := h
    exact Or.inr ⟨hu, m, keys, h1, h2, rfl, rfl⟩
  · rename_i hu
    simp only [Res.ok.injEq, Prod.mk.injEq] at h
    obtain ⟨rfl, rfl, rfl⟩ := h
    exact Or.inl ⟨by simpa using hu, rfl, rfl, rfl⟩

theorem clientAuth_ok {E : Env} {x x' : Ctx} {s : CWaitFinished} {t t' : Bytes} {acts : List Action}
    (h : clientAuth E x s t = .ok (acts, t', x')) :
    (s.params.usingClientAuth = false ∧ acts = [] ∧ t' = t ∧ x' = x) ∨
    (s.params.usingClientAuth = true ∧ ∃ r schemes, s.request = some r ∧
      findExt .signatureAlgorithms r.exts = .ok (some (.signatureAlgorithms schemes)) ∧
      ((∃ e m, certificate none (schemes.map (·.toNat)) s.certificates = .err e ∧
          mkMsg x (.certificate ⟨[], []⟩) = .ok (m, x') ∧ acts = [.queue m] ∧ t' = t ++ x.bytes m) ∨
       (∃ cert scheme m x1 cv mv, certificate none (schemes.map (·.toNat)) s.certificates = .ok (cert, scheme) ∧
          mkMsg x (certBody cert) = .ok (m, x1) ∧
          CertVerify.sign E.P E.S (UInt16.ofNat scheme) cert.key (E.P.hash s.sec.cp.hash (t ++ x.bytes m)) = .ok cv ∧
          mkMsg x1 (.certificateVerify cv) = .ok (mv, x') ∧ acts = [.queue m, .queue mv] ∧
          t' = t ++ x.bytes m ++ x.bytes mv))) := by
  simp only [clientAuth] at h
  split at h
  · rename_i hu
    refine Or.inr ⟨hu, ?_⟩
    split at h
    · cases h
    · rename_i r hr
      simp only [Res.bind_eq_ok, orAlert_ok] at h
      obtain ⟨found, h1, h⟩ := h
      split at h
      · rename_i schemes
        refine ⟨r, schemes, hr, h1, ?_⟩
        split at h
        · rename_i e hc
          simp only [Res.bind_eq_ok, orAlert_ok, Res.ok.injEq, Prod.mk.injEq] at h
          obtain ⟨⟨m, x1⟩, h2, rfl, rfl, rfl⟩ := h
          exact Or.inl ⟨e, m, hc, h2, rfl, rfl⟩
        · rename_i cert scheme hc
          simp only [Res.bind_eq_ok, orAlert_ok, Res.ok.injEq, Prod.mk.injEq] at h
          obtain ⟨⟨m, x1⟩, h2, cv, h3, ⟨mv, x2⟩, h4, rfl, rfl, rfl⟩ := h
          exact Or.inr ⟨cert, scheme, m, x1, cv, mv, hc, h2, h3, h4, rfl, rfl⟩
        · cases h
        · cases h
      · cases h
      · simp [alert] at h
  · rename_i hu
    simp only [Res.ok.injEq, Prod.mk.injEq] at h
    obtain ⟨rfl, rfl, rfl⟩ := h
    exact Or.inl ⟨by simpa using hu, rfl, rfl, rfl⟩

theorem clientEOED_datagram {E : Env} {x x' : Ctx} {s : CWaitFinished} {t t' : Bytes} {acts : List Action}
    (h : clientEOED E x s t = .ok (acts, t', x')) : x'.datagram = x.datagram := by
  rcases clientEOED_ok h with ⟨_, _, _, rfl⟩ | ⟨_, m, k, h1, _⟩
  · rfl
  · exact mkMsg_datagram h1

theorem clientAuth_datagram {E : Env} {x x' : Ctx} {s : CWaitFinished} {t t' : Bytes} {acts : List Action}
    (h : clientAuth E x s t = .ok (acts, t', x')) : x'.datagram = x.datagram := by
  rcases clientAuth_ok h with ⟨_, _, _, rfl⟩ | ⟨_, _, _, _, _, ⟨_, _, _, h1, _⟩ | ⟨_, _, _, _, _, _, _, h1, _, h2, _⟩⟩
  · rfl
  · exact mkMsg_datagram h1
  · exact (mkMsg_datagram h2).trans (mkMsg_datagram h1)

/-! ### Connected -/

theorem Connected.keyUpdate_ok {E : Env} {x x' : Ctx} {s s' : Connected} {r : UInt8} {acts : List Action}
    (h : s.keyUpdate E x r = .ok (s', acts, x')) :
    ∃ t keys m, (if s.isClient then nextSecret E.P s.cp.hash labelClientAp s.clientAp
        else nextSecret E.P s.cp.hash labelServerAp s.serverAp) = .ok t ∧
      s' = (if s.isClient then { s with clientAp := t } else { s with serverAp := t }) ∧
      makeTrafficKeys E.P s.cp t = .ok keys ∧ mkMsg x (.keyUpdate r) = .ok (m, x') ∧
      acts = [.queue m, .sendQueued, .rekeyOut epochUpdate keys] := by
  simp only [Connected.keyUpdate, Res.bind_eq_ok, orAlert_ok, Res.ok.injEq, Prod.mk.injEq] at h
  obtain ⟨⟨t, s1⟩, h1, keys, h2, ⟨m, x1⟩, h3, rfl, rfl, rfl⟩ := h
  refine ⟨t, keys, m, ?_, ?_, h2, h3, rfl⟩
  · split at h1 <;> rename_i hc <;> simp only [hc, if_true, Bool.false_eq_true, if_false] <;>
      simp only [Res.bind_eq_ok, Res.ok.injEq, Prod.mk.injEq] at h1 <;> obtain ⟨_, h1, rfl, _⟩ := h1 <;> exact h1
  · split at h1 <;> rename_i hc <;> simp only [hc, if_true, Bool.false_eq_true, if_false] <;>
      simp only [Res.bind_eq_ok, Res.ok.injEq, Prod.mk.injEq] at h1 <;> obtain ⟨_, h1, rfl, rfl⟩ := h1 <;> simp [hc]

theorem Connected.process_ok {E : Env} {x x' : Ctx} {s s' : Connected} {now : Int} {m : Msg} {acts : List Action}
    (h : s.process E x now m = .ok (s', acts, x')) :
    (∃ r t s1 keys, m.msgType = typeKeyUpdate ∧ toBody E.parses m.msgType m.body = .ok (.keyUpdate r) ∧
      (if s.isClient then nextSecret E.P s.cp.hash labelServerAp s.serverAp
        else nextSecret E.P s.cp.hash labelClientAp s.clientAp) = .ok t ∧
      s1 = (if s.isClient then { s with serverAp := t } else { s with clientAp := t }) ∧
      makeTrafficKeys E.P s.cp t = .ok keys ∧
      ((r = 1 ∧ ∃ acts', s1.keyUpdate E x 0 = .ok (s', acts', x') ∧ acts = .rekeyIn epochUpdate keys :: acts') ∨
       (r ≠ 1 ∧ s' = s1 ∧ acts = [.rekeyIn epochUpdate keys] ∧ x' = x))) ∨
    (∃ t psk, m.msgType = typeNewSessionTicket ∧ toBody E.parses m.msgType m.body = .ok (.newSessionTicket t) ∧
      s.isClient = true ∧ ticketPsk E.P s now t = .ok psk ∧ s' = s ∧ acts = [.storePsk psk] ∧ x' = x) := by
  simp only [Connected.process, Res.bind_eq_ok, orAlert_ok] at h
  obtain ⟨b, h1, h⟩ := h
  have ht := toBody_type h1
  split at h
  · rename_i r
    refine Or.inl ?_
    simp only [Res.bind_eq_ok] at h
    obtain ⟨⟨t, s1⟩, h2, keys, h3, h⟩ := h
    refine ⟨r, t, s1, keys, ht.symm, h1, ?_, ?_, h3, ?_⟩
    · cases hc : s.isClient <;>
        simp only [hc, Bool.not_true, Bool.not_false, if_true, Bool.false_eq_true, if_false, Res.bind_eq_ok, Res.ok.injEq,
          Prod.mk.injEq] at h2 ⊢ <;> obtain ⟨_, h2, rfl, _⟩ := h2 <;> exact h2
    · cases hc : s.isClient <;>
        simp only [hc, Bool.not_true, Bool.not_false, if_true, Bool.false_eq_true, if_false, Res.bind_eq_ok, Res.ok.injEq,
          Prod.mk.injEq] at h2 ⊢ <;> obtain ⟨_, h2, rfl, rfl⟩ := h2 <;> simp [hc]
    · split at h
      · rename_i hr
        simp only [Res.bind_eq_ok, Res.ok.injEq, Prod.mk.injEq] at h
        obtain ⟨⟨s2, a2, x2⟩, h4, rfl, rfl, rfl⟩ := h
        exact Or.inl ⟨hr, a2, h4, rfl⟩
      · rename_i hr
        simp only [Res.ok.injEq, Prod.mk.injEq] at h
        obtain ⟨rfl, rfl, rfl⟩ := h
        exact Or.inr ⟨hr, rfl, rfl, rfl⟩
  · rename_i t
    refine Or.inr ?_
    split at h
    · simp [alert] at h
    · rename_i hc
      simp only [Res.bind_eq_ok, Res.ok.injEq, Prod.mk.injEq] at h
      obtain ⟨psk, h2, rfl, rfl, rfl⟩ := h
      exact ⟨t, psk, ht.symm, h1, by simpa using hc, h2, rfl, rfl, rfl⟩
  · simp [alert] at h

theorem Connected.keyUpdate_datagram {E : Env} {x x' : Ctx} {s s' : Connected} {r : UInt8} {acts : List Action}
    (h : s.keyUpdate E x r = .ok (s', acts, x')) : x'.datagram = x.datagram := by
  obtain ⟨_, _, _, _, _, _, h1, _⟩ := keyUpdate_ok h; exact mkMsg_datagram h1

theorem Connected.process_datagram {E : Env} {x x' : Ctx} {s s' : Connected} {now : Int} {m : Msg} {acts : List Action}
    (h : s.process E x now m = .ok (s', acts, x')) : x'.datagram = x.datagram := by
  rcases process_ok h with ⟨_, _, _, _, _, _, _, _, _, ⟨_, _, h1, _⟩ | ⟨_, _, _, rfl⟩⟩ | ⟨_, _, _, _, _, _, _, _, rfl⟩
  · exact keyUpdate_datagram h1
  · rfl
  · rfl

/-! ### Shape of a step -/

/-- The possible steps of a client. -/
inductive CStep (E : Env) (x : Ctx) (c : Coins) : CState → Event → CState → List Action → Ctx → Prop where
  | retry (w : CWaitSH) (m : Msg) (hrr : ServerHello) (st : CStart) (w' : CWaitSH) (acts : List Action) (x' : Ctx)
      (check : checkHello w m = .ok hrr) (random : hrr.random.1 = hrrRandom) (handle : handleRetry E x w m hrr = .ok st)
      (start : st.next E x c = .ok (w', acts, x')) :
      CStep E x c (.waitSH w) (.msg m) (.waitSH w') ([.resetOut 1] ++ acts) x'
  | hello (w : CWaitSH) (m : Msg) (sh : ServerHello) (e : CWaitEE) (acts : List Action) (x' : Ctx)
      (check : checkHello w m = .ok sh) (random : sh.random.1 ≠ hrrRandom)
      (handle : handleHello E x w m sh = .ok (e, acts, x')) :
      CStep E x c (.waitSH w) (.msg m) (.waitEE e) acts x'
  | ee (s : CWaitEE) (m : Msg) (s' : CState) (acts : List Action) (x' : Ctx) (next : s.next E x m = .ok (s', acts, x')) :
      CStep E x c (.waitEE s) (.msg m) s' acts x'
  | certCR (s : CWaitEE) (m : Msg) (s' : CState) (acts : List Action) (x' : Ctx)
      (next : s.nextCertCR E x m = .ok (s', acts, x')) : CStep E x c (.waitCertCR s) (.msg m) s' acts x'
  | cert (s : CWaitCert) (m : Msg) (s' : CState) (acts : List Action) (x' : Ctx)
      (next : s.next E x m = .ok (s', acts, x')) : CStep E x c (.waitCert s) (.msg m) s' acts x'
  | cv (s : CWaitCV) (m : Msg) (s' : CState) (acts : List Action) (x' : Ctx)
      (next : s.next E x c m = .ok (s', acts, x')) : CStep E x c (.waitCV s) (.msg m) s' acts x'
  | finished (s : CWaitFinished) (m : Msg) (s' : CState) (acts : List Action) (x' : Ctx)
      (next : s.next E x m = .ok (s', acts, x')) : CStep E x c (.waitFinished s) (.msg m) s' acts x'
  | post (s : Connected) (m : Msg) (s' : Connected) (acts : List Action) (x' : Ctx)
      (next : s.process E x c.now m = .ok (s', acts, x')) : CStep E x c (.connected s) (.msg m) (.connected s') acts x'
  | data (s : Connected) (d : Bytes) : CStep E x c (.connected s) (.appData d) (.connected s) [] x

theorem CState.step_ok {E : Env} {x x' : Ctx} {c : Coins} {s s' : CState} {e : Event} {acts : List Action}
    (h : s.step E x c e = .ok (s', acts, x')) : CStep E x c s e s' acts x' := by
  unfold CState.step at h
  cases e with
  | msg m =>
    cases s with
    | start s => cases h
    | waitSH w =>
      simp only [Res.bind_eq_ok] at h
      obtain ⟨⟨s1, a1, x1⟩, h1, h⟩ := h
      obtain ⟨sh, hc, ⟨hr, st, h2, rfl, rfl, rfl⟩ | ⟨hr, e, h2, rfl⟩⟩ := CWaitSH.next_ok h1
      · simp only [Res.bind_eq_ok, Res.ok.injEq, Prod.mk.injEq] at h
        obtain ⟨⟨w', a2, x2⟩, h3, rfl, rfl, rfl⟩ := h
        exact .retry _ _ _ _ _ _ _ hc hr h2 h3
      · simp only [Res.ok.injEq, Prod.mk.injEq] at h
        obtain ⟨rfl, rfl, rfl⟩ := h
        exact .hello _ _ _ _ _ _ hc hr h2
    | waitEE s => exact .ee _ _ _ _ _ h
    | waitCertCR s => exact .certCR _ _ _ _ _ h
    | waitCert s => exact .cert _ _ _ _ _ h
    | waitCV s => exact .cv _ _ _ _ _ h
    | waitFinished s => exact .finished _ _ _ _ _ h
    | connected s =>
      simp only [Res.bind_eq_ok, Res.ok.injEq, Prod.mk.injEq] at h
      obtain ⟨⟨s1, a1, x1⟩, h1, rfl, rfl, rfl⟩ := h
      exact .post _ _ _ _ _ h1
  | appData d =>
    cases s with
    | connected s =>
      simp only [Res.ok.injEq, Prod.mk.injEq] at h
      obtain ⟨rfl, rfl, rfl⟩ := h
      exact .data _ _
    | _ => simp [alert] at h
  | bad => simp [alert] at h

theorem CStep.datagram {E : Env} {x x' : Ctx} {c : Coins} {s s' : CState} {e : Event} {acts : List Action}
    (h : CStep E x c s e s' acts x') : x'.datagram = x.datagram := by
  cases h with
  | retry _ _ _ _ _ _ _ _ _ _ h => exact CStart.next_datagram h
  | hello _ _ _ _ _ _ _ _ h => obtain ⟨_, _, _, _, _, _, _, _, _, _, _, _, _, _, _, rfl⟩ := handleHello_ok h; rfl
  | ee _ _ _ _ _ h => obtain ⟨_, _, _, _, _, _, _, _, rfl, _⟩ := CWaitEE.next_ok h; rfl
  | certCR _ _ _ _ _ h => obtain ⟨_, rfl, _⟩ := CWaitEE.nextCertCR_ok h; rfl
  | cert _ _ _ _ _ h => obtain ⟨_, _, rfl, _⟩ := CWaitCert.next_ok h; rfl
  | cv _ _ _ _ _ h => obtain ⟨_, _, rfl, _⟩ := CWaitCV.next_ok h; rfl
  | finished _ _ _ _ _ h =>
    obtain ⟨_, _, _, _, _, _, _, _, _, _, _, _, _, _, _, _, _, _, _, _, _, h1, h2, _, h3, _⟩ := CWaitFinished.next_ok h
    exact (mkMsg_datagram h3).trans ((clientAuth_datagram h2).trans (clientEOED_datagram h1))
  | post _ _ _ _ _ h => exact Connected.process_datagram h
  | data => rfl

/-! ### Executions, one step at the end -/

theorem CState.run_append {E : Env} (es₁ es₂ : List (Event × Coins)) (x : Ctx) (s : CState) :
    s.run E x (es₁ ++ es₂) =
      (s.run E x es₁).bind fun (s', acts, x') =>
      (s'.run E x' es₂).bind fun (s'', acts', x'') => .ok (s'', acts ++ acts', x'') := by
  induction es₁ generalizing x s with
  | nil =>
    simp only [List.nil_append, CState.run, Res.bind_ok]
    cases h : s.run E x es₂ with
    | ok v => obtain ⟨a, b, d⟩ := v; rfl
    | err _ => rfl
    | panic => rfl
    | diverge => rfl
  | cons e es₁ ih =>
    obtain ⟨e, c⟩ := e
    simp only [List.cons_append, CState.run]
    cases hs : s.step E x c e with
    | ok v =>
      obtain ⟨s1, a1, x1⟩ := v
      simp only [Res.bind_ok]
      rw [ih]
      cases hr : s1.run E x1 es₁ with
      | ok v =>
        obtain ⟨s2, a2, x2⟩ := v
        simp only [Res.bind_ok]
        cases h : s2.run E x2 es₂ with
        | ok v => obtain ⟨a, b, d⟩ := v; simp
        | err _ => rfl
        | panic => rfl
        | diverge => rfl
      | err _ => rfl
      | panic => rfl
      | diverge => rfl
    | err _ => rfl
    | panic => rfl
    | diverge => rfl

theorem CState.run_snoc {E : Env} {es : List (Event × Coins)} {e : Event} {c : Coins} {x x' : Ctx} {s s' : CState}
    {acts : List Action} (h : s.run E x (es ++ [(e, c)]) = .ok (s', acts, x')) :
    ∃ s1 a1 x1 a2, s.run E x es = .ok (s1, a1, x1) ∧ CStep E x1 c s1 e s' a2 x' ∧ acts = a1 ++ a2 := by
  rw [CState.run_append] at h
  simp only [Res.bind_eq_ok, CState.run, Res.ok.injEq, Prod.mk.injEq] at h
  obtain ⟨⟨s1, a1, x1⟩, h1, ⟨s2, a2, x2⟩, ⟨⟨s3, a3, x3⟩, h3, ⟨s4, a4, x4⟩, ⟨rfl, rfl, rfl⟩, rfl, rfl, rfl⟩, rfl, rfl, rfl⟩ := h
  exact ⟨s1, a1, x1, a3, h1, CState.step_ok h3, by simp⟩

/-- Induction over the executions of a client. -/
theorem clientRun_induct {E : Env} {x : Ctx} {cfg : Config} {c : Coins}
    (P : List (Event × Coins) → CState → List Action → Ctx → Prop)
    (init : ∀ w acts x', ({ cfg := cfg } : CStart).next E x c = .ok (w, acts, x') → P [] (.waitSH w) acts x')
    (step : ∀ es s acts x1 e ce s' acts' x2, P es s acts x1 → CStep E x1 ce s e s' acts' x2 →
      P (es ++ [(e, ce)]) s' (acts ++ acts') x2)
    {es : List (Event × Coins)} {s : CState} {acts : List Action} {x' : Ctx}
    (h : clientRun E x cfg c es = .ok (s, acts, x')) : P es s acts x' := by
  simp only [clientRun, Res.bind_eq_ok, Res.ok.injEq, Prod.mk.injEq] at h
  obtain ⟨⟨w, a0, x0⟩, h0, ⟨s1, a1, x1⟩, h1, rfl, rfl, rfl⟩ := h
  have key : ∀ (r : List (Event × Coins)) (s1 : CState) (a1 : List Action) (x1 : Ctx),
      CState.run E x0 (.waitSH w) r.reverse = .ok (s1, a1, x1) → P r.reverse s1 (a0 ++ a1) x1 := by
    intro r
    induction r with
    | nil =>
      intro s1 a1 x1 h
      simp only [List.reverse_nil, CState.run, Res.ok.injEq, Prod.mk.injEq] at h
      obtain ⟨rfl, rfl, rfl⟩ := h
      simpa using init _ _ _ h0
    | cons e r ih =>
      obtain ⟨e, ce⟩ := e
      intro s1 a1 x1 h
      rw [List.reverse_cons] at h ⊢
      obtain ⟨s2, a2, x2, a3, hr, hst, rfl⟩ := CState.run_snoc h
      rw [← List.append_assoc]
      exact step _ _ _ _ _ _ _ _ _ (ih _ _ _ hr) hst
  have := key es.reverse s1 a1 x1 (by simpa using h1)
  simpa using this

end Verif.Machine

import Verif.Machine.Server
import Verif.Machine.ClientLemmas

/-
What a step of the server that succeeds implies.
-/

namespace Verif.Machine

open Verif Verif.Crypto Verif.Messages Verif.Negotiation Verif.Handshake

/-! ### Start -/

theorem readHello_ok {x : Ctx} {m : Msg} {ch : ClientHello} {o : Offer} (h : readHello x m = .ok (ch, o)) :
    m.msgType = typeClientHello ∧ safeUnmarshal (ClientHello.unmarshal (wireVersion x)) m.body = .ok ch ∧
      ch.version = wireVersion x ∧ ∃ found, parseExts ch.exts offerKinds = .ok found ∧ o = offerOf found ∧
      ∃ vs, o.versions = some vs ∧ (version (vs.map (·.toNat)) [0x0304]).1 = true := by
  simp only [readHello] at h
  split at h
  · simp [alert] at h
  · rename_i ht
    simp only [Res.bind_eq_ok, orAlert_ok] at h
    obtain ⟨ch', h1, h⟩ := h
    split at h
    · simp [alert] at h
    · rename_i hv
      simp only [Res.bind_eq_ok, orAlert_ok] at h
      obtain ⟨found, h2, h⟩ := h
      split at h
      · simp [alert] at h
      · rename_i vs hvs
        split at h
        · rename_i hok
          simp only [Res.ok.injEq, Prod.mk.injEq] at h
          obtain ⟨rfl, rfl⟩ := h
          exact ⟨by simpa using ht, h1, by simpa using hv, found, h2, rfl, vs, hvs, hok⟩
        · simp [alert] at h

theorem decodeCookie_ok {plain : Bytes} {suite : UInt16} {hash app : Bytes}
    (h : decodeCookie plain = .ok (suite, hash, app)) :
    (∃ u n, Syntax.unmarshal cookieStructTy plain = .ok ((suite, hash, app, u), n)) ∨
      (plain = [] ∧ suite = 0 ∧ hash = [] ∧ app = []) := by
  simp only [decodeCookie] at h
  split at h
  · rename_i u n hu
    simp only [Res.ok.injEq, Prod.mk.injEq] at h
    obtain ⟨rfl, rfl, rfl⟩ := h
    exact Or.inl ⟨u, n, hu⟩
  · split at h
    · simp [alert] at h
    · rename_i hl
      simp only [Res.ok.injEq, Prod.mk.injEq] at h
      obtain ⟨rfl, rfl, rfl⟩ := h
      exact Or.inr ⟨List.length_eq_zero_iff.mp (by simpa using hl), rfl, rfl, rfl⟩
  · cases h
  · cases h

theorem checkCookie_ok {cfg : Config} {o : Offer} {r : Option (Bytes × Params)} (h : checkCookie cfg o = .ok r) :
    (o.cookie = [] ∧ r = none) ∨
    (o.cookie ≠ [] ∧ ∃ prot plain suite hash app p, cfg.cookieProtector = some prot ∧
      prot.decodeToken o.cookie = .ok plain ∧ decodeCookie plain = .ok (suite, hash, app) ∧
      (∀ f, cfg.cookieHandler = some f → f app = true) ∧ suiteParams suite.toNat = some p ∧ r = some (hash, p)) := by
  simp only [checkCookie] at h
  split at h
  · rename_i hl
    refine Or.inr ⟨fun h0 => by simp [h0] at hl, ?_⟩
    split at h
    · cases h
    · rename_i prot hprot
      simp only [Res.bind_eq_ok, orAlert_ok] at h
      obtain ⟨plain, h1, ⟨suite, hash, app⟩, h2, h⟩ := h
      dsimp only at h
      cases hh : cfg.cookieHandler with
      | none =>
        rw [hh] at h
        simp only [Bool.not_true, Bool.false_eq_true, if_false] at h
        split at h
        · simp [alert] at h
        · rename_i p hp
          cases h
          exact ⟨prot, plain, suite, hash, app, p, hprot, h1, h2, fun f hf => (nomatch hf), hp, rfl⟩
      | some f =>
        rw [hh] at h
        cases hf : f app with
        | false => simp [hf, alert] at h
        | true =>
          simp only [hf, Bool.not_true, Bool.false_eq_true, if_false] at h
          split at h
          · simp [alert] at h
          · rename_i p hp
            cases h
            exact ⟨prot, plain, suite, hash, app, p, hprot, h1, h2, fun g hg => by cases hg; exact hf, hp, rfl⟩
  · rename_i hl
    cases h
    exact Or.inl ⟨List.length_eq_zero_iff.mp (by omega), rfl⟩

theorem makeRetry_ok {x x' : Ctx} {suite : UInt16} {sid cookie : Bytes} {m : Msg} (h : makeRetry x suite sid cookie = .ok (m, x')) :
    ∃ exts, addAll [] [.supportedVersions typeServerHello [tls13Version], .cookie cookie] = .ok exts ∧
      mkMsg x (.serverHello ⟨tls12Version, ⟨hrrRandom, rfl⟩, sid, suite, 0, exts⟩) = .ok (m, x') := by
  simp only [makeRetry, Res.bind_eq_ok] at h
  obtain ⟨exts, h1, h2⟩ := h
  exact ⟨exts, h1, h2⟩

theorem makeRetry_datagram {x x' : Ctx} {suite : UInt16} {sid cookie : Bytes} {m : Msg}
    (h : makeRetry x suite sid cookie = .ok (m, x')) : x'.datagram = x.datagram := by
  obtain ⟨_, _, h⟩ := makeRetry_ok h; exact mkMsg_datagram h

theorem choosePsk_ok {E : Env} {x x' : Ctx} {cfg : Config} {now : Int} {ch : ClientHello} {o : Offer}
    {first : Option (Bytes × Params)} {r : Option PskChoice} (h : choosePsk E x cfg now ch o first = .ok (r, x')) :
    (o.ids = [] ∧ r = none ∧ x' = x) ∨
    (o.ids ≠ [] ∧ ∃ base trunc,
      ((first = none ∧ base = [] ∧ x' = x) ∨
       (∃ hash p hrr, first = some (hash, p) ∧ makeRetry x 0 ch.sessionId o.cookie = .ok (hrr, x') ∧
          base = hashMsgBytes (some hash) ++ x.bytes hrr)) ∧
      ch.truncated = .ok trunc ∧
      Negotiation.psk E.P now (o.ids.map fun i : PskIdentity => (⟨i.1, i.2.1⟩ : Identity))
        (o.binders.map fun b : BinderEntry => b.1) (base ++ trunc) cfg.psks = .ok r) := by
  simp only [choosePsk] at h
  split at h
  · rename_i hl
    refine Or.inr ⟨fun h0 => by simp [h0] at hl, ?_⟩
    simp only [Res.bind_eq_ok, orAlert_ok, Res.ok.injEq, Prod.mk.injEq] at h
    obtain ⟨⟨base, x1⟩, h1, trunc, h2, choice, h3, rfl, rfl⟩ := h
    refine ⟨base, trunc, ?_, h2, h3⟩
    split at h1
    · rename_i hash p
      simp only [Res.bind_eq_ok, orAlert_ok, Res.ok.injEq, Prod.mk.injEq] at h1
      obtain ⟨⟨hrr, x2⟩, h4, rfl, rfl⟩ := h1
      exact Or.inr ⟨hash, p, hrr, rfl, h4, rfl⟩
    · simp only [Res.ok.injEq, Prod.mk.injEq] at h1
      obtain ⟨rfl, rfl⟩ := h1
      exact Or.inl ⟨rfl, rfl, rfl⟩
  · rename_i hl
    simp only [Res.ok.injEq, Prod.mk.injEq] at h
    obtain ⟨rfl, rfl⟩ := h
    exact Or.inl ⟨List.length_eq_zero_iff.mp (by omega), rfl, rfl⟩

theorem choosePsk_datagram {E : Env} {x x' : Ctx} {cfg : Config} {now : Int} {ch : ClientHello} {o : Offer}
    {first : Option (Bytes × Params)} {r : Option PskChoice} (h : choosePsk E x cfg now ch o first = .ok (r, x')) :
    x'.datagram = x.datagram := by
  rcases choosePsk_ok h with ⟨_, _, rfl⟩ | ⟨_, _, _, ⟨_, _, rfl⟩ | ⟨_, _, _, _, h1, _⟩, _, _⟩
  · rfl
  · rfl
  · exact makeRetry_datagram h1

/-- The three outcomes of the cookie logic: nothing, a HelloRetryRequest to be sent, or the one that was sent before. -/
theorem chooseRetry_ok {E : Env} {x x' : Ctx} {cfg : Config} {c : Coins} {m : Msg} {ch : ClientHello} {o : Offer}
    {suite : UInt16} {r : Option Msg} {send : Bool} (h : chooseRetry E x cfg c m ch o suite = .ok (r, send, x')) :
    (r = none ∧ send = false ∧ x' = x ∧
      (cfg.requireCookie = false ∨ (o.cookie = [] ∧ cfg.cookieHandler.isSome ∧ c.appCookie = .ok none))) ∨
    (cfg.requireCookie = true ∧ o.cookie ≠ [] ∧ send = false ∧ ∃ hrr, r = some hrr ∧
      makeRetry x suite ch.sessionId o.cookie = .ok (hrr, x')) ∨
    (cfg.requireCookie = true ∧ o.cookie = [] ∧ send = true ∧ ∃ app p prot plain token hrr, r = some hrr ∧
      ((cfg.cookieHandler = none ∧ app = []) ∨ (cfg.cookieHandler.isSome ∧ c.appCookie = .ok (some app))) ∧
      suiteParams suite.toNat = some p ∧
      Syntax.marshal cookieStructTy (suite, E.P.hash p.hash (x.bytes m), app, ()) = .ok plain ∧
      cfg.cookieProtector = some prot ∧ prot.newToken c.token plain = .ok token ∧
      makeRetry x suite ch.sessionId token = .ok (hrr, x')) := by
  simp only [chooseRetry] at h
  split at h
  · rename_i hreq
    split at h
    · rename_i hl
      simp only [Res.bind_eq_ok, orAlert_ok, Res.ok.injEq, Prod.mk.injEq] at h
      obtain ⟨⟨hrr, x1⟩, h1, rfl, rfl, rfl⟩ := h
      exact Or.inr (Or.inl ⟨hreq, fun h0 => by simp [h0] at hl, rfl, hrr, rfl, h1⟩)
    · rename_i hl
      have hck : o.cookie = [] := List.length_eq_zero_iff.mp (by omega)
      simp only [Res.bind_eq_ok] at h
      obtain ⟨⟨snd, app⟩, h1, h⟩ := h
      have happ : (snd = true ∧ ((cfg.cookieHandler = none ∧ app = []) ∨
          (cfg.cookieHandler.isSome ∧ c.appCookie = .ok (some app)))) ∨
          (snd = false ∧ cfg.cookieHandler.isSome ∧ c.appCookie = .ok none) := by
        cases hh : cfg.cookieHandler with
        | none =>
          rw [hh] at h1
          simp only [Res.ok.injEq, Prod.mk.injEq] at h1
          exact Or.inl ⟨h1.1.symm, Or.inl ⟨rfl, h1.2.symm⟩⟩
        | some f =>
          rw [hh] at h1
          simp only [Res.bind_eq_ok, orAlert_ok, Res.ok.injEq, Prod.mk.injEq] at h1
          obtain ⟨a, h2, h3, h4⟩ := h1
          cases a with
          | none => exact Or.inr ⟨by simpa using h3.symm, rfl, h2⟩
          | some a => exact Or.inl ⟨by simpa using h3.symm, Or.inr ⟨rfl, by rw [h2]; simpa using h4⟩⟩
      rcases happ with ⟨rfl, happ⟩ | ⟨rfl, happ⟩
      · simp only [if_true] at h
        split at h
        · cases h
        · rename_i p hp
          simp only [Res.bind_eq_ok, orAlert_ok] at h
          obtain ⟨plain, h2, h⟩ := h
          split at h
          · cases h
          · rename_i prot hprot
            simp only [Res.bind_eq_ok, orAlert_ok, Res.ok.injEq, Prod.mk.injEq] at h
            obtain ⟨token, h3, ⟨hrr, x1⟩, h4, rfl, rfl, rfl⟩ := h
            exact Or.inr (Or.inr ⟨hreq, hck, rfl, app, p, prot, plain, token, hrr, rfl, happ, hp, h2, hprot, h3, h4⟩)
      · simp only [Bool.false_eq_true, if_false, Res.ok.injEq, Prod.mk.injEq] at h
        obtain ⟨rfl, rfl, rfl⟩ := h
        exact Or.inl ⟨rfl, rfl, rfl, Or.inr ⟨hck, happ⟩⟩
  · rename_i hreq
    simp only [Res.ok.injEq, Prod.mk.injEq] at h
    obtain ⟨rfl, rfl, rfl⟩ := h
    exact Or.inl ⟨rfl, rfl, rfl, Or.inl (by simpa using hreq)⟩

theorem chooseRetry_datagram {E : Env} {x x' : Ctx} {cfg : Config} {c : Coins} {m : Msg} {ch : ClientHello} {o : Offer}
    {suite : UInt16} {r : Option Msg} {send : Bool} (h : chooseRetry E x cfg c m ch o suite = .ok (r, send, x')) :
    x'.datagram = x.datagram := by
  rcases chooseRetry_ok h with ⟨_, _, rfl, _⟩ | ⟨_, _, _, _, _, h1⟩ | ⟨_, _, _, _, _, _, _, _, _, _, _, _, _, _, _, h1⟩
  · rfl
  · exact makeRetry_datagram h1
  · exact makeRetry_datagram h1

theorem chooseCert_ok {cfg : Config} {usingPSK : Bool} {o : Offer} {r : Option (Cert × Nat)}
    (h : chooseCert cfg usingPSK o = .ok r) :
    (usingPSK = true ∧ r = none) ∨
    (usingPSK = false ∧ ∃ name groups algs c, o.serverName = some name ∧ o.groups = some groups ∧ o.sigAlgs = some algs ∧
      certificate (some name) (algs.map (·.toNat)) cfg.certificates = .ok c ∧ r = some c) := by
  simp only [chooseCert] at h
  split at h
  · rename_i hu; cases h; exact Or.inl ⟨hu, rfl⟩
  · rename_i hu
    refine Or.inr ⟨by simpa using hu, ?_⟩
    split at h
    · rename_i name groups algs hn hg ha
      simp only [Res.bind_eq_ok, orAlert_ok, Res.ok.injEq] at h
      obtain ⟨c, h1, rfl⟩ := h
      exact ⟨name, groups, algs, c, hn, hg, ha, h1, rfl⟩
    · simp [alert] at h

theorem SStart.finish_ok {E : Env} {x : Ctx} {s : SStart} {m : Msg} {ch : ClientHello} {o : Offer}
    {first : Option Bytes} {dhc : Option DhChoice} {pskc : Option PskChoice} {usingDH usingPSK : Bool} {suite : UInt16}
    {retry : Option Msg} {n : SNegotiated}
    (h : s.finish E x m ch o first dhc pskc usingDH usingPSK suite retry = .ok n) :
    (usingDH = true ∨ usingPSK = true) ∧ ∃ cert psk et proto, chooseCert s.cfg usingPSK o = .ok cert ∧
      psk = (if usingPSK then pskc.map (·.2.1) else none) ∧
      serverEarly E x m (Negotiation.earlyData usingPSK o.earlyData s.cfg.allowEarlyData).1
        (match (generalizing := false) psk with | some p => p.key | none => []) pskc = .ok et ∧
      Negotiation.alpn psk o.alpn s.cfg.nextProtos = .ok proto ∧
      n = { cfg := s.cfg
            params :=
              { usingPSK := usingPSK, usingDH := usingDH, clientSendingEarlyData := o.earlyData,
                usingEarlyData := (Negotiation.earlyData usingPSK o.earlyData s.cfg.allowEarlyData).1,
                rejectedEarlyData := (Negotiation.earlyData usingPSK o.earlyData s.cfg.allowEarlyData).2,
                suite := suite, serverName := o.serverName.getD [], nextProto := proto }
            dhGroup := match (generalizing := false) dhc with | some (g, _, _) => g | none => 0
            dhPublic := match (generalizing := false) dhc with | some (_, pub, _) => pub | none => []
            dhSecret := if usingDH then dhc.map (·.2.2) else none
            pskSecret := match (generalizing := false) psk with | some p => p.key | none => []
            earlyTraffic := et
            selectedPSK := match (generalizing := false) pskc with | some (i, _, _) => i | none => 0
            cert := cert.map (·.1)
            certScheme := match (generalizing := false) cert with | some (_, a) => a | none => 0
            sessionId := ch.sessionId
            firstHello := first
            retry := retry
            clientHello := m } := by
  simp only [SStart.finish] at h
  split at h
  · simp [alert] at h
  · rename_i hu
    simp only [Res.bind_eq_ok, orAlert_ok, Res.ok.injEq] at h
    obtain ⟨cert, h1, et, h2, proto, h3, rfl⟩ := h
    refine ⟨?_, cert, _, et, proto, h1, rfl, h2, h3, rfl⟩
    cases usingDH <;> cases usingPSK <;> simp at hu ⊢

/-- What led to the outcome of the start state. -/
structure StartFacts (E : Env) (x : Ctx) (c : Coins) (s : SStart) (m : Msg) where
  ch : ClientHello
  o : Offer
  first : Option (Bytes × Params)
  dhc : Option DhChoice
  pskc : Option PskChoice
  x1 : Ctx
  suite : Nat
  retry : Option Msg
  send : Bool
  x2 : Ctx
  hello : readHello x m = .ok (ch, o)
  cookie : checkCookie s.cfg o = .ok first
  sid : ch.sessionId.length = 0 ∨ ch.sessionId.length = 32
  dh : Negotiation.dh E.D (s.cfg.groups.map (·.toNat)) c.dh (o.shares.map fun e => ⟨e.1.toNat, e.2.1⟩) = .ok dhc
  psk : choosePsk E x s.cfg c.now ch o first = .ok (pskc, x1)
  suiteOk : cipherSuite (pskc.map (·.2.1)) (s.cfg.suites.map (·.toNat)) (ch.suites.map (·.toNat)) = .ok suite
  sameSuite : ∀ h p, first = some (h, p) → p.suite = suite
  retryOk : chooseRetry E x1 s.cfg c m ch o (UInt16.ofNat suite) = .ok (retry, send, x2)

theorem SStart.next_ok {E : Env} {x x' : Ctx} {c : Coins} {s : SStart} {m : Msg} {r : SStartResult}
    (h : s.next E x c m = .ok (r, x')) :
    ∃ f : StartFacts E x c s m, x' = f.x2 ∧
      ((f.send = true ∧ ∃ hrr, f.retry = some hrr ∧ r = .retry hrr) ∨
       (f.send = false ∧ ∃ n, r = .negotiated n ∧
          s.finish E x m f.ch f.o (f.first.map (·.1)) f.dhc f.pskc (pskMode f.dhc.isSome f.pskc.isSome f.o.modes).1
            (pskMode f.dhc.isSome f.pskc.isSome f.o.modes).2 (UInt16.ofNat f.suite) f.retry = .ok n)) := by
  simp only [SStart.next, Res.bind_eq_ok] at h
  obtain ⟨⟨ch, o⟩, h1, first, h2, h⟩ := h
  dsimp only at h h2
  split at h
  · simp [alert] at h
  · rename_i hsid
    simp only [Res.bind_eq_ok, orAlert_ok] at h
    obtain ⟨dhc, h3, ⟨pskc, x1⟩, h4, suite, h5, h⟩ := h
    dsimp only at h h5
    split at h
    · simp [alert] at h
    · rename_i hsame
      simp only [Res.bind_eq_ok] at h
      obtain ⟨⟨retry, send, x2⟩, h6, h⟩ := h
      dsimp only at h
      have hs' : ∀ h p, first = some (h, p) → p.suite = suite := by
        rintro h p rfl
        simpa [suiteDiffers] using hsame
      have hsid' : ch.sessionId.length = 0 ∨ ch.sessionId.length = 32 := by omega
      refine ⟨⟨ch, o, first, dhc, pskc, x1, suite, retry, send, x2, h1, h2, hsid', h3, h4, h5, hs', h6⟩, ?_⟩
      have hsend : send = true → ∃ hrr, retry = some hrr := by
        intro hs
        rcases chooseRetry_ok h6 with ⟨_, h0, _⟩ | ⟨_, _, h0, _⟩ | ⟨_, _, _, _, _, _, _, _, hrr, h0, _⟩
        · rw [hs] at h0; cases h0
        · rw [hs] at h0; cases h0
        · exact ⟨hrr, h0⟩
      cases send with
      | true =>
        obtain ⟨hrr, rfl⟩ := hsend rfl
        simp only [Res.ok.injEq, Prod.mk.injEq] at h
        obtain ⟨rfl, rfl⟩ := h
        exact ⟨rfl, Or.inl ⟨rfl, hrr, rfl, rfl⟩⟩
      | false =>
        simp only [Res.bind_eq_ok, Res.ok.injEq, Prod.mk.injEq] at h
        obtain ⟨n, h7, rfl, rfl⟩ := h
        exact ⟨rfl, Or.inr ⟨rfl, n, rfl, h7⟩⟩

theorem SStart.next_datagram {E : Env} {x x' : Ctx} {c : Coins} {s : SStart} {m : Msg} {r : SStartResult}
    (h : s.next E x c m = .ok (r, x')) : x'.datagram = x.datagram := by
  obtain ⟨f, rfl, _⟩ := SStart.next_ok h
  exact (chooseRetry_datagram f.retryOk).trans (choosePsk_datagram f.psk)

/-! ### Negotiated -/

theorem serverRequest_ok {x x' : Ctx} {s : SNegotiated} {t t' : Bytes} {acts : List Action}
    (h : serverRequest x s t = .ok (acts, t', x')) :
    (s.cfg.requireClientAuth = false ∧ acts = [] ∧ t' = t ∧ x' = x) ∨
    (s.cfg.requireClientAuth = true ∧ ∃ exts m, addExt [] (.signatureAlgorithms s.cfg.schemes) = .ok exts ∧
      mkMsg x (.certificateRequest ⟨[], exts⟩) = .ok (m, x') ∧ acts = [.queue m] ∧ t' = t ++ x.bytes m) := by
  simp only [serverRequest] at h
  split at h
  · rename_i hu
    simp only [Res.bind_eq_ok, orAlert_ok, Res.ok.injEq, Prod.mk.injEq] at h
    obtain ⟨exts, h1, ⟨m, x1⟩, h2, rfl, rfl, rfl⟩ := h
    exact Or.inr ⟨hu, exts, m, h1, h2, rfl, rfl⟩
  · rename_i hu
    simp only [Res.ok.injEq, Prod.mk.injEq] at h
    obtain ⟨rfl, rfl, rfl⟩ := h
    exact Or.inl ⟨by simpa using hu, rfl, rfl, rfl⟩

theorem serverRequest_datagram {x x' : Ctx} {s : SNegotiated} {t t' : Bytes} {acts : List Action}
    (h : serverRequest x s t = .ok (acts, t', x')) : x'.datagram = x.datagram := by
  rcases serverRequest_ok h with ⟨_, _, _, rfl⟩ | ⟨_, _, _, _, h1, _⟩
  · rfl
  · exact mkMsg_datagram h1

theorem serverAuth_ok {E : Env} {x x' : Ctx} {s : SNegotiated} {hid : HashId} {t t' : Bytes} {acts : List Action}
    (h : serverAuth E x s hid t = .ok (acts, t', x')) :
    (s.params.usingPSK = true ∧ acts = [] ∧ t' = t ∧ x' = x) ∨
    (s.params.usingPSK = false ∧ ∃ acts1 t1 x1 cert m x2 cv mv, serverRequest x s t = .ok (acts1, t1, x1) ∧
      s.cert = some cert ∧ mkMsg x1 (certBody cert) = .ok (m, x2) ∧
      CertVerify.sign E.P E.S (UInt16.ofNat s.certScheme) cert.key (E.P.hash hid (t1 ++ x.bytes m)) = .ok cv ∧
      mkMsg x2 (.certificateVerify cv) = .ok (mv, x') ∧ acts = acts1 ++ [.queue m, .queue mv] ∧
      t' = t1 ++ x.bytes m ++ x.bytes mv) := by
  simp only [serverAuth] at h
  split at h
  · rename_i hu
    refine Or.inr ⟨by simpa using hu, ?_⟩
    simp only [Res.bind_eq_ok] at h
    obtain ⟨⟨acts1, t1, x1⟩, h1, h⟩ := h
    dsimp only at h
    split at h
    · cases h
    · rename_i cert hc
      simp only [Res.bind_eq_ok, orAlert_ok, Res.ok.injEq, Prod.mk.injEq] at h
      obtain ⟨⟨m, x2⟩, h2, cv, h3, ⟨mv, x3⟩, h4, rfl, rfl, rfl⟩ := h
      exact ⟨acts1, t1, x1, cert, m, x2, cv, mv, h1, hc, h2, h3, h4, rfl, rfl⟩
  · rename_i hu
    simp only [Res.ok.injEq, Prod.mk.injEq] at h
    obtain ⟨rfl, rfl, rfl⟩ := h
    exact Or.inl ⟨by simpa using hu, rfl, rfl, rfl⟩

theorem serverAuth_datagram {E : Env} {x x' : Ctx} {s : SNegotiated} {hid : HashId} {t t' : Bytes} {acts : List Action}
    (h : serverAuth E x s hid t = .ok (acts, t', x')) : x'.datagram = x.datagram := by
  rcases serverAuth_ok h with ⟨_, _, _, rfl⟩ | ⟨_, _, _, _, _, _, _, _, _, h1, _, h2, _, h3, _⟩
  · rfl
  · exact (mkMsg_datagram h3).trans ((mkMsg_datagram h2).trans (serverRequest_datagram h1))

/-- The transcript up to the ServerHello. -/
def helloTranscript (x : Ctx) (s : SNegotiated) (sh : Msg) : Bytes :=
  hashMsgBytes s.firstHello ++ x.bytesOpt s.retry ++ x.bytes s.clientHello ++ x.bytes sh

/-- The early secret of the server. -/
def serverEarlySecret (P : Prims) (h : HashId) (s : SNegotiated) : Bytes :=
  if s.params.usingPSK then hkdfExtract P h (some (zeros h)) s.pskSecret else hkdfExtract P h (some (zeros h)) (zeros h)

/-- What led to the outcome of the state Negotiated. -/
structure NegFacts (E : Env) (x : Ctx) (c : Coins) (s : SNegotiated) where
  random : Random
  exts : List Ext
  sh : Msg
  x1 : Ctx
  p : Params
  hs : HsSecrets
  clientKeys : Keys
  serverKeys : Keys
  eeExts : List Ext
  ee : Msg
  x2 : Ctx
  acts : List Action
  transcript3 : Bytes
  x3 : Ctx
  verifyData : Bytes
  fin : Msg
  x4 : Ctx
  ap : ApSecrets
  serverApKeys : Keys
  randomOk : c.random = some random
  extsOk : addAll [] (serverHelloExts s) = .ok exts
  shOk : mkMsg x (.serverHello ⟨tls12Version, random, s.sessionId, s.params.suite, 0, exts⟩) = .ok (sh, x1)
  suiteOk : suiteParams s.params.suite.toNat = some p
  hsOk : hsSecrets E.P p.hash (serverEarlySecret E.P p.hash s) s.dhSecret (helloTranscript x s sh) = .ok hs
  clientKeysOk : makeTrafficKeys E.P p hs.clientHs = .ok clientKeys
  serverKeysOk : makeTrafficKeys E.P p hs.serverHs = .ok serverKeys
  eeExtsOk : addAll [] (encryptedExts s) = .ok eeExts
  eeOk : mkMsg x1 (.encryptedExtensions eeExts) = .ok (ee, x2)
  authOk : serverAuth E x2 s p.hash (helloTranscript x s sh ++ x.bytes ee) = .ok (acts, transcript3, x3)
  verifyOk : computeFinishedData E.P p.hash hs.serverHs (E.P.hash p.hash transcript3) = .ok verifyData
  finOk : mkMsg x3 (.finished ⟨verifyData.length, verifyData⟩) = .ok (fin, x4)
  apOk : apSecrets E.P p.hash hs.master (transcript3 ++ x.bytes fin) = .ok ap
  apKeysOk : makeTrafficKeys E.P p ap.serverAp = .ok serverApKeys

namespace NegFacts
variable {E : Env} {x : Ctx} {c : Coins} {s : SNegotiated}

/-- The state after the server's flight. -/
def wait (f : NegFacts E x c s) : SWait :=
  ⟨s.cfg, { s.params with usingClientAuth := !s.params.usingPSK && s.cfg.requireClientAuth },
    ⟨f.p, f.transcript3 ++ x.bytes f.fin, f.hs.master, f.hs.clientHs, f.ap⟩⟩

/-- The actions of the server's flight. -/
def sent (f : NegFacts E x c s) : List Action :=
  [.queue f.sh, .rekeyOut epochHandshake f.serverKeys, .queue f.ee] ++ f.acts ++
    [.queue f.fin, .sendQueued, .rekeyOut epochApplication f.serverApKeys]

theorem datagram (f : NegFacts E x c s) :
    f.x1.datagram = x.datagram ∧ f.x2.datagram = x.datagram ∧ f.x3.datagram = x.datagram ∧ f.x4.datagram = x.datagram := by
  have h1 := mkMsg_datagram f.shOk
  have h2 := mkMsg_datagram f.eeOk
  have h3 := serverAuth_datagram f.authOk
  have h4 := mkMsg_datagram f.finOk
  exact ⟨h1, h2.trans h1, h3.trans (h2.trans h1), h4.trans (h3.trans (h2.trans h1))⟩

end NegFacts

theorem SNegotiated.next_ok {E : Env} {x x' : Ctx} {c : Coins} {s : SNegotiated} {s' : SState} {acts : List Action}
    (h : s.next E x c = .ok (s', acts, x')) :
    ∃ f : NegFacts E x c s, x' = f.x4 ∧
      ((s.params.usingEarlyData = true ∧ ∃ keys, makeTrafficKeys E.P f.p s.earlyTraffic = .ok keys ∧ s' = .waitEOED f.wait ∧
          acts = f.sent ++ [.rekeyIn epochEarlyData keys]) ∨
       (s.params.usingEarlyData = false ∧ s.params.rejectedEarlyData = true ∧ s' = .readPast ∧
          acts = f.sent ++ [.rekeyIn epochHandshake f.clientKeys]) ∨
       (s.params.usingEarlyData = false ∧ s.params.rejectedEarlyData = false ∧ s' = .waitFlight2 f.wait ∧
          acts = f.sent ++ [.rekeyIn epochHandshake f.clientKeys])) := by
  simp only [SNegotiated.next] at h
  split at h
  · simp [alert] at h
  · rename_i random hr
    simp only [Res.bind_eq_ok, orAlert_ok] at h
    obtain ⟨exts, h1, ⟨sh, x1⟩, h2, h⟩ := h
    dsimp only at h
    split at h
    · simp [alert] at h
    · rename_i p hp
      simp only [Res.bind_eq_ok, orAlert_ok] at h
      obtain ⟨hs, h3, ck, h4, sk, h5, eeExts, h6, ⟨ee, x2⟩, h7, ⟨acts1, t3, x3⟩, h8, vd, h9, ⟨fin, x4⟩, h10, ap, h11, apk, h12,
        h⟩ := h
      refine ⟨⟨random, exts, sh, x1, p, hs, ck, sk, eeExts, ee, x2, acts1, t3, x3, vd, fin, x4, ap, apk, hr, h1, h2, hp, h3,
        h4, h5, h6, h7, h8, h9, h10, h11, h12⟩, ?_⟩
      split at h
      · rename_i hu
        simp only [Res.bind_eq_ok, Res.ok.injEq, Prod.mk.injEq] at h
        obtain ⟨keys, h13, rfl, rfl, rfl⟩ := h
        exact ⟨rfl, Or.inl ⟨hu, keys, h13, rfl, rfl⟩⟩
      · rename_i hu
        split at h
        · rename_i hrej
          simp only [Res.ok.injEq, Prod.mk.injEq] at h
          obtain ⟨rfl, rfl, rfl⟩ := h
          exact ⟨rfl, Or.inr (Or.inl ⟨by simpa using hu, hrej, rfl, rfl⟩)⟩
        · rename_i hrej
          simp only [Res.ok.injEq, Prod.mk.injEq] at h
          obtain ⟨rfl, rfl, rfl⟩ := h
          exact ⟨rfl, Or.inr (Or.inr ⟨by simpa using hu, by simpa using hrej, rfl, rfl⟩)⟩

/-! ### The later states -/

theorem SWait.nextEOED_ok {E : Env} {x x' : Ctx} {s : SWait} {m : Msg} {s' : SState} {acts : List Action}
    (h : s.nextEOED E x m = .ok (s', acts, x')) :
    m.msgType = typeEndOfEarlyData ∧ m.body = [] ∧ x' = x ∧ ∃ keys, makeTrafficKeys E.P s.sec.cp s.sec.clientHs = .ok keys ∧
      s' = .waitFlight2 { s with sec := s.sec.add (x.bytes m) } ∧ acts = [.rekeyIn epochHandshake keys] := by
  simp only [SWait.nextEOED] at h
  split at h
  · simp [alert] at h
  · rename_i ht
    split at h
    · simp [alert] at h
    · rename_i hl
      simp only [Res.bind_eq_ok, Res.ok.injEq, Prod.mk.injEq] at h
      obtain ⟨keys, h1, rfl, rfl, rfl⟩ := h
      exact ⟨by simpa using ht, List.length_eq_zero_iff.mp (by omega), rfl, keys, h1, rfl, rfl⟩

theorem SWait.nextCert_ok {E : Env} {x x' : Ctx} {s : SWait} {m : Msg} {s' : SState} {acts : List Action}
    (h : s.nextCert E x m = .ok (s', acts, x')) :
    m.msgType = typeCertificate ∧ acts = [] ∧ x' = x ∧ ∃ c,
      safeUnmarshal (CertificateMsg.unmarshal E.parses) m.body = .ok c ∧
      ((c.list = [] ∧ s' = .waitFinished ⟨s.params, s.sec.add (x.bytes m), []⟩) ∨
       (c.list ≠ [] ∧ s' = .waitCV ⟨s.cfg, s.params, s.sec.add (x.bytes m), c⟩)) := by
  simp only [SWait.nextCert] at h
  split at h
  · simp [alert] at h
  · rename_i ht
    simp only [Res.bind_eq_ok, orAlert_ok] at h
    obtain ⟨c, h1, h⟩ := h
    split at h
    · rename_i hl
      simp only [Res.ok.injEq, Prod.mk.injEq] at h
      obtain ⟨rfl, rfl, rfl⟩ := h
      exact ⟨by simpa using ht, rfl, rfl, c, h1, Or.inl ⟨List.length_eq_zero_iff.mp hl, rfl⟩⟩
    · rename_i hl
      simp only [Res.ok.injEq, Prod.mk.injEq] at h
      obtain ⟨rfl, rfl, rfl⟩ := h
      exact ⟨by simpa using ht, rfl, rfl, c, h1, Or.inr ⟨fun h0 => by simp [h0] at hl, rfl⟩⟩

theorem SWaitCV.next_ok {E : Env} {x x' : Ctx} {s : SWaitCV} {m : Msg} {s' : SState} {acts : List Action}
    (h : s.next E x m = .ok (s', acts, x')) :
    m.msgType = typeCertificateVerify ∧ acts = [] ∧ x' = x ∧ ∃ cv pub,
      safeUnmarshal CertVerify.unmarshal m.body = .ok cv ∧ leafKey E s.cert = .ok pub ∧
      cv.verify E.P E.S pub (E.P.hash s.sec.cp.hash s.sec.transcript) = true ∧
      (∀ f, s.cfg.verifyPeer = some f → f (s.cert.list.map (·.1)) [] = true) ∧
      s' = .waitFinished ⟨s.params, s.sec.add (x.bytes m), s.cert.list.map (·.1)⟩ := by
  simp only [SWaitCV.next] at h
  split at h
  · simp [alert] at h
  · rename_i ht
    simp only [Res.bind_eq_ok, orAlert_ok] at h
    obtain ⟨cv, h1, pub, h2, h⟩ := h
    split at h
    · simp [alert] at h
    · rename_i hver
      cases hvp : s.cfg.verifyPeer with
      | none =>
        rw [hvp] at h
        simp only [Bool.not_true, Bool.false_eq_true, if_false, Res.ok.injEq, Prod.mk.injEq] at h
        obtain ⟨rfl, rfl, rfl⟩ := h
        exact ⟨by simpa using ht, rfl, rfl, cv, pub, h1, h2, by simpa using hver, fun f hf => (nomatch hf), rfl⟩
      | some f =>
        rw [hvp] at h
        cases hf : f (s.cert.list.map (·.1)) [] with
        | false => simp [hf, alert] at h
        | true =>
          simp only [hf, Bool.not_true, Bool.false_eq_true, if_false, Res.ok.injEq, Prod.mk.injEq] at h
          obtain ⟨rfl, rfl, rfl⟩ := h
          exact ⟨by simpa using ht, rfl, rfl, cv, pub, h1, h2, by simpa using hver,
            fun g hg => by cases hg; exact hf, rfl⟩

theorem SWaitFinished.next_ok {E : Env} {x x' : Ctx} {s : SWaitFinished} {m : Msg} {s' : SState} {acts : List Action}
    (h : s.next E x m = .ok (s', acts, x')) :
    m.msgType = typeFinished ∧ x' = x ∧ ∃ fin expected res keys,
      safeUnmarshal (Finished.unmarshal s.sec.cp.hash.size) m.body = .ok fin ∧
      computeFinishedData E.P s.sec.cp.hash s.sec.clientHs (E.P.hash s.sec.cp.hash s.sec.transcript) = .ok expected ∧
      fin.verifyData = expected ∧
      deriveSecret E.P s.sec.cp.hash s.sec.master labelResumptionSecret
        (E.P.hash s.sec.cp.hash (s.sec.transcript ++ x.bytes m)) = .ok res ∧
      makeTrafficKeys E.P s.sec.cp s.sec.ap.clientAp = .ok keys ∧
      s' = .connected
          { params := s.params, isClient := false, cp := s.sec.cp, resumption := res, clientAp := s.sec.ap.clientAp,
            serverAp := s.sec.ap.serverAp, exporter := s.sec.ap.exporter, peerCerts := s.peerCerts, chains := [] } ∧
      acts = [.rekeyIn epochApplication keys] := by
  simp only [SWaitFinished.next] at h
  split at h
  · simp [alert] at h
  · rename_i ht
    simp only [Res.bind_eq_ok, orAlert_ok] at h
    obtain ⟨fin, h1, expected, h2, h⟩ := h
    split at h
    · simp [alert] at h
    · rename_i hv
      simp only [Res.bind_eq_ok, Res.ok.injEq, Prod.mk.injEq] at h
      obtain ⟨res, h3, keys, h4, rfl, rfl, rfl⟩ := h
      exact ⟨by simpa using ht, rfl, fin, expected, res, keys, h1, h2, by simpa using hv, h3, h4, rfl, rfl⟩

/-! ### Shape of a step -/

/-- The possible steps of a server. -/
inductive SStep (E : Env) (x : Ctx) (c : Coins) : SState → Event → SState → List Action → Ctx → Prop where
  | skip : SStep E x c .readPast .bad .readPast [] x
  | early (s : SWait) (d : Bytes) :
      SStep E x c (.waitEOED s) (.appData d) (.waitEOED s) [] { x with earlyData := x.earlyData ++ d }
  | retry (s : SStart) (m hrr : Msg) (x' : Ctx) (next : s.next E x c m = .ok (.retry hrr, x')) :
      SStep E x c (.start s) (.msg m) (.start s) [.queue hrr, .sendQueued] x'
  | hello (s : SStart) (m : Msg) (n : SNegotiated) (x1 : Ctx) (s' : SState) (acts : List Action) (x2 : Ctx)
      (next : s.next E x c m = .ok (.negotiated n, x1)) (neg : n.next E x1 c = .ok (s', acts, x2)) :
      SStep E x c (.start s) (.msg m) s'.settle acts x2
  | eoed (s : SWait) (m : Msg) (s' : SState) (acts : List Action) (x' : Ctx) (next : s.nextEOED E x m = .ok (s', acts, x')) :
      SStep E x c (.waitEOED s) (.msg m) s'.settle acts x'
  | cert (s : SWait) (m : Msg) (s' : SState) (acts : List Action) (x' : Ctx)
      (next : s.nextCert E x m = .ok (s', acts, x')) : SStep E x c (.waitCert s) (.msg m) s' acts x'
  | cv (s : SWaitCV) (m : Msg) (s' : SState) (acts : List Action) (x' : Ctx)
      (next : s.next E x m = .ok (s', acts, x')) : SStep E x c (.waitCV s) (.msg m) s' acts x'
  | finished (s : SWaitFinished) (m : Msg) (s' : SState) (acts : List Action) (x' : Ctx)
      (next : s.next E x m = .ok (s', acts, x')) : SStep E x c (.waitFinished s) (.msg m) s' acts x'
  | post (s : Connected) (m : Msg) (s' : Connected) (acts : List Action) (x' : Ctx)
      (next : s.process E x c.now m = .ok (s', acts, x')) : SStep E x c (.connected s) (.msg m) (.connected s') acts x'
  | data (s : Connected) (d : Bytes) : SStep E x c (.connected s) (.appData d) (.connected s) [] x

theorem SState.step_ok {E : Env} {x x' : Ctx} {c : Coins} {s s' : SState} {e : Event} {acts : List Action}
    (h : s.step E x c e = .ok (s', acts, x')) : SStep E x c s e s' acts x' := by
  cases e with
  | msg m =>
    cases s with
    | start s =>
      simp only [SState.step, Res.bind_eq_ok] at h
      obtain ⟨⟨r, x1⟩, h1, h⟩ := h
      cases r with
      | retry hrr =>
        simp only [Res.ok.injEq, Prod.mk.injEq] at h
        obtain ⟨rfl, rfl, rfl⟩ := h
        exact .retry _ _ _ _ h1
      | negotiated n =>
        simp only [Res.bind_eq_ok, Res.ok.injEq, Prod.mk.injEq] at h
        obtain ⟨⟨s1, a1, x2⟩, h2, rfl, rfl, rfl⟩ := h
        exact .hello _ _ _ _ _ _ _ h1 h2
    | negotiated s => simp [SState.step] at h
    | waitEOED s =>
      simp only [SState.step, Res.bind_eq_ok, Res.ok.injEq, Prod.mk.injEq] at h
      obtain ⟨⟨s1, a1, x1⟩, h1, rfl, rfl, rfl⟩ := h
      exact .eoed _ _ _ _ _ h1
    | readPast => simp [SState.step] at h
    | waitFlight2 s => simp [SState.step] at h
    | waitCert s => exact .cert _ _ _ _ _ h
    | waitCV s => exact .cv _ _ _ _ _ h
    | waitFinished s => exact .finished _ _ _ _ _ h
    | connected s =>
      simp only [SState.step, Res.bind_eq_ok, Res.ok.injEq, Prod.mk.injEq] at h
      obtain ⟨⟨s1, a1, x1⟩, h1, rfl, rfl, rfl⟩ := h
      exact .post _ _ _ _ _ h1
  | appData d =>
    cases s with
    | connected s =>
      simp only [SState.step, Res.ok.injEq, Prod.mk.injEq] at h
      obtain ⟨rfl, rfl, rfl⟩ := h
      exact .data _ _
    | waitEOED s =>
      simp only [SState.step, Res.ok.injEq, Prod.mk.injEq] at h
      obtain ⟨rfl, rfl, rfl⟩ := h
      exact .early _ _
    | _ => simp [SState.step, alert] at h
  | bad =>
    cases s with
    | readPast =>
      simp only [SState.step, Res.ok.injEq, Prod.mk.injEq] at h
      obtain ⟨rfl, rfl, rfl⟩ := h
      exact .skip
    | _ => simp [SState.step, alert] at h

theorem SStep.datagram {E : Env} {x x' : Ctx} {c : Coins} {s s' : SState} {e : Event} {acts : List Action}
    (h : SStep E x c s e s' acts x') : x'.datagram = x.datagram := by
  cases h with
  | skip => rfl
  | early => rfl
  | retry _ _ _ _ h => exact SStart.next_datagram h
  | hello _ _ _ _ _ _ _ h1 h2 =>
    obtain ⟨f, rfl, _⟩ := SNegotiated.next_ok h2
    exact f.datagram.2.2.2.trans (SStart.next_datagram h1)
  | eoed _ _ _ _ _ h => obtain ⟨_, _, rfl, _⟩ := SWait.nextEOED_ok h; rfl
  | cert _ _ _ _ _ h => obtain ⟨_, _, rfl, _⟩ := SWait.nextCert_ok h; rfl
  | cv _ _ _ _ _ h => obtain ⟨_, _, rfl, _⟩ := SWaitCV.next_ok h; rfl
  | finished _ _ _ _ _ h => obtain ⟨_, rfl, _⟩ := SWaitFinished.next_ok h; rfl
  | post _ _ _ _ _ h => exact Connected.process_datagram h
  | data => rfl

/-! ### Executions, one step at the end -/

theorem SState.run_append {E : Env} (es₁ es₂ : List (Event × Coins)) (x : Ctx) (s : SState) :
    s.run E x (es₁ ++ es₂) =
      (s.run E x es₁).bind fun (s', acts, x') =>
      (s'.run E x' es₂).bind fun (s'', acts', x'') => .ok (s'', acts ++ acts', x'') := by
  induction es₁ generalizing x s with
  | nil =>
    simp only [List.nil_append, SState.run, Res.bind_ok]
    cases h : s.run E x es₂ with
    | ok v => obtain ⟨a, b, d⟩ := v; rfl
    | err _ => rfl
    | panic => rfl
    | diverge => rfl
  | cons e es₁ ih =>
    obtain ⟨e, c⟩ := e
    simp only [List.cons_append, SState.run]
    cases hs : s.step E x c e with
    | ok v =>
      obtain ⟨s1, a1, x1⟩ := v
      simp only [Res.bind_ok]
      rw [ih]
      cases hr : s1.run E x1 es₁ with
      | ok v =>
        obtain ⟨s2, a2, x2⟩ := v
        simp only [Res.bind_ok]
        cases h : s2.run E x2 es₂ with
        | ok v => obtain ⟨a, b, d⟩ := v; simp
        | err _ => rfl
        | panic => rfl
        | diverge => rfl
      | err _ => rfl
      | panic => rfl
      | diverge => rfl
    | err _ => rfl
    | panic => rfl
    | diverge => rfl

theorem SState.run_snoc {E : Env} {es : List (Event × Coins)} {e : Event} {c : Coins} {x x' : Ctx} {s s' : SState}
    {acts : List Action} (h : s.run E x (es ++ [(e, c)]) = .ok (s', acts, x')) :
    ∃ s1 a1 x1 a2, s.run E x es = .ok (s1, a1, x1) ∧ SStep E x1 c s1 e s' a2 x' ∧ acts = a1 ++ a2 := by
  rw [SState.run_append] at h
  simp only [Res.bind_eq_ok, SState.run, Res.ok.injEq, Prod.mk.injEq] at h
  obtain ⟨⟨s1, a1, x1⟩, h1, ⟨s2, a2, x2⟩, ⟨⟨s3, a3, x3⟩, h3, ⟨s4, a4, x4⟩, ⟨rfl, rfl, rfl⟩, rfl, rfl, rfl⟩, rfl, rfl, rfl⟩ := h
  exact ⟨s1, a1, x1, a3, h1, SState.step_ok h3, by simp⟩

/-- Induction over the executions of a server. -/
theorem serverRun_induct {E : Env} {x : Ctx} {cfg : Config}
    (P : List (Event × Coins) → SState → List Action → Ctx → Prop) (init : P [] (.start ⟨cfg⟩) [] x)
    (step : ∀ es s acts x1 e ce s' acts' x2, P es s acts x1 → SStep E x1 ce s e s' acts' x2 →
      P (es ++ [(e, ce)]) s' (acts ++ acts') x2)
    {es : List (Event × Coins)} {s : SState} {acts : List Action} {x' : Ctx}
    (h : serverRun E x cfg es = .ok (s, acts, x')) : P es s acts x' := by
  have key : ∀ (r : List (Event × Coins)) (s1 : SState) (a1 : List Action) (x1 : Ctx),
      SState.run E x (.start ⟨cfg⟩) r.reverse = .ok (s1, a1, x1) → P r.reverse s1 a1 x1 := by
    intro r
    induction r with
    | nil =>
      intro s1 a1 x1 h
      simp only [List.reverse_nil, SState.run, Res.ok.injEq, Prod.mk.injEq] at h
      obtain ⟨rfl, rfl, rfl⟩ := h
      exact init
    | cons e r ih =>
      obtain ⟨e, ce⟩ := e
      intro s1 a1 x1 h
      rw [List.reverse_cons] at h ⊢
      obtain ⟨s2, a2, x2, a3, hr, hst, rfl⟩ := SState.run_snoc h
      exact step _ _ _ _ _ _ _ _ _ (ih _ _ _ hr) hst
  have := key es.reverse s acts x' (by simpa [serverRun] using h)
  simpa using this

end Verif.Machine

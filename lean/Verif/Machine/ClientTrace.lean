import Verif.Machine.ClientLemmas
import Verif.Machine.Secrets
import Verif.Spec.Handshake

/-
How a client gets to each of its states.
-/

namespace Verif.Machine

open Verif Verif.Crypto Verif.Messages Verif.Negotiation Verif.Handshake Verif.Spec

/-! ### Vocabulary -/

theorem received_append (a b : List (Event × Coins)) : received (a ++ b) = received a ++ received b := by
  simp [received, List.filterMap_append]

theorem sent_append (a b : List Action) : sent (a ++ b) = sent a ++ sent b := by
  simp [sent, List.filterMap_append]

theorem received_msgs (l : List (Msg × Coins)) : received (l.map fun p => (Event.msg p.1, p.2)) = l.map (·.1) := by
  induction l with
  | nil => rfl
  | cons a l ih => simp_all [received]

theorem wire_append (d : Bool) (a b : List Msg) : wire d (a ++ b) = wire d a ++ wire d b := by simp [wire]

theorem wire_cons (d : Bool) (a : Msg) (b : List Msg) : wire d (a :: b) = Msg.marshal d a ++ wire d b := by simp [wire]

theorem wire_nil (d : Bool) : wire d [] = [] := rfl

theorem wire_singleton (x : Ctx) (m : Msg) : wire x.datagram [m] = x.bytes m := by simp [wire, Ctx.bytes]

theorem hashMsgBytes_some (h : Bytes) : hashMsgBytes (some h) = helloHash h := by
  simp [hashMsgBytes, helloHash, Msg.marshal, typeMessageHash, beBytes]

/-! ### Executions -/

theorem clientRun_cases {E : Env} {x : Ctx} {cfg : Config} {c : Coins} {es : List (Event × Coins)} {s : CState}
    {acts : List Action} {x' : Ctx} (h : clientRun E x cfg c es = .ok (s, acts, x')) :
    (es = [] ∧ ∃ w, s = .waitSH w ∧ ({ cfg := cfg } : CStart).next E x c = .ok (w, acts, x')) ∨
    (∃ es0 e ce s0 a0 x0 a1, es = es0 ++ [(e, ce)] ∧ clientRun E x cfg c es0 = .ok (s0, a0, x0) ∧
      CStep E x0 ce s0 e s a1 x' ∧ acts = a0 ++ a1) := by
  simp only [clientRun, Res.bind_eq_ok, Res.ok.injEq, Prod.mk.injEq] at h
  obtain ⟨⟨w, a0, x0⟩, h0, ⟨s1, a1, x1⟩, h1, rfl, rfl, rfl⟩ := h
  rcases List.eq_nil_or_concat es with rfl | ⟨es0, ⟨e, ce⟩, rfl⟩
  · simp only [CState.run, Res.ok.injEq, Prod.mk.injEq] at h1
    obtain ⟨rfl, rfl, rfl⟩ := h1
    exact Or.inl ⟨rfl, w, rfl, by simpa using h0⟩
  · rw [List.concat_eq_append] at h1
    obtain ⟨s2, a2, x2, a3, hr, hst, rfl⟩ := CState.run_snoc h1
    refine Or.inr ⟨es0, e, ce, s2, a0 ++ a2, x2, a3, by simp, ?_, hst, by simp⟩
    simp only [clientRun, h0, Res.bind_ok, hr]

theorem clientRun_datagram {E : Env} {x : Ctx} {cfg : Config} {c : Coins} {es : List (Event × Coins)} {s : CState}
    {acts : List Action} {x' : Ctx} (h : clientRun E x cfg c es = .ok (s, acts, x')) : x'.datagram = x.datagram :=
  clientRun_induct (fun _ _ _ x' => x'.datagram = x.datagram) (fun _ _ _ h => CStart.next_datagram h)
    (fun _ _ _ _ _ _ _ _ _ ih h => h.datagram.trans ih) h

theorem CStart.next_sent {E : Env} {x x' : Ctx} {c : Coins} {s : CStart} {w : CWaitSH} {acts : List Action}
    (h : s.next E x c = .ok (w, acts, x')) :
    sent acts = [w.clientHello] ∧ w.cfg = s.cfg ∧ w.firstHello = s.firstHello ∧ w.retry = s.retry := by
  obtain ⟨_, _, _, _, _, _, ⟨psk, o, _, h1, rfl, rfl, rfl⟩ | ⟨_, _, h1, rfl, rfl⟩⟩ := CStart.next_ok h
  · refine ⟨?_, rfl, rfl, rfl⟩
    simp only [sent_append]
    split <;> simp [sent]
  · exact ⟨by simp [sent], rfl, rfl, rfl⟩

/-! ### Waiting for a ServerHello -/

/-- The start state a client gets into when it answers a HelloRetryRequest. -/
structure Retried (E : Env) (x : Ctx) (cfg : Config) (rs hs : List Msg) (st : CStart) (last : Msg) where
  pre : List Msg
  hrr : Msg
  prevHellos : List Msg
  ch : Msg
  body : ServerHello
  p : Params
  cookie : Bytes
  rs_eq : rs = pre ++ [hrr]
  hs_eq : hs = prevHellos ++ [ch, last]
  same : prevHellos.length = pre.length
  type : hrr.msgType = typeServerHello
  decodes : ∃ n, ServerHello.unmarshal hrr.body = .ok (body, n)
  random : body.random.1 = hrrRandom
  suite : suiteParams body.suite.toNat = some p
  offered : body.suite ∈ cfg.suites
  cookieOk : findExt .cookie body.exts = .ok (some (.cookie cookie))
  versionOk : ∃ hs vs, findExt (.supportedVersions typeServerHello) body.exts = .ok (some (.supportedVersions hs (tls13Version :: vs)))
  two : body.exts.length = 2
  st_eq : st = { cfg := { cfg with suites := [body.suite] }, cookie := some cookie,
                 firstHello := some (E.P.hash p.hash (x.bytes ch)), retry := some hrr }

/-- What is known when a client waits for a ServerHello. -/
structure AtSH (E : Env) (x : Ctx) (cfg : Config) (es : List (Event × Coins)) (w : CWaitSH) (acts : List Action)
    (x' : Ctx) : Prop where
  datagram : x'.datagram = x.datagram
  all : ∀ e ∈ es, ∃ m, e.1 = .msg m ∧ letterOf m = .helloRetryRequest
  made : ∃ st c0 x0 a0, st.next E x0 c0 = .ok (w, a0, x') ∧ x0.datagram = x.datagram ∧
    ((es = [] ∧ st = { cfg := cfg } ∧ sent acts = [w.clientHello]) ∨
      Nonempty (Retried E x cfg (received es) (sent acts) st w.clientHello))

theorem retry_letter {m : Msg} {sh : ServerHello} {n : Nat} (ht : m.msgType = typeServerHello)
    (hd : ServerHello.unmarshal m.body = .ok (sh, n)) (hr : sh.random.1 = hrrRandom) : letterOf m = .helloRetryRequest := by
  simp [letterOf, show m.msgType = 2 from ht, hd, hr]

theorem atSH {E : Env} {x : Ctx} {cfg : Config} {c : Coins} {es : List (Event × Coins)} {w : CWaitSH}
    {acts : List Action} {x' : Ctx} (h : clientRun E x cfg c es = .ok (.waitSH w, acts, x')) : AtSH E x cfg es w acts x' := by
  have := clientRun_induct (cfg := cfg)
    (fun es s acts x' => ∀ w, s = .waitSH w → AtSH E x cfg es w acts x') ?_ ?_ h
  · exact this w rfl
  · rintro w a x1 h w' ⟨⟩
    exact ⟨CStart.next_datagram h, by simp, _, c, x, a, h, rfl, Or.inl ⟨rfl, rfl, (CStart.next_sent h).1⟩⟩
  · intro es s acts x1 e ce s' acts' x2 ih hst w' hw'
    subst hw'
    cases hst with
    | retry w m hrr st _ acts2 _ check random handle start =>
      have hI := ih w rfl
      obtain ⟨ht, ⟨n, hd⟩, _, hvs, hsu⟩ := checkHello_ok check
      obtain ⟨ck, p, hck, hlen, hp, rfl⟩ := handleRetry_ok handle
      refine ⟨(CStart.next_datagram start).trans hI.datagram, ?_, _, ce, x1, _, start, hI.datagram, Or.inr ?_⟩
      · intro e he
        rcases List.mem_append.1 he with he | he
        · exact hI.all e he
        · rw [List.mem_singleton] at he
          subst he
          exact ⟨m, rfl, retry_letter ht hd random⟩
      · obtain ⟨st0, c0, x0, a0, hst0, hx0, hcase⟩ := hI.made
        obtain ⟨hs0, hcfg0, _, _⟩ := CStart.next_sent hst0
        have hrec : received (es ++ [(Event.msg m, ce)]) = received es ++ [m] := by rw [received_append]; rfl
        have hsent : sent (acts ++ ([.resetOut 1] ++ acts2)) = sent acts ++ [w'.clientHello] := by
          rw [sent_append, sent_append, (CStart.next_sent start).1]; rfl
        rcases hcase with ⟨rfl, rfl, hsa⟩ | hR
        · rw [hcfg0] at hsu ⊢
          exact ⟨{
            pre := [], hrr := m, prevHellos := [], ch := w.clientHello, body := hrr, p := p, cookie := ck,
            rs_eq := by rw [hrec]; rfl, hs_eq := by rw [hsent, hsa]; rfl, same := rfl, type := ht, decodes := ⟨n, hd⟩,
            random := random, suite := hp, offered := hsu, cookieOk := hck, versionOk := hvs, two := hlen,
            st_eq := by rw [bytes_congr hI.datagram] }⟩
        · obtain ⟨⟨pre, hrr0, ph, ch, body, p0, ck0, rs_eq, hs_eq, same, _, _, _, _, off, _, _, _, rfl⟩⟩ := hR
          rw [hcfg0] at hsu ⊢
          have hsuite : hrr.suite = body.suite := by simpa using hsu
          exact ⟨{
            pre := pre ++ [hrr0], hrr := m, prevHellos := ph ++ [ch], ch := w.clientHello, body := hrr,
            p := p, cookie := ck, rs_eq := by rw [hrec, rs_eq], hs_eq := by rw [hsent, hs_eq]; simp,
            same := by simp [same], type := ht, decodes := ⟨n, hd⟩, random := random, suite := hp,
            offered := by rw [hsuite]; exact off, cookieOk := hck, versionOk := hvs, two := hlen,
            st_eq := by rw [bytes_congr hI.datagram] }⟩
    | ee _ _ _ _ _ next =>
      obtain ⟨_, _, _, _, _, _, _, _, _, ⟨_, h⟩ | ⟨_, h⟩⟩ := CWaitEE.next_ok next <;> cases h
    | certCR _ _ _ _ _ next =>
      obtain ⟨_, _, ⟨_, _, _, h⟩ | ⟨_, _, _, _, h⟩⟩ := CWaitEE.nextCertCR_ok next <;> cases h
    | cert _ _ _ _ _ next => obtain ⟨_, _, _, _, _, h⟩ := CWaitCert.next_ok next; cases h
    | cv _ _ _ _ _ next => obtain ⟨_, _, _, _, _, _, _, _, _, _, h⟩ := CWaitCV.next_ok next; cases h
    | finished _ _ _ _ _ next =>
      obtain ⟨_, _, _, _, _, _, _, _, _, _, _, _, _, _, _, _, _, _, _, _, _, _, _, _, _, _, h, _⟩ := CWaitFinished.next_ok next
      cases h

/-! ### Waiting for EncryptedExtensions -/

/-- What is known when a client waits for EncryptedExtensions. -/
structure AtEE (E : Env) (x : Ctx) (cfg : Config) (c : Coins) (es : List (Event × Coins)) (e : CWaitEE)
    (acts : List Action) (x' : Ctx) where
  es0 : List (Event × Coins)
  w : CWaitSH
  a0 : List Action
  x0 : Ctx
  m : Msg
  ce : Coins
  sh : ServerHello
  found : List ExtBody
  usingDH : Bool
  dh : Option Bytes
  p : Params
  hs : HsSecrets
  es_eq : es = es0 ++ [(.msg m, ce)]
  run0 : clientRun E x cfg c es0 = .ok (.waitSH w, a0, x0)
  atSH : AtSH E x cfg es0 w a0 x0
  type : m.msgType = typeServerHello
  decodes : ∃ n, ServerHello.unmarshal m.body = .ok (sh, n)
  legacyVersion : sh.version = tls12Version
  version : ∃ k vs, findExt (.supportedVersions typeServerHello) sh.exts = .ok (some (.supportedVersions k (tls13Version :: vs)))
  suiteOffered : sh.suite ∈ w.cfg.suites
  notRetry : sh.random.1 ≠ hrrRandom
  parsed : parseExts sh.exts [.preSharedKey typeServerHello, .keyShare typeServerHello] = .ok found
  dhOk : clientDH E w (findShares found) = .ok (usingDH, dh)
  suite : suiteParams sh.suite.toNat = some p
  hsOk : hsSecrets E.P p.hash
        (if pskSelected found then w.earlySecret else hkdfExtract E.P p.hash (some (zeros p.hash)) (zeros p.hash)) dh
        (hashMsgBytes w.firstHello ++ x.bytesOpt w.retry ++ x.bytes w.clientHello ++ x.bytes m) = .ok hs
  e_eq : e = ⟨w.cfg, { w.params with usingPSK := pskSelected found, usingDH := usingDH, suite := sh.suite },
        ⟨p, hashMsgBytes w.firstHello ++ x.bytesOpt w.retry ++ x.bytes w.clientHello ++ x.bytes m, hs⟩⟩
  sent_eq : sent acts = sent a0
  ctx : x' = x0

theorem bytesOpt_congr {x y : Ctx} (h : x.datagram = y.datagram) (m : Option Msg) : x.bytesOpt m = y.bytesOpt m := by
  cases m <;> simp [Ctx.bytesOpt, bytes_congr h]

theorem sent_rekey (k : Nat) (ks : Keys) : sent [.rekeyOut k ks] = [] := rfl

theorem atEE {E : Env} {x : Ctx} {cfg : Config} {c : Coins} {es : List (Event × Coins)} {e : CWaitEE}
    {acts : List Action} {x' : Ctx} (h : clientRun E x cfg c es = .ok (.waitEE e, acts, x')) :
    Nonempty (AtEE E x cfg c es e acts x') := by
  rcases clientRun_cases h with ⟨_, w, h, _⟩ | ⟨es0, ev, ce, s0, a0, x0, a1, rfl, h0, hst, rfl⟩
  · cases h
  · cases hst with
    | hello w m sh _ _ _ check random handle =>
      obtain ⟨ht, hd, hv, hver, hsu⟩ := checkHello_ok check
      obtain ⟨found, usingDH, dhs, p, hs, sk, ck, h1, h2, h3, h4, _, _, rfl, rfl, rfl⟩ := handleHello_ok handle
      have hx := clientRun_datagram h0
      simp only [bytes_congr hx, bytesOpt_congr hx] at h4 ⊢
      exact ⟨{
        es0 := es0, w := w, a0 := a0, x0 := _, m := m, ce := ce, sh := sh, found := found, usingDH := usingDH, dh := dhs,
        p := p, hs := hs, es_eq := rfl, run0 := h0, atSH := Machine.atSH h0, type := ht, decodes := hd, legacyVersion := hv,
        version := hver, suiteOffered := hsu, notRetry := random, parsed := h1, dhOk := h2, suite := h3, hsOk := h4,
        e_eq := rfl, sent_eq := by rw [sent_append]; split <;> simp [sent], ctx := rfl }⟩
    | ee _ _ _ _ _ next =>
      obtain ⟨_, _, _, _, _, _, _, _, _, ⟨_, h⟩ | ⟨_, h⟩⟩ := CWaitEE.next_ok next <;> cases h
    | certCR _ _ _ _ _ next =>
      obtain ⟨_, _, ⟨_, _, _, h⟩ | ⟨_, _, _, _, h⟩⟩ := CWaitEE.nextCertCR_ok next <;> cases h
    | cert _ _ _ _ _ next => obtain ⟨_, _, _, _, _, h⟩ := CWaitCert.next_ok next; cases h
    | cv _ _ _ _ _ next => obtain ⟨_, _, _, _, _, _, _, _, _, _, h⟩ := CWaitCV.next_ok next; cases h
    | finished _ _ _ _ _ next =>
      obtain ⟨_, _, _, _, _, _, _, _, _, _, _, _, _, _, _, _, _, _, _, _, _, _, _, _, _, _, h, _⟩ := CWaitFinished.next_ok next
      cases h

/-! ### After EncryptedExtensions -/

/-- What is known once EncryptedExtensions is read and a certificate is expected. -/
structure AtCertCR (E : Env) (x : Ctx) (cfg : Config) (c : Coins) (es : List (Event × Coins)) (s : CWaitEE)
    (acts : List Action) (x' : Ctx) where
  es0 : List (Event × Coins)
  e : CWaitEE
  a0 : List Action
  at0 : AtEE E x cfg c es0 e a0 x'
  m : Msg
  ce : Coins
  exts : List Ext
  found : List ExtBody
  es_eq : es = es0 ++ [(.msg m, ce)]
  type : m.msgType = typeEncryptedExtensions
  decodes : safeUnmarshal unmarshalEE m.body = .ok exts
  parsed : parseExts exts [.alpn, .earlyData] = .ok found
  noPsk : e.params.usingPSK = false
  s_eq : s = ⟨e.cfg, eeParams e.params found, e.sec.add (x.bytes m)⟩
  sent_eq : sent acts = sent a0

theorem sent_ee {b : Bool} {a0 : List Action} {keys : Keys} :
    sent (a0 ++ if b then [.rekeyOut epochHandshake keys] else []) = sent a0 := by
  rw [sent_append]; split <;> simp [sent]

theorem atCertCR {E : Env} {x : Ctx} {cfg : Config} {c : Coins} {es : List (Event × Coins)} {s : CWaitEE}
    {acts : List Action} {x' : Ctx} (h : clientRun E x cfg c es = .ok (.waitCertCR s, acts, x')) :
    Nonempty (AtCertCR E x cfg c es s acts x') := by
  rcases clientRun_cases h with ⟨_, w, h, _⟩ | ⟨es0, ev, ce, s0, a0, x0, a1, rfl, h0, hst, rfl⟩
  · cases h
  · cases hst with
    | ee e m _ _ _ next =>
      obtain ⟨ht, exts, found, keys, h1, h2, _, rfl, rfl, ⟨_, h⟩ | ⟨hp, h⟩⟩ := CWaitEE.next_ok next
      · cases h
      · cases h
        obtain ⟨at0⟩ := atEE h0
        exact ⟨{
          es0 := es0, e := e, a0 := a0, at0 := at0, m := m, ce := ce, exts := exts, found := found, es_eq := rfl,
          type := ht, decodes := h1, parsed := h2, noPsk := hp, s_eq := by rw [bytes_congr (clientRun_datagram h0)],
          sent_eq := sent_ee }⟩
    | certCR _ _ _ _ _ next =>
      obtain ⟨_, _, ⟨_, _, _, h⟩ | ⟨_, _, _, _, h⟩⟩ := CWaitEE.nextCertCR_ok next <;> cases h
    | cert _ _ _ _ _ next => obtain ⟨_, _, _, _, _, h⟩ := CWaitCert.next_ok next; cases h
    | cv _ _ _ _ _ next => obtain ⟨_, _, _, _, _, _, _, _, _, _, h⟩ := CWaitCV.next_ok next; cases h
    | finished _ _ _ _ _ next =>
      obtain ⟨_, _, _, _, _, _, _, _, _, _, _, _, _, _, _, _, _, _, _, _, _, _, _, _, _, _, h, _⟩ := CWaitFinished.next_ok next
      cases h

/-- What is known once a CertificateRequest is read. -/
structure AtCert (E : Env) (x : Ctx) (cfg : Config) (c : Coins) (es : List (Event × Coins)) (s : CWaitCert)
    (acts : List Action) (x' : Ctx) where
  es0 : List (Event × Coins)
  s0 : CWaitEE
  a0 : List Action
  at0 : AtCertCR E x cfg c es0 s0 a0 x'
  m : Msg
  ce : Coins
  es_eq : es = es0 ++ [(.msg m, ce)]
  type : m.msgType = typeCertificateRequest
  decodes : toBody E.parses m.msgType m.body = .ok (.certificateRequest s.request)
  s_eq : s = ⟨s0.cfg, { s0.params with usingClientAuth := true }, s0.sec.add (x.bytes m), s.request⟩
  sent_eq : sent acts = sent a0

theorem atCert {E : Env} {x : Ctx} {cfg : Config} {c : Coins} {es : List (Event × Coins)} {s : CWaitCert}
    {acts : List Action} {x' : Ctx} (h : clientRun E x cfg c es = .ok (.waitCert s, acts, x')) :
    Nonempty (AtCert E x cfg c es s acts x') := by
  rcases clientRun_cases h with ⟨_, w, h, _⟩ | ⟨es0, ev, ce, s0, a0, x0, a1, rfl, h0, hst, rfl⟩
  · cases h
  · cases hst with
    | ee e m _ _ _ next =>
      obtain ⟨ht, exts, found, keys, h1, h2, _, rfl, rfl, ⟨_, h⟩ | ⟨hp, h⟩⟩ := CWaitEE.next_ok next <;> cases h
    | certCR s0 m _ _ _ next =>
      obtain ⟨rfl, rfl, ⟨_, _, _, h⟩ | ⟨r, ht, hd, hctx, h⟩⟩ := CWaitEE.nextCertCR_ok next
      · cases h
      · cases h
        obtain ⟨at0⟩ := atCertCR h0
        exact ⟨{
          es0 := es0, s0 := s0, a0 := a0, at0 := at0, m := m, ce := ce, es_eq := rfl, type := ht, decodes := hd,
          s_eq := by rw [bytes_congr (clientRun_datagram h0)], sent_eq := by simp }⟩
    | cert _ _ _ _ _ next => obtain ⟨_, _, _, _, _, h⟩ := CWaitCert.next_ok next; cases h
    | cv _ _ _ _ _ next => obtain ⟨_, _, _, _, _, _, _, _, _, _, h⟩ := CWaitCV.next_ok next; cases h
    | finished _ _ _ _ _ next =>
      obtain ⟨_, _, _, _, _, _, _, _, _, _, _, _, _, _, _, _, _, _, _, _, _, _, _, _, _, _, h, _⟩ := CWaitFinished.next_ok next
      cases h

/-- What is known once the server's certificate is read: possibly after a request. -/
structure AtCV (E : Env) (x : Ctx) (cfg : Config) (c : Coins) (es : List (Event × Coins)) (s : CWaitCV)
    (acts : List Action) (x' : Ctx) where
  es0 : List (Event × Coins)
  s0 : CWaitEE
  a0 : List Action
  at0 : AtCertCR E x cfg c es0 s0 a0 x'
  req : List (Msg × Coins)
  m : Msg
  ce : Coins
  es_eq : es = es0 ++ (req.map fun r => (Event.msg r.1, r.2)) ++ [(.msg m, ce)]
  reqOk : (req = [] ∧ s.request = none ∧ s.params = s0.params) ∨
    (∃ mr cr r, req = [(mr, cr)] ∧ s.request = some r ∧ mr.msgType = typeCertificateRequest ∧
      toBody E.parses mr.msgType mr.body = .ok (.certificateRequest r) ∧ s.params = { s0.params with usingClientAuth := true })
  type : m.msgType = typeCertificate
  decodes : safeUnmarshal (CertificateMsg.unmarshal E.parses) m.body = .ok s.cert
  cfg_eq : s.cfg = s0.cfg
  sec : s.sec = s0.sec.add (wire x.datagram (req.map (·.1)) ++ x.bytes m)
  sent_eq : sent acts = sent a0

theorem atCV {E : Env} {x : Ctx} {cfg : Config} {c : Coins} {es : List (Event × Coins)} {s : CWaitCV}
    {acts : List Action} {x' : Ctx} (h : clientRun E x cfg c es = .ok (.waitCV s, acts, x')) :
    Nonempty (AtCV E x cfg c es s acts x') := by
  rcases clientRun_cases h with ⟨_, w, h, _⟩ | ⟨es0, ev, ce, s0, a0, x0, a1, rfl, h0, hst, rfl⟩
  · cases h
  · have hx := clientRun_datagram h0
    cases hst with
    | ee e m _ _ _ next =>
      obtain ⟨ht, exts, found, keys, h1, h2, _, rfl, rfl, ⟨_, h⟩ | ⟨hp, h⟩⟩ := CWaitEE.next_ok next <;> cases h
    | certCR s0 m _ _ _ next =>
      obtain ⟨rfl, rfl, ⟨cm, ht, hd, h⟩ | ⟨r, ht, hd, hctx, h⟩⟩ := CWaitEE.nextCertCR_ok next
      · cases h
        obtain ⟨at0⟩ := atCertCR h0
        rw [ht] at hd
        exact ⟨{
          es0 := es0, s0 := s0, a0 := a0, at0 := at0, req := [], m := m, ce := ce, es_eq := by simp,
          reqOk := Or.inl ⟨rfl, rfl, rfl⟩, type := ht, decodes := toBody_certificate' hd, cfg_eq := rfl,
          sec := by simp [wire, bytes_congr hx], sent_eq := by simp }⟩
      · cases h
    | cert s0 m _ _ _ next =>
      obtain ⟨ht, rfl, rfl, cm, hd, h⟩ := CWaitCert.next_ok next
      cases h
      obtain ⟨⟨es00, s00, a00, at0, mr, cr, rfl, tyr, decr, s_eq, sent_eq⟩⟩ := atCert h0
      exact ⟨{
        es0 := es00, s0 := s00, a0 := a00, at0 := at0, req := [(mr, cr)], m := m, ce := ce, es_eq := by simp,
        reqOk := Or.inr ⟨_, _, _, rfl, rfl, tyr, decr, by rw [s_eq]⟩,
        type := ht, decodes := hd, cfg_eq := by rw [s_eq],
        sec := by rw [s_eq]; simp [CSecrets.add, wire, Ctx.bytes, hx],
        sent_eq := by rw [← sent_eq]; simp }⟩
    | cv _ _ _ _ _ next => obtain ⟨_, _, _, _, _, _, _, _, _, _, h⟩ := CWaitCV.next_ok next; cases h
    | finished _ _ _ _ _ next =>
      obtain ⟨_, _, _, _, _, _, _, _, _, _, _, _, _, _, _, _, _, _, _, _, _, _, _, _, _, _, h, _⟩ := CWaitFinished.next_ok next
      cases h

/-- How the server was authenticated by the messages `auth` between EncryptedExtensions and Finished: `t` is the transcript
up to EncryptedExtensions. -/
inductive Authenticated (E : Env) (x : Ctx) (cfg : Config) (h : HashId) (t : Bytes) (usingPSK : Bool)
    (auth : List (Msg × Coins)) (s : CWaitFinished) (usingClientAuth : Bool) : Prop where
  | psk (using_ : usingPSK = true) (none_ : auth = []) (certs : s.peerCerts = []) (chains : s.chains = [])
      (req : s.request = none) (noAuth : usingClientAuth = false)
  | cert (using_ : usingPSK = false) (req : List (Msg × Coins)) (mcert : Msg) (c1 : Coins) (mcv : Msg) (c2 : Coins)
      (auth_eq : auth = req ++ [(mcert, c1), (mcv, c2)])
      (reqOk : (req = [] ∧ s.request = none ∧ usingClientAuth = false) ∨
        (∃ mr cr r, req = [(mr, cr)] ∧ s.request = some r ∧ mr.msgType = typeCertificateRequest ∧
          toBody E.parses mr.msgType mr.body = .ok (.certificateRequest r) ∧ usingClientAuth = true))
      (certType : mcert.msgType = typeCertificate) (cm : CertificateMsg)
      (certOk : safeUnmarshal (CertificateMsg.unmarshal E.parses) mcert.body = .ok cm)
      (cvType : mcv.msgType = typeCertificateVerify) (cv : CertVerify) (pub : PubKey)
      (cvOk : safeUnmarshal CertVerify.unmarshal mcv.body = .ok cv) (leaf : leafKey E cm = .ok pub)
      (verified : cv.verify E.P E.S pub
        (E.P.hash h (t ++ wire x.datagram (req.map (·.1)) ++ x.bytes mcert)) = true)
      (certs : s.peerCerts = cm.list.map (·.1)) (accepted : chainAccepted cfg c2.now s.peerCerts s.chains)

/-- What is known when a client waits for the server's Finished. -/
structure AtFinished (E : Env) (x : Ctx) (cfg : Config) (c : Coins) (es : List (Event × Coins)) (s : CWaitFinished)
    (acts : List Action) (x' : Ctx) where
  es0 : List (Event × Coins)
  e : CWaitEE
  a0 : List Action
  at0 : AtEE E x cfg c es0 e a0 x'
  m : Msg
  ce : Coins
  exts : List Ext
  found : List ExtBody
  auth : List (Msg × Coins)
  clientAuth : Bool
  es_eq : es = es0 ++ [(.msg m, ce)] ++ (auth.map fun r => (Event.msg r.1, r.2))
  type : m.msgType = typeEncryptedExtensions
  decodes : safeUnmarshal unmarshalEE m.body = .ok exts
  parsed : parseExts exts [.alpn, .earlyData] = .ok found
  params : s.params = { eeParams e.params found with usingClientAuth := clientAuth }
  sec : s.sec = e.sec.add (x.bytes m ++ wire x.datagram (auth.map (·.1)))
  certificates : s.certificates = e.cfg.certificates
  authOk : Authenticated E x e.cfg e.sec.cp.hash (e.sec.transcript ++ x.bytes m) e.params.usingPSK auth s clientAuth
  sent_eq : sent acts = sent a0

theorem AtEE.noAuth {E : Env} {x : Ctx} {cfg : Config} {c : Coins} {es : List (Event × Coins)} {e : CWaitEE}
    {acts : List Action} {x' : Ctx} (a : AtEE E x cfg c es e acts x') : e.params.usingClientAuth = false := by
  obtain ⟨st, c0, x0, a0, h, _⟩ := a.atSH.made
  rw [a.e_eq]
  obtain ⟨_, _, _, _, _, _, ⟨psk, o, _, h1, hw, _, _⟩ | ⟨_, _, h1, hw, _⟩⟩ := CStart.next_ok h <;> simp [hw]

theorem atFinished {E : Env} {x : Ctx} {cfg : Config} {c : Coins} {es : List (Event × Coins)} {s : CWaitFinished}
    {acts : List Action} {x' : Ctx} (h : clientRun E x cfg c es = .ok (.waitFinished s, acts, x')) :
    Nonempty (AtFinished E x cfg c es s acts x') := by
  rcases clientRun_cases h with ⟨_, w, h, _⟩ | ⟨es0, ev, ce, s0, a0, x0, a1, rfl, h0, hst, rfl⟩
  · cases h
  · have hx := clientRun_datagram h0
    cases hst with
    | ee e m _ _ _ next =>
      obtain ⟨ht, exts, found, keys, h1, h2, _, rfl, rfl, ⟨hp, h⟩ | ⟨hp, h⟩⟩ := CWaitEE.next_ok next
      · cases h
        obtain ⟨at0⟩ := atEE h0
        have hna := at0.noAuth
        exact ⟨{
          es0 := es0, e := e, a0 := a0, at0 := at0, m := m, ce := ce, exts := exts, found := found, auth := [],
          clientAuth := false, es_eq := by simp, type := ht, decodes := h1, parsed := h2,
          params := by simp [eeParams, ← hna], sec := by simp [bytes_congr hx, wire], certificates := rfl,
          authOk := .psk hp rfl rfl rfl rfl rfl, sent_eq := sent_ee }⟩
      · cases h
    | certCR s0 m _ _ _ next =>
      obtain ⟨rfl, rfl, ⟨cm, ht, hd, h⟩ | ⟨r, ht, hd, hctx, h⟩⟩ := CWaitEE.nextCertCR_ok next <;> cases h
    | cert _ _ _ _ _ next => obtain ⟨_, _, _, _, _, h⟩ := CWaitCert.next_ok next; cases h
    | cv s0 m _ _ _ next =>
      obtain ⟨ht, rfl, rfl, cv, pub, chains, hd, hl, hv, hch, h⟩ := CWaitCV.next_ok next
      cases h
      obtain ⟨⟨es0', s0', a0', ⟨es00, e, a00, at0, m1, ce1, exts, found, rfl, ty1, dec1, par1, hp1, rfl, sent1⟩, req, m2, ce2,
        rfl, reqOk, ty2, dec2, cfg2, sec2, sent2⟩⟩ := atCV h0
      have hna := at0.noAuth
      refine ⟨{
        es0 := es00, e := e, a0 := a00, at0 := at0, m := m1, ce := ce1, exts := exts, found := found,
        auth := req ++ [(m2, ce2), (m, ce)], clientAuth := s0.params.usingClientAuth, es_eq := by simp, type := ty1,
        decodes := dec1, parsed := par1, params := ?_, sec := ?_, certificates := by rw [cfg2],
        authOk := ?_, sent_eq := by rw [List.append_nil, sent2, sent1] }⟩
      · rcases reqOk with ⟨_, _, hp⟩ | ⟨_, _, _, _, _, _, _, hp⟩ <;> simp [hp]
      · simp [sec2, CSecrets.add, hx, wire, Ctx.bytes]
      · refine .cert hp1 req m2 ce2 m ce rfl ?_ ty2 s0.cert dec2 ht cv pub hd hl ?_ rfl ?_
        · rcases reqOk with ⟨h1, h2, hp⟩ | ⟨mr, cr, r, h1, h2, h3, h4, hp⟩
          · exact Or.inl ⟨h1, h2, by rw [hp]; exact hna⟩
          · exact Or.inr ⟨mr, cr, r, h1, h2, h3, h4, by rw [hp]⟩
        · simpa [sec2, CSecrets.add] using hv
        · rw [cfg2] at hch; exact hch
    | finished _ _ _ _ _ next =>
      obtain ⟨_, _, _, _, _, _, _, _, _, _, _, _, _, _, _, _, _, _, _, _, _, _, _, _, _, _, h, _⟩ := CWaitFinished.next_ok next
      cases h

/-! ### Connected -/

/-- What is known when a client is connected: how it got there, and what happened since. -/
structure AtConnected (E : Env) (x : Ctx) (cfg : Config) (c : Coins) (es : List (Event × Coins)) (s : Connected)
    (acts : List Action) (x' : Ctx) where
  es0 : List (Event × Coins)
  wf : CWaitFinished
  a0 : List Action
  x0 : Ctx
  run0 : clientRun E x cfg c es0 = .ok (.waitFinished wf, a0, x0)
  at0 : AtFinished E x cfg c es0 wf a0 x0
  m : Msg
  ce : Coins
  s0 : Connected
  a1 : List Action
  x1 : Ctx
  next : wf.next E x0 m = .ok (.connected s0, a1, x1)
  post : List (Event × Coins)
  a2 : List Action
  es_eq : es = es0 ++ [(.msg m, ce)] ++ post
  acts_eq : acts = a0 ++ a1 ++ a2
  rest : (CState.connected s0).run E x1 post = .ok (.connected s, a2, x')

theorem CState.run_ok_snoc {E : Env} {es : List (Event × Coins)} {e : Event} {c : Coins} {x x1 x' : Ctx} {s s1 s' : CState}
    {a1 a2 : List Action} (h : s.run E x es = .ok (s1, a1, x1)) (hst : s1.step E x1 c e = .ok (s', a2, x')) :
    s.run E x (es ++ [(e, c)]) = .ok (s', a1 ++ a2, x') := by
  rw [CState.run_append, h]
  simp [CState.run, hst]

theorem CStep.step {E : Env} {x x' : Ctx} {c : Coins} {s s' : Connected} {e : Event} {acts : List Action}
    (h : CStep E x c (.connected s) e (.connected s') acts x') :
    (CState.connected s).step E x c e = .ok (.connected s', acts, x') := by
  cases h with
  | post _ m _ _ _ next => simp [CState.step, next]
  | data => rfl

theorem atConnected {E : Env} {x : Ctx} {cfg : Config} {c : Coins} {es : List (Event × Coins)} {s : Connected}
    {acts : List Action} {x' : Ctx} (h : clientRun E x cfg c es = .ok (.connected s, acts, x')) :
    Nonempty (AtConnected E x cfg c es s acts x') := by
  have := clientRun_induct (cfg := cfg) (c := c)
    (fun es s acts x' => clientRun E x cfg c es = .ok (s, acts, x') ∧
      ∀ s1, s = .connected s1 → Nonempty (AtConnected E x cfg c es s1 acts x')) ?_ ?_ h
  · exact this.2 s rfl
  · intro w a x1 h
    exact ⟨by simp [clientRun, h, CState.run], by rintro _ ⟨⟩⟩
  · rintro es s acts x1 e ce s' acts' x2 ⟨hrun, ih⟩ hst
    constructor
    · simp only [clientRun, Res.bind_eq_ok, Res.ok.injEq, Prod.mk.injEq] at hrun ⊢
      obtain ⟨⟨w, a0, x0⟩, h0, ⟨s1, a1, x3⟩, h1, rfl, rfl, rfl⟩ := hrun
      refine ⟨(w, a0, x0), h0, (s', a1 ++ acts', x2), CState.run_ok_snoc h1 ?_, rfl, by simp, rfl⟩
      cases hst with
      | retry w m hrr st _ acts2 _ check random handle start => simp [CState.step, CWaitSH.next, check, random, handle, start]
      | hello w m sh e acts x' check random handle => simp [CState.step, CWaitSH.next, check, random, handle]
      | ee _ _ _ _ _ next => exact next
      | certCR _ _ _ _ _ next => exact next
      | cert _ _ _ _ _ next => exact next
      | cv _ _ _ _ _ next => exact next
      | finished _ _ _ _ _ next => exact next
      | post _ _ _ _ _ next => simp [CState.step, next]
      | data => rfl
    · rintro s1 rfl
      cases hst with
      | ee _ _ _ _ _ next =>
        obtain ⟨_, _, _, _, _, _, _, _, _, ⟨_, h⟩ | ⟨_, h⟩⟩ := CWaitEE.next_ok next <;> cases h
      | certCR _ _ _ _ _ next =>
        obtain ⟨_, _, ⟨_, _, _, h⟩ | ⟨_, _, _, _, h⟩⟩ := CWaitEE.nextCertCR_ok next <;> cases h
      | cert _ _ _ _ _ next => obtain ⟨_, _, _, _, _, h⟩ := CWaitCert.next_ok next; cases h
      | cv _ _ _ _ _ next => obtain ⟨_, _, _, _, _, _, _, _, _, _, h⟩ := CWaitCV.next_ok next; cases h
      | finished wf m _ _ _ next =>
        obtain ⟨at0⟩ := atFinished hrun
        exact ⟨{
          es0 := es, wf := wf, a0 := acts, x0 := x1, run0 := hrun, at0 := at0, m := m, ce := ce, s0 := s1, a1 := acts', x1 := x2,
          next := next, post := [], a2 := [], es_eq := by simp, acts_eq := by simp, rest := rfl }⟩
      | post s0 m _ _ _ next =>
        obtain ⟨a⟩ := ih s0 rfl
        exact ⟨{ a with
          post := a.post ++ [(.msg m, ce)], a2 := a.a2 ++ acts', es_eq := (congrArg (· ++ [(Event.msg m, ce)]) a.es_eq).trans (by simp),
          acts_eq := (congrArg (· ++ acts') a.acts_eq).trans (by simp),
          rest := CState.run_ok_snoc a.rest (CStep.step (.post _ _ _ _ _ next)) }⟩
      | data s0 d =>
        obtain ⟨a⟩ := ih s1 rfl
        exact ⟨{ a with
          post := a.post ++ [(.appData d, ce)], a2 := a.a2 ++ [], es_eq := (congrArg (· ++ [(Event.appData d, ce)]) a.es_eq).trans (by simp),
          acts_eq := (congrArg (· ++ []) a.acts_eq).trans (by simp),
          rest := CState.run_ok_snoc a.rest rfl }⟩

end Verif.Machine

import Verif.Machine.Alerts
import Verif.Machine.Toy
import Verif.Conn.Handshake

/-
C76: the alert with which a handshake fails is the one RFC 8446 names for the reason.
-/

namespace Verif.Props

open Verif Verif.Crypto Verif.Messages Verif.Negotiation Verif.Handshake Verif.Machine Verif.Spec

/-- **C76.** The numbers of the alerts are those of RFC 8446. -/
theorem C76_numbers :
    Alert.closeNotify = AlertName.closeNotify.number ∧ Alert.unexpectedMessage = AlertName.unexpectedMessage.number ∧
    Alert.badRecordMAC = AlertName.badRecordMac.number ∧ Alert.handshakeFailure = AlertName.handshakeFailure.number ∧
    Alert.badCertificate = AlertName.badCertificate.number ∧ Alert.illegalParameter = AlertName.illegalParameter.number ∧
    Alert.accessDenied = AlertName.accessDenied.number ∧ Alert.decodeError = AlertName.decodeError.number ∧
    Alert.decryptError = AlertName.decryptError.number ∧ Alert.protocolVersion = AlertName.protocolVersion.number ∧
    Alert.internalError = AlertName.internalError.number ∧ Alert.missingExtension = AlertName.missingExtension.number ∧
    Alert.noApplicationProtocol = AlertName.noApplicationProtocol.number := by
  refine ⟨?_, ?_, ?_, ?_, ?_, ?_, ?_, ?_, ?_, ?_, ?_, ?_, ?_⟩ <;> rfl

theorem serverHello_reads {bs : Bytes} {sh : ServerHello} {n : Nat} (h : ServerHello.unmarshal bs = .ok (sh, n)) :
    ∃ extra, bs = messageBody (.serverHello sh) ++ extra ∧ MessageFits (.serverHello sh) := by
  simp only [ServerHello.unmarshal, Res.bind_eq_ok] at h
  obtain ⟨⟨⟨v, r, sid, cs, comp, el, _⟩, n'⟩, h1, h2⟩ := h
  simp only [Res.ok.injEq, Prod.mk.injEq] at h2
  obtain ⟨rfl, rfl⟩ := h2
  obtain ⟨h3, h4⟩ := Syntax.plain_canonical (t := shTy) (by decide) h1
  rw [Syntax.marshal_iff (by decide) (by decide), sh_iff, sh_wire] at h3
  exact ⟨bs.drop n', by rw [messageBody, ← h3.2, List.take_append_drop], h3.1⟩

theorem findExt_none {k : ExtKind} : ∀ {el : List Ext}, findExt k el = .ok none → dataOf k.type el = []
  | [], _ => rfl
  | x :: el, h => by
    unfold findExt at h
    split at h
    · simp [Res.bind_eq_ok] at h
    · rename_i hx
      rw [show dataOf k.type (x :: el) = dataOf k.type el by simp [dataOf, hx]]
      exact findExt_none h

theorem findExt_some {k : ExtKind} {b : ExtBody} : ∀ {el : List Ext}, findExt k el = .ok (some b) →
    ∃ d ds, dataOf k.type el = d :: ds ∧ safeUnmarshal k.unmarshal d = .ok b
  | [], h => by cases h
  | x :: el, h => by
    unfold findExt at h
    split at h
    · rename_i hx
      simp only [Res.bind_eq_ok, Res.ok.injEq, Option.some.injEq] at h
      obtain ⟨b', h1, rfl⟩ := h
      exact ⟨x.2.1, dataOf k.type el, by simp [dataOf, hx], h1⟩
    · rename_i hx
      rw [show dataOf k.type (x :: el) = dataOf k.type el by simp [dataOf, hx]]
      exact findExt_some h

/-- **C76.** Why a client refuses a ServerHello or a HelloRetryRequest. -/
theorem C76_server_hello_refused_partial {E : Env} {x : Ctx} {s : CWaitSH} {m : Msg} {a : Nat} (h : s.next E x m = .err (.alert a)) :
    (a = AlertName.unexpectedMessage.number ∧ (m.msgType.toNat ≠ 2 ∨ ¬ WellFormed x.datagram E.parses m)) ∨
    ∃ sh extra, m.body = messageBody (.serverHello sh) ++ extra ∧ MessageFits (.serverHello sh) ∧
      ((a = AlertName.illegalParameter.number ∧ sh.version ≠ 0x0303) ∨
       (a = AlertName.decodeError.number ∧ BadExtensions sh.exts answerKinds) ∨
       (a = AlertName.missingExtension.number ∧ dataOf 43 sh.exts = []) ∨
       (a = AlertName.protocolVersion.number ∧ ∃ v ds, dataOf 43 sh.exts = be16 v :: ds ∧ v ≠ 0x0304) ∨
       (a = AlertName.handshakeFailure.number ∧ (sh.suite ∉ s.cfg.suites ∨ suiteParams sh.suite.toNat = none)) ∨
       (a = AlertName.illegalParameter.number ∧ sh.random.1 = hrrRandom ∧ (dataOf 44 sh.exts = [] ∨ sh.exts.length ≠ 2)) ∨
       (a = AlertName.illegalParameter.number ∧ ∃ g key, Carries (.keyShare 2) sh.exts (.keyShare 2 0 [(g, key, ())]) ∧
          ∀ o ∈ s.offeredDH, o.1 ≠ g)) := by
  unfold CWaitSH.next checkHello at h
  by_cases ht : m.msgType ≠ typeServerHello
  · rw [if_pos ht] at h
    exact Or.inl ⟨alert_eq_err.1 h, Or.inl fun h1 => ht (UInt8.toNat_inj.1 h1)⟩
  rw [if_neg ht] at h
  rw [not_not] at ht
  cases hu : ServerHello.unmarshal m.body with
  | panic => rw [hu] at h; cases h
  | diverge => rw [hu] at h; cases h
  | err e =>
    rw [hu] at h
    refine Or.inl ⟨alert_eq_err.1 h, Or.inr (read_err (e := e) ?_)⟩
    rw [ht]
    show (safeUnmarshal ServerHello.unmarshal m.body).bind _ = _
    rw [safeUnmarshal, hu]
    rfl
  | ok r =>
    obtain ⟨sh, n⟩ := r
    obtain ⟨extra, he, hf⟩ := serverHello_reads hu
    rw [hu] at h
    refine Or.inr ⟨sh, extra, he, hf, ?_⟩
    by_cases hbad : a = AlertName.decodeError.number ∧ BadExtensions sh.exts answerKinds
    · exact Or.inr (Or.inl hbad)
    simp only [orAlert, Res.bind_ok] at h
    by_cases hv : sh.version ≠ tls12Version
    · rw [if_pos hv] at h
      exact Or.inl ⟨alert_eq_err.1 h, hv⟩
    rw [if_neg hv] at h
    right
    cases hv : findExt (.supportedVersions typeServerHello) sh.exts with
    | panic => rw [hv] at h; cases h
    | diverge => rw [hv] at h; cases h
    | err e =>
      rw [hv] at h
      exact absurd ⟨alert_eq_err.1 h, badExtensions_mono (by decide) (findExt_err hv)⟩ hbad
    | ok found =>
      rw [hv] at h
      right
      cases found with
      | none => exact Or.inl ⟨alert_eq_err.1 h, findExt_none hv⟩
      | some b =>
        right
        obtain ⟨d, ds, hd, hdu⟩ := findExt_some hv
        obtain ⟨v, rfl⟩ := serverVersions_one (safeUnmarshal_ok.1 hdu)
        simp only [Res.bind_ok] at h
        by_cases hv3 : v ≠ tls13Version
        · rw [if_pos hv3] at h
          refine Or.inl ⟨alert_eq_err.1 h, v, ds, ?_, hv3⟩
          obtain ⟨-, h2, -⟩ := C74_extension_only (by decide) hdu
          rw [show (43 : UInt16) = ExtKind.type (.supportedVersions typeServerHello) from rfl, hd, h2]
          simp [extensionData, show ¬ typeServerHello = 1 by decide]
        rw [if_neg hv3] at h
        right
        by_cases hs : (!s.cfg.suites.any (· == sh.suite)) = true
        · rw [if_pos hs] at h
          refine Or.inl ⟨alert_eq_err.1 h, Or.inl ?_⟩
          intro hm
          simp only [Bool.not_eq_true', List.any_eq_false, beq_iff_eq] at hs
          exact hs _ hm rfl
        rw [if_neg hs] at h
        simp only [Res.bind_ok] at h
        split at h
        · rename_i hr
          rw [bind_eq_err] at h
          rcases h with h | ⟨_, _, h⟩
          · unfold handleRetry at h
            rw [bind_eq_err, orAlert_eq_err, Err.alert.injEq] at h
            rcases h with ⟨h1, e, h2⟩ | ⟨found, h1, h2⟩
            · exact absurd ⟨h1, badExtensions_mono (by decide) (findExt_err h2)⟩ hbad
            · rw [orAlert_ok] at h1
              right
              left
              split at h2
              · split at h2
                · rename_i hl
                  exact ⟨alert_eq_err.1 h2, hr, Or.inr hl⟩
                · split at h2 <;> cases h2
              · cases h2
              · exact ⟨alert_eq_err.1 h2, hr, Or.inl (findExt_none h1)⟩
          · cases h
        · rename_i hr
          rw [bind_eq_err] at h
          rcases h with h | ⟨_, _, h⟩
          · unfold handleHello at h
            rw [bind_eq_err, orAlert_eq_err, Err.alert.injEq] at h
            rcases h with ⟨h1, e, h2⟩ | ⟨found, h1, h2⟩
            · exact absurd ⟨h1, badExtensions_mono (by decide) (parseExts_err (by decide) h2)⟩ hbad
            · rw [orAlert_ok] at h1
              dsimp only at h2
              rw [bind_eq_err] at h2
              rcases h2 with h2 | ⟨_, -, h2⟩
              · obtain ⟨ha, k, ks, hk, ho⟩ := keyAgreement_ne _ _ _ h2
                obtain ⟨b, ⟨d, hd, hu⟩, hkb, hb⟩ := found_carries (k := .keyShare typeServerHello) asShares (by decide) h1 (by simp)
                  (by intro b hb; cases b <;> simp [asShares] at hb; rfl) hk
                obtain ⟨⟨g, key, _⟩, rfl⟩ := serverShare_one hu
                simp only [asShares, Option.some.injEq, List.cons.injEq] at hb
                refine Or.inr (Or.inr ⟨ha, g, key, ⟨d, hd, hu⟩, ?_⟩)
                intro o hoo
                have := ho o hoo
                rwa [← hb.1] at this
              · split at h2
                · rename_i hp
                  exact Or.inl ⟨alert_eq_err.1 h2, Or.inr hp⟩
                · simp only [bind_eq_err, hsSecrets_noErr, makeTrafficKeys_noErr, reduceCtorEq, and_false, exists_false,
                    or_false, false_or] at h2
          · cases h

/-- **C76.** Why a client refuses EncryptedExtensions. -/
theorem C76_encrypted_extensions_refused {E : Env} {x : Ctx} {s : CWaitEE} {m : Msg} {a : Nat}
    (h : s.next E x m = .err (.alert a)) :
    (a = AlertName.unexpectedMessage.number ∧ m.msgType.toNat ≠ 8) ∨
    (a = AlertName.decodeError.number ∧ (¬ WellFormed x.datagram E.parses m ∨
      ∃ exts, Decodes x.datagram E.parses m (.encryptedExtensions exts) ∧ BadExtensions exts [.alpn, .earlyData])) := by
  unfold CWaitEE.next at h
  split at h
  · rename_i ht
    rw [alert_eq_err] at h
    exact Or.inl ⟨h, fun h1 => ht (UInt8.toNat_inj.1 h1)⟩
  · rename_i ht
    rw [not_not] at ht
    right
    have hr : readBody x.datagram E.parses m.msgType m.body =
        (safeUnmarshal unmarshalEE m.body).bind fun b => .ok (.encryptedExtensions b) := by rw [ht]; rfl
    rw [bind_eq_err, orAlert_eq_err, Err.alert.injEq] at h
    rcases h with ⟨h1, e, h2⟩ | ⟨exts, h1, h2⟩
    · exact ⟨h1, Or.inl (read_err (e := e) (by rw [hr, h2]; rfl))⟩
    · rw [orAlert_ok] at h1
      rw [h1] at hr
      rw [bind_eq_err, orAlert_eq_err, Err.alert.injEq] at h2
      rcases h2 with ⟨h3, e, h4⟩ | ⟨found, -, h4⟩
      · exact ⟨h3, Or.inr ⟨exts, read_decodes trivial hr, parseExts_err (by decide) h4⟩⟩
      · dsimp only at h4
        rw [bind_eq_err] at h4
        rcases h4 with h4 | ⟨_, -, h4⟩
        · exact absurd h4 (makeTrafficKeys_noErr _ _ _ _)
        · split at h4 <;> cases h4

/-- **C76.** Why a client refuses what comes after EncryptedExtensions. Missing: a message of an unknown type, or of a type
that is not expected here, is refused with decode_error if it does not decode. -/
theorem C76_certificate_request_refused_partial {E : Env} {x : Ctx} {s : CWaitEE} {m : Msg} {a : Nat}
    (h : s.nextCertCR E x m = .err (.alert a)) :
    (a = AlertName.unexpectedMessage.number ∧ m.msgType.toNat ≠ 11 ∧ m.msgType.toNat ≠ 13) ∨
    (a = AlertName.decodeError.number ∧ (m.msgType.toNat = 1 ∨ ¬ WellFormed x.datagram E.parses m)) ∨
    (a = AlertName.illegalParameter.number ∧ ∃ r, Decodes x.datagram E.parses m (.certificateRequest r) ∧ r.context ≠ []) := by
  unfold CWaitEE.nextCertCR at h
  by_cases h1 : m.msgType = typeClientHello
  · rw [bind_eq_err, orAlert_eq_err, Err.alert.injEq] at h
    rcases h with ⟨h2, -⟩ | ⟨b, h2, h3⟩
    · exact Or.inr (Or.inl ⟨h2, Or.inl (by rw [h1]; rfl)⟩)
    · rw [orAlert_ok, h1] at h2
      simp only [toBody, if_true, Res.bind_eq_ok, Res.ok.injEq] at h2
      obtain ⟨ch, -, rfl⟩ := h2
      refine Or.inl ⟨alert_eq_err.1 h3, ?_, ?_⟩ <;> rw [h1] <;> decide
  · have hr : readBody x.datagram E.parses m.msgType m.body = toBody E.parses m.msgType m.body := by
      rw [readBody, if_neg h1]
    rw [← hr, bind_eq_err, orAlert_eq_err, Err.alert.injEq] at h
    rcases h with ⟨h2, e, h3⟩ | ⟨b, h2, h3⟩
    · exact Or.inr (Or.inl ⟨h2, Or.inr (read_err h3)⟩)
    · rw [orAlert_ok] at h2
      have hv : VersionFits x.datagram b := by
        cases b <;> first | trivial | exact absurd rfl (toBody_not_hello h1 (hr ▸ h2) _)
      have hd := read_decodes hv h2
      dsimp only at h3
      split at h3
      · cases h3
      · rename_i r
        split at h3
        · rename_i hc
          refine Or.inr (Or.inr ⟨alert_eq_err.1 h3, r, hd, ?_⟩)
          rintro h4
          simp [h4] at hc
        · cases h3
      · rename_i hc hr'
        refine Or.inl ⟨alert_eq_err.1 h3, ?_, ?_⟩ <;> rw [hd.1] <;> cases b <;> first | (exact absurd rfl (hc _)) | (exact absurd rfl (hr' _)) | simp [messageNumber]

/-- **C76.** Why a client refuses a Certificate after a CertificateRequest. -/
theorem C76_certificate_refused {E : Env} {x : Ctx} {s : CWaitCert} {m : Msg} {a : Nat} (h : s.next E x m = .err (.alert a)) :
    (a = AlertName.unexpectedMessage.number ∧ m.msgType.toNat ≠ 11) ∨
    (a = AlertName.decodeError.number ∧ ¬ WellFormed x.datagram E.parses m) := by
  unfold CWaitCert.next at h
  split at h
  · rename_i ht
    exact Or.inl ⟨alert_eq_err.1 h, fun h1 => ht (UInt8.toNat_inj.1 h1)⟩
  · rename_i ht
    rw [not_not] at ht
    have hr : readBody x.datagram E.parses m.msgType m.body =
        (safeUnmarshal (CertificateMsg.unmarshal E.parses) m.body).bind fun b => .ok (.certificate b) := by rw [ht]; rfl
    rw [bind_eq_err, orAlert_eq_err, Err.alert.injEq] at h
    rcases h with ⟨h1, e, h2⟩ | ⟨_, -, h2⟩
    · exact Or.inr ⟨h1, read_err (e := e) (by rw [hr, h2]; rfl)⟩
    · cases h2

/-- The signature of a CertificateVerify is good for the public key of the leaf, over what has been said. -/
def SignatureGood (E : Env) (cert : CertificateMsg) (content : Bytes) (cv : CertVerify) : Prop :=
  ∃ e es c, cert.list = e :: es ∧ E.x509 e.1 = some c ∧ cv.verify E.P E.S c.pub content = true

theorem leafKey_ok {E : Env} {c : CertificateMsg} {k : PubKey} (h : leafKey E c = .ok k) :
    ∃ e es c', c.list = e :: es ∧ E.x509 e.1 = some c' ∧ c'.pub = k := by
  unfold leafKey at h
  split at h
  · cases h
  · rename_i e es he
    split at h
    · rename_i c' hc
      cases h
      exact ⟨e, es, c', he, hc, rfl⟩
    · cases h

/-- **C76.** Why a client refuses a CertificateVerify. Missing: for a bad signature RFC 8446 (section 4.4.3) has
decrypt_error. -/
theorem C76_certificate_verify_refused_partial {E : Env} {x : Ctx} {c : Coins} {s : CWaitCV} {m : Msg} {a : Nat}
    (h : s.next E x c m = .err (.alert a)) :
    (a = AlertName.unexpectedMessage.number ∧ m.msgType.toNat ≠ 15) ∨
    (a = AlertName.decodeError.number ∧ ¬ WellFormed x.datagram E.parses m) ∨
    ∃ cv, Decodes x.datagram E.parses m (.certificateVerify cv) ∧
      ((a = AlertName.handshakeFailure.number ∧ ¬ SignatureGood E s.cert (E.P.hash s.sec.cp.hash s.sec.transcript) cv) ∨
       (a = AlertName.badCertificate.number ∧
         ((s.cfg.insecureSkipVerify = false ∧ s.cfg.verify c.now s.cfg.serverName (s.cert.list.map (·.1)) = none) ∨
          ∃ f chains, s.cfg.verifyPeer = some f ∧ f (s.cert.list.map (·.1)) chains = false))) := by
  unfold CWaitCV.next at h
  split at h
  · rename_i ht
    exact Or.inl ⟨alert_eq_err.1 h, fun h1 => ht (UInt8.toNat_inj.1 h1)⟩
  · rename_i ht
    rw [not_not] at ht
    right
    have hr : readBody x.datagram E.parses m.msgType m.body =
        (safeUnmarshal CertVerify.unmarshal m.body).bind fun b => .ok (.certificateVerify b) := by rw [ht]; rfl
    rw [bind_eq_err, orAlert_eq_err, Err.alert.injEq] at h
    rcases h with ⟨h1, e, h2⟩ | ⟨cv, h1, h2⟩
    · exact Or.inl ⟨h1, read_err (e := e) (by rw [hr, h2]; rfl)⟩
    · rw [orAlert_ok] at h1
      rw [h1] at hr
      refine Or.inr ⟨cv, read_decodes trivial hr, ?_⟩
      rw [bind_eq_err] at h2
      rcases h2 with h2 | ⟨pub, h2, h3⟩
      · exact absurd h2 (leafKey_noErr _ _ _)
      · obtain ⟨e, es, c', he, hc, hp⟩ := leafKey_ok h2
        split at h3
        · rename_i hv
          refine Or.inl ⟨alert_eq_err.1 h3, ?_⟩
          rintro ⟨e', es', c'', he', hc', hv'⟩
          rw [he] at he'
          cases he'
          rw [hc] at hc'
          cases hc'
          rw [hp] at hv'
          simp [hv'] at hv
        · dsimp only at h3
          split at h3
          · rename_i hch
            refine Or.inr ⟨alert_eq_err.1 h3, Or.inl ?_⟩
            split at hch
            · cases hch
            · rename_i hi
              exact ⟨by simpa using hi, hch⟩
          · rename_i chains hch
            split at h3
            · rename_i hacc
              split at h3
              · refine Or.inr ⟨alert_eq_err.1 h3, Or.inr ⟨_, chains, hacc, ?_⟩⟩
                rename_i hf
                simpa using hf
              · cases h3
            · cases h3

/-- **C76.** Why a server refuses a Certificate. -/
theorem C76_client_certificate_refused {E : Env} {x : Ctx} {s : SWait} {m : Msg} {a : Nat}
    (h : s.nextCert E x m = .err (.alert a)) :
    (a = AlertName.unexpectedMessage.number ∧ m.msgType.toNat ≠ 11) ∨
    (a = AlertName.decodeError.number ∧ ¬ WellFormed x.datagram E.parses m) := by
  unfold SWait.nextCert at h
  split at h
  · rename_i ht
    exact Or.inl ⟨alert_eq_err.1 h, fun h1 => ht (UInt8.toNat_inj.1 h1)⟩
  · rename_i ht
    rw [not_not] at ht
    have hr : readBody x.datagram E.parses m.msgType m.body =
        (safeUnmarshal (CertificateMsg.unmarshal E.parses) m.body).bind fun b => .ok (.certificate b) := by rw [ht]; rfl
    rw [bind_eq_err, orAlert_eq_err, Err.alert.injEq] at h
    rcases h with ⟨h1, e, h2⟩ | ⟨_, -, h2⟩
    · exact Or.inr ⟨h1, read_err (e := e) (by rw [hr, h2]; rfl)⟩
    · dsimp only at h2
      split at h2 <;> cases h2

/-- **C76.** Why a server refuses a CertificateVerify. Missing: for a bad signature RFC 8446 (section 4.4.3) has
decrypt_error. -/
theorem C76_client_certificate_verify_refused_partial {E : Env} {x : Ctx} {s : SWaitCV} {m : Msg} {a : Nat}
    (h : s.next E x m = .err (.alert a)) :
    (a = AlertName.unexpectedMessage.number ∧ m.msgType.toNat ≠ 15) ∨
    (a = AlertName.decodeError.number ∧ ¬ WellFormed x.datagram E.parses m) ∨
    ∃ cv, Decodes x.datagram E.parses m (.certificateVerify cv) ∧
      ((a = AlertName.handshakeFailure.number ∧ ¬ SignatureGood E s.cert (E.P.hash s.sec.cp.hash s.sec.transcript) cv) ∨
       (a = AlertName.badCertificate.number ∧ ∃ f, s.cfg.verifyPeer = some f ∧ f (s.cert.list.map (·.1)) [] = false)) := by
  unfold SWaitCV.next at h
  split at h
  · rename_i ht
    exact Or.inl ⟨alert_eq_err.1 h, fun h1 => ht (UInt8.toNat_inj.1 h1)⟩
  · rename_i ht
    rw [not_not] at ht
    right
    have hr : readBody x.datagram E.parses m.msgType m.body =
        (safeUnmarshal CertVerify.unmarshal m.body).bind fun b => .ok (.certificateVerify b) := by rw [ht]; rfl
    rw [bind_eq_err, orAlert_eq_err, Err.alert.injEq] at h
    rcases h with ⟨h1, e, h2⟩ | ⟨cv, h1, h2⟩
    · exact Or.inl ⟨h1, read_err (e := e) (by rw [hr, h2]; rfl)⟩
    · rw [orAlert_ok] at h1
      rw [h1] at hr
      refine Or.inr ⟨cv, read_decodes trivial hr, ?_⟩
      rw [bind_eq_err] at h2
      rcases h2 with h2 | ⟨pub, h2, h3⟩
      · exact absurd h2 (leafKey_noErr _ _ _)
      · obtain ⟨e, es, c', he, hc, hp⟩ := leafKey_ok h2
        split at h3
        · rename_i hv
          refine Or.inl ⟨alert_eq_err.1 h3, ?_⟩
          rintro ⟨e', es', c'', he', hc', hv'⟩
          rw [he] at he'
          cases he'
          rw [hc] at hc'
          cases hc'
          rw [hp] at hv'
          simp [hv'] at hv
        · dsimp only at h3
          split at h3
          · rename_i hacc
            split at h3
            · refine Or.inr ⟨alert_eq_err.1 h3, _, hacc, ?_⟩
              rename_i hf
              simpa using hf
            · cases h3
          · cases h3

theorem finished_short {n : Nat} {bs : Bytes} {e : Err} (h : safeUnmarshal (Finished.unmarshal n) bs = .err e) : bs.length ≠ n := by
  rintro rfl
  rw [(safeUnmarshal_ok (v := ⟨bs.length, bs⟩)).2 (by simp [Finished.unmarshal])] at h
  cases h

theorem finished_all {n : Nat} {bs : Bytes} {f : Finished} (h : safeUnmarshal (Finished.unmarshal n) bs = .ok f) :
    bs.length = n ∧ f.verifyData = bs := by
  rw [safeUnmarshal_ok, Finished.unmarshal] at h
  split at h
  · cases h
  · simp only [Res.ok.injEq, Prod.mk.injEq] at h
    obtain ⟨rfl, rfl⟩ := h
    simp

/-- The MAC a Finished has to contain (RFC 8446, section 4.4.4): under the key derived from the peer's handshake traffic secret,
over the hash of the handshake so far. -/
def FinishedGood (P : Prims) (h : HashId) (secret transcript : Bytes) (m : Msg) : Prop :=
  computeFinishedData P h secret (P.hash h transcript) = .ok m.body

/-- **C76.** Why a client refuses a Finished. Missing: for a wrong one RFC 8446 (section 4.4.4) has decrypt_error; a
CertificateRequest without signature_algorithms is refused only here, with illegal_parameter (section 4.3.2 has
missing_extension). -/
theorem C76_finished_refused_partial {E : Env} (hP : E.P.Sized) {x : Ctx} {s : CWaitFinished} {m : Msg}
    {a : Nat} (h : s.next E x m = .err (.alert a)) :
    (a = AlertName.unexpectedMessage.number ∧ m.msgType.toNat ≠ 20) ∨
    (a = AlertName.decodeError.number ∧ m.body.length ≠ s.sec.cp.hash.size) ∨
    (a = AlertName.handshakeFailure.number ∧ ¬ FinishedGood E.P s.sec.cp.hash s.sec.hs.serverHs s.sec.transcript m) ∨
    (FinishedGood E.P s.sec.cp.hash s.sec.hs.serverHs s.sec.transcript m ∧
      (a = AlertName.internalError.number ∨
       ∃ r, s.request = some r ∧ s.params.usingClientAuth = true ∧
        ((a = AlertName.decodeError.number ∧ BadExtensions r.exts [.signatureAlgorithms]) ∨
         (a = AlertName.illegalParameter.number ∧ dataOf 13 r.exts = [])))) := by
  unfold CWaitFinished.next at h
  split at h
  · rename_i ht
    exact Or.inl ⟨alert_eq_err.1 h, fun h1 => ht (UInt8.toNat_inj.1 h1)⟩
  rename_i ht
  right
  dsimp only at h
  rw [bind_eq_err] at h
  rcases h with h | ⟨expected, hx, h⟩
  · exact absurd h (computeFinishedData_noErr _ _ _ _ _)
  have hl : expected.length = s.sec.cp.hash.size := by
    simp only [computeFinishedData, Res.bind_eq_ok, Res.ok.injEq] at hx
    obtain ⟨_, -, rfl⟩ := hx
    exact hP.2 _ _ _
  rw [bind_eq_err, orAlert_eq_err, Err.alert.injEq] at h
  rcases h with ⟨h1, e, h2⟩ | ⟨fin, h1, h2⟩
  · exact Or.inl ⟨h1, by rw [← hl]; exact finished_short h2⟩
  right
  rw [orAlert_ok] at h1
  obtain ⟨h3, h4⟩ := finished_all h1
  rw [h4] at h2
  split at h2
  · rename_i hne
    refine Or.inl ⟨alert_eq_err.1 h2, ?_⟩
    intro hg
    rw [FinishedGood, hx] at hg
    cases hg
    exact hne rfl
  rename_i heq
  rw [not_not] at heq
  refine Or.inr ⟨by rw [FinishedGood, hx, heq], ?_⟩
  simp only [bind_eq_err, apSecrets_noErr, makeTrafficKeys_noErr, computeFinishedData_noErr, deriveSecret_noErr, reduceCtorEq,
    and_false, exists_false, or_false, false_or, orAlert_eq_err, Err.alert.injEq] at h2
  obtain ⟨_, -, _, -, _, -, h2⟩ := h2
  rcases h2 with h2 | ⟨_, -, h2⟩
  · unfold clientEOED at h2
    split at h2
    · simp only [bind_eq_err, makeTrafficKeys_noErr, reduceCtorEq, and_false, exists_false, or_false] at h2
      exact absurd h2 (by simp [mkMsg, Body.marshal, bind_eq_err])
    · cases h2
  rcases h2 with h2 | ⟨_, -, h2⟩
  · unfold clientAuth at h2
    split at h2
    · rename_i hauth
      split at h2
      · cases h2
      · rename_i r hr
        rw [bind_eq_err, orAlert_eq_err, Err.alert.injEq] at h2
        rcases h2 with ⟨h5, e, h6⟩ | ⟨found, h5, h6⟩
        · exact Or.inr ⟨r, hr, hauth, Or.inl ⟨h5, findExt_err h6⟩⟩
        · rw [orAlert_ok] at h5
          split at h6
          · left
            split at h6
            · simp only [bind_eq_err, orAlert_eq_err, Err.alert.injEq, reduceCtorEq, and_false, exists_false, or_false] at h6
              exact h6.1
            · simp only [bind_eq_err, orAlert_eq_err, Err.alert.injEq, reduceCtorEq, and_false, exists_false, or_false] at h6
              rcases h6 with h6 | ⟨_, -, h6 | ⟨_, -, h6⟩⟩ <;> exact h6.1
            · cases h6
            · cases h6
          · cases h6
          · exact Or.inr ⟨r, hr, hauth, Or.inr ⟨alert_eq_err.1 h6, findExt_none h5⟩⟩
    · cases h2
  · obtain ⟨_, -, h2, -⟩ := h2
    exact Or.inl h2

/-- **C76.** Why a server refuses a Finished. Missing: for a wrong one RFC 8446 (section 4.4.4) has decrypt_error. -/
theorem C76_client_finished_refused_partial {E : Env} {x : Ctx} {s : SWaitFinished} {m : Msg} {a : Nat}
    (h : s.next E x m = .err (.alert a)) :
    (a = AlertName.unexpectedMessage.number ∧ m.msgType.toNat ≠ 20) ∨
    (a = AlertName.decodeError.number ∧ m.body.length ≠ s.sec.cp.hash.size) ∨
    (a = AlertName.handshakeFailure.number ∧ ¬ FinishedGood E.P s.sec.cp.hash s.sec.clientHs s.sec.transcript m) := by
  unfold SWaitFinished.next at h
  split at h
  · rename_i ht
    exact Or.inl ⟨alert_eq_err.1 h, fun h1 => ht (UInt8.toNat_inj.1 h1)⟩
  rename_i ht
  right
  dsimp only at h
  rw [bind_eq_err, orAlert_eq_err, Err.alert.injEq] at h
  rcases h with ⟨h1, e, h2⟩ | ⟨fin, h1, h2⟩
  · exact Or.inl ⟨h1, finished_short h2⟩
  right
  rw [orAlert_ok] at h1
  obtain ⟨h3, h4⟩ := finished_all h1
  rw [h4] at h2
  rw [bind_eq_err] at h2
  rcases h2 with h | ⟨expected, hx, h⟩
  · exact absurd h (computeFinishedData_noErr _ _ _ _ _)
  split at h
  · rename_i hne
    refine ⟨alert_eq_err.1 h, ?_⟩
    intro hg
    rw [FinishedGood, hx] at hg
    cases hg
    exact hne rfl
  · simp only [bind_eq_err, makeTrafficKeys_noErr, deriveSecret_noErr, reduceCtorEq, and_false, exists_false, or_false] at h

/-- **C76.** Why a server refuses an EndOfEarlyData. -/
theorem C76_end_of_early_data_refused {E : Env} {x : Ctx} {s : SWait} {m : Msg} {a : Nat} (h : s.nextEOED E x m = .err (.alert a)) :
    (a = AlertName.unexpectedMessage.number ∧ m.msgType.toNat ≠ 5) ∨
    (a = AlertName.decodeError.number ∧ m.body ≠ []) := by
  unfold SWait.nextEOED at h
  split at h
  · rename_i ht
    exact Or.inl ⟨alert_eq_err.1 h, fun h1 => ht (UInt8.toNat_inj.1 h1)⟩
  split at h
  · rename_i hl
    exact Or.inr ⟨alert_eq_err.1 h, by rintro h1; simp [h1] at hl⟩
  · simp only [bind_eq_err, makeTrafficKeys_noErr, reduceCtorEq, and_false, exists_false, or_false] at h

/-- **C76.** Why an established connection refuses a message. Missing: a message of an unknown type, or of a type that is not
expected here, is refused with decode_error if it does not decode. -/
theorem C76_connected_refused_partial {E : Env} {x : Ctx} {s : Connected} {now : Int} {m : Msg} {a : Nat}
    (h : s.process E x now m = .err (.alert a)) :
    (a = AlertName.unexpectedMessage.number ∧ m.msgType.toNat ≠ 24 ∧ (s.isClient = true → m.msgType.toNat ≠ 4)) ∨
    (a = AlertName.decodeError.number ∧ (m.msgType.toNat = 1 ∨ ¬ WellFormed x.datagram E.parses m)) := by
  unfold Connected.process at h
  by_cases h1 : m.msgType = typeClientHello
  · rw [bind_eq_err, orAlert_eq_err, Err.alert.injEq] at h
    rcases h with ⟨h2, -⟩ | ⟨b, h2, h3⟩
    · exact Or.inr ⟨h2, Or.inl (by rw [h1]; rfl)⟩
    · rw [orAlert_ok, h1] at h2
      simp only [toBody, if_true, Res.bind_eq_ok, Res.ok.injEq] at h2
      obtain ⟨ch, -, rfl⟩ := h2
      refine Or.inl ⟨alert_eq_err.1 h3, ?_, fun _ => ?_⟩ <;> rw [h1] <;> decide
  · have hr : readBody x.datagram E.parses m.msgType m.body = toBody E.parses m.msgType m.body := by
      rw [readBody, if_neg h1]
    rw [← hr, bind_eq_err, orAlert_eq_err, Err.alert.injEq] at h
    rcases h with ⟨h2, e, h3⟩ | ⟨b, h2, h3⟩
    · exact Or.inr ⟨h2, Or.inr (read_err h3)⟩
    · rw [orAlert_ok] at h2
      have hv : VersionFits x.datagram b := by
        cases b <;> first | trivial | exact absurd rfl (toBody_not_hello h1 (hr ▸ h2) _)
      have hd := read_decodes hv h2
      left
      split at h3
      · exfalso
        dsimp only at h3
        split at h3 <;>
        · simp only [bind_eq_err, nextSecret_noErr, makeTrafficKeys_noErr, reduceCtorEq, and_false, exists_false, or_false,
            false_or] at h3
          obtain ⟨_, -, _, -, h3⟩ := h3
          split at h3
          · simp only [bind_eq_err, reduceCtorEq, and_false, exists_false, or_false] at h3
            exact keyUpdate_noErr h3
          · cases h3
      · split at h3
        · rename_i hc
          refine ⟨alert_eq_err.1 h3, ?_, ?_⟩
          · rw [hd.1]; simp [messageNumber]
          · intro h4; simp [h4] at hc
        · simp [ticketPsk, bind_eq_err, hkdfExpandLabel_noErr] at h3
      · rename_i hk ht
        refine ⟨alert_eq_err.1 h3, ?_, fun _ => ?_⟩ <;> rw [hd.1] <;> cases b <;>
          first | (exact absurd rfl (hk _)) | (exact absurd rfl (ht _)) | simp [messageNumber]

/-- **C76.** If a client cannot make its ClientHello, that is an internal error. -/
theorem C76_client_start {E : Env} {x : Ctx} {c : Coins} {s : CStart} {a : Nat} (h : s.next E x c = .err (.alert a)) :
    a = AlertName.internalError.number := by
  unfold CStart.next at h
  rw [bind_eq_err] at h
  rcases h with h | ⟨_, -, h⟩
  · exact makeShares_err h
  split at h
  · exact alert_eq_err.1 h
  rw [bind_eq_err, orAlert_eq_err, Err.alert.injEq] at h
  rcases h with ⟨h, -⟩ | ⟨_, -, h⟩
  · exact h
  dsimp only at h
  split at h
  · simp only [bind_eq_err, reduceCtorEq, and_false, exists_false, or_false] at h
    exact offerPsk_err h
  · simp only [bind_eq_err, orAlert_eq_err, Err.alert.injEq, reduceCtorEq, and_false, exists_false, or_false] at h
    exact h.1

/-- **C76.** If a server that has negotiated cannot make its answer, that is an internal error, or a suite it does not know. -/
theorem C76_server_answer {E : Env} {x : Ctx} {c : Coins} {s : SNegotiated} {a : Nat} (h : s.next E x c = .err (.alert a)) :
    a = AlertName.internalError.number ∨ (a = AlertName.handshakeFailure.number ∧ suiteParams s.params.suite.toNat = none) := by
  unfold SNegotiated.next at h
  split at h
  · exact Or.inl (alert_eq_err.1 h)
  simp only [bind_eq_err, orAlert_eq_err, Err.alert.injEq] at h
  rcases h with ⟨h, -⟩ | ⟨_, -, ⟨h, -⟩ | ⟨_, -, h⟩⟩
  · exact Or.inl h
  · exact Or.inl h
  split at h
  · rename_i hp
    exact Or.inr ⟨alert_eq_err.1 h, hp⟩
  simp only [bind_eq_err, orAlert_eq_err, Err.alert.injEq, hsSecrets_noErr, makeTrafficKeys_noErr, computeFinishedData_noErr,
    apSecrets_noErr, reduceCtorEq, and_false, exists_false, or_false, false_or] at h
  left
  obtain ⟨_, -, _, -, _, -, h⟩ := h
  rcases h with ⟨h, -⟩ | ⟨_, -, ⟨h, -⟩ | ⟨_, -, h | ⟨_, -, _, hv, h⟩⟩⟩
  · exact h
  · exact h
  · exact serverAuth_err h
  · rcases h with h | ⟨_, -, h⟩
    · simp [mkMsg, Body.marshal, Finished.marshal, bind_eq_err] at h
    · obtain ⟨_, -, _, -, h⟩ := h
      split at h
      · simp only [bind_eq_err, makeTrafficKeys_noErr, reduceCtorEq, and_false, exists_false, or_false] at h
      · split at h <;> cases h

/-- **C76.** Why a server refuses a ClientHello. Missing: see the deviations below. -/
theorem C76_client_hello_refused_partial {E : Env} {x : Ctx} {c : Coins} {s : SStart} {m : Msg} {a : Nat}
    (h : s.next E x c m = .err (.alert a)) :
    (a = AlertName.unexpectedMessage.number ∧ m.msgType.toNat ≠ 1) ∨
    (a = AlertName.decodeError.number ∧ ¬ WellFormed x.datagram E.parses m) ∨
    ∃ ch, Decodes x.datagram E.parses m (.clientHello ch) ∧
      ((a = AlertName.decodeError.number ∧ (BadExtensions ch.exts helloKinds ∨
          (hasExt 41 ch.exts = true ∧ ∀ y, ch.exts.getLast? = some y → y.1 ≠ 41))) ∨
       (a = AlertName.protocolVersion.number ∧ ¬ OffersTls13 ch.exts) ∨
       (a = AlertName.decryptError.number ∧ ∃ cookie prot e, Carries .cookie ch.exts (.cookie cookie) ∧
          s.cfg.cookieProtector = some prot ∧ prot.decodeToken cookie = .err e) ∨
       (a = AlertName.accessDenied.number ∧ hasExt 44 ch.exts = true ∧ ∃ f app, s.cfg.cookieHandler = some f ∧ f app = false) ∨
       (a = AlertName.illegalParameter.number ∧ ch.sessionId.length ≠ 0 ∧ ch.sessionId.length ≠ 32) ∨
       (a = AlertName.handshakeFailure.number ∧
          ((∀ suite ∈ ch.suites, suite ∉ s.cfg.suites) ∨
           (∃ k, NamesPsk s.cfg.psks ch.exts k ∧ ∀ suite ∈ ch.suites, suite.toNat ≠ k.suite) ∨
           (∀ shares, Carries (.keyShare 1) ch.exts (.keyShare 1 0 shares) →
              Negotiation.dh E.D (s.cfg.groups.map (·.toNat)) c.dh (shares.map fun e => ⟨e.1.toNat, e.2.1⟩) = .ok none))) ∨
       (a = AlertName.missingExtension.number ∧ (dataOf 0 ch.exts = [] ∨ dataOf 10 ch.exts = [] ∨ dataOf 13 ch.exts = [])) ∨
       (a = AlertName.accessDenied.number ∧ ∃ name algs e, Carries .serverName ch.exts (.serverName name) ∧
          Carries .signatureAlgorithms ch.exts (.signatureAlgorithms algs) ∧
          certificate (some name) (algs.map (·.toNat)) s.cfg.certificates = .err e) ∨
       (a = AlertName.noApplicationProtocol.number ∧ ∃ protos k, Carries .alpn ch.exts (.alpn protos) ∧ protos ≠ [] ∧
          NamesPsk s.cfg.psks ch.exts k ∧ k.isResumption = true ∧ ∀ p ∈ protos, p = k.nextProto → p ∉ s.cfg.nextProtos) ∨
       (a = AlertName.internalError.number ∧ (hasExt 41 ch.exts = true ∨ hasExt 44 ch.exts = true ∨ s.cfg.requireCookie = true))) := by
  unfold SStart.next at h
  rw [bind_eq_err] at h
  rcases h with h | ⟨⟨ch, o⟩, hro, h⟩
  · unfold readHello at h
    by_cases ht : m.msgType ≠ typeClientHello
    · rw [if_pos ht] at h
      exact Or.inl ⟨alert_eq_err.1 h, fun h1 => ht (UInt8.toNat_inj.1 h1)⟩
    rw [if_neg ht] at h
    rw [not_not] at ht
    right
    have hr : readBody x.datagram E.parses m.msgType m.body =
        (safeUnmarshal (ClientHello.unmarshal (wireVersion x)) m.body).bind fun b => .ok (.clientHello b) := by
      rw [ht]; rfl
    rw [bind_eq_err, orAlert_eq_err, Err.alert.injEq] at h
    rcases h with ⟨h1, e, h2⟩ | ⟨ch, h1, h2⟩
    · exact Or.inl ⟨h1, read_err (e := e) (by rw [hr, h2]; rfl)⟩
    rw [orAlert_ok] at h1
    rw [h1] at hr
    by_cases hv : ch.version ≠ wireVersion x
    · rw [if_pos hv] at h2
      refine Or.inl ⟨alert_eq_err.1 h2, ?_⟩
      rintro hw
      obtain ⟨b, hd, hb⟩ := wellFormed_read hw
      rw [hr] at hb
      cases hb
      exact hv hd.2.2.2.1
    rw [if_neg hv] at h2
    rw [not_not] at hv
    refine Or.inr ⟨ch, read_decodes (b := .clientHello ch) hv hr, ?_⟩
    rw [bind_eq_err, orAlert_eq_err, Err.alert.injEq] at h2
    rcases h2 with ⟨h3, e, h4⟩ | ⟨found, h3, h4⟩
    · exact Or.inl ⟨h3, Or.inl (parseExts_err (by decide) h4)⟩
    rw [orAlert_ok] at h3
    right
    left
    dsimp only at h4
    split at h4
    · rename_i hvs
      refine ⟨alert_eq_err.1 h4, ?_⟩
      rintro ⟨vs, hc, -⟩
      have h5 := carries_found (k := .supportedVersions 1) asVersions offerKinds_nodup h3 (by decide) (by
        intro b hb; cases b <;> simp [asVersions] at hb ⊢; rfl) hc
      rw [show found.findSome? asVersions = none from hvs] at h5
      cases h5
    · rename_i vs hvs
      split at h4
      · cases h4
      · rename_i hne
        refine ⟨alert_eq_err.1 h4, ?_⟩
        rintro ⟨vs', hc, hm⟩
        have h5 := carries_found (k := .supportedVersions 1) asVersions offerKinds_nodup h3 (by decide) (by
          intro b hb; cases b <;> simp [asVersions] at hb ⊢; rfl) hc
        rw [show found.findSome? asVersions = some vs from hvs] at h5
        cases h5
        rw [Bool.not_eq_true, C25_fails_iff_disjoint] at hne
        exact hne 0x0304 (List.mem_map.2 ⟨_, hm, rfl⟩) (by simp)
  · obtain ⟨ht, h1, hv, found, hf, rfl, vs, hvs, hvv⟩ := readHello_ok hro
    have hr : readBody x.datagram E.parses m.msgType m.body =
        (safeUnmarshal (ClientHello.unmarshal (wireVersion x)) m.body).bind fun b => .ok (.clientHello b) := by
      rw [ht]; rfl
    rw [h1] at hr
    have hdec := read_decodes (b := .clientHello ch) hv hr
    refine Or.inr (Or.inr ⟨ch, hdec, ?_⟩)
    have hcookie : (offerOf found).cookie ≠ [] → hasExt 44 ch.exts = true := by
      intro hne
      obtain ⟨d, hd, -⟩ := cookie_some hf hne
      exact hasExt_of hd
    have hpsk : (offerOf found).ids ≠ [] → hasExt 41 ch.exts = true := by
      intro hne
      obtain ⟨⟨d, hd, -⟩, -⟩ := psk_carried hf hne
      exact hasExt_of hd
    rw [bind_eq_err] at h
    rcases h with h | ⟨first, hck, h⟩
    · unfold checkCookie at h
      split at h
      · rename_i hl
        have hne : (offerOf found).cookie ≠ [] := List.ne_nil_of_length_pos hl
        split at h
        · cases h
        · rename_i prot hprot
          rw [bind_eq_err, orAlert_eq_err, Err.alert.injEq] at h
          rcases h with ⟨h2, e, h3⟩ | ⟨plain, -, h⟩
          · exact Or.inr (Or.inr (Or.inl ⟨h2, _, prot, e, cookie_some hf hne, hprot, h3⟩))
          rw [bind_eq_err] at h
          rcases h with h | ⟨⟨su, hash, app⟩, -, h⟩
          · unfold decodeCookie at h
            split at h
            · cases h
            · split at h
              · iterate 9 right
                exact ⟨alert_eq_err.1 h, Or.inr (Or.inl (hcookie hne))⟩
              · cases h
            · cases h
            · cases h
          · dsimp only at h
            split at h
            · rename_i f hfh
              split at h
              · rename_i hfa
                iterate 3 right
                exact Or.inl ⟨alert_eq_err.1 h, hcookie hne, f, app, hfh, by simpa using hfa⟩
              · split at h
                · iterate 9 right
                  exact ⟨alert_eq_err.1 h, Or.inr (Or.inl (hcookie hne))⟩
                · cases h
            · split at h
              · rename_i hb; cases hb
              · split at h
                · iterate 9 right
                  exact ⟨alert_eq_err.1 h, Or.inr (Or.inl (hcookie hne))⟩
                · cases h
      · cases h
    dsimp only at h
    split at h
    · rename_i hsid
      iterate 4 right
      exact Or.inl ⟨alert_eq_err.1 h, hsid⟩
    rw [bind_eq_err] at h
    rcases h with h | ⟨dhc, hdh, h⟩
    · exact absurd h (dh_noErr _ _ _ _ _)
    rw [bind_eq_err] at h
    rcases h with h | ⟨⟨pskc, x1⟩, hpc, h⟩
    · unfold choosePsk at h
      split at h
      · rename_i hl
        have hne : (offerOf found).ids ≠ [] := List.ne_nil_of_length_pos hl
        rw [bind_eq_err] at h
        rcases h with h | ⟨_, -, h⟩
        · split at h
          · simp only [bind_eq_err, orAlert_eq_err, Err.alert.injEq, reduceCtorEq, and_false, exists_false, or_false] at h
            iterate 9 right
            exact ⟨h.1, Or.inl (hpsk hne)⟩
          · cases h
        · simp only [bind_eq_err, orAlert_eq_err, Err.alert.injEq, reduceCtorEq, and_false, exists_false, or_false] at h
          rcases h with ⟨h2, e, h3⟩ | ⟨_, -, h2, -⟩
          · exact Or.inl ⟨h2, Or.inr ⟨hpsk hne, carried_truncated hdec.2.2.1 hf hne h3⟩⟩
          · iterate 9 right
            exact ⟨h2, Or.inl (hpsk hne)⟩
      · cases h
    have hnames : ∀ k, pskc.map (·.2.1) = some k → NamesPsk s.cfg.psks ch.exts k := by
      intro k hk
      rcases choosePsk_ok hpc with ⟨-, rfl, -⟩ | ⟨hne, base, trunc, -, -, h2⟩
      · cases hk
      · cases pskc with
        | none => cases hk
        | some t =>
          obtain ⟨j, k', p⟩ := t
          cases hk
          obtain ⟨id, h3, h4⟩ := pskFrom_cached h2
          obtain ⟨i, h5, rfl⟩ := List.mem_map.1 h3
          exact ⟨_, _, (psk_carried hf hne).1, i, h5, h4⟩
    dsimp only at h
    rw [bind_eq_err, orAlert_eq_err, Err.alert.injEq] at h
    rcases h with ⟨h2, e, h3⟩ | ⟨suite, -, h⟩
    · iterate 5 right
      refine Or.inl ⟨h2, ?_⟩
      cases hk : pskc.map (·.2.1) with
      | none =>
        left
        rw [hk] at h3
        have he : e = .msg := cipherSuite_err h3
        subst he
        have := (C28_suite_without_psk _ _).2.1 h3
        intro su h4 h5
        exact this _ (List.mem_map_of_mem h4) (List.mem_map_of_mem h5)
      | some k =>
        right
        left
        rw [hk] at h3
        have he : e = .msg := cipherSuite_err h3
        subst he
        have := (C28_suite_with_psk_partial k _ _).2.1 h3
        refine ⟨k, hnames k hk, fun su h4 h5 => this ?_⟩
        rw [← h5]
        exact List.mem_map_of_mem h4
    split at h
    · rename_i hdiff
      iterate 9 right
      refine ⟨alert_eq_err.1 h, Or.inr (Or.inl (hcookie ?_))⟩
      rcases checkCookie_ok hck with ⟨-, rfl⟩ | ⟨hne, -⟩
      · cases hdiff
      · exact hne
    rw [bind_eq_err] at h
    rcases h with h | ⟨⟨retry, send, x2⟩, -, h⟩
    · unfold chooseRetry at h
      split at h
      · rename_i hreq
        iterate 9 right
        refine ⟨?_, Or.inr (Or.inr hreq)⟩
        split at h
        · simp only [bind_eq_err, orAlert_eq_err, Err.alert.injEq, reduceCtorEq, and_false, exists_false, or_false] at h
          exact h.1
        · rw [bind_eq_err] at h
          rcases h with h | ⟨_, -, h⟩
          · split at h
            · cases h
            · simp only [bind_eq_err, orAlert_eq_err, Err.alert.injEq, reduceCtorEq, and_false, exists_false, or_false] at h
              exact h.1
          · dsimp only at h
            split at h
            · split at h
              · cases h
              · rw [bind_eq_err, orAlert_eq_err, Err.alert.injEq] at h
                rcases h with ⟨h, -⟩ | ⟨_, -, h⟩
                · exact h
                split at h
                · cases h
                · simp only [bind_eq_err, orAlert_eq_err, Err.alert.injEq, reduceCtorEq, and_false, exists_false, or_false] at h
                  rcases h with ⟨h, -⟩ | ⟨_, -, h, -⟩ <;> exact h
            · cases h
      · cases h
    dsimp only at h
    split at h
    · cases h
    · simp only [bind_eq_err, reduceCtorEq, and_false, exists_false, or_false] at h
      unfold SStart.finish at h
      split at h
      · rename_i hmode
        iterate 5 right
        refine Or.inl ⟨alert_eq_err.1 h, Or.inr (Or.inr ?_)⟩
        intro shares hc
        have h5 := carries_found (k := .keyShare 1) asShares offerKinds_nodup hf (by decide) (by
          intro b hb; cases b <;> simp [asShares] at hb ⊢; rfl) hc
        have h6 : (offerOf found).shares = shares := by
          simp only [offerOf, findShares, h5, asShares, Option.getD_some]
        rw [h6] at hdh
        rw [hdh]
        cases dhc with
        | none => rfl
        | some t =>
          exfalso
          simp only [pskMode, Option.isSome_some, Bool.and_eq_true, Bool.not_eq_true', Bool.true_and] at hmode
          obtain ⟨h7, h8⟩ := hmode
          rw [h8] at h7
          simp at h7
      rw [bind_eq_err] at h
      rcases h with h | ⟨cert, -, h⟩
      · unfold chooseCert at h
        split at h
        · cases h
        · split at h
          · rename_i name groups algs hn hg ha
            simp only [bind_eq_err, orAlert_eq_err, Err.alert.injEq, reduceCtorEq, and_false, exists_false, or_false] at h
            obtain ⟨h2, e, h3⟩ := h
            iterate 7 right
            refine Or.inl ⟨h2, name, algs, e, ?_, ?_, h3⟩
            · obtain ⟨b, h4, h5, h6⟩ := found_carries (k := .serverName) asServerName offerKinds_nodup hf (by decide) (by
                intro b hb; cases b <;> simp [asServerName] at hb ⊢; rfl) hn
              cases b <;> simp [asServerName] at h6
              subst h6
              exact h4
            · obtain ⟨b, h4, h5, h6⟩ := found_carries (k := .signatureAlgorithms) asSigAlgs offerKinds_nodup hf (by decide) (by
                intro b hb; cases b <;> simp [asSigAlgs] at hb ⊢; rfl) ha
              cases b <;> simp [asSigAlgs] at h6
              subst h6
              exact h4
          · rename_i hmiss
            iterate 6 right
            refine Or.inl ⟨alert_eq_err.1 h, ?_⟩
            cases hn : (offerOf found).serverName with
            | none =>
              exact Or.inl (found_none (k := .serverName) asServerName offerKinds_nodup hf (by decide)
                (by intro b hb; cases b <;> simp [asServerName] at hb ⊢; rfl)
                (by intro b hb; cases b <;> first | rfl | cases hb) hn)
            | some name =>
              cases hg : (offerOf found).groups with
              | none =>
                exact Or.inr (Or.inl (found_none (k := .supportedGroups) asGroups offerKinds_nodup hf (by decide)
                  (by intro b hb; cases b <;> simp [asGroups] at hb ⊢; rfl)
                  (by intro b hb; cases b <;> first | rfl | cases hb) hg))
              | some groups =>
                cases ha : (offerOf found).sigAlgs with
                | none =>
                  exact Or.inr (Or.inr (found_none (k := .signatureAlgorithms) asSigAlgs offerKinds_nodup hf (by decide)
                    (by intro b hb; cases b <;> simp [asSigAlgs] at hb ⊢; rfl)
                    (by intro b hb; cases b <;> first | rfl | cases hb) ha))
                | some algs => exact absurd ha (hmiss name groups algs hn hg)
      dsimp only at h
      rw [bind_eq_err] at h
      rcases h with h | ⟨_, -, h⟩
      · unfold serverEarly at h
        split at h
        · split at h
          · exact absurd h (earlyTraffic_noErr _ _ _ _ _)
          · cases h
        · cases h
      simp only [bind_eq_err, orAlert_eq_err, Err.alert.injEq, reduceCtorEq, and_false, exists_false, or_false] at h
      obtain ⟨h2, e, h3⟩ := h
      iterate 8 right
      refine Or.inl ⟨h2, ?_⟩
      have h4 := C28_alpn (if (pskMode dhc.isSome pskc.isSome (offerOf found).modes).2 = true then pskc.map (·.2.1) else none)
        (offerOf found).alpn s.cfg.nextProtos
      rw [h3] at h4
      obtain ⟨-, h5, h6, k, h7, h8⟩ := h4
      rw [h7] at h5
      have h9 : pskc.map (·.2.1) = some k := by
        split at h7
        · exact h7
        · cases h7
      cases hal : findAlpn found with
      | none => simp [offerOf, hal] at h6
      | some protos =>
        obtain ⟨b, hb1, hb2, hb3⟩ := found_carries (k := .alpn) asAlpn offerKinds_nodup hf (by decide) (by
          intro b hb; cases b <;> simp [asAlpn] at hb ⊢; rfl) hal
        cases b <;> simp [asAlpn] at hb3
        subst hb3
        rename_i protos
        simp only [offerOf, hal, Option.getD_some] at h5 h6
        refine ⟨protos, k, hb1, h6, hnames k h9, h8, ?_⟩
        intro p hp hpk hps
        exact h5 p hp ⟨hps, fun k' hk' => by cases hk'; exact hpk⟩

/-! ### Messages of the wrong type, or that do not decode -/

/-- The types of message a client reads in a state (RFC 8446, appendix A.1). -/
def awaitedByClient : CState → List Nat
  | .start _ => []
  | .waitSH _ => [2]
  | .waitEE _ => [8]
  | .waitCertCR _ => [11, 13]
  | .waitCert _ => [11]
  | .waitCV _ => [15]
  | .waitFinished _ => [20]
  | .connected _ => [4, 24]

/-- The types of message a server reads in a state (RFC 8446, appendix A.2). -/
def awaitedByServer : SState → List Nat
  | .start _ => [1]
  | .negotiated _ => []
  | .waitEOED _ => [5]
  | .readPast => []
  | .waitFlight2 _ => []
  | .waitCert _ => [11]
  | .waitCV _ => [15]
  | .waitFinished _ => [20]
  | .connected _ => [24]

theorem type_ne {m : Msg} {t : UInt8} (h : m.msgType.toNat ≠ t.toNat) : m.msgType ≠ t := fun h1 => h (by rw [h1])

/-- **C76.** A client answers a message of a type it does not wait for with unexpected_message, where it waits for one type.
Missing: where it waits for two types it decodes first. -/
theorem C76_unexpected_client_partial {E : Env} {x : Ctx} {c : Coins} {s : CState} {m : Msg} {t : Nat}
    (hs : awaitedByClient s = [t]) (h : m.msgType.toNat ≠ t) : Answers (s.step E x c (.msg m)) .unexpectedMessage := by
  cases s with
  | start s => cases hs
  | connected s => cases hs
  | waitCertCR s => cases hs
  | waitSH s =>
    cases hs
    simp only [Answers, CState.step, CWaitSH.next, checkHello, if_pos (type_ne (t := typeServerHello) h)]
    rfl
  | waitEE s =>
    cases hs
    simp only [Answers, CState.step, CWaitEE.next, if_pos (type_ne (t := typeEncryptedExtensions) h)]
    rfl
  | waitCert s =>
    cases hs
    simp only [Answers, CState.step, CWaitCert.next, if_pos (type_ne (t := typeCertificate) h)]
    rfl
  | waitCV s =>
    cases hs
    simp only [Answers, CState.step, CWaitCV.next, if_pos (type_ne (t := typeCertificateVerify) h)]
    rfl
  | waitFinished s =>
    cases hs
    simp only [Answers, CState.step, CWaitFinished.next, if_pos (type_ne (t := typeFinished) h)]
    rfl

/-- **C76.** A server answers a message of a type it does not wait for during the handshake with unexpected_message. Missing: an
established server decodes first. -/
theorem C76_unexpected_server_partial {E : Env} {x : Ctx} {c : Coins} {s : SState} {m : Msg} {t : Nat}
    (hs : awaitedByServer s = [t]) (hc : ∀ k, s ≠ .connected k) (h : m.msgType.toNat ≠ t) :
    Answers (s.step E x c (.msg m)) .unexpectedMessage := by
  cases s with
  | negotiated s => cases hs
  | readPast => cases hs
  | waitFlight2 s => cases hs
  | connected s => exact absurd rfl (hc s)
  | start s =>
    cases hs
    simp only [Answers, SState.step, SStart.next, readHello, if_pos (type_ne (t := typeClientHello) h)]
    rfl
  | waitEOED s =>
    cases hs
    simp only [Answers, SState.step, SWait.nextEOED, if_pos (type_ne (t := typeEndOfEarlyData) h)]
    rfl
  | waitCert s =>
    cases hs
    simp only [Answers, SState.step, SWait.nextCert, if_pos (type_ne (t := typeCertificate) h)]
    rfl
  | waitCV s =>
    cases hs
    simp only [Answers, SState.step, SWaitCV.next, if_pos (type_ne (t := typeCertificateVerify) h)]
    rfl
  | waitFinished s =>
    cases hs
    simp only [Answers, SState.step, SWaitFinished.next, if_pos (type_ne (t := typeFinished) h)]
    rfl

theorem not_read {d : Bool} {parses : Bytes → Bool} {m : Msg} (ht : m.msgType ≠ typeClientHello) (h : ¬ WellFormed d parses m) :
    ∃ e, toBody parses m.msgType m.body = .err e := by
  have hr : readBody d parses m.msgType m.body = toBody parses m.msgType m.body := by rw [readBody, if_neg ht]
  have hs := C32_body_safe parses m.msgType m.body
  cases hb : toBody parses m.msgType m.body with
  | err e => exact ⟨e, rfl⟩
  | panic => rw [hb] at hs; cases hs
  | diverge => rw [hb] at hs; cases hs
  | ok b =>
    have hv : VersionFits d b := by
      cases b <;> first | trivial | exact absurd rfl (toBody_not_hello ht hb _)
    exact absurd ⟨b, read_decodes hv (hr.trans hb)⟩ h

theorem bind_ok_err {α β : Type} {r : Res α} {f : α → β} {e : Err} (h : (r.bind fun b => Res.ok (f b)) = .err e) : r = .err e := by
  cases r <;> simp_all

/-- **C76.** A client answers a message that does not decode with decode_error. Missing: for a ServerHello it is
unexpected_message. -/
theorem C76_undecodable_client_partial {E : Env} {x : Ctx} {c : Coins} {s : CState} {m : Msg} (hs : ∀ k, s ≠ .start k)
    (hsh : ∀ k, s ≠ .waitSH k) (ht : m.msgType.toNat ∈ awaitedByClient s) (h : ¬ WellFormed x.datagram E.parses m) :
    Answers (s.step E x c (.msg m)) .decodeError := by
  have hnot : m.msgType ≠ typeClientHello := by
    rintro h1
    rw [h1] at ht
    cases s <;> first | exact absurd rfl (hs _) | exact absurd rfl (hsh _) | exact absurd ht (by simp [awaitedByClient, typeClientHello])
  obtain ⟨e, he⟩ := not_read hnot h
  cases s with
  | start s => exact absurd rfl (hs s)
  | waitSH s => exact absurd rfl (hsh s)
  | waitEE s =>
    have ht : m.msgType = typeEncryptedExtensions := UInt8.toNat_inj.1 (List.mem_singleton.1 ht)
    rw [ht] at he
    have he : safeUnmarshal unmarshalEE m.body = .err e := bind_ok_err he
    simp only [Answers, CState.step, CWaitEE.next, if_neg (not_not.2 ht), he]
    rfl
  | waitCertCR s =>
    simp only [Answers, CState.step, CWaitEE.nextCertCR, he]
    rfl
  | waitCert s =>
    have ht : m.msgType = typeCertificate := UInt8.toNat_inj.1 (List.mem_singleton.1 ht)
    rw [ht] at he
    have he : safeUnmarshal (CertificateMsg.unmarshal E.parses) m.body = .err e := bind_ok_err he
    simp only [Answers, CState.step, CWaitCert.next, if_neg (not_not.2 ht), he]
    rfl
  | waitCV s =>
    have ht : m.msgType = typeCertificateVerify := UInt8.toNat_inj.1 (List.mem_singleton.1 ht)
    rw [ht] at he
    have he : safeUnmarshal CertVerify.unmarshal m.body = .err e := bind_ok_err he
    simp only [Answers, CState.step, CWaitCV.next, if_neg (not_not.2 ht), he]
    rfl
  | waitFinished s =>
    have ht : m.msgType = typeFinished := UInt8.toNat_inj.1 (List.mem_singleton.1 ht)
    exact absurd ⟨.finished ⟨m.body.length, m.body⟩, by rw [ht]; rfl, rfl, rfl, trivial, trivial⟩ h
  | connected s =>
    simp only [Answers, CState.step, Connected.process, he]
    rfl

/-- **C76.** A server answers a message that does not decode with decode_error. -/
theorem C76_undecodable_server {E : Env} {x : Ctx} {c : Coins} {s : SState} {m : Msg} (ht : m.msgType.toNat ∈ awaitedByServer s)
    (h : ¬ WellFormed x.datagram E.parses m) : Answers (s.step E x c (.msg m)) .decodeError := by
  by_cases hch : m.msgType = typeClientHello
  · cases s with
    | start s =>
      have hr : readBody x.datagram E.parses m.msgType m.body =
          (safeUnmarshal (ClientHello.unmarshal (wireVersion x)) m.body).bind fun b => .ok (.clientHello b) := by
        rw [hch]; rfl
      have hsafe := C32_client_hello_safe (wireVersion x) m.body
      simp only [Answers, SState.step, SStart.next, readHello, if_neg (not_not.2 hch)]
      cases hu : safeUnmarshal (ClientHello.unmarshal (wireVersion x)) m.body with
      | err e => rfl
      | panic => rw [hu] at hsafe; cases hsafe
      | diverge => rw [hu] at hsafe; cases hsafe
      | ok ch =>
        rw [hu] at hr
        simp only [orAlert, Res.bind_ok]
        by_cases hv : ch.version ≠ wireVersion x
        · rw [if_pos hv]; rfl
        · rw [not_not] at hv
          exact absurd ⟨_, read_decodes (b := .clientHello ch) hv hr⟩ h
    | negotiated s => cases ht
    | readPast => cases ht
    | waitFlight2 s => cases ht
    | _ => rw [hch] at ht; exact absurd ht (by simp [awaitedByServer, typeClientHello])
  obtain ⟨e, he⟩ := not_read hch h
  cases s with
  | start s => exact absurd (UInt8.toNat_inj.1 (List.mem_singleton.1 ht)) hch
  | negotiated s => cases ht
  | readPast => cases ht
  | waitFlight2 s => cases ht
  | waitEOED s =>
    have ht : m.msgType = typeEndOfEarlyData := UInt8.toNat_inj.1 (List.mem_singleton.1 ht)
    have hb : m.body ≠ [] := by
      intro hb
      exact h ⟨.endOfEarlyData, by rw [ht]; rfl, hb, trivial, trivial, trivial⟩
    simp only [Answers, SState.step, SWait.nextEOED, if_neg (not_not.2 ht), if_pos (List.length_pos_iff.2 hb)]
    rfl
  | waitCert s =>
    have ht : m.msgType = typeCertificate := UInt8.toNat_inj.1 (List.mem_singleton.1 ht)
    rw [ht] at he
    have he : safeUnmarshal (CertificateMsg.unmarshal E.parses) m.body = .err e := bind_ok_err he
    simp only [Answers, SState.step, SWait.nextCert, if_neg (not_not.2 ht), he]
    rfl
  | waitCV s =>
    have ht : m.msgType = typeCertificateVerify := UInt8.toNat_inj.1 (List.mem_singleton.1 ht)
    rw [ht] at he
    have he : safeUnmarshal CertVerify.unmarshal m.body = .err e := bind_ok_err he
    simp only [Answers, SState.step, SWaitCV.next, if_neg (not_not.2 ht), he]
    rfl
  | waitFinished s =>
    have ht : m.msgType = typeFinished := UInt8.toNat_inj.1 (List.mem_singleton.1 ht)
    exact absurd ⟨.finished ⟨m.body.length, m.body⟩, by rw [ht]; rfl, rfl, rfl, trivial, trivial⟩ h
  | connected s =>
    simp only [Answers, SState.step, Connected.process, he]
    rfl

/-! ### Deviations from RFC 8446 -/

/-- **C76.** A wrong Finished is answered with handshake_failure; section 4.4.4 demands decrypt_error. -/
theorem C76_wrong_finished_fails {E : Env} (hP : E.P.Sized) {x : Ctx} {m : Msg} (ht : m.msgType.toNat = 20) :
    (∀ {c : Coins} {s : CWaitFinished}, 0 < s.sec.cp.hash.size → m.body.length = s.sec.cp.hash.size →
      ¬ FinishedGood E.P s.sec.cp.hash s.sec.hs.serverHs s.sec.transcript m →
      Answers ((CState.waitFinished s).step E x c (.msg m)) .handshakeFailure) ∧
    (∀ {c : Coins} {s : SWaitFinished}, 0 < s.sec.cp.hash.size → m.body.length = s.sec.cp.hash.size →
      ¬ FinishedGood E.P s.sec.cp.hash s.sec.clientHs s.sec.transcript m →
      Answers ((SState.waitFinished s).step E x c (.msg m)) .handshakeFailure) := by
  have ht : m.msgType = typeFinished := UInt8.toNat_inj.1 ht
  constructor
  · intro c s hz hl hg
    have hc := computeFinishedData_eq E.P hP s.sec.cp.hash hz s.sec.hs.serverHs s.sec.transcript
    rw [FinishedGood, hc, Res.ok.injEq] at hg
    have hlen : (finishedMac E.P s.sec.cp.hash s.sec.hs.serverHs s.sec.transcript).length = s.sec.cp.hash.size := hP.hmac _ _ _
    have hu : safeUnmarshal (Finished.unmarshal s.sec.cp.hash.size) m.body = .ok ⟨m.body.length, m.body⟩ := by
      rw [safeUnmarshal_ok, ← hl]; simp [Finished.unmarshal]
    simp only [Answers, CState.step, CWaitFinished.next, if_neg (not_not.2 ht), hc, Res.bind_ok, hlen, hu, orAlert]
    rw [if_pos (Ne.symm hg)]
    rfl
  · intro c s hz hl hg
    have hc := computeFinishedData_eq E.P hP s.sec.cp.hash hz s.sec.clientHs s.sec.transcript
    rw [FinishedGood, hc, Res.ok.injEq] at hg
    have hlen : (finishedMac E.P s.sec.cp.hash s.sec.clientHs s.sec.transcript).length = s.sec.cp.hash.size := hP.hmac _ _ _
    have hu : safeUnmarshal (Finished.unmarshal s.sec.cp.hash.size) m.body = .ok ⟨m.body.length, m.body⟩ := by
      rw [safeUnmarshal_ok, ← hl]; simp [Finished.unmarshal]
    simp only [Answers, SState.step, SWaitFinished.next, if_neg (not_not.2 ht), hc, Res.bind_ok, hlen, hu, orAlert]
    rw [if_pos (Ne.symm hg)]
    rfl

/-- **C76.** A CertificateVerify with a bad signature is answered with handshake_failure; section 4.4.3 demands decrypt_error. -/
theorem C76_bad_signature_fails {E : Env} {x : Ctx} {m : Msg} {cv : CertVerify}
    (hd : Decodes x.datagram E.parses m (.certificateVerify cv)) :
    (∀ {c : Coins} {s : CWaitCV} {e es leaf}, s.cert.list = e :: es → E.x509 e.1 = some leaf →
      ¬ SignatureGood E s.cert (E.P.hash s.sec.cp.hash s.sec.transcript) cv →
      Answers ((CState.waitCV s).step E x c (.msg m)) .handshakeFailure) ∧
    (∀ {c : Coins} {s : SWaitCV} {e es leaf}, s.cert.list = e :: es → E.x509 e.1 = some leaf →
      ¬ SignatureGood E s.cert (E.P.hash s.sec.cp.hash s.sec.transcript) cv →
      Answers ((SState.waitCV s).step E x c (.msg m)) .handshakeFailure) := by
  have ht : m.msgType = typeCertificateVerify := UInt8.toNat_inj.1 hd.1
  have hu : safeUnmarshal CertVerify.unmarshal m.body = .ok cv := by
    have h1 : readBody x.datagram E.parses typeCertificateVerify m.body = .ok (.certificateVerify cv) := by
      rw [hd.2.1]; exact C74_message_accepted hd.2.2.1 hd.2.2.2.1 hd.2.2.2.2
    have h2 : (safeUnmarshal CertVerify.unmarshal m.body).bind (fun b => .ok (.certificateVerify b)) =
      .ok (Body.certificateVerify cv) := h1
    rw [Res.bind_eq_ok] at h2
    obtain ⟨cv', h3, h4⟩ := h2
    cases h4
    exact h3
  constructor
  · intro c s e es leaf hl hx hg
    have hv : (!cv.verify E.P E.S leaf.pub (E.P.hash s.sec.cp.hash s.sec.transcript)) = true := by
      rw [Bool.not_eq_true', ← Bool.not_eq_true]
      exact fun h1 => hg ⟨e, es, leaf, hl, hx, h1⟩
    simp only [Answers, CState.step, CWaitCV.next, if_neg (not_not.2 ht), hu, orAlert, Res.bind_ok, leafKey, hl, hx, if_pos hv]
    rfl
  · intro c s e es leaf hl hx hg
    have hv : (!cv.verify E.P E.S leaf.pub (E.P.hash s.sec.cp.hash s.sec.transcript)) = true := by
      rw [Bool.not_eq_true', ← Bool.not_eq_true]
      exact fun h1 => hg ⟨e, es, leaf, hl, hx, h1⟩
    simp only [Answers, SState.step, SWaitCV.next, if_neg (not_not.2 ht), hu, orAlert, Res.bind_ok, leafKey, hl, hx, if_pos hv]
    rfl

/-- **C76.** A ServerHello that does not decode is answered with unexpected_message; section 6.2 demands decode_error. -/
theorem C76_undecodable_server_hello_fails {E : Env} {x : Ctx} {c : Coins} {s : CWaitSH} {m : Msg} (ht : m.msgType.toNat = 2)
    (h : ∀ sh extra, MessageFits (.serverHello sh) → m.body ≠ messageBody (.serverHello sh) ++ extra) :
    Answers ((CState.waitSH s).step E x c (.msg m)) .unexpectedMessage := by
  have ht : m.msgType = typeServerHello := UInt8.toNat_inj.1 ht
  have hs := ServerHello.unmarshal_safe m.body
  simp only [Answers, CState.step, CWaitSH.next, checkHello, if_neg (not_not.2 ht)]
  cases hu : ServerHello.unmarshal m.body with
  | err e => rfl
  | panic => rw [hu] at hs; cases hs
  | diverge => rw [hu] at hs; cases hs
  | ok r =>
    obtain ⟨extra, h1, h2⟩ := serverHello_reads hu
    exact absurd h1 (h _ _ h2)

/-- **C32, C76.** Bytes after a ServerHello are ignored by a client; section 6.2 demands decode_error. -/
theorem C32_server_hello_trailing_fails {E : Env} {x : Ctx} {s : CWaitSH} {m : Msg} {sh : ServerHello} (extra : Bytes)
    (hf : MessageFits (.serverHello sh)) :
    checkHello s { m with msgType := 2, body := messageBody (.serverHello sh) ++ extra } =
      checkHello s { m with msgType := 2, body := messageBody (.serverHello sh) } ∧
    (extra ≠ [] → ¬ WellFormed x.datagram E.parses { m with msgType := 2, body := messageBody (.serverHello sh) ++ extra }) := by
  have h1 : readBody false (fun _ => true) typeServerHello (messageBody (.serverHello sh)) = .ok (.serverHello sh) :=
    C74_message_accepted hf trivial trivial
  have h2 : (safeUnmarshal ServerHello.unmarshal (messageBody (.serverHello sh))).bind (fun b => .ok (.serverHello b)) =
      .ok (Body.serverHello sh) := h1
  rw [Res.bind_eq_ok] at h2
  obtain ⟨sh', h3, h4⟩ := h2
  cases h4
  rw [safeUnmarshal_ok] at h3
  have h4 := ServerHello.stable _ _ extra h3
  constructor
  · simp only [checkHello, h3, h4, orAlert, Res.bind_ok]
  · intro hne hw
    obtain ⟨b, -, h5⟩ := wellFormed_read hw
    have h6 : (safeUnmarshal ServerHello.unmarshal (messageBody (.serverHello sh) ++ extra)).bind (fun b => .ok (.serverHello b)) =
      .ok b := h5
    rw [Res.bind_eq_ok] at h6
    obtain ⟨sh', h7, -⟩ := h6
    rw [safeUnmarshal_ok, h4] at h7
    simp only [Res.ok.injEq, Prod.mk.injEq, List.length_append] at h7
    exact hne (List.length_eq_zero_iff.1 (by omega))

/-- **C76.** A ServerHello (a) without supported_versions is answered with missing_extension, (b) with a version other than
TLS 1.3 in it with protocol_version, (c) with a suite that was not offered with handshake_failure. RFC 8446 demands
protocol_version for (a) of a client that has nothing but TLS 1.3 (section 4.2.1 and appendix D), and illegal_parameter for (b)
and (c) (sections 4.2.1 and 4.1.3). -/
theorem C76_server_hello_choice_fails {E : Env} {x : Ctx} {c : Coins} {s : CWaitSH} {m : Msg} {sh : ServerHello}
    (hd : Decodes x.datagram E.parses m (.serverHello sh)) (hv : sh.version = 0x0303) :
    (dataOf 43 sh.exts = [] → Answers ((CState.waitSH s).step E x c (.msg m)) .missingExtension) ∧
    (∀ v, dataOf 43 sh.exts = [be16 v] → v ≠ 0x0304 → Answers ((CState.waitSH s).step E x c (.msg m)) .protocolVersion) ∧
    (dataOf 43 sh.exts = [be16 0x0304] → sh.suite ∉ s.cfg.suites →
      Answers ((CState.waitSH s).step E x c (.msg m)) .handshakeFailure) := by
  have ht : m.msgType = typeServerHello := UInt8.toNat_inj.1 hd.1
  have h1 : readBody x.datagram E.parses typeServerHello m.body = .ok (.serverHello sh) := by
    rw [hd.2.1]; exact C74_message_accepted hd.2.2.1 hd.2.2.2.1 hd.2.2.2.2
  have h2 : (safeUnmarshal ServerHello.unmarshal m.body).bind (fun b => .ok (.serverHello b)) = .ok (Body.serverHello sh) := h1
  rw [Res.bind_eq_ok] at h2
  obtain ⟨sh', h3, h4⟩ := h2
  cases h4
  rw [safeUnmarshal_ok] at h3
  have hk : (43 : UInt16) = ExtKind.type (.supportedVersions typeServerHello) := rfl
  have hun (v : UInt16) : safeUnmarshal (ExtKind.unmarshal (.supportedVersions typeServerHello)) (be16 v) =
      .ok (.supportedVersions typeServerHello [v]) := by
    have := (C74_extension_accepted_partial (b := .supportedVersions typeServerHello [v]) (Or.inr ⟨Or.inl rfl, rfl⟩) trivial).2
    exact this
  refine ⟨?_, ?_, ?_⟩
  · intro hs
    rw [hk] at hs
    simp only [Answers, CState.step, CWaitSH.next, checkHello, if_neg (not_not.2 ht), h3, orAlert, Res.bind_ok,
      if_neg (not_not.2 (show sh.version = tls12Version from hv)), C30_find, hs]
    rfl
  · intro v hs hne
    rw [hk] at hs
    simp only [Answers, CState.step, CWaitSH.next, checkHello, if_neg (not_not.2 ht), h3, orAlert, Res.bind_ok,
      if_neg (not_not.2 (show sh.version = tls12Version from hv)), C30_find, hs, hun, if_pos (show v ≠ tls13Version from hne)]
    rfl
  · intro hs hsu
    rw [hk] at hs
    have hany : (!s.cfg.suites.any (· == sh.suite)) = true := by
      simp only [Bool.not_eq_true', List.any_eq_false, beq_iff_eq]
      rintro y hy rfl
      exact hsu hy
    simp only [Answers, CState.step, CWaitSH.next, checkHello, if_neg (not_not.2 ht), h3, orAlert, Res.bind_ok,
      if_neg (not_not.2 (show sh.version = tls12Version from hv)), C30_find, hs, hun,
      if_neg (not_not.2 (show (0x0304 : UInt16) = tls13Version from rfl)), if_pos hany]
    rfl

/-- **C76.** Where two types of message are possible, one of an unknown type is answered with decode_error; section 4 demands
unexpected_message. -/
theorem C76_unknown_type_fails {E : Env} {x : Ctx} {c : Coins} {m : Msg} (h : m.msgType.toNat ∉ [1, 2, 4, 5, 8, 11, 13, 15, 20, 24]) :
    (∀ s, Answers ((CState.waitCertCR s).step E x c (.msg m)) .decodeError) ∧
    (∀ s, Answers ((CState.connected s).step E x c (.msg m)) .decodeError) ∧
    (∀ s, Answers ((SState.connected s).step E x c (.msg m)) .decodeError) := by
  have hb : toBody E.parses m.msgType m.body = .err .msg := by
    have hne (t : UInt8) (ht : t.toNat ∈ [1, 2, 4, 5, 8, 11, 13, 15, 20, 24]) : ¬ m.msgType = t := fun h1 => h (by rw [h1]; exact ht)
    simp only [toBody, if_neg (hne typeClientHello (by decide)), if_neg (hne typeServerHello (by decide)),
      if_neg (hne typeEncryptedExtensions (by decide)), if_neg (hne typeCertificate (by decide)),
      if_neg (hne typeCertificateRequest (by decide)), if_neg (hne typeCertificateVerify (by decide)),
      if_neg (hne typeFinished (by decide)), if_neg (hne typeNewSessionTicket (by decide)),
      if_neg (hne typeKeyUpdate (by decide)), if_neg (hne typeEndOfEarlyData (by decide))]
  refine ⟨fun s => ?_, fun s => ?_, fun s => ?_⟩
  · simp only [Answers, CState.step, CWaitEE.nextCertCR, hb]; rfl
  · simp only [Answers, CState.step, Connected.process, hb]; rfl
  · simp only [Answers, SState.step, Connected.process, hb]; rfl

/-- **C76.** A CertificateRequest without signature_algorithms is accepted; section 4.3.2 demands missing_extension. -/
theorem C76_request_without_algorithms_fails {E : Env} {x : Ctx} {c : Coins} {s : CWaitEE} {m : Msg} {r : CertRequest}
    (hd : Decodes x.datagram E.parses m (.certificateRequest r)) (hc : r.context = []) :
    ∃ s', (CState.waitCertCR s).step E x c (.msg m) = .ok (.waitCert s', [], x) := by
  have ht : m.msgType = typeCertificateRequest := UInt8.toNat_inj.1 hd.1
  have h1 : toBody E.parses m.msgType m.body = .ok (.certificateRequest r) := by
    have : readBody x.datagram E.parses typeCertificateRequest m.body = .ok (.certificateRequest r) := by
      rw [hd.2.1]; exact C74_message_accepted hd.2.2.1 hd.2.2.2.1 hd.2.2.2.2
    rw [ht]; exact this
  simp only [CState.step, CWaitEE.nextCertCR, h1, orAlert, Res.bind_ok, hc]
  exact ⟨_, rfl⟩

/-- **C76.** What is not a handshake message, or does not decrypt, ends a handshake with close_notify; RFC 8446 demands
unexpected_message (section 5) or bad_record_mac (section 5.2). -/
theorem C76_other_records_fails {E : Env} {x : Ctx} {c : Coins} :
    (∀ {s : CState} {d : Bytes}, (∀ k, s ≠ .connected k) → Answers (s.step E x c (.appData d)) .closeNotify) ∧
    (∀ {s : CState}, Answers (s.step E x c .bad) .closeNotify) ∧
    (∀ {s : SState} {d : Bytes}, s ≠ .readPast → (∀ k, s ≠ .waitEOED k) → (∀ k, s ≠ .connected k) →
      Answers (s.step E x c (.appData d)) .closeNotify) ∧
    (∀ {s : SState}, s ≠ .readPast → (∀ k, s ≠ .waitEOED k) → Answers (s.step E x c .bad) .closeNotify) := by
  refine ⟨?_, ?_, ?_, ?_⟩
  · intro s d hs
    cases s <;> first | rfl | exact absurd rfl (hs _)
  · intro s; rfl
  · intro s d h1 h2 h3
    cases s <;> first | rfl | exact absurd rfl h1 | exact absurd rfl (h2 _) | exact absurd rfl (h3 _)
  · intro s h1 h2
    cases s <;> first | rfl | exact absurd rfl h1 | exact absurd rfl (h2 _)

/-- **C76.** A server waiting for the end of early data answers what does not decrypt with bad_record_mac. -/
theorem C76_early_data_mac {E : Env} {x : Ctx} {c : Coins} {s : SWait} : Answers ((SState.waitEOED s).step E x c .bad) .badRecordMac := rfl

/-- **C76.** The alert of a failed transition, other than close_notify, is returned to the application but not sent: a fatal alert
that is sent closes the transport with it (conn.go:512-536), and the transport stays open. Section 6.2 demands that it be sent. An
alert for an action that fails is sent. -/
theorem C76_not_sent_fails {E : Env} {cn : Conn.HConn} {t : Conn.Turn} {ts : List Conn.Turn} {st : Conn.HState}
    (hst : cn.hState = some st) (hc : st.connected? = none) (ho : cn.closed = false) :
    (∀ a, st.next E cn.x t = .err (.alert a) → a ≠ 0 →
      (cn.loop E (t :: ts)).1 = .err (.alert a) ∧ (cn.loop E (t :: ts)).2.closed = false) ∧
    (∀ a r, st.next E cn.x t = .ok r → (Conn.HConn.takeAll t.fail 0 { cn with x := r.2.2.1 } r.2.1).1 = some a → a ≠ 0 → a ≠ 100 →
      (cn.loop E (t :: ts)).1 = .err (.alert a) ∧ (cn.loop E (t :: ts)).2.closed = true) := by
  constructor
  · intro a h h0
    unfold Conn.HConn.loop
    simp only [hst, hc, Option.isSome_none, Bool.false_eq_true, if_false, h]
    refine ⟨rfl, ?_⟩
    rw [if_neg (show ¬ a = Alert.closeNotify from h0)]
    exact ho
  · rintro a ⟨st', acts, x', retry⟩ h ht h0 h100
    obtain ⟨_, _, _, _, _, _, _, _, _, _, _, _, _⟩ := cn
    dsimp only at hst h
    subst hst
    unfold Conn.HConn.loop
    simp only [hc, Option.isSome_none, Bool.false_eq_true, if_false, h]
    generalize hT : Conn.HConn.takeAll t.fail 0 _ acts = T at ht ⊢
    cases T with
    | mk o c' =>
      dsimp only at ht
      subst ht
      refine ⟨rfl, ?_⟩
      simp only [Conn.HConn.sendAlert, if_neg (show ¬ (a = 100 ∨ a = Alert.closeNotify) from fun h => h.elim h100 h0)]

/-- A client that waits for a Certificate and gets a message of type 9. -/
example (E : Env) (cn : Conn.HConn) (s : CWaitCert) (t : Conn.Turn) (h : cn.hState = some (.client (.waitCert s)))
    (ho : cn.closed = false) (he : t.event = some (.msg ⟨9, 0, [], 0, 0⟩)) :
    (cn.loop E [t]).1 = .err (.alert 10) ∧ (cn.loop E [t]).2.closed = false :=
  (C76_not_sent_fails h rfl ho).1 10 (by simp only [Conn.HState.next, Conn.clientNext, he]; rfl) (by decide)

/-! ### Cases

What the two ends of a handshake in the toy world answer when one message of it is changed. -/

def answer {α : Type} : Res α → Option Nat
  | .err (.alert a) => some a
  | _ => none

theorem answer_ok {α : Type} {r : Res α} {a : Nat} (h : answer r = some a) : r = .err (.alert a) := by
  unfold answer at h
  split at h
  · cases h; rfl
  · cases h

/-- The message at a place is changed. -/
def spoil (i : Nat) (f : Msg → Msg) (es : List (Event × Coins)) : List (Event × Coins) :=
  es.mapIdx fun j e => if j = i then (match e.1 with | .msg m => (.msg (f m), e.2) | _ => e) else e

/-- What a client answers when message `i` of ServerHello, EncryptedExtensions, Certificate, CertificateVerify and Finished is
changed. -/
def clientAnswer (i : Nat) (f : Msg → Msg) : Option Nat :=
  answer (clientRun Toy.env Toy.tls Toy.clientCfg (Toy.coins 2) (spoil i f (Toy.exchange Toy.tls Toy.clientCfg Toy.serverCfg 2).1))

/-- What a server answers when message `i` of ClientHello and Finished is changed. -/
def serverAnswer (i : Nat) (f : Msg → Msg) : Option Nat :=
  answer (serverRun Toy.env Toy.tls Toy.serverCfg (spoil i f (Toy.exchange Toy.tls Toy.clientCfg Toy.serverCfg 2).2))

def otherBody (m : Msg) : Msg := { m with body := m.body.map (· + 1) }
def longer (m : Msg) : Msg := { m with body := m.body ++ [0] }
def otherEnd (m : Msg) : Msg := { m with body := m.body.dropLast ++ [m.body.getLast?.getD 0 + 1] }

/-- Of the wrong type: unexpected_message, but decode_error where a CertificateRequest is possible. -/
example : (List.range 5).map (fun i => clientAnswer i fun m => { m with msgType := 9 }) =
    [some 10, some 10, some 50, some 10, some 10] := by decide +kernel
example : (List.range 2).map (fun i => serverAnswer i fun m => { m with msgType := 9 }) = [some 10, some 10] := by decide +kernel

/-- Not decodable: decode_error, but unexpected_message for a ServerHello. A Finished of the right length decodes. -/
example : (List.range 5).map (fun i => clientAnswer i otherBody) = [some 10, some 50, some 50, some 50, some 40] := by decide +kernel
example : (List.range 2).map (fun i => serverAnswer i otherBody) = [some 50, some 40] := by decide +kernel

/-- A byte too many: decode_error; a ServerHello is read without it, and the handshake fails at the next check of what was
said. -/
example : (List.range 5).map (fun i => clientAnswer i longer) = [some 40, some 50, some 50, some 50, some 50] := by decide +kernel
example : (List.range 2).map (fun i => serverAnswer i longer) = [some 50, some 50] := by decide +kernel

/-- The last byte of the signature or the MAC changed: handshake_failure. -/
example : [clientAnswer 3 otherEnd, clientAnswer 4 otherEnd, serverAnswer 1 otherEnd] = [some 40, some 40, some 40] := by
  decide +kernel

end Verif.Props

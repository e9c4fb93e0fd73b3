import Verif.Props.Extensions
import Verif.Messages.Encoding

/-
C31 and C32 for handshake messages, C33 (truncated ClientHello).
-/

namespace Verif.Messages

open Verif Verif.Syntax Verif.Spec

/-! ### ToBody by message type -/

theorem toBody_clientHello (parses : Bytes → Bool) (bs : Bytes) : toBody parses typeClientHello bs =
    (safeUnmarshal (ClientHello.unmarshal 0) bs).bind fun b => .ok (.clientHello b) := rfl

theorem toBody_serverHello (parses : Bytes → Bool) (bs : Bytes) : toBody parses typeServerHello bs =
    (safeUnmarshal ServerHello.unmarshal bs).bind fun b => .ok (.serverHello b) := rfl

theorem toBody_encryptedExtensions (parses : Bytes → Bool) (bs : Bytes) : toBody parses typeEncryptedExtensions bs =
    (safeUnmarshal unmarshalEE bs).bind fun b => .ok (.encryptedExtensions b) := rfl

theorem toBody_certificate (parses : Bytes → Bool) (bs : Bytes) : toBody parses typeCertificate bs =
    (safeUnmarshal (CertificateMsg.unmarshal parses) bs).bind fun b => .ok (.certificate b) := rfl

theorem toBody_certificateRequest (parses : Bytes → Bool) (bs : Bytes) : toBody parses typeCertificateRequest bs =
    (safeUnmarshal CertRequest.unmarshal bs).bind fun b => .ok (.certificateRequest b) := rfl

theorem toBody_certificateVerify (parses : Bytes → Bool) (bs : Bytes) : toBody parses typeCertificateVerify bs =
    (safeUnmarshal CertVerify.unmarshal bs).bind fun b => .ok (.certificateVerify b) := rfl

theorem toBody_newSessionTicket (parses : Bytes → Bool) (bs : Bytes) : toBody parses typeNewSessionTicket bs =
    (safeUnmarshal Ticket.unmarshal bs).bind fun b => .ok (.newSessionTicket b) := rfl

theorem toBody_keyUpdate (parses : Bytes → Bool) (bs : Bytes) : toBody parses typeKeyUpdate bs =
    (safeUnmarshal unmarshalKeyUpdate bs).bind fun b => .ok (.keyUpdate b) := rfl

theorem toBody_endOfEarlyData (parses : Bytes → Bool) (bs : Bytes) : toBody parses typeEndOfEarlyData bs =
    (safeUnmarshal (fun _ => .ok ((), 0)) bs).bind fun _ => .ok .endOfEarlyData := rfl

/-! ### C31 -/

/-- Bodies that ToBody is meant to read back: a ClientHello in the TLS layout without a session ID, certificates that are
certificates. Every other body qualifies. -/
def Carried (parses : Bytes → Bool) : Body → Prop
  | .clientHello ch => ch.version = 0x0303 ∧ ch.sessionId = []
  | .certificate c => ∀ e ∈ c.list, parses e.1 = true
  | _ => True

/-- Every handshake message body that marshals is read back, with the same contents, from exactly those bytes. -/
theorem C31_body_roundtrip_partial (parses : Bytes → Bool) (b : Body) (bs : Bytes) (hc : Carried parses b)
    (h : b.marshal = .ok bs) : toBody parses b.type bs = .ok b := by
  cases b <;> simp only [Body.marshal] at h <;> simp only [Body.type]
  case clientHello ch =>
    obtain ⟨v, r, sid, cs, exts⟩ := ch
    obtain ⟨h1, h2⟩ := hc
    simp only at h1 h2
    subst h1 h2
    simp only [ClientHello.marshal, show (0x0303 : UInt16) = tls12Version from rfl, if_true] at h
    have : safeUnmarshal (ClientHello.unmarshal 0) bs = .ok ⟨0x0303, r, [], cs, exts⟩ := by
      rw [safeUnmarshal_ok]
      simp [ClientHello.unmarshal, plain_self plain_chTls h, dtls12WireVersion, tls12Version]
    simp [toBody, this]
  case serverHello sh =>
    have : safeUnmarshal ServerHello.unmarshal bs = .ok sh := by
      rw [safeUnmarshal_ok]; simp [ServerHello.unmarshal, plain_self plain_sh h]
    simp [toBody, this, typeClientHello, typeServerHello]
  case encryptedExtensions exts =>
    have : safeUnmarshal unmarshalEE bs = .ok exts := by
      rw [safeUnmarshal_ok]; simp [unmarshalEE, plain_self plain_ee h]
    simp [toBody, this, typeClientHello, typeServerHello, typeEncryptedExtensions]
  case certificate c =>
    have : safeUnmarshal (CertificateMsg.unmarshal parses) bs = .ok c := by
      rw [safeUnmarshal_ok]
      have h2 : (c.list.all fun e => parses e.1) = true := List.all_eq_true.2 hc
      simp [CertificateMsg.unmarshal, plain_self plain_cert h, h2]
    simp [toBody, this, typeClientHello, typeServerHello, typeEncryptedExtensions, typeCertificate]
  case certificateRequest cr =>
    have : safeUnmarshal CertRequest.unmarshal bs = .ok cr := by
      rw [safeUnmarshal_ok]; simp [CertRequest.unmarshal, plain_self plain_certRequest h]
    simp [toBody, this, typeClientHello, typeServerHello, typeEncryptedExtensions, typeCertificate, typeCertificateRequest]
  case certificateVerify cv =>
    have : safeUnmarshal CertVerify.unmarshal bs = .ok cv := by
      rw [safeUnmarshal_ok]; simp [CertVerify.unmarshal, plain_self plain_certVerify h]
    simp [toBody, this, typeClientHello, typeServerHello, typeEncryptedExtensions, typeCertificate, typeCertificateRequest,
      typeCertificateVerify]
  case finished f =>
    obtain ⟨n, d⟩ := f
    simp only [Finished.marshal] at h
    split at h
    · simp at h
    · rename_i hn
      simp only [Res.ok.injEq, ne_eq, Decidable.not_not] at h hn
      subst h hn
      have : safeUnmarshal (Finished.unmarshal d.length) d = .ok ⟨d.length, d⟩ := by
        rw [safeUnmarshal_ok]; simp [Finished.unmarshal]
      simp [toBody, this, typeClientHello, typeServerHello, typeEncryptedExtensions, typeCertificate, typeCertificateRequest,
        typeCertificateVerify, typeFinished]
  case newSessionTicket t =>
    have : safeUnmarshal Ticket.unmarshal bs = .ok t := by
      rw [safeUnmarshal_ok]; simp [Ticket.unmarshal, plain_self plain_ticket h]
    simp [toBody, this, typeClientHello, typeServerHello, typeEncryptedExtensions, typeCertificate, typeCertificateRequest,
      typeCertificateVerify, typeFinished, typeNewSessionTicket]
  case keyUpdate r =>
    have : safeUnmarshal unmarshalKeyUpdate bs = .ok r := by
      rw [safeUnmarshal_ok]; simp [unmarshalKeyUpdate, plain_self plain_keyUpdate h]
    simp [toBody, this, typeClientHello, typeServerHello, typeEncryptedExtensions, typeCertificate, typeCertificateRequest,
      typeCertificateVerify, typeFinished, typeNewSessionTicket, typeKeyUpdate]
  case endOfEarlyData =>
    simp only [Res.ok.injEq] at h
    subst h
    simp [toBody, safeUnmarshal, typeClientHello, typeServerHello, typeEncryptedExtensions, typeCertificate, typeCertificateRequest,
      typeCertificateVerify, typeFinished, typeNewSessionTicket, typeKeyUpdate, typeEndOfEarlyData]

/-- The ClientHello a server reads in its own layout (TLS or DTLS) is the one sent in that layout. -/
theorem C31_client_hello_roundtrip_partial (ch : ClientHello) (bs : Bytes)
    (hv : ch.version = 0x0303 ∨ ch.version = 0xfefd) (hs : ch.sessionId = []) (h : ch.marshal = .ok bs) :
    safeUnmarshal (ClientHello.unmarshal ch.version) bs = .ok ch := by
  obtain ⟨v, r, sid, cs, exts⟩ := ch
  simp only at hv hs
  subst hs
  rw [safeUnmarshal_ok]
  rcases hv with rfl | rfl
  · simp only [ClientHello.marshal, show (0x0303 : UInt16) = tls12Version from rfl, if_true] at h
    simp [ClientHello.unmarshal, plain_self plain_chTls h, dtls12WireVersion, tls12Version]
  · simp only [ClientHello.marshal, show ¬ (0xfefd : UInt16) = tls12Version from by decide, if_false] at h
    simp [ClientHello.unmarshal, plain_self plain_chDtls h, dtls12WireVersion]

def zeroRandom : Random := ⟨List.replicate 32 0, by simp⟩

/-- What is missing from C31: a session ID set in a ClientHello is not sent. -/
theorem C31_session_id_fails (parses : Bytes → Bool) : ∃ (ch : ClientHello) (bs : Bytes), ch.marshal = .ok bs ∧
    ∃ ch', toBody parses typeClientHello bs = .ok (.clientHello ch') ∧ ch'.sessionId ≠ ch.sessionId := by
  have hm : ∃ bs, (Body.clientHello ⟨0x0303, zeroRandom, [], [0x1301], []⟩).marshal = .ok bs := ⟨_, rfl⟩
  obtain ⟨bs, hm⟩ := hm
  exact ⟨⟨0x0303, zeroRandom, [1], [0x1301], []⟩, bs, hm, _,
    C31_body_roundtrip_partial parses (.clientHello ⟨0x0303, zeroRandom, [], [0x1301], []⟩) bs ⟨rfl, rfl⟩ hm, by simp⟩

/-- What is missing from C31: ToBody reads every ClientHello in the TLS layout, so it cannot read one sent over DTLS. -/
theorem C31_dtls_client_hello_fails (parses : Bytes → Bool) : ∃ (ch : ClientHello) (bs : Bytes), ch.version = 0xfefd ∧
    ch.sessionId = [] ∧ ch.marshal = .ok bs ∧ ∀ b, toBody parses typeClientHello bs ≠ .ok b := by
  refine ⟨⟨0xfefd, zeroRandom, [], [0x1301], []⟩,
    [0xfe, 0xfd] ++ List.replicate 32 0 ++ [0, 0, 0, 2, 0x13, 1, 1, 0, 0, 0], rfl, rfl, by decide, fun b hb => ?_⟩
  have h0 : toBody parses typeClientHello =
      fun body => (safeUnmarshal (ClientHello.unmarshal 0) body).bind fun b => .ok (.clientHello b) := by
    funext body; simp [toBody]
  rw [h0] at hb
  simp only [Res.bind_eq_ok] at hb
  obtain ⟨ch, h1, -⟩ := hb
  have h2 : (match safeUnmarshal (ClientHello.unmarshal 0)
      ([0xfe, 0xfd] ++ List.replicate 32 0 ++ [0, 0, 0, 2, 0x13, 1, 1, 0, 0, 0]) with
    | .ok _ => false
    | _ => true) = true := by decide +kernel
  rw [h1] at h2
  simp at h2

example : Carried (fun _ => true) (.certificate ⟨[], [([1, 2, 3], [], ())]⟩) ∧
    (Body.certificate ⟨[], [([1, 2, 3], [], ())]⟩).marshal = .ok [0, 0, 0, 8, 0, 0, 3, 1, 2, 3, 0, 0] :=
  ⟨by intro e _; rfl, by decide⟩

/-! ### C32 -/

theorem ClientHello.unmarshal_safe (preset : UInt16) (bs : Bytes) : (ClientHello.unmarshal preset bs).Safe := by
  unfold ClientHello.unmarshal
  split
  · exact Res.safe_bind (plain_safe plain_chTls bs) (by rintro ⟨⟨v, r, sid, cs, comp, exts, u⟩, n⟩ _; dsimp only; split <;> trivial)
  · refine Res.safe_bind (plain_safe plain_chDtls bs) ?_
    rintro ⟨⟨v, r, sid, ck, cs, comp, exts, u⟩, n⟩ _
    dsimp only
    split
    · trivial
    · split <;> trivial

theorem ServerHello.unmarshal_safe (bs : Bytes) : (ServerHello.unmarshal bs).Safe :=
  Res.safe_bind (plain_safe plain_sh bs) (by rintro ⟨⟨v, r, sid, cs, comp, exts, u⟩, n⟩ _; trivial)

theorem CertificateMsg.unmarshal_safe (parses : Bytes → Bool) (bs : Bytes) : (CertificateMsg.unmarshal parses bs).Safe :=
  Res.safe_bind (plain_safe plain_cert bs) (by rintro ⟨⟨c, l, u⟩, n⟩ _; dsimp only; split <;> trivial)

theorem CertVerify.unmarshal_safe (bs : Bytes) : (CertVerify.unmarshal bs).Safe :=
  Res.safe_bind (plain_safe plain_certVerify bs) (by rintro ⟨⟨a, s, u⟩, n⟩ _; trivial)

theorem CertRequest.unmarshal_safe (bs : Bytes) : (CertRequest.unmarshal bs).Safe :=
  Res.safe_bind (plain_safe plain_certRequest bs) (by rintro ⟨⟨a, s, u⟩, n⟩ _; trivial)

theorem Ticket.unmarshal_safe (bs : Bytes) : (Ticket.unmarshal bs).Safe :=
  Res.safe_bind (plain_safe plain_ticket bs) (by rintro ⟨⟨a, s, c, d, e, u⟩, n⟩ _; trivial)

theorem unmarshalEE_safe (bs : Bytes) : (unmarshalEE bs).Safe := Res.safe_bind (plain_safe plain_ee bs) fun _ _ => trivial

theorem unmarshalKeyUpdate_safe (bs : Bytes) : (unmarshalKeyUpdate bs).Safe :=
  Res.safe_bind (plain_safe plain_keyUpdate bs) fun _ _ => trivial

theorem Finished.unmarshal_safe (n : Nat) (bs : Bytes) : (Finished.unmarshal n bs).Safe := by
  unfold Finished.unmarshal; split <;> trivial

/-- Parsing the body of a handshake message of any type from any bytes returns. -/
theorem C32_body_safe (parses : Bytes → Bool) (msgType : UInt8) (bs : Bytes) : (toBody parses msgType bs).Safe := by
  unfold toBody
  repeat' split
  · exact Res.safe_bind (safeUnmarshal_safe (ClientHello.unmarshal_safe 0 bs)) fun _ _ => trivial
  · exact Res.safe_bind (safeUnmarshal_safe (ServerHello.unmarshal_safe bs)) fun _ _ => trivial
  · exact Res.safe_bind (safeUnmarshal_safe (unmarshalEE_safe bs)) fun _ _ => trivial
  · exact Res.safe_bind (safeUnmarshal_safe (CertificateMsg.unmarshal_safe parses bs)) fun _ _ => trivial
  · exact Res.safe_bind (safeUnmarshal_safe (CertRequest.unmarshal_safe bs)) fun _ _ => trivial
  · exact Res.safe_bind (safeUnmarshal_safe (CertVerify.unmarshal_safe bs)) fun _ _ => trivial
  · exact Res.safe_bind (safeUnmarshal_safe (Finished.unmarshal_safe _ bs)) fun _ _ => trivial
  · exact Res.safe_bind (safeUnmarshal_safe (Ticket.unmarshal_safe bs)) fun _ _ => trivial
  · exact Res.safe_bind (safeUnmarshal_safe (unmarshalKeyUpdate_safe bs)) fun _ _ => trivial
  · exact Res.safe_bind (safeUnmarshal_safe (u := fun _ => .ok ((), 0)) (bs := bs) trivial) fun _ _ => trivial
  · trivial

/-- Parsing a ClientHello in either layout, as a server does, returns. -/
theorem C32_client_hello_safe (preset : UInt16) (bs : Bytes) : (safeUnmarshal (ClientHello.unmarshal preset) bs).Safe :=
  safeUnmarshal_safe (ClientHello.unmarshal_safe preset bs)

theorem ClientHello.stable (preset : UInt16) : Stable (ClientHello.unmarshal preset) := by
  unfold ClientHello.unmarshal
  split
  · refine stable_bind plain_chTls _ ?_
    rintro ⟨v, r, sid, cs, comp, exts, u⟩ n b m h
    dsimp only at h
    split at h <;> simp at h
    exact h.2.symm
  · refine stable_bind plain_chDtls _ ?_
    rintro ⟨v, r, sid, ck, cs, comp, exts, u⟩ n b m h
    dsimp only at h
    split at h
    · simp at h
    · split at h <;> simp at h
      exact h.2.symm

theorem ServerHello.stable : Stable ServerHello.unmarshal :=
  stable_bind plain_sh _ (by rintro ⟨v, r, sid, cs, comp, exts, u⟩ n b m h; simp at h; exact h.2.symm)

theorem CertificateMsg.stable (parses : Bytes → Bool) : Stable (CertificateMsg.unmarshal parses) :=
  stable_bind plain_cert _ (by rintro ⟨c, l, u⟩ n b m h; dsimp only at h; split at h <;> simp at h; exact h.2.symm)

theorem CertVerify.stable : Stable CertVerify.unmarshal :=
  stable_bind plain_certVerify _ (by rintro ⟨a, s, u⟩ n b m h; simp at h; exact h.2.symm)

theorem CertRequest.stable : Stable CertRequest.unmarshal :=
  stable_bind plain_certRequest _ (by rintro ⟨a, s, u⟩ n b m h; simp at h; exact h.2.symm)

theorem Ticket.stable : Stable Ticket.unmarshal :=
  stable_bind plain_ticket _ (by rintro ⟨a, s, c, d, e, u⟩ n b m h; simp at h; exact h.2.symm)

theorem unmarshalEE_stable : Stable unmarshalEE :=
  stable_bind plain_ee _ (by rintro ⟨a, u⟩ n b m h; simp at h; exact h.2.symm)

theorem unmarshalKeyUpdate_stable : Stable unmarshalKeyUpdate :=
  stable_bind plain_keyUpdate _ (by rintro ⟨a, u⟩ n b m h; simp at h; exact h.2.symm)

/-- A message with bytes left over after a complete body is refused. (A Finished message has no inner structure: all its
bytes are its contents, see `C32_finished_whole`.) -/
theorem C32_body_trailing (parses : Bytes → Bool) (msgType : UInt8) (bs extra : Bytes) (b b' : Body)
    (ht : msgType ≠ typeFinished) (h : toBody parses msgType bs = .ok b)
    (h' : toBody parses msgType (bs ++ extra) = .ok b') : extra = [] := by
  by_cases c1 : msgType = typeClientHello
  · subst c1
    simp only [toBody_clientHello, Res.bind_eq_ok] at h h'
    obtain ⟨⟨x, hx, -⟩, ⟨y, hy, -⟩⟩ := And.intro h h'
    exact safeUnmarshal_no_trailing (ClientHello.stable 0) hx hy
  by_cases c2 : msgType = typeServerHello
  · subst c2
    simp only [toBody_serverHello, Res.bind_eq_ok] at h h'
    obtain ⟨⟨x, hx, -⟩, ⟨y, hy, -⟩⟩ := And.intro h h'
    exact safeUnmarshal_no_trailing ServerHello.stable hx hy
  by_cases c3 : msgType = typeEncryptedExtensions
  · subst c3
    simp only [toBody_encryptedExtensions, Res.bind_eq_ok] at h h'
    obtain ⟨⟨x, hx, -⟩, ⟨y, hy, -⟩⟩ := And.intro h h'
    exact safeUnmarshal_no_trailing unmarshalEE_stable hx hy
  by_cases c4 : msgType = typeCertificate
  · subst c4
    simp only [toBody_certificate, Res.bind_eq_ok] at h h'
    obtain ⟨⟨x, hx, -⟩, ⟨y, hy, -⟩⟩ := And.intro h h'
    exact safeUnmarshal_no_trailing (CertificateMsg.stable parses) hx hy
  by_cases c5 : msgType = typeCertificateRequest
  · subst c5
    simp only [toBody_certificateRequest, Res.bind_eq_ok] at h h'
    obtain ⟨⟨x, hx, -⟩, ⟨y, hy, -⟩⟩ := And.intro h h'
    exact safeUnmarshal_no_trailing CertRequest.stable hx hy
  by_cases c6 : msgType = typeCertificateVerify
  · subst c6
    simp only [toBody_certificateVerify, Res.bind_eq_ok] at h h'
    obtain ⟨⟨x, hx, -⟩, ⟨y, hy, -⟩⟩ := And.intro h h'
    exact safeUnmarshal_no_trailing CertVerify.stable hx hy
  by_cases c7 : msgType = typeNewSessionTicket
  · subst c7
    simp only [toBody_newSessionTicket, Res.bind_eq_ok] at h h'
    obtain ⟨⟨x, hx, -⟩, ⟨y, hy, -⟩⟩ := And.intro h h'
    exact safeUnmarshal_no_trailing Ticket.stable hx hy
  by_cases c8 : msgType = typeKeyUpdate
  · subst c8
    simp only [toBody_keyUpdate, Res.bind_eq_ok] at h h'
    obtain ⟨⟨x, hx, -⟩, ⟨y, hy, -⟩⟩ := And.intro h h'
    exact safeUnmarshal_no_trailing unmarshalKeyUpdate_stable hx hy
  by_cases c9 : msgType = typeEndOfEarlyData
  · subst c9
    simp only [toBody_endOfEarlyData, Res.bind_eq_ok] at h'
    obtain ⟨y, hy, -⟩ := h'
    rw [safeUnmarshal_ok] at hy
    simp only [Res.ok.injEq, Prod.mk.injEq, List.length_append] at hy
    exact List.length_eq_zero_iff.1 (by omega)
  · simp [toBody, c1, c2, c3, c4, c5, c6, ht, c7, c8, c9] at h

theorem C32_client_hello_trailing (preset : UInt16) (bs extra : Bytes) (ch ch' : ClientHello)
    (h : safeUnmarshal (ClientHello.unmarshal preset) bs = .ok ch)
    (h' : safeUnmarshal (ClientHello.unmarshal preset) (bs ++ extra) = .ok ch') : extra = [] :=
  safeUnmarshal_no_trailing (ClientHello.stable preset) h h'

/-- All bytes of a Finished message are its verify data. -/
theorem C32_finished_whole (parses : Bytes → Bool) (bs : Bytes) :
    toBody parses typeFinished bs = .ok (.finished ⟨bs.length, bs⟩) :=
  C31_body_roundtrip_partial parses (.finished ⟨bs.length, bs⟩) bs trivial (by simp [Body.marshal, Finished.marshal])

/-- A ServerHello read from a message marshals back to the bytes it came from. -/
theorem ServerHello.canonical {bs : Bytes} {sh : ServerHello} (h : safeUnmarshal ServerHello.unmarshal bs = .ok sh) :
    sh.marshal = .ok bs := by
  rw [safeUnmarshal_ok] at h
  simp only [ServerHello.unmarshal, Res.bind_eq_ok] at h
  obtain ⟨⟨⟨v, r, sid, cs, comp, exts, u⟩, n⟩, h1, h2⟩ := h
  simp only [Res.ok.injEq, Prod.mk.injEq] at h2
  obtain ⟨rfl, rfl⟩ := h2
  have := (plain_canonical plain_sh h1).1
  simpa [ServerHello.marshal] using this

/-- A ClientHello without a session ID, read in the layout of its version, marshals back to the bytes it came from. -/
theorem ClientHello.canonical {preset : UInt16} {bs : Bytes} {ch : ClientHello}
    (h : safeUnmarshal (ClientHello.unmarshal preset) bs = .ok ch)
    (hv : ch.version = tls12Version ↔ preset ≠ dtls12WireVersion) (hs : ch.sessionId = []) : ch.marshal = .ok bs := by
  rw [safeUnmarshal_ok] at h
  unfold ClientHello.unmarshal at h
  split at h
  · rename_i hp
    simp only [Res.bind_eq_ok] at h
    obtain ⟨⟨⟨v, r, sid, cs, comp, exts, u⟩, n⟩, h1, h2⟩ := h
    dsimp only at h2
    split at h2
    · simp at h2
    · rename_i hc
      simp only [Res.ok.injEq, Prod.mk.injEq] at h2
      obtain ⟨rfl, rfl⟩ := h2
      simp only [ne_eq, Decidable.not_not] at hc
      simp only at hs hv
      subst hc hs
      have := (plain_canonical plain_chTls h1).1
      simpa [ClientHello.marshal, hv.2 hp] using this
  · rename_i hp
    simp only [Res.bind_eq_ok] at h
    obtain ⟨⟨⟨v, r, sid, ck, cs, comp, exts, u⟩, n⟩, h1, h2⟩ := h
    dsimp only at h2
    split at h2
    · simp at h2
    · rename_i hk
      split at h2
      · simp at h2
      · rename_i hc
        simp only [Res.ok.injEq, Prod.mk.injEq] at h2
        obtain ⟨rfl, rfl⟩ := h2
        simp only [ne_eq, Decidable.not_not] at hc hk
        simp only at hs hv
        subst hc hs hk
        have := (plain_canonical plain_chDtls h1).1
        have hv' : ¬ v = tls12Version := fun h => hp (hv.1 h)
        simpa [ClientHello.marshal, hv'] using this

/-- Every byte of an accepted message is accounted for: the body read marshals back to exactly those bytes (for a
ClientHello, if it is in the layout of its version and has no session ID). -/
theorem C32_body_canonical (parses : Bytes → Bool) (msgType : UInt8) (bs : Bytes) (b : Body)
    (h : toBody parses msgType bs = .ok b)
    (hch : ∀ ch, b = .clientHello ch → ch.version = 0x0303 ∧ ch.sessionId = []) :
    b.type = msgType ∧ b.marshal = .ok bs := by
  unfold toBody at h
  repeat' split at h
  all_goals try simp only [Res.bind_eq_ok, Res.ok.injEq] at h
  all_goals try obtain ⟨x, hx, rfl⟩ := h
  · rename_i ht
    obtain ⟨h1, h2⟩ := hch x rfl
    exact ⟨ht.symm, ClientHello.canonical hx (by rw [h1]; decide) h2⟩
  · exact ⟨by rename_i ht; exact ht.symm, ServerHello.canonical hx⟩
  · refine ⟨by rename_i ht; exact ht.symm, ?_⟩
    rw [safeUnmarshal_ok] at hx
    simp only [unmarshalEE, Res.bind_eq_ok] at hx
    obtain ⟨⟨⟨e, u⟩, n⟩, h1, h2⟩ := hx
    simp only [Res.ok.injEq, Prod.mk.injEq] at h2
    obtain ⟨rfl, rfl⟩ := h2
    have := (plain_canonical plain_ee h1).1
    simpa [Body.marshal] using this
  · refine ⟨by rename_i ht; exact ht.symm, ?_⟩
    rw [safeUnmarshal_ok] at hx
    simp only [CertificateMsg.unmarshal, Res.bind_eq_ok] at hx
    obtain ⟨⟨⟨e, l, u⟩, n⟩, h1, h2⟩ := hx
    dsimp only at h2
    split at h2
    · simp only [Res.ok.injEq, Prod.mk.injEq] at h2
      obtain ⟨rfl, rfl⟩ := h2
      have := (plain_canonical plain_cert h1).1
      simpa [Body.marshal, CertificateMsg.marshal] using this
    · simp at h2
  · refine ⟨by rename_i ht; exact ht.symm, ?_⟩
    rw [safeUnmarshal_ok] at hx
    simp only [CertRequest.unmarshal, Res.bind_eq_ok] at hx
    obtain ⟨⟨⟨e, l, u⟩, n⟩, h1, h2⟩ := hx
    simp only [Res.ok.injEq, Prod.mk.injEq] at h2
    obtain ⟨rfl, rfl⟩ := h2
    have := (plain_canonical plain_certRequest h1).1
    simpa [Body.marshal, CertRequest.marshal] using this
  · refine ⟨by rename_i ht; exact ht.symm, ?_⟩
    rw [safeUnmarshal_ok] at hx
    simp only [CertVerify.unmarshal, Res.bind_eq_ok] at hx
    obtain ⟨⟨⟨e, l, u⟩, n⟩, h1, h2⟩ := hx
    simp only [Res.ok.injEq, Prod.mk.injEq] at h2
    obtain ⟨rfl, rfl⟩ := h2
    have := (plain_canonical plain_certVerify h1).1
    simpa [Body.marshal, CertVerify.marshal] using this
  · refine ⟨by rename_i ht; exact ht.symm, ?_⟩
    rw [safeUnmarshal_ok] at hx
    simp only [Finished.unmarshal, Nat.lt_irrefl, if_false, Res.ok.injEq, Prod.mk.injEq, and_true] at hx
    subst hx
    simp [Body.marshal, Finished.marshal]
  · refine ⟨by rename_i ht; exact ht.symm, ?_⟩
    rw [safeUnmarshal_ok] at hx
    simp only [Ticket.unmarshal, Res.bind_eq_ok] at hx
    obtain ⟨⟨⟨l, a, n, t, e, u⟩, m⟩, h1, h2⟩ := hx
    simp only [Res.ok.injEq, Prod.mk.injEq] at h2
    obtain ⟨rfl, rfl⟩ := h2
    have := (plain_canonical plain_ticket h1).1
    simpa [Body.marshal, Ticket.marshal] using this
  · refine ⟨by rename_i ht; exact ht.symm, ?_⟩
    rw [safeUnmarshal_ok] at hx
    simp only [unmarshalKeyUpdate, Res.bind_eq_ok] at hx
    obtain ⟨⟨⟨e, u⟩, n⟩, h1, h2⟩ := hx
    simp only [Res.ok.injEq, Prod.mk.injEq] at h2
    obtain ⟨rfl, rfl⟩ := h2
    have := (plain_canonical plain_keyUpdate h1).1
    simpa [Body.marshal] using this
  · refine ⟨by rename_i ht; exact ht.symm, ?_⟩
    rw [safeUnmarshal_ok] at hx
    simp only [Res.ok.injEq, Prod.mk.injEq, true_and] at hx
    have : bs = [] := List.length_eq_zero_iff.1 hx.symm
    simp [Body.marshal, this]

example : toBody (fun _ => true) typeKeyUpdate [1] = .ok (.keyUpdate 1) := by rfl
example : ∀ b, toBody (fun _ => true) typeKeyUpdate [1, 0] ≠ .ok b := by
  intro b hb
  have := C32_body_trailing (fun _ => true) typeKeyUpdate [1] [0] (.keyUpdate 1) b (by decide) (by rfl) hb
  simp at this

end Verif.Messages

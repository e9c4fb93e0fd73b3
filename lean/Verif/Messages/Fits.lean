import Verif.Syntax.Fits

/-
Which extension bodies and messages can be marshalled, and how long they become.
-/

namespace Verif.Messages

open Verif Verif.Syntax

theorem bytesTy_size (o : Opts) (d : Bytes) : bytesTy.size o d = o.headerSize.toNat + d.length := by
  simp [bytesTy, Ty.size, Width.bytes, sumBy_const]

theorem bytesTy_fits {o : Opts} {d : Bytes} (h1 : ¬ (o.maxSize > 0 ∧ (d.length : Int) > o.maxSize)) (h2 : o.minSize ≤ (d.length : Int))
    (h3 : 0 < o.headerSize) (h4 : d.length < 256 ^ o.headerSize.toNat) : bytesTy.fits o d := by
  simp only [bytesTy, Ty.fits, Ty.size, Width.bytes, sumBy_const, Nat.one_mul]
  exact ⟨by simp, h1, h2, h3, h4⟩

theorem u16s_size (o : Opts) (l : List UInt16) : Ty.size (.slice (.uint .w2)) o l = o.headerSize.toNat + 2 * l.length := by
  simp [Ty.size, Width.bytes, sumBy_const]

theorem u16s_fits {o : Opts} {l : List UInt16} (h1 : ¬ (o.maxSize > 0 ∧ (2 * l.length : Int) > o.maxSize))
    (h2 : o.minSize ≤ (2 * l.length : Int)) (h3 : 0 < o.headerSize) (h4 : 2 * l.length < 256 ^ o.headerSize.toNat) :
    Ty.fits (.slice (.uint .w2)) o l := by
  simp only [Ty.fits, Ty.size, Width.bytes, sumBy_const]
  exact ⟨by simp, by simpa using h1, by simpa using h2, h3, h4⟩

theorem uint_fits (w : Width) (o : Opts) (v : w.T) : Ty.fits (.uint w) o v := by simp only [Ty.fits]

theorem randomTy_size (o : Opts) (r : Random) : randomTy.size o r = 32 := by
  simp [randomTy, Ty.size, Width.bytes, sumBy_const, r.2]

theorem randomTy_fits (o : Opts) (r : Random) : randomTy.fits o r := by
  simp [randomTy, Ty.fits]

/-- The length of a list of extensions on the wire. -/
def extsSize (el : List Ext) : Nat := sumBy (fun e => 4 + e.2.1.length) el

theorem extTy_size (o : Opts) (e : Ext) : extTy.size o e = 4 + e.2.1.length := by
  obtain ⟨t, d, _⟩ := e
  simp only [extTy, Ty.size, Fields.size, Width.bytes, bytesTy_size]
  simp; omega

theorem extTy_fits {o : Opts} {e : Ext} (h : e.2.1.length < 65536) : extTy.fits o e := by
  simp only [extTy, Ty.fits, Fields.fits]
  exact ⟨trivial, bytesTy_fits (by simp) (by simp) (by simp) (by simpa using h), trivial⟩

theorem mem_extsSize {el : List Ext} {e : Ext} (h : e ∈ el) : 4 + e.2.1.length ≤ extsSize el := by
  induction el with
  | nil => cases h
  | cons a el ih =>
    simp only [extsSize, sumBy_cons]
    rcases List.mem_cons.1 h with rfl | h
    · omega
    · have := ih h
      simp only [extsSize] at this; omega

theorem exts_size (el : List Ext) : Ty.size (.slice extTy) { headerSize := 2 } el = 2 + extsSize el := by
  simp only [Ty.size, extTy_size, extsSize]; rfl

theorem exts_fits {el : List Ext} (h : extsSize el < 65536) : Ty.fits (.slice extTy) { headerSize := 2 } el := by
  simp only [Ty.fits, extTy_size]
  refine ⟨fun e he => extTy_fits ?_, by simp, by omega, by simp, by simpa [extsSize] using h⟩
  have := mem_extsSize he; omega

/-! ### Extension bodies -/

theorem fits_serverName {name : Bytes} (h1 : 0 < name.length) (h2 : name.length < 65000) :
    ∃ d, (ExtBody.serverName name).marshal = .ok d ∧ d.length = 5 + name.length := by
  obtain ⟨d, hd, hl⟩ := marshal_fits (t := serverNameListTy) (v := ([(0, name, ())], ())) (by decide) (by decide) (by
    simp only [serverNameListTy, serverNameTy, Ty.fits, Fields.fits, Ty.size, Fields.size, bytesTy_size, Width.bytes, sumBy_cons,
      sumBy_nil, List.mem_singleton, forall_eq, and_true, true_and]
    refine ⟨bytesTy_fits (by simp) (by simp; omega) (by simp) (by simp; omega), by simp, by simp; omega, by simp, by simp; omega⟩)
  refine ⟨d, hd, ?_⟩
  rw [hl]
  simp [serverNameListTy, serverNameTy, Ty.size, Fields.size, bytesTy_size, Width.bytes]
  omega

theorem fits_u16List {l : List UInt16} (h1 : 0 < l.length) (h2 : l.length < 32768) :
    ∃ d, Syntax.marshal u16ListTy (l, ()) = .ok d ∧ d.length = 2 + 2 * l.length := by
  obtain ⟨d, hd, hl⟩ := marshal_fits (t := u16ListTy) (v := (l, ())) (by decide) (by decide) (by
    simp only [u16ListTy, Ty.fits.eq_5, Fields.fits, and_true]
    exact u16s_fits (by simp) (by simp; omega) (by simp) (by simp; omega))
  refine ⟨d, hd, ?_⟩
  rw [hl]
  simp [u16ListTy, Ty.size, Fields.size, sumBy_const, Width.bytes]

theorem share_size (o : Opts) (e : KeyShareEntry) : keyShareEntryTy.size o e = 4 + e.2.1.length := by
  obtain ⟨t, d, _⟩ := e
  simp only [keyShareEntryTy, Ty.size, Fields.size, Width.bytes, bytesTy_size]
  simp; omega

theorem share_fits {o : Opts} {e : KeyShareEntry} (h1 : 0 < e.2.1.length) (h2 : e.2.1.length < 65536) :
    keyShareEntryTy.fits o e := by
  obtain ⟨t, d, _⟩ := e
  simp only [keyShareEntryTy, Ty.fits, Fields.fits]
  exact ⟨trivial, bytesTy_fits (by simp) (by simp at h1 ⊢; omega) (by simp) (by simpa using h2), trivial⟩

theorem keyExchangeSize_le (g : Nat) : Crypto.keyExchangeSize g ≤ 1024 := by
  unfold Crypto.keyExchangeSize
  repeat' split
  all_goals omega

theorem fits_clientShares {l : List KeyShareEntry} (h : ∀ e ∈ l, 0 < e.2.1.length ∧ e.2.1.length = Crypto.keyExchangeSize e.1.toNat)
    (h2 : l.length ≤ 16) (g : UInt16) :
    ∃ d, (ExtBody.keyShare typeClientHello g l).marshal = .ok d ∧ d.length ≤ 2 + 1028 * l.length := by
  have hs : sumBy (fun e : KeyShareEntry => 4 + e.2.1.length) l ≤ 1028 * l.length :=
    sumBy_le fun e he => by have := keyExchangeSize_le e.1.toNat; have := h e he; omega
  obtain ⟨d, hd, hl⟩ := marshal_fits (t := keyShareClientTy) (v := (l, ())) (by decide) (by decide) (by
    simp only [keyShareClientTy, Ty.fits, Fields.fits, share_size, and_true]
    refine ⟨fun e he => share_fits (h e he).1 ?_, by simp, by omega, by simp, by simp; omega⟩
    have := keyExchangeSize_le e.1.toNat; have := h e he; omega)
  refine ⟨d, ?_, ?_⟩
  · simp only [ExtBody.marshal, if_true]
    rw [if_pos (by rw [List.all_eq_true]; intro e he; simp [sizeValid, (h e he).2])]
    exact hd
  · rw [hl]
    simp only [keyShareClientTy, Ty.size, Fields.size, share_size]
    simp; omega

theorem fits_serverShare {e : KeyShareEntry} (h1 : 0 < e.2.1.length) (h2 : e.2.1.length = Crypto.keyExchangeSize e.1.toNat)
    (g : UInt16) : ∃ d, (ExtBody.keyShare typeServerHello g [e]).marshal = .ok d ∧ d.length ≤ 1028 := by
  have hk := keyExchangeSize_le e.1.toNat
  obtain ⟨d, hd, hl⟩ := marshal_fits (t := keyShareServerTy) (v := (e, ())) (by decide) (by decide) (by
    simp only [keyShareServerTy, Ty.fits, Fields.fits, and_true]
    exact share_fits h1 (by omega))
  refine ⟨d, ?_, ?_⟩
  · simp only [ExtBody.marshal, show ¬ typeServerHello = typeClientHello by decide,
      show ¬ typeServerHello = typeHelloRetryRequest by decide, if_true, if_false]
    rw [if_pos (by simp [sizeValid, h2])]
    exact hd
  · rw [hl]
    simp only [keyShareServerTy, Ty.size, Fields.size, share_size]
    omega

theorem fits_alpn {l : List Bytes} (h0 : l ≠ []) (h : ∀ p ∈ l, 0 < p.length ∧ p.length < 256) (hn : l.length ≤ 100) :
    ∃ d, (ExtBody.alpn l).marshal = .ok d ∧ d.length ≤ 2 + 256 * l.length := by
  have hsz : ∀ (o : Opts) (p : Bytes × Unit), protocolNameTy.size o p = 1 + p.1.length := by
    intro o p; simp [protocolNameTy, Ty.size, Fields.size, bytesTy_size]
  have hs : sumBy (fun p : Bytes × Unit => 1 + p.1.length) (l.map fun p => (p, ())) ≤ 256 * l.length := by
    rw [sumBy_map]
    exact sumBy_le fun p hp => by have := h p hp; dsimp only; omega
  have hg : 2 * l.length ≤ sumBy (fun p : Bytes × Unit => 1 + p.1.length) (l.map fun p => (p, ())) := by
    rw [sumBy_map]
    exact sumBy_ge fun p hp => by have := h p hp; dsimp only; omega
  have hpos : 0 < l.length := List.length_pos_iff.2 h0
  obtain ⟨d, hd, hl⟩ := marshal_fits (t := alpnTy) (v := (l.map fun p => (p, ()), ())) (by decide) (by decide) (by
    simp only [alpnTy, Ty.fits, Fields.fits, hsz, and_true]
    refine ⟨?_, by simp, by omega, by simp, by simp; omega⟩
    intro p hp
    obtain ⟨q, hq, rfl⟩ := List.mem_map.1 hp
    simp only [protocolNameTy, Ty.fits, Fields.fits, and_true]
    have := h q hq
    exact bytesTy_fits (by simp) (by simp; omega) (by simp) (by simp; omega))
  refine ⟨d, hd, ?_⟩
  rw [hl]
  simp only [alpnTy, Ty.size, Fields.size, hsz]
  simp; omega

theorem fits_cookie {c : Bytes} (h1 : 0 < c.length) (h2 : c.length < 65536) :
    ∃ d, (ExtBody.cookie c).marshal = .ok d ∧ d.length = 2 + c.length := by
  obtain ⟨d, hd, hl⟩ := marshal_fits (t := cookieTy) (v := (c, ())) (by decide) (by decide) (by
    simp only [cookieTy, Ty.fits, Fields.fits, and_true]
    exact bytesTy_fits (by simp) (by simp; omega) (by simp) (by simpa using h2))
  exact ⟨d, hd, by rw [hl]; simp [cookieTy, Ty.size, Fields.size, bytesTy_size]⟩

theorem fits_modes {l : List UInt8} (h1 : 0 < l.length) (h2 : l.length < 256) :
    ∃ d, (ExtBody.pskModes l).marshal = .ok d ∧ d.length = 1 + l.length := by
  obtain ⟨d, hd, hl⟩ := marshal_fits (t := pskModesTy) (v := (l, ())) (by decide) (by decide) (by
    simp only [pskModesTy, Ty.fits, Fields.fits, and_true]
    exact bytesTy_fits (by simp) (by simp; omega) (by simp) (by simpa using h2))
  exact ⟨d, hd, by rw [hl]; simp [pskModesTy, Ty.size, Fields.size, bytesTy_size]⟩

theorem fits_clientPsk {id binder : Bytes} {age : UInt32} (h1 : 0 < id.length) (h2 : id.length < 65000) (h3 : 32 ≤ binder.length)
    (h4 : binder.length < 256) :
    ∃ d, (ExtBody.preSharedKey typeClientHello [(id, age, ())] [(binder, ())] 0).marshal = .ok d ∧
      d.length = 11 + id.length + binder.length := by
  have hi : ∀ o : Opts, pskIdentityTy.size o (id, age, ()) = 6 + id.length := by
    intro o; simp [pskIdentityTy, Ty.size, Fields.size, bytesTy_size, Width.bytes]; omega
  have hb : ∀ o : Opts, binderTy.size o (binder, ()) = 1 + binder.length := by
    intro o; simp [binderTy, Ty.size, Fields.size, bytesTy_size]
  obtain ⟨d, hd, hl⟩ := marshal_fits (t := pskClientTy) (v := ([(id, age, ())], [(binder, ())], ())) (by decide) (by decide) (by
    simp only [pskClientTy, Ty.fits, Fields.fits, hi, hb, sumBy_cons, sumBy_nil, List.mem_singleton, forall_eq, and_true]
    refine ⟨⟨?_, by simp, by simp; omega, by simp, by simp; omega⟩, ⟨?_, by simp, by simp; omega, by simp, by simp; omega⟩⟩
    · simp only [pskIdentityTy, Ty.fits, Fields.fits, and_true]
      exact bytesTy_fits (by simp) (by simp; omega) (by simp) (by simp; omega)
    · simp only [binderTy, Ty.fits, Fields.fits, and_true]
      exact bytesTy_fits (by simp) (by simp; omega) (by simp) (by simp; omega))
  refine ⟨d, by simp only [ExtBody.marshal, if_true]; exact hd, ?_⟩
  rw [hl]
  simp only [pskClientTy, Ty.size, Fields.size, hi, hb, sumBy_cons, sumBy_nil]
  simp; omega

/-! ### Messages -/

theorem fits_clientHello {ch : ClientHello} (h1 : 0 < ch.suites.length) (h2 : ch.suites.length < 32768)
    (h3 : extsSize ch.exts < 65536) : ∃ d, ch.marshal = .ok d := by
  unfold ClientHello.marshal
  split
  · obtain ⟨d, hd, _⟩ := marshal_fits (t := chTlsTy) (v := (ch.version, ch.random, [], ch.suites, [0], ch.exts, ())) (by decide)
      (by decide) (by
        simp only [chTlsTy, Ty.fits.eq_5, Fields.fits, and_true]
        exact ⟨uint_fits _ _ _, randomTy_fits _ _, bytesTy_fits (by simp) (by simp) (by simp) (by simp),
          u16s_fits (by simp) (by simp; omega) (by simp) (by simp; omega), bytesTy_fits (by simp) (by simp) (by simp) (by simp),
          exts_fits h3⟩)
    exact ⟨d, hd⟩
  · obtain ⟨d, hd, _⟩ := marshal_fits (t := chDtlsTy) (v := (ch.version, ch.random, [], 0, ch.suites, [0], ch.exts, ())) (by decide)
      (by decide) (by
        simp only [chDtlsTy, Ty.fits.eq_5, Fields.fits, and_true]
        exact ⟨uint_fits _ _ _, randomTy_fits _ _, bytesTy_fits (by simp) (by simp) (by simp) (by simp), uint_fits _ _ _,
          u16s_fits (by simp) (by simp; omega) (by simp) (by simp; omega), bytesTy_fits (by simp) (by simp) (by simp) (by simp),
          exts_fits h3⟩)
    exact ⟨d, hd⟩

theorem fits_serverHello {sh : ServerHello} (h1 : sh.sessionId.length ≤ 32) (h3 : extsSize sh.exts < 65536) :
    ∃ d, sh.marshal = .ok d := by
  obtain ⟨d, hd, _⟩ := marshal_fits (t := shTy) (v := (sh.version, sh.random, sh.sessionId, sh.suite, sh.compression, sh.exts, ()))
    (by decide) (by decide) (by
      simp only [shTy, Ty.fits.eq_5, Fields.fits, and_true]
      exact ⟨uint_fits _ _ _, randomTy_fits _ _, bytesTy_fits (by simp; omega) (by simp) (by simp) (by simp; omega), uint_fits _ _ _, uint_fits _ _ _, exts_fits h3⟩)
  exact ⟨d, hd⟩

theorem fits_ee {exts : List Ext} (h : extsSize exts < 65536) : ∃ d, (Body.encryptedExtensions exts).marshal = .ok d := by
  obtain ⟨d, hd, _⟩ := marshal_fits (t := eeTy) (v := (exts, ())) (by decide) (by decide) (by
    simp only [eeTy, Ty.fits.eq_5, Fields.fits, and_true]
    exact exts_fits h)
  exact ⟨d, hd⟩

theorem fits_certRequest {exts : List Ext} (h : extsSize exts < 65536) : ∃ d, (CertRequest.mk [] exts).marshal = .ok d := by
  obtain ⟨d, hd, _⟩ := marshal_fits (t := certRequestTy) (v := ([], exts, ())) (by decide) (by decide) (by
    simp only [certRequestTy, Ty.fits.eq_5, Fields.fits, and_true]
    exact ⟨bytesTy_fits (by simp) (by simp) (by simp) (by simp), exts_fits h⟩)
  exact ⟨d, hd⟩

theorem fits_certVerify {cv : CertVerify} (h : cv.signature.length < 65536) : ∃ d, cv.marshal = .ok d := by
  obtain ⟨d, hd, _⟩ := marshal_fits (t := certVerifyTy) (v := (cv.algorithm, cv.signature, ())) (by decide) (by decide) (by
    simp only [certVerifyTy, Ty.fits.eq_5, Fields.fits, and_true]
    exact ⟨uint_fits _ _ _, bytesTy_fits (by simp) (by simp) (by simp) (by simpa using h)⟩)
  exact ⟨d, hd⟩

/-- The length of a list of certificates without extensions on the wire. -/
def certsSize (l : List Bytes) : Nat := sumBy (fun d => 5 + d.length) l

theorem fits_certificate {l : List Bytes} (h1 : ∀ d ∈ l, 0 < d.length) (h2 : certsSize l < 16777216) :
    ∃ d, (CertificateMsg.mk [] (l.map fun d => (d, [], ()))).marshal = .ok d := by
  have hsz : ∀ (o : Opts) (e : CertEntry), e.2.1 = [] → certEntryTy.size o e = 5 + e.1.length := by
    rintro o ⟨e, x, _⟩ h
    simp only at h
    subst h
    simp only [certEntryTy, Ty.size.eq_5, Fields.size, bytesTy_size, exts_size, extsSize, sumBy_nil]
    simp; omega
  have hs : sumBy (fun e => certEntryTy.size { headerSize := 3 } e) (l.map fun d => ((d, [], ()) : CertEntry)) = certsSize l := by
    rw [sumBy_map]
    exact sumBy_congr fun d _ => hsz _ _ rfl
  have hmem : ∀ d ∈ l, 5 + d.length ≤ certsSize l := by
    intro d hd
    clear h1 h2 hs
    induction l with
    | nil => cases hd
    | cons a l ih =>
      simp only [certsSize, sumBy_cons]
      rcases List.mem_cons.1 hd with rfl | h
      · omega
      · have := ih h; simp only [certsSize] at this; omega
  obtain ⟨d, hd, _⟩ := marshal_fits (t := certTy) (v := ([], l.map fun d => (d, [], ()), ())) (by decide) (by decide) (by
    simp only [certTy, Ty.fits.eq_5, Fields.fits, and_true]
    refine ⟨bytesTy_fits (by simp) (by simp) (by simp) (by simp), ?_⟩
    simp only [Ty.fits.eq_3, hs]
    refine ⟨?_, by simp, by omega, by simp, by simpa using h2⟩
    intro e he
    obtain ⟨q, hq, rfl⟩ := List.mem_map.1 he
    have h3 := h1 q hq
    have h4 := hmem q hq
    simp only [certEntryTy, Ty.fits.eq_5, Fields.fits, and_true]
    exact ⟨bytesTy_fits (by simp) (by simp; omega) (by simp) (by simp; omega), exts_fits (by simp [extsSize])⟩)
  exact ⟨d, hd⟩

end Verif.Messages

import Verif.Machine.ClientTrace
import Verif.Machine.Hello
import Verif.Machine.Found
import Verif.Messages.Encoding
import Verif.Props.Messages
import Verif.Props.Crypto
import Verif.Spec.Protection

/-
Every client that reports the handshake complete has the view of `Verif.Spec.ClientView`.
-/

namespace Verif.Machine

open Verif Verif.Crypto Verif.Messages Verif.Negotiation Verif.Handshake Verif.Spec

/-! ### Extensions -/

theorem dataOf_nil_iff (t : UInt16) (el : List Ext) : dataOf t el = [] ↔ hasExt t el = false := by
  simp [dataOf, hasExt, List.filter_eq_nil_iff]

theorem keyShareEntry_marshal {e : KeyShareEntry} {d : Bytes} (h : Syntax.marshal keyShareServerTy (e, ()) = .ok d) :
    d = beBytes 2 e.1.toNat ++ beBytes 2 e.2.1.length ++ e.2.1 := by
  have ht : keyShareServerTy.tagsOk = true := by decide
  obtain ⟨g, k, u⟩ := e
  have hb := fun y => @bytesTy_encode 2 1 0 (by decide) k y
  have hu : Syntax.Ty.encode (.uint .w2) {} g = .ok (beBytes 2 g.toNat) := rfl
  simp only [Int.cast_ofNat_Int] at hb
  rw [Syntax.marshal, if_pos ht] at h
  simp only [keyShareServerTy, keyShareEntryTy, Syntax.Ty.encode.eq_5, Syntax.Fields.encode,
    Bool.false_eq_true, if_false, hu, Res.bind_eq_ok, Res.ok.injEq] at h
  obtain ⟨a, ⟨b, rfl, c, ⟨e, he, f, rfl, rfl⟩, rfl⟩, w, rfl, rfl⟩ := h
  obtain ⟨-, -, -, rfl⟩ := (hb _).1 he
  simp

/-- The share in a ServerHello. -/
theorem serverShare {el : List Ext} {found : List ExtBody}
    (h : parseExts el [.preSharedKey typeServerHello, .keyShare typeServerHello] = .ok found) :
    (dataOf 51 el = [] ∧ findShares found = none) ∨
    (∃ e : KeyShareEntry, dataOf 51 el = [beBytes 2 e.1.toNat ++ beBytes 2 e.2.1.length ++ e.2.1] ∧
      findShares found = some [e] ∧ e.2.1.length = keyExchangeSize e.1.toNat) := by
  rcases parsed_findSome (k := .keyShare typeServerHello) asShares (by decide) h (by simp) (by
      intro b hb; cases b <;> simp [asShares] at hb ⊢ <;> rfl) with ⟨h1, h2⟩ | ⟨d, b, h1, h2, h3, h4⟩
  · exact Or.inl ⟨h1, h2⟩
  · refine Or.inr ?_
    rw [safeUnmarshal_ok] at h2
    simp only [ExtKind.unmarshal, show ¬ typeServerHello = typeClientHello by decide,
      show ¬ typeServerHello = typeHelloRetryRequest by decide, if_false, if_true, Res.bind_eq_ok] at h2
    obtain ⟨⟨⟨e, _⟩, n⟩, h5, h6⟩ := h2
    dsimp only at h6
    split at h6
    · rename_i hsz
      simp only [Res.ok.injEq, Prod.mk.injEq] at h6
      obtain ⟨rfl, rfl⟩ := h6
      have hd := (Syntax.plain_canonical plain_keyShareServer h5).1
      rw [List.take_length] at hd
      refine ⟨e, ?_, ?_, by simpa [sizeValid] using hsz⟩
      · rw [← keyShareEntry_marshal hd]; exact h1
      · simp [findShares, h4, asShares]
    · cases h6

theorem earlyData_found {el : List Ext} {ks : List ExtKind} {found : List ExtBody} (hn : (ks.map ExtKind.type).Nodup)
    (h : parseExts el ks = .ok found) (hk : ExtKind.earlyData ∈ ks) : findEarlyData found = hasExt 42 el := by
  rcases parsed_findSome (k := .earlyData) asEarlyData hn h hk (by
      intro b hb; cases b <;> simp [asEarlyData] at hb ⊢; rfl) with ⟨h1, h2⟩ | ⟨d, b, h1, h2, h3, h4⟩
  · rw [(dataOf_nil_iff 42 el).1 h1]; simp [findEarlyData, h2]
  · have : hasExt 42 el = true := by
      cases hh : hasExt 42 el with
      | true => rfl
      | false => rw [← dataOf_nil_iff, show (42 : UInt16) = ExtKind.earlyData.type from rfl, h1] at hh; cases hh
    rw [this]
    rw [safeUnmarshal_ok] at h2
    simp only [ExtKind.unmarshal, Res.ok.injEq, Prod.mk.injEq] at h2
    simp [findEarlyData, h4, ← h2.1, asEarlyData]

theorem alpn_found {el : List Ext} {ks : List ExtKind} {found : List ExtBody} (hn : (ks.map ExtKind.type).Nodup)
    (h : parseExts el ks = .ok found) (hk : ExtKind.alpn ∈ ks) :
    NamesProtocol el (match findAlpn found with | some (p :: _) => p | _ => []) := by
  rcases parsed_findSome (k := .alpn) asAlpn hn h hk (by
      intro b hb; cases b <;> simp [asAlpn] at hb ⊢; rfl) with ⟨h1, h2⟩ | ⟨d, b, h1, h2, h3, h4⟩
  · exact Or.inl ⟨h1, by simp [findAlpn, h2]⟩
  · rw [safeUnmarshal_ok] at h2
    cases b with
    | alpn ps =>
      refine Or.inr ⟨d, ps, h1, h2, ?_⟩
      rw [findAlpn, h4]
      cases ps <;> rfl
    | _ => simp [ExtBody.kind] at h3

theorem version_found {el : List Ext} {hs : UInt8} {vs : List UInt16}
    (h : findExt (.supportedVersions typeServerHello) el = .ok (some (.supportedVersions hs (tls13Version :: vs)))) :
    (dataOf 43 el).head? = some [3, 4] := by
  have h' := (C30_find (.supportedVersions typeServerHello) el).symm.trans h
  rw [show (ExtKind.supportedVersions typeServerHello).type = 43 from rfl] at h'
  split at h'
  · cases h'
  · rename_i d ds hd
    rw [hd, List.head?_cons]
    simp only [Res.bind_eq_ok, Res.ok.injEq, Option.some.injEq] at h'
    obtain ⟨b, hb, rfl⟩ := h'
    rw [safeUnmarshal_ok] at hb
    simp only [ExtKind.unmarshal, show ¬ typeServerHello = typeClientHello by decide, true_or, if_false, if_true,
      Res.bind_eq_ok, Res.ok.injEq, Prod.mk.injEq, ExtBody.supportedVersions.injEq, List.cons.injEq] at hb
    obtain ⟨⟨⟨v, _⟩, n⟩, h1, ⟨_, hv, _⟩, rfl⟩ := hb
    have := u16_data h1
    rw [this]
    dsimp only at hv
    rw [hv]
    decide

/-! ### Secrets -/

theorem makeShares_mem {D : Dh} : ∀ {gs : List UInt16} {n : Nat} {shares : List (UInt16 × Bytes × Bytes)},
    makeShares D n gs = .ok shares → ∀ k ∈ shares, k.1 ∈ gs ∧ ∃ n, newKeyShare D n k.1.toNat = .ok (k.2.1, k.2.2)
  | [], _, _, h, k, hk => by
    simp only [makeShares, Res.ok.injEq] at h
    subst h; cases hk
  | g :: gs, n, shares, h, k, hk => by
    simp only [makeShares, Res.bind_eq_ok, orAlert_ok, Res.ok.injEq] at h
    obtain ⟨⟨pub, priv⟩, h1, rest, h2, rfl⟩ := h
    rcases List.mem_cons.1 hk with rfl | hk
    · exact ⟨by simp, n, h1⟩
    · obtain ⟨h3, h4⟩ := makeShares_mem h2 k hk
      exact ⟨by simp [h3], h4⟩

theorem lookup_privates {D : Dh} {gs : List UInt16} {n : Nat} {shares : List (UInt16 × Bytes × Bytes)} {g : UInt16} {priv : Bytes}
    (h : makeShares D n gs = .ok shares) (hl : lookupDH (privates shares) g = some priv) :
    g ∈ gs ∧ ∃ n own, newKeyShare D n g.toNat = .ok (own, priv) ∧ (g, own, ()) ∈ shares.map fun k => (k.1, k.2.1, ()) := by
  simp only [lookupDH, Option.map_eq_some_iff] at hl
  obtain ⟨e, he, rfl⟩ := hl
  have h1 := List.mem_of_find?_eq_some he
  have h2 := List.find?_some he
  simp only [List.mem_reverse, privates, List.mem_map] at h1
  obtain ⟨k, hk, rfl⟩ := h1
  obtain ⟨h3, m, h4⟩ := makeShares_mem h k hk
  have h5 : k.1 = g := by simpa using h2
  subst h5
  exact ⟨h3, m, k.2.1, h4, List.mem_map.2 ⟨k, hk, rfl⟩⟩

/-- Key agreement gives no error for a public value of the right length, in a group for which keys can be made. -/
theorem keyAgreement_no_err {D : Dh} {n g : Nat} {own priv pub : Bytes} (hn : newKeyShare D n g = .ok (own, priv))
    (hl : pub.length = keyExchangeSize g) (e : Err) : keyAgreement D g pub priv ≠ .err e := by
  unfold newKeyShare at hn
  split at hn
  · rename_i hg
    unfold keyAgreement
    rw [if_neg (not_not.2 hl)]
    split
    · split <;> intro h <;> cases h
    · split
      · rw [if_neg (not_not.2 hl)]; intro h; cases h
      · split
        · rw [if_neg (not_not.2 hl)]; intro h; cases h
        · simp_all
  · cases hn

theorem clientDh_ok {E : Env} {cfg : Config} {w : CWaitSH} {el : List Ext} {found : List ExtBody} {usingDH : Bool}
    {dh : Option Bytes} {ch : ClientHello} (hk : SharesKept E cfg w ch)
    (hp : parseExts el [.preSharedKey typeServerHello, .keyShare typeServerHello] = .ok found)
    (h : clientDH E w (findShares found) = .ok (usingDH, dh)) : ClientDh E cfg ch.exts el dh := by
  obtain ⟨n, shares, hm, hw, hc⟩ := hk
  rcases serverShare hp with ⟨h1, h2⟩ | ⟨e, h1, h2, hsz⟩
  · rw [h2] at h
    simp only [clientDH, Res.ok.injEq, Prod.mk.injEq] at h
    rw [← h.2]; exact .none h1
  · rw [h2] at h
    simp only [clientDH, hw] at h
    split at h
    · simp [alert] at h
    · rename_i priv hl
      obtain ⟨hg, n, own, hn, hin⟩ := lookup_privates hm hl
      cases hk : keyAgreement E.D e.1.toNat e.2.1 priv with
      | ok z =>
        rw [hk] at h
        simp only [Res.ok.injEq, Prod.mk.injEq] at h
        rw [← h.2]
        exact .share e.1 e.2.1 _ n own priv z h1 hg hc hin hn hk
      | err e' => exact absurd hk (keyAgreement_no_err hn hsz e')
      | panic => rw [hk] at h; cases h
      | diverge => rw [hk] at h; cases h

/-- The early secret kept by a client. -/
theorem early_kept {E : Env} {x x' : Ctx} {c : Coins} {s : CStart} {w : CWaitSH} {acts : List Action}
    (h : s.next E x c = .ok (w, acts, x')) (hh : HashId) : w.earlySecret = clientEarly E.P s.cfg hh true := by
  obtain ⟨_, _, _, _, _, _, ⟨psk, o, hpsk, h1, rfl, _, _⟩ | ⟨hpsk, _, _, rfl, _⟩⟩ := CStart.next_ok h
  · obtain ⟨p, _, _, _, _, _, _, _, hs, _, _, _, _, _, _, _, _, he, _⟩ := offerPsk_ok h1
    simp only [clientEarly, if_true, hpsk, hs, he]
    rfl
  · simp [clientEarly, hpsk]

/-! ### After the handshake -/

theorem expand_next {P : Prims} (hP : P.Sized) {h : HashId} (hs : 0 < h.size) {label secret t : Bytes}
    (ht : nextSecret P h label secret = .ok t) : t = expandLabel P h secret label [] h.size := by
  rw [nextSecret, hkdfExpandLabel_eq P hP h hs, Res.ok.injEq] at ht
  exact ht.symm

/-- A connection but for its traffic secrets. -/
def SameButTraffic (s s' : Connected) : Prop := ∃ c v, s' = { s with clientAp := c, serverAp := v }

/-- What a step of a connected machine does to the traffic secrets. -/
theorem process_updates {E : Env} (hP : E.P.Sized) {x x' : Ctx} {s s' : Connected} (hs : 0 < s.cp.hash.size) {now : Int} {m : Msg}
    {acts : List Action} (h : s.process E x now m = .ok (s', acts, x')) :
    s' = { s with
      clientAp := updates E.P s.cp.hash (ascii "c ap traffic") (keyUpdates (if s.isClient then sent acts else [m])) s.clientAp
      serverAp := updates E.P s.cp.hash (ascii "s ap traffic") (keyUpdates (if s.isClient then [m] else sent acts)) s.serverAp } := by
  rcases Connected.process_ok h with ⟨r, t, s1, keys, hm, _, ht, hs1, _, hr⟩ | ⟨_, _, hm, _, hc, _, rfl, rfl, rfl⟩
  · have hm1 : keyUpdates [m] = 1 := by simp [keyUpdates, hm, typeKeyUpdate]
    cases hc : s.isClient
    · simp only [hc, Bool.false_eq_true, if_false] at ht hs1 ⊢
      have ht' := expand_next hP hs ht
      rw [label_clientAp] at ht'
      subst hs1
      rcases hr with ⟨rfl, acts', hk, rfl⟩ | ⟨_, rfl, rfl, rfl⟩
      · obtain ⟨t2, keys2, m2, ht2, hs2, _, hmk, rfl⟩ := Connected.keyUpdate_ok hk
        simp only [hc, Bool.false_eq_true, if_false] at ht2 hs2
        have ht2' := expand_next hP hs ht2
        rw [label_serverAp] at ht2'
        have hty : m2.msgType = 24 := (mkMsg_type hmk)
        subst hs2
        rw [hm1]
        simp [sent, keyUpdates, hty, updates, ← ht', ← ht2']
      · rw [hm1]
        simp [sent, keyUpdates, updates, ← ht']
    · simp only [hc, if_true] at ht hs1 ⊢
      have ht' := expand_next hP hs ht
      rw [label_serverAp] at ht'
      subst hs1
      rcases hr with ⟨rfl, acts', hk, rfl⟩ | ⟨_, rfl, rfl, rfl⟩
      · obtain ⟨t2, keys2, m2, ht2, hs2, _, hmk, rfl⟩ := Connected.keyUpdate_ok hk
        simp only [hc, if_true] at ht2 hs2
        have ht2' := expand_next hP hs ht2
        rw [label_clientAp] at ht2'
        have hty : m2.msgType = 24 := (mkMsg_type hmk)
        subst hs2
        rw [hm1]
        simp [sent, keyUpdates, hty, updates, ← ht', ← ht2']
      · rw [hm1]
        simp [sent, keyUpdates, updates, ← ht']
  · have hm1 : keyUpdates [m] = 0 := by simp [keyUpdates, hm, typeNewSessionTicket]
    simp only [hc, if_true, hm1]
    rw [← hc]
    rfl

theorem updates_add (P : Prims) (h : HashId) (label : Bytes) : ∀ (a b : Nat) (s : Bytes),
    updates P h label b (updates P h label a s) = updates P h label (a + b) s
  | 0, b, s => by simp [updates]
  | a + 1, b, s => by rw [show a + 1 + b = (a + b) + 1 by omega, updates, updates, updates_add P h label a b]

theorem keyUpdates_append (a b : List Msg) : keyUpdates (a ++ b) = keyUpdates a + keyUpdates b := by simp [keyUpdates]

theorem client_post {E : Env} (hP : E.P.Sized) : ∀ {es : List (Event × Coins)} {x x' : Ctx} {s s' : Connected}
    {acts : List Action}, 0 < s.cp.hash.size → s.isClient = true →
    (CState.connected s).run E x es = .ok (.connected s', acts, x') →
    s' = { s with
      clientAp := updates E.P s.cp.hash (ascii "c ap traffic") (keyUpdates (sent acts)) s.clientAp
      serverAp := updates E.P s.cp.hash (ascii "s ap traffic") (keyUpdates (received es)) s.serverAp }
  | [], x, x', s, s', acts, _, _, h => by
    simp only [CState.run, Res.ok.injEq, Prod.mk.injEq, CState.connected.injEq] at h
    obtain ⟨rfl, rfl, rfl⟩ := h
    simp [received, sent, keyUpdates, updates]
  | (e, c) :: es, x, x', s, s', acts, hs, hc, h => by
    simp only [CState.run, Res.bind_eq_ok, Res.ok.injEq, Prod.mk.injEq] at h
    obtain ⟨⟨s1, a1, x1⟩, h1, ⟨s2, a2, x2⟩, h2, rfl, rfl, rfl⟩ := h
    cases e with
    | msg m =>
      simp only [CState.step, Res.bind_eq_ok, Res.ok.injEq, Prod.mk.injEq] at h1
      obtain ⟨⟨s3, a3, x3⟩, h3, rfl, rfl, rfl⟩ := h1
      have h4 := process_updates hP hs h3
      simp only [hc, if_true] at h4
      have h5 := client_post hP (s := s3) (by rw [h4]; exact hs) (by rw [h4]) h2
      rw [h5, h4]
      have : received ((Event.msg m, c) :: es) = [m] ++ received es := rfl
      simp only [this, sent_append, keyUpdates_append, updates_add, hc]
    | appData d =>
      simp only [CState.step, Res.ok.injEq, Prod.mk.injEq] at h1
      obtain ⟨rfl, rfl, rfl⟩ := h1
      have h5 := client_post hP hs hc h2
      rw [h5]
      rfl
    | bad => simp [CState.step, alert] at h1

theorem process_sends {E : Env} {x x' : Ctx} {s s' : Connected} {now : Int} {m : Msg} {acts : List Action}
    (h : s.process E x now m = .ok (s', acts, x')) : ∀ m ∈ sent acts, m.msgType = 24 := by
  rcases Connected.process_ok h with ⟨r, t, s1, keys, _, _, _, _, _, ⟨_, acts', hk, rfl⟩ | ⟨_, _, rfl, _⟩⟩ | ⟨t, psk, _, _, _, _, _, rfl, _⟩
  · obtain ⟨_, _, m', _, _, _, hm, rfl⟩ := Connected.keyUpdate_ok hk
    intro a ha
    simp [sent] at ha
    subst ha
    exact mkMsg_type hm
  · simp [sent]
  · simp [sent]

theorem client_post_sends {E : Env} : ∀ {es : List (Event × Coins)} {x x' : Ctx} {s : Connected} {s' : CState}
    {acts : List Action}, (CState.connected s).run E x es = .ok (s', acts, x') → ∀ m ∈ sent acts, m.msgType = 24
  | [], x, x', s, s', acts, h => by
    simp only [CState.run, Res.ok.injEq, Prod.mk.injEq] at h
    obtain ⟨rfl, rfl, rfl⟩ := h
    simp [sent]
  | (e, c) :: es, x, x', s, s', acts, h => by
    simp only [CState.run, Res.bind_eq_ok, Res.ok.injEq, Prod.mk.injEq] at h
    obtain ⟨⟨s1, a1, x1⟩, h1, ⟨s2, a2, x2⟩, h2, rfl, rfl, rfl⟩ := h
    cases e with
    | msg m =>
      simp only [CState.step, Res.bind_eq_ok, Res.ok.injEq, Prod.mk.injEq] at h1
      obtain ⟨⟨s3, a3, x3⟩, h3, rfl, rfl, rfl⟩ := h1
      intro m' hm'
      rw [sent_append] at hm'
      rcases List.mem_append.1 hm' with hm' | hm'
      · exact process_sends h3 m' hm'
      · exact client_post_sends h2 m' hm'
    | appData d =>
      simp only [CState.step, Res.ok.injEq, Prod.mk.injEq] at h1
      obtain ⟨rfl, rfl, rfl⟩ := h1
      exact client_post_sends h2
    | bad => simp [CState.step, alert] at h1

/-! ### The view -/

theorem leafKey_spec {E : Env} {cm : CertificateMsg} {pub : PubKey} (h : leafKey E cm = .ok pub) : LeafKey E cm.list pub := by
  simp only [leafKey] at h
  split at h
  · cases h
  · rename_i e rest hl
    obtain ⟨der, exts, u⟩ := e
    split at h
    · rename_i cert hx
      simp only [Res.ok.injEq] at h
      exact ⟨der, exts, rest, cert, hl, hx, h⟩
    · cases h

theorem verify_spec {E : Env} {cv : CertVerify} {pub : PubKey} {h : HashId} {t : Bytes}
    (hv : cv.verify E.P E.S pub (E.P.hash h t) = true) : SignsTranscript E h cv pub t := by
  rw [SignsTranscript, ← (C56_server_partial (E.P.hash h t) []).1]; exact hv

theorem chain_spec {cfg : Config} {now : Int} {raw : List Bytes} {chains : List (List Bytes)}
    (h : chainAccepted cfg now raw chains) : ChainAccepted cfg raw chains := by
  obtain ⟨h1, h2⟩ := h
  refine ⟨?_, h2⟩
  cases hc : cfg.insecureSkipVerify <;> simp only [hc, if_true, Bool.false_eq_true, if_false] at h1
  · exact Or.inr ⟨rfl, now, h1⟩
  · exact Or.inl ⟨rfl, h1⟩

/-- The configuration in use after a retry offers no more suites, and is otherwise the same. -/
structure CfgFrom (cfg cfg' : Config) : Prop where
  eq : ∃ l, cfg' = { cfg with suites := l }
  sub : ∀ s ∈ cfg'.suites, s ∈ cfg.suites

theorem finished_body {n : Nat} {m : Bytes} {f : Finished} (h : safeUnmarshal (Finished.unmarshal n) m = .ok f) :
    f.verifyData = m := by
  rw [safeUnmarshal_ok] at h
  simp only [Finished.unmarshal] at h
  split at h
  · cases h
  · simp only [Res.ok.injEq, Prod.mk.injEq] at h
    rw [← h.1, h.2, List.take_length]

theorem asks_false {ms : List Msg} (h : ∀ m ∈ ms, m.msgType ≠ 13) : asksCertificate ms = false := by
  simpa [asksCertificate] using h

theorem asks_true {ms : List Msg} {m : Msg} (h : m ∈ ms) (ht : m.msgType = 13) : asksCertificate ms = true := by
  simp only [asksCertificate, List.any_eq_true]
  exact ⟨m, h, by simp [ht]⟩

theorem CStart.hello_type {E : Env} {x x' : Ctx} {c : Coins} {s : CStart} {w : CWaitSH} {acts : List Action}
    (h : s.next E x c = .ok (w, acts, x')) : w.clientHello.msgType = 1 := by
  obtain ⟨_, _, _, _, _, _, ⟨psk, o, _, h1, rfl, _, _⟩ | ⟨_, _, h1, rfl, _⟩⟩ := CStart.next_ok h
  · obtain ⟨_, _, _, _, _, _, _, _, _, _, _, _, _, _, _, _, h2, _⟩ := offerPsk_ok h1
    exact mkMsg_type h2
  · exact mkMsg_type h1

/-- Until it has a ServerHello a client sends nothing but hellos. -/
theorem only_hellos {E : Env} {x : Ctx} {cfg : Config} {c : Coins} {es : List (Event × Coins)} {w : CWaitSH}
    {acts : List Action} {x' : Ctx} (h : clientRun E x cfg c es = .ok (.waitSH w, acts, x')) :
    ∀ m ∈ sent acts, m.msgType = 1 := by
  have := clientRun_induct (cfg := cfg) (fun _ s acts _ => ∀ w, s = .waitSH w → ∀ m ∈ sent acts, m.msgType = 1) ?_ ?_ h
  · exact this w rfl
  · rintro w a x1 h w' ⟨⟩ m hm
    rw [(CStart.next_sent h).1, List.mem_singleton] at hm
    rw [hm]; exact CStart.hello_type h
  · intro es s acts x1 e ce s' acts' x2 ih hst w' hw'
    subst hw'
    cases hst with
    | retry w m hrr st _ acts2 _ check random handle start =>
      intro m' hm'
      rw [sent_append, sent_append, (CStart.next_sent start).1] at hm'
      rcases List.mem_append.1 hm' with hm' | hm'
      · exact ih w rfl m' hm'
      · have : m' = w'.clientHello := by simpa [sent] using hm'
        rw [this]; exact CStart.hello_type start
    | ee _ _ _ _ _ next =>
      obtain ⟨_, _, _, _, _, _, _, _, _, ⟨_, h⟩ | ⟨_, h⟩⟩ := CWaitEE.next_ok next <;> cases h
    | certCR _ _ _ _ _ next =>
      obtain ⟨_, _, ⟨_, _, _, h⟩ | ⟨_, _, _, _, h⟩⟩ := CWaitEE.nextCertCR_ok next <;> cases h
    | cert _ _ _ _ _ next => obtain ⟨_, _, _, _, _, h⟩ := CWaitCert.next_ok next; cases h
    | cv _ _ _ _ _ next => obtain ⟨_, _, _, _, _, _, _, _, _, _, h⟩ := CWaitCV.next_ok next; cases h
    | finished _ _ _ _ _ next =>
      obtain ⟨_, _, _, _, _, _, _, _, _, _, _, _, _, _, _, _, _, _, _, _, _, _, _, _, _, _, h, _⟩ := CWaitFinished.next_ok next
      cases h

/-- What the hellos come to. -/
structure HelloView (E : Env) (x : Ctx) (cfg : Config) (h : HashId) (es : List (Event × Coins)) (acts : List Action)
    (w : CWaitSH) : Prop where
  transcript : HelloTranscript E.P h x.datagram (sent acts) (received es)
    (hashMsgBytes w.firstHello ++ x.bytesOpt w.retry ++ x.bytes w.clientHello)
  types : ∀ m ∈ sent acts, m.msgType = 1
  retries : ∀ m ∈ received es, letterOf m = .helloRetryRequest
  cfg' : CfgFrom cfg w.cfg
  early : ∀ h, w.earlySecret = clientEarly E.P cfg h true
  shares : ∃ n shares, makeShares E.D n cfg.groups = .ok shares ∧ w.offeredDH = privates shares
  params : w.params.nextProto = []

theorem AtEE.hello {E : Env} {x : Ctx} {cfg : Config} {c : Coins} {es : List (Event × Coins)} {e : CWaitEE}
    {acts : List Action} {x' : Ctx} (a : AtEE E x cfg c es e acts x') : HelloView E x cfg a.p.hash a.es0 a.a0 a.w := by
  obtain ⟨st, c0, x0, a0, hst, hx0, hcase⟩ := a.atSH.made
  obtain ⟨_, hcfg, hfirst, hretry⟩ := CStart.next_sent hst
  have hfrom : CfgFrom cfg st.cfg := by
    rcases hcase with ⟨_, rfl, _⟩ | hR
    · exact ⟨⟨cfg.suites, rfl⟩, fun _ h => h⟩
    · obtain ⟨R⟩ := hR
      rw [R.st_eq]
      exact ⟨⟨_, rfl⟩, by simpa using R.offered⟩
  obtain ⟨l, hl⟩ := hfrom.eq
  refine ⟨?_, only_hellos a.run0, ?_, hcfg ▸ hfrom, ?_, ?_, ?_⟩
  · rcases hcase with ⟨h1, rfl, h2⟩ | hR
    · have hf : a.w.firstHello = none := hfirst
      have hr : a.w.retry = none := hretry
      rw [h1, h2, hf, hr]
      have := HelloTranscript.plain (P := E.P) (h := a.p.hash) (datagram := x.datagram) a.w.clientHello
      rw [wire_singleton] at this
      simpa [hashMsgBytes, Ctx.bytesOpt, received] using this
    · obtain ⟨R⟩ := hR
      have hsu := a.suiteOffered
      rw [hcfg, R.st_eq] at hsu
      have hsu' : a.sh.suite = R.body.suite := by simpa using hsu
      have hp : R.p = a.p := by
        have h1 := R.suite
        rw [← hsu', a.suite] at h1
        exact (Option.some.inj h1).symm
      have hf : a.w.firstHello = some (E.P.hash R.p.hash (x.bytes R.ch)) := hfirst.trans (congrArg CStart.firstHello R.st_eq)
      have hr : a.w.retry = some R.hrr := hretry.trans (congrArg CStart.retry R.st_eq)
      have := HelloTranscript.retry (P := E.P) (h := a.p.hash) (datagram := x.datagram) R.prevHellos R.pre R.ch R.hrr
        a.w.clientHello R.same
      rw [← R.rs_eq, ← R.hs_eq] at this
      rw [hf, hr, hashMsgBytes_some, hp]
      simpa [wire_cons, wire_nil, Ctx.bytes, Ctx.bytesOpt] using this
  · intro m hm
    simp only [received, List.mem_filterMap] at hm
    obtain ⟨ev, hev, hm⟩ := hm
    obtain ⟨m', hm', hl'⟩ := a.atSH.all ev hev
    rw [hm'] at hm
    simp only [Option.some.injEq] at hm
    rw [← hm]; exact hl'
  · intro h
    rw [early_kept hst h, hl]
    rfl
  · obtain ⟨shares, _, _, h1, _, _, ⟨psk, o, _, _, hw, _, _⟩ | ⟨_, _, _, hw, _⟩⟩ := CStart.next_ok hst
    all_goals
      rw [hl] at h1
      exact ⟨_, shares, h1, by rw [hw]⟩
  · obtain ⟨_, _, _, _, _, _, ⟨psk, o, _, _, hw, _, _⟩ | ⟨_, _, _, hw, _⟩⟩ := CStart.next_ok hst <;> rw [hw]

theorem CfgFrom.chain {cfg cfg' : Config} (h : CfgFrom cfg cfg') {raw : List Bytes} {chains : List (List Bytes)}
    (hc : ChainAccepted cfg' raw chains) : ChainAccepted cfg raw chains := by
  obtain ⟨l, rfl⟩ := h.eq
  exact hc

/-! ### Certificates -/

theorem certificate_made {x x' : Ctx} {c : CertificateMsg} {m : Msg} (h : mkMsg x (.certificate c) = .ok (m, x')) :
    m.msgType = 11 ∧ CertificateMsg.unmarshal (fun _ => true) m.body = .ok (c, m.body.length) := by
  obtain ⟨d, h1, rfl, _⟩ := mkMsg_ok h
  simp only [Body.marshal, CertificateMsg.marshal] at h1
  have := plain_self plain_cert h1
  exact ⟨rfl, by simp [CertificateMsg.unmarshal, this]⟩

theorem certVerify_made {x x' : Ctx} {c : CertVerify} {m : Msg} (h : mkMsg x (.certificateVerify c) = .ok (m, x')) :
    m.msgType = 15 ∧ CertVerify.unmarshal m.body = .ok (c, m.body.length) := by
  obtain ⟨d, h1, rfl, _⟩ := mkMsg_ok h
  simp only [Body.marshal, CertVerify.marshal] at h1
  have := plain_self plain_certVerify h1
  exact ⟨rfl, by simp [CertVerify.unmarshal, this]⟩

theorem certByScheme_mem {schemes : List Nat} : ∀ {cs : List Cert} {r : Cert × Nat}, certByScheme schemes cs = .ok r → r.1 ∈ cs
  | [], _, h => by simp [certByScheme] at h
  | c :: cs, r, h => by
    simp only [certByScheme] at h
    split at h
    · simp only [Res.ok.injEq] at h
      rw [← h]; simp
    · exact List.mem_cons_of_mem _ (certByScheme_mem h)

theorem certsByName_sub {name : Bytes} : ∀ {cs l : List Cert}, certsByName name cs = .ok l → ∀ c ∈ l, c ∈ cs
  | [], l, h, c, hc => by
    simp only [certsByName, Res.ok.injEq] at h
    subst h; cases hc
  | c' :: cs, l, h, c, hc => by
    simp only [certsByName] at h
    split at h
    · cases h
    · simp only [Res.bind_eq_ok, Res.ok.injEq] at h
      obtain ⟨rest, h1, rfl⟩ := h
      rcases List.mem_append.1 hc with hc | hc
      · simp only [List.mem_map] at hc
        obtain ⟨_, _, rfl⟩ := hc
        simp
      · exact List.mem_cons_of_mem _ (certsByName_sub h1 c hc)

theorem certificate_mem {name : Option Bytes} {schemes : List Nat} {cs : List Cert} {r : Cert × Nat}
    (h : certificate name schemes cs = .ok r) : r.1 ∈ cs := by
  simp only [certificate] at h
  split at h
  · exact certByScheme_mem h
  · simp only [Res.bind_eq_ok] at h
    obtain ⟨l, h1, h2⟩ := h
    split at h2
    · cases h2
    · exact certsByName_sub h1 _ (certByScheme_mem h2)

/-- How a view is related to the states it comes from. -/
structure ClientViewOf {E : Env} {x : Ctx} {cfg : Config} {c : Coins} {es : List (Event × Coins)} {s : Connected}
    {acts : List Action} {x' : Ctx} (a : AtConnected E x cfg c es s acts x') (V : ClientView E x.datagram cfg es acts s) :
    Prop where
  cp : a.wf.sec.cp = V.p
  hs : a.wf.sec.hs = ⟨V.F.clientHs E.P x.datagram, V.F.serverHs E.P x.datagram, V.F.master E.P⟩
  early : a.wf.params.usingEarlyData = hasExt 42 V.ee
  hellos : V.hellos = sent a.at0.at0.a0
  retries : V.retries = received a.at0.at0.es0
  hello : V.hello = a.at0.at0.w.clientHello
  auth : V.F.auth = a.at0.auth.map (·.1)
  last : a.a1 = V.eoed.map .queue ++
    (if V.eoed = [] then [] else [.rekeyOut epochHandshake (trafficKeysOf E.P V.p (V.F.clientHs E.P x.datagram))]) ++
    (V.cauth ++ [V.cfin]).map .queue ++
    [.sendQueued, .rekeyIn epochApplication (trafficKeysOf E.P V.p (V.F.serverAp E.P x.datagram)),
      .rekeyOut epochApplication (trafficKeysOf E.P V.p (V.F.clientAp E.P x.datagram))]
  post : V.post = received a.post
  postOut : V.postOut = sent a.a2
  s0 : a.s0.isClient = true ∧ a.s0.cp = V.p ∧ a.s0.clientAp = V.F.clientAp E.P x.datagram ∧
    a.s0.serverAp = V.F.serverAp E.P x.datagram

theorem clientViewAt {E : Env} (hP : E.P.Sized) {x : Ctx} {cfg : Config} {c : Coins} {es : List (Event × Coins)} {s : Connected}
    {acts : List Action} {x' : Ctx} (h : clientRun E x cfg c es = .ok (.connected s, acts, x')) :
    ∃ (a : AtConnected E x cfg c es s acts x') (V : ClientView E x.datagram cfg es acts s), ClientViewOf a V := by
  obtain ⟨a⟩ := atConnected h
  refine ⟨a, ?_⟩
  have hv := a.at0.at0.hello
  obtain ⟨chl, hoffer, hlast, hkept⟩ := lastHello_waitSH hP a.at0.at0.atSH
  have hsz := suiteParams_size a.at0.at0.suite
  have hx0 : a.x0.datagram = x.datagram := by rw [a.at0.at0.ctx]; exact a.at0.at0.atSH.datagram
  have hsec : a.wf.sec = ⟨a.at0.at0.p, hashMsgBytes a.at0.at0.w.firstHello ++ x.bytesOpt a.at0.at0.w.retry ++
      x.bytes a.at0.at0.w.clientHello ++ x.bytes a.at0.at0.m ++ (x.bytes a.at0.m ++ wire x.datagram (a.at0.auth.map (·.1))),
      a.at0.at0.hs⟩ := by
    rw [a.at0.sec]
    exact congrArg (fun e : CWaitEE => e.sec.add (x.bytes a.at0.m ++ wire x.datagram (a.at0.auth.map (·.1)))) a.at0.at0.e_eq
  have hhs := a.at0.at0.hsOk
  rw [hsSecrets_eq E.P hP _ hsz, pskSelected_eq a.at0.at0.parsed, Res.ok.injEq] at hhs
  have hearly : (if selectsFirstPsk a.at0.at0.sh.exts then a.at0.at0.w.earlySecret
      else hkdfExtract E.P a.at0.at0.p.hash (some (zeros a.at0.at0.p.hash)) (zeros a.at0.at0.p.hash)) =
      clientEarly E.P cfg a.at0.at0.p.hash (selectsFirstPsk a.at0.at0.sh.exts) := by
    cases selectsFirstPsk a.at0.at0.sh.exts
    · rfl
    · simp [hv.early a.at0.at0.p.hash]
  let F : Flight :=
    { h := a.at0.at0.p.hash
      early := clientEarly E.P cfg a.at0.at0.p.hash (selectsFirstPsk a.at0.at0.sh.exts)
      dh := a.at0.at0.dh
      hellos := hashMsgBytes a.at0.at0.w.firstHello ++ x.bytesOpt a.at0.at0.w.retry ++ x.bytes a.at0.at0.w.clientHello
      sh := a.at0.at0.m
      ee := a.at0.m
      auth := a.at0.auth.map (·.1)
      fin := a.m }
  have hshT : hashMsgBytes a.at0.at0.w.firstHello ++ x.bytesOpt a.at0.at0.w.retry ++ x.bytes a.at0.at0.w.clientHello ++
      x.bytes a.at0.at0.m = F.toServerHello x.datagram := by
    simp [F, Flight.toServerHello, wire, Ctx.bytes]
  rw [hearly, hshT] at hhs
  have hsec' : a.wf.sec = ⟨a.at0.at0.p, F.toServerAuth x.datagram, ⟨F.clientHs E.P x.datagram, F.serverHs E.P x.datagram,
      F.master E.P⟩⟩ := by
    rw [hsec, hshT, ← hhs]
    simp [F, Flight.toServerAuth, wire, Ctx.bytes, Flight.clientHs, Flight.serverHs, Flight.master, Flight.handshake]
  obtain ⟨hft, expected, fin, ap, ck, sk, acts1, t1, x1, acts2, t2, x2, vd, finm, res, hexp, hfin, hver, hap, hck, hsk, heo, hca, hvd,
    hmk, hres, hs0, hacts⟩ := CWaitFinished.next_ok a.next
  rw [hsec'] at hexp hap hvd hres hck hsk
  dsimp only at hexp hap hvd hres hck hsk
  rw [makeTrafficKeys_eq E.P hP _ hsz, Res.ok.injEq] at hck hsk
  rw [computeFinishedData_eq E.P hP _ hsz, Res.ok.injEq] at hexp hvd
  rw [apSecrets_eq E.P hP _ hsz, Res.ok.injEq] at hap
  rw [deriveSecret_eq E.P hP _ hsz, Res.ok.injEq, label_resumptionSecret] at hres
  have hfinT : F.toServerAuth x.datagram ++ a.x0.bytes a.m = F.toFinished x.datagram := by
    simp [F, Flight.toFinished, wire, Ctx.bytes, hx0]
  have hx1 : x1.datagram = x.datagram := (clientEOED_datagram heo).trans hx0
  have hx2 : x2.datagram = x.datagram := (clientAuth_datagram hca).trans hx1
  have hpar := a.at0.params
  -- EndOfEarlyData
  have hearlyData : a.wf.params.usingEarlyData = hasExt 42 a.at0.exts := by
    rw [hpar]; exact earlyData_found (by decide) a.at0.parsed (by simp)
  have heo' : ∃ eoed, EarlyEnd (hasExt 42 a.at0.exts) eoed ∧ sent acts1 = eoed ∧
      acts1 = eoed.map .queue ++ (if eoed = [] then [] else
        [.rekeyOut epochHandshake (trafficKeysOf E.P a.at0.at0.p (F.clientHs E.P x.datagram))]) ∧
      t1 = F.toFinished x.datagram ++ wire x.datagram eoed := by
    rcases clientEOED_ok heo with ⟨h1, rfl, rfl, _⟩ | ⟨h1, m, keys, h2, hk, rfl, rfl⟩
    · refine ⟨[], Or.inl ⟨hearlyData ▸ h1, rfl⟩, rfl, rfl, ?_⟩
      rw [hsec', wire_nil, List.append_nil]; exact hfinT
    · refine ⟨[m], Or.inr ⟨hearlyData ▸ h1, m, rfl, mkMsg_type h2, ?_⟩, by simp [sent], ?_, ?_⟩
      rotate_left
      · rw [hsec', makeTrafficKeys_eq E.P hP _ hsz, Res.ok.injEq] at hk
        rw [← hk]; rfl
      rotate_left
      · obtain ⟨d, hd, rfl, _⟩ := mkMsg_ok h2
        have : d = [] := by simpa [Body.marshal, eq_comm] using hd
        simpa using this
      · rw [hsec', ← hfinT]
        simp [wire, Ctx.bytes, hx0]
  obtain ⟨eoed, heo1, heo2, heo3, rfl⟩ := heo'
  -- the client's certificate
  have hasks : a.wf.params.usingClientAuth = asksCertificate F.auth := by
    rw [hpar]
    show a.at0.clientAuth = asksCertificate (a.at0.auth.map (·.1))
    cases a.at0.authOk with
    | psk _ none_ _ _ _ noAuth => rw [noAuth, none_]; rfl
    | cert _ req mcert c1 mcv c2 auth_eq reqOk certType _ _ cvType =>
      rw [auth_eq]
      rcases reqOk with ⟨rfl, _, h3⟩ | ⟨mr, cr, r, rfl, _, h4, _, h3⟩
      · rw [h3]; symm; apply asks_false; simp [certType, cvType, typeCertificate, typeCertificateVerify]
      · rw [h3]; symm; exact asks_true (m := mr) (by simp) h4
  have hcerts : a.wf.certificates = cfg.certificates := by
    obtain ⟨l, hl⟩ := hv.cfg'.eq
    have he : a.at0.e.cfg = a.at0.at0.w.cfg := congrArg CWaitEE.cfg a.at0.at0.e_eq
    rw [a.at0.certificates, he, hl]
  have hcph : a.wf.sec.cp.hash = F.h := by rw [hsec']
  have hca' : ∃ cauth, ClientAuthSent E x.datagram cfg F.h (F.toFinished x.datagram ++ wire x.datagram eoed) (asksCertificate F.auth) cauth ∧ sent acts2 = cauth ∧ acts2 = cauth.map .queue ∧
      t2 = F.toFinished x.datagram ++ wire x.datagram (eoed ++ cauth) := by
    rcases clientAuth_ok hca with ⟨h1, rfl, rfl, _⟩ | ⟨h1, r, schemes, _, _, h2⟩
    · exact ⟨[], .none (hasks ▸ h1) rfl, rfl, rfl, by simp⟩
    · rcases h2 with ⟨e, m, _, h3, rfl, rfl⟩ | ⟨cert, scheme, m, x3, cv, mv, hc, h3, hsig, h4, rfl, rfl⟩
      · obtain ⟨hm1, hm2⟩ := certificate_made h3
        exact ⟨[m], .empty (hasks ▸ h1) m rfl hm1 _ hm2 rfl, rfl, rfl, by simp [wire, Ctx.bytes, hx1]⟩
      · obtain ⟨hm1, hm2⟩ := certificate_made h3
        obtain ⟨hv1, hv2⟩ := certVerify_made h4
        simp only [CertVerify.sign, Res.bind_eq_ok, Res.ok.injEq] at hsig
        obtain ⟨sg, hsig, rfl⟩ := hsig
        rw [(C56_server_partial _ []).1] at hsig
        refine ⟨[m, mv], .cert (hasks ▸ h1) cert (hcerts ▸ certificate_mem hc) m mv rfl hm1 _ hm2 ?_ hv1 _ hv2 ?_, rfl, rfl,
          by simp [wire, Ctx.bytes, hx1]⟩
        · simp [Function.comp_def]
        · simpa [wire, Ctx.bytes, hx1, hcph] using hsig
  obtain ⟨cauth, hca1, hca2, hca3, rfl⟩ := hca'
  obtain ⟨fd, hfd, hfinm, _⟩ := mkMsg_ok hmk
  have hfd' : fd = vd := by simpa [Body.marshal, Finished.marshal, eq_comm] using hfd
  have hs0e := CState.connected.inj hs0
  have hapc : ap.clientAp = F.clientAp E.P x.datagram := by rw [← hap, hfinT]; rfl
  have haps : ap.serverAp = F.serverAp E.P x.datagram := by rw [← hap, hfinT]; rfl
  have hs0A : a.s0.isClient = true ∧ a.s0.cp = a.at0.at0.p ∧ a.s0.clientAp = F.clientAp E.P x.datagram ∧
      a.s0.serverAp = F.serverAp E.P x.datagram := by
    rw [hs0e, hsec']; exact ⟨rfl, rfl, hapc, haps⟩
  have hlastA : a.a1 = eoed.map .queue ++
      (if eoed = [] then [] else [.rekeyOut epochHandshake (trafficKeysOf E.P a.at0.at0.p (F.clientHs E.P x.datagram))]) ++
      (cauth ++ [finm]).map .queue ++
      [.sendQueued, .rekeyIn epochApplication (trafficKeysOf E.P a.at0.at0.p (F.serverAp E.P x.datagram)),
        .rekeyOut epochApplication (trafficKeysOf E.P a.at0.at0.p (F.clientAp E.P x.datagram))] := by
    rw [hacts, heo3, hca3, ← hck, ← hsk, hapc, haps]
    simp [trafficKeysOf]
  have hs0' : s = _ := client_post hP (s := a.s0) (by rw [hs0e, hsec']; exact hsz) (by rw [hs0e]) a.rest
  rw [hs0e] at hs0'
  refine ⟨{
    F := F
    hellos := sent a.at0.at0.a0
    retries := received a.at0.at0.es0
    eoed := eoed
    cauth := cauth
    cfin := finm
    post := received a.post
    postOut := sent a.a2
    hello := a.at0.at0.w.clientHello
    ch := chl
    suites := a.at0.at0.w.cfg.suites
    lastHello := hlast
    offer := hoffer
    sh := a.at0.at0.sh
    ee := a.at0.exts
    p := a.at0.at0.p
    got := ?_
    out := ?_
    postOutTypes := client_post_sends a.rest
    transcript := hv.transcript
    helloTypes := hv.types
    retryTypes := hv.retries
    shType := a.at0.at0.type
    shBody := a.at0.at0.decodes
    notRetry := a.at0.at0.notRetry
    legacyVersion := a.at0.at0.legacyVersion
    version := ?_
    offered := a.at0.at0.suiteOffered
    suite := a.at0.at0.suite
    hash := rfl
    early := rfl
    dh := ?_
    eeType := a.at0.type
    eeBody := safeUnmarshal_ok.1 a.at0.decodes
    auth := ?_
    finType := hft
    fin := ?_
    eoedOk := heo1
    cauthOk := hca1
    cfinType := by rw [hfinm]; rfl
    cfinBody := ?_
    isClient := ?_
    cp := ?_
    repSuite := ?_
    repPsk := ?_
    repEarly := ?_
    repAuth := ?_
    repProto := ?_
    secrets := ?_ }, ?_⟩
  · refine (congrArg received a.es_eq).trans ?_
    simp only [received_append]
    rw [congrArg received a.at0.es_eq]
    simp only [received_append, received_msgs]
    rw [congrArg received a.at0.at0.es_eq]
    simp [received, F]
  · refine (congrArg sent a.acts_eq).trans ?_
    rw [hacts]
    simp only [sent_append, heo2, hca2, a.at0.sent_eq, a.at0.at0.sent_eq]
    simp [sent]
  · obtain ⟨k, vs, h1⟩ := a.at0.at0.version
    exact version_found h1
  · exact clientDh_ok hkept a.at0.at0.parsed a.at0.at0.dhOk
  · have hpsk : a.at0.e.params.usingPSK = selectsFirstPsk a.at0.at0.sh.exts := by
      rw [← pskSelected_eq a.at0.at0.parsed]
      exact congrArg (fun e : CWaitEE => e.params.usingPSK) a.at0.at0.e_eq
    have hcert : s.peerCerts = a.wf.peerCerts ∧ s.chains = a.wf.chains := by
      exact ⟨congrArg Connected.peerCerts hs0', congrArg Connected.chains hs0'⟩
    have hecfg : a.at0.e.cfg = a.at0.at0.w.cfg := congrArg CWaitEE.cfg a.at0.at0.e_eq
    have het : a.at0.e.sec.transcript ++ x.bytes a.at0.m = F.toServerHello x.datagram ++ wire x.datagram [F.ee] := by
      rw [wire_singleton, ← hshT]
      exact congrArg (fun e : CWaitEE => e.sec.transcript ++ x.bytes a.at0.m) a.at0.at0.e_eq
    have heh : a.at0.e.sec.cp.hash = F.h := congrArg (fun e : CWaitEE => e.sec.cp.hash) a.at0.at0.e_eq
    rw [hcert.1, hcert.2, ← hpsk]
    cases a.at0.authOk with
    | psk using_ none_ certs chains => exact .psk using_ (by rw [show F.auth = a.at0.auth.map (·.1) from rfl, none_]; rfl) certs chains
    | cert using_ req mcert c1 mcv c2 auth_eq reqOk certType cm certOk cvType cv pub cvOk leaf verified certs accepted =>
      refine .cert using_ (req.map (·.1)) mcert mcv ?_ ?_ certType cm (safeUnmarshal_ok.1 certOk) cvType cv pub
        (safeUnmarshal_ok.1 cvOk) (leafKey_spec leaf) ?_ certs ?_
      · rw [show F.auth = a.at0.auth.map (·.1) from rfl, auth_eq]; simp
      · rcases reqOk with ⟨rfl, _, _⟩ | ⟨mr, cr, r, rfl, _, h4, _, _⟩
        · exact Or.inl rfl
        · exact Or.inr ⟨mr, rfl, h4⟩
      · rw [het, heh] at verified
        have := verify_spec verified
        simpa [wire_append, wire_singleton, Ctx.bytes, List.append_assoc] using this
      · rw [hecfg] at accepted
        exact hv.cfg'.chain (chain_spec accepted)
  · have := finished_body hfin
    rw [hver] at this
    exact (this.symm.trans hexp.symm)
  · rw [hfinm, hfd']; exact hvd.symm
  · exact congrArg Connected.isClient hs0'
  · exact (congrArg Connected.cp hs0').trans (by simp [hsec'])
  · refine (congrArg (fun c : Connected => c.params.suite) hs0').trans ?_
    simp only [hpar, eeParams]
    exact congrArg (fun e : CWaitEE => e.params.suite) a.at0.at0.e_eq
  · refine (congrArg (fun c : Connected => c.params.usingPSK) hs0').trans ?_
    simp only [hpar, eeParams]
    rw [← pskSelected_eq a.at0.at0.parsed]
    exact congrArg (fun e : CWaitEE => e.params.usingPSK) a.at0.at0.e_eq
  · exact (congrArg (fun c : Connected => c.params.usingEarlyData) hs0').trans hearlyData
  · exact (congrArg (fun c : Connected => c.params.usingClientAuth) hs0').trans hasks
  · have h1 := alpn_found (by decide) a.at0.parsed (by simp)
    have h2 : s.params.nextProto = _ := congrArg (fun c : Connected => c.params.nextProto) hs0'
    rw [h2]
    simp only [hpar, eeParams]
    have h3 : a.at0.e.params.nextProto = [] :=
      (congrArg (fun e : CWaitEE => e.params.nextProto) a.at0.at0.e_eq).trans hv.params
    rw [h3]
    exact h1
  · rw [hsec'] at hs0'
    refine ⟨(congrArg Connected.exporter hs0').trans ?_, (congrArg Connected.resumption hs0').trans ?_,
      (congrArg Connected.clientAp hs0').trans ?_, (congrArg Connected.serverAp hs0').trans ?_⟩
    · show ap.exporter = _
      rw [← hap, hfinT]; rfl
    · show res = _
      rw [← hres]
      have : x2.bytes finm = wire x.datagram [finm] := by simp [wire, Ctx.bytes, hx2]
      rw [this, List.append_assoc, ← wire_append]; rfl
    · show updates _ _ _ _ ap.clientAp = _
      rw [← hap, hfinT]; rfl
    · show updates _ _ _ _ ap.serverAp = _
      rw [← hap, hfinT]; rfl
  · exact {
      cp := congrArg CSecrets.cp hsec'
      hs := congrArg CSecrets.hs hsec'
      early := hearlyData
      hellos := rfl
      retries := rfl
      hello := rfl
      auth := rfl
      last := hlastA
      post := rfl
      postOut := rfl
      s0 := hs0A }

/-- Whatever is said of a client that reports the handshake complete holds. -/
theorem clientView {E : Env} (hP : E.P.Sized) {x : Ctx} {cfg : Config} {c : Coins} {es : List (Event × Coins)} {s : Connected}
    {acts : List Action} {x' : Ctx} (h : clientRun E x cfg c es = .ok (.connected s, acts, x')) :
    Nonempty (ClientView E x.datagram cfg es acts s) := by
  obtain ⟨_, V, _⟩ := clientViewAt hP h
  exact ⟨V⟩

end Verif.Machine

import Verif.Machine.ServerTrace
import Verif.Machine.ClientView
import Verif.Props.PskNegotiation

/-
Every server that has sent its flight has the view of `Verif.Spec.ServerFlight`; every server that reports the handshake
complete that of `Verif.Spec.ServerView`.
-/

namespace Verif.Machine

open Verif Verif.Crypto Verif.Messages Verif.Negotiation Verif.Handshake Verif.Spec

/-! ### What the extensions of a ClientHello say -/

/-- What a search finds was carried. -/
theorem found_carries {α : Type} {el : List Ext} {ks : List ExtKind} {found : List ExtBody} {k : ExtKind}
    (f : ExtBody → Option α) (hn : (ks.map ExtKind.type).Nodup) (h : parseExts el ks = .ok found) (hk : k ∈ ks)
    (hf : ∀ b, (f b).isSome → b.kind.type = k.type) {v : α} (hv : found.findSome? f = some v) :
    ∃ b, Carries k el b ∧ b.kind = k ∧ f b = some v := by
  rcases parsed_findSome f hn h hk hf with ⟨_, h2⟩ | ⟨d, b, h1, h2, h3, h4⟩
  · rw [hv] at h2; cases h2
  · exact ⟨b, ⟨d, h1, safeUnmarshal_ok.1 h2⟩, h3, by rw [← h4, hv]⟩

/-- What is carried is found. -/
theorem carries_found {α : Type} {el : List Ext} {ks : List ExtKind} {found : List ExtBody} {k : ExtKind} {b : ExtBody}
    (f : ExtBody → Option α) (hn : (ks.map ExtKind.type).Nodup) (h : parseExts el ks = .ok found) (hk : k ∈ ks)
    (hf : ∀ b, (f b).isSome → b.kind.type = k.type) (hc : Carries k el b) : found.findSome? f = f b := by
  obtain ⟨d, hd, hu⟩ := hc
  rcases parsed_findSome f hn h hk hf with ⟨h1, _⟩ | ⟨d', b', h1, h2, h3, h4⟩
  · rw [hd] at h1; cases h1
  · rw [hd] at h1
    cases h1
    rw [safeUnmarshal_ok.1 h2] at hu
    simp only [Res.ok.injEq, Prod.mk.injEq, and_true] at hu
    rw [h4, hu]

theorem cookie_none {el : List Ext} {found : List ExtBody} (h : parseExts el offerKinds = .ok found)
    (hc : (offerOf found).cookie = []) (c : Bytes) (hcar : Carries .cookie el (.cookie c)) : c = [] := by
  have := carries_found (k := .cookie) asCookie offerKinds_nodup h (by decide) (by
    intro b hb; cases b <;> simp [asCookie] at hb ⊢; rfl) hcar
  simp only [offerOf, findCookie, this, asCookie, Option.getD_some] at hc
  exact hc

theorem cookie_some {el : List Ext} {found : List ExtBody} (h : parseExts el offerKinds = .ok found)
    (hc : (offerOf found).cookie ≠ []) : Carries .cookie el (.cookie (offerOf found).cookie) := by
  cases hf : findCookie found with
  | none => simp [offerOf, hf] at hc
  | some c =>
    obtain ⟨b, h1, h2, h3⟩ := found_carries (k := .cookie) asCookie offerKinds_nodup h (by decide) (by
      intro b hb; cases b <;> simp [asCookie] at hb ⊢; rfl) hf
    cases b <;> simp [asCookie] at h3
    subst h3
    simpa [offerOf, hf] using h1

theorem versions_carried {el : List Ext} {found : List ExtBody} (h : parseExts el offerKinds = .ok found) {vs : List UInt16}
    (hv : (offerOf found).versions = some vs) : Carries (.supportedVersions 1) el (.supportedVersions 1 vs) := by
  obtain ⟨b, h1, h2, h3⟩ := found_carries (k := .supportedVersions typeClientHello) asVersions offerKinds_nodup h (by decide) (by
      intro b hb; cases b <;> simp [asVersions] at hb ⊢; rfl) hv
  cases b <;> simp [asVersions] at h3
  subst h3
  simp only [ExtBody.kind, ExtKind.supportedVersions.injEq] at h2
  subst h2
  exact h1

theorem shares_carried {el : List Ext} {found : List ExtBody} (h : parseExts el offerKinds = .ok found) {e : KeyShareEntry}
    (he : e ∈ (offerOf found).shares) : Carries (.keyShare 1) el (.keyShare 1 0 (offerOf found).shares) := by
  cases hf : findShares found with
  | none => simp [offerOf, hf] at he
  | some l =>
    obtain ⟨b, h1, h2, h3⟩ := found_carries (k := .keyShare typeClientHello) asShares offerKinds_nodup h (by decide) (by
      intro b hb; cases b <;> simp [asShares] at hb ⊢; rfl) hf
    cases b <;> simp [asShares] at h3
    subst h3
    obtain ⟨d, hd, hu⟩ := h1
    simp only [offerOf, hf, Option.getD_some]
    refine ⟨d, hd, ?_⟩
    have hu' := hu
    simp only [ExtKind.unmarshal, if_true, Res.bind_eq_ok] at hu
    obtain ⟨⟨v, n⟩, _, hu⟩ := hu
    dsimp only at hu
    split at hu
    · simp only [Res.ok.injEq, Prod.mk.injEq, ExtBody.keyShare.injEq] at hu
      obtain ⟨⟨rfl, rfl, rfl⟩, rfl⟩ := hu
      exact hu'
    · cases hu

theorem psk_carried {el : List Ext} {found : List ExtBody} (h : parseExts el offerKinds = .ok found)
    (he : (offerOf found).ids ≠ []) :
    Carries (.preSharedKey 1) el (.preSharedKey 1 (offerOf found).ids (offerOf found).binders 0) ∧
      (offerOf found).ids.length = (offerOf found).binders.length := by
  cases hf : findPsk found with
  | none => simp [offerOf, hf] at he
  | some t =>
    obtain ⟨ids, bs, sel⟩ := t
    obtain ⟨b, h1, h2, h3⟩ := found_carries (k := .preSharedKey typeClientHello) asPsk offerKinds_nodup h (by decide) (by
      intro b hb; cases b <;> simp [asPsk] at hb ⊢; rfl) hf
    cases b <;> simp [asPsk] at h3
    obtain ⟨rfl, rfl, rfl⟩ := h3
    obtain ⟨d, hd, hu⟩ := h1
    simp only [offerOf, hf]
    have hu' := hu
    simp only [ExtKind.unmarshal, if_true, Res.bind_eq_ok] at hu
    obtain ⟨⟨v, n⟩, _, hu⟩ := hu
    dsimp only at hu
    split at hu
    · cases hu
    · rename_i hl
      simp only [Res.ok.injEq, Prod.mk.injEq, ExtBody.preSharedKey.injEq] at hu
      obtain ⟨⟨rfl, rfl, rfl, rfl⟩, rfl⟩ := hu
      exact ⟨⟨d, hd, hu'⟩, by simpa using hl⟩

/-! ### What is made of it -/

theorem dhGroups_selected {D : Dh} {s : Share} : ∀ {gs : List Nat} {n n' g : Nat} {pub sec : Bytes},
    dhGroups D s n gs = .ok (some (g, pub, sec), n') →
    s.group = g ∧ g ∈ gs ∧ ∃ k priv, newKeyShare D k g = .ok (pub, priv) ∧ keyAgreement D g s.key priv = .ok sec
  | [], n, n', g, pub, sec, h => by simp [dhGroups] at h
  | g' :: gs, n, n', g, pub, sec, h => by
    simp only [dhGroups] at h
    have again {m} (h : dhGroups D s m gs = .ok (some (g, pub, sec), n')) := by
      obtain ⟨h1, h2, h3⟩ := dhGroups_selected h
      exact (⟨h1, List.mem_cons_of_mem _ h2, h3⟩ : s.group = g ∧ g ∈ g' :: gs ∧ _)
    split at h
    · exact again h
    · rename_i hg
      have hg : g' = s.group := by simpa using hg
      split at h
      · rename_i pub' priv hk
        split at h
        · rename_i secret ha
          simp only [Res.ok.injEq, Prod.mk.injEq, Option.some.injEq] at h
          obtain ⟨⟨rfl, rfl, rfl⟩, rfl⟩ := h
          exact ⟨hg.symm, by simp, n, priv, hg ▸ hk, hg ▸ ha⟩
        · cases h
        · exact again h
      · exact again h

theorem dh_selected {D : Dh} {gs : List Nat} : ∀ {shares : List Share} {n g : Nat} {pub sec : Bytes},
    dh D gs n shares = .ok (some (g, pub, sec)) →
    ∃ s ∈ shares, s.group = g ∧ g ∈ gs ∧ ∃ k priv, newKeyShare D k g = .ok (pub, priv) ∧ keyAgreement D g s.key priv = .ok sec
  | [], n, g, pub, sec, h => by simp [dh] at h
  | s :: ss, n, g, pub, sec, h => by
    simp only [dh] at h
    split at h
    · rename_i c n' hd
      simp only [Res.ok.injEq, Option.some.injEq] at h
      subst h
      obtain ⟨h1, h2, h3⟩ := dhGroups_selected hd
      exact ⟨s, by simp, h1, h2, h3⟩
    · obtain ⟨s', hs, h3⟩ := dh_selected h
      exact ⟨s', List.mem_cons_of_mem _ hs, h3⟩
    all_goals cases h

theorem serverHello_made {x x' : Ctx} {sh : ServerHello} {m : Msg} (h : mkMsg x (.serverHello sh) = .ok (m, x')) :
    m.msgType = 2 ∧ ServerHello.unmarshal m.body = .ok (sh, m.body.length) := by
  obtain ⟨d, h1, rfl, _⟩ := mkMsg_ok h
  simp only [Body.marshal, ServerHello.marshal] at h1
  have := plain_self plain_sh h1
  exact ⟨rfl, by simp [ServerHello.unmarshal, this]⟩

theorem retry_made {x x' : Ctx} {suite : UInt16} {sid cookie : Bytes} {m : Msg} (h : makeRetry x suite sid cookie = .ok (m, x')) :
    letterOf m = .helloRetryRequest := by
  obtain ⟨_, _, h1⟩ := makeRetry_ok h
  obtain ⟨h2, h3⟩ := serverHello_made h1
  simp [letterOf, h2, h3]

theorem finished_made {x x' : Ctx} {v : Bytes} {m : Msg} (h : mkMsg x (.finished ⟨v.length, v⟩) = .ok (m, x')) :
    m.msgType = 20 ∧ m.body = v := by
  obtain ⟨d, h1, rfl, _⟩ := mkMsg_ok h
  exact ⟨rfl, by simpa [Body.marshal, Finished.marshal, eq_comm] using h1⟩

/-- As long as it waits for a hello a server sends nothing but HelloRetryRequests. -/
theorem retry_framed {x x' : Ctx} {suite : UInt16} {sid cookie : Bytes} {m : Msg} (h : makeRetry x suite sid cookie = .ok (m, x')) :
    Framed m := by
  obtain ⟨exts, _, h⟩ := makeRetry_ok h
  obtain ⟨d, hd, rfl, _⟩ := mkMsg_ok h
  have hd' : ServerHello.marshal _ = .ok d := hd
  unfold ServerHello.marshal at hd'
  have hl : d.length < 2 ^ 24 := Nat.lt_of_le_of_lt (Syntax.plain_length plain_sh hd') (by decide)
  exact ⟨Nat.mod_eq_of_lt (by omega), hl⟩

theorem only_retries {E : Env} {x : Ctx} {cfg : Config} {es : List (Event × Coins)} {s : SStart}
    {acts : List Action} {x' : Ctx} (h : serverRun E x cfg es = .ok (.start s, acts, x')) :
    ∀ m ∈ sent acts, letterOf m = .helloRetryRequest := by
  have := serverRun_induct (cfg := cfg) (fun _ s acts _ => ∀ w, s = .start w → ∀ m ∈ sent acts, letterOf m = .helloRetryRequest)
    ?_ ?_ h
  · exact this s rfl
  · intro w _ m hm; cases hm
  · intro es s acts x1 e ce s' acts' x2 ih hst w' hw'
    cases hst with
    | retry s m hrr x2 next =>
      intro m' hm'
      rw [sent_append] at hm'
      rcases List.mem_append.1 hm' with hm' | hm'
      · exact ih s rfl m' hm'
      · have : m' = hrr := by simpa [sent] using hm'
        rw [this]
        obtain ⟨f, _, ⟨hs, r, hr, h1⟩ | ⟨_, n, h1, _⟩⟩ := SStart.next_ok next
        · cases h1
          rcases chooseRetry_ok f.retryOk with ⟨h2, _⟩ | ⟨_, _, _, hrr', h2, h3⟩ | ⟨_, _, _, _, _, _, _, _, hrr', h2, _, _, _, _, _, h3⟩
          · rw [hr] at h2; cases h2
          · rw [hr] at h2; cases h2; exact retry_made h3
          · rw [hr] at h2; cases h2; exact retry_made h3
        · cases h1
    | hello s m n x1' s'' _ x2' next neg =>
      obtain ⟨f, rfl, ⟨_, _, _, rfl, _⟩ | ⟨_, _, rfl, _⟩ | ⟨_, _, rfl, _⟩⟩ := SNegotiated.next_ok neg
      · cases hw'
      · cases hw'
      · rcases settle_wait f.wait with ⟨_, h2⟩ | ⟨_, h2⟩ <;> rw [h2] at hw' <;> cases hw'
    | eoed s m s'' acts' x2' next =>
      obtain ⟨_, _, _, _, _, rfl, _⟩ := SWait.nextEOED_ok next
      rcases settle_wait { s with sec := s.sec.add (x1.bytes m) } with ⟨_, h2⟩ | ⟨_, h2⟩ <;> rw [h2] at hw' <;> cases hw'
    | cert s m s'' acts' x2' next =>
      obtain ⟨_, _, _, _, _, ⟨_, h⟩ | ⟨_, h⟩⟩ := SWait.nextCert_ok next <;> rw [h] at hw' <;> cases hw'
    | cv s m s'' acts' x2' next =>
      obtain ⟨_, _, _, _, _, _, _, _, _, h⟩ := SWaitCV.next_ok next
      rw [h] at hw'; cases hw'
    | finished s m s'' acts' x2' next =>
      obtain ⟨_, _, _, _, _, _, _, _, _, _, _, h, _⟩ := SWaitFinished.next_ok next
      rw [h] at hw'; cases hw'
    | skip => cases hw'
    | early => cases hw'
    | post => cases hw'
    | data => cases hw'

/-! ### The ServerHello and EncryptedExtensions -/

theorem beBytes_two_mod (i : Nat) : beBytes 2 (UInt16.ofNat i).toNat = beBytes 2 i := by
  have h : (UInt16.ofNat i).toNat = i % 65536 := by simp
  rw [h]
  simp only [beBytes, Nat.shiftRight_eq_div_pow, List.cons.injEq, and_true]
  constructor
  · apply UInt8.toNat_inj.1
    simp only [UInt8.toNat_ofNat']
    omega
  · apply UInt8.toNat_inj.1
    simp only [UInt8.toNat_ofNat']
    omega

theorem keyShare_body {g : UInt16} {pub d : Bytes} (h : (ExtBody.keyShare typeServerHello 0 [(g, pub, ())]).marshal = .ok d) :
    d = beBytes 2 g.toNat ++ beBytes 2 pub.length ++ pub := by
  simp only [ExtBody.marshal, show ¬ typeServerHello = typeClientHello by decide,
    show ¬ typeServerHello = typeHelloRetryRequest by decide, if_false, if_true] at h
  split at h
  · exact keyShareEntry_marshal (e := (g, pub, ())) h
  · cases h

theorem psk_body {v : UInt16} {d : Bytes} (h : (ExtBody.preSharedKey typeServerHello [] [] v).marshal = .ok d) :
    d = beBytes 2 v.toNat := by
  simp only [ExtBody.marshal, show ¬ typeServerHello = typeClientHello by decide, if_false, if_true, List.length_nil,
    show ¬ (0 > 0 ∨ 0 > 0) by omega, marshal_u16, Res.ok.injEq] at h
  exact h.symm

/-- The extensions of the ServerHello. -/
theorem sh_exts {n : SNegotiated} {exts : List Ext} (h : addAll [] (serverHelloExts n) = .ok exts) :
    dataOf 43 exts = [[3, 4]] ∧
    dataOf 51 exts = (if n.params.usingDH then
      [beBytes 2 (UInt16.ofNat n.dhGroup).toNat ++ beBytes 2 n.dhPublic.length ++ n.dhPublic] else []) ∧
    dataOf 41 exts = (if n.params.usingPSK then [beBytes 2 n.selectedPSK] else []) := by
  have hnd : ((serverHelloExts n).map fun b => b.kind.type).Nodup := by
    simp only [serverHelloExts]; split <;> split <;> simp [ExtBody.kind, ExtKind.type]
  obtain ⟨hm, rfl⟩ := addAll_made h hnd
  have hv : bodyData (.supportedVersions typeServerHello [tls13Version]) = [3, 4] := by decide
  have hks : n.params.usingDH = true → bodyData (.keyShare typeServerHello 0 [(UInt16.ofNat n.dhGroup, n.dhPublic, ())]) =
      beBytes 2 (UInt16.ofNat n.dhGroup).toNat ++ beBytes 2 n.dhPublic.length ++ n.dhPublic := by
    intro hu
    exact keyShare_body (hm _ (by simp [serverHelloExts, hu]))
  have hpsk : n.params.usingPSK = true → bodyData (.preSharedKey typeServerHello [] [] (UInt16.ofNat n.selectedPSK)) =
      beBytes 2 n.selectedPSK := by
    intro hu
    rw [psk_body (hm (.preSharedKey typeServerHello [] [] (UInt16.ofNat n.selectedPSK)) (by simp [serverHelloExts, hu])),
      beBytes_two_mod]
  cases hd : n.params.usingDH <;> cases hp : n.params.usingPSK <;>
    simp [serverHelloExts, hd, hp, dataOf, bodyExt, ExtBody.kind, ExtKind.type, hv, hks, hpsk]

/-- The extensions of EncryptedExtensions. -/
theorem ee_exts {n : SNegotiated} {exts : List Ext} (h : addAll [] (encryptedExts n) = .ok exts) :
    hasExt 42 exts = n.params.usingEarlyData ∧ NamesProtocol exts n.params.nextProto := by
  have hnd : ((encryptedExts n).map fun b => b.kind.type).Nodup := by
    simp only [encryptedExts]; split <;> split <;> simp [ExtBody.kind, ExtKind.type]
  obtain ⟨hm, rfl⟩ := addAll_made h hnd
  constructor
  · cases hu : n.params.usingEarlyData <;> by_cases hn : n.params.nextProto = [] <;>
      simp [encryptedExts, hu, hn, hasExt, bodyExt, ExtBody.kind, ExtKind.type]
  · by_cases hn : n.params.nextProto = []
    · refine Or.inl ⟨?_, hn⟩
      cases hu : n.params.usingEarlyData <;>
      simp [encryptedExts, hu, hn, dataOf, bodyExt, ExtBody.kind, ExtKind.type]
    · have h1 := hm (.alpn [n.params.nextProto]) (by simp [encryptedExts, hn])
      refine Or.inr ⟨bodyData (.alpn [n.params.nextProto]), [n.params.nextProto], ?_, ?_, rfl⟩
      · cases hu : n.params.usingEarlyData <;>
        simp [encryptedExts, hu, hn, dataOf, bodyExt, ExtBody.kind, ExtKind.type]
      · simp only [ExtBody.marshal] at h1
        have := plain_self plain_alpn h1
        simp [ExtKind.unmarshal, this]

/-! ### The flight -/

/-- The flight of a server. -/
def AfterHello.F {E : Env} {x : Ctx} {cfg : Config} {es : List (Event × Coins)} {acts : List Action}
    (a : AfterHello E x cfg es acts) : Flight :=
  { h := a.f.p.hash
    early := serverEarlySecret E.P a.f.p.hash a.n
    dh := a.n.dhSecret
    hellos := hashMsgBytes a.n.firstHello ++ x.bytesOpt a.n.retry ++ x.bytes a.n.clientHello
    sh := a.f.sh
    ee := a.f.ee
    auth := sent a.f.acts
    fin := a.f.fin }

theorem bytes_of {x x' : Ctx} (h : x'.datagram = x.datagram) (m : Msg) : x'.bytes m = Msg.marshal x.datagram m := by
  simp [Ctx.bytes, h]

theorem auth_wire {E : Env} {x x' x0 : Ctx} {s : SNegotiated} {hid : HashId} {t t' : Bytes} {acts : List Action}
    (hx : x.datagram = x0.datagram)
    (h : serverAuth E x s hid t = .ok (acts, t', x')) : t' = t ++ wire x0.datagram (sent acts) := by
  rcases serverAuth_ok h with ⟨_, rfl, rfl, _⟩ | ⟨_, acts1, t1, x1, cert, m, x2, cv, mv, hr, _, _, _, _, rfl, rfl⟩
  · simp [sent, wire]
  · rcases serverRequest_ok hr with ⟨_, rfl, rfl, _⟩ | ⟨_, exts, mr, _, hmr, rfl, rfl⟩
    · simp [sent, wire, Ctx.bytes, hx]
    · simp [sent, wire, Ctx.bytes, hx]

/-- The secrets after the flight. -/
theorem AfterHello.secrets {E : Env} (hP : E.P.Sized) {x : Ctx} {cfg : Config} {es : List (Event × Coins)} {acts : List Action}
    (a : AfterHello E x cfg es acts) :
    a.f.wait.sec = ⟨a.f.p, a.F.toFinished x.datagram, a.F.master E.P, a.F.clientHs E.P x.datagram,
      ⟨a.F.clientAp E.P x.datagram, a.F.serverAp E.P x.datagram, a.F.exporter E.P x.datagram⟩⟩ ∧
    a.F.fin.body = a.F.serverVerify E.P x.datagram ∧ a.F.fin.msgType = 20 := by
  have hsz := suiteParams_size a.f.suiteOk
  have hx1 := a.datagram.2
  have hT : helloTranscript a.x1 a.n a.f.sh = a.F.toServerHello x.datagram := by
    simp only [helloTranscript, AfterHello.F, Flight.toServerHello, wire_singleton]
    simp [Ctx.bytes, Ctx.bytesOpt, hx1]
  have hhs := a.f.hsOk
  rw [hsSecrets_eq E.P hP _ hsz, Res.ok.injEq, hT] at hhs
  have hT3 := auth_wire (x0 := x) (a.f.datagram.2.1.trans hx1) a.f.authOk
  rw [hT] at hT3
  have hT3' : a.f.transcript3 = a.F.toServerAuth x.datagram := by
    rw [hT3]
    simp [AfterHello.F, Flight.toServerAuth, wire, Ctx.bytes, hx1]
  have hv := a.f.verifyOk
  rw [computeFinishedData_eq E.P hP _ hsz, Res.ok.injEq, hT3', ← hhs] at hv
  have hfin := finished_made a.f.finOk
  have hT4 : a.f.transcript3 ++ a.x1.bytes a.f.fin = a.F.toFinished x.datagram := by
    rw [hT3']
    simp [AfterHello.F, Flight.toFinished, wire, Ctx.bytes, hx1]
  have hap := a.f.apOk
  rw [apSecrets_eq E.P hP _ hsz, Res.ok.injEq, hT4, ← hhs] at hap
  refine ⟨?_, ?_, hfin.1⟩
  · simp only [NegFacts.wait, hT4, ← hap, ← hhs]
    rfl
  · show a.f.fin.body = _
    rw [hfin.2, ← hv]; rfl

theorem ofNat_mem {l : List UInt16} {n : Nat} (h : n ∈ l.map (·.toNat)) : UInt16.ofNat n ∈ l ∧ (UInt16.ofNat n).toNat = n := by
  simp only [List.mem_map] at h
  obtain ⟨v, hv, rfl⟩ := h
  simp [hv]

/-- How a view is related to the states it comes from. -/
structure FlightOf {E : Env} {x : Ctx} {cfg : Config} {es : List (Event × Coins)} {acts : List Action}
    (a : AfterHello E x cfg es acts) (v : ServerFlight E x.datagram cfg es acts) : Prop where
  F : v.F = a.F
  p : v.p = a.f.p
  hello : v.hello = a.m
  retries : v.retries = sent a.a0
  rest : v.rest = received a.rest
  out : sent acts = sent a.a0 ++ sent a.f.sent ++ v.out
  usingPSK : a.n.params.usingPSK = v.psk.isSome
  usingEarlyData : a.n.params.usingEarlyData = hasExt 42 v.ee
  rejected : a.n.params.rejectedEarlyData = (hasExt 42 v.ch.exts && !hasExt 42 v.ee)
  suite : a.n.params.suite = v.sh.suite
  proto : NamesProtocol v.ee a.n.params.nextProto
  asks : asksCertificate v.F.auth = a.f.wait.params.usingClientAuth
  protoPsk : ∀ k, v.psk = some k → a.n.params.nextProto = k.nextProto ∨
    (a.n.params.nextProto = [] ∧ (k.isResumption = true → ∀ ps, Carries .alpn v.ch.exts (.alpn ps) → ps = []))

theorem alpn_none {el : List Ext} {found : List ExtBody} (h : parseExts el offerKinds = .ok found)
    (hc : (offerOf found).alpn = []) (ps : List Bytes) (hcar : Carries .alpn el (.alpn ps)) : ps = [] := by
  have := carries_found (k := .alpn) asAlpn offerKinds_nodup h (by decide) (by
    intro b hb; cases b <;> simp [asAlpn] at hb ⊢; rfl) hcar
  simp only [offerOf, findAlpn, this, asAlpn, Option.getD_some] at hc
  exact hc

theorem alpn_psk {k : Psk} {offered supported : List Bytes} {proto : Bytes} (h : alpn (some k) offered supported = .ok proto) :
    proto = k.nextProto ∨ (proto = [] ∧ (k.isResumption = true → offered = [])) := by
  simp only [alpn] at h
  split at h
  · rename_i p hp
    cases h
    exact .inl ((((alpnLoop_spec (some k) supported offered).1 proto).1 hp).prop.2 k rfl)
  · split at h
    · cases h
    · rename_i hn
      cases h
      refine .inr ⟨rfl, fun hr => ?_⟩
      cases offered with
      | nil => rfl
      | cons => simp [hr] at hn

theorem AfterHello.flight {E : Env} (hP : E.P.Sized) {x : Ctx} {cfg : Config} {es : List (Event × Coins)} {acts : List Action}
    (a : AfterHello E x cfg es acts) : ∃ v : ServerFlight E x.datagram cfg es acts, FlightOf a v := by
  obtain ⟨f, hx2, ⟨_, _, _, h⟩ | ⟨hsend, n, hn, hfin⟩⟩ := SStart.next_ok a.next
  · cases h
  cases hn
  obtain ⟨hmt, hbody, hver, found, hparse, ho, vs, hvs, hv⟩ := readHello_ok f.hello
  obtain ⟨hdp, cert, psk, et, proto, hcert, hpsk, het, halpn, hneq⟩ := SStart.finish_ok hfin
  have hncfg : a.n.cfg = cfg := by rw [hneq]
  have hch : a.n.clientHello = a.m := by rw [hneq]
  have hsuite : a.n.params.suite = UInt16.ofNat f.suite := by rw [hneq]
  have hmode := C28_psk_mode f.dhc.isSome f.pskc.isSome f.o.modes _ _ rfl
  have hoff : f.suite ∈ f.ch.suites.map (·.toNat) := by
    have h1 := f.suiteOk
    cases hpc : f.pskc.map (·.2.1) with
    | none => rw [hpc] at h1; exact (((C28_suite_without_psk _ _).1 _).1 h1).mem
    | some k => rw [hpc] at h1; exact (((C28_suite_with_psk_partial k _ _).1 _).1 h1).2
  obtain ⟨hoff1, hoff2⟩ := ofNat_mem hoff
  obtain ⟨hsh1, hsh2⟩ := serverHello_made a.f.shOk
  obtain ⟨he43, he51, he41⟩ := sh_exts a.f.extsOk
  obtain ⟨hee1, hee2⟩ := unmarshalEE_made a.f.eeOk
  obtain ⟨hed, hnp⟩ := ee_exts a.f.eeExtsOk
  obtain ⟨_, hfinb, hfint⟩ := a.secrets hP
  have hx0 := a.datagram.1
  have hwv : wireVersion a.x0 = (if x.datagram then 0xfefd else 0x0303) := by
    simp only [wireVersion, hx0]; rfl
  have husing : a.n.params.usingPSK = psk.isSome ∧ a.n.pskSecret = (match (generalizing := false) psk with | some p => p.key | none => []) := by
    constructor
    · rw [hneq, hpsk]
      dsimp only
      cases hu : (pskMode f.dhc.isSome f.pskc.isSome f.o.modes).2
      · simp
      · have := hmode.2.1 hu
        cases hpc : f.pskc with
        | none => rw [hpc] at this; cases this
        | some v => simp
    · refine (congrArg SNegotiated.pskSecret hneq).trans ?_
      clear hneq halpn het hpsk hdp
      cases psk <;> rfl
  have hearly : a.n.params.usingEarlyData = (psk.isSome && hasExt 42 f.ch.exts && cfg.allowEarlyData) ∧
      a.n.params.rejectedEarlyData = (hasExt 42 f.ch.exts && !a.n.params.usingEarlyData) := by
    have h1 : f.o.earlyData = hasExt 42 f.ch.exts := by
      rw [ho]; exact earlyData_found offerKinds_nodup hparse (by decide)
    have h2 : a.n.params.usingPSK = (pskMode f.dhc.isSome f.pskc.isSome f.o.modes).2 := by rw [hneq]
    rw [← husing.1, h2, ← h1, hneq]
    dsimp only [Negotiation.earlyData]
    constructor
    · cases f.o.earlyData <;> simp
    · cases f.o.earlyData <;> simp
  have hauthA : asksCertificate (sent a.f.acts) = a.f.wait.params.usingClientAuth := by
    have h1 := a.f.asks
    rw [NegFacts.sent, sent_append, sent_append, asks_append, asks_append] at h1
    have h2 := mkMsg_type a.f.shOk
    have h3 := mkMsg_type a.f.eeOk
    have h4 := mkMsg_type a.f.finOk
    have h5 : asksCertificate (sent [.queue a.f.sh, .rekeyOut epochHandshake a.f.serverKeys, .queue a.f.ee]) = false := by
      simp [sent, asksCertificate, h2, h3, Body.type, typeServerHello, typeEncryptedExtensions]
    have h6 : asksCertificate (sent [.queue a.f.fin, .sendQueued, .rekeyOut epochApplication a.f.serverApKeys]) = false := by
      simp [sent, asksCertificate, h4, Body.type, typeFinished]
    rw [h5, h6] at h1
    simpa [NegFacts.wait] using h1
  have hrej : a.n.params.rejectedEarlyData = (hasExt 42 f.ch.exts && !hasExt 42 a.f.eeExts) := by
    rw [hearly.2, hed]
  obtain ⟨out, hout⟩ := a.sent_eq
  have hT : helloTranscript a.x1 a.n a.f.sh = a.F.toServerHello x.datagram := by
    simp only [helloTranscript, AfterHello.F, Flight.toServerHello, wire_singleton]
    simp [Ctx.bytes, Ctx.bytesOpt, a.datagram.2]
  refine ⟨{
    F := a.F
    pre := received a.es0
    retries := sent a.a0
    hello := a.m
    rest := received a.rest
    out := out
    ch := f.ch
    sh := ⟨tls12Version, a.f.random, a.n.sessionId, a.n.params.suite, 0, a.f.exts⟩
    ee := a.f.eeExts
    p := a.f.p
    psk := psk
    got := ?_
    out_eq := ?_
    same := ?_
    preTypes := ?_
    retryTypes := only_retries a.run0
    helloType := hmt
    helloBody := by rw [← hwv]; exact safeUnmarshal_ok.1 hbody
    versions := ⟨vs, versions_carried hparse (ho ▸ hvs), ?_⟩
    transcript := ?_
    shType := hsh1
    shBody := hsh2
    legacyVersion := rfl
    version := he43
    offered := by rw [hsuite]; exact hoff1
    suite := a.f.suiteOk
    hash := rfl
    pskOk := ?_
    early := ?_
    dh := ?_
    pskOrDh := ?_
    eeType := hee1
    eeBody := hee2
    acceptsEarly := hed.trans hearly.1
    auth := ?_
    finType := hfint
    fin := hfinb }, ?_⟩
  · refine (congrArg received a.es_eq).trans ?_
    simp [received]
  · rw [hout, NegFacts.sent, sent_append, sent_append]
    simp [sent, AfterHello.F]
  · have h1 : (received a.es0).length = a.es0.length := by
      have := a.hellos
      generalize a.es0 = l at this
      induction l with
      | nil => rfl
      | cons e l ih =>
        obtain ⟨m, hm, _⟩ := this e (by simp)
        have ih' := ih (fun e he => this e (by simp [he]))
        obtain ⟨e1, e2⟩ := e
        dsimp only at hm
        subst hm
        simpa [received] using ih'
    rw [h1, a.retries.1]
  · intro m hm
    simp only [received, List.mem_filterMap] at hm
    obtain ⟨ev, hev, hm⟩ := hm
    obtain ⟨m', hm', ht⟩ := a.hellos ev hev
    rw [hm'] at hm
    simp only [Option.some.injEq] at hm
    rw [← hm]; exact ht
  · have h1 := (C25_first_supported (vs.map (·.toNat)) [0x0304] (version (vs.map (·.toNat)) [0x0304]).2).1 (by rw [← hv])
    have h2 := h1.mem
    have h3 := h1.prop
    simp only [List.mem_singleton] at h3
    rw [h3] at h2
    exact (ofNat_mem h2).1
  · have hfirst : a.n.firstHello = f.first.map (·.1) := by rw [hneq]
    have hretry : a.n.retry = f.retry := by rw [hneq]
    rcases checkCookie_ok f.cookie with ⟨h1, h2⟩ | ⟨h1, prot, plain, suite, hash, app, p, h2, h3, h4, h5, h6, h7⟩
    · have h8 : f.retry = none := by
        rcases chooseRetry_ok f.retryOk with ⟨h8, _⟩ | ⟨_, h8, _⟩ | ⟨_, _, h8, _⟩
        · exact h8
        · exact absurd h1 h8
        · rw [hsend] at h8; cases h8
      have : a.F.hellos = wire x.datagram [a.m] := by
        simp [AfterHello.F, hfirst, hretry, h8, h2, hch, hashMsgBytes, Ctx.bytesOpt, wire, Ctx.bytes]
      rw [this]
      exact .plain (fun c hc => cookie_none hparse (ho ▸ h1) c hc)
    · have hsu : suite = a.n.params.suite := by
        have h9 := f.sameSuite hash p h7
        rw [suiteParams_suite h6] at h9
        rw [hsuite, ← h9]; simp
      have hfh : a.n.firstHello = some hash := by rw [hfirst, h7]; rfl
      have hcar := cookie_some hparse (ho ▸ h1)
      rw [← ho] at hcar
      rcases chooseRetry_ok f.retryOk with ⟨h8, _, _, h10⟩ | ⟨h8, _, _, hrr, h9, h10⟩ | ⟨_, _, h8, _⟩
      · have h11 : cfg.requireCookie = false := by
          rcases h10 with h10 | ⟨h10, _⟩
          · exact h10
          · exact absurd h10 h1
        have : a.F.hellos = helloHash hash ++ wire x.datagram ([] ++ [a.m]) := by
          simp [AfterHello.F, hfh, hretry, h8, hch, hashMsgBytes_some, Ctx.bytesOpt, wire, Ctx.bytes]
        rw [this]
        exact .cookie f.o.cookie plain hash app prot [] hcar h1 h2 h3 (hsu ▸ h4) h5 (Or.inl ⟨h11, rfl⟩)
      · have : a.F.hellos = helloHash hash ++ wire x.datagram ([hrr] ++ [a.m]) := by
          simp [AfterHello.F, hfh, hretry, h9, hch, hashMsgBytes_some, Ctx.bytesOpt, wire, Ctx.bytes]
        rw [this]
        exact .cookie f.o.cookie plain hash app prot [hrr] hcar h1 h2 h3 (hsu ▸ h4) h5
          (Or.inr ⟨h8, hrr, rfl, retry_made h10, retry_framed h10⟩)
      · rw [hsend] at h8; cases h8
  · dsimp only
    rw [husing.1] at he41
    cases hk : psk with
    | none =>
      rw [hk] at he41
      exact .none ((dataOf_nil_iff 41 _).1 (by simpa using he41))
    | some k =>
      rw [hk] at he41 hpsk
      have hpc : ∃ i p, f.pskc = some (i, k, p) := by
        split at hpsk
        · cases hpc : f.pskc with
          | none => rw [hpc] at hpsk; cases hpsk
          | some t =>
            obtain ⟨i, k', p⟩ := t
            rw [hpc] at hpsk
            simp only [Option.map_some, Option.some.injEq] at hpsk
            exact ⟨i, p, by rw [hpsk]⟩
        · cases hpsk
      obtain ⟨i, p, hpc⟩ := hpc
      have hsel : a.n.selectedPSK = i := by rw [hneq]; simp only [hpc]
      have hpskOk := f.psk
      rw [hpc] at hpskOk
      rcases choosePsk_ok hpskOk with ⟨_, h1, _⟩ | ⟨h1, base, trunc, h2, h3, h4⟩
      · cases h1
      · obtain ⟨hcar, hlen⟩ := psk_carried hparse (ho ▸ h1)
        rw [← ho] at hcar hlen
        obtain ⟨id, b, h5, h6, h7, h8, h9, _⟩ := C27_selected_proves_possession E.P hP a.ce.now _ _ _ _ (by simpa using hlen) _ _ _ h4
        simp only [List.getElem?_map, Option.map_eq_some_iff] at h5 h6
        obtain ⟨id', h5, rfl⟩ := h5
        obtain ⟨b', h6, rfl⟩ := h6
        have hks : k.suite = a.n.params.suite.toNat := by
          have h10 := f.suiteOk
          rw [hpc] at h10
          rw [hsuite, hoff2]
          exact (((C28_suite_with_psk_partial k _ _).1 _).1 h10).1.symm
        refine .selected i f.o.ids f.o.binders id' b'.1 k p base trunc hcar h5 (by rw [h6]) h7 ?_ hks h8 h3 ?_ h9
        · rw [hsel] at he41; simpa using he41
        · intro hno
          rcases h2 with ⟨_, h2, _⟩ | ⟨hash, p', hrr, h2, _, _⟩
          · exact h2
          · rcases checkCookie_ok f.cookie with ⟨_, h11⟩ | ⟨h11, _⟩
            · rw [h2] at h11; cases h11
            · have := cookie_some hparse (ho ▸ h11)
              rw [← ho] at this
              exact absurd (hno _ this) h11
  · show serverEarlySecret E.P a.f.p.hash a.n = _
    rw [serverEarlySecret, husing.1, husing.2]
    cases psk <;> rfl
  · dsimp only
    have hsec : a.F.dh = (if (pskMode f.dhc.isSome f.pskc.isSome f.o.modes).1 then f.dhc.map (·.2.2) else none) := by
      show a.n.dhSecret = _
      rw [hneq]
    have hdh : a.n.params.usingDH = (pskMode f.dhc.isSome f.pskc.isSome f.o.modes).1 := by rw [hneq]
    rw [hdh] at he51
    cases hu : (pskMode f.dhc.isSome f.pskc.isSome f.o.modes).1 with
    | false =>
      rw [hu] at he51 hsec
      simp only [Bool.false_eq_true, if_false] at he51 hsec
      rw [hsec]
      exact .none he51
    | true =>
      rw [hu] at he51 hsec
      simp only [if_true] at he51 hsec
      have := hmode.1 hu
      cases hdc : f.dhc with
      | none => rw [hdc] at this; cases this
      | some t =>
        obtain ⟨g, pub, sec⟩ := t
        have hg : a.n.dhGroup = g ∧ a.n.dhPublic = pub := by rw [hneq]; simp only [hdc, and_self]
        rw [hdc] at hsec
        rw [hg.1, hg.2] at he51
        rw [hsec]
        have hd := f.dh
        rw [hdc] at hd
        obtain ⟨sh, hmem, h1, h2, k, priv, h3, h4⟩ := dh_selected hd
        obtain ⟨h5, h6⟩ := ofNat_mem h2
        simp only [List.mem_map] at hmem
        obtain ⟨e, he, rfl⟩ := hmem
        dsimp only at h1 h4
        have heg : UInt16.ofNat g = e.1 := by rw [← h1]; simp
        have hcar := shares_carried hparse (ho ▸ he)
        rw [← ho] at hcar
        refine .share (UInt16.ofNat g) e.2.1 f.o.shares k pub priv sec hcar ?_ h5 (by rw [h6]; exact h3) (by rw [h6]; exact h4) he51
        rw [heg]; exact he
  · have hsec : a.F.dh = (if (pskMode f.dhc.isSome f.pskc.isSome f.o.modes).1 then f.dhc.map (·.2.2) else none) := by
      show a.n.dhSecret = _
      rw [hneq]
    rcases hdp with h1 | h1
    · right
      rw [hsec, h1]
      have := hmode.1 h1
      cases hdc : f.dhc with
      | none => rw [hdc] at this; cases this
      | some t => simp
    · left
      have h2 : a.n.params.usingPSK = true := by rw [hneq]; exact h1
      rw [husing.1] at h2
      intro h3
      rw [h3] at h2; cases h2
  · have hx2' := a.f.datagram.2.1.trans a.datagram.2
    rcases serverAuth_ok a.f.authOk with ⟨h1, h2, _⟩ | ⟨h1, acts1, t1, x1, crt, m, x2, cv, mv, hr, hc, hm, hsig, hmv, hacts, _⟩
    · refine .psk (husing.1 ▸ h1) ?_
      show sent a.f.acts = []
      rw [h2]; rfl
    · have hown : crt ∈ cfg.certificates := by
        have h2 : a.n.cert = cert.map (·.1) := by rw [hneq]
        rw [hc] at h2
        rcases chooseCert_ok hcert with ⟨_, rfl⟩ | ⟨_, _, _, _, c, _, _, _, h3, rfl⟩
        · cases h2
        · simp only [Option.map_some, Option.some.injEq] at h2
          rw [h2]
          exact certificate_mem h3
      obtain ⟨hm1, hm2⟩ := certificate_made hm
      obtain ⟨hv1, hv2⟩ := certVerify_made hmv
      simp only [CertVerify.sign, Res.bind_eq_ok, Res.ok.injEq] at hsig
      obtain ⟨sg, hsig, rfl⟩ := hsig
      rw [(C56_server_partial _ []).1] at hsig
      have ht : helloTranscript a.x1 a.n a.f.sh ++ a.x1.bytes a.f.ee = a.F.toServerHello x.datagram ++ wire x.datagram [a.F.ee] := by
        rw [hT]
        simp [AfterHello.F, wire, Ctx.bytes, a.datagram.2]
      rcases serverRequest_ok hr with ⟨hq, rfl, rfl, _⟩ | ⟨hq, exts, mr, _, hmr, rfl, rfl⟩
      · refine .cert (husing.1 ▸ h1) crt hown [] m mv ?_ (Or.inl ⟨hncfg ▸ hq, rfl⟩) hm1 _ hm2 ?_ hv1 _ hv2 ?_
        · show sent a.f.acts = _
          rw [hacts]; rfl
        · simp [Function.comp_def]
        · rw [ht] at hsig
          simpa [wire, Ctx.bytes, hx2', show a.F.h = a.f.p.hash from rfl] using hsig
      · refine .cert (husing.1 ▸ h1) crt hown [mr] m mv ?_ (Or.inr ⟨hncfg ▸ hq, mr, rfl, mkMsg_type hmr⟩) hm1 _ hm2 ?_ hv1 _ hv2 ?_
        · show sent a.f.acts = _
          rw [hacts]; rfl
        · simp [Function.comp_def]
        · rw [ht] at hsig
          simpa [wire, Ctx.bytes, hx2', show a.F.h = a.f.p.hash from rfl] using hsig
  · refine ⟨rfl, rfl, rfl, rfl, rfl, hout, husing.1, hed.symm, hrej, rfl, hnp, hauthA, ?_⟩
    intro k hk
    have hk : psk = some k := hk
    have hpr : a.n.params.nextProto = proto := by rw [hneq]
    rw [hk] at halpn
    rw [hpr]
    rcases alpn_psk halpn with h1 | ⟨h1, h2⟩
    · exact .inl h1
    · exact .inr ⟨h1, fun hr ps hps => alpn_none hparse (ho ▸ h2 hr) ps hps⟩

theorem server_post {E : Env} (hP : E.P.Sized) : ∀ {es : List (Event × Coins)} {x x' : Ctx} {s s' : Connected}
    {acts : List Action}, 0 < s.cp.hash.size → s.isClient = false →
    (SState.connected s).run E x es = .ok (.connected s', acts, x') →
    s' = { s with
      clientAp := updates E.P s.cp.hash (ascii "c ap traffic") (keyUpdates (received es)) s.clientAp
      serverAp := updates E.P s.cp.hash (ascii "s ap traffic") (keyUpdates (sent acts)) s.serverAp }
  | [], x, x', s, s', acts, _, _, h => by
    simp only [SState.run, Res.ok.injEq, Prod.mk.injEq, SState.connected.injEq] at h
    obtain ⟨rfl, rfl, rfl⟩ := h
    simp [received, sent, keyUpdates, updates]
  | (e, c) :: es, x, x', s, s', acts, hs, hc, h => by
    simp only [SState.run, Res.bind_eq_ok, Res.ok.injEq, Prod.mk.injEq] at h
    obtain ⟨⟨s1, a1, x1⟩, h1, ⟨s2, a2, x2⟩, h2, rfl, rfl, rfl⟩ := h
    cases e with
    | msg m =>
      simp only [SState.step, Res.bind_eq_ok, Res.ok.injEq, Prod.mk.injEq] at h1
      obtain ⟨⟨s3, a3, x3⟩, h3, rfl, rfl, rfl⟩ := h1
      have h4 := process_updates hP hs h3
      simp only [hc, Bool.false_eq_true, if_false] at h4
      have h5 := server_post hP (s := s3) (by rw [h4]; exact hs) (by rw [h4]) h2
      rw [h5, h4]
      have : received ((Event.msg m, c) :: es) = [m] ++ received es := rfl
      simp only [this, sent_append, keyUpdates_append, updates_add, hc]
    | appData d =>
      simp only [SState.step, Res.ok.injEq, Prod.mk.injEq] at h1
      obtain ⟨rfl, rfl, rfl⟩ := h1
      have h5 := server_post hP hs hc h2
      rw [h5]
      rfl
    | bad => simp [SState.step, alert] at h1

/-- The same hello, with more events read and more sent. -/
def AfterHello.extends {E : Env} {x : Ctx} {cfg : Config} {es : List (Event × Coins)} {acts : List Action}
    (a : AfterHello E x cfg es acts) (es' : List (Event × Coins)) (acts' : List Action) :
    AfterHello E x cfg (es ++ es') (acts ++ acts') :=
  { a with
    rest := a.rest ++ es'
    es_eq := (congrArg (· ++ es') a.es_eq).trans (by simp)
    sent_eq := by
      obtain ⟨post, h⟩ := a.sent_eq
      exact ⟨post ++ sent acts', by rw [sent_append, h]; simp⟩ }

/-- Whatever is said of a server that reports the handshake complete holds. -/
theorem serverViewAt {E : Env} (hP : E.P.Sized) {x : Ctx} {cfg : Config} {es : List (Event × Coins)} {s : Connected}
    {acts : List Action} {x' : Ctx} (h : serverRun E x cfg es = .ok (.connected s, acts, x')) :
    ∃ (a : AfterHello E x cfg es acts) (V : ServerView E x.datagram cfg es acts s), FlightOf a V.toServerFlight := by
  obtain ⟨es1, a1, x1, wf, auth, a, m, ce, s0, a2, post, a3, hx1, hau, next, hes, hacts, run⟩ := serverKnows h
  rw [List.append_assoc] at hes hacts
  subst hes hacts
  obtain ⟨v, hv⟩ := (a.after.extends ([(.msg m, ce)] ++ post) (a2 ++ a3)).flight hP
  have hF : v.F = a.after.F := hv.F
  have hp : v.p = a.after.f.p := hv.p
  obtain ⟨hsec, _, _⟩ := a.after.secrets hP
  have hwf := a.sec_eq
  rw [hsec, ← hF, ← hp] at hwf
  have hsz := suiteParams_size v.suite
  have hh := v.hash
  obtain ⟨hmt, _, fin, expected, res, keys, hfin, hexp, hver, hres, _, hs0, ha2⟩ := SWaitFinished.next_ok next
  have hau' : ClientAuthedBy E x cfg v.F.h (v.F.toFinished x.datagram ++ wire x.datagram a.eoed) wf.params.usingClientAuth auth
      wf.peerCerts := by
    have h1 : wf.sec.cp.hash = v.F.h := by rw [hwf]; exact hh.symm
    have h2 : a.after.f.wait.sec.transcript = v.F.toFinished x.datagram := by rw [hsec, hF]
    rw [h2, h1] at hau
    exact hau
  rw [hwf] at hfin hexp hres hs0
  simp only [SSecrets.add] at hfin hexp hres hs0
  rw [computeFinishedData_eq E.P hP _ hsz, Res.ok.injEq] at hexp
  rw [deriveSecret_eq E.P hP _ hsz, Res.ok.injEq, label_resumptionSecret] at hres
  have hs0e := SState.connected.inj hs0
  have hs0' : s = _ := server_post hP (s := s0) (by rw [hs0e]; exact hsz) (by rw [hs0e]) run
  rw [hs0e] at hs0'
  have hpar := a.params_eq
  have hask : wf.params.usingClientAuth = asksCertificate v.F.auth := by
    rw [hpar]; exact hv.asks.symm
  have hout : v.out = sent a3 := by
    have h1 : sent (a1 ++ (a2 ++ a3)) = sent a.after.a0 ++ sent a.after.f.sent ++ v.out := hv.out
    have h2 : sent a2 = [] := by rw [ha2]; rfl
    rw [sent_append, sent_append, a.noPost, h2, List.nil_append] at h1
    exact (List.append_cancel_left h1).symm
  have hue : a.after.n.params.usingEarlyData = hasExt 42 v.ee := hv.usingEarlyData
  refine ⟨a.after.extends ([(.msg m, ce)] ++ post) (a2 ++ a3), {
    toServerFlight := v
    eoed := a.eoed
    cauth := auth
    cfin := m
    post := received post
    rest_eq := ?_
    eoedOk := ?_
    cauthOk := ?_
    cfinType := hmt
    cfinBody := ?_
    noEarlyRefused := ?_
    isClient := by rw [hs0']
    cp := by rw [hs0']
    repSuite := ?_
    repPsk := ?_
    repEarly := ?_
    repAuth := ?_
    repProto := ?_
    secrets := ?_ }, hv⟩
  · have h1 : v.rest = received (a.after.rest ++ ([(.msg m, ce)] ++ post)) := hv.rest
    rw [h1, received_append, received_append, a.received_eq]
    simp [received]
  · have := a.eoedOk
    rw [hue] at this
    exact this
  · have hpc : s.peerCerts = wf.peerCerts := congrArg Connected.peerCerts hs0'
    rw [hpc, ← hask]
    cases hau' with
    | none h1 h2 h3 => exact .none h1 h2 h3
    | empty h1 mcert h2 h3 cm h4 h5 h6 => exact .empty h1 mcert h2 h3 cm (safeUnmarshal_ok.1 h4) h5 h6
    | cert h1 mcert mcv h2 h3 cm h4 h5 h6 cv pub h7 h8 h9 h10 h11 =>
      refine .cert h1 mcert mcv h2 h3 cm (safeUnmarshal_ok.1 h4) h5 h6 cv pub (safeUnmarshal_ok.1 h7) (leafKey_spec h8) ?_ h10 h11
      have := verify_spec h9
      simpa [wire_singleton, Ctx.bytes] using this
  · rw [← finished_body hfin, hver, ← hexp]
    simp [Flight.clientVerify, Flight.clientHs, hh]
  · intro h1
    have h2 := a.notRejected
    rw [hue] at h2
    have h3 : a.after.n.params.rejectedEarlyData = (hasExt 42 v.ch.exts && !hasExt 42 v.ee) := hv.rejected
    rw [h3, h1] at h2
    cases h4 : hasExt 42 v.ee with
    | true => rfl
    | false => rw [h4] at h2; exact absurd (h2 rfl) (by decide)
  · rw [hs0', hpar]; exact hv.suite
  · rw [hs0', hpar]; exact hv.usingPSK
  · rw [hs0', hpar]; exact hv.usingEarlyData
  · rw [hs0']; exact hask
  · rw [hs0', hpar]; exact hv.proto
  · rw [hout]
    refine ⟨(congrArg Connected.exporter hs0').trans rfl, (congrArg Connected.resumption hs0').trans ?_,
      (congrArg Connected.clientAp hs0').trans ?_, (congrArg Connected.serverAp hs0').trans ?_⟩
    · show res = _
      rw [← hres]
      have : x1.bytes m = wire x.datagram [m] := by simp [wire, Ctx.bytes, hx1]
      rw [this, List.append_assoc, ← wire_append, ← hh]; rfl
    · rw [hh]
    · rw [hh]

theorem serverView {E : Env} (hP : E.P.Sized) {x : Ctx} {cfg : Config} {es : List (Event × Coins)} {s : Connected}
    {acts : List Action} {x' : Ctx} (h : serverRun E x cfg es = .ok (.connected s, acts, x')) :
    Nonempty (ServerView E x.datagram cfg es acts s) := by
  obtain ⟨_, V, _⟩ := serverViewAt hP h
  exact ⟨V⟩

/-- A server that is past the hello has sent its flight. -/
theorem serverFlight {E : Env} (hP : E.P.Sized) {x : Ctx} {cfg : Config} {es : List (Event × Coins)} {s : SState}
    {acts : List Action} {x' : Ctx} (h : serverRun E x cfg es = .ok (s, acts, x')) :
    (∃ s0, s = .start s0) ∨ Nonempty (ServerFlight E x.datagram cfg es acts) := by
  have hk := serverKnows h
  cases s with
  | start s0 => exact Or.inl ⟨s0, rfl⟩
  | negotiated _ => exact absurd hk (by simp [ServerKnows])
  | waitFlight2 _ => exact absurd hk (by simp [ServerKnows])
  | waitEOED s =>
    obtain ⟨a, _⟩ := hk
    obtain ⟨v, _⟩ := a.flight hP
    exact Or.inr ⟨v⟩
  | readPast =>
    obtain ⟨a, _⟩ := hk
    obtain ⟨v, _⟩ := a.flight hP
    exact Or.inr ⟨v⟩
  | waitCert s =>
    obtain ⟨_, _, ⟨a⟩⟩ := hk
    obtain ⟨v, _⟩ := a.after.flight hP
    exact Or.inr ⟨v⟩
  | waitCV s =>
    obtain ⟨_, _, _, ⟨a⟩, _⟩ := hk
    obtain ⟨v, _⟩ := a.after.flight hP
    exact Or.inr ⟨v⟩
  | waitFinished s =>
    obtain ⟨_, a, _⟩ := hk
    obtain ⟨v, _⟩ := a.after.flight hP
    exact Or.inr ⟨v⟩
  | connected s =>
    obtain ⟨v⟩ := serverView hP h
    exact Or.inr ⟨v.toServerFlight⟩

end Verif.Machine

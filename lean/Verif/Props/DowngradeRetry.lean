import Verif.Props.Downgrade
import Verif.Spec.Issued

/-
C89, the suite after a HelloRetryRequest.
-/

namespace Verif.Machine

open Verif Verif.Crypto Verif.Messages Verif.Negotiation Verif.Handshake Verif.Spec Verif.Props

/-- The hellos of a client that waits for a ServerHello: the first one, and others which have a cookie. -/
theorem hellos_made {E : Env} (hP : E.P.Sized) {x : Ctx} {cfg : Config} {c : Coins} {es : List (Event × Coins)} {w : CWaitSH}
    {acts : List Action} {x' : Ctx} (h : clientRun E x cfg c es = .ok (.waitSH w, acts, x')) :
    ∀ m ∈ sent acts, (∃ ch, ClientOffer E x.datagram cfg cfg.suites none m ch) ∨
      ∃ l ck ch, ClientOffer E x.datagram cfg l (some ck) m ch := by
  have := clientRun_induct (cfg := cfg)
    (fun es s acts x1 => ∀ w, s = .waitSH w → x1.datagram = x.datagram ∧ (∃ l, w.cfg = { cfg with suites := l }) ∧
      ∀ m ∈ sent acts, (∃ ch, ClientOffer E x.datagram cfg cfg.suites none m ch) ∨
        ∃ l ck ch, ClientOffer E x.datagram cfg l (some ck) m ch) ?_ ?_ h
  · exact (this w rfl).2.2
  · rintro w a x1 h w' ⟨⟩
    obtain ⟨h1, h2, _⟩ := CStart.next_sent h
    obtain ⟨ch, hch, _⟩ := CStart.next_offer hP h rfl
    refine ⟨CStart.next_datagram h, ⟨cfg.suites, h2⟩, ?_⟩
    intro m hm
    rw [h1, List.mem_singleton] at hm
    subst hm
    exact .inl ⟨ch, hch⟩
  · intro es s acts x1 e ce s' acts' x2 ih hst w' hw'
    subst hw'
    cases hst with
    | retry w m hrr st _ acts2 _ check random handle start =>
      obtain ⟨hd, ⟨l, hl⟩, hall⟩ := ih w rfl
      obtain ⟨ck, p, hck, hlen, hp, rfl⟩ := handleRetry_ok handle
      obtain ⟨h1, h2, _⟩ := CStart.next_sent start
      refine ⟨(CStart.next_datagram start).trans hd, ⟨[hrr.suite], by rw [h2, hl]⟩, ?_⟩
      intro m hm
      rw [sent_append, sent_append, h1] at hm
      simp only [sent, List.filterMap_cons, List.filterMap_nil, List.nil_append, List.mem_append, List.mem_singleton] at hm
      rcases hm with hm | rfl
      · exact hall m hm
      · obtain ⟨ch, hch, _⟩ := CStart.next_offer hP start rfl
        rw [hd, hl] at hch
        exact .inr ⟨_, ck, ch, offer_suites hch⟩
    | ee _ _ _ _ _ next =>
      obtain ⟨_, _, _, _, _, _, _, _, _, ⟨_, h⟩ | ⟨_, h⟩⟩ := CWaitEE.next_ok next <;> cases h
    | certCR _ _ _ _ _ next =>
      obtain ⟨_, _, ⟨_, _, _, h⟩ | ⟨_, _, _, _, h⟩⟩ := CWaitEE.nextCertCR_ok next <;> cases h
    | cert _ _ _ _ _ next => obtain ⟨_, _, _, _, _, h⟩ := CWaitCert.next_ok next; cases h
    | cv _ _ _ _ _ next => obtain ⟨_, _, _, _, _, _, _, _, _, _, h⟩ := CWaitCV.next_ok next; cases h
    | finished _ _ _ _ _ next =>
      obtain ⟨_, _, _, _, _, _, _, _, _, _, _, _, _, _, _, _, _, _, _, _, _, _, _, _, _, _, h, _⟩ := CWaitFinished.next_ok next
      cases h

/-- A cookie that was read is not empty. -/
theorem cookie_nonempty {bs : Bytes} {n : Nat} (h : ExtKind.cookie.unmarshal bs = .ok (.cookie [], n)) : False := by
  simp only [ExtKind.unmarshal, Res.bind_eq_ok, Res.ok.injEq, Prod.mk.injEq, ExtBody.cookie.injEq] at h
  obtain ⟨⟨⟨v, ⟨⟩⟩, n'⟩, h, rfl, rfl⟩ := h
  unfold Syntax.unmarshal at h
  split at h
  · simp only [cookieTy, Syntax.Ty.decode, Syntax.Fields.decode, Res.bind_eq_ok, Bool.false_eq_true, if_false] at h
    obtain ⟨a, ⟨⟨v, k, rest⟩, h1, b, h2, h3⟩, h4⟩ := h
    cases h2
    cases h3
    simp only [Res.ok.injEq, Prod.mk.injEq, and_true] at h4
    obtain ⟨rfl, _⟩ := h4
    simp only [bytesTy, Syntax.Ty.decode, Res.bind_eq_ok] at h1
    obtain ⟨⟨r, l, bs1⟩, h5, ⟨body, rest'⟩, h6, ⟨vs, m⟩, h7, h8⟩ := h1
    simp only [Res.ok.injEq, Prod.mk.injEq] at h8
    obtain ⟨rfl, _, _⟩ := h8
    obtain ⟨_, _, hmin⟩ := Syntax.decodeLength_ok h5
    obtain ⟨_, _, hlen⟩ := Syntax.nextExact_ok h6
    have hb : body = [] := Syntax.decodeMany_induct (P := fun bs xs _ => xs = [] → bs = []) (fun _ => rfl)
      (fun _ _ _ _ _ _ _ _ _ _ h => by cases h) h7 rfl
    rw [hb] at hlen
    dsimp only at hmin hlen
    simp at hlen hmin
    omega
  · cases h

/-- The hash of a hello of the client is in the cookie that the server got. -/
theorem retry_hash {P : Prims} (hP : P.Sized) {h : HashId} {d : Bool} {cfg : Config} {hellos retries : List Msg} {t : Bytes}
    {hello' : Msg} {suite : UInt16} {exts : List Ext} {p : Params}
    (hc : HelloTranscript P h d hellos retries t) (hne : retries ≠ []) (hs : ServerHellos d cfg suite exts hello' t)
    (hty' : hello'.msgType = 1) (hsu : suiteParams suite.toNat = some p) (hh : h = p.hash) (sound : SoundCookies cfg) :
    ∃ ch1 ∈ hellos, ∃ prot c plain app, cfg.cookieProtector = some prot ∧ prot.decodeToken c = .ok plain ∧
      decodeCookie plain = .ok (suite, P.hash h (wire d [ch1]), app) := by
  cases hc with
  | plain ch => exact absurd rfl hne
  | retry chs rs ch1 hrr ch2 =>
    refine ⟨ch1, by simp, ?_⟩
    generalize ht : helloHash (P.hash h (wire d [ch1])) ++ wire d [hrr, ch2] = t at hs
    cases hs with
    | plain =>
      obtain ⟨r, hr⟩ := wire_head d hello' []
      rw [hr, hty'] at ht
      simp [helloHash] at ht
    | cookie c plain hash app prot rs' _ _ hprot hdec hcook _ hrs =>
      obtain ⟨q, hq, hql⟩ := sound prot c plain suite hash app hprot hdec hcook
      rw [hsu, Option.some.injEq] at hq
      subst hq
      simp only [helloHash, List.append_assoc] at ht
      obtain ⟨h2, _⟩ := List.append_inj (List.append_cancel_left ht) (by rw [hP.hash, hql, hh])
      exact ⟨prot, c, plain, app, hprot, hdec, by rw [h2]; exact hcook⟩

/-- What a server puts in the cookie of a HelloRetryRequest. -/
theorem cookie_from {E : Env} {x x' : Ctx} {c : Coins} {cfg : Config} {m r : Msg}
    (h : (⟨cfg⟩ : SStart).next E x c m = .ok (.retry r, x')) (hm : Framed m) :
    ∃ prot suite hash app plain token, cfg.cookieProtector = some prot ∧
      Syntax.marshal cookieStructTy (suite, hash, app, ()) = .ok plain ∧ prot.newToken c.token plain = .ok token ∧
      Retry r suite token ∧ FromHello E.P x.datagram cfg suite hash := by
  obtain ⟨f, hx2, ⟨hs, r', hr, h1⟩ | ⟨_, n, h1, _⟩⟩ := SStart.next_ok h
  swap
  · cases h1
  cases h1
  have hd1 := choosePsk_datagram f.psk
  obtain ⟨hmt, hbody, hver, found, hparse, ho, _⟩ := readHello_ok f.hello
  rcases chooseRetry_ok f.retryOk with ⟨h2, _⟩ | ⟨_, _, h2, _⟩ |
    ⟨_, hck, _, app, p, prot, plain, token, hrr', h2, happ, hsp, hmar, hprot, htok, h3⟩
  · rw [hr] at h2; cases h2
  · rw [hs] at h2; cases h2
  rw [hr] at h2
  cases h2
  refine ⟨prot, _, _, app, plain, token, hprot, hmar, htok, retry_carries h3, p, m, f.ch, hsp, hmt, hm, ?_, ?_, ?_, ?_⟩
  · exact safeUnmarshal_ok.1 hbody
  · simp [wire, Ctx.bytes, hd1]
  · rcases parsed_findSome (k := .cookie) asCookie offerKinds_nodup hparse (by decide) (by
      intro b hb; cases b <;> simp [asCookie] at hb ⊢; rfl) with ⟨h4, _⟩ | ⟨d, b, h4, h5, h6, h7⟩
    · exact h4
    · rw [ho] at hck
      cases b <;> simp [ExtBody.kind] at h6
      rename_i ck
      simp only [offerOf, findCookie, h7, asCookie, Option.getD_some] at hck
      subst hck
      exact (cookie_nonempty (safeUnmarshal_ok.1 h5)).elim
  · intro hno
    have hids : f.o.ids = [] := by
      rw [ho]
      rcases parsed_findSome (k := .preSharedKey typeClientHello) asPsk offerKinds_nodup hparse (by decide) (by
        intro b hb; cases b <;> simp [asPsk] at hb ⊢; rfl) with ⟨_, h4⟩ | ⟨d, b, h4, _⟩
      · simp [offerOf, findPsk, h4]
      · have h6 : dataOf 41 f.ch.exts = [d] := h4
        rw [(dataOf_nil_iff 41 _).2 hno] at h6
        cases h6
    have hpc : f.pskc = none := by
      rcases choosePsk_ok f.psk with ⟨_, h, _⟩ | ⟨h, _⟩
      · exact h
      · exact absurd hids h
    have h1 := f.suiteOk
    rw [hpc] at h1
    exact isFirst_toNat (((C28_suite_without_psk _ _).1 _).1 h1)

end Verif.Machine

namespace Verif.Toy

open Verif Verif.Crypto Verif.Messages Verif.Negotiation Verif.Handshake Verif.Machine Verif.Spec

/-- The hello of the toy client, and what a server puts in a cookie for it. -/
def firstHello : Msg := lastHello tls clientCfg []

def firstCookie : Bytes :=
  match Syntax.marshal cookieStructTy (0x1301, env.P.hash .sha256 (wire false [firstHello]), [], ()) with
  | .ok b => b
  | _ => []

/-- A server that has given out one cookie only, and accepts no other. -/
def onceCfg : Config := { serverCfg with
  requireCookie := true
  cookieProtector := some ⟨fun _ b => .ok (3 :: b), fun b => if b = 3 :: firstCookie then .ok firstCookie else .err .msg⟩ }

theorem firstCookie_ok : Syntax.marshal cookieStructTy (0x1301, env.P.hash .sha256 (wire false [firstHello]), [], ()) = .ok firstCookie := by
  have h : (match Syntax.marshal cookieStructTy (0x1301, env.P.hash .sha256 (wire false [firstHello]), [], ()) with
      | .ok _ => true | _ => false) = true := by decide +kernel
  unfold firstCookie
  split at h
  · rename_i b hb; rw [hb]
  · cases h

theorem firstHello_reads : ∃ ch, ClientHello.unmarshal 0x0303 firstHello.body = .ok (ch, firstHello.body.length) ∧
    dataOf 44 ch.exts = [] ∧ ch.suites = [0x1301, 0x1302] := by
  have h : (match ClientHello.unmarshal 0x0303 firstHello.body with
      | .ok (ch, n) => n == firstHello.body.length && (dataOf 44 ch.exts).isEmpty && ch.suites == [0x1301, 0x1302]
      | _ => false) = true := by decide +kernel
  split at h
  · rename_i ch n hb
    simp only [Bool.and_eq_true, beq_iff_eq, List.isEmpty_iff] at h
    exact ⟨ch, by rw [hb, h.1.1], h.1.2, h.2⟩
  · cases h

/-- What that server accepts it may accept. -/
theorem onceCfg_issued : IssuedCookies env.P false onceCfg := by
  intro prot c plain suite hash app h1 h2 h3
  simp only [onceCfg, Option.some.injEq] at h1
  subst h1
  dsimp only at h2
  split at h2
  · simp only [Res.ok.injEq] at h2
    subst h2
    have h4 := plain_self plain_cookieStruct firstCookie_ok
    simp only [decodeCookie, h4, Res.bind_ok, Res.ok.injEq, Prod.mk.injEq] at h3
    obtain ⟨rfl, rfl, _⟩ := h3
    obtain ⟨ch, h5, h6, h7⟩ := firstHello_reads
    exact ⟨_, firstHello, ch, rfl, by decide +kernel, by decide +kernel, h5, rfl, h6, fun _ => by
      rw [h7]; exact ⟨[], [0x1302], rfl, by decide, by simp⟩⟩
  · cases h2

end Verif.Toy

namespace Verif.Props

open Verif Verif.Crypto Verif.Messages Verif.Negotiation Verif.Handshake Verif.Machine Verif.Spec

theorem IssuedCookies.sound {P : Prims} (hP : P.Sized) {d : Bool} {cfg : Config} (h : IssuedCookies P d cfg) : SoundCookies cfg := by
  intro prot c plain suite hash app h1 h2 h3
  obtain ⟨p, m, ch, h4, _, _, _, h5, _⟩ := h prot c plain suite hash app h1 h2 h3
  exact ⟨p, h4, by rw [h5, hP.hash]⟩

/-- The suite after any number of HelloRetryRequests, from whoever they are: if the server accepts no cookies but its own, it
is the first of the client's suites that the server has too; or a collision is found. -/
theorem C89_suite (E : Env) (hP : E.P.Sized) (x y x' y' : Ctx) (ccfg scfg : Config) (c : Coins)
    (es es' : List (Event × Coins)) (s : Connected) (t : SState) (acts acts' : List Action)
    (client : clientRun E x ccfg c es = .ok (.connected s, acts, x'))
    (server : serverRun E y scfg es' = .ok (t, acts', y')) (version : y.datagram = x.datagram)
    (cookies : IssuedCookies E.P x.datagram scfg)
    (framed : ∀ m ∈ received es ++ sent acts ++ received es' ++ sent acts', Framed m)
    (finished : ∃ m ∈ received es, ∃ m' ∈ sent acts', m.msgType = 20 ∧ wire x.datagram [m] = wire x.datagram [m'])
    (noPsk : ccfg.psks ccfg.serverName = none) (groups : ∀ g ∈ ccfg.groups, DhWorks E.D g) :
    BestCommon ccfg.suites scfg.suites s.params.suite ∨
    (∃ (v : ClientView E x.datagram ccfg es acts s) (w : ServerFlight E x.datagram scfg es' acts'),
      FinishedBroken E.P v.F.h (ascii "s hs traffic")
        (v.F.handshake E.P) (v.F.toServerHello x.datagram) (v.F.toServerAuth x.datagram)
        (w.F.handshake E.P) (w.F.toServerHello x.datagram) (w.F.toServerAuth x.datagram)) ∨
    ∃ h m m', m ∈ sent acts ∧ HashCollision E.P h (wire x.datagram [m]) (wire x.datagram [m']) := by
  have hsound := IssuedCookies.sound hP cookies
  rcases choice_core E hP x y x' y' ccfg scfg c es es' s t acts acts' client server version hsound framed finished noPsk
    groups with ⟨ac, V, w, hV, hag, hsu, _, _, _, _, hfirst⟩ | h
  swap
  · exact .inr (.inl h)
  by_cases hr : V.retries = []
  · exact .inl (hfirst hr)
  have hmade := hellos_made hP ac.at0.at0.run0
  rw [← hV.hellos] at hmade
  obtain ⟨ch1, hm1, prot, ck, plain, app, h1, h2, h3⟩ := retry_hash hP V.transcript hr (hag.hellos ▸ w.transcript) w.helloType w.suite
    (hag.hash.trans w.hash) hsound
  have hsent : ch1 ∈ sent acts := by rw [V.out]; simp [hm1]
  obtain ⟨p, m0, ch0, h4, h5, h6, h7, h8, h9, h10⟩ := cookies prot ck plain _ _ app h1 h2 h3
  rw [w.suite, Option.some.injEq] at h4
  subst h4
  rw [hag.hash.trans w.hash] at h8
  by_cases hw : wire x.datagram [ch1] = wire x.datagram [m0]
  swap
  · exact .inr (.inr ⟨_, ch1, m0, hsent, hw, h8⟩)
  have hsaid := wire_inj (d := x.datagram) (ms := [ch1]) (ms' := [m0]) (by simpa using framed ch1 (by simp [hsent])) (by simpa using h6) hw
  have hbody : ch1.body = m0.body := by simp [said] at hsaid; exact hsaid.2
  left
  rw [hsu]
  rcases hmade ch1 hm1 with ⟨ch, O⟩ | ⟨l, ck', ch, O⟩
  · have h11 := O.body
    rw [hbody, h7] at h11
    simp only [Res.ok.injEq, Prod.mk.injEq, and_true] at h11
    subst h11
    have h12 := O.psk
    rw [noPsk] at h12
    have h13 := O.suites_eq
    rw [noPsk] at h13
    rw [← show ch0.suites = ccfg.suites from h13]
    exact h10 h12
  · have h11 := O.body
    rw [hbody, h7] at h11
    simp only [Res.ok.injEq, Prod.mk.injEq, and_true] at h11
    subst h11
    obtain ⟨d, hd, _⟩ := O.cookie_
    have h12 : dataOf 44 ch0.exts = [d] := hd
    rw [h9] at h12
    cases h12

/-- The cookies that a server gives out are such: each of its HelloRetryRequests has a cookie made of the hash of a
ClientHello without cookie and of the suite chosen from it. -/
theorem C89_cookies (E : Env) (x x' : Ctx) (cfg : Config) (es : List (Event × Coins)) (s : SStart) (acts : List Action)
    (h : serverRun E x cfg es = .ok (.start s, acts, x')) (framed : ∀ m ∈ received es, Framed m) (hrr : Msg) (hm : hrr ∈ sent acts) :
    ∃ prot suite hash app plain token n, cfg.cookieProtector = some prot ∧
      Syntax.marshal cookieStructTy (suite, hash, app, ()) = .ok plain ∧ prot.newToken n plain = .ok token ∧
      Retry hrr suite token ∧ FromHello E.P x.datagram cfg suite hash := by
  have := serverRun_induct (cfg := cfg) (x := x) (fun es s acts x1 => (∀ m ∈ received es, Framed m) →
      ∀ w, s = .start w → w = ⟨cfg⟩ ∧ x1.datagram = x.datagram ∧
      ∀ hrr ∈ sent acts, ∃ prot suite hash app plain token n, cfg.cookieProtector = some prot ∧
        Syntax.marshal cookieStructTy (suite, hash, app, ()) = .ok plain ∧ prot.newToken n plain = .ok token ∧
        Retry hrr suite token ∧ FromHello E.P x.datagram cfg suite hash)
    ?_ ?_ h
  · exact (this framed s rfl).2.2 hrr hm
  · rintro _ w hw
    cases hw
    exact ⟨rfl, rfl, fun m hm => nomatch hm⟩
  · intro es s acts x1 e ce s' acts' x2 ih hst hfr w' hw'
    have ih := ih fun m hm => hfr m (by rw [received_append]; exact List.mem_append_left _ hm)
    cases hst with
    | retry s m r x2 next =>
      obtain ⟨rfl, hdg, ih⟩ := ih s rfl
      cases hw'
      have hm : Framed m := hfr m (by rw [received_append]; exact List.mem_append_right _ (by simp [received]))
      obtain ⟨prot, suite, hash, app, plain, token, h1, h2, h3, h4, h5⟩ := cookie_from next hm
      refine ⟨rfl, ?_, fun q hq => ?_⟩
      · rw [SStart.next_datagram next, hdg]
      · rw [sent_append] at hq
        rcases List.mem_append.1 hq with hq | hq
        · exact ih q hq
        · have : q = r := by simpa [sent] using hq
          subst this
          exact ⟨prot, suite, hash, app, plain, token, _, h1, h2, h3, h4, hdg ▸ h5⟩
    | hello s m n x1' s'' _ x2' next neg =>
      obtain ⟨f, rfl, ⟨_, _, _, rfl, _⟩ | ⟨_, _, rfl, _⟩ | ⟨_, _, rfl, _⟩⟩ := SNegotiated.next_ok neg
      · cases hw'
      · cases hw'
      · rcases settle_wait f.wait with ⟨_, h2⟩ | ⟨_, h2⟩ <;> rw [h2] at hw' <;> cases hw'
    | eoed s m s'' acts' x2' next =>
      obtain ⟨_, _, _, _, _, rfl, _⟩ := SWait.nextEOED_ok next
      rcases settle_wait { s with sec := s.sec.add (x1.bytes m) } with ⟨_, h2⟩ | ⟨_, h2⟩ <;> rw [h2] at hw' <;> cases hw'
    | cert s m s'' acts' x2' next =>
      obtain ⟨_, _, _, _, _, ⟨_, h⟩ | ⟨_, h⟩⟩ := SWait.nextCert_ok next <;> rw [h] at hw' <;> cases hw'
    | cv s m s'' acts' x2' next =>
      obtain ⟨_, _, _, _, _, _, _, _, _, h⟩ := SWaitCV.next_ok next
      rw [h] at hw'; cases hw'
    | finished s m s'' acts' x2' next =>
      obtain ⟨_, _, _, _, _, _, _, _, _, _, _, h, _⟩ := SWaitFinished.next_ok next
      rw [h] at hw'; cases hw'
    | skip => cases hw'
    | early => cases hw'
    | post => cases hw'
    | data => cases hw'

/-- The hypotheses hold of an honest handshake with a HelloRetryRequest. -/
example : Toy.Meets Toy.clientCfg Toy.onceCfg 3 ∧ IssuedCookies Toy.env.P false Toy.onceCfg ∧
    (∀ g ∈ Toy.clientCfg.groups, DhWorks Toy.env.D g) ∧ ∃ m ∈ received (Toy.exchange Toy.tls Toy.clientCfg Toy.onceCfg 3).1,
      letterOf m = .helloRetryRequest :=
  ⟨Toy.meets_ok (by decide +kernel), Toy.onceCfg_issued, fun g hg => by
      rw [List.mem_singleton.1 hg]; exact Toy.dh_works, by decide +kernel⟩

end Verif.Props

import Verif.Machine.ServerView
import Verif.Machine.Safe
import Verif.Machine.Toy
import Verif.Props.Crypto

/-
Property C62: RequireCookie is enforced.
-/

namespace Verif.Spec

open Verif Verif.Crypto Verif.Messages Verif.Handshake Verif.Machine

/-- A ClientHello that carries a cookie, not empty, which decodes to `plain`; `app` is the application's part of it. -/
def BringsCookie (d : Bool) (cfg : Config) (m : Msg) (plain app : Bytes) : Prop :=
  m.msgType = 1 ∧ ∃ ch c prot suite hash n, ClientHello.unmarshal (if d then 0xfefd else 0x0303) m.body = .ok (ch, m.body.length) ∧
    Carries .cookie ch.exts (.cookie c) ∧ c ≠ [] ∧ cfg.cookieProtector = some prot ∧ prot.decodeToken c = .ok plain ∧
    Syntax.unmarshal cookieStructTy plain = .ok ((suite, hash, app, ()), n)

/-- The protector a server uses if none is configured (conn.go:675-682, cookie-protector.go:42-86): `rand` is the random source. -/
def defaultProtector (P : Prims) (A : CookieAead) (secret : Bytes) (rand : Nat → Option Bytes) : Protector where
  newToken n data := newToken P A secret (rand n) data
  decodeToken tok := decodeToken P A secret tok

end Verif.Spec

namespace Verif.Machine

open Verif Verif.Crypto Verif.Messages Verif.Negotiation Verif.Handshake Verif.Spec

theorem plain_cookieStruct : cookieStructTy.plain = true := by decide

theorem readHello_parts {x : Ctx} {m : Msg} {ch : ClientHello} {o : Offer} (h : readHello x m = .ok (ch, o)) :
    m.msgType = 1 ∧ ClientHello.unmarshal (if x.datagram then 0xfefd else 0x0303) m.body = .ok (ch, m.body.length) ∧
      ∃ found, parseExts ch.exts offerKinds = .ok found ∧ o = offerOf found := by
  obtain ⟨ht, hu, hv, found, hf, ho, _⟩ := readHello_ok h
  have hw : wireVersion x = if x.datagram then 0xfefd else 0x0303 := rfl
  exact ⟨ht, hw ▸ safeUnmarshal_ok.1 hu, found, hf, ho⟩

/-- The hello a server answered with a ServerHello. -/
theorem serverHelloOf {E : Env} {x x' : Ctx} {cfg : Config} {es : List (Event × Coins)} {s : SState} {acts : List Action}
    (h : serverRun E x cfg es = .ok (s, acts, x')) : (∃ s0, s = .start s0) ∨ Nonempty (AfterHello E x cfg es acts) := by
  have hk := serverKnows h
  cases s with
  | start s0 => exact Or.inl ⟨s0, rfl⟩
  | negotiated _ => exact absurd hk (by simp [ServerKnows])
  | waitFlight2 _ => exact absurd hk (by simp [ServerKnows])
  | waitEOED s => obtain ⟨a, _⟩ := hk; exact Or.inr ⟨a⟩
  | readPast => obtain ⟨a, _⟩ := hk; exact Or.inr ⟨a⟩
  | waitCert s => obtain ⟨_, _, ⟨a⟩⟩ := hk; exact Or.inr ⟨a.after⟩
  | waitCV s => obtain ⟨_, _, _, ⟨a⟩, _⟩ := hk; exact Or.inr ⟨a.after⟩
  | waitFinished s => obtain ⟨_, a, _⟩ := hk; exact Or.inr ⟨a.after⟩
  | connected s =>
    obtain ⟨es1, a1, x1, wf, auth, ⟨a, _⟩, m, ce, s0, a2, post, a3, _, _, _, rfl, rfl, _⟩ := hk
    refine Or.inr ⟨{ a with
      rest := a.rest ++ [(.msg m, ce)] ++ post
      es_eq := by
        have := congrArg (· ++ [(.msg m, ce)] ++ post) a.es_eq
        simpa [List.append_assoc] using this
      sent_eq := ?_ }⟩
    obtain ⟨p, hp⟩ := a.sent_eq
    exact ⟨p ++ sent (a2 ++ a3), by rw [List.append_assoc, sent_append, hp]; simp⟩

theorem cookieOffer_found {el : List Ext} {found : List ExtBody} {c : Bytes} (h : parseExts el offerKinds = .ok found)
    (hcar : Carries .cookie el (.cookie c)) : (offerOf found).cookie = c := by
  have := carries_found (k := .cookie) asCookie offerKinds_nodup h (by decide) (by
    intro b hb; cases b <;> simp [asCookie] at hb ⊢; rfl) hcar
  simp only [offerOf, findCookie, this, asCookie, Option.getD_some]

theorem AfterHello.ev_mem {E : Env} {x : Ctx} {cfg : Config} {es : List (Event × Coins)} {acts : List Action}
    (a : AfterHello E x cfg es acts) : (.msg a.m, a.ce) ∈ es := by
  have : (Event.msg a.m, a.ce) ∈ a.es0 ++ [(.msg a.m, a.ce)] ++ a.rest := by simp
  exact (congrArg (_ ∈ ·) a.es_eq).mpr this

theorem received_mem {m : Msg} {ce : Coins} {es : List (Event × Coins)} (h : (.msg m, ce) ∈ es) : m ∈ received es := by
  induction es with
  | nil => cases h
  | cons e es ih =>
    rcases List.mem_cons.1 h with rfl | h
    · simp [received]
    · obtain ⟨e, c⟩ := e
      cases e <;> simp_all [received]

/-- A hello is read, or refused with unexpected_message, decode_error or protocol_version. -/
theorem readHello_refused (x : Ctx) (m : Msg) :
    (∃ a, (a = 10 ∧ m.msgType ≠ 1 ∨ a = 50 ∨ a = 70) ∧ readHello x m = .err (.alert a)) ∨ ∃ r, readHello x m = .ok r := by
  have hs := readHello_safe x m
  unfold readHello at hs ⊢
  split
  · exact Or.inl ⟨10, by simp_all [typeClientHello], rfl⟩
  cases h1 : safeUnmarshal (ClientHello.unmarshal (wireVersion x)) m.body with
  | err e => exact Or.inl ⟨50, by simp, rfl⟩
  | panic => simp_all [orAlert, Res.Safe]
  | diverge => simp_all [orAlert, Res.Safe]
  | ok ch =>
    simp only [orAlert, Res.bind]
    split
    · exact Or.inl ⟨50, by simp, rfl⟩
    cases h2 : parseExts ch.exts offerKinds with
    | err e => exact Or.inl ⟨50, by simp, rfl⟩
    | panic => simp_all [orAlert, Res.Safe]
    | diverge => simp_all [orAlert, Res.Safe]
    | ok found =>
      dsimp only
      split
      · exact Or.inl ⟨70, by simp, rfl⟩
      · split
        · exact Or.inr ⟨_, rfl⟩
        · exact Or.inl ⟨70, by simp, rfl⟩

theorem retry_carries {x x' : Ctx} {suite : UInt16} {sid cookie : Bytes} {m : Msg} (h : makeRetry x suite sid cookie = .ok (m, x')) :
    Retry m suite cookie := by
  obtain ⟨exts, h0, h1⟩ := makeRetry_ok h
  obtain ⟨h2, h3⟩ := serverHello_made h1
  obtain ⟨hm, rfl⟩ := addAll_made h0 (by simp only [List.map_cons, List.map_nil, ExtBody.kind]; decide)
  obtain ⟨d, hd, hu⟩ := carries_bodies (b := .cookie cookie) (k := .cookie) (by simp only [List.map_cons, List.map_nil, ExtBody.kind]; decide) hm (by simp) (by simp [expressible]) rfl rfl
  refine ⟨retry_made h, _, _, d, h3, rfl, ?_, hu, ?_⟩
  · show (dataOf 44 _).head? = _
    have : dataOf 44 _ = [d] := hd
    rw [this]; rfl
  · intro e he
    simp only [List.map_cons, List.map_nil, List.mem_cons, List.not_mem_nil, or_false] at he
    rcases he with rfl | rfl
    · exact Or.inr rfl
    · exact Or.inl rfl

end Verif.Machine

namespace Verif.Props

open Verif Verif.Crypto Verif.Messages Verif.Negotiation Verif.Handshake Verif.Machine Verif.Spec

/-- A server that requires cookies, and whose application has one to send for every hello if it has a CookieHandler, has sent
nothing but HelloRetryRequests; or it has got a hello with a cookie that its protector decodes and whose application part
the application accepts. -/
theorem C62_required (E : Env) (x x' : Ctx) (cfg : Config) (es : List (Event × Coins)) (s : SState) (acts : List Action)
    (h : serverRun E x cfg es = .ok (s, acts, x')) (hreq : cfg.requireCookie = true)
    (hgen : cfg.cookieHandler = none ∨ ∀ e ∈ es, e.2.appCookie ≠ .ok none) :
    ((∃ s0, s = .start s0) ∧ ∀ m ∈ sent acts, letterOf m = .helloRetryRequest) ∨
    ∃ m ∈ received es, ∃ plain app, BringsCookie x.datagram cfg m plain app ∧ ∀ f, cfg.cookieHandler = some f → f app = true := by
  rcases serverHelloOf h with ⟨s0, rfl⟩ | ⟨⟨a⟩⟩
  · exact Or.inl ⟨⟨s0, rfl⟩, only_retries h⟩
  refine Or.inr ⟨a.m, received_mem a.ev_mem, ?_⟩
  obtain ⟨f, _, ⟨_, _, _, h1⟩ | ⟨hsend, n, _, _⟩⟩ := SStart.next_ok a.next
  · cases h1
  obtain ⟨hmt, hu, found, hparse, ho⟩ := readHello_parts f.hello
  rw [a.datagram.1] at hu
  rcases chooseRetry_ok f.retryOk with ⟨_, _, _, h2 | ⟨_, hsome, hnone⟩⟩ | ⟨_, hck, _⟩ | ⟨_, _, h2, _⟩
  · rw [hreq] at h2; cases h2
  · rcases hgen with h3 | h3
    · rw [h3] at hsome; cases hsome
    · exact absurd hnone (h3 (.msg a.m, a.ce) a.ev_mem)
  · rcases checkCookie_ok f.cookie with ⟨h2, _⟩ | ⟨_, prot, plain, suite, hash, app, p, hprot, hdec, hplain, hval, hsuite, _⟩
    · exact absurd h2 hck
    · rcases decodeCookie_ok hplain with ⟨u, n, hu'⟩ | ⟨_, rfl, _⟩
      · rw [ho] at hck hdec
        exact ⟨plain, app, ⟨hmt, f.ch, _, prot, suite, hash, n, hu, cookie_some hparse hck, hck, hprot, hdec, hu'⟩, hval⟩
      · simp [suiteParams] at hsuite
  · rw [hsend] at h2; cases h2

/-- Whether or not cookies are required: a hello with a cookie that the protector refuses, or whose application part the
application refuses, is answered with an alert: decrypt_error or access_denied, unless the hello is refused because it is
malformed (decode_error) or because of its version (protocol_version). -/
theorem C62_refused (E : Env) (x : Ctx) (c : Coins) (cfg : Config) (m : Msg) (ch : ClientHello) (ck : Bytes) (prot : Protector)
    (ht : m.msgType = 1) (hello : ClientHello.unmarshal (if x.datagram then 0xfefd else 0x0303) m.body = .ok (ch, m.body.length))
    (hc : Carries .cookie ch.exts (.cookie ck)) (hne : ck ≠ []) (hp : cfg.cookieProtector = some prot) :
    ((∃ e, prot.decodeToken ck = .err e) → ∃ a ∈ [51, 50, 70], (SState.start ⟨cfg⟩).step E x c (.msg m) = .err (.alert a)) ∧
    (∀ plain suite hash app n f, prot.decodeToken ck = .ok plain →
      Syntax.unmarshal cookieStructTy plain = .ok ((suite, hash, app, ()), n) → cfg.cookieHandler = some f → f app = false →
      ∃ a ∈ [49, 50, 70], (SState.start ⟨cfg⟩).step E x c (.msg m) = .err (.alert a)) := by
  have key : ∀ a0, (∀ o : Offer, o.cookie = ck → checkCookie cfg o = .err (.alert a0)) →
      ∃ a ∈ [a0, 50, 70], (SState.start ⟨cfg⟩).step E x c (.msg m) = .err (.alert a) := by
    intro a0 ha
    rcases readHello_refused x m with ⟨a, hmem, hr⟩ | ⟨⟨ch', o⟩, hr⟩
    · refine ⟨a, by rcases hmem with ⟨_, h0⟩ | rfl | rfl <;> simp_all, ?_⟩
      simp [SState.step, SStart.next, hr]
    · obtain ⟨_, hu, found, hparse, ho⟩ := readHello_parts hr
      rw [hello] at hu
      cases hu
      have := cookieOffer_found hparse hc
      refine ⟨a0, by simp, ?_⟩
      simp [SState.step, SStart.next, hr, ha o (by rw [ho, this])]
  constructor
  · rintro ⟨e, he⟩
    refine key 51 fun o ho => ?_
    simp [checkCookie, hne, hp, ho, he, orAlert, Alert.decryptError]
  · intro plain suite hash app n f h1 h2 h3 h4
    refine key 49 fun o ho => ?_
    simp [checkCookie, hne, hp, ho, h1, orAlert, decodeCookie, h2, h3, h4, alert, Alert.accessDenied]

/-- Every HelloRetryRequest of a server carries a cookie made from the hello it answers: the suite it
names, the hash of that hello, and what the application gave. With a protector that decodes what it encodes, it decodes to
these. -/
theorem C62_issued (E : Env) (x x' : Ctx) (cfg : Config) (es : List (Event × Coins)) (s : SStart) (acts : List Action)
    (h : serverRun E x cfg es = .ok (.start s, acts, x')) (prot : Protector) (hp : cfg.cookieProtector = some prot)
    (hround : ∀ n d t, prot.newToken n d = .ok t → prot.decodeToken t = .ok d) (hrr : Msg) (hm : hrr ∈ sent acts) :
    ∃ m ce, (.msg m, ce) ∈ es ∧ ∃ suite p token plain app, Retry hrr suite token ∧ suiteParams suite.toNat = some p ∧
      prot.decodeToken token = .ok plain ∧
      Syntax.unmarshal cookieStructTy plain = .ok ((suite, E.P.hash p.hash (wire x.datagram [m]), app, ()), plain.length) ∧
      ((cfg.cookieHandler = none ∧ app = []) ∨ (cfg.cookieHandler.isSome ∧ ce.appCookie = .ok (some app))) := by
  have := serverRun_induct (cfg := cfg) (x := x) (fun es s acts x1 => ∀ w, s = .start w → w = ⟨cfg⟩ ∧ x1.datagram = x.datagram ∧
      ∀ hrr ∈ sent acts, ∃ m ce, (.msg m, ce) ∈ es ∧ ∃ suite p token plain app, Retry hrr suite token ∧
      suiteParams suite.toNat = some p ∧ prot.decodeToken token = .ok plain ∧
      Syntax.unmarshal cookieStructTy plain = .ok ((suite, E.P.hash p.hash (wire x.datagram [m]), app, ()), plain.length) ∧
      ((cfg.cookieHandler = none ∧ app = []) ∨ (cfg.cookieHandler.isSome ∧ ce.appCookie = .ok (some app))))
    ?_ ?_ h
  · exact (this s rfl).2.2 hrr hm
  · rintro w hw
    cases hw
    exact ⟨rfl, rfl, fun m hm => nomatch hm⟩
  · intro es s acts x1 e ce s' acts' x2 ih hst w' hw'
    cases hst with
    | retry s m r x2 next =>
      obtain ⟨rfl, hdg, ih⟩ := ih s rfl
      cases hw'
      obtain ⟨f, hx2, ⟨hs, r', hr, h1⟩ | ⟨_, n, h1, _⟩⟩ := SStart.next_ok next
      · cases h1
        have hd1 := choosePsk_datagram f.psk
        rcases chooseRetry_ok f.retryOk with ⟨h2, _⟩ | ⟨_, _, h2, _⟩ |
          ⟨_, _, _, app, p, prot', plain, token, hrr', h2, happ, hsp, hmar, hprot, htok, h3⟩
        · rw [hr] at h2; cases h2
        · rw [hs] at h2; cases h2
        · rw [hr] at h2
          cases h2
          rw [hp] at hprot
          cases hprot
          refine ⟨rfl, by rw [hx2, makeRetry_datagram h3, hd1, hdg], fun q hq => ?_⟩
          rw [sent_append] at hq
          rcases List.mem_append.1 hq with hq | hq
          · obtain ⟨m', ce', h5, h6⟩ := ih q hq
            exact ⟨m', ce', List.mem_append_left _ h5, h6⟩
          · have : q = r := by simpa [sent] using hq
            subst this
            refine ⟨m, ce, by simp, _, p, token, plain, app, retry_carries h3, hsp, hround _ _ _ htok, ?_, happ⟩
            have hb : f.x1.bytes m = wire x.datagram [m] := by simp [wire, Ctx.bytes, hd1, hdg]
            rw [plain_self plain_cookieStruct hmar, hb]
      · cases h1
    | hello s m n x1' s'' _ x2' next neg =>
      obtain ⟨f, rfl, ⟨_, _, _, rfl, _⟩ | ⟨_, _, rfl, _⟩ | ⟨_, _, rfl, _⟩⟩ := SNegotiated.next_ok neg
      · cases hw'
      · cases hw'
      · rcases settle_wait f.wait with ⟨_, h2⟩ | ⟨_, h2⟩ <;> rw [h2] at hw' <;> cases hw'
    | eoed s m s'' acts' x2' next =>
      obtain ⟨_, _, _, _, _, rfl, _⟩ := SWait.nextEOED_ok next
      rcases settle_wait { s with sec := s.sec.add (x1.bytes m) } with ⟨_, h2⟩ | ⟨_, h2⟩ <;> rw [h2] at hw' <;> cases hw'
    | cert s m s'' acts' x2' next =>
      obtain ⟨_, _, _, _, _, ⟨_, h⟩ | ⟨_, h⟩⟩ := SWait.nextCert_ok next <;> rw [h] at hw' <;> cases hw'
    | cv s m s'' acts' x2' next =>
      obtain ⟨_, _, _, _, _, _, _, _, _, h⟩ := SWaitCV.next_ok next
      rw [h] at hw'; cases hw'
    | finished s m s'' acts' x2' next =>
      obtain ⟨_, _, _, _, _, _, _, _, _, _, _, h, _⟩ := SWaitFinished.next_ok next
      rw [h] at hw'; cases hw'
    | skip => cases hw'
    | early => cases hw'
    | post => cases hw'
    | data => cases hw'

/-- With the default protector: unless its AEAD was forged or HKDF collided, a cookie brought is one that was issued. -/
theorem C62_default (E : Env) (x x' : Ctx) (cfg : Config) (es : List (Event × Coins)) (s : SState) (acts : List Action)
    (h : serverRun E x cfg es = .ok (s, acts, x')) (hreq : cfg.requireCookie = true)
    (hgen : cfg.cookieHandler = none ∨ ∀ e ∈ es, e.2.appCookie ≠ .ok none) (hstart : ∀ s0, s ≠ .start s0)
    (A : CookieAead) (secret : Bytes) (rand : Nat → Option Bytes) (hp : cfg.cookieProtector = some (defaultProtector E.P A secret rand))
    (issued : List (Bytes × Bytes)) :
    (∃ m ∈ received es, ∃ plain app, BringsCookie x.datagram cfg m plain app ∧ plain ∈ issued.map Prod.snd ∧
      ∀ f, cfg.cookieHandler = some f → f app = true) ∨ Forgery E.P A secret issued ∨ KeyCollision E.P secret issued := by
  rcases C62_required E x x' cfg es s acts h hreq hgen with ⟨⟨s0, h0⟩, _⟩ | ⟨m, hm, plain, app, hb, hv⟩
  · exact absurd h0 (hstart s0)
  · obtain ⟨_, ch, c, prot, suite, hash, n, _, _, _, hpr, hd, _⟩ := id hb
    rw [hp, Option.some.injEq] at hpr
    subst hpr
    rcases C36_authentic E.P A secret issued c plain hd with ⟨e, he, _, rfl⟩ | hf | hk
    · exact Or.inl ⟨m, hm, _, app, hb, List.mem_map_of_mem he, hv⟩
    · exact Or.inr (Or.inl hf)
    · exact Or.inr (Or.inr hk)

/-! ### Cases -/

namespace CookieToy

open Verif.Toy

/-- A server that requires cookies; its protector decodes what it encodes. -/
def issuer : Config := { serverCfg with
  requireCookie := true
  cookieProtector := some ⟨fun _ b => .ok (3 :: b), fun b => match b with | 3 :: b => .ok b | _ => .err .msg⟩ }

/-- The same with an application that gives `app` and accepts it only. -/
def handled (app : Bytes) : Config := { issuer with cookieHandler := some (· == app) }

/-- The events with an application that always gives `app`. -/
def giving (app : Bytes) (es : List (Event × Coins)) : List (Event × Coins) :=
  es.map fun e => (e.1, { e.2 with appCookie := .ok (some app) })

/-- What a client sends that answers the retry of such a server. -/
def answering (app : Bytes) : List (Event × Coins) :=
  let h1 := [arrive tls 3 (lastHello tls clientCfg [])]
  let r1 := sent (actsOf (serverRun env tls (handled app) (giving app h1)))
  giving app (h1 ++ [arrive tls 5 (lastHello tls clientCfg (r1.map (arrive tls 4)))])

def serverAt (f : SState → List Action → Bool) : Res (SState × List Action × Ctx) → Bool
  | .ok (s, acts, _) => f s acts
  | _ => false

theorem serverAt_ok {f : SState → List Action → Bool} {r : Res (SState × List Action × Ctx)} (h : serverAt f r = true) :
    ∃ s acts x, r = .ok (s, acts, x) ∧ f s acts = true := by
  unfold serverAt at h
  split at h
  · exact ⟨_, _, _, rfl, h⟩
  · cases h

def atStart : SState → Bool
  | .start _ => true
  | _ => false

end CookieToy

/-- `C62_required`: a server that has got a cookie of its own, of which the application's part is 7 7, waits for the client's
Finished. -/
theorem cookie_case : ∃ s acts x', serverRun Toy.env Toy.tls (CookieToy.handled [7, 7]) (CookieToy.answering [7, 7]) = .ok (s, acts, x') ∧
    (CookieToy.handled [7, 7]).requireCookie = true ∧ (∀ e ∈ CookieToy.answering [7, 7], e.2.appCookie ≠ .ok none) ∧ ∀ s0, s ≠ .start s0 := by
  obtain ⟨s, acts, x', h1, h2⟩ := CookieToy.serverAt_ok (f := fun s acts => !CookieToy.atStart s)
    (r := serverRun Toy.env Toy.tls (CookieToy.handled [7, 7]) (CookieToy.answering [7, 7])) (by decide +kernel)
  refine ⟨s, acts, x', h1, rfl, ?_, ?_⟩
  · intro e he
    simp only [CookieToy.answering, CookieToy.giving, List.mem_map] at he
    obtain ⟨e0, _, rfl⟩ := he
    simp
  · rintro s0 rfl
    simp [CookieToy.atStart] at h2

/-- `C62_refused`: the hello with that cookie, at a server whose application accepts 8 8 only. -/
example : ∃ (m : Msg) (ch : ClientHello) (ck : Bytes) (prot : Protector), m.msgType = 1 ∧
    ClientHello.unmarshal (if Toy.tls.datagram then 0xfefd else 0x0303) m.body = .ok (ch, m.body.length) ∧
    Carries .cookie ch.exts (.cookie ck) ∧ ck ≠ [] ∧ (CookieToy.handled [8, 8]).cookieProtector = some prot ∧
    ∃ plain suite hash app n f, prot.decodeToken ck = .ok plain ∧
      Syntax.unmarshal cookieStructTy plain = .ok ((suite, hash, app, ()), n) ∧ (CookieToy.handled [8, 8]).cookieHandler = some f ∧
      f app = false := by
  obtain ⟨s, acts, x', h, hreq, hgen, hs⟩ := cookie_case
  rcases C62_required _ _ _ _ _ _ _ h hreq (Or.inr hgen) with ⟨⟨s0, h0⟩, _⟩ | ⟨m, hm, plain, app, hb, hv⟩
  · exact absurd h0 (hs s0)
  · obtain ⟨ht, ch, c, prot, suite, hash, n, hu, hcar, hne, hpr, hd, hpl⟩ := hb
    have happ : app = [7, 7] := by simpa using hv _ rfl
    exact ⟨m, ch, c, prot, ht, hu, hcar, hne, hpr, plain, suite, hash, app, n, _, hd, hpl, rfl, by rw [happ]; decide⟩

/-- The alert it sends. -/
example : (match serverRun Toy.env Toy.tls (CookieToy.handled [8, 8]) (CookieToy.answering [7, 7] |>.drop 1) with
    | .err (.alert a) => a == 49
    | _ => false) = true := by decide +kernel

/-- `C62_issued`: a server that has sent a HelloRetryRequest, and whose protector decodes what it encodes. -/
example : ∃ s acts x', serverRun Toy.env Toy.tls (CookieToy.handled [7, 7]) ((CookieToy.answering [7, 7]).take 1) = .ok (.start s, acts, x') ∧
    (sent acts).length = 1 ∧ ∃ prot, (CookieToy.handled [7, 7]).cookieProtector = some prot ∧
      ∀ n d t, prot.newToken n d = .ok t → prot.decodeToken t = .ok d := by
  obtain ⟨s, acts, x', h1, h2⟩ := CookieToy.serverAt_ok (f := fun s acts => CookieToy.atStart s && (sent acts).length == 1)
    (r := serverRun Toy.env Toy.tls (CookieToy.handled [7, 7]) ((CookieToy.answering [7, 7]).take 1)) (by decide +kernel)
  simp only [Bool.and_eq_true, beq_iff_eq] at h2
  cases s with
  | start s =>
    refine ⟨s, acts, x', h1, h2.2, _, rfl, ?_⟩
    intro n d t ht
    cases ht
    rfl
  | _ => simp [CookieToy.atStart] at h2

/-- `C62_default`: the default protector of some secret, at a server that completes nothing without a cookie. -/
example (A : CookieAead) (secret : Bytes) (rand : Nat → Option Bytes) : ∃ cfg : Config, cfg.requireCookie = true ∧
    cfg.cookieHandler = none ∧ cfg.cookieProtector = some (defaultProtector Toy.env.P A secret rand) :=
  ⟨{ CookieToy.issuer with cookieProtector := some (defaultProtector Toy.env.P A secret rand) }, rfl, rfl, rfl⟩

end Verif.Props

import Verif.Machine.Deliver
import Verif.Spec.Cookie

/-
A server that asks for a cookie: its HelloRetryRequest, the client's second hello, and what it makes of that.
-/

namespace Verif.Machine

open Verif Verif.Crypto Verif.Messages Verif.Negotiation Verif.Handshake Verif.Spec

variable {E : Env} {d : Bool} {now : Int → Prop}

/-! ### The HelloRetryRequest -/

/-- The extensions of a HelloRetryRequest. -/
def retryExts (cookie : Bytes) : List ExtBody := [.supportedVersions typeServerHello [tls13Version], .cookie cookie]

theorem retryExts_nodup (cookie : Bytes) : ((retryExts cookie).map fun b => b.kind.type).Nodup := by
  simp only [retryExts, List.map_cons, List.map_nil, ExtBody.kind]; decide

/-- The HelloRetryRequest with a cookie. -/
def retryHello (suite : UInt16) (sid cookie : Bytes) : ServerHello :=
  ⟨tls12Version, ⟨hrrRandom, rfl⟩, sid, suite, 0, (retryExts cookie).map bodyExt⟩

theorem makeRetry_fits {cookie : Bytes} (h1 : 0 < cookie.length) (h2 : cookie.length ≤ 10000) (x : Ctx) (suite : UInt16) :
    ∃ m x', makeRetry x suite [] cookie = .ok (m, x') := by
  obtain ⟨d1, m1, l1⟩ : ∃ r, (ExtBody.supportedVersions typeServerHello [tls13Version]).marshal = .ok r ∧ r.length = 2 :=
    ⟨[3, 4], by decide, rfl⟩
  obtain ⟨d2, m2, l2⟩ := fits_cookie h1 (by omega)
  obtain ⟨exts, he⟩ := addAll_fits [] (retryExts cookie) (by
    intro b hb
    simp only [retryExts, List.mem_cons, List.not_mem_nil, or_false] at hb
    rcases hb with rfl | rfl
    · exact ⟨_, m1⟩
    · exact ⟨_, m2⟩)
  obtain ⟨_, he'⟩ := addAll_made he (retryExts_nodup cookie)
  obtain ⟨b, hb⟩ := fits_serverHello (sh := ⟨tls12Version, ⟨hrrRandom, rfl⟩, [], suite, 0, exts⟩) (by simp) (by
    show extsSize exts < _
    rw [he']
    simp only [retryExts, extsSize, List.map_cons, List.map_nil, Syntax.sumBy_cons, Syntax.sumBy_nil, bodyExt, bodyData_ok m1, bodyData_ok m2]
    omega)
  obtain ⟨m, x', hm⟩ := mkMsg_fits (b := .serverHello _) x hb
  refine ⟨m, x', ?_⟩
  simp only [makeRetry]
  rw [show addAll [] [.supportedVersions typeServerHello [tls13Version], .cookie cookie] = .ok exts from he, Res.bind_ok]
  exact hm

theorem makeRetry_made {x x' : Ctx} {suite : UInt16} {sid cookie : Bytes} {m : Msg} (h : makeRetry x suite sid cookie = .ok (m, x')) :
    mkMsg x (.serverHello (retryHello suite sid cookie)) = .ok (m, x') ∧
      ∀ b ∈ retryExts cookie, b.marshal = .ok (bodyData b) := by
  obtain ⟨exts, h0, h1⟩ := makeRetry_ok h
  obtain ⟨h2, rfl⟩ := addAll_made h0 (retryExts_nodup cookie)
  exact ⟨h1, h2⟩

/-- Over TLS the bytes of a HelloRetryRequest do not depend on when it is made. -/
theorem makeRetry_bytes {x x' y y' z : Ctx} {suite : UInt16} {sid cookie : Bytes} {m m' : Msg}
    (h : makeRetry x suite sid cookie = .ok (m, x')) (h' : makeRetry y suite sid cookie = .ok (m', y')) (hz : z.datagram = false) :
    z.bytes m = z.bytes m' := by
  obtain ⟨a, h1, rfl, _⟩ := mkMsg_ok (makeRetry_made h).1
  obtain ⟨b, h2, rfl, _⟩ := mkMsg_ok (makeRetry_made h').1
  rw [h1, Res.ok.injEq] at h2
  subst h2
  simp [Ctx.bytes, Msg.marshal, hz]

/-- What a client does with a HelloRetryRequest. -/
theorem client_retry {w : CWaitSH} {x y y' : Ctx} {suite : UInt16} {sid cookie : Bytes} {hrr : Msg}
    {p : Params}
    (h : makeRetry y suite sid cookie = .ok (hrr, y')) (hs : suite ∈ w.cfg.suites) (hp : suiteParams suite.toNat = some p) :
    w.next E x (arrived d hrr) = .ok (.start ⟨{ w.cfg with suites := [suite] }, some cookie,
      some (E.P.hash p.hash (x.bytes w.clientHello)), some (arrived d hrr)⟩, [.resetOut 1], x) := by
  obtain ⟨hm, hb⟩ := makeRetry_made h
  obtain ⟨ht, hu⟩ := serverHello_reads hm
  have hfindOf : ∀ b ∈ retryExts cookie, expressible b → findExt b.kind (retryHello suite sid cookie).exts = .ok (some (contents b)) := by
    intro b hbm he
    rw [C30_find]
    have h1 := dataOf_bodies (retryExts_nodup cookie) hbm
    rw [show (retryHello suite sid cookie).exts = (retryExts cookie).map bodyExt from rfl, h1]
    have h2 := C31_extension_roundtrip_partial _ _ he (hb _ hbm)
    simp only [h2, Res.bind_ok]
  have hv := hfindOf (.supportedVersions typeServerHello [tls13Version]) (by simp [retryExts]) (by simp [expressible])
  have hc := hfindOf (.cookie cookie) (by simp [retryExts]) (by simp [expressible])
  have hany : w.cfg.suites.any (· == suite) = true := by simpa using hs
  have hcheck : checkHello w (arrived d hrr) = .ok (retryHello suite sid cookie) := by
    simp only [ExtBody.kind, contents] at hv
    simp only [checkHello, arrived_type, ht, ne_eq, not_true_eq_false, if_false, arrived_body, hu, orAlert, Res.bind_ok, hv]
    rw [show (retryHello suite sid cookie).suite = suite from rfl, hany]
    simp [retryHello]
  simp only [CWaitSH.next, hcheck, Res.bind_ok]
  rw [if_pos (show (retryHello suite sid cookie).random.1 = hrrRandom from rfl)]
  simp only [ExtBody.kind, contents] at hc
  simp only [handleRetry, hc, orAlert_val, Res.bind_ok]
  rw [if_neg (by simp [retryHello, retryExts]), show (retryHello suite sid cookie).suite = suite from rfl, hp]
  rfl

/-! ### The server -/

theorem cookieStruct_fits {suite : UInt16} {hash app : Bytes} (h1 : hash.length ≤ 500) (h2 : app.length ≤ 1000) :
    ∃ b, Syntax.marshal cookieStructTy (suite, hash, app, ()) = .ok b ∧ b.length ≤ 2000 := by
  obtain ⟨b, hb, hl⟩ := Syntax.marshal_fits (t := cookieStructTy) (v := (suite, hash, app, ())) (by decide) (by decide) (by
    simp only [cookieStructTy, Syntax.Ty.fits, Syntax.Fields.fits, and_true]
    exact ⟨trivial, bytesTy_fits (by simp) (by simp) (by simp) (by simp; omega), bytesTy_fits (by simp) (by simp) (by simp) (by simp; omega)⟩)
  refine ⟨b, hb, ?_⟩
  rw [hl]
  simp [cookieStructTy, Syntax.Ty.size, Syntax.Fields.size, bytesTy_size, Syntax.Width.bytes]
  omega

/-- Without a common PSK none is chosen, whatever the cookie. -/
theorem choosePsk_none {x x' y : Ctx} {c0 c : Coins} {s : CStart} {m : Msg} (a : MadeHello E x c0 s m x') {o : Offer}
    (O : OfferRead s a.shares a.early a.psk o) {scfg : Config} (N : NoCommonPsk s.cfg scfg) {token : Bytes} (hk : s.cookie = some token)
    (h1 : 0 < token.length) (h2 : token.length ≤ 10000) (first : Option (Bytes × Params)) :
    ∃ y1, y1.datagram = y.datagram ∧ choosePsk E y scfg c.now
      ⟨wireVersion x, a.random, [], a.suites, (helloBodies s a.shares a.early a.psk).map bodyExt⟩ o first = .ok (none, y1) := by
  have hck : o.cookie = token := by rw [O.cookie, hk]; rfl
  rcases a.pskOk with ⟨h, hpsk, _⟩ | ⟨k, p, bd, trunc, hk, hp, hpsk, _, _, _, htr, hbd⟩
  · obtain ⟨hids, _⟩ := O.noPsk hpsk
    exact ⟨y, rfl, by simp [choosePsk, hids]⟩
  · obtain ⟨hids, hbinders⟩ := O.psk_ _ _ _ hpsk
    unfold NoCommonPsk at N
    rw [hk] at N
    obtain ⟨_, _, hnone, _⟩ := N
    cases first with
    | none =>
      exact ⟨y, rfl, by simp only [choosePsk, hids, List.length_singleton, Nat.lt_add_one, gt_iff_lt, if_true, Res.bind_ok, htr, orAlert_val,
        Negotiation.psk, List.map_cons, List.map_nil, pskFrom, hnone]⟩
    | some f =>
      obtain ⟨hrr, y1, hm⟩ := makeRetry_fits h1 h2 y 0
      exact ⟨y1, makeRetry_datagram hm, by simp only [choosePsk, hids, List.length_singleton, Nat.lt_add_one, gt_iff_lt, if_true, Res.bind_ok, hck, hm, htr,
        orAlert_val, Negotiation.psk, List.map_cons, List.map_nil, pskFrom, hnone]⟩

/-- What the server's cookie for a hello is made of. -/
structure CookieFor (E : Env) (ccfg scfg : Config) (y : Ctx) (m : Msg) (su : UInt16) (p : Params) (token : Bytes) : Prop where
  offered : su ∈ offeredSuites (ccfg.psks ccfg.serverName) ccfg.suites
  supported : su ∈ scfg.suites
  params : suiteParams su.toNat = some p
  short : 0 < token.length ∧ token.length ≤ 10000
  decodes : ∃ prot state app, scfg.cookieProtector = some prot ∧ prot.decodeToken token = .ok state ∧
    Syntax.marshal cookieStructTy (su, E.P.hash p.hash (y.bytes m), app, ()) = .ok state ∧
    ∀ validate, scfg.cookieHandler = some validate → validate app = true

/-- A server that wants a cookie answers the first hello with a HelloRetryRequest. -/
theorem server_retry (hP : E.P.Sized) {ccfg scfg : Config} (C : CompatibleCookie E now ccfg scfg) {x x' y : Ctx} {c0 c : Coins}
    {w : CWaitSH} {acts : List Action} (hw : ({ cfg := ccfg } : CStart).next E x c0 = .ok (w, acts, x')) (hx : x.datagram = d)
    (hy : y.datagram = d) (hc0 : now c0.now) (hc : now c.now) (hg : GivesCookie scfg c) :
    ∃ su p token hrr y', CookieFor E ccfg scfg y (arrived d w.clientHello) su p token ∧ makeRetry y su [] token = .ok (hrr, y') ∧
      SStart.next E y c ⟨scfg⟩ (arrived d w.clientHello) = .ok (.retry hrr, y') := by
  obtain ⟨a⟩ := CStart.next_hello hP hw
  obtain ⟨o, hread, O⟩ := hello_read a (hy.trans hx.symm) d
  obtain ⟨_, hnopk⟩ := choosePsk_honest (now := now) (y := y) (c := c) hP a O (scfg := scfg) hc0 hc
  have hchoice := hnopk C.method.noPsk
  obtain ⟨dhc, hdh, _, _⟩ := offer_dh (c := c) C.fits C.dh hw a O scfg
  obtain ⟨_, su, hsu, hsus, hsuite⟩ := offer_suite C.method a
  obtain ⟨p, hp⟩ := Option.isSome_iff_exists.1 (C.method.known su hsus)
  obtain ⟨prot, hprot, hworks⟩ := C.protector
  obtain ⟨app, happ, hlen, hvalid⟩ : ∃ app : Bytes, (scfg.cookieHandler = none ∧ app = [] ∨
      ∃ v, scfg.cookieHandler = some v ∧ c.appCookie = .ok (some app)) ∧
      app.length ≤ 1000 ∧ ∀ validate, scfg.cookieHandler = some validate → validate app = true := by
    cases hh : scfg.cookieHandler with
    | none => exact ⟨[], .inl ⟨rfl, rfl⟩, by simp, fun _ h => by cases h⟩
    | some v =>
      obtain ⟨app, h1, h2, h3⟩ := hg v hh
      refine ⟨app, .inr ⟨v, rfl, h1⟩, h2, ?_⟩
      intro v' hv'
      cases hv'
      exact h3
  obtain ⟨state, hstate, hsl⟩ := cookieStruct_fits (suite := su) (hash := E.P.hash p.hash (y.bytes (arrived d w.clientHello))) (app := app)
    (by rw [hP.hash]; have := (suiteParams_bounds hp).2; omega) hlen
  obtain ⟨token, htok, ht1, ht2, hdec⟩ := hworks c.token state hsl
  obtain ⟨hrr, y', hm⟩ := makeRetry_fits ht1 ht2 y su
  refine ⟨su, p, token, hrr, y', ⟨hsu, hsus, hp, ⟨ht1, ht2⟩, prot, state, app, hprot, hdec, hstate, hvalid⟩, hm, ?_⟩
  have hcookie : o.cookie = [] := O.cookie
  have hsuNat : UInt16.ofNat su.toNat = su := by simp
  have hretry : chooseRetry E y scfg c (arrived d w.clientHello)
      ⟨wireVersion x, a.random, [], a.suites, (helloBodies { cfg := ccfg } a.shares a.early a.psk).map bodyExt⟩ o su =
        .ok (some hrr, true, y') := by
    unfold chooseRetry
    rw [if_pos C.required, hcookie, if_neg (by simp)]
    rcases happ with ⟨hh, rfl⟩ | ⟨v, hh, happ⟩
    · simp only [hh, Res.bind_ok, if_true, hp, hstate, orAlert_val, hprot, htok, hm]
    · simp only [hh, happ, Option.isSome_some, Option.getD_some, Res.bind_ok, if_true, hp, hstate, orAlert_val, hprot, htok, hm]
  simp only [SStart.next, hread, Res.bind_ok, checkCookie, hcookie, List.length_nil, gt_iff_lt, Nat.lt_irrefl, if_false, ne_eq,
    not_true_eq_false, false_and, hdh, hchoice, Option.map_none, hsuite, orAlert_val, suiteDiffers, Bool.false_eq_true, hsuNat, hretry]

/-- A server that wants a cookie answers the second hello with a ServerHello. -/
theorem server_again (hP : E.P.Sized) {ccfg scfg : Config} (C : CompatibleCookie E now ccfg scfg) {m hrr : Msg} {su : UInt16} {p : Params}
    {token : Bytes} {y0 y' : Ctx} (hy0 : y0.datagram = false) (K : CookieFor E ccfg scfg y0 m su p token)
    (hm : makeRetry y0 su [] token = .ok (hrr, y')) {x x' y : Ctx} {c0 c : Coins} {w : CWaitSH} {acts : List Action}
    (hw : CStart.next E x c0 ⟨{ ccfg with suites := [su] }, some token, some (E.P.hash p.hash (y0.bytes m)), some (arrived false hrr)⟩ =
      .ok (w, acts, x')) (hx : x.datagram = false) (hy : y.datagram = false) :
    ∃ n y1, y1.datagram = false ∧ SStart.next E y c ⟨scfg⟩ (arrived false w.clientHello) = .ok (.negotiated n, y1) ∧
      Matched E false now w n := by
  obtain ⟨a⟩ := CStart.next_hello hP hw
  obtain ⟨o, hread, O⟩ := hello_read a (hy.trans hx.symm) false
  obtain ⟨shares, random, exts, _, _, _, hcase⟩ := CStart.next_ok hw
  have hwf : w.firstHello = some (E.P.hash p.hash (y0.bytes m)) ∧ w.retry = some (arrived false hrr) := by
    rcases hcase with ⟨k, o', _, _, rfl, _⟩ | ⟨_, hello, _, rfl, _⟩ <;> exact ⟨rfl, rfl⟩
  obtain ⟨prot, state, app, hprot, hdec, hstate, hvalid⟩ := K.decodes
  have hck : o.cookie = token := O.cookie
  have hcookie : checkCookie scfg o = .ok (some (E.P.hash p.hash (y0.bytes m), p)) := by
    unfold checkCookie
    rw [if_pos (by rw [hck]; exact K.short.1), hprot]
    simp only [hck, hdec, orAlert_val, Res.bind_ok, decodeCookie, Messages.plain_self (show cookieStructTy.plain = true by decide) hstate]
    cases hh : scfg.cookieHandler with
    | none => simp only [Bool.not_true, Bool.false_eq_true, if_false, K.params]
    | some v => simp only [hvalid v hh, Bool.not_true, Bool.false_eq_true, if_false, K.params]
  have N : NoCommonPsk { ccfg with suites := [su] } scfg := C.method.noPsk
  obtain ⟨y1, hy1, hchoice⟩ := choosePsk_none (y := y) (c := c) a O N (token := token) rfl K.short.1 K.short.2
    (some (E.P.hash p.hash (y0.bytes m), p))
  obtain ⟨hrr2, y2, hm2⟩ := makeRetry_fits K.short.1 K.short.2 y1 su
  obtain ⟨n, hn, M⟩ := server_cert (E := E) (d := false) (now := now)
    (s := ⟨{ ccfg with suites := [su] }, some token, some (E.P.hash p.hash (y0.bytes m)), some (arrived false hrr)⟩) (scfg := scfg) (y := y) (y2 := y2)
    (retry := some hrr2)
    { C.fits with suites := ⟨by simp, by simp⟩ } C.dh
    { C.method with
      suite := ⟨su, by
        have := K.offered
        unfold offeredSuites at this ⊢
        dsimp only
        split
        · simp
        · rename_i k hk
          rw [hk] at this
          exact List.mem_filter.2 ⟨by simp, (List.mem_filter.1 this).2⟩, K.supported⟩ }
    hw a hread O hcookie hchoice
    (by
      intro f hf su' hsu' _
      cases hf
      obtain rfl : su' = su := by simpa using hsu'
      exact suiteParams_suite K.params)
    (by
      intro su' hsu' _
      obtain rfl : su' = su := by simpa using hsu'
      unfold chooseRetry
      rw [if_pos C.required, if_pos (by rw [hck]; exact K.short.1)]
      simp only [hck, hm2, orAlert_val, Res.bind_ok])
    (by
      intro z hz
      rw [hwf.1, hwf.2]
      show hashMsgBytes _ ++ z.bytes hrr2 ++ _ = hashMsgBytes _ ++ z.bytes (arrived false hrr) ++ _
      rw [bytes_arrived hz, bytes_arrived hz, makeRetry_bytes hm2 hm hz]
      rfl)
  exact ⟨n, y2, (makeRetry_datagram hm2).trans (hy1.trans hy), hn, M⟩

/-! ### The client's second hello -/

theorem _root_.Verif.Spec.CompatibleCookie.compatible {ccfg scfg : Config} (C : CompatibleCookie E now ccfg scfg) :
    Compatible E now ccfg { scfg with requireCookie := false } :=
  ⟨C.fits, C.dh, rfl, Or.inr { C.method with }⟩

/-- After a HelloRetryRequest the client sends another hello. -/
theorem client_again (hP : E.P.Sized) {ccfg scfg : Config} (C : CompatibleCookie E now ccfg scfg) {y : Ctx} {m : Msg} {su : UInt16}
    {p : Params} {token : Bytes} (K : CookieFor E ccfg scfg y m su p token) (hash : Bytes) (hrr : Msg) (x : Ctx) {c : Coins}
    (hc : GoodCoins now c) :
    ∃ w acts x', CStart.next E x c ⟨{ ccfg with suites := [su] }, some token, some hash, some hrr⟩ = .ok (w, acts, x') ∧
      sent acts = [w.clientHello] := by
  obtain ⟨⟨r, hr, _⟩, _⟩ := hc
  obtain ⟨w, acts, x', h⟩ := client_start (E := E)
    (s := ⟨{ ccfg with suites := [su] }, some token, some hash, some hrr⟩) hP { C.fits with suites := ⟨by simp, by simp⟩ } C.dh
    (by intro k hk; cases hk; exact K.short) (by
      intro k hk
      have N := C.method.noPsk
      have hk : ccfg.psks ccfg.serverName = some k := hk
      unfold NoCommonPsk at N
      rw [hk] at N
      have ho := K.offered
      rw [hk] at ho
      refine ⟨N.1, N.2.1, List.length_pos_iff.2 (List.ne_nil_of_mem (a := su) ?_)⟩
      exact List.mem_filter.2 ⟨by simp, (List.mem_filter.1 ho).2⟩) x ⟨r, hr⟩
  refine ⟨w, acts, x', h, ?_⟩
  obtain ⟨shares, random, exts, _, _, _, ⟨psk, o, _, _, rfl, rfl, rfl⟩ | ⟨_, hello, _, rfl, rfl⟩⟩ := CStart.next_ok h
  · simp [sent]
  · simp [sent]

/-! ### All executions -/

/-- The stages of a handshake with a server that wants a cookie. -/
inductive CookieStage (E : Env) (now : Int → Prop) (y : Ctx) (ccfg scfg : Config) (w : CWaitSH) (x0 : Ctx) :
    List (Event × Coins) → List (Event × Coins) → Prop where
  | hello : CookieStage E now y ccfg scfg w x0 [] []
  | asked {c : Coins} (su : UInt16) (p : Params) (token : Bytes) (hrr : Msg) (y1 : Ctx) :
      CookieFor E ccfg scfg y (arrived false w.clientHello) su p token → makeRetry y su [] token = .ok (hrr, y1) →
      SStart.next E y c ⟨scfg⟩ (arrived false w.clientHello) = .ok (.retry hrr, y1) →
      CookieStage E now y ccfg scfg w x0 [] [(.msg (arrived false w.clientHello), c)]
  | again {c c' : Coins} {es fs : List (Event × Coins)} (su : UInt16) (p : Params) (token : Bytes) (hrr : Msg) (y1 : Ctx)
      (w' : CWaitSH) (acts : List Action) (x1 : Ctx) :
      CookieFor E ccfg scfg y (arrived false w.clientHello) su p token → makeRetry y su [] token = .ok (hrr, y1) →
      SStart.next E y c ⟨scfg⟩ (arrived false w.clientHello) = .ok (.retry hrr, y1) →
      CState.step E x0 c' (.waitSH w) (.msg (arrived false hrr)) = .ok (.waitSH w', acts, x1) →
      x1.datagram = false → sent acts = [w'.clientHello] →
      (∀ c2, ∃ n y2, y2.datagram = false ∧ SStart.next E y1 c2 ⟨scfg⟩ (arrived false w'.clientHello) = .ok (.negotiated n, y2) ∧
        Matched E false now w' n) →
      Stage E false now y1 scfg w' x1 es fs →
      CookieStage E now y ccfg scfg w x0 ((.msg (arrived false hrr), c') :: es) ((.msg (arrived false w.clientHello), c) :: fs)

theorem SState.step_retry {y y1 : Ctx} {c : Coins} {scfg : Config} {m hrr : Msg}
    (h : SStart.next E y c ⟨scfg⟩ m = .ok (.retry hrr, y1)) :
    SState.step E y c (.start ⟨scfg⟩) (.msg m) = .ok (.start ⟨scfg⟩, [.queue hrr, .sendQueued], y1) := by
  simp only [SState.step, h, Res.bind_ok]

/-- The client's step from a HelloRetryRequest to its second hello. -/
theorem client_step_again (hP : E.P.Sized) {ccfg scfg : Config} (C : CompatibleCookie E now ccfg scfg) {x x0 y y1 : Ctx} {c0 : Coins}
    {w : CWaitSH} {acts0 : List Action} (hw : ({ cfg := ccfg } : CStart).next E x c0 = .ok (w, acts0, x0)) (hx : x.datagram = false)
    (hy : y.datagram = false) {su : UInt16} {p : Params} {token : Bytes} {hrr : Msg}
    (K : CookieFor E ccfg scfg y (arrived false w.clientHello) su p token) (hm : makeRetry y su [] token = .ok (hrr, y1)) {c : Coins}
    (hc : GoodCoins now c) :
    ∃ w' acts x1, CState.step E x0 c (.waitSH w) (.msg (arrived false hrr)) = .ok (.waitSH w', acts, x1) ∧ x1.datagram = false ∧
      sent acts = [w'.clientHello] ∧ ∀ c2, ∃ n y2, y2.datagram = false ∧
        SStart.next E y1 c2 ⟨scfg⟩ (arrived false w'.clientHello) = .ok (.negotiated n, y2) ∧ Matched E false now w' n := by
  have hx0 : x0.datagram = false := (CStart.next_datagram hw).trans hx
  have hcfg : w.cfg = ccfg := by
    obtain ⟨shares, random, exts, _, _, _, hcase⟩ := CStart.next_ok hw
    rcases hcase with ⟨k, o', _, _, rfl, _⟩ | ⟨_, hello, _, rfl, _⟩ <;> rfl
  have h1 := client_retry (E := E) (d := false) (w := w) (x := x0) hm (by rw [hcfg]; exact offered_mem K.offered) K.params
  rw [hcfg, show x0.bytes w.clientHello = y.bytes (arrived false w.clientHello) by
    rw [bytes_arrived hy]; simp [Ctx.bytes, Msg.marshal, hx0, hy]] at h1
  obtain ⟨w', acts, x1, h2, h3⟩ := client_again hP C K (E.P.hash p.hash (y.bytes (arrived false w.clientHello))) (arrived false hrr) x0 hc
  refine ⟨w', [.resetOut 1] ++ acts, x1, ?_, (CStart.next_datagram h2).trans hx0, ?_, ?_⟩
  · simp only [CState.step, h1, h2, Res.bind_ok]
  · rw [sent_append, h3]; simp [sent]
  · intro c2
    exact server_again hP C hy K hm h2 hx0 ((makeRetry_datagram hm).trans hy)

theorem _root_.Verif.Spec.Delivery.cookieStage (hP : E.P.Sized) {ccfg scfg : Config} (C : CompatibleCookie E now ccfg scfg) {x x0 y : Ctx}
    {c0 : Coins} {w : CWaitSH} {acts0 : List Action} (hw : ({ cfg := ccfg } : CStart).next E x c0 = .ok (w, acts0, x0))
    (hs0 : sent acts0 = [w.clientHello]) (hx : x.datagram = false) (hy : y.datagram = false) (h0 : GoodCoins now c0)
    {es fs : List (Event × Coins)} (h : Delivery E x y ccfg scfg c0 now es fs) (hg : ∀ e ∈ fs, GivesCookie scfg e.2) :
    CookieStage E now y ccfg scfg w x0 es fs := by
  induction h with
  | start => exact .hello
  | toClient c s acts y' m _ hrun hm hc ih =>
    rw [hx]
    cases ih hg with
    | hello =>
      rw [serverRun, SState.run, Res.ok.injEq, Prod.mk.injEq, Prod.mk.injEq] at hrun
      obtain ⟨_, rfl, _⟩ := hrun
      simp [sent] at hm
    | asked su p token hrr y1 K hk hn =>
      rw [serverRun, SState.run, SState.step_retry hn] at hrun
      simp only [Res.bind_ok, SState.run, Res.ok.injEq, Prod.mk.injEq] at hrun
      obtain ⟨_, rfl, _⟩ := hrun
      obtain rfl : hrr = m := by simpa [sent] using hm
      obtain ⟨w', acts', x1, h1, h2, h3, h4⟩ := client_step_again hP C hw hx hy K hk hc
      exact .again su p token hrr y1 w' acts' x1 K hk hn h1 h2 h3 h4 .hello
    | again su p token hrr y1 w' acts' x1 K hk hn h1 h2 h3 h4 S =>
      rw [serverRun, SState.run, SState.step_retry hn] at hrun
      simp only [Res.bind_ok, Res.bind_eq_ok, Res.ok.injEq, Prod.mk.injEq] at hrun
      obtain ⟨⟨s2, sacts, y2⟩, hr2, _, rfl, _⟩ := hrun
      rw [sent_append, show sent [.queue hrr, .sendQueued] = [hrr] by simp [sent]] at hm
      rw [List.length_cons, List.singleton_append, List.getElem?_cons_succ] at hm
      exact .again su p token hrr y1 w' acts' x1 K hk hn h1 h2 h3 h4 (S.toClient hP h2 h0 hc hr2 hm)
  | toServer c s acts x' m _ hrun hm hc ih =>
    rw [hx]
    rw [hx] at hg
    simp only [clientRun, hw, Res.bind_ok, Res.bind_eq_ok, Res.ok.injEq, Prod.mk.injEq] at hrun
    obtain ⟨⟨c1, cacts1, z1⟩, hrun, _, rfl, _⟩ := hrun
    rw [sent_append, hs0] at hm
    cases ih (fun e he => hg e (List.mem_append_left _ he)) with
    | hello =>
      obtain rfl : w.clientHello = m := by simpa using hm
      obtain ⟨su, p, token, hrr, y1, K, hk, hn⟩ := server_retry hP C hw hx hy h0.2 hc.2 (hg (.msg (arrived false w.clientHello), c) (by simp))
      exact .asked su p token hrr y1 K hk hn
    | asked su p token hrr y1 K hk hn =>
      rw [CState.run, Res.ok.injEq, Prod.mk.injEq, Prod.mk.injEq] at hrun
      obtain ⟨_, rfl, _⟩ := hrun
      simp [sent] at hm
    | again su p token hrr y1 w' acts' x1 K hk hn h1 h2 h3 h4 S =>
      rw [CState.run, h1] at hrun
      simp only [Res.bind_ok, Res.bind_eq_ok, Res.ok.injEq, Prod.mk.injEq] at hrun
      obtain ⟨⟨s2, cacts, x2⟩, hr2, _, rfl, _⟩ := hrun
      rw [sent_append, h3, List.length_cons, List.singleton_append, List.getElem?_cons_succ] at hm
      exact .again su p token hrr y1 w' acts' x1 K hk hn h1 h2 h3 h4 (S.toServer hP h2 h0 hc (h4 c) hr2 hm)

/-- What both ends are up to. -/
theorem CookieStage.ends (hP : E.P.Sized) {ccfg scfg : Config} {x0 y : Ctx} {w : CWaitSH} {c0 : Coins} (h0 : GoodCoins now c0)
    {es fs : List (Event × Coins)} (S : CookieStage E now y ccfg scfg w x0 es fs) :
    ∃ c cacts x' s sacts y', CState.run E x0 (.waitSH w) es = .ok (c, cacts, x') ∧ serverRun E y scfg fs = .ok (s, sacts, y') ∧
      es.length ≤ (sent sacts).length ∧ fs.length ≤ 1 + (sent cacts).length ∧ (sent sacts).length ≤ 7 ∧ (sent cacts).length ≤ 5 ∧
      (es.length = (sent sacts).length → fs.length = 1 + (sent cacts).length → ∃ cc sc, c = .connected cc ∧ s = .connected sc ∧
        SameConnection cc sc ∧ (∃ k, lastIn cacts = some k ∧ lastOut sacts = some k) ∧
        ∃ k, lastOut cacts = some k ∧ lastIn sacts = some k) := by
  cases S with
  | hello => exact ⟨_, _, _, _, _, _, rfl, rfl, by simp, by simp, by simp [sent], by simp [sent], fun _ h => by simp [sent] at h⟩
  | asked su p token hrr y1 K hk hn =>
    refine ⟨_, _, _, .start ⟨scfg⟩, [.queue hrr, .sendQueued] ++ [], y1, rfl, ?_, by simp, by simp, by simp [sent], by simp [sent],
      fun h _ => by simp [sent] at h⟩
    rw [serverRun, SState.run, SState.step_retry hn]
    rfl
  | again su p token hrr y1 w' acts' x1 K hk hn h1 h2 h3 h4 S =>
    obtain ⟨c, cacts, x', s, sacts, y', g1, g2, g3, g4, g5, g6, g7⟩ := S.ends hP h2 h0
    have hq : sent [.queue hrr, .sendQueued] = [hrr] := by simp [sent]
    refine ⟨c, acts' ++ cacts, x', s, [.queue hrr, .sendQueued] ++ sacts, y', ?_, ?_, ?_, ?_, ?_, ?_, ?_⟩
    · rw [CState.run, h1]
      simp only [Res.bind_ok, g1]
    · rw [serverRun, SState.run, SState.step_retry hn]
      simp only [Res.bind_ok, show SState.run E y1 (.start ⟨scfg⟩) _ = _ from g2]
    · rw [sent_append, hq]; simp; omega
    · rw [sent_append, h3]; simp; omega
    · rw [sent_append, hq]; simp; omega
    · rw [sent_append, h3]; simp; omega
    · rw [sent_append, sent_append, hq, h3]
      simp only [List.length_cons, List.singleton_append, Nat.add_right_cancel_iff]
      intro h5 h6
      obtain ⟨cc, sc, h8, h9, h10, ⟨k, h11, h12⟩, ⟨k', h13, h14⟩⟩ := g7 (by omega) (by omega)
      exact ⟨cc, sc, h8, h9, h10, ⟨k, lastIn_append_some _ h11, lastOut_append_some _ h12⟩,
        ⟨k', lastOut_append_some _ h13, lastIn_append_some _ h14⟩⟩

end Verif.Machine

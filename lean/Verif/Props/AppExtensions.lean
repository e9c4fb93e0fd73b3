import Verif.Machine.AppExtensions
import Verif.Machine.Added
import Verif.Machine.Hello
import Verif.Machine.Hellos
import Verif.Machine.ServerView
import Verif.Machine.Found
import Verif.Machine.Toy
import Verif.Spec.AppExtensions
import Verif.Props.Messages

/-
C94: extensions of the application are carried unchanged, and do not change what mint negotiates.
-/

namespace Verif.Props

open Verif Verif.Crypto Verif.Messages Verif.Negotiation Verif.Handshake Verif.Machine Verif.Spec

theorem dataOf_only {ts : List UInt16} {t : UInt16} (h : t ∈ ts) (el : List Ext) : dataOf t (only ts el) = dataOf t el := by
  simp only [dataOf, only, List.filter_filter]
  congr 1
  apply List.filter_congr
  intro e _
  by_cases he : e.1 = t
  · simp [he, h]
  · simp [he]

theorem parseExtsFrom_only {ts : List UInt16} {el el' : List Ext} (h : only ts el = only ts el') :
    ∀ (ks : List ExtKind) (found : List ExtBody), (∀ k ∈ ks, k.type ∈ ts) → parseExtsFrom el found ks = parseExtsFrom el' found ks
  | [], _, _ => rfl
  | k :: ks, found, hk => by
    have hd : dataOf k.type el = dataOf k.type el' := by
      rw [← dataOf_only (hk k (by simp)) el, h, dataOf_only (hk k (by simp))]
    simp only [parseExtsFrom, parseExt_spec, hd]
    congr 1
    funext f
    exact parseExtsFrom_only h ks f fun k' h' => hk k' (by simp [h'])

theorem parseExts_only {ts : List UInt16} {el el' : List Ext} {ks : List ExtKind} (h : only ts el = only ts el')
    (hk : ∀ k ∈ ks, k.type ∈ ts) : parseExts el ks = parseExts el' ks := parseExtsFrom_only h ks [] hk

theorem others_setExt {ts : List UInt16} {t : UInt16} (ht : t ∈ ts) (d : Bytes) : ∀ el : List Ext,
    others ts (setExt t d el) = others ts el
  | [] => by simp [others, setExt, ht]
  | e :: el => by
    have ih := others_setExt ht d el
    rw [setExt]
    split
    · rename_i h
      simp [others, h, ht]
    · simp only [others, List.filter_cons] at ih ⊢
      rw [ih]

theorem others_addExt {ts : List UInt16} {el r : List Ext} {b : ExtBody} (hb : b.kind.type ∈ ts) (h : addExt el b = .ok r) :
    others ts r = others ts el := by
  simp only [addExt, Res.bind_eq_ok, Res.ok.injEq] at h
  obtain ⟨d, _, rfl⟩ := h
  exact others_setExt hb d el

theorem others_addIgnore {ts : List UInt16} {el r : List Ext} {b : ExtBody} (hb : b.kind.type ∈ ts) (h : addIgnore el b = .ok r) :
    others ts r = others ts el := by
  unfold addIgnore at h
  split at h
  · simp only [Res.ok.injEq] at h
    rw [h]
  · exact others_addExt hb h

/-- A ClientHello offering a PSK: only early_data and pre_shared_key have been put in. -/
theorem offerPsk_others {E : Env} {x : Ctx} {cfg : Config} {early : Bool} {now : Int} {psk : Psk} {ch : ClientHello} {o : PskOffer}
    (h : offerPsk E x cfg early now psk ch = .ok o) :
    ∃ ch' : ClientHello, ch'.version = ch.version ∧ ch'.sessionId = ch.sessionId ∧ others [41, 42] ch'.exts = others [41, 42] ch.exts ∧
      mkMsg x (.clientHello ch') = .ok (o.hello, o.ctx) := by
  unfold offerPsk at h
  split at h
  · cases h
  · rename_i p _
    simp only [Res.bind_eq_ok] at h
    obtain ⟨e1, h1, h⟩ := h
    split at h
    · cases h
    · simp only [Res.bind_eq_ok, orAlert_ok] at h
      obtain ⟨e2, h2, _, _, _, _, binder, _, e3, h3, h⟩ := h
      have g1 : others [41, 42] e1 = others [41, 42] ch.exts := by
        split at h1
        · exact others_addExt (b := .earlyData) (by decide) (orAlert_ok.1 h1)
        · simp only [Res.ok.injEq] at h1
          rw [h1]
      have g2 := others_addIgnore (ts := [41, 42]) (by show (41 : UInt16) ∈ _; decide) h2
      have g3 := others_addIgnore (ts := [41, 42]) (by show (41 : UInt16) ∈ _; decide) h3
      split at h
      · rename_i hello x' hm
        simp only [Res.bind_eq_ok, Res.ok.injEq] at h
        obtain ⟨_, _, _, _, rfl⟩ := h
        refine ⟨_, ?_, ?_, ?_, hm⟩
        · rfl
        · rfl
        · exact g3.trans (g2.trans g1)
      all_goals cases h

theorem hello_decodes {x x' : Ctx} {ch : ClientHello} {m : Msg} (hv : ch.version = wireVersion x) (hs : ch.sessionId = [])
    (h : mkMsg x (.clientHello ch) = .ok (m, x')) :
    safeUnmarshal (ClientHello.unmarshal (wireVersion x)) m.body = .ok ch := by
  rw [← hv]
  refine C31_client_hello_roundtrip_partial ch m.body ?_ hs (mkMsg_marshal h)
  rw [hv, wireVersion]
  split
  · exact Or.inr rfl
  · exact Or.inl rfl

/-- Without a handler, the steps are those of the model in which there is none. -/
theorem app_none (E : Env) (x : Ctx) (c : Coins) (s : CStart) (w : CWaitSH) (v : CWaitEE) (m : Msg) :
    s.nextApp none E x c = s.next E x c ∧ readHelloApp none x m = readHello x m ∧ w.nextApp none E x m = w.next E x m ∧
      v.nextApp none E x m = v.next E x m := ⟨rfl, rfl, rfl, rfl⟩

/-- Client to server: the ClientHello that is queued is read by a server as one whose extensions are, apart from early_data and
pre_shared_key, those the handler returned, in the same order; this list is what the handler of the server is given, and if
that refuses, the server aborts with internal_error (80). -/
theorem C94_to_server (H G : AppHandler) (E : Env) (x y x' : Ctx) (c : Coins) (s : CStart) (w : CWaitSH) (acts : List Action)
    (h : s.nextApp (some H) E x c = .ok (w, acts, x')) (hy : y.datagram = x.datagram) :
    ∃ (own returned : List Ext) (ch : ClientHello), H.send 1 own = .ok returned ∧ acts.head? = some (.queue w.clientHello) ∧
      safeUnmarshal (ClientHello.unmarshal (if x.datagram then 0xfefd else 0x0303)) w.clientHello.body = .ok ch ∧
      others [41, 42] ch.exts = others [41, 42] returned ∧
      (∀ e, G.receive 1 ch.exts = .err e → readHelloApp (some G) y w.clientHello = .err (.alert 80)) ∧
      (∀ el ch' o, readHelloApp (some G) y w.clientHello = .ok (ch', o) → G.receive 1 ch.exts = .ok el → ch'.exts = el) := by
  have hw : wireVersion y = wireVersion x := by simp [wireVersion, hy]
  have server : ∀ {ch : ClientHello} {m : Msg} {z : Ctx}, mkMsg x (.clientHello ch) = .ok (m, z) → ch.version = wireVersion x →
      safeUnmarshal (ClientHello.unmarshal (wireVersion x)) m.body = .ok ch →
      (∀ e, G.receive 1 ch.exts = .err e → readHelloApp (some G) y m = .err (.alert 80)) ∧
      (∀ el ch' o, readHelloApp (some G) y m = .ok (ch', o) → G.receive 1 ch.exts = .ok el → ch'.exts = el) := by
    intro ch m z hm hv hu
    have ht : m.msgType = typeClientHello := mkMsg_type hm
    constructor
    · intro e he
      have he' : G.receive typeClientHello ch.exts = .err e := he
      simp only [readHelloApp, ht, hw, hu, hv, appReceive, he', orAlert, ne_eq, not_true_eq_false, if_false, Res.bind]
      rfl
    · intro el ch' o hr he
      have he' : G.receive typeClientHello ch.exts = .ok el := he
      simp only [readHelloApp, ht, hw, hu, hv, appReceive, he', orAlert, ne_eq, not_true_eq_false, if_false, Res.bind_ok] at hr
      simp only [Res.bind_eq_ok] at hr
      obtain ⟨found, _, hr⟩ := hr
      split at hr
      · cases hr
      · split at hr
        · simp only [Res.ok.injEq, Prod.mk.injEq] at hr
          rw [← hr.1]
        · cases hr
  unfold CStart.nextApp at h
  simp only [Res.bind_eq_ok] at h
  obtain ⟨shares, _, h⟩ := h
  split at h
  · cases h
  · simp only [Res.bind_eq_ok, orAlert_ok, appSend] at h
    obtain ⟨own, _, returned, hr, h⟩ := h
    split at h
    · simp only [Res.bind_eq_ok, Res.ok.injEq, Prod.mk.injEq] at h
      obtain ⟨o, ho, rfl, rfl, rfl⟩ := h
      obtain ⟨ch, hv, hs, hoth, hm⟩ := offerPsk_others ho
      have hu := hello_decodes hv hs hm
      obtain ⟨s1, s2⟩ := server hm hv hu
      exact ⟨own, returned, ch, hr, rfl, hu, hoth, s1, s2⟩
    · simp only [Res.bind_eq_ok, orAlert_ok, Res.ok.injEq, Prod.mk.injEq] at h
      obtain ⟨⟨m, z⟩, hm, rfl, rfl, rfl⟩ := h
      have hu := hello_decodes rfl rfl hm
      obtain ⟨s1, s2⟩ := server hm rfl hu
      exact ⟨own, returned, _, hr, rfl, hu, rfl, s1, s2⟩

theorem checkHello_same {s : CWaitSH} {m : Msg} {sh sh' : ServerHello} {n : Nat} (hu : ServerHello.unmarshal m.body = .ok (sh, n))
    (hc : checkHello s m = .ok sh') : sh' = sh := by
  unfold checkHello at hc
  split at hc
  · cases hc
  · rw [hu] at hc
    simp only [Machine.orAlert_val, Res.bind_ok] at hc
    split at hc
    · cases hc
    · simp only [Res.bind_eq_ok] at hc
      obtain ⟨_, _, hc⟩ := hc
      split at hc
      · split at hc
        · cases hc
        · split at hc
          · cases hc
          · simp only [Res.ok.injEq] at hc
            exact hc.symm
      all_goals cases hc

/-- ServerHello: the list the server's handler returned is the one in the message, and a client that accepts version and suite
gives it to its handler; if that refuses, the client aborts with internal_error, and if it goes on, it does so with what its
handler made of the list. -/
theorem C94_hello_to_client (H G : AppHandler) (E : Env) (x y x' : Ctx) (c : Coins) (s : SNegotiated) (w : CWaitSH) (m : Msg)
    (h : makeServerHello (some H) x c s = .ok (m, x')) (hr : ∀ r, c.random = some r → r.1 ≠ hrrRandom) :
    ∃ (own returned : List Ext) (sh : ServerHello), H.send 2 own = .ok returned ∧
      ServerHello.unmarshal m.body = .ok (sh, m.body.length) ∧ sh.exts = returned ∧
      (∀ e sh', checkHello w m = .ok sh' → G.receive 2 returned = .err e → w.nextApp (some G) E y m = .err (.alert 80)) ∧
      (∀ r, w.nextApp (some G) E y m = .ok r → ∃ el v z, G.receive 2 returned = .ok el ∧
        handleHello E y w m { sh with exts := el } = .ok (v, z) ∧ r = (.waitEE v, z)) := by
  unfold makeServerHello at h
  split at h
  · cases h
  · rename_i random hrand
    simp only [appSend, Res.bind_eq_ok, orAlert_ok] at h
    obtain ⟨own, _, returned, h2, hm⟩ := h
    obtain ⟨ht, hu⟩ := serverHello_made hm
    refine ⟨own, returned, _, h2, hu, rfl, fun e sh' hc he => ?_, fun r h => ?_⟩
    · have := checkHello_same hu hc
      subst this
      have he' : G.receive typeServerHello returned = .err e := he
      simp only [CWaitSH.nextApp, hc, if_neg (hr _ hrand), appReceive, he', orAlert, Res.bind]
      rfl
    · simp only [CWaitSH.nextApp, Res.bind_eq_ok] at h
      obtain ⟨sh', hc, h⟩ := h
      have := checkHello_same hu hc
      subst this
      simp only [if_neg (hr _ hrand), Res.bind_eq_ok, appReceive, orAlert_ok, Res.ok.injEq] at h
      obtain ⟨el, hel, ⟨v, acts, z⟩, hh, rfl⟩ := h
      exact ⟨el, v, (acts, z), hel, hh, rfl⟩

/-- Server to client: the client's handler is given exactly the list of extensions the server's handler returned for
EncryptedExtensions, and if it refuses, the client aborts with internal_error. -/
theorem C94_to_client (H G : AppHandler) (E : Env) (x y x' : Ctx) (s : SNegotiated) (v : CWaitEE) (m : Msg)
    (h : makeEncryptedExts (some H) x s = .ok (m, x')) :
    ∃ own returned : List Ext, H.send 8 own = .ok returned ∧ safeUnmarshal unmarshalEE m.body = .ok returned ∧
      (∀ e, G.receive 8 returned = .err e → v.nextApp (some G) E y m = .err (.alert 80)) := by
  simp only [makeEncryptedExts, appSend, Res.bind_eq_ok, orAlert_ok] at h
  obtain ⟨own, _, returned, hr, hm⟩ := h
  obtain ⟨ht, hu⟩ := unmarshalEE_made hm
  have hu' : safeUnmarshal unmarshalEE m.body = .ok returned := safeUnmarshal_ok.2 hu
  refine ⟨own, returned, hr, hu', fun e he => ?_⟩
  have he' : G.receive typeEncryptedExtensions returned = .err e := he
  have ht' : m.msgType = typeEncryptedExtensions := ht
  simp only [CWaitEE.nextApp, ht', hu', appReceive, he', orAlert, ne_eq, not_true_eq_false, if_false, Res.bind]
  rfl

/-- What a server reads from a ClientHello does not depend on extensions of other types than those it looks at: neither on
which there are, nor on what is in them, nor on where they stand. -/
theorem C94_server_blind (x : Ctx) (m m' : Msg) (ch ch' : ClientHello) (o : Offer) (h : readHello x m = .ok (ch, o))
    (ht : m'.msgType = m.msgType)
    (hu : safeUnmarshal (ClientHello.unmarshal (if x.datagram then 0xfefd else 0x0303)) m'.body = .ok ch')
    (hv : ch'.version = ch.version) (he : only serverLooksAt ch'.exts = only serverLooksAt ch.exts) :
    readHello x m' = .ok (ch', o) := by
  obtain ⟨h1, _, h3, found, h4, ho, vs, h5, h6⟩ := readHello_ok h
  subst ho
  have hu' : safeUnmarshal (ClientHello.unmarshal (wireVersion x)) m'.body = .ok ch' := hu
  have hp : parseExts ch'.exts offerKinds = .ok found := by
    rw [parseExts_only he (by decide)]
    exact h4
  simp only [readHello, ht, h1, hu', hv, h3, hp, h5, h6, orAlert, ne_eq, not_true_eq_false, if_false, Res.bind_ok, if_true]

theorem no_ids {el : List Ext} {found : List ExtBody} (h : parseExts el offerKinds = .ok found) (hd : dataOf 41 el = []) :
    (offerOf found).ids = [] := by
  have := parsed_findSome (k := .preSharedKey typeClientHello)
    asPsk (by decide) h (by decide) (by intro b hb; cases b <;> simp_all [ExtBody.kind, ExtKind.type, asPsk])
  rcases this with ⟨_, hf⟩ | ⟨d, b, hd', _⟩
  · simp only [offerOf, findPsk]
    rw [hf]
  · rw [show (ExtKind.preSharedKey typeClientHello).type = 41 from rfl, hd] at hd'
    cases hd'

/-- What a server makes of a ClientHello without pre_shared_key is the same, in all that it has negotiated, whatever other extensions
there are: only the message itself, which is in the transcript, differs. -/
theorem C94_server_same (E : Env) (x x' : Ctx) (c : Coins) (s : SStart) (m m' : Msg) (ch ch' : ClientHello) (n : SNegotiated)
    (h : s.next E x c m = .ok (.negotiated n, x')) (ht : m'.msgType = m.msgType)
    (hu : safeUnmarshal (ClientHello.unmarshal (if x.datagram then 0xfefd else 0x0303)) m.body = .ok ch)
    (hu' : safeUnmarshal (ClientHello.unmarshal (if x.datagram then 0xfefd else 0x0303)) m'.body = .ok ch')
    (hsame : ch'.version = ch.version ∧ ch'.sessionId = ch.sessionId ∧ ch'.suites = ch.suites) (hpsk : dataOf 41 ch.exts = [])
    (he : only serverLooksAt ch'.exts = only serverLooksAt ch.exts) :
    s.next E x c m' = .ok (.negotiated { n with clientHello := m' }, x') := by
  obtain ⟨hv, hsid, hsuites⟩ := hsame
  obtain ⟨f, rfl, hcase⟩ := SStart.next_ok h
  obtain ⟨hmt, hbody, _, found, hf, ho, _⟩ := readHello_ok f.hello
  have hch : f.ch = ch := by
    have : safeUnmarshal (ClientHello.unmarshal (wireVersion x)) m.body = .ok ch := hu
    rw [hbody, Res.ok.injEq] at this
    exact this
  have hread := C94_server_blind x m m' f.ch ch' f.o f.hello ht hu' (by rw [hch, hv]) (by rw [hch, he])
  have hids : f.o.ids = [] := by
    rw [ho]
    exact no_ids hf (by rw [hch, hpsk])
  have hpskc : f.pskc = none ∧ f.x1 = x := by
    have := f.psk
    simp only [choosePsk, hids, List.length_nil, Nat.lt_irrefl, if_false, Res.ok.injEq, Prod.mk.injEq] at this
    exact ⟨this.1.symm, this.2.symm⟩
  rcases hcase with ⟨_, hrr, _, hn⟩ | ⟨hsend, n', hn, hfin⟩
  · cases hn
  · simp only [SStartResult.negotiated.injEq] at hn
    subst hn
    have hretry : chooseRetry E x s.cfg c m' ch' f.o (UInt16.ofNat f.suite) = .ok (f.retry, false, f.x2) := by
      have hr := f.retryOk
      rw [hpskc.2, hsend] at hr
      unfold chooseRetry at hr ⊢
      rw [hsid, ← hch]
      split at hr
      · rename_i hreq
        rw [if_pos hreq]
        split at hr
        · rename_i hcl
          rw [if_pos hcl]
          exact hr
        · rename_i hcl
          rw [if_neg hcl]
          simp only [Res.bind_eq_ok] at hr
          obtain ⟨⟨send, app⟩, h1, hr⟩ := hr
          rw [h1, Res.bind_ok]
          cases send with
          | false => exact hr
          | true =>
            simp only [if_true] at hr
            split at hr
            · cases hr
            · simp only [Res.bind_eq_ok] at hr
              obtain ⟨_, _, hr⟩ := hr
              split at hr
              · cases hr
              · simp only [Res.bind_eq_ok, Res.ok.injEq, Prod.mk.injEq] at hr
                obtain ⟨_, _, _, _, _, hr, _⟩ := hr
                cases hr
      · rename_i hreq
        rw [if_neg hreq]
        exact hr
    have hsd : suiteDiffers f.first f.suite = false := by
      cases hfi : f.first with
      | none => rfl
      | some v => simp [suiteDiffers, f.sameSuite v.1 v.2 hfi]
    have hfin' : s.finish E x m' ch' f.o (f.first.map (·.1)) f.dhc none (pskMode f.dhc.isSome false f.o.modes).1
        (pskMode f.dhc.isSome false f.o.modes).2 (UInt16.ofNat f.suite) f.retry = .ok { n with clientHello := m' } := by
      rw [hpskc.1] at hfin
      simp only [Option.isSome_none] at hfin
      unfold SStart.finish at hfin ⊢
      split at hfin
      · cases hfin
      · rename_i hm
        rw [if_neg hm]
        simp only [Res.bind_eq_ok] at hfin
        obtain ⟨cert, h1, early, h2, proto, h3, hfin⟩ := hfin
        have h2' : ∀ sec, serverEarly E x m' (Negotiation.earlyData (pskMode f.dhc.isSome false f.o.modes).2 f.o.earlyData
            s.cfg.allowEarlyData).1 sec none = .ok early := by
          intro sec
          unfold serverEarly at h2 ⊢
          split at h2
          · cases h2
          · rename_i hu
            rw [if_neg hu]
            exact h2
        simp only [h1, Res.bind_ok, h2', h3]
        simp only [Res.ok.injEq] at hfin
        rw [← hfin, hsid, hch]
    have hsidok : ¬ (ch'.sessionId.length ≠ 0 ∧ ch'.sessionId.length ≠ 32) := by
      have := f.sid
      rw [hch] at this
      rw [hsid]
      omega
    have hsuite := f.suiteOk
    rw [hpskc.1, hch, ← hsuites] at hsuite
    have hp' : choosePsk E x s.cfg c.now ch' f.o f.first = .ok (none, x) := by
      simp [choosePsk, hids]
    simp only [SStart.next, hread, Res.bind_ok, f.cookie, if_neg hsidok, f.dh, hp', Option.isSome_none, hsuite, Machine.orAlert_val, hsd,
      Bool.false_eq_true, if_false, hretry, hfin']

/-- What a client takes from a ServerHello does not depend on extensions other than pre_shared_key and key_share (and
supported_versions, which is checked before). -/
theorem C94_client_blind (E : Env) (x : Ctx) (s : CWaitSH) (m m' : Msg) (sh sh' : ServerHello) (v v' : CWaitEE)
    (acts acts' : List Action) (z z' : Ctx) (h : handleHello E x s m sh = .ok (v, acts, z))
    (h' : handleHello E x s m' sh' = .ok (v', acts', z')) (hs : sh'.suite = sh.suite)
    (he : only [41, 51] sh'.exts = only [41, 51] sh.exts) : v'.params = v.params ∧ v'.cfg = v.cfg := by
  have hp := parseExts_only (ks := [.preSharedKey typeServerHello, .keyShare typeServerHello]) he (by decide)
  unfold handleHello at h h'
  rw [hp, hs] at h'
  simp only [Res.bind_eq_ok, orAlert_ok] at h h'
  obtain ⟨found, h1, ⟨dh, secret⟩, h2, h⟩ := h
  obtain ⟨found', h1', ⟨dh', secret'⟩, h2', h'⟩ := h'
  rw [h1, Res.ok.injEq] at h1'
  subst h1'
  rw [h2, Res.ok.injEq, Prod.mk.injEq] at h2'
  obtain ⟨rfl, rfl⟩ := h2'
  split at h
  · cases h
  · rename_i hsp
    simp only [hsp] at h'
    simp only [Res.bind_eq_ok, Res.ok.injEq, Prod.mk.injEq] at h h'
    obtain ⟨_, _, _, _, _, _, rfl, _⟩ := h
    obtain ⟨_, _, _, _, _, _, rfl, _⟩ := h'
    exact ⟨rfl, rfl⟩

/-- What a client takes from EncryptedExtensions does not depend on extensions other than ALPN and early_data: it goes on
in the same way, with the same parameters and keys. -/
theorem C94_client_blind_encrypted (E : Env) (x z : Ctx) (s : CWaitEE) (m m' : Msg) (st : CState) (acts : List Action)
    (el el' : List Ext) (h : s.next E x m = .ok (st, acts, z)) (hm : safeUnmarshal unmarshalEE m.body = .ok el)
    (ht : m'.msgType = m.msgType) (hm' : safeUnmarshal unmarshalEE m'.body = .ok el') (he : only [16, 42] el' = only [16, 42] el) :
    (∃ p t, st = .waitFinished ⟨p, { s.sec with transcript := t }, s.cfg.certificates, none, [], []⟩ ∧
      ∃ t', s.next E x m' = .ok (.waitFinished ⟨p, { s.sec with transcript := t' }, s.cfg.certificates, none, [], []⟩, acts, z)) ∨
    (∃ p t, st = .waitCertCR ⟨s.cfg, p, { s.sec with transcript := t }⟩ ∧
      ∃ t', s.next E x m' = .ok (.waitCertCR ⟨s.cfg, p, { s.sec with transcript := t' }⟩, acts, z)) := by
  have hp := parseExts_only (ks := [.alpn, .earlyData]) he (by decide)
  unfold CWaitEE.next at h
  split at h
  · cases h
  · rename_i hty
    rw [hm] at h
    simp only [Machine.orAlert_val, Res.bind_ok, Res.bind_eq_ok, orAlert_ok] at h
    obtain ⟨found, h1, keys, h2, h⟩ := h
    obtain ⟨r, hn⟩ : ∃ r, s.next E x m' = r := ⟨_, rfl⟩
    rw [hn]
    unfold CWaitEE.next at hn
    rw [ht, if_neg hty, hm', Machine.orAlert_val, Res.bind_ok, hp, h1, Machine.orAlert_val, Res.bind_ok] at hn
    dsimp only [CSecrets.add] at h2 hn
    rw [h2, Res.bind_ok] at hn
    subst hn
    by_cases hpsk : s.params.usingPSK = true
    · simp only [hpsk, if_true, Res.ok.injEq, Prod.mk.injEq] at h ⊢
      obtain ⟨rfl, rfl, rfl⟩ := h
      exact Or.inl ⟨_, _, rfl, _, rfl, rfl, rfl⟩
    · rw [Bool.not_eq_true] at hpsk
      simp only [hpsk, Bool.false_eq_true, if_false, Res.ok.injEq, Prod.mk.injEq] at h ⊢
      obtain ⟨rfl, rfl, rfl⟩ := h
      exact Or.inr ⟨_, _, rfl, _, rfl, rfl, rfl⟩

/-- What is missing: an extension that the handler of a server adds to a HelloRetryRequest makes every client abort, whether it
has no handler or one that accepts the extension. -/
theorem C94_retry_fails (H : AppHandler) (G : Option AppHandler) (e : Ext) (hH : ∀ el, H.send 6 el = .ok (el ++ [e]))
    (hG : ∀ g, G = some g → ∀ el, g.receive 6 el = .ok el) (y y' : Ctx) (suite : UInt16) (sid cookie : Bytes) (m : Msg)
    (hm : makeRetryApp (some H) y suite sid cookie = .ok (m, y')) (E : Env) (x : Ctx) (s : CWaitSH)
    (r : CState × List Action × Ctx) : s.nextApp G E x m ≠ .ok r := by
  intro h
  simp only [makeRetryApp, Res.bind_eq_ok, appSend, orAlert_ok] at hm
  obtain ⟨own, h1, returned, h2, h3⟩ := hm
  have h2' : H.send 6 own = .ok returned := h2
  rw [hH, Res.ok.injEq] at h2'
  obtain ⟨_, hown⟩ := addAll_made h1 (by show ([43, 44] : List UInt16).Nodup; decide)
  have hl : returned.length = 3 := by simp [← h2', hown]
  simp only [CWaitSH.nextApp, Res.bind_eq_ok] at h
  obtain ⟨sh, hc, h⟩ := h
  obtain ⟨_, hu⟩ := serverHello_made h3
  have hsh : sh.exts = returned ∧ sh.random.1 = hrrRandom := by
    rw [checkHello_same hu hc]
    exact ⟨rfl, rfl⟩
  obtain ⟨he, hr⟩ := hsh
  rw [if_pos hr] at h
  simp only [Res.bind_eq_ok] at h
  obtain ⟨el, hel, s', h, _⟩ := h
  have hel' : el = returned := by
    rw [← he]
    unfold appReceive at hel
    split at hel
    · simpa using hel.symm
    · rename_i g
      rw [orAlert_ok] at hel
      have := hG g rfl sh.exts
      have hel2 : g.receive 6 sh.exts = .ok el := hel
      rw [this] at hel2
      simpa using hel2.symm
  subst hel'
  simp only [handleRetry, Res.bind_eq_ok] at h
  obtain ⟨_, _, h⟩ := h
  split at h
  · rw [if_pos (by simp [hl])] at h
    cases h
  · cases h
  · cases h

/-! ### Examples -/

/-- An application whose extension has type 0xfa01: it adds it to every message and insists on it in every message. -/
def toyHandler : AppHandler where
  send _ el := .ok (el ++ [(0xfa01, [1, 2], ())])
  receive _ el := if (dataOf 0xfa01 el).length = 1 then .ok el else .err .msg

/-- A client that offers a PSK, and one that has none, with this handler: the ClientHello is made, the server's handler accepts
it and the server reads the same as without the extension; from a client without the handler the server refuses. -/
example : [Toy.pskClient, Toy.clientCfg].all (fun cfg =>
    match (({ cfg := cfg } : CStart).nextApp (some toyHandler) Toy.env Toy.tls (Toy.coins 2)),
      (({ cfg := cfg } : CStart).nextApp none Toy.env Toy.tls (Toy.coins 2)) with
    | .ok (w, _, _), .ok (w', _, _) =>
      (match readHelloApp (some toyHandler) Toy.tls w.clientHello, readHello Toy.tls w.clientHello, readHello Toy.tls w'.clientHello with
        | .ok (ch, o), .ok (_, o'), .ok (ch', o'') =>
          dataOf 0xfa01 ch.exts == [[1, 2]] && dataOf 0xfa01 ch'.exts == [] && o.ids == o''.ids && o.shares == o'.shares &&
            o.alpn == o''.alpn
        | _, _, _ => false) &&
      (match readHelloApp (some toyHandler) Toy.tls w'.clientHello with
        | .err (.alert a) => a == 80
        | _ => false)
    | _, _ => false) = true := by decide +kernel

/-- A HelloRetryRequest that a client takes without the extension and that makes it abort with it. -/
example : [(none, true), (some toyHandler, false)].all (fun (H, good) =>
    match (({ cfg := Toy.clientCfg } : CStart).nextApp none Toy.env Toy.tls (Toy.coins 2)),
      makeRetryApp H Toy.tls 0x1301 [] [7] with
    | .ok (w, _, _), .ok (m, _) =>
      (match w.nextApp H Toy.env Toy.tls m with
        | .ok _ => good
        | .err (.alert a) => !good && a == 47
        | _ => false)
    | _, _ => false) = true := by decide +kernel

/-- A ServerHello and EncryptedExtensions with and without the extension: the client goes on with the same parameters. -/
example :
    (match (({ cfg := Toy.clientCfg } : CStart).nextApp none Toy.env Toy.tls (Toy.coins 2)) with
    | .ok (w, _, _) =>
      let share : ExtBody := .keyShare typeServerHello 0 [(29, beBytes 32 9, ())]
      let versions : ExtBody := .supportedVersions typeServerHello [tls13Version]
      let own := (match addAll [] [versions, share] with | .ok el => el | _ => [])
      let alpn := (match addAll [] [.alpn [[104, 50]]] with | .ok el => el | _ => [])
      let hello (el : List Ext) : ServerHello := ⟨tls12Version, Toy.random 4, [], 0x1301, 0, el⟩
      let step (f : List Ext → List Ext) : Option ConnParams :=
        match mkMsg Toy.tls (.serverHello (hello (f own))), mkMsg Toy.tls (.encryptedExtensions (f alpn)) with
        | .ok (m, _), .ok (m', _) =>
          (match handleHello Toy.env Toy.tls w m (hello (f own)) with
            | .ok (v, _, _) =>
              (match v.next Toy.env Toy.tls m' with
                | .ok (.waitCertCR u, _, _) => some u.params
                | _ => none)
            | _ => none)
        | _, _ => none
      let strange : Ext := (0xfa01, [1, 2], ())
      (match step id with | some q => q.nextProto == [104, 50] && q.usingDH | none => false) &&
        decide (step id = step (· ++ [strange])) && decide (step id = step (strange :: ·))
    | _ => false) = true := by decide +kernel

/-- Both messages of the server with the extension, from a ClientHello with it: the client's handler accepts them, and the one of
a client that gets them from a server without a handler refuses. -/
example : [(some toyHandler, true), (none, false)].all (fun (H, good) =>
    match (({ cfg := Toy.pskClient } : CStart).nextApp (some toyHandler) Toy.env Toy.tls (Toy.coins 2)) with
    | .ok (w, _, _) =>
      (match SStart.next Toy.env Toy.tls (Toy.coins 4) ⟨Toy.pskServer⟩ w.clientHello with
        | .ok (.negotiated n, x) =>
          (match makeServerHello H x (Toy.coins 4) n, makeServerHello (some toyHandler) x (Toy.coins 4) n, makeEncryptedExts H x n with
            | .ok (m, _), .ok (m1, _), .ok (m', _) =>
              (match w.nextApp (some toyHandler) Toy.env Toy.tls m with
                | .ok (.waitEE v, _, _) => good && v.params.usingPSK
                | .err (.alert a) => !good && a == 80
                | _ => false) &&
              (match w.nextApp (some toyHandler) Toy.env Toy.tls m1 with
                | .ok (.waitEE v, _, _) =>
                  (match v.nextApp (some toyHandler) Toy.env Toy.tls m' with
                    | .ok (.waitFinished u, _, _) => good && u.params.nextProto == [104, 50]
                    | .err (.alert a) => !good && a == 80
                    | _ => false)
                | _ => false)
            | _, _, _ => false)
        | _ => false)
    | _ => false) = true := by decide +kernel

/-- A ClientHello without PSK, with and without the extension: the server negotiates, and chooses a certificate and a group. -/
example :
    (match (({ cfg := Toy.clientCfg } : CStart).nextApp (some toyHandler) Toy.env Toy.tls (Toy.coins 2)),
      (({ cfg := Toy.clientCfg } : CStart).nextApp none Toy.env Toy.tls (Toy.coins 2)) with
    | .ok (w, _, _), .ok (w', _, _) =>
      (match SStart.next Toy.env Toy.tls (Toy.coins 4) ⟨Toy.serverCfg⟩ w.clientHello,
          SStart.next Toy.env Toy.tls (Toy.coins 4) ⟨Toy.serverCfg⟩ w'.clientHello with
        | .ok (.negotiated n, _), .ok (.negotiated n', _) =>
          n.params.usingDH && n.cert.isSome && decide (n.params = n'.params) && decide (n.dhSecret = n'.dhSecret) &&
            !decide (n.clientHello.body = n'.clientHello.body)
        | _, _ => false)
    | _, _ => false) = true := by decide +kernel

end Verif.Props

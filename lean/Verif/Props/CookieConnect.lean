import Verif.Machine.Retry
import Verif.Props.Connect
import Verif.Props.Cookies

/-
C71: a server that asks for a cookie can be reached.
-/

namespace Verif.Toy

open Verif Verif.Crypto Verif.Messages Verif.Negotiation Verif.Handshake Verif.Machine Verif.Spec

/-- A server that wants cookies, with the protector that is installed by default. -/
def cookieServer : Config :=
  { serverCfg with
    requireCookie := true
    requireClientAuth := true
    cookieProtector := some (defaultProtector prims toyAead [1] fun _ => some (List.replicate 32 7)) }

end Verif.Toy

namespace Verif.Props

open Verif Verif.Crypto Verif.Messages Verif.Negotiation Verif.Handshake Verif.Machine Verif.Spec

/-- A client and a server that wants a cookie, without a PSK in common, each of which reads over a stream the messages the
other sends in order and unchanged: neither fails, at most seven messages are delivered to the client and six to the server,
and once all that have been sent are delivered both ends are connected, with the same secrets and parameters, and what each
of them writes is sealed with the keys the other reads with.

Missing are datagrams and PSKs the two ends share, for which it fails, see below. -/
theorem C71_completes_partial {E : Env} (hP : E.P.Sized) {now : Int → Prop} {ccfg scfg : Config} (C : CompatibleCookie E now ccfg scfg)
    {x y : Ctx} (hx : x.datagram = false) (hy : y.datagram = false) {c0 : Coins} (h0 : GoodCoins now c0) {es fs : List (Event × Coins)}
    (h : Delivery E x y ccfg scfg c0 now es fs) (hg : ∀ e ∈ fs, GivesCookie scfg e.2) :
    ∃ c cacts x' s sacts y', clientRun E x ccfg c0 es = .ok (c, cacts, x') ∧ serverRun E y scfg fs = .ok (s, sacts, y') ∧
      es.length ≤ (sent sacts).length ∧ fs.length ≤ (sent cacts).length ∧ (sent sacts).length ≤ 7 ∧ (sent cacts).length ≤ 6 ∧
      (es.length = (sent sacts).length → fs.length = (sent cacts).length → ∃ cc sc, c = .connected cc ∧ s = .connected sc ∧
        SameConnection cc sc ∧ (∃ k, lastIn cacts = some k ∧ lastOut sacts = some k) ∧
        ∃ k, lastOut cacts = some k ∧ lastIn sacts = some k) := by
  obtain ⟨w, acts0, x0, hw, hx0, hs0⟩ := client_hello hP C.compatible x h0
  obtain ⟨c, cacts, x', s, sacts, y', hc, hs, h1, h2, h3, h4, h5⟩ := CookieStage.ends hP h0 (h.cookieStage hP C hw hs0 hx hy h0 hg)
  have hlen : (sent (acts0 ++ cacts)).length = 1 + (sent cacts).length := by
    rw [sent_append, hs0, List.length_append]; rfl
  have hc' : clientRun E x ccfg c0 es = .ok (c, acts0 ++ cacts, x') := by
    simp only [clientRun, hw, hc, Res.bind_ok]
  refine ⟨c, _, x', s, sacts, y', hc', hs, h1, by rw [hlen]; exact h2, h3, by rw [hlen]; omega, ?_⟩
  intro h6 h7
  rw [hlen] at h7
  obtain ⟨cc, sc, h8, h9, h10, ⟨k, h11, h12⟩, ⟨k', h13, h14⟩⟩ := h5 h6 h7
  exact ⟨cc, sc, h8, h9, h10, ⟨k, lastIn_append_some _ h11, h12⟩, ⟨k', lastOut_append_some _ h13, h14⟩⟩

/-- Whatever has been delivered so far, delivering the rest, in whatever order, leads to a connection. -/
theorem C71_reaches_partial {E : Env} (hP : E.P.Sized) {now : Int → Prop} {ccfg scfg : Config} (C : CompatibleCookie E now ccfg scfg)
    {x y : Ctx} (hx : x.datagram = false) (hy : y.datagram = false) {c0 : Coins} (h0 : GoodCoins now c0) {k : Coins}
    (hk : GoodCoins now k) (hkg : GivesCookie scfg k) {es fs : List (Event × Coins)}
    (h : Delivery E x y ccfg scfg c0 now es fs) (hg : ∀ e ∈ fs, GivesCookie scfg e.2) :
    ∃ es' fs' cc cacts x' sc sacts y', Delivery E x y ccfg scfg c0 now (es ++ es') (fs ++ fs') ∧
      clientRun E x ccfg c0 (es ++ es') = .ok (.connected cc, cacts, x') ∧
      serverRun E y scfg (fs ++ fs') = .ok (.connected sc, sacts, y') ∧ SameConnection cc sc := by
  generalize hn : 13 - (es.length + fs.length) = n
  induction n using Nat.strongRecOn generalizing es fs with
  | ind n ih =>
    obtain ⟨c, cacts, x', s, sacts, y', hc, hs, h1, h2, h3, h4, h5⟩ := C71_completes_partial hP C hx hy h0 h hg
    by_cases h6 : es.length = (sent sacts).length
    · by_cases h7 : fs.length = (sent cacts).length
      · obtain ⟨cc, sc, rfl, rfl, h8, _⟩ := h5 h6 h7
        exact ⟨[], [], cc, cacts, x', sc, sacts, y', by simpa using h, by simpa using hc, by simpa using hs, h8⟩
      · have hlt : fs.length < (sent cacts).length := by omega
        have h' := Delivery.toServer k c cacts x' _ h hc (List.getElem?_eq_getElem hlt) hk
        obtain ⟨es', fs', cc, cacts, x', sc, sacts, y', g1, g2, g3, g4⟩ := ih _ (by simp; omega) h' (by
          intro e he
          rcases List.mem_append.1 he with he | he
          · exact hg e he
          · rw [List.mem_singleton.1 he]; exact hkg) rfl
        exact ⟨es', _, cc, cacts, x', sc, sacts, y', by rw [List.append_assoc] at g1; exact g1, g2,
          by rw [List.append_assoc] at g3; exact g3, g4⟩
    · have hlt : es.length < (sent sacts).length := by omega
      have h' := Delivery.toClient k s sacts y' _ h hs (List.getElem?_eq_getElem hlt) hk
      obtain ⟨es', fs', cc, cacts, x', sc, sacts, y', g1, g2, g3, g4⟩ := ih _ (by simp; omega) h' hg rfl
      exact ⟨_, fs', cc, cacts, x', sc, sacts, y', by rw [List.append_assoc] at g1; exact g1,
        by rw [List.append_assoc] at g2; exact g2, g3, g4⟩

/-- The protector that is installed if none is configured does its job. -/
theorem C71_default_protector (P : Prims) (hP : P.Sized) (A : CookieAead) (hA : A.Correct)
    (hlen : ∀ k n d, (A.enc k n d).length = d.length + 16) (secret : Bytes) (rand : Nat → Option Bytes)
    (hr : ∀ n, ∃ r, rand n = some r ∧ r.length = 32) : ProtectorWorks (defaultProtector P A secret rand) := by
  intro n state hs
  obtain ⟨r, hr, hl⟩ := hr n
  obtain ⟨tok, h1, h2⟩ := C36_roundtrip P hP A hA secret r state hl
  refine ⟨tok, by simp only [defaultProtector, hr, h1], ?_, ?_, h2⟩
  all_goals
    simp only [newToken, Res.bind_eq_ok, Res.ok.injEq] at h1
    obtain ⟨⟨k, n⟩, _, rfl⟩ := h1
    simp only [List.length_append, hlen, hl]
    omega

end Verif.Props

namespace Verif.Toy

open Verif Verif.Crypto Verif.Messages Verif.Negotiation Verif.Handshake Verif.Machine Verif.Spec

theorem toyProtector_works : ProtectorWorks (defaultProtector prims toyAead [1] fun _ => some (List.replicate 32 7)) := by
  intro n state hs
  obtain ⟨k, m, hk, h1, h2⟩ := cookieKey_eq prims prims_sized [1] (List.replicate 32 7)
  obtain ⟨tok, h3, h4⟩ := C36_roundtrip prims prims_sized _ toyAead_correct [1] (List.replicate 32 7) state (by simp)
  refine ⟨tok, h3, ?_, ?_, h4⟩
  all_goals
    simp only [newToken, hk, Res.bind_ok, Res.ok.injEq] at h3
    subst h3
    simp only [toyAead, List.length_append, List.length_replicate, h1, h2]
    omega

theorem compatible_cookie : CompatibleCookie env noon clientCfg cookieServer where
  fits := clientCfg_fits
  dh := compatible.dh
  required := rfl
  protector := ⟨_, rfl, toyProtector_works⟩
  method := by
    rcases compatible.method with ⟨k, k', S⟩ | U
    · have := S.client; cases this
    · exact { U with }

end Verif.Toy

namespace Verif.Props

open Verif Verif.Crypto Verif.Messages Verif.Negotiation Verif.Handshake Verif.Machine Verif.Spec

/-- The hypotheses hold of an exchange with certificates on both sides, in which nothing remains to be delivered. -/
example : Toy.env.P.Sized ∧ CompatibleCookie Toy.env Toy.noon Toy.clientCfg Toy.cookieServer ∧ GoodCoins Toy.noon (Toy.coins 2) ∧
    let r := Toy.play Toy.tls Toy.clientCfg Toy.cookieServer 14
    Delivery Toy.env Toy.tls Toy.tls Toy.clientCfg Toy.cookieServer (Toy.coins 2) Toy.noon r.1 r.2 ∧
    (∀ e ∈ r.2, GivesCookie Toy.cookieServer e.2) ∧ r.1.length = 7 ∧ r.2.length = 5 :=
  ⟨Toy.prims_sized, Toy.compatible_cookie, Toy.coins_good (by decide), Toy.play_delivery .., fun _ _ _ h => (by cases h),
    by decide +kernel, by decide +kernel⟩

/-- An application that makes cookies of its own. -/
example : GivesCookie { Toy.cookieServer with cookieHandler := some fun a => a == [5] } { Toy.coins 2 with appCookie := .ok (some [5]) } :=
  fun f h => ⟨[5], rfl, by decide, by cases h; rfl⟩

/-! ### What does not work -/

/-- Over datagrams the same client does not reach the same server: the two ends number the HelloRetryRequest differently in
their transcripts, and the client does not accept the server's signature. -/
theorem C71_datagram_fails :
    let r := Toy.play Toy.dtls Toy.clientCfg Toy.cookieServer 8
    CompatibleCookie Toy.env Toy.noon Toy.clientCfg Toy.cookieServer ∧
    Delivery Toy.env Toy.dtls Toy.dtls Toy.clientCfg Toy.cookieServer (Toy.coins 2) Toy.noon r.1 r.2 ∧
    (∀ e ∈ r.2, GivesCookie Toy.cookieServer e.2) ∧
    clientRun Toy.env Toy.dtls Toy.clientCfg (Toy.coins 2) r.1 = .err (.alert Alert.handshakeFailure) :=
  ⟨Toy.compatible_cookie, Toy.play_delivery .., fun _ _ _ h => (by cases h), Toy.failsWith_ok (by decide +kernel)⟩

/-- A client that shares a PSK with such a server does not reach it: `C42_psk_with_cookie_fails`. It would without the
PSK, and without the cookie. -/
theorem C71_shared_psk_fails :
    let scfg := { Toy.pskServer with requireCookie := true, cookieProtector := Toy.cookieServer.cookieProtector }
    let r := Toy.play Toy.tls Toy.pskClient scfg 3
    Compatible Toy.env Toy.noon Toy.pskClient { scfg with requireCookie := false } ∧
    CompatibleCookie Toy.env Toy.noon { Toy.pskClient with psks := fun _ => none } scfg ∧
    Delivery Toy.env Toy.tls Toy.tls Toy.pskClient scfg (Toy.coins 2) Toy.noon r.1 r.2 ∧
    serverRun Toy.env Toy.tls scfg r.2 = .err (.alert Alert.internalError) := by
  refine ⟨{ Toy.compatible_psk with method := ?_ }, ?_, Toy.play_delivery .., Toy.failsWith_ok (by decide +kernel)⟩
  · rcases Toy.compatible_psk.method with ⟨k, k', S⟩ | U
    · exact Or.inl ⟨k, k', { S with }⟩
    · exact Or.inr { U with }
  · exact
      { fits := { Toy.compatible_psk.fits with psk := fun k hk => by cases hk }
        dh := Toy.compatible_psk.dh
        required := rfl
        protector := ⟨_, rfl, Toy.toyProtector_works⟩
        method :=
          { noPsk := trivial
            group := ⟨29, by decide, by decide⟩
            suite := ⟨0x1301, by decide, by decide⟩
            known := by decide
            chains := by decide
            certificate := ⟨Toy.cert 1, by decide, by decide, 0x0804, by decide, by decide⟩
            usable := fun c hc _ => by
              obtain rfl := List.mem_singleton.1 hc
              exact Toy.cert_usable 1
            verified := fun c hc _ => Or.inr fun t _ => by
              obtain rfl := List.mem_singleton.1 hc
              exact ⟨[[[9, 1]]], rfl⟩
            accepted := fun f hf => by cases hf
            clientAuth := fun h => by cases h } }

end Verif.Props

import Verif.Machine.Refused
import Verif.Machine.Toy

/-
C40: the messages each side accepts form a word of the handshake language; anything else is answered with an alert.

The language is `ClientWord`, `ServerWord` of `Spec/Handshake.lean`. RFC 8446 allows one HelloRetryRequest: there the bound
of these languages is 1. The code does not bound it, on either side, which is why the theorems about words are `_partial`.
-/

namespace Verif.Props

open Verif Verif.Crypto Verif.Messages Verif.Negotiation Verif.Handshake Verif.Machine Verif.Spec

/-! ### Client -/

/-- What a connected client has read is a complete handshake, but for the number of HelloRetryRequests, followed by session
tickets, key updates and data. -/
theorem C40_client_complete_partial (E : Env) (x : Ctx) (cfg : Config) (c : Coins) (es : List (Event × Coins))
    (s : Connected) (acts : List Action) (x' : Ctx) (h : clientRun E x cfg c es = .ok (.connected s, acts, x')) :
    ∃ n, ClientWord n (word es) := clientAt h

/-- What a client has read without error is always the start of a handshake, but for the number of HelloRetryRequests. -/
theorem C40_client_prefix_partial (E : Env) (x : Ctx) (cfg : Config) (c : Coins) (es : List (Event × Coins))
    (s : CState) (acts : List Action) (x' : Ctx) (h : clientRun E x cfg c es = .ok (s, acts, x')) :
    ∃ n, Starts (ClientWord n) (word es) := clientAt_starts (clientAt h)

/-- A client answers anything with which no handshake can go on with an alert. -/
theorem C40_client_reject (E : Env) (x : Ctx) (cfg : Config) (c ce : Coins) (es : List (Event × Coins)) (e : Event)
    (s : CState) (acts : List Action) (x' : Ctx) (h : clientRun E x cfg c es = .ok (s, acts, x'))
    (he : ¬ ∃ n, Starts (ClientWord n) (word (es ++ [(e, ce)]))) :
    ∃ a, clientRun E x cfg c (es ++ [(e, ce)]) = .err (.alert a) := by
  have hat := clientAt h
  have hs : ∀ st, s ≠ .start st := by rintro st rfl; exact hat
  rw [word_snoc] at he
  obtain ⟨a, ha⟩ := client_unexpected (E := E) (x := x') (c := ce) (e := e) hs fun hexp => he (clientExpects_starts hat hexp)
  refine ⟨a, ?_⟩
  simp only [clientRun, Res.bind_eq_ok] at h ⊢
  obtain ⟨⟨w, a0, x0⟩, h0, ⟨s1, a1, x1⟩, h1, h2⟩ := h
  simp only [Res.ok.injEq, Prod.mk.injEq] at h2
  obtain ⟨rfl, rfl, rfl⟩ := h2
  simp only [h0, Res.bind_ok]
  simp [CState.run_append, h1, CState.run, ha]

/-- A client accepts a handshake with two HelloRetryRequests. -/
theorem C40_client_complete_fails : ∃ E x cfg c es s acts x', clientRun E x cfg c es = .ok (.connected s, acts, x') ∧
    ¬ ClientWord 1 (word es) := by
  obtain ⟨s, acts, x', h⟩ := Toy.clientDone_ok (r := clientRun Toy.env Toy.tls Toy.clientCfg (Toy.coins 2) Toy.twoRetries)
    (by decide +kernel)
  refine ⟨_, _, _, _, _, s, acts, x', h, ?_⟩
  rw [show word Toy.twoRetries = [.helloRetryRequest, .helloRetryRequest, .serverHello false, .encryptedExtensions,
    .certificate false, .certificateVerify, .finished] by decide +kernel]
  rintro ⟨r, psk, auth, post, hr, _, _, hw⟩
  match r, hr with
  | 0, _ => simp at hw
  | 1, _ => simp at hw

/-- Complete handshakes of a client: with a certificate and a client certificate, with a PSK and early data, and with a retry. -/
example : ∃ s acts x', Toy.clientEnd Toy.tls Toy.clientCfg { Toy.serverCfg with requireClientAuth := true } 2 =
    .ok (.connected s, acts, x') := Toy.clientDone_ok (by decide +kernel)
example : ∃ s acts x', Toy.clientEnd Toy.tls Toy.pskClient Toy.pskServer 2 = .ok (.connected s, acts, x') :=
  Toy.clientDone_ok (by decide +kernel)
example : ∃ s acts x', Toy.clientEnd Toy.tls Toy.clientCfg { Toy.serverCfg with requireCookie := true } 3 =
    .ok (.connected s, acts, x') := Toy.clientDone_ok (by decide +kernel)

/-- No handshake begins with Finished. -/
example (ce : Coins) (m : Msg) (hm : m.msgType = 20) : ¬ ∃ n, Starts (ClientWord n) (word ([] ++ [(.msg m, ce)])) := by
  rintro ⟨n, v, r, psk, auth, post, _, _, _, hw⟩
  rw [word_snoc, letter_msg, letter_finished hm] at hw
  cases r <;> simp [word, List.replicate_succ] at hw

/-! ### Server -/

/-- What a connected server has read is a complete handshake, but for the number of HelloRetryRequests, followed by key
updates and data. Early data and EndOfEarlyData are read if and only if the server accepted early data in what it sent,
and the client's certificate if and only if the server asked for it. -/
theorem C40_server_complete_partial (E : Env) (x : Ctx) (cfg : Config) (es : List (Event × Coins))
    (s : Connected) (acts : List Action) (x' : Ctx) (h : serverRun E x cfg es = .ok (.connected s, acts, x')) :
    ∃ n, ServerWord n (acceptsEarlyData (sent acts)) (asksCertificate (sent acts)) (word es) := (serverAt h).2

/-- What a server has read without error is always the start of a handshake, but for the number of HelloRetryRequests. -/
theorem C40_server_prefix_partial (E : Env) (x : Ctx) (cfg : Config) (es : List (Event × Coins))
    (s : SState) (acts : List Action) (x' : Ctx) (h : serverRun E x cfg es = .ok (s, acts, x')) :
    ServerStarts (sent acts) (word es) := serverAt_starts (serverAt h)

/-- A server answers anything with which no handshake can go on with an alert, provided that no hello it read offered early
data; if one did it may instead go on for ever without reading anything. -/
theorem C40_server_reject_partial (E : Env) (x : Ctx) (cfg : Config) (ce : Coins) (es : List (Event × Coins)) (e : Event)
    (s : SState) (acts : List Action) (x' : Ctx) (h : serverRun E x cfg es = .ok (s, acts, x'))
    (he : ¬ ServerStarts (sent acts) (word (es ++ [(e, ce)]))) :
    (∃ a, serverRun E x cfg (es ++ [(e, ce)]) = .err (.alert a)) ∨
    (serverRun E x cfg (es ++ [(e, ce)]) = .diverge ∧ ∃ m ∈ received es, offersEarlyData x.datagram m = true) := by
  have hat := serverAt h
  rw [word_snoc] at he
  by_cases hp : s = .readPast
  · subst hp
    have hne : e ≠ .bad := by
      rintro rfl
      exact he (serverExpects_starts hat (l := .garbage) rfl)
    refine Or.inr ⟨?_, readPast_offered h⟩
    have hst : SState.step E x' ce .readPast e = .diverge := by cases e <;> first | rfl | exact absurd rfl hne
    simp only [serverRun] at h ⊢
    simp [SState.run_append, h, SState.run, hst]
  · obtain ⟨a, ha⟩ := server_unexpected (E := E) (x := x') (c := ce) (e := e) hat hp
      fun hexp => he (serverExpects_starts hat hexp)
    refine Or.inl ⟨a, ?_⟩
    simp only [serverRun] at h ⊢
    simp [SState.run_append, h, SState.run, ha]

/-- In particular: an alert, if no hello offered early data. -/
theorem C40_server_reject_no_early_data (E : Env) (x : Ctx) (cfg : Config) (ce : Coins) (es : List (Event × Coins)) (e : Event)
    (s : SState) (acts : List Action) (x' : Ctx) (h : serverRun E x cfg es = .ok (s, acts, x'))
    (hno : ∀ m ∈ received es, offersEarlyData x.datagram m = false)
    (he : ¬ ServerStarts (sent acts) (word (es ++ [(e, ce)]))) :
    ∃ a, serverRun E x cfg (es ++ [(e, ce)]) = .err (.alert a) := by
  rcases C40_server_reject_partial E x cfg ce es e s acts x' h he with h1 | ⟨_, m, hm, ho⟩
  · exact h1
  · rw [hno m hm] at ho; cases ho

/-- A server that refused early data does not answer EncryptedExtensions read in place of the client's Finished with an alert: it
goes on for ever. -/
theorem C40_server_reject_fails : ∃ E x cfg ce es e s acts x', serverRun E x cfg es = .ok (s, acts, x') ∧
    ¬ ServerStarts (sent acts) (word (es ++ [(e, ce)])) ∧
    ¬ ∃ a, serverRun E x cfg (es ++ [(e, ce)]) = .err (.alert a) := by
  let cfg := { Toy.pskServer with allowEarlyData := false }
  let es := (Toy.exchange Toy.tls Toy.pskClient cfg 1).2
  let e : Event := .msg ⟨8, 0, [], 0, 0⟩
  have h1 : (match serverRun Toy.env Toy.tls cfg es with
      | .ok (_, acts, _) => ((Spec.sent acts).any fun m => m.msgType == 8) && !acceptsEarlyData (Spec.sent acts) &&
          !asksCertificate (Spec.sent acts)
      | _ => false) = true := by decide +kernel
  have h2 : (match serverRun Toy.env Toy.tls cfg (es ++ [(e, Toy.coins 6)]) with
      | .err _ => false
      | _ => true) = true := by decide +kernel
  have h3 : word (es ++ [(e, Toy.coins 6)]) = [.clientHello, .encryptedExtensions] := by decide +kernel
  cases h : serverRun Toy.env Toy.tls cfg es with
  | ok v =>
    obtain ⟨s, acts, x'⟩ := v
    rw [h] at h1
    simp only [Bool.and_eq_true, Bool.not_eq_true'] at h1
    obtain ⟨⟨h4, h5⟩, h6⟩ := h1
    refine ⟨_, _, _, Toy.coins 6, es, e, s, acts, x', h, ?_, ?_⟩
    · rw [h3]
      rintro ⟨n, b1, b2, hb, v, r, early, auth, post, _, he, ha, _, hw⟩
      obtain ⟨rfl, rfl⟩ := hb h4
      rw [h5] at he
      rw [h6] at ha
      rcases he with ⟨he, _⟩ | ⟨_, k, rfl⟩
      · cases he
      rcases ha with ⟨_, rfl⟩ | ⟨ha, _⟩
      · match r, k with
        | 0, 0 => simp at hw
        | 0, _ + 1 => simp [List.replicate_succ] at hw
        | 1, _ => simp at hw
        | _ + 2, _ => simp [List.replicate_succ] at hw
      · cases ha
    · rintro ⟨a, ha⟩
      rw [ha] at h2
      cases h2
  | err _ => rw [h] at h1; cases h1
  | panic => rw [h] at h1; cases h1
  | diverge => rw [h] at h1; cases h1

/-- A server accepts a handshake in which it sent two HelloRetryRequests. -/
theorem C40_server_complete_fails : ∃ E x cfg es s acts x', serverRun E x cfg es = .ok (.connected s, acts, x') ∧
    ¬ ∃ accepted asked, ServerWord 1 accepted asked (word es) := by
  obtain ⟨s, acts, x', h⟩ := Toy.serverDone_ok
    (r := serverRun Toy.env Toy.tls { Toy.serverCfg with requireCookie := true } Toy.twoHellos) (by decide +kernel)
  refine ⟨_, _, _, _, s, acts, x', h, ?_⟩
  rw [show word Toy.twoHellos = [.clientHello, .clientHello, .clientHello, .finished] by decide +kernel]
  rintro ⟨b1, b2, r, early, auth, post, hr, he, ha, _, hw⟩
  match r, hr with
  | 0, _ =>
    rcases he with ⟨_, k, rfl⟩ | ⟨_, k, rfl⟩ <;> rcases ha with ⟨_, rfl⟩ | ⟨_, rfl | rfl⟩ <;> cases k <;>
      simp [List.replicate_succ] at hw
  | 1, _ =>
    rcases he with ⟨_, k, rfl⟩ | ⟨_, k, rfl⟩ <;> rcases ha with ⟨_, rfl⟩ | ⟨_, rfl | rfl⟩ <;> cases k <;>
      simp [List.replicate_succ] at hw

/-- Complete handshakes of a server: with a client certificate, with early data, and with a retry. -/
example : ∃ s acts x', Toy.serverEnd Toy.tls Toy.clientCfg { Toy.serverCfg with requireClientAuth := true } 2 =
    .ok (.connected s, acts, x') := Toy.serverDone_ok (by decide +kernel)
example : ∃ s acts x', Toy.serverEnd Toy.tls Toy.pskClient Toy.pskServer 2 = .ok (.connected s, acts, x') :=
  Toy.serverDone_ok (by decide +kernel)
example : ∃ s acts x', Toy.serverEnd Toy.tls Toy.clientCfg { Toy.serverCfg with requireCookie := true } 3 =
    .ok (.connected s, acts, x') := Toy.serverDone_ok (by decide +kernel)

/-- No server reads Finished first, and none of the hellos read so far offered early data. -/
example (ce : Coins) (m : Msg) (hm : m.msgType = 20) : ¬ ServerStarts (sent []) (word ([] ++ [(.msg m, ce)])) ∧
    ∀ m ∈ received [], offersEarlyData false m = false := by
  refine ⟨?_, by simp [received]⟩
  rintro ⟨n, b1, b2, hb, v, r, early, auth, post, _, _, _, _, hw⟩
  rw [word_snoc, letter_msg, letter_finished hm] at hw
  cases r <;> simp [word, List.replicate_succ] at hw

end Verif.Props

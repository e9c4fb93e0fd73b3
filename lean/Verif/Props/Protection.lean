import Verif.Machine.ProtectServer
import Verif.Machine.Toy

/-
C60: which keys protect which handshake message.
-/

namespace Verif.Toy

open Verif Verif.Crypto Verif.Messages Verif.Handshake Verif.Machine Verif.Spec

def clientActs (f : List Action → Bool) : Res (CState × List Action × Ctx) → Bool
  | .ok (.connected _, acts, _) => f acts
  | _ => false

theorem clientActs_ok {f : List Action → Bool} {r : Res (CState × List Action × Ctx)} (h : clientActs f r = true) :
    ∃ s acts x, r = .ok (.connected s, acts, x) ∧ f acts = true := by
  unfold clientActs at h
  split at h
  · exact ⟨_, _, _, rfl, h⟩
  · cases h

/-- Two messages with the same keys and the same number. -/
def repeated (l : List (Option Keys × Nat × Msg)) : Bool :=
  l.any fun a => l.any fun b => a.1.isSome && decide (a.1 = b.1) && decide (a.2.1 = b.2.1) && decide (a.2.2 ≠ b.2.2)

end Verif.Toy

namespace Verif.Props

open Verif Verif.Crypto Verif.Messages Verif.Negotiation Verif.Handshake Verif.Machine Verif.Spec

/-- A client sends nothing in the clear but ClientHellos, whatever it has read. -/
theorem C60_client_clear (E : Env) (hP : E.P.Sized) (x x' : Ctx) (cfg : Config) (c : Coins) (es : List (Event × Coins))
    (s : CState) (acts : List Action) (h : clientRun E x cfg c es = .ok (s, acts, x')) (m : Msg)
    (hm : (none, m) ∈ sealedWith none acts) : m.msgType = 1 :=
  client_clear hP h m hm

/-- A server sends nothing in the clear but ServerHellos (and HelloRetryRequests), whatever it has read. -/
theorem C60_server_clear (E : Env) (hP : E.P.Sized) (x x' : Ctx) (cfg : Config) (es : List (Event × Coins))
    (s : SState) (acts : List Action) (h : serverRun E x cfg es = .ok (s, acts, x')) (m : Msg)
    (hm : (none, m) ∈ sealedWith none acts) : m.msgType = 2 :=
  server_clear hP h m hm

/-- A client that completes the handshake sent each message under the keys RFC 8446 names, and at each moment read under the
keys it names. Not covered: a client to which early data is granted that it did not offer, see `C60_client_sends_fails`. -/
theorem C60_client_partial (E : Env) (hP : E.P.Sized) (x x' : Ctx) (cfg : Config) (c : Coins) (es : List (Event × Coins))
    (s : Connected) (acts : List Action) (h : clientRun E x cfg c es = .ok (.connected s, acts, x')) :
    ∃ V : ClientView E x.datagram cfg es acts s,
      ((hasExt 42 V.ee = true → hasExt 42 V.ch.exts = true) → sealedWith none acts = V.sealedByRfc) ∧
      ∀ es1 es2, es = es1 ++ es2 → ∃ s1 acts1 x1 acts2, clientRun E x cfg c es1 = .ok (s1, acts1, x1) ∧
        acts = acts1 ++ acts2 ∧ lastIn acts1 = V.readsByRfc (received es1) := by
  obtain ⟨a, V, hV⟩ := clientViewAt hP h
  refine ⟨V, fun he => ?_, fun es1 es2 hes => client_reads hP h a V hV hes⟩
  rw [client_sealed hP a V hV, ClientView.sealedByRfc]
  rcases V.eoedOk with ⟨e1, e2⟩ | ⟨e1, m, e2, _, _⟩
  · rw [e2]; simp [under]
  · rw [he e1, if_pos rfl]

/-- A server that completes the handshake sent each message under the keys RFC 8446 names, and at each moment read under the
keys it names. -/
theorem C60_server (E : Env) (hP : E.P.Sized) (x x' : Ctx) (cfg : Config) (es : List (Event × Coins))
    (s : Connected) (acts : List Action) (h : serverRun E x cfg es = .ok (.connected s, acts, x')) :
    ∃ V : ServerView E x.datagram cfg es acts s, sealedWith none acts = V.sealedByRfc ∧
      ∀ es1 es2, es = es1 ++ es2 → ∃ s1 acts1 x1 acts2, serverRun E x cfg es1 = .ok (s1, acts1, x1) ∧
        acts = acts1 ++ acts2 ∧ lastIn acts1 = V.readsByRfc (received es1) := by
  obtain ⟨a, V, hV⟩ := serverViewAt hP h
  exact ⟨V, server_sealed hP h a V hV, fun es1 es2 hes => server_reads hP h a V hV hes⟩

/-- A client to which early data is granted that it did not offer sends EndOfEarlyData under its handshake keys, installs
the same keys anew, and so seals two different messages with the same keys and the same number. -/
theorem C60_client_sends_fails : ∃ (E : Env) (x : Ctx) (cfg : Config) (c : Coins) (es : List (Event × Coins)) (s : Connected)
    (acts : List Action) (x' : Ctx) (k : Keys) (n : Nat) (m1 m2 : Msg), E.P.Sized ∧
    clientRun E x cfg c es = .ok (.connected s, acts, x') ∧ (some k, n, m1) ∈ numberedWith none 0 acts ∧
    (some k, n, m2) ∈ numberedWith none 0 acts ∧ m1 ≠ m2 := by
  obtain ⟨s, acts, x', h, hs⟩ := Toy.clientActs_ok (f := fun acts => Toy.repeated (numberedWith none 0 acts))
    (r := clientRun Toy.env Toy.tls Toy.strictCfg (Toy.coins 2)
      (Toy.forged (Toy.lastHello Toy.tls Toy.strictCfg []) .sha256 0x1301 [] [(42, [], ())])) (by decide +kernel)
  simp only [Toy.repeated, List.any_eq_true, Bool.and_eq_true, decide_eq_true_eq] at hs
  obtain ⟨⟨ka, na, ma⟩, ha, ⟨kb, nb, mb⟩, hb, ⟨⟨h1, h2⟩, h3⟩, h4⟩ := hs
  obtain ⟨k, rfl⟩ := Option.isSome_iff_exists.1 h1
  dsimp only at h2 h3 h4
  subst h2 h3
  exact ⟨_, _, _, _, _, s, acts, x', k, na, ma, mb, Toy.prims_sized, h, ha, hb, h4⟩

/-- Ends that complete, with a PSK and early data, and with a certificate after a retry. -/
example : ∃ s acts x', clientRun Toy.env Toy.tls Toy.pskClient (Toy.coins 2) (Toy.exchange Toy.tls Toy.pskClient Toy.pskServer 2).1 =
    .ok (.connected s, acts, x') ∧ Toy.repeated (numberedWith none 0 acts) = false := by
  obtain ⟨s, acts, x', h, hs⟩ := Toy.clientActs_ok (f := fun acts => !Toy.repeated (numberedWith none 0 acts))
    (r := clientRun Toy.env Toy.tls Toy.pskClient (Toy.coins 2) (Toy.exchange Toy.tls Toy.pskClient Toy.pskServer 2).1)
    (by decide +kernel)
  exact ⟨s, acts, x', h, by simpa using hs⟩
example : ∃ s acts x', serverRun Toy.env Toy.tls Toy.pskServer (Toy.exchange Toy.tls Toy.pskClient Toy.pskServer 2).2 =
    .ok (.connected s, acts, x') ∧ s.params.usingEarlyData = true :=
  Toy.serverHas_ok (f := fun s => s.params.usingEarlyData) (by decide +kernel)
example : ∃ s acts x', serverRun Toy.env Toy.tls { Toy.serverCfg with requireCookie := true }
    (Toy.exchange Toy.tls Toy.clientCfg { Toy.serverCfg with requireCookie := true } 3).2 = .ok (.connected s, acts, x') ∧
    s.params.usingPSK = false :=
  Toy.serverHas_ok (f := fun s => !s.params.usingPSK) (by decide +kernel) |>.imp fun _ ⟨a, x, h, h2⟩ => ⟨a, x, h, by simpa using h2⟩

end Verif.Props

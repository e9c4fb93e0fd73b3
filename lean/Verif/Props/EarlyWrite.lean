import Verif.Conn.EarlyWrite
import Verif.Props.Failed

/-
C84: what Write does before the handshake is complete.
-/

namespace Verif.Props

open Verif Verif.Crypto Verif.Messages Verif.Negotiation Verif.Handshake Verif.Machine Verif.Conn Verif.Spec

/-- Whatever was called before and whatever failed: until the handshake is complete, Write fails without writing, but for a
client that is configured for early data, has a PSK for the server's name, has sent a ClientHello that offers early data, has
not been asked to send another one, and has not been refused by EncryptedExtensions. -/
theorem C84_write (E : Env) (cfg : Config) (isClient nb st : Bool) (tl el : UInt32) (d : Bool) (ks : List HCall)
    (h : ((HConn.new cfg isClient nb st tl el d).calls E ks).complete = false) (live : HConn → Res Nat) :
    let c := (HConn.new cfg isClient nb st tl el d).calls E ks
    c.write live = .err .msg ∨
      (isClient = true ∧ cfg.allowEarlyData = true ∧ (∃ k, cfg.psks cfg.serverName = some k) ∧ earlyOpen c.hState) := by
  intro c
  have hinv := calls_inv E ks (new_inv cfg isClient nb st tl el d)
  have hcl : ((HConn.new cfg isClient nb st tl el d).calls E ks).isClient = isClient :=
    (calls_same E ks (HConn.new cfg isClient nb st tl el d)).2.1
  have hc : c.connected = false := by rw [← hinv.complete]; exact h
  have he : c.Early cfg := calls_earlyInv E ks ⟨rfl, trivial, fun h => by cases h⟩
  unfold HConn.write
  by_cases hw : c.writable = true
  · right
    simp only [HConn.writable, hc, Bool.false_or, Bool.and_eq_true, beq_iff_eq] at hw
    obtain ⟨h1, h2, h3⟩ := he.early hw.2
    exact ⟨hcl.symm.trans hw.1, h2, h3, h1⟩
  · left
    rw [if_neg hw]

/-- The first call of Handshake of a client in non-blocking mode, which sends the ClientHello: if it succeeds, Write may be used at
once if, and only if, the client is configured for early data and has a PSK for the server's name. -/
theorem C84_offer (E : Env) (cfg : Config) (st : Bool) (tl el : UInt32) (d : Bool) (t : Turn) (ts : List Turn)
    (h : ((HConn.new cfg true true st tl el d).handshake E t ts).1 = .ok ()) :
    ((HConn.new cfg true true st tl el d).handshake E t ts).2.writable =
      (cfg.allowEarlyData && (cfg.psks cfg.serverName).isSome) := by
  have hu : (HConn.new cfg true true st tl el d).handshake E t ts =
      (match (HConn.new cfg true true st tl el d).setup E t with
        | (.ok _, c') => if c'.isClient ∧ c'.nonBlocking then (.ok (), c') else c'.loop E ts
        | r => r) := rfl
  rw [hu] at h ⊢
  revert h
  unfold HConn.setup
  by_cases h0 : (!t.initOk) = true
  · rw [if_pos h0]; intro h; simp [Machine.alert] at h
  · rw [if_neg h0, if_pos (show (HConn.new cfg true true st tl el d).isClient = true from rfl)]
    cases hn : ({ cfg := (HConn.new cfg true true st tl el d).cfg } : CStart).next E (HConn.new cfg true true st tl el d).x t.coins with
    | ok v =>
      obtain ⟨w, acts, x'⟩ := v
      dsimp only
      obtain ⟨pre, post, hp, h2, h3⟩ := takeAll_epochNow t.fail 0 { HConn.new cfg true true st tl el d with x := x' } acts
      cases ht : HConn.takeAll t.fail 0 { HConn.new cfg true true st tl el d with x := x' } acts with
      | mk r c' =>
        rw [ht] at h2 h3
        cases r with
        | some a => intro h; simp [Machine.alert] at h
        | none =>
          obtain rfl : post = [] := h3.1 rfl
          rw [List.append_nil] at hp
          subst hp
          have h2 : c' = { HConn.new cfg true true st tl el d with x := x', outEpoch := epochNow 0 acts } := h2
          subst h2
          intro _
          dsimp only
          rw [if_pos ⟨rfl, rfl⟩]
          have hw : ∀ e w', ({ HConn.new cfg true true st tl el d with
              x := x'
              outEpoch := e
              hState := some (.client (.waitSH w')) } : HConn).writable = (e == 1) := fun e w' => rfl
          rw [hw]
          obtain ⟨_, _, _, _, _, _, ⟨psk, of, hk, _, rfl, rfl, _⟩ | ⟨hk, m, _, rfl, rfl⟩⟩ := CStart.next_ok hn
          · have hk : cfg.psks cfg.serverName = some psk := hk
            rw [hk]
            cases ha : cfg.allowEarlyData with
            | true =>
              rw [if_pos (by rw [show (HConn.new cfg true true st tl el d).cfg = cfg from rfl, ha]; rfl)]
              rfl
            | false =>
              rw [if_neg (by rw [show (HConn.new cfg true true st tl el d).cfg = cfg from rfl, ha]; simp)]
              rfl
          · have hk : cfg.psks cfg.serverName = none := hk
            rw [hk, Option.isSome_none, Bool.and_false]
            rfl
    | err e => cases e <;> (intro h; simp [Machine.alert] at h)
    | panic => intro h; cases h
    | diverge => intro h; cases h

/-- C84 fails after a failure: a client that waits for the server's first message and may write early data may still do so
after Handshake has failed because of what it got. -/
theorem C84_failure_fails (E : Env) (c : HConn) (t0 t : Turn) (ts : List Turn) (a : Nat) (w : CWaitSH)
    (hs : c.hState = some (.client (.waitSH w))) (hc : c.complete = false) (ha : c.handshakeAlert = Alert.closeNotify)
    (hn : t.numbered = 0) (h : (HState.client (.waitSH w)).next E c.x t = .err (.alert a)) (hw : c.writable = true) :
    (c.handshake E t0 (t :: ts)).1 = .err (.alert a) ∧ (c.handshake E t0 (t :: ts)).2.writable = true := by
  rw [C51_sticky_fails E c t0 t ts a (.inr ⟨w, hs⟩) hc ha hn _ hs h]
  exact ⟨rfl, hw⟩

namespace FailedCase

/-- A client with a PSK that offers early data, after its first call. -/
def earlyClient : HConn := ((HConn.new Toy.pskClient true true false 0 0 false).handshake Toy.env setupTurn []).2

/-- The same for a config without a PSK. -/
def plainClient : HConn := ((HConn.new Toy.clientCfg true true false 0 0 false).handshake Toy.env setupTurn []).2

end FailedCase

open FailedCase

/-- C84 fails: such a client gets a malformed message, Handshake returns unexpected_message, and Write still writes. -/
theorem C84_failure_case_fails : earlyClient.complete = false ∧ (earlyClient.handshake Toy.env setupTurn [badTurn]).1 = .err (.alert 10) ∧
    (earlyClient.handshake Toy.env setupTurn [badTurn]).2.writable = true := by
  decide +kernel

/-- `C84_write` and `C84_offer`: a client that may write early data, and one that may not. -/
example : ((HConn.new Toy.pskClient true true false 0 0 false).handshake Toy.env setupTurn []).1 = .ok () ∧
    earlyClient.complete = false ∧ earlyClient.writable = true ∧ plainClient.complete = false ∧ plainClient.writable = false := by
  decide +kernel

end Verif.Props

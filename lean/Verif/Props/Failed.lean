import Verif.Conn.HandshakeRun
import Verif.Machine.Toy

/-
C51: what happens after Handshake has failed, and when a connection is usable.
-/

namespace Verif.Props

open Verif Verif.Crypto Verif.Messages Verif.Negotiation Verif.Handshake Verif.Machine Verif.Conn

/-- C51, until the handshake is complete, whatever was called before and whatever failed: Read fails, but for a server that
allows early data, which gets early data or would-block; Write fails, but for a client that is sending early data. Missing: a
later call of Handshake may succeed, see below. -/
theorem C51_unusable_partial (E : Env) (cfg : Config) (isClient nb st : Bool) (tl el : UInt32) (d : Bool) (ks : List HCall)
    (h : ((HConn.new cfg isClient nb st tl el d).calls E ks).complete = false)
    (live : HConn → Res Bytes × Connected) (live' : HConn → Res Nat) (n : Nat) :
    let c := (HConn.new cfg isClient nb st tl el d).calls E ks
    ((c.isClient = true ∨ c.cfg.allowEarlyData = false) → ∃ e, (c.read live n).1 = .err e) ∧
    ((c.read live n).1 = .err .wouldBlock ∨ (c.read live n).1 = .err .msg ∨ (c.read live n).1 = .ok (c.x.earlyData.take n)) ∧
    (¬ (c.isClient = true ∧ c.outEpoch = epochEarlyData) → c.write live' = .err .msg) := by
  intro c
  have hc : c.connected = false := by
    rw [← (calls_inv E ks (new_inv cfg isClient nb st tl el d)).complete]
    exact h
  refine ⟨fun hor => ?_, ?_, fun hnot => ?_⟩
  · unfold HConn.read
    rw [if_neg (by rw [hc]; decide)]
    rcases hor with h1 | h1
    · rw [if_pos h1]; exact ⟨_, rfl⟩
    · split
      · exact ⟨_, rfl⟩
      · rw [if_pos (by rw [h1]; rfl)]; exact ⟨_, rfl⟩
  · unfold HConn.read
    rw [if_neg (by rw [hc]; decide)]
    split
    · exact .inr (.inl rfl)
    · split
      · exact .inr (.inl rfl)
      · split
        · exact .inl rfl
        · exact .inr (.inr rfl)
  · unfold HConn.write
    rw [if_neg]
    intro hw
    simp only [HConn.writable, hc, Bool.false_or, Bool.and_eq_true, beq_iff_eq] at hw
    exact hnot hw

theorem loop_success (E : Env) (ts : List Turn) : ∀ {c : HConn}, c.nonBlocking = false → (HConn.loop E ts c).1 = .ok () →
    (HConn.loop E ts c).2.connected = true := by
  induction ts with
  | nil =>
    intro c hb h
    revert h
    rw [HConn.loop]
    split
    · intro h; cases h
    · rename_i st hs
      split
      · rename_i hc
        intro _
        unfold HConn.connected
        rw [hs]
        exact hc
      · intro h; cases h
  | cons t ts ih =>
    intro c hb h
    cases hs : c.hState with
    | none =>
      rw [HConn.loop] at h
      split at h
      · cases h
      · rename_i h'; rw [hs] at h'; cases h'
    | some st =>
      cases hc : st.connected? with
      | some s =>
        rw [HConn.loop]
        split
        · rename_i h'; rw [hs] at h'; cases h'
        · rename_i st1 h'
          obtain rfl : st = st1 := by rw [hs] at h'; exact Option.some.inj h'
          rw [if_pos (by rw [hc]; rfl)]
          unfold HConn.connected
          rw [hs]
          simp [hc]
      | none =>
        obtain ⟨r, hT, ⟨h', hor⟩ | ⟨hb', -, h', -, hnb, -⟩⟩ := loop_cons E c st t ts hs hc
        · rw [h'] at h
          rcases hor with hor | hor
          · rw [hb] at hor; cases hor
          · exact absurd h hor
        · rw [h'] at h ⊢
          exact ih (by rw [hnb, hb]) h

/-- C51, whatever was called before, and whatever failed: in blocking mode a call of Handshake that succeeds leaves the
handshake complete. -/
theorem C51_success (E : Env) (cfg : Config) (isClient st : Bool) (tl el : UInt32) (d : Bool) (ks : List HCall) (t : Turn)
    (ts : List Turn)
    (h : (((HConn.new cfg isClient false st tl el d).calls E ks).handshake E t ts).1 = .ok ()) :
    (((HConn.new cfg isClient false st tl el d).calls E ks).handshake E t ts).2.complete = true ∧
    (((HConn.new cfg isClient false st tl el d).calls E ks).handshake E t ts).2.connected = true := by
  have hi := calls_inv E ks (new_inv cfg isClient false st tl el d)
  have hb : ((HConn.new cfg isClient false st tl el d).calls E ks).nonBlocking = false := (calls_same E ks _).2.2.1
  revert h hi hb
  generalize (HConn.new cfg isClient false st tl el d).calls E ks = c
  intro h hi hb
  have hi' := handshake_inv E t ts hi
  suffices hc : (c.handshake E t ts).2.connected = true from ⟨by rw [hi'.complete, hc], hc⟩
  revert h
  unfold HConn.handshake
  rw [if_neg (by rw [hi.alert]; simp)]
  split
  · rename_i hc
    intro _
    rw [← hi.complete, hc]
  · split
    · rename_i hs
      obtain ⟨-, -, -, -, hnb⟩ := setup_inv E t hi hs
      split
      · rename_i heq
        rw [heq] at hnb
        rw [if_neg (by rw [hnb, hb]; simp)]
        exact fun h => loop_success E ts (by rw [hnb, hb]) h
      · rename_i hne
        intro h
        exact (hne () (c.setup E t).2 (Prod.ext h rfl)).elim
    · exact fun h => loop_success E ts hb h

theorem finish_failed (E : Env) (c : HConn) (t : Turn) (s : Connected) (h : (c.finish E t s).1 ≠ .ok ()) :
    c.isClient = false ∧ c.sendTickets = true := by
  revert h
  unfold HConn.finish
  dsimp only
  split
  · intro h; exact absurd rfl h
  · rename_i hc
    split
    · rename_i ht
      exact fun _ => ⟨by simpa using hc, ht⟩
    · intro h; exact absurd rfl h

theorem loop_failed (E : Env) (ts : List Turn) : ∀ {c : HConn}, c.Inv → c.connected = false → (HConn.loop E ts c).1 ≠ .ok () →
    (HConn.loop E ts c).2.connected = false ∨ c.isClient = false ∧ c.sendTickets = true := by
  induction ts with
  | nil =>
    intro c hi hc h
    left
    rw [HConn.loop]
    split
    · exact hc
    · split <;> exact hc
  | cons t ts ih =>
    intro c hi hcn h
    cases hs : c.hState with
    | none => left; rw [HConn.loop, hs]; exact hcn
    | some st =>
      have hc : st.connected? = none := by
        rw [HConn.connected, hs] at hcn
        simpa using hcn
      obtain ⟨r, hT, ⟨h', -⟩ | ⟨-, -, h', -, hnb, hend⟩⟩ := loop_cons E c st t ts hs hc
      · rw [h'] at h ⊢
        cases hT with
        | stuck r hr => exact .inl hcn
        | failed a b hn => exact .inl (by simp [HConn.connected, spoil_connected, hc])
        | refused a st' acts x' retry e b hn hf => exact .inl (by simp [HConn.connected, spoil_connected, hc])
        | moved st' acts x' retry e hn hf hd => exact .inl (by simp [HConn.connected, hd])
        | done st' acts x' retry e s hn hf hd => exact .inr (by have := finish_failed E _ t s h; exact this)
      · rw [h'] at h ⊢
        obtain ⟨-, g2, -, g4⟩ := hT.same
        rcases hend with ⟨-, -, hcon⟩ | ⟨-, hcon⟩
        · exfalso
          apply h
          rw [HConn.loop]
          cases hs' : r.2.hState with
          | none => rw [HConn.connected, hs'] at hcon; cases hcon
          | some st' =>
            rw [HConn.connected, hs'] at hcon
            dsimp only
            rw [if_pos (by simpa using hcon)]
        · rw [← g2, ← g4]
          exact ih (hT.inv hi hs hc) hcon h

/-- C51, whatever was called before: a call of Handshake that does not succeed leaves the handshake incomplete, so that Read
and Write fail as above. Missing: a server that sends tickets, see `C51_ticket_fails`. -/
theorem C51_failure_partial (E : Env) (cfg : Config) (isClient nb st : Bool) (tl el : UInt32) (d : Bool) (ks : List HCall) (t : Turn)
    (ts : List Turn) (hst : isClient = true ∨ st = false)
    (h : (((HConn.new cfg isClient nb st tl el d).calls E ks).handshake E t ts).1 ≠ .ok ()) :
    (((HConn.new cfg isClient nb st tl el d).calls E ks).handshake E t ts).2.complete = false := by
  have hi := calls_inv E ks (new_inv cfg isClient nb st tl el d)
  have hsame := calls_same E ks (HConn.new cfg isClient nb st tl el d)
  revert h hi hsame
  generalize (HConn.new cfg isClient nb st tl el d).calls E ks = c
  intro h hi hsame
  have hno : ¬ (c.isClient = false ∧ c.sendTickets = true) := by
    rw [hsame.2.1, hsame.2.2.2]
    rintro ⟨h1, h2⟩
    rcases hst with hst | hst
    · exact absurd (hst.symm.trans h1) (by decide)
    · exact absurd (hst.symm.trans h2) (by decide)
  rw [(handshake_inv E t ts hi).complete]
  revert h
  unfold HConn.handshake
  rw [if_neg (by rw [hi.alert]; simp)]
  split
  · intro h; exact absurd rfl h
  · rename_i hcc
    have hcon : c.connected = false := by rw [← hi.complete]; simpa using hcc
    split
    · rename_i hs
      obtain ⟨g1, -, g3, -⟩ := setup_inv E t hi hs
      obtain ⟨-, k2, -, k4⟩ := setup_same E c t
      split
      · rename_i heq
        rw [heq] at g1 g3 k2 k4
        dsimp only at g1 g3 k2 k4
        split
        · intro h; exact absurd rfl h
        · intro h
          rcases loop_failed E ts g1 g3 h with h' | h'
          · exact h'
          · rw [k2, k4] at h'; exact absurd h' hno
      · intro _; exact g3
    · intro h
      rcases loop_failed E ts hi hcon h with h' | h'
      · exact h'
      · exact absurd h' hno

/-- C51, once this end can no longer write messages, as when its transport was closed by sendAlert or broke: whatever was
called before and is called later, the handshake never completes unless all messages had been sent before. Missing: a server
that has sent all its messages needs only to read. -/
theorem C51_mute_partial (E : Env) (cfg : Config) (isClient nb st : Bool) (tl el : UInt32) (d : Bool) (before after : List HCall)
    (hp : ((HConn.new cfg isClient nb st tl el d).calls E before).pending) (hm : ∀ k ∈ after, k.Mute) :
    ((HConn.new cfg isClient nb st tl el d).calls E (before ++ after)).complete = false := by
  have hi := calls_inv E (before ++ after) (new_inv cfg isClient nb st tl el d)
  rw [hi.complete]
  have : (HConn.new cfg isClient nb st tl el d).calls E (before ++ after) =
      ((HConn.new cfg isClient nb st tl el d).calls E before).calls E after := by
    unfold HConn.calls
    rw [List.foldl_append]
  rw [this]
  exact (calls_pending E after hm _ hp).not_connected

/-- C51 fails. The error of a call is not kept: for a server that waits for a ClientHello, as for a client that waits for a
ServerHello, a call that fails because of what it read leaves the connection as it was, and any later call does what it would
have done. (`numbered`: these do not number messages before they fail.) -/
theorem C51_sticky_fails (E : Env) (c : HConn) (t0 t : Turn) (ts : List Turn) (a : Nat)
    (hs : (∃ s, c.hState = some (.server (.start s))) ∨ (∃ s, c.hState = some (.client (.waitSH s))))
    (hc : c.complete = false) (ha : c.handshakeAlert = Alert.closeNotify) (hn : t.numbered = 0)
    (st : HState) (hst : c.hState = some st) (h : st.next E c.x t = .err (.alert a)) :
    c.handshake E t0 (t :: ts) = (.err (.alert a), c) := by
  have hsp : st.spoil t.written = st := by
    rcases hs with ⟨s, hs⟩ | ⟨s, hs⟩ <;> (rw [hst] at hs; cases hs; rfl)
  have hco : st.connected? = none := by
    rcases hs with ⟨s, hs⟩ | ⟨s, hs⟩ <;> (rw [hst] at hs; cases hs; rfl)
  unfold HConn.handshake
  rw [if_neg (by rw [ha]; simp), if_neg (by rw [hc]; decide)]
  split
  · rename_i h'; rw [hst] at h'; cases h'
  · rw [HConn.loop]
    split
    · rename_i h'; rw [hst] at h'; cases h'
    · rename_i st1 h'
      obtain rfl : st = st1 := by rw [hst] at h'; exact Option.some.inj h'
      dsimp only
      rw [if_neg (by rw [hco]; decide), h]
      dsimp only
      rw [hsp, hn]
      have hce : ({ c with x := { c.x with outSeq := c.x.outSeq + 0 }, hState := some st } : HConn) = c := by
        rw [← hst]; rfl
      split
      · rename_i h0
        rw [HConn.sendAlert, if_pos (.inr h0)]
        exact Prod.ext rfl hce
      · exact Prod.ext rfl hce

/-- C51 fails in another way. If a call returns an error but the handshake is complete, which is so for a server that could
not send a ticket, later calls of Handshake succeed. -/
theorem C51_ticket_fails (E : Env) (cfg : Config) (isClient nb st : Bool) (tl el : UInt32) (d : Bool) (ks : List HCall)
    (h : ((HConn.new cfg isClient nb st tl el d).calls E ks).complete = true) (t : Turn) (ts : List Turn) :
    ((HConn.new cfg isClient nb st tl el d).calls E ks).handshake E t ts =
      (.ok (), (HConn.new cfg isClient nb st tl el d).calls E ks) := by
  unfold HConn.handshake
  rw [if_neg (by rw [(calls_inv E ks (new_inv cfg isClient nb st tl el d)).alert]; simp), if_pos h]

/-- Calls of Handshake none of which fails: each succeeds or would block. -/
inductive Attempted (E : Env) (c0 : HConn) : HConn → Prop where
  | refl : Attempted E c0 c0
  | step (c : HConn) (t : Turn) (ts : List Turn) (h : Attempted E c0 c)
      (hr : (c.handshake E t ts).1 = .ok () ∨ (c.handshake E t ts).1 = .err .wouldBlock) :
      Attempted E c0 (c.handshake E t ts).2

theorem attempted_followed {E : Env} {c0 c : HConn} {x0 : Ctx} {cfg : Config} (h : Attempted E c0 c) (h0 : c0.Followed E x0 cfg)
    (hi : c0.Inv) : c.Followed E x0 cfg ∧ c.Inv := by
  induction h with
  | refl => exact ⟨h0, hi⟩
  | step c t ts _ hr ih => exact ⟨handshake_followed E t ts ih.1 hr, handshake_inv E t ts ih.2⟩

/-- C51, the other way round: a handshake that completes without a failed call is an execution of the state machines, so
that what is proved about those holds of the connection. -/
theorem C51_run (E : Env) (cfg : Config) (isClient nb st : Bool) (tl el : UInt32) (d : Bool) (c : HConn)
    (h : Attempted E (HConn.new cfg isClient nb st tl el d) c) (hc : c.complete = true) :
    ∃ s, (c.hState = some (.client (.connected s)) ∧
        ∃ coins es acts x, clientRun E ⟨d, 0, []⟩ cfg coins es = .ok (.connected s, acts, x)) ∨
      (c.hState = some (.server (.connected s)) ∧
        ∃ es acts x, serverRun E ⟨d, 0, []⟩ cfg es = .ok (.connected s, acts, x)) := by
  obtain ⟨hf, hi⟩ := attempted_followed (x0 := ⟨d, 0, []⟩) (cfg := cfg) h ⟨rfl, rfl⟩ (new_inv cfg isClient nb st tl el d)
  rw [hi.complete] at hc
  unfold HConn.Followed at hf
  cases hs : c.hState with
  | none => rw [HConn.connected, hs] at hc; cases hc
  | some st =>
    rw [hs] at hf
    cases st with
    | client s =>
      cases s with
      | connected s =>
        obtain ⟨x', coins, es, acts, h'⟩ := hf
        exact ⟨s, .inl ⟨rfl, coins, es, acts, x', h'⟩⟩
      | _ => rw [HConn.connected, hs] at hc; cases hc
    | server s =>
      cases s with
      | connected s =>
        obtain ⟨x', es, acts, h'⟩ := hf
        exact ⟨s, .inr ⟨rfl, es, acts, x', h'⟩⟩
      | _ => rw [HConn.connected, hs] at hc; cases hc

/-! ### Cases -/

namespace FailedCase

def turn (e : Option Event) (c : Coins) : Turn := ⟨e, c, fun _ _ => none, [], 0, true, 7, [1], [2], fun _ _ => none⟩

/-- What the client and the server read in the toy handshake with certificates. The server makes two moves between the
ClientHello and the Finished. -/
def clientTurns : List Turn := (Toy.exchange Toy.tls Toy.clientCfg Toy.serverCfg 2).1.map fun (e, c) => turn (some e) c

def serverTurns (last : Turn → Turn) : List Turn :=
  match (Toy.exchange Toy.tls Toy.clientCfg Toy.serverCfg 2).2 with
  | [(e, c), (e', c')] => [turn (some e) c, turn none c, turn none c, last (turn (some e') c')]
  | _ => []

def client : HConn := HConn.new Toy.clientCfg true false false 0 0 false
def server : HConn := HConn.new Toy.serverCfg false false true 100 100 false

def setupTurn : Turn := turn none (Toy.coins 2)

/-- A ClientHello with an empty body. -/
def badTurn : Turn := turn (some (.msg ⟨1, 0, [], 0, 0⟩)) (Toy.coins 6)

/-- The ticket cannot be sent. -/
def noTicket (t : Turn) : Turn := { t with ticketFail := fun _ _ => some 80 }

/-- Nothing can be written any more. -/
def mute (t : Turn) : Turn := { t with fail := fun _ a => match a with | .queue _ => some 80 | _ => none }

def failedServer : HConn := (server.handshake Toy.env setupTurn [badTurn]).2

end FailedCase

open FailedCase

/-- C51 fails: the server returns decode_error for a malformed ClientHello, and a later call of Handshake succeeds. -/
theorem C51_recovery_fails : (server.handshake Toy.env setupTurn [badTurn]).1 = .err (.alert 50) ∧
    (failedServer.handshake Toy.env setupTurn (serverTurns id)).1 = .ok () ∧
    (failedServer.handshake Toy.env setupTurn (serverTurns id)).2.complete = true := by
  decide +kernel

/-- C51 fails: the server returns internal_error since it could not send the ticket, and a later call succeeds. -/
theorem C51_ticket_case_fails : (server.handshake Toy.env setupTurn (serverTurns noTicket)).1 = .err (.alert 80) ∧
    (server.handshake Toy.env setupTurn (serverTurns noTicket)).2.closed = true ∧
    ((server.handshake Toy.env setupTurn (serverTurns noTicket)).2.handshake Toy.env setupTurn []).1 = .ok () := by
  decide +kernel

/-- `C51_unusable_partial` and `C51_failure_partial`: the server after the malformed ClientHello, and a client that got one. -/
example : (server.calls Toy.env [.handshake setupTurn [badTurn]]).complete = false ∧
    (client.calls Toy.env [.handshake setupTurn [badTurn]]).complete = false ∧
    (client.handshake Toy.env setupTurn [badTurn]).1 ≠ .ok () := by
  decide +kernel

/-- `C51_success`: a server that succeeds after a call that failed, and a client. -/
example : ((server.calls Toy.env [.handshake setupTurn [badTurn]]).handshake Toy.env setupTurn (serverTurns id)).1 = .ok () ∧
    (client.handshake Toy.env setupTurn clientTurns).1 = .ok () := by
  decide +kernel

/-- `C51_mute_partial`: a client that cannot write any more after its ClientHello, and would be connected otherwise. -/
example : (client.calls Toy.env [.handshake setupTurn []]).pending ∧
    (∀ k ∈ [HCall.handshake setupTurn (clientTurns.map mute)], k.Mute) ∧
    ((client.calls Toy.env [.handshake setupTurn []]).handshake Toy.env setupTurn (clientTurns.map mute)).1 = .err (.alert 80) ∧
    ((client.calls Toy.env [.handshake setupTurn []]).handshake Toy.env setupTurn clientTurns).1 = .ok () := by
  refine ⟨?_, ?_, by decide +kernel, by decide +kernel⟩
  · exact calls_pending Toy.env _ (by
      intro k hk
      simp only [List.mem_singleton] at hk
      subst hk
      intro t ht
      cases ht) _ (.inl rfl)
  · intro k hk
    simp only [List.mem_singleton] at hk
    subst hk
    intro t ht
    obtain ⟨t', -, rfl⟩ := List.mem_map.mp ht
    exact .inl fun i m => by simp [mute]

/-- `C51_run`: a client that first would block. -/
example : ∃ c, Attempted Toy.env client c ∧ c.complete = true := by
  refine ⟨_, .step _ setupTurn clientTurns (.step _ setupTurn [] .refl (.inr ?_)) (.inl ?_), ?_⟩ <;> decide +kernel

end Verif.Props

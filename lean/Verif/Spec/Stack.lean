import Verif.Conn.Stack
import Verif.Spec.Record

/-
Two ends and the bytes between them: what is asked of an execution, and what it should lead to.
-/

namespace Verif.Conn

open Verif Verif.Crypto Verif.Handshake Verif.Machine Verif.Spec

/-- A message that fits into one protected record, of an AEAD that adds at most `ov` bytes: a header of four bytes, the body,
a content type, and what the AEAD adds. -/
def Small (ov : Nat) (m : Msg) : Prop := m.body.length + 5 + ov ≤ 2 ^ 14

/-- Everything the two ends have decided to send so far fits. -/
def AllSmall (ov : Nat) (N : Net) : Prop := ∀ m ∈ N.client.asked ++ N.server.asked, Small ov m

/-- Random number generator and clock work whenever an end takes a turn. -/
def FairCoins (now : Int → Prop) (ms : List Move) : Prop := ∀ m ∈ ms, ∀ k, m = .client k ∨ m = .server k → GoodCoins now k

/-- Moves, among which all bytes under way arrive and after that each of the ends takes a turn. -/
def Round (ms : List Move) : Prop := ∃ a b, ms = a ++ .flush :: b ∧ (∃ k, .client k ∈ b) ∧ ∃ k, .server k ∈ b

/-- A record layer that has nothing left to read. -/
structure Empty (r : Record.Reader) : Prop where
  header : r.frame.inBody = false
  filled : r.frame.filled = []
  remainder : r.frame.remainder = []
  conn : r.conn = []
  cached : r.cached = none

/-- Both ends are connected, with the same parameters and secrets; each reads with the keys and sequence number the other writes
with; and nothing is left on the way or in the buffers. -/
structure Together (N : Net) (cc sc : Connected) : Prop where
  client : N.client.party = .client (.connected cc)
  server : N.server.party = .server (.connected sc)
  same : SameConnection cc sc
  toServer : Record.Paired N.client.out N.server.reader.keys
  toClient : Record.Paired N.server.out N.client.reader.keys
  wires : N.client.wire = [] ∧ N.server.wire = []
  readers : Empty N.client.reader ∧ Empty N.server.reader
  layers : N.client.hs.frame.remainder = [] ∧ N.server.hs.frame.remainder = []

end Verif.Conn

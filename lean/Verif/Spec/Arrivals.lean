import Verif.Conn.Stack

/-
An end of a handshake over a transport that delivers anything.
-/

namespace Verif.Spec

open Verif Verif.Crypto Verif.Messages Verif.Handshake Verif.Machine Verif.Conn

/-- What can happen to an end: its application calls Handshake, or the transport delivers some bytes or an error. -/
inductive Happens where
  | call (c : Coins)
  | arrives (r : Except Err Bytes)

def happen (E : Env) (A : Bytes → Record.Aead) (e : End) : Happens → End
  | .call c => e.turn E A c
  | .arrives r => { e with reader := { e.reader with conn := e.reader.conn ++ [r] } }

/-- An end after all this. -/
def after (E : Env) (A : Bytes → Record.Aead) : End → List Happens → End
  | e, [] => e
  | e, h :: hs => after E A (happen E A e h) hs

/-- Whether a call of Handshake reads: the handshake has neither failed nor completed, and the client's hello has been sent. -/
def callReads (e : End) : Bool :=
  match e.outcome, e.party with
  | .ok _, .client (.start _) => false
  | .ok _, .client (.connected _) => false
  | .ok _, .server (.connected _) => false
  | .ok _, _ => true
  | _, _ => false

/-- The handshake message that a call of Handshake reads, if any. -/
def messageRead (e : End) : List Msg :=
  match callReads e, e.receive.1 with
  | true, .ok (some (.msg m)) => [m]
  | _, _ => []

/-- The record that a call of Handshake reads, if any; there is none while a message is left over from the one before. -/
def recordRead (e : End) : List Record.Plaintext :=
  match callReads e, decide (e.hs.frame.needed > 0), (Record.readRecord e.reader false).1 with
  | true, true, .ok pt => [pt]
  | _, _, _ => []

/-- All messages that are read. -/
def messagesRead (E : Env) (A : Bytes → Record.Aead) : End → List Happens → List Msg
  | _, [] => []
  | e, .call c :: hs => messageRead e ++ messagesRead E A (happen E A e (.call c)) hs
  | e, .arrives r :: hs => messagesRead E A (happen E A e (.arrives r)) hs

/-- All records that are read. -/
def recordsRead (E : Env) (A : Bytes → Record.Aead) : End → List Happens → List Record.Plaintext
  | _, [] => []
  | e, .call c :: hs => recordRead e ++ recordsRead E A (happen E A e (.call c)) hs
  | e, .arrives r :: hs => recordsRead E A (happen E A e (.arrives r)) hs

/-- The random choices of all calls. -/
def choices : List Happens → List Coins
  | [] => []
  | .call c :: hs => c :: choices hs
  | .arrives _ :: hs => choices hs

/-- A record that carries an alert has the two bytes of one (RFC 8446, section 6). -/
def WholeAlert (pt : Record.Plaintext) : Prop := pt.contentType = 21 → 2 ≤ pt.fragment.length

end Verif.Spec

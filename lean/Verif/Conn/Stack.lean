import Verif.Conn.Model
import Verif.Conn.Handshake
import Verif.Spec.Compatible

/-
Model of a TLS handshake from the state machine down to the transport: conn.go (Handshake, takeAction), the handshake layer,
the record layer, and bytes travelling between two ends in pieces of any size.

Simplifications. One turn is one call of Next, with its actions, in non-blocking mode (a blocking call is a sequence of such
turns). Alerts of a failed handshake are not put on the wire. The server sends no session ticket, the application writes no
early data. The version of the reading side, which nothing reads, is left alone. All cipher suites use one AEAD,
by key (crypto.go:81-103), whose construction does not fail.
-/

namespace Verif.Conn

open Verif Verif.Crypto Verif.Messages Verif.Negotiation Verif.Handshake Verif.Machine Verif.Spec

/-- One end of a connection: `Conn` (conn.go:259-277) with its layers. `hs` is `hsCtx.hIn` without its record layer, which is
`reader`; `out` is the record layer for writing. `outcome` is what ended the handshake, if anything did. `wire` is what was
given to the transport and has not arrived yet; `asked` is history: the messages this end has decided to send. -/
structure End where
  party : HState
  x : Ctx
  hs : HsIn
  reader : Record.Reader
  out : Record.Keys
  wire : Bytes
  outcome : Res Unit
  asked : List Msg

/-- `NewConn` and `HandshakeSetup` (conn.go:279-304, 645-693), over a transport on which nothing has arrived. -/
def End.new (p : HState) : End where
  party := p
  x := ⟨false, 0, []⟩
  hs := HsIn.new false true
  reader := Record.Reader.new false []
  out := Record.Keys.new .write false
  wire := []
  outcome := .ok ()
  asked := []

/-! ### Reading -/

/-- The handshake layer given what the record layer returned (conn.go:705-723, handshake-layer.go:349-401): a message, nothing
yet, or an error. Over TLS there is no nil message without an error. -/
def End.parse (e : End) (feed : Feed) : Res (Option Event) × End :=
  match e.hs.readMessage (fun _ => .ok ()) feed with
  | (.ok (some m), h, _) => (.ok (some (.msg m)), { e with hs := h })
  | (.ok none, h, _) => (.diverge, { e with hs := h })
  | (.err .wouldBlock, h, _) => (.ok none, { e with hs := h })
  | (.err _, h, _) => (.ok (some .bad), { e with hs := h })
  | (.panic, h, _) => (.panic, { e with hs := h })
  | (.diverge, h, _) => (.diverge, { e with hs := h })

/-- `ReadMessage` on top of the record layer (handshake-layer.go:349-401, record-layer.go:317-335): a record is read if the
frame reader of the handshake layer needs bytes. -/
def End.readMessage (e : End) : Res (Option Event) × End :=
  if e.hs.frame.needed > 0 then
    match Record.readRecord e.reader false with
    | (.ok pt, r) => { e with reader := r }.parse [.ok pt]
    | (.err er, r) => { e with reader := r }.parse [.error er]
    | (.panic, r) => (.panic, { e with reader := r })
    | (.diverge, r) => (.diverge, { e with reader := r })
  else e.parse []

/-- What a state reads. A server waiting for the end of early data looks at the type of the next record first
(server-state-machine.go:785-853); one turn for each record of early data. -/
def End.receive (e : End) : Res (Option Event) × End :=
  match e.party with
  | .server (.waitEOED _) =>
    match Record.peekType e.reader with
    | (.ok t, r) =>
      if t = 23 then
        match Record.readRecord r false with
        | (.ok pt, r') => (.ok (some (.appData pt.fragment)), { e with reader := r' })
        | (.err _, r') => (alert Alert.internalError, { e with reader := r' })
        | (.panic, r') => (.panic, { e with reader := r' })
        | (.diverge, r') => (.diverge, { e with reader := r' })
      else
        match { e with reader := r }.readMessage with
        | (.ok (some .bad), e') => (alert Alert.closeNotify, e')
        | x => x
    | (.err er, r) => (.ok (if er = .wouldBlock then none else some .bad), { e with reader := r })
    | (.panic, r) => (.panic, { e with reader := r })
    | (.diverge, r) => (.diverge, { e with reader := r })
  | _ => e.readMessage

/-! ### Actions -/

/-- The records of a message, one after the other (handshake-layer.go:507-519). A record that cannot be written ends the
handshake with internal_error (conn.go:584-587). -/
def End.writeAll (e : End) : List Bytes → End
  | [] => e
  | f :: fs =>
    match Record.writeRecord e.out e.out.cur 22 f 0 with
    | .ok (rec, k) => { e with out := k, wire := e.wire ++ rec }.writeAll fs
    | .err _ => { e with outcome := alert Alert.internalError }
    | .panic => { e with outcome := .panic }
    | .diverge => { e with outcome := .diverge }

/-- `takeAction` (conn.go:575-643). Over TLS a message is written as soon as it is queued (handshake-layer.go:403-411). -/
def End.act (A : Bytes → Record.Aead) (e : End) : Action → End
  | .queue m =>
    match tlsWrite (2 ^ 14) m with
    | .ok fs => e.writeAll fs
    | .err _ => { e with outcome := alert Alert.internalError }
    | .panic => { e with outcome := .panic }
    | .diverge => { e with outcome := .diverge }
  | .sendQueued => e
  | .rekeyIn n k =>
    match e.hs.rekeyIn n with
    | .ok h => { e with hs := h, reader := { e.reader with keys := e.reader.keys.rekey n (A k.1) k.2 } }
    | .err er => { e with outcome := .err er }
    | .panic => { e with outcome := .panic }
    | .diverge => { e with outcome := .diverge }
  | .rekeyOut n k => { e with out := e.out.rekey n (A k.1) k.2 }
  | .resetOut n => { e with out := e.out.resetClear n }
  | .storePsk _ => e

/-- The loop over the actions (conn.go:784-791). -/
def End.perform (A : Bytes → Record.Aead) (e : End) : List Action → End
  | [] => e
  | a :: as =>
    match (e.act A a).outcome with
    | .ok _ => (e.act A a).perform A as
    | _ => e.act A a

/-! ### Turns -/

/-- Whether the call of Next that leads from one state to another calls SetVersion(tls12Version): a client that sends its first
or second hello does (client-state-machine.go:272, 422), and a server that accepts a hello (server-state-machine.go:385). -/
def HState.setsVersion : HState → HState → Bool
  | .client (.start _), _ => true
  | .client (.waitSH _), .client (.waitSH _) => true
  | .server (.start _), .server (.start _) => false
  | .server (.start _), _ => true
  | _, _ => false

/-- `HandshakeContext.SetVersion` (state-machine.go:81-88), on the writing side. -/
def End.setVersion (e : End) (p : HState) : End :=
  if e.party.setsVersion p then { e with out := e.out.setVersion 0x0303 } else e

/-- One round of the loop of `Handshake` (conn.go:759-832), given what Next returned; the version is set before the actions are
performed. -/
def End.advance (A : Bytes → Record.Aead) (e : End) : Res (HState × List Action × Ctx) → End
  | .ok (p, acts, x) =>
    match ({ e.setVersion p with x := x, asked := e.asked ++ sent acts }.perform A acts).outcome with
    | .ok _ => { { e.setVersion p with x := x, asked := e.asked ++ sent acts }.perform A acts with party := p }
    | _ => { e.setVersion p with x := x, asked := e.asked ++ sent acts }.perform A acts
  | .err er => { e with outcome := .err er }
  | .panic => { e with outcome := .panic }
  | .diverge => { e with outcome := .diverge }

/-- `Next` of a state that reads. -/
def HState.step (E : Env) (x : Ctx) (c : Coins) (ev : Event) : HState → Res (HState × List Action × Ctx)
  | .client s => (s.step E x c ev).bind fun (s', acts, x') => .ok (.client s', acts, x')
  | .server s => (s.step E x c ev).bind fun (s', acts, x') => .ok (.server s', acts, x')

/-- A turn of a state that reads. -/
def End.readTurn (E : Env) (A : Bytes → Record.Aead) (c : Coins) (e : End) : End :=
  match e.receive with
  | (.ok none, e') => e'
  | (.ok (some ev), e') => e'.advance A (e.party.step E e.x c ev)
  | (.err er, e') => { e' with outcome := .err er }
  | (.panic, e') => { e' with outcome := .panic }
  | (.diverge, e') => { e' with outcome := .diverge }

/-- A call of `Handshake` in non-blocking mode (conn.go:728-837), one round: nothing after a failure (a caller gives up), nothing
once connected. A client first sends its hello. -/
def End.turn (E : Env) (A : Bytes → Record.Aead) (c : Coins) (e : End) : End :=
  match e.outcome with
  | .ok _ =>
    match e.party with
    | .client (.start s) =>
      e.advance A ((s.next E e.x c).bind fun (w, acts, x') => .ok (.client (.waitSH w), acts, x'))
    | .client (.connected _) => e
    | .server (.connected _) => e
    | _ => e.readTurn E A c
  | _ => e

/-! ### Two ends -/

/-- A client, a server, and the bytes on their way. -/
structure Net where
  client : End
  server : End

/-- A client and a server before anything has happened. -/
def Net.new (ccfg scfg : Config) : Net := ⟨End.new (.client (.start { cfg := ccfg })), End.new (.server (.start ⟨scfg⟩))⟩

/-- Something happens: an end takes a turn; some of the bytes under way arrive, in one piece, as many as a read of the
transport can return (record-layer.go:356: header and 2^14); or all of them arrive, in several pieces. -/
inductive Move where
  | client (c : Coins)
  | server (c : Coins)
  | toServer (n : Nat)
  | toClient (n : Nat)
  | flush

/-- Bytes arrive. -/
def End.deliver (e : End) (cs : List Bytes) : End :=
  { e with reader := { e.reader with conn := e.reader.conn ++ cs.map .ok } }

/-- The piece that arrives. A transport returns no empty pieces. -/
def piece (n : Nat) (b : Bytes) : List Bytes := if b.take (min n (5 + 2 ^ 14)) = [] then [] else [b.take (min n (5 + 2 ^ 14))]

def Net.move (E : Env) (A : Bytes → Record.Aead) (N : Net) : Move → Net
  | .client c => { N with client := N.client.turn E A c }
  | .server c => { N with server := N.server.turn E A c }
  | .toServer n =>
    ⟨{ N.client with wire := N.client.wire.drop (min n (5 + 2 ^ 14)) }, N.server.deliver (piece n N.client.wire)⟩
  | .toClient n =>
    ⟨N.client.deliver (piece n N.server.wire), { N.server with wire := N.server.wire.drop (min n (5 + 2 ^ 14)) }⟩
  | .flush =>
    ⟨{ N.client with wire := [] }.deliver (fragments N.server.wire.length N.server.wire),
     { N.server with wire := [] }.deliver (fragments N.client.wire.length N.client.wire)⟩

def Net.run (E : Env) (A : Bytes → Record.Aead) : Net → List Move → Net
  | N, [] => N
  | N, m :: ms => Net.run E A (N.move E A m) ms

/-! ### After the handshake -/

/-- The connection of an end whose handshake is complete (conn.go:784-832): the same state, layers and keys. `conn` is what
arrives from then on. There is no early data to read (see above). -/
def End.live (e : End) (st : Connected) (nonBlocking : Bool) (serverName : Bytes) (conn : List (Except Err Bytes)) : Live where
  st := st
  x := e.x
  nonBlocking := nonBlocking
  serverName := serverName
  hsRest := e.hs.frame.remainder
  reader := { e.reader with conn := e.reader.conn ++ conn }
  out := e.out
  readBuffer := []
  closed := false
  stored := []
  wire := []
  log := []

/-- A client whose handshake is complete has given more bytes to its transport. -/
def Net.clientWrote (N : Net) (b : Bytes) : Net := { N with client := { N.client with wire := N.client.wire ++ b } }

end Verif.Conn

import Verif.Conn.Model
import Verif.Handshake.Flight

/-
Model of an established DTLS connection: conn.go, Read, Write, SendKeyUpdate, consumeRecord, takeAction, sendAlert with
UseDTLS, on top of the DTLS record layer, the sending half of the DTLS handshake layer and the connected state.

Simplifications: whether the retransmission timer has expired when Read is called is a parameter of the call (the timer set
itself is in `Verif.Timer`); no other timer is running once the handshake is complete (dtls.go:164-194). Writing to the
transport fails after Close only, and then the counters of the record layer stay as they are (nothing can be written any
more). If sending queued messages fails half way, what was sent before is forgotten (it fails only if the record layer
does, for instance for a record that is too long).
-/

namespace Verif.Conn

open Verif Verif.Crypto Verif.Messages Verif.Negotiation Verif.Handshake Verif.Machine

/-- `Conn` (conn.go:259-277) with UseDTLS once the handshake is complete; compare `Live`. `out` is the outgoing record layer
with `hsCtx.hOut` and `hsCtx.sentFragments`; its `wire` lists the datagrams given to the transport. -/
structure DLive where
  st : Connected
  x : Ctx
  nonBlocking : Bool
  serverName : Bytes
  hsRest : Bytes
  reader : Record.Reader
  out : Out
  readBuffer : Bytes
  closed : Bool
  stored : List (Bytes × Psk)

/-- What the sending side did is done, unless it wrote to a transport that is closed. -/
def DLive.sends (c : DLive) : Res Out → Res Unit × DLive
  | .ok o => if c.closed = true ∧ o.wire.length > c.out.wire.length then (.err .msg, c) else (.ok (), { c with out := o })
  | .err e => (.err e, c)
  | .panic => (.panic, c)
  | .diverge => (.diverge, c)

/-- `WriteRecord` on the outgoing record layer (record-layer.go:453-455, 461-509): one datagram. -/
def DLive.writeRecord (c : DLive) (ct : UInt8) (fragment : Bytes) : Res Unit × DLive :=
  c.sends (c.out.op (.other ct fragment))

/-- `Conn.sendAlert` (conn.go:512-536), see `Live.sendAlert`. -/
def DLive.sendAlert (c : DLive) (a : Nat) : Res Unit × DLive :=
  let level : UInt8 := if a = 100 ∨ a = Alert.closeNotify then 1 else 2
  match c.writeRecord 21 [UInt8.ofNat a, level] with
  | (.panic, c') => (.panic, c')
  | (.diverge, c') => (.diverge, c')
  | (_, c') => (.ok (), if level = 1 then c' else { c' with closed := true })

/-- Errors answered by AlertInternalError (conn.go:584-587, 593-596). -/
def dInternal : Res Unit × DLive → Res Unit × DLive
  | (.err _, c) => (alert Alert.internalError, c)
  | x => x

/-- `Conn.takeAction` (conn.go:575-643) over DTLS: a message is queued (handshake-layer.go:403-411), the queue is sent and
the retransmission timer started (590-601). -/
def DLive.takeAction (W : World) (c : DLive) : Action → Res Unit × DLive
  | .queue m => dInternal (c.sends (c.out.op (.queue m.msgType m.seq m.body)))
  | .sendQueued => dInternal (c.sends (c.out.op .send))
  | .rekeyIn epoch k =>
    if c.hsRest ≠ [] then (alert Alert.decodeError, c)
    else (.ok (), { c with reader := { c.reader with keys := c.reader.keys.rekey epoch (W.A c.st.cp k.1) k.2 } })
  | .rekeyOut epoch k => c.sends (c.out.op (.rekey epoch (W.A c.st.cp k.1) k.2))
  | .resetOut seq => c.sends (c.out.op (.resetClear seq))
  | .storePsk psk =>
    (.ok (), { c with stored := c.stored ++ [(if c.st.isClient then c.serverName else hexString psk.identity, psk)] })

/-- The loop over actions (conn.go:348-355, 857-863). -/
def DLive.takeAll (W : World) (c : DLive) : List Action → Res Unit × DLive
  | [] => (.ok (), c)
  | a :: as =>
    match c.takeAction W a with
    | (.ok _, c') => c'.takeAll W as
    | x => x

/-- An alert is sent, then an error is returned. -/
def DLive.abort (c : DLive) (a : Nat) (e : Err) : Res Unit × DLive :=
  match c.sendAlert a with
  | (.ok _, c') => (.err e, c')
  | x => x

/-- What to do when processing a message or taking actions fails (conn.go:341-346, 350-354). -/
def DLive.orAbort (e : Err) : Res Unit × DLive → Res Unit × DLive
  | (.err (.alert a), c) => c.abort a e
  | x => x

/-- `ProcessMessage`, then its actions, then the new state (conn.go:339-364). -/
def DLive.process (W : World) (c : DLive) (now : Int) (m : Msg) : Res Unit × DLive :=
  match c.st.process W.E c.x now m with
  | .ok (s, acts, x) =>
    match { c with x := x }.takeAll W acts with
    | (.ok _, c') => (.ok (), { c' with st := s })
    | r => DLive.orAbort .eof r
  | .err (.alert a) => c.abort a .eof
  | .err e => (.err e, c)
  | .panic => (.panic, c)
  | .diverge => (.diverge, c)

/-- The loop over the handshake messages in a record (conn.go:317-367), at most `n` of them. Over DTLS a header is twelve
bytes; the message number and the fragment offset and length in it are not looked at. -/
def DLive.postHandshake (W : World) (now : Int) : Nat → DLive → Bytes → Res Unit × DLive
  | 0, c, _ => (.diverge, c)
  | n + 1, c, b =>
    if b = [] then (.ok (), c)
    else if b.length < 12 then (.err .msg, c)
    else
      let len := beNat ((b.drop 1).take 3)
      if (b.drop 12).length < len then (.err .msg, c)
      else
        match c.process W now ⟨b.getD 0 0, 0, (b.drop 12).take len, 0, 0⟩ with
        | (.ok _, c') => DLive.postHandshake W now n c' (b.drop (12 + len))
        | x => x

/-- The switch of `consumeRecord` (conn.go:314-398). -/
def DLive.handle (W : World) (c : DLive) (now : Int) (ct : UInt8) (fragment : Bytes) : Res Unit × DLive :=
  if ct = 22 then DLive.postHandshake W now (fragment.length + 1) c fragment
  else if ct = 21 then
    match fragment with
    | [level, code] =>
      if code = 0 then (.err .eof, c)
      else if level = 1 then (.ok (), c)
      else if level = 2 then (.err (alertErr code), c)
      else c.abort Alert.unexpectedMessage .eof
    | _ => c.abort Alert.unexpectedMessage .eof
  else if ct = 25 then c.sends (c.out.op (.ack fragment))
  else if ct = 23 then (.ok (), { c with readBuffer := c.readBuffer ++ fragment })
  else (.ok (), c)

/-- `consumeRecord` (conn.go:307-401). -/
def DLive.consume (W : World) (c : DLive) (now : Int) : Res Unit × DLive :=
  match Record.readRecord c.reader false with
  | (.ok pt, r) => { c with reader := r }.handle W now pt.contentType pt.fragment
  | (.err e, r) => (.err e, { c with reader := r })
  | (.panic, r) => (.panic, { c with reader := r })
  | (.diverge, r) => (.diverge, { c with reader := r })

/-- The loop of `Read` (conn.go:453-465), at most `fuel` rounds; a call that goes on longer has not returned yet, which is
represented by would-block. -/
def DLive.readLoop (W : World) (now : Int) : Nat → DLive → Res Unit × DLive
  | 0, c => if c.readBuffer = [] then (.err .wouldBlock, c) else (.ok (), c)
  | fuel + 1, c =>
    if c.readBuffer = [] then
      match c.consume W now with
      | (.ok _, c') => DLive.readLoop W now fuel c'
      | (.err e, c') => if c.nonBlocking = true ∨ e ≠ .wouldBlock then (.err e, c') else DLive.readLoop W now fuel c'
      | x => x
    else (.ok (), c)

/-- The timers are run (conn.go:442-447; timer.go:59-78; dtls.go:50-61). -/
def DLive.checkTimers (c : DLive) (expired : Bool) : Res Unit × DLive :=
  if expired = true ∧ c.out.timer = true then dInternal (c.sends (c.out.op .send)) else (.ok (), c)

/-- `Read` (conn.go:414-468) with a buffer of `n` bytes: the bytes copied into it. -/
def DLive.read (W : World) (c : DLive) (now : Int) (expired : Bool) (fuel n : Nat) : Res Bytes × DLive :=
  if n = 0 then (.ok [], c)
  else
    match c.checkTimers expired with
    | (.ok _, c0) =>
      match DLive.readLoop W now fuel c0 with
      | (.ok _, c') => (.ok (c'.readBuffer.take n), { c' with readBuffer := c'.readBuffer.drop n })
      | (.err e, c') => (.err e, c')
      | (.panic, c') => (.panic, c')
      | (.diverge, c') => (.diverge, c')
    | (.err e, c') => (.err e, c')
    | (.panic, c') => (.panic, c')
    | (.diverge, c') => (.diverge, c')

/-- Writing fragments: the number of bytes sent and the error, if any. -/
def DLive.writeAll (c : DLive) : List Bytes → Nat → Res (Nat × Option Err) × DLive
  | [], sent => (.ok (sent, none), c)
  | f :: fs, sent =>
    match c.writeRecord 23 f with
    | (.ok _, c') => c'.writeAll fs (sent + f.length)
    | (.err e, c') => (.ok (sent, some e), c')
    | (.panic, c') => (.panic, c')
    | (.diverge, c') => (.diverge, c')

/-- `Write` (conn.go:471-508) on a connected Conn. -/
def DLive.write (c : DLive) (b : Bytes) : Res (Nat × Option Err) × DLive := c.writeAll (fragments b.length b) 0

/-- `SendKeyUpdate` (conn.go:839-866). `KeyUpdate` changes the state before any action is taken. -/
def DLive.update (W : World) (c : DLive) (request : Bool) : Res Unit × DLive :=
  match c.st.keyUpdate W.E c.x (if request then 1 else 0) with
  | .ok (s, acts, x) => DLive.orAbort .msg ({ c with st := s, x := x }.takeAll W acts)
  | .err (.alert a) => c.abort a .msg
  | .err e => (.err e, c)
  | .panic => (.panic, c)
  | .diverge => (.diverge, c)

/-- Sending a session ticket (conn.go:801-815). Its alert is overwritten if there are no actions (803-808). -/
def DLive.ticket (W : World) (c : DLive) (now : Int) (lifetime earlyDataLifetime ageAdd : UInt32) (nonce tkt : Bytes) :
    Res Unit × DLive :=
  match c.st.newSessionTicket W.E c.x now lifetime earlyDataLifetime ageAdd nonce tkt with
  | .ok (acts, x) =>
    match { c with x := x }.takeAll W acts with
    | (.err (.alert a), c') => c'.abort a (.alert a)
    | r => r
  | .err _ => (.ok (), c)
  | .panic => (.panic, c)
  | .diverge => (.diverge, c)

/-- A connection after the handshake: the state, and the application keys it installed. Of the earlier keys those of the
clear and those of the handshake (`hsOut`, `hsIn`) are still known to the record layers. -/
def DLive.start (W : World) (st : Connected) (x : Ctx) (nonBlocking : Bool) (serverName : Bytes)
    (hsOut hsIn outKeys inKeys : Machine.Keys) (conn : List (Except Err Bytes)) : DLive :=
  { st := st, x := x, nonBlocking := nonBlocking, serverName := serverName, hsRest := []
    reader := { Record.Reader.new true conn with
      keys := ((Record.Keys.new .read true).rekey epochHandshake (W.A st.cp hsIn.1) hsIn.2).rekey epochApplication
        (W.A st.cp inKeys.1) inKeys.2 }
    out := { Out.new with
      keys := ((Out.new.keys.setVersion 0x0303).rekey epochHandshake (W.A st.cp hsOut.1) hsOut.2).rekey epochApplication
        (W.A st.cp outKeys.1) outKeys.2 }
    readBuffer := [], closed := false, stored := [] }

/-- A call of the application. -/
inductive DCall where
  | read (now : Int) (expired : Bool) (fuel n : Nat)
  | write (b : Bytes)
  | update (request : Bool)
  | ticket (now : Int) (lifetime earlyDataLifetime ageAdd : UInt32) (nonce tkt : Bytes)
  | close
  deriving DecidableEq

/-- An error that does not stop the world. -/
def dReply : Res Unit × DLive → Res Reply × DLive
  | (.ok _, c) => (.ok {}, c)
  | (.err e, c) => (.ok { error := some e }, c)
  | (.panic, c) => (.panic, c)
  | (.diverge, c) => (.diverge, c)

def DLive.call (W : World) (c : DLive) : DCall → Res Reply × DLive
  | .read now expired fuel n =>
    match c.read W now expired fuel n with
    | (.ok b, c') => (.ok { bytes := b }, c')
    | (.err e, c') => (.ok { error := some e }, c')
    | (.panic, c') => (.panic, c')
    | (.diverge, c') => (.diverge, c')
  | .write b =>
    match c.write b with
    | (.ok (n, e), c') => (.ok { wrote := b.take n, error := e }, c')
    | (.err e, c') => (.ok { error := some e }, c')
    | (.panic, c') => (.panic, c')
    | (.diverge, c') => (.diverge, c')
  | .update request => dReply (c.update W request)
  | .ticket now lifetime early ageAdd nonce tkt => dReply (c.ticket W now lifetime early ageAdd nonce tkt)
  | .close => (.ok {}, { c with closed := true })

/-- Calls one after the other, until one panics: the replies and the connection at the end. -/
def DLive.calls (W : World) : DLive → List DCall → List (DCall × Reply) × DLive
  | c, [] => ([], c)
  | c, k :: ks =>
    match c.call W k with
    | (.ok r, c') => ((k, r) :: (DLive.calls W c' ks).1, (DLive.calls W c' ks).2)
    | (_, c') => ([], c')

/-- What arrives at a connection. -/
def DLive.arrives (c : DLive) (datagrams : List Bytes) : DLive :=
  { c with reader := { c.reader with conn := datagrams.map .ok } }

/-- The datagrams a connection has sent. -/
def DLive.datagrams (c : DLive) : List Bytes := c.out.wire.map WireRec.bytes

end Verif.Conn

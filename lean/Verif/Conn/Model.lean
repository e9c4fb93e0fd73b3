import Verif.Machine.Common
import Verif.Spec.Record

/-
Model of an established TLS connection: conn.go, Read, Write, SendKeyUpdate, consumeRecord, takeAction, sendAlert, on top of
the record layer and the connected state.

Not modelled here: DTLS (see `Verif.Conn.Datagram`), Config.RecordLayer, and calls made at the same time (see
`Verif.Conn.Concurrent`). Writing to the transport fails after Close only. Constructing an AEAD does not fail: its
keys have the right length. What the transport delivers is arbitrary.
-/

namespace Verif.Conn

open Verif Verif.Crypto Verif.Messages Verif.Negotiation Verif.Handshake Verif.Machine

/-- The world outside mint: that of the state machines, and the AEADs of the cipher suites (crypto.go:48-117) by key. -/
structure World where
  E : Env
  A : Params → Bytes → Record.Aead

/-- `Conn` (conn.go:259-277) once the handshake is complete. `hsRest` is what the frame reader of the handshake layer still
holds (`hsCtx.hIn.frame.remainder`). `closed`: the transport has been closed from this end. `stored` is what was put into
the PSK cache. `wire` and `log` are history, not part of the code: the bytes given to the transport; the records written to
it and the changes of keys between them. -/
structure Live where
  st : Connected
  x : Ctx
  nonBlocking : Bool
  serverName : Bytes
  hsRest : Bytes
  reader : Record.Reader
  out : Record.Keys
  readBuffer : Bytes
  closed : Bool
  stored : List (Bytes × Psk)
  wire : Bytes
  log : List Record.Item

/-- `WriteRecord` on the outgoing record layer (record-layer.go:453-455, 461-509), down to the transport. -/
def Live.writeRecord (c : Live) (ct : UInt8) (fragment : Bytes) : Res Unit × Live :=
  match Record.writeRecord c.out c.out.cur ct fragment 0 with
  | .ok (rec, k) =>
    if c.closed then (.err .msg, { c with out := k })
    else (.ok (), { c with out := k, wire := c.wire ++ rec, log := c.log ++ [.record ct fragment 0] })
  | .err e => (.err e, c)
  | .panic => (.panic, c)
  | .diverge => (.diverge, c)

/-- `Conn.sendAlert` (conn.go:512-536). The bytes are in this order in the code. Whether the record could be written is
ignored; unless the level is warning the transport is closed. -/
def Live.sendAlert (c : Live) (a : Nat) : Res Unit × Live :=
  let level : UInt8 := if a = 100 ∨ a = Alert.closeNotify then 1 else 2
  match c.writeRecord 21 [UInt8.ofNat a, level] with
  | (.panic, c') => (.panic, c')
  | (.diverge, c') => (.diverge, c')
  | (_, c') => (.ok (), if level = 1 then c' else { c' with closed := true })

/-- Records of a handshake message written one after the other (handshake-layer.go:507-519). -/
def Live.writeFragments (c : Live) : List Bytes → Res Unit × Live
  | [] => (.ok (), c)
  | f :: fs =>
    match c.writeRecord 22 f with
    | (.ok _, c') => c'.writeFragments fs
    | x => x

/-- Errors answered by AlertInternalError (conn.go:584-587, 593-596). -/
def internal : Res Unit × Live → Res Unit × Live
  | (.err _, c) => (alert Alert.internalError, c)
  | x => x

/-- `Conn.takeAction` (conn.go:575-643) over TLS, where a message is written as soon as it is queued
(handshake-layer.go:403-411). -/
def Live.takeAction (W : World) (c : Live) : Action → Res Unit × Live
  | .queue m =>
    match tlsWrite (2 ^ 14) m with
    | .ok fs => internal (c.writeFragments fs)
    | .err _ => (alert Alert.internalError, c)
    | .panic => (.panic, c)
    | .diverge => (.diverge, c)
  | .sendQueued => (.ok (), c)
  | .rekeyIn epoch k =>
    if c.hsRest ≠ [] then (alert Alert.decodeError, c)
    else (.ok (), { c with reader := { c.reader with keys := c.reader.keys.rekey epoch (W.A c.st.cp k.1) k.2 } })
  | .rekeyOut epoch k =>
    (.ok (), { c with out := c.out.rekey epoch (W.A c.st.cp k.1) k.2, log := c.log ++ [.rekey epoch (W.A c.st.cp k.1) k.2] })
  | .resetOut seq => (.ok (), { c with out := c.out.resetClear seq })
  | .storePsk psk =>
    (.ok (), { c with stored := c.stored ++ [(if c.st.isClient then c.serverName else hexString psk.identity, psk)] })

/-- The loop over actions (conn.go:348-355, 857-863). -/
def Live.takeAll (W : World) (c : Live) : List Action → Res Unit × Live
  | [] => (.ok (), c)
  | a :: as =>
    match c.takeAction W a with
    | (.ok _, c') => c'.takeAll W as
    | x => x

/-- An alert is sent, then an error is returned. -/
def Live.abort (c : Live) (a : Nat) (e : Err) : Res Unit × Live :=
  match c.sendAlert a with
  | (.ok _, c') => (.err e, c')
  | x => x

/-- What to do when processing a message or taking actions fails (conn.go:341-346, 350-354). -/
def Live.orAbort (e : Err) : Res Unit × Live → Res Unit × Live
  | (.err (.alert a), c) => c.abort a e
  | x => x

/-- `ProcessMessage`, then its actions, then the new state (conn.go:339-364). -/
def Live.process (W : World) (c : Live) (now : Int) (m : Msg) : Res Unit × Live :=
  match c.st.process W.E c.x now m with
  | .ok (s, acts, x) =>
    match { c with x := x }.takeAll W acts with
    | (.ok _, c') => (.ok (), { c' with st := s })
    | r => Live.orAbort .eof r
  | .err (.alert a) => c.abort a .eof
  | .err e => (.err e, c)
  | .panic => (.panic, c)
  | .diverge => (.diverge, c)

/-- The loop over the handshake messages in a record (conn.go:317-367), at most `n` of them. Over TLS a header is four
bytes. -/
def Live.postHandshake (W : World) (now : Int) : Nat → Live → Bytes → Res Unit × Live
  | 0, c, _ => (.diverge, c)
  | n + 1, c, b =>
    if b = [] then (.ok (), c)
    else if b.length < 4 then (.err .msg, c)
    else
      let len := beNat ((b.drop 1).take 3)
      if (b.drop 4).length < len then (.err .msg, c)
      else
        match c.process W now ⟨b.getD 0 0, 0, (b.drop 4).take len, 0, 0⟩ with
        | (.ok _, c') => Live.postHandshake W now n c' (b.drop (4 + len))
        | x => x

/-- The switch of `consumeRecord` (conn.go:314-398). -/
def Live.handle (W : World) (c : Live) (now : Int) (ct : UInt8) (fragment : Bytes) : Res Unit × Live :=
  if ct = 22 then Live.postHandshake W now (fragment.length + 1) c fragment
  else if ct = 21 then
    match fragment with
    | [level, code] =>
      if code = 0 then (.err .eof, c)
      else if level = 1 then (.ok (), c)
      else if level = 2 then (.err (alertErr code), c)
      else c.abort Alert.unexpectedMessage .eof
    | _ => c.abort Alert.unexpectedMessage .eof
  else if ct = 25 then (alert Alert.unexpectedMessage, c)
  else if ct = 23 then (.ok (), { c with readBuffer := c.readBuffer ++ fragment })
  else (.ok (), c)

/-- `consumeRecord` (conn.go:307-401). -/
def Live.consume (W : World) (c : Live) (now : Int) : Res Unit × Live :=
  match Record.readRecord c.reader false with
  | (.ok pt, r) => { c with reader := r }.handle W now pt.contentType pt.fragment
  | (.err e, r) => (.err e, { c with reader := r })
  | (.panic, r) => (.panic, { c with reader := r })
  | (.diverge, r) => (.diverge, { c with reader := r })

/-- `readPartial` (conn.go:403-410): what is copied into a buffer of `n` bytes. -/
def Live.readPartial (c : Live) (n : Nat) : Bytes × Live := (c.readBuffer.take n, { c with readBuffer := c.readBuffer.drop n })

/-- The loop of `Read` (conn.go:453-465), at most `fuel` rounds; a call that goes on longer has not returned yet, which is
represented by would-block. -/
def Live.readLoop (W : World) (now : Int) : Nat → Live → Res Unit × Live
  | 0, c => if c.readBuffer = [] then (.err .wouldBlock, c) else (.ok (), c)
  | fuel + 1, c =>
    if c.readBuffer = [] then
      match c.consume W now with
      | (.ok _, c') => Live.readLoop W now fuel c'
      | (.err e, c') => if c.nonBlocking = true ∨ e ≠ .wouldBlock then (.err e, c') else Live.readLoop W now fuel c'
      | x => x
    else (.ok (), c)

/-- `Read` (conn.go:414-468) with a buffer of `n` bytes: the bytes copied into it. -/
def Live.read (W : World) (c : Live) (now : Int) (fuel n : Nat) : Res Bytes × Live :=
  if n = 0 then (.ok [], c)
  else
    match Live.readLoop W now fuel c with
    | (.ok _, c') => (.ok (c'.readPartial n).1, (c'.readPartial n).2)
    | (.err e, c') => (.err e, c')
    | (.panic, c') => (.panic, c')
    | (.diverge, c') => (.diverge, c')

/-- The fragments of `Write` (conn.go:481-504): full ones, then the rest if there is one; at most `n` full ones. -/
def fragments : Nat → Bytes → List Bytes
  | 0, b => if b = [] then [] else [b]
  | n + 1, b =>
    if b.length ≥ 2 ^ 14 then b.take (2 ^ 14) :: fragments n (b.drop (2 ^ 14))
    else if b = [] then [] else [b]

/-- Writing fragments: the number of bytes sent and the error, if any. -/
def Live.writeAll (c : Live) : List Bytes → Nat → Res (Nat × Option Err) × Live
  | [], sent => (.ok (sent, none), c)
  | f :: fs, sent =>
    match c.writeRecord 23 f with
    | (.ok _, c') => c'.writeAll fs (sent + f.length)
    | (.err e, c') => (.ok (sent, some e), c')
    | (.panic, c') => (.panic, c')
    | (.diverge, c') => (.diverge, c')

/-- `Write` (conn.go:471-508) on a connected Conn. -/
def Live.write (c : Live) (b : Bytes) : Res (Nat × Option Err) × Live := c.writeAll (fragments b.length b) 0

/-- `SendKeyUpdate` (conn.go:839-866). `KeyUpdate` changes the state before any action is taken. -/
def Live.update (W : World) (c : Live) (request : Bool) : Res Unit × Live :=
  match c.st.keyUpdate W.E c.x (if request then 1 else 0) with
  | .ok (s, acts, x) => Live.orAbort .msg ({ c with st := s, x := x }.takeAll W acts)
  | .err (.alert a) => c.abort a .msg
  | .err e => (.err e, c)
  | .panic => (.panic, c)
  | .diverge => (.diverge, c)

/-- Sending a session ticket (conn.go:801-815). Its alert is overwritten if there are no actions (803-808). -/
def Live.ticket (W : World) (c : Live) (now : Int) (lifetime earlyDataLifetime ageAdd : UInt32) (nonce tkt : Bytes) :
    Res Unit × Live :=
  match c.st.newSessionTicket W.E c.x now lifetime earlyDataLifetime ageAdd nonce tkt with
  | .ok (acts, x) =>
    match { c with x := x }.takeAll W acts with
    | (.err (.alert a), c') => c'.abort a (.alert a)
    | r => r
  | .err _ => (.ok (), c)
  | .panic => (.panic, c)
  | .diverge => (.diverge, c)

/-- `Close` (conn.go:539-543). -/
def Live.close (c : Live) : Live := { c with closed := true }

/-- A connection after the handshake: the state, and the application keys it installed. -/
def Live.start (W : World) (st : Connected) (x : Ctx) (nonBlocking : Bool) (serverName : Bytes) (outKeys inKeys : Machine.Keys)
    (version : Nat) (conn : List (Except Err Bytes)) : Live :=
  { st := st, x := x, nonBlocking := nonBlocking, serverName := serverName, hsRest := []
    reader := { Record.Reader.new false conn with
      keys := (Record.Keys.new .read false).rekey epochApplication (W.A st.cp inKeys.1) inKeys.2 }
    out := ((Record.Keys.new .write false).setVersion version).rekey epochApplication (W.A st.cp outKeys.1) outKeys.2
    readBuffer := [], closed := false, stored := [], wire := [], log := [] }

/-! ### Calls one after the other -/

/-- A call of the application. -/
inductive Call where
  | read (now : Int) (fuel n : Nat)
  | write (b : Bytes)
  | update (request : Bool)
  | ticket (now : Int) (lifetime earlyDataLifetime ageAdd : UInt32) (nonce tkt : Bytes)
  | close

/-- What a call gives: the bytes read; the bytes written, as reported; the error, if any. -/
structure Reply where
  bytes : Bytes := []
  wrote : Bytes := []
  error : Option Err := none

/-- An error that does not stop the world. -/
def reply : Res Unit × Live → Res Reply × Live
  | (.ok _, c) => (.ok {}, c)
  | (.err e, c) => (.ok { error := some e }, c)
  | (.panic, c) => (.panic, c)
  | (.diverge, c) => (.diverge, c)

def Live.call (W : World) (c : Live) : Call → Res Reply × Live
  | .read now fuel n =>
    match c.read W now fuel n with
    | (.ok b, c') => (.ok { bytes := b }, c')
    | (.err e, c') => (.ok { error := some e }, c')
    | (.panic, c') => (.panic, c')
    | (.diverge, c') => (.diverge, c')
  | .write b =>
    match c.write b with
    | (.ok (n, e), c') => (.ok { wrote := b.take n, error := e }, c')
    | (.err e, c') => (.ok { error := some e }, c')
    | (.panic, c') => (.panic, c')
    | (.diverge, c') => (.diverge, c')
  | .update request => reply (c.update W request)
  | .ticket now lifetime early ageAdd nonce tkt => reply (c.ticket W now lifetime early ageAdd nonce tkt)
  | .close => (.ok {}, c.close)

/-- Calls one after the other, until one panics: the replies and the connection at the end. -/
def Live.calls (W : World) : Live → List Call → List (Call × Reply) × Live
  | c, [] => ([], c)
  | c, k :: ks =>
    match c.call W k with
    | (.ok r, c') => ((k, r) :: (Live.calls W c' ks).1, (Live.calls W c' ks).2)
    | (_, c') => ([], c')

end Verif.Conn

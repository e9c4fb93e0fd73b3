import Verif.Handshake.Layer
import Verif.Syntax.Model

/-
Model of the sending half of the DTLS handshake layer: queueing, fragmentation, retransmission and acknowledgements
(handshake-layer.go:403-536, dtls.go:20-129, 196-222), on top of the record layer's writer.

Not modelled: the transport below (a write error ends the history, see `Out.run`).
-/

namespace Verif.Handshake

open Verif Verif.Record

/-- An outgoing `HandshakeMessage`, handshake-layer.go:31-39. `cipher` is the address of the cipher state stored by
QueueMessage. -/
structure OutMsg where
  msgType : UInt8
  seq : Nat
  body : Bytes
  cipher : Nat
  deriving DecidableEq

/-- `SentHandshakeFragment`, dtls.go:20-26. -/
structure Sent where
  seq : Nat
  offset : Nat
  len : Nat
  record : Nat
  acked : Bool
  deriving DecidableEq

/-- A record handed to the transport: the key used, the number in its header, the handshake fragment it carries if any
(message number, offset, bytes). This log is not part of the code; it is what an observer of the wire sees. -/
structure WireRec where
  key : Nat
  number : Nat
  content : Option (Nat × Nat × Bytes)
  bytes : Bytes
  deriving DecidableEq

/-- The sending side: `h.ctx.hOut` and its record layer, `h.ctx.sentFragments`, whether the retransmission timer is armed.
`room` is `maxFragmentLen`. `wire` and `acks` (the record numbers in the ACKs processed) are history. -/
structure Out where
  keys : Keys
  room : Nat
  queued : List OutMsg
  sent : List Sent
  timer : Bool
  wire : List WireRec
  acks : List Nat

/-- `NewHandshakeLayerDTLS`, handshake-layer.go:166-174, over a new record layer; `initialMtu` is 1200. -/
def Out.new : Out := ⟨Keys.new .write true, 1200, [], [], false, [], []⟩

/-- `fragmentAcked`, dtls.go:196-222. -/
def fragmentAcked (sent : List Sent) (seq offset len : Nat) : Bool :=
  sent.any fun f => f.acked && f.seq == seq && decide (f.offset ≤ offset) && decide (f.offset + f.len ≥ offset + len)

/-- `QueueMessage`, handshake-layer.go:403-411. -/
def Out.queue (o : Out) (msgType : UInt8) (seq : Nat) (body : Bytes) : Out :=
  { o with queued := o.queued ++ [⟨msgType, seq, body, o.keys.cur⟩] }

/-- A record is written: the wire log grows. -/
def Out.emit (o : Out) (key : Nat) (ct : UInt8) (fragment : Bytes) (content : Option (Nat × Nat × Bytes)) : Res Out :=
  (writeRecord o.keys key ct fragment 0).bind fun (rec, k) =>
  .ok { o with keys := k, wire := o.wire ++ [⟨key, combineSeq (o.keys.heap key) true, content, rec⟩] }

/-- `writeFragment`, handshake-layer.go:427-494, DTLS. Line 480 remembers the number of the layer's *current* cipher state,
line 488 writes with the message's. With `room` below the header length line 450 slices out of range. -/
def Out.writeFragment (o : Out) (m : OutMsg) (start : Nat) : Res (Bool × Nat × Out) :=
  if o.room ≤ 12 then .panic
  else
    let n := min (m.body.length - start) (o.room - 12)
    let body := (m.body.drop start).take n
    if fragmentAcked o.sent m.seq start n then .ok (false, start + n, o)
    else
      let buf := Msg.marshal true ⟨m.msgType, m.seq, body, start, m.body.length⟩
      let sent := o.sent ++ [⟨m.seq, start, body.length, combineSeq (o.keys.heap o.keys.cur) true, false⟩]
      ({ o with sent := sent }.emit m.cipher 22 buf (some (m.seq, start, body))).bind fun o' =>
      .ok (true, start + n, o')

/-- The loop of `WriteMessage`, handshake-layer.go:507-519. -/
def Out.writeLoop (m : OutMsg) : Nat → Out → Nat → Nat → Res (Nat × Out)
  | 0, _, _, _ => .diverge
  | fuel + 1, o, start, written =>
    (o.writeFragment m start).bind fun (wrote, start', o') =>
    let written' := if wrote then written + 1 else written
    if start' ≥ m.body.length then .ok (written', o') else Out.writeLoop m fuel o' start' written'

/-- `WriteMessage`, handshake-layer.go:496-522. The fuel is never used up: `writeLoop_ne_diverge`. -/
def Out.writeMessage (o : Out) (m : OutMsg) : Res (Nat × Out) :=
  if m.body.length > 2 ^ 24 then .err .msg else o.writeLoop m (m.body.length + 1) 0 0

/-- `WriteMessages`, handshake-layer.go:524-536. -/
def Out.writeMessages : List OutMsg → Nat → Out → Res (Nat × Out)
  | [], written, o => .ok (written, o)
  | m :: ms, written, o => (o.writeMessage m).bind fun (n, o') => Out.writeMessages ms (written + n) o'

/-- `SendQueuedMessages`, handshake-layer.go:413-420, DTLS. -/
def Out.sendQueued (o : Out) : Res (Nat × Out) := Out.writeMessages o.queued 0 o

/-- The type `DtlsAck`, dtls.go:28-30. -/
def ackTy : Syntax.Ty (List UInt64 × Unit) :=
  .struct (.cons { headerSize := 2 } (.slice (.uint .w8)) .nil)

/-- Lines 92-100 of dtls.go: the record numbers in an ACK. -/
def ackNumbers (data : Bytes) : Res (List Nat) :=
  (Syntax.unmarshal ackTy data).bind fun ((nums, _), read) =>
  if data.length ≠ read then .err .msg else .ok (nums.map UInt64.toNat)

/-- Lines 102-110 of dtls.go. -/
def markAcked (nums : List Nat) (sent : List Sent) : List Sent :=
  sent.map fun f => if nums.contains f.record then { f with acked := true } else f

/-- `processAck`, dtls.go:87-129. -/
def Out.processAck (o : Out) (data : Bytes) : Res Out :=
  (ackNumbers data).bind fun nums =>
  let o1 := { o with timer := false, sent := markAcked nums o.sent, acks := o.acks ++ nums }
  o1.sendQueued.bind fun (count, o2) =>
  if count = 0 then .ok { o2 with queued := [] } else .ok { o2 with timer := true }

/-- What happens to the sending side. -/
inductive OutOp where
  /-- `QueueHandshakeMessage`, conn.go:582-588 -/
  | queue (msgType : UInt8) (seq : Nat) (body : Bytes)
  /-- `SendQueuedHandshake`, conn.go:590-601, and the expiry of the timer, dtls.go:50-61 -/
  | send
  /-- an ACK record is received -/
  | ack (data : Bytes)
  /-- the next flight begins to arrive, dtls.go:147-157 -/
  | nextFlight
  /-- `RekeyOut`, conn.go:614-620 -/
  | rekey (epoch : Nat) (a : Aead) (iv : Bytes)
  /-- `ResetOut`, conn.go:622-624 -/
  | resetClear (seq : Nat)
  /-- `SetVersion` -/
  | version (v : Nat)
  /-- any other record: ACKs, alerts, application data -/
  | other (ct : UInt8) (fragment : Bytes)

def Out.op (o : Out) : OutOp → Res Out
  | .queue t s b => .ok (o.queue t s b)
  | .send => o.sendQueued.bind fun (_, o') => .ok { o' with timer := true }
  | .ack data => o.processAck data
  | .nextFlight => .ok { o with queued := [], timer := false }
  | .rekey e a iv => .ok { o with keys := o.keys.rekey e a iv }
  | .resetClear s => .ok { o with keys := o.keys.resetClear s }
  | .version v => .ok { o with keys := o.keys.setVersion v }
  | .other ct f => o.emit o.keys.cur ct f none

/-- A history, up to the first error. -/
def Out.run (o : Out) : List OutOp → Res Out
  | [] => .ok o
  | op :: ops => (o.op op).bind fun o' => o'.run ops

end Verif.Handshake

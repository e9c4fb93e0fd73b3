import Verif.Record.Model

/-
Model of the receiving half of handshake-layer.go, and of message marshalling and TLS fragmentation.

The record layer below is represented by the list of outcomes of successive ReadRecord (TLS) or ReadRecordAnyEpoch
(DTLS) calls; `Verif.Record` models how these come about. `h.ctx.hIn` is the layer itself.
-/

namespace Verif.Handshake

open Verif Verif.Record

/-- `HandshakeMessage`, handshake-layer.go:31-39, without `datagram` (a property of the layer) and `cipher` (outgoing
messages only). `seq`, `offset`, `length` are uint32 in Go and read from fields of 2, 3 and 3 bytes. -/
structure Msg where
  msgType : UInt8
  seq : Nat
  body : Bytes
  offset : Nat
  length : Nat
  deriving DecidableEq

/-- `HandshakeMessage.Marshal`, handshake-layer.go:45-68, for a non-nil message. -/
def Msg.marshal (datagram : Bool) (m : Msg) : Bytes :=
  if datagram then
    m.msgType :: beBytes 3 m.length ++ beBytes 2 m.seq ++ beBytes 3 m.offset ++ beBytes 3 m.body.length ++ m.body
  else m.msgType :: beBytes 3 m.length ++ m.body

/-- Frame format of handshake messages, handshake-layer.go:133-154: the last three header bytes. -/
def hsFraming (datagram : Bool) : Framing where
  headerLen := if datagram then 12 else 4
  frameLen hdr := .ok (beNat (hdr.drop (hdr.length - 3)))

/-- The receiving side of `HandshakeLayer`, handshake-layer.go:120-131. `epoch` is `h.ctx.hIn.conn.Epoch()`. -/
structure HsIn where
  datagram : Bool
  nonblocking : Bool
  epoch : Nat
  frame : FrameReader
  msgSeq : Nat
  queued : List Msg
  recvd : List Nat

/-- `NewHandshakeLayerTLS`, `NewHandshakeLayerDTLS`, handshake-layer.go:156-174. -/
def HsIn.new (datagram nonblocking : Bool) : HsIn :=
  { datagram := datagram, nonblocking := nonblocking, epoch := 0, frame := FrameReader.new (hsFraming datagram)
    msgSeq := 0, queued := [], recvd := [] }

/-- An `Alert` value used as an error: AlertWouldBlock is Alert(254), alert.go:44. -/
def alertErr (code : UInt8) : Err := if code = 254 then .wouldBlock else .alert code.toNat

/-- `readRecord`, handshake-layer.go:176-229, given what the record layer returned. `onAck` is
`h.ctx.processAck` (dtls.go:87-129), modelled in `Verif.Handshake.Flight`; it does not touch the receiving side.
A record with alert type and fewer than two bytes is indexed before its length is checked (line 205). -/
def HsIn.readRecord (h : HsIn) (onAck : Bytes → Res Unit) (r : Except Err Plaintext) : Res HsIn :=
  match r with
  | .error e => .err e
  | .ok pt =>
    if pt.contentType ≠ 22 ∧ pt.contentType ≠ 21 ∧ pt.contentType ≠ 25 then .err .msg
    else if pt.contentType = 25 then
      if h.datagram = false then .err .msg
      else (onAck pt.fragment).bind fun _ => .ok h
    else if pt.contentType = 21 then
      match pt.fragment with
      | _ :: code :: _ => .err (alertErr code)
      | _ => .panic
    else if pt.epoch ≠ h.epoch then
      if pt.epoch = 0 ∨ pt.epoch = 2 then .ok h else .err (.alert 47)
    else .ok { h with recvd := h.recvd ++ [pt.seq], frame := h.frame.addChunk pt.fragment }

/-- The loop of `noteMessageDelivered`, handshake-layer.go:250-256: the index at which `range` stops. When no entry
is beyond `seq` the loop variable is left at the *last* index, not behind it. -/
def stopIndex (seq : Nat) : List Msg → Nat
  | [] => 0
  | [_] => 0
  | m :: m' :: ms => if m.seq > seq then 0 else stopIndex seq (m' :: ms) + 1

/-- `noteMessageDelivered`, handshake-layer.go:248-258. -/
def HsIn.noteDelivered (h : HsIn) (seq : Nat) : HsIn :=
  { h with msgSeq := seq + 1, queued := h.queued.drop (stopIndex seq h.queued) }

/-- `copy(buf[off:], body)`: writes as much of `body` as fits; `buf[off:]` panics beyond the end. -/
def copyAt (buf : Bytes) (off : Nat) (body : Bytes) : Res Bytes :=
  if off > buf.length then .panic
  else .ok (buf.take off ++ body.take (buf.length - off) ++ buf.drop (off + body.length))

/-- The loop of `checkMessageAvailable`, handshake-layer.go:316-343. `none`: the message is not complete.
Sums do not overflow uint32 (offsets and lengths are below 2^24). -/
def assemble (seq length : Nat) : List Msg → Nat → Bytes → Res (Option Bytes)
  | [], _, _ => .ok none
  | f :: fs, fin, buf =>
    if f.seq > seq then .ok none
    else if f.length ≠ buf.length then .err .msg
    else if f.offset > fin then .ok none
    else if f.offset + f.body.length > fin then
      (copyAt buf f.offset f.body).bind fun buf' =>
      if f.offset + f.body.length = length then .ok (some buf')
      else assemble seq length fs (f.offset + f.body.length) buf'
    else assemble seq length fs fin buf

/-- `checkMessageAvailable`, handshake-layer.go:296-347: the outcome and the state afterwards. -/
def HsIn.check (h : HsIn) : Res (Option Msg) × HsIn :=
  match h.queued with
  | [] => (.ok none, h)
  | hm :: _ =>
    if hm.seq ≠ h.msgSeq then (.ok none, h)
    else if hm.offset = 0 ∧ hm.length = hm.body.length then (.ok (some hm), h.noteDelivered hm.seq)
    else
      match assemble hm.seq hm.length h.queued 0 (List.replicate hm.length 0) with
      | .ok none => (.ok none, h)
      | .ok (some buf) => (.ok (some { hm with offset := 0, body := buf }), h.noteDelivered hm.seq)
      | .err e => (.err e, h)
      | .panic => (.panic, h)
      | .diverge => (.diverge, h)

/-- Insertion into the queue, handshake-layer.go:278-292. The entry goes before the first one with a larger
sequence number *or* a larger offset. -/
def insertFrag (hm : Msg) : List Msg → List Msg
  | [] => [hm]
  | f :: fs => if hm.seq < f.seq ∨ hm.offset < f.offset then hm :: f :: fs else f :: insertFrag hm fs

/-- `newFragmentReceived`, handshake-layer.go:260-294. The call `h.ctx.receivedHandshakeMessage()` only concerns
the sending side and timers. -/
def HsIn.received (h : HsIn) (hm : Msg) : Res (Option Msg) × HsIn :=
  if hm.seq < h.msgSeq then (.ok none, h)
  else if hm.seq = h.msgSeq ∧ hm.offset = 0 ∧ hm.length = hm.body.length then
    (.ok (some hm), h.noteDelivered hm.seq)
  else { h with queued := insertFrag hm h.queued }.check

/-- The fragment a DTLS frame stands for, handshake-layer.go:384-397. -/
def parseFrag (hdr body : Bytes) : Msg :=
  ⟨hdr.getD 0 0, beNat ((hdr.drop 4).take 2), body, beNat ((hdr.drop 6).take 3), beNat ((hdr.drop 1).take 3)⟩

/-- Lines 382-400 of handshake-layer.go: from a frame to a message (TLS) or fragment (DTLS). -/
def HsIn.deliver (h : HsIn) (hdr body : Bytes) : Res (Option Msg) × HsIn :=
  if h.datagram then h.received (parseFrag hdr body)
  else (.ok (some ⟨hdr.getD 0 0, 0, body, 0, body.length⟩), h)

/-- Lines 371-400 of handshake-layer.go: `process`, then the message or fragment. `none`: would-block. -/
def HsIn.processFrame (h : HsIn) : Option (Res (Option Msg)) × HsIn :=
  match h.frame.process (hsFraming h.datagram) with
  | (none, f) => (none, { h with frame := f })
  | (some (.error e), f) => (some (.err e), { h with frame := f })
  | (some (.ok (hdr, body)), f) =>
    (some ({ h with frame := f }.deliver hdr body).1, ({ h with frame := f }.deliver hdr body).2)

/-- The outcomes of successive calls of ReadRecord or ReadRecordAnyEpoch. -/
abbrev Feed := List (Except Err Plaintext)

/-- At most `n` rounds of the loop of `ReadMessage`, handshake-layer.go:360-380: the result, the state and the
outcomes not used. When the feed is exhausted nothing more arrives: the caller sees would-block (a blocking call is
still waiting). -/
def HsIn.readLoop (onAck : Bytes → Res Unit) : Nat → Feed → HsIn → Res (Option Msg) × HsIn × Feed
  | 0, feed, h => (.diverge, h, feed)
  | n + 1, feed, h =>
    let processStep (feed : Feed) (h : HsIn) : Res (Option Msg) × HsIn × Feed :=
      match h.processFrame with
      | (some r, h') => (r, h', feed)
      | (none, h') => if h.nonblocking then (.err .wouldBlock, h', feed) else HsIn.readLoop onAck n feed h'
    if h.frame.needed > 0 then
      match feed with
      | [] => (.err .wouldBlock, h, [])
      | r :: feed =>
        match h.readRecord onAck r with
        | .ok h' => processStep feed h'
        | .err e =>
          if h.nonblocking = true ∨ e ≠ .wouldBlock then (.err e, h, feed) else processStep feed h
        | .panic => (.panic, h, feed)
        | .diverge => (.diverge, h, feed)
    else processStep feed h

/-- `ReadMessage`, handshake-layer.go:349-401. `none` is a nil message with a nil error. The bound on the rounds is
never what ends the loop (`C22_reading_safe_partial`). -/
def HsIn.readMessage (onAck : Bytes → Res Unit) (feed : Feed) (h : HsIn) : Res (Option Msg) × HsIn × Feed :=
  match h.check with
  | (.ok none, h') => h'.readLoop onAck (2 * feed.length + 2) feed
  | (r, h') => (r, h', feed)

/-- The receiving handshake layer and the action RekeyIn, conn.go:598-609: refused with decode_error while the frame reader
has bytes not looked at. The keys themselves belong to the record layer; here only the epoch changes. -/
def HsIn.rekeyIn (h : HsIn) (epoch : Nat) : Res HsIn :=
  if h.frame.remainder ≠ [] then .err (.alert 50) else .ok { h with epoch := epoch }

/-! ### Writing over TLS -/

/-- `WriteMessage` over TLS, handshake-layer.go:496-522 with writeFragment (427-494): the fragments given to
WriteRecord. The first carries the header. `room` is `maxFragmentLen`, 2^14. (`fragmentAcked` is false: TLS
records nothing in `sentFragments`.) -/
def tlsFragments (room : Nat) (m : Msg) : Bytes × List Bytes :=
  let rec more : Nat → Bytes → List Bytes
    | 0, _ => []
    | n + 1, b => if b = [] then [] else b.take room :: more n (b.drop room)
  (m.msgType :: beBytes 3 m.length ++ m.body.take (room - 4), more m.body.length (m.body.drop (room - 4)))

/-- The length check of `WriteMessage`, then its fragments; `room` exactly 4 panics in Go (line 441). -/
def tlsWrite (room : Nat) (m : Msg) : Res (List Bytes) :=
  if m.body.length > 2 ^ 24 then .err .msg
  else if room = 4 then .panic
  else .ok ((tlsFragments room m).1 :: (tlsFragments room m).2)

end Verif.Handshake

import Verif.Handshake.Flight

/-
Model of the part of dtls.go that acknowledges (63-85, 135-194), on top of the receiving side (handshake-layer.go) and the sending
side (`Verif.Handshake.Flight`) of one end.

Simplifications. `ReadMessage` (handshake-layer.go:349-401) is taken apart into its steps: a look into the queue, a record, a frame;
every call is a sequence of these. Of the timers only whether the ACK timer is armed is kept (`getTimer(ackTimerLabel) != nil`);
when it fires is up to the environment.
-/

namespace Verif.Handshake

open Verif Verif.Record

/-- One end over datagrams: `HandshakeContext` (state-machine.go:70-79) with `hIn` and `hOut`. `said` is history: the record numbers
in the ACKs given to the record layer. -/
structure Side where
  hin : HsIn
  out : Out
  waiting : Bool
  ackTimer : Bool
  said : List (List Nat)

/-- `NewConn`, conn.go:292-300. -/
def Side.new (nonblocking : Bool) : Side := ⟨HsIn.new true nonblocking, Out.new, true, false, []⟩

/-- `count` of `sendAck`, dtls.go:66: `(initialMtu - 2) / 8`. -/
def ackCount : Nat := (1200 - 2) / 8

/-- `sendAck`, dtls.go:63-85. -/
def Side.sendAck (s : Side) : Res Side :=
  (Syntax.marshal ackTy ((s.hin.recvd.take ackCount).map UInt64.ofNat, ())).bind fun body =>
  (s.out.emit s.out.keys.cur 25 body none).bind fun o => .ok { s with out := o, said := s.said ++ [s.hin.recvd.take ackCount] }

/-- `receivedHandshakeMessage`, dtls.go:135-162. -/
def Side.receivedHandshake (s : Side) : Side :=
  let s := if s.waiting then { s with out := { s.out with queued := [], timer := false }, waiting := false } else s
  { s with ackTimer := true }

/-- `receivedEndOfFlight`, dtls.go:164-181. -/
def Side.endOfFlight (s : Side) : Side :=
  { s with hin := { s.hin with queued := [], recvd := [] }, waiting := true, ackTimer := false }

/-- `receivedFinalFlight`, dtls.go:183-194. The error of `sendAck` is ignored. -/
def Side.finalFlight (s : Side) : Res Side :=
  match { s with ackTimer := false }.sendAck with
  | .ok s' => .ok s'
  | .err _ => .ok { s with ackTimer := false }
  | .panic => .panic
  | .diverge => .diverge

/-- A record that the record layer returned, handshake-layer.go:176-229. An ACK goes to `processAck`. -/
def Side.record (s : Side) (pt : Plaintext) : Res Side :=
  if pt.contentType = 25 then (s.out.processAck pt.fragment).bind fun o => .ok { s with out := o }
  else (s.hin.readRecord (fun _ => .ok ()) (.ok pt)).bind fun h => .ok { s with hin := h }

/-- A frame is taken from the frame reader, handshake-layer.go:371-400, 260-294: the message it completes, if any. -/
def Side.frame (s : Side) : Res (Option Msg) × Side :=
  match s.hin.frame.process (hsFraming true) with
  | (none, f) => (.ok none, { s with hin := { s.hin with frame := f } })
  | (some (.error e), f) => (.err e, { s with hin := { s.hin with frame := f } })
  | (some (.ok (hdr, body)), f) =>
    let s := { s with hin := { s.hin with frame := f } }
    let s' := if (parseFrag hdr body).seq < s.hin.msgSeq then s else s.receivedHandshake
    ((s'.hin.received (parseFrag hdr body)).1, { s' with hin := (s'.hin.received (parseFrag hdr body)).2 })

/-- What happens at an end. -/
inductive SideOp where
  /-- a record arrives -/
  | record (pt : Plaintext)
  /-- a frame is looked at -/
  | frame
  /-- the queue is looked at, handshake-layer.go:352-358 -/
  | available
  /-- the last message of a flight was accepted (server-state-machine.go:382, client-state-machine.go:416, 1071) -/
  | endOfFlight
  /-- the last message of the handshake was accepted (server-state-machine.go:1158) -/
  | finalFlight
  /-- the ACK timer fires, if armed (timer.go:59-78) -/
  | ackTimer
  /-- the keys for reading change, conn.go:598-609 -/
  | rekeyIn (epoch : Nat)
  /-- something happens on the sending side only -/
  | out (op : OutOp)

def Side.op (s : Side) : SideOp → Res Side
  | .record pt => s.record pt
  | .frame => .ok s.frame.2
  | .available => .ok { s with hin := s.hin.check.2 }
  | .endOfFlight => .ok s.endOfFlight
  | .finalFlight => s.finalFlight
  | .ackTimer => if s.ackTimer then { s with ackTimer := false }.sendAck else .ok s
  | .rekeyIn n => (s.hin.rekeyIn n).bind fun h => .ok { s with hin := h }
  | .out op => (s.out.op op).bind fun o => .ok { s with out := o }

/-- A history, up to the first error. -/
def Side.run (s : Side) : List SideOp → Res Side
  | [] => .ok s
  | op :: ops => (s.op op).bind fun s' => s'.run ops

end Verif.Handshake

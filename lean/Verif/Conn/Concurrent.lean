import Verif.Conn.Model

/-
Model of goroutines that use an established connection at the same time: conn.go, Read and Write, down to the single reads and
writes of what they share.

What is shared here is the outgoing record layer and the locks. A goroutine is a program over these; what it computes by
itself, and what a Read has received and therefore answers, is part of the program. Steps of different goroutines are
interleaved arbitrarily; memory is sequentially consistent and words are read and written at once. (The Go memory model
promises less to programs with data races.)
-/

namespace Verif.Conn

open Verif

/-- The mutexes: `c.in`, `c.out`, `c.handshakeMutex` (conn.go:452, 473, 513). -/
inductive Lock where
  | inp | out | hs
  deriving DecidableEq

/-- What a goroutine does with what is shared. `record`: WriteRecord on `c.out`, and how it goes on if that succeeds or fails.
`rekey`: Rekey on `c.out` (record-layer.go:179-189). -/
inductive Prog where
  | done
  | lock (l : Lock) (k : Prog)
  | unlock (l : Lock) (k : Prog)
  | record (ct : UInt8) (fragment : Bytes) (ok fail : Prog)
  | rekey (epoch : Nat) (a : Record.Aead) (iv : Bytes) (k : Prog)

/-- A call of Seal: the cipher state (its address) with its key, the nonce and the plaintext. -/
structure Seal where
  key : Nat
  nonce : Bytes
  plain : Bytes
  deriving DecidableEq

/-- Where a goroutine is within WriteRecord (record-layer.go:453-509). -/
inductive Phase where
  /-- Not in it. -/
  | idle
  /-- `r.cipher` was read (454). -/
  | picked (i : Nat)
  /-- `cipher.seq` was read (462). -/
  | numbered (i seq : Nat)
  /-- The record is ready (504). -/
  | ready (i : Nat) (s : Option Seal) (rec : Bytes)
  /-- `c.seq` was found small enough (227-233). -/
  | checked (i : Nat) (s : Option Seal) (rec : Bytes)
  /-- `c.seq++` has read (234). -/
  | loaded (i n : Nat) (s : Option Seal) (rec : Bytes)
  /-- `c.seq++` has written (234). -/
  | counted (s : Option Seal) (rec : Bytes)

structure Thread where
  prog : Prog
  phase : Phase

/-- What is shared. `sealed`, `sent` and `wire` are history: the calls of Seal, those whose result was written to the
transport, and the bytes written to it. `dead`: a goroutine has panicked, which ends the program. -/
structure Shared where
  keys : Record.Keys
  locks : Lock → Option Nat
  sealed : List Seal
  sent : List Seal
  wire : Bytes
  dead : Bool

/-- From the header to the ciphertext (record-layer.go:463-500), with the number read before: the call of Seal, if there is
one, the header, and what follows it. -/
def encipher (k : Record.Keys) (i seq : Nat) (ct : UInt8) (fragment : Bytes) : Res (Option Seal × Bytes × Bytes) :=
  match (k.heap i).aead with
  | some a =>
    (Record.recordHeader k 23 seq (fragment.length + (1 + 0 + a.overhead))).bind fun header =>
    if k.direction ≠ .write then .panic
    else
      (Record.computeNonce (k.heap i) seq).bind fun nonce =>
      .ok (some ⟨i, nonce, Record.innerPlaintext ct fragment 0⟩, header, a.sealing nonce (Record.innerPlaintext ct fragment 0) header)
  | none =>
    (Record.recordHeader k ct seq fragment.length).bind fun header => .ok (none, header, fragment)

def setLock (locks : Lock → Option Nat) (l : Lock) (o : Option Nat) : Lock → Option Nat := fun l' => if l' = l then o else locks l'

/-- One step of goroutine `id`; `wrote` is whether the transport takes what is written to it, if something is. A goroutine that
waits for a lock, or has ended, does nothing. -/
def Thread.step (s : Shared) (id : Nat) (wrote : Bool) (t : Thread) : Shared × Thread :=
  match t.prog with
  | .done => (s, t)
  | .lock l k =>
    match s.locks l with
    | none => ({ s with locks := setLock s.locks l (some id) }, ⟨k, .idle⟩)
    | some _ => (s, t)
  | .unlock l k => ({ s with locks := setLock s.locks l none }, ⟨k, .idle⟩)
  | .rekey epoch a iv k => ({ s with keys := s.keys.rekey epoch a iv }, ⟨k, .idle⟩)
  | .record ct f ok fail =>
    match t.phase with
    | .idle => (s, { t with phase := .picked s.keys.cur })
    | .picked i => (s, { t with phase := .numbered i (Record.combineSeq (s.keys.heap i) s.keys.datagram) })
    | .numbered i seq =>
      match encipher s.keys i seq ct f with
      | .ok (c, header, ciphertext) =>
        let s := { s with sealed := s.sealed ++ c.toList }
        if ciphertext.length > 2 ^ 14 then (s, ⟨fail, .idle⟩)
        else (s, { t with phase := .ready i c (header ++ ciphertext) })
      | _ => ({ s with dead := true }, t)
    | .ready i c rec =>
      if (s.keys.heap i).seq ≥ 2 ^ 48 - 1 then ({ s with dead := true }, t)
      else (s, { t with phase := .checked i c rec })
    | .checked i c rec => (s, { t with phase := .loaded i (s.keys.heap i).seq c rec })
    | .loaded i n c rec =>
      ({ s with keys := { s.keys with heap := Record.upd s.keys.heap i { s.keys.heap i with seq := n + 1 } } },
        { t with phase := .counted c rec })
    | .counted c rec =>
      if wrote then ({ s with sent := s.sent ++ c.toList, wire := s.wire ++ rec }, ⟨ok, .idle⟩)
      else (s, ⟨fail, .idle⟩)

/-- Goroutines and what they share. -/
structure Sys where
  sh : Shared
  th : Nat → Thread

/-- One step of one goroutine. -/
def Sys.step (S : Sys) (c : Nat × Bool) : Sys :=
  if S.sh.dead then S
  else
    let r := (S.th c.1).step S.sh c.1 c.2
    ⟨r.1, fun j => if j = c.1 then r.2 else S.th j⟩

/-- A schedule: who makes the next step, and whether the transport takes what is written. -/
def Sys.run (S : Sys) (sched : List (Nat × Bool)) : Sys := sched.foldl Sys.step S

/-! ### Calls -/

/-- The fragments of Write (conn.go:481-504), then return. -/
def writeRecords (k : Prog) : List Bytes → Prog
  | [] => k
  | f :: fs => .record 23 f (writeRecords k fs) k

/-- `Write` (conn.go:471-508), then `k`. -/
def writeProg (b : Bytes) (k : Prog) : Prog := .lock .out (writeRecords (.unlock .out k) (fragments b.length b))

/-- `sendAlert` (conn.go:512-536), then `k`. Closing the transport makes writes fail, which they may at any time. -/
def alertProg (a : UInt8) (level : UInt8) (k : Prog) : Prog :=
  .lock .hs (.record 21 [a, level] (.unlock .hs k) (.unlock .hs k))

/-- What a record that was received makes Read do with the outgoing layer: nothing; answer a KeyUpdate with the given message
and the next key (conn.go:339-364, state-machine.go:113-137), or send an alert and return (conn.go:341-354, 369-384). -/
inductive Answer where
  | quiet
  | update (fragment : Bytes) (epoch : Nat) (a : Record.Aead) (iv : Bytes)
  | alert (a level : UInt8)

/-- The loop of Read (conn.go:454-465). -/
def readAnswers (k : Prog) : List Answer → Prog
  | [] => k
  | .quiet :: as => readAnswers k as
  | .update f epoch a iv :: as => .record 22 f (.rekey epoch a iv (readAnswers k as)) (alertProg 80 2 k)
  | .alert a level :: _ => alertProg a level k

/-- `Read` (conn.go:414-468), then `k`. -/
def readProg (as : List Answer) (k : Prog) : Prog := .lock .inp (readAnswers (.unlock .inp k) as)

/-- Calls of an application. -/
inductive CCall where
  | write (b : Bytes)
  | read (as : List Answer)

/-- What a goroutine does that makes these calls one after the other. -/
def callsProg : List CCall → Prog
  | [] => .done
  | .write b :: ks => writeProg b (callsProg ks)
  | .read as :: ks => readProg as (callsProg ks)

/-- Goroutines that have not started yet, on a connection with the given outgoing keys. -/
def Sys.start (k : Record.Keys) (calls : Nat → List CCall) : Sys where
  sh := ⟨k, fun _ => none, [], [], [], false⟩
  th := fun i => ⟨callsProg (calls i), .idle⟩

end Verif.Conn

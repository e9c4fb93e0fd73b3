import Verif.Conn.Model
import Verif.Spec.Views

/-
Vocabulary for stating what an application sees of a connection: the bytes it gets from Read and the bytes Write reports.
-/

namespace Verif.Spec

open Verif Verif.Crypto Verif.Machine Verif.Conn Verif.Record

/-- The application data among records. -/
def appData : List Item → Bytes
  | [] => []
  | .record ct f _ :: is => (if ct = 23 then f else []) ++ appData is
  | .rekey _ _ _ :: is => appData is

/-- Where a writer is after some records and changes of keys: how often the keys changed, and how many records were written
with the latest ones. -/
def position : List Item → Nat × Nat → Nat × Nat
  | [], p => p
  | .record _ _ _ :: is, (g, j) => position is (g, j + 1)
  | .rekey _ _ _ :: is, (g, _) => position is (g + 1, 0)

/-- The bytes Write reported as written. -/
def written (rs : List (Call × Reply)) : Bytes := rs.flatMap fun r => r.2.wrote

/-- The bytes Read returned, until it reported end of file. -/
def gotten : List (Call × Reply) → Bytes
  | [] => []
  | r :: rs => r.2.bytes ++ if r.2.error = some .eof then [] else gotten rs

/-- The traffic secret label of a direction. -/
def trafficLabel (fromClient : Bool) : Bytes := if fromClient then ascii "c ap traffic" else ascii "s ap traffic"

/-- Key and IV after `g` key updates, for the first secret `s`. -/
def generation (W : World) (cp : Params) (fromClient : Bool) (s : Bytes) (g : Nat) : Machine.Keys :=
  trafficKeys W.E.P cp.hash cp.keyLen cp.ivLen (updates W.E.P cp.hash (trafficLabel fromClient) g s)

/-- None of the frames is a forgery: if one opens under a key that the writer, whose history is `log`, has had, then the
writer has sealed what it contains under that key and with that nonce. -/
def NoForgery (W : World) (cp : Params) (fromClient : Bool) (s : Bytes) (log : List Item) (frames : List FrameEvent) : Prop :=
  ∀ g nonce header body p, g ≤ (position log (0, 0)).1 → .ok (header, body) ∈ frames →
    (W.A cp (generation W cp fromClient s g).1).opening nonce body header = some p →
    ∃ pre ct f pad post j, log = pre ++ .record ct f pad :: post ∧ position pre (0, 0) = (g, j) ∧
      computeNonce ⟨0, 0, (generation W cp fromClient s g).2, none⟩ j = .ok nonce ∧ p = innerPlaintext ct f pad

/-- The frames in what a transport delivers. -/
def delivered (conn : List (Except Err Bytes)) : List FrameEvent := frameEvents (recordFraming false) (connData conn)

/-- A connection that can write: the transport is open, the keys are those of a correct AEAD, and the sequence number is in
range. -/
structure CanWrite (c : Live) (a : Aead) : Prop where
  opened : c.closed = false
  dir : c.out.direction = .write
  tls : c.out.datagram = false
  aead : (c.out.heap c.out.cur).aead = some a
  lawful : a.Lawful
  iv : 8 ≤ (c.out.heap c.out.cur).iv.length
  seq : (c.out.heap c.out.cur).seq < 2 ^ 48 - 1

/-- A history without alerts and, from a client, without tickets: application data, KeyUpdates and tickets of a server. -/
def Ordinary (fromClient : Bool) (log : List Item) : Prop :=
  ∀ ct f pad, .record ct f pad ∈ log → ct ≠ 21 ∧ (fromClient = true → ct = 22 → f.head? = some 24)

end Verif.Spec

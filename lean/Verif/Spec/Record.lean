import Verif.Record.Lemmas

/-
Vocabulary for stating properties of the record layer.
-/

namespace Verif.Record

open Verif

/-- The writing keys `w` and the reading keys `r` belong together: same cipher, IV and epoch, and the reader
expects the number the writer uses next (over DTLS, where records may be lost, it merely lags behind). -/
structure Paired (w r : Keys) : Prop where
  wdir : w.direction = .write
  rdir : r.direction = .read
  dgram : w.datagram = r.datagram
  aead : (w.heap w.cur).aead = (r.heap r.cur).aead
  iv : (w.heap w.cur).iv = (r.heap r.cur).iv
  epoch : (w.heap w.cur).epoch = (r.heap r.cur).epoch
  seq : w.datagram = false → (w.heap w.cur).seq = (r.heap r.cur).seq
  seqLe : (r.heap r.cur).seq ≤ (w.heap w.cur).seq
  known : r.datagram = true → (r.readCiphers.lookup (r.heap r.cur).epoch).isSome = true
  small : (r.heap r.cur).epoch < 2 ^ 16
  lawful : ∀ a, (r.heap r.cur).aead = some a → a.Lawful

/-- What an application does with a writing record layer: send a record, or install new keys. -/
inductive Item where
  | record (ct : UInt8) (fragment : Bytes) (pad : Nat)
  | rekey (epoch : Nat) (a : Aead) (iv : Bytes)

/-- Items the record layer is meant for: keys of correct AEADs and 16-bit epochs; content types that are
nonzero, and one of the four known types while nothing is encrypted. -/
def Item.fine : Bool → List Item → Prop
  | _, [] => True
  | enc, .record ct _ _ :: is => (ct ≠ 0 ∧ (enc = false → knownType ct = true)) ∧ Item.fine enc is
  | _, .rekey e a _ :: is => (a.Lawful ∧ e < 2 ^ 16) ∧ Item.fine true is

/-- The records among the items: content type and fragment. -/
def Item.records : List Item → List (UInt8 × Bytes)
  | [] => []
  | .record ct f _ :: is => (ct, f) :: Item.records is
  | .rekey _ _ _ :: is => Item.records is

/-- Sending all items: the concatenation of the bytes given to the transport. -/
def sendAll : Keys → List Item → Res (Bytes × Keys)
  | k, [] => .ok ([], k)
  | k, .record ct f pad :: is =>
    (writeRecord k k.cur ct f pad).bind fun (rec, k') =>
    (sendAll k' is).bind fun (rest, k'') => .ok (rec ++ rest, k'')
  | k, .rekey e a iv :: is => sendAll (k.rekey e a iv) is

/-- Call ReadRecord until it does something other than would-block, at most `n` more times. -/
def readRetry : Nat → Reader → Res Plaintext × Reader
  | 0, r => readRecord r false
  | n + 1, r =>
    match readRecord r false with
    | (.err .wouldBlock, r') => readRetry n r'
    | x => x

/-- Receiving: one (retried) read per record, a rekey where the sender rekeyed. -/
def receiveAll : Reader → List Item → Res (List (UInt8 × Bytes) × Reader)
  | r, [] => .ok ([], r)
  | r, .record _ _ _ :: is =>
    match readRetry r.conn.length r with
    | (.ok pt, r') =>
      (receiveAll r' is).bind fun (l, r'') => .ok ((pt.contentType, pt.fragment) :: l, r'')
    | (.err e, _) => .err e
    | (.panic, _) => .panic
    | (.diverge, _) => .diverge
  | r, .rekey e a iv :: is => receiveAll { r with keys := r.keys.rekey e a iv } is

/-- The results of `n` successive ReadRecord calls. -/
def reads : Nat → Reader → List (Res Plaintext)
  | 0, _ => []
  | n + 1, r => (readRecord r false).1 :: reads n (readRecord r false).2

/-- The successful ones: content type and fragment. -/
def accepted : List (Res Plaintext) → List (UInt8 × Bytes)
  | [] => []
  | .ok pt :: rs => (pt.contentType, pt.fragment) :: accepted rs
  | _ :: rs => accepted rs

end Verif.Record

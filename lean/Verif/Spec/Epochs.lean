import Verif.Machine.Common

/-
Epochs, written from RFC 9147, section 6.1: 0 for records in the clear, 1 for early data, 2 for the handshake messages under
handshake keys, 3 for what follows under the first application keys, 4 and up for what follows key updates.
-/

namespace Verif.Spec

open Verif Verif.Messages Verif.Handshake Verif.Machine

/-- The epochs for which keys were installed for reading, in order. -/
def inEpochs (acts : List Action) : List Nat := acts.filterMap fun
  | .rekeyIn e _ => some e
  | _ => none

/-- The epochs for which keys were installed for sending, in order. -/
def outEpochs (acts : List Action) : List Nat := acts.filterMap fun
  | .rekeyOut e _ => some e
  | _ => none

/-- The epoch of what is sent after some actions. -/
def epochNow : Nat → List Action → Nat
  | e, [] => e
  | _, .rekeyOut e _ :: as => epochNow e as
  | _, .resetOut _ :: as => epochNow 0 as
  | e, _ :: as => epochNow e as

/-- The handshake messages sent, each with the epoch it was sent in. -/
def sentIn : Nat → List Action → List (Nat × Msg)
  | _, [] => []
  | e, .queue m :: as => (e, m) :: sentIn e as
  | _, .rekeyOut e _ :: as => sentIn e as
  | _, .resetOut _ :: as => sentIn 0 as
  | e, _ :: as => sentIn e as

/-- The epoch of a handshake message: hellos in the clear; EndOfEarlyData with the early data; EncryptedExtensions,
Certificate, CertificateRequest, CertificateVerify and Finished under handshake keys; NewSessionTicket and KeyUpdate under
application keys. -/
def inRfcEpoch (e : Nat) (m : Msg) : Prop :=
  (m.msgType = 1 ∨ m.msgType = 2) ∧ e = 0 ∨
  m.msgType = 5 ∧ e = 1 ∨
  (m.msgType = 8 ∨ m.msgType = 11 ∨ m.msgType = 13 ∨ m.msgType = 15 ∨ m.msgType = 20) ∧ e = 2 ∨
  (m.msgType = 4 ∨ m.msgType = 24) ∧ 3 ≤ e

end Verif.Spec

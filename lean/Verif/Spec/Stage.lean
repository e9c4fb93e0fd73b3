import Verif.Spec.Handshake

/-
The numbers GetHsState should give, by what was read and sent (the constants are those of common.go:169-192).
-/

namespace Verif.Spec

open Verif Verif.Messages Verif.Handshake Verif.Machine

/-- How far a client is that has read `w`: WaitSH (2) until there is a ServerHello, then WaitEE (3); after EncryptedExtensions
WaitFinished (6) with a PSK, else WaitCertCR (7), after a CertificateRequest WaitCert (4), after a Certificate WaitCV (5), after
CertificateVerify WaitFinished; Connected (8) from the Finished on. -/
def clientStage (w : List Letter) : Nat :=
  match w.getLast? with
  | none | some .helloRetryRequest => 2
  | some (.serverHello _) => 3
  | some .encryptedExtensions => if .serverHello true ∈ w then 6 else 7
  | some .certificateRequest => 4
  | some (.certificate _) => 5
  | some .certificateVerify => 6
  | _ => 8

/-- How far a server is that has read `w` and sent `out`: Start (9) until its flight with EncryptedExtensions is sent; then
WaitEOED (13) as long as early data it has accepted comes; then WaitCert (15) if it has asked for a certificate, WaitCV (16)
after a Certificate that is not empty, else WaitFinished (17); Connected (18) from the Finished on. -/
def serverStage (out : List Msg) (w : List Letter) : Nat :=
  if (out.any fun m => m.msgType == 8) = false then 9
  else match w.getLast? with
    | some .clientHello => if acceptsEarlyData out then 13 else if asksCertificate out then 15 else 17
    | some .applicationData => if .finished ∈ w then 18 else 13
    | some .endOfEarlyData | some .garbage => if asksCertificate out then 15 else 17
    | some (.certificate empty) => if empty then 17 else 16
    | some .certificateVerify => 17
    | _ => 18

/-- The exception: a server that has refused early data it was offered is in ReadPastEarlyData (12) as long as it has read
nothing else but records it cannot decrypt. -/
def SkipsEarlyData (datagram : Bool) (got out : List Msg) (w : List Letter) : Prop :=
  acceptsEarlyData out = false ∧ (∃ m ∈ got, offersEarlyData datagram m = true) ∧
    ∃ r n, w = List.replicate r .clientHello ++ [.clientHello] ++ List.replicate n .garbage

end Verif.Spec

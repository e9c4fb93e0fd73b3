import Verif.Crypto.Model

/-
Model of negotiation.go. 16-bit protocol constants are natural numbers. Logging is left out.
-/

namespace Verif.Negotiation

open Verif Verif.Crypto

/-- `VersionNegotiation` (negotiation.go:10-23). -/
def version (offered supported : List Nat) : Bool × Nat :=
  match offered with
  | [] => (false, 0)
  | v :: vs => if supported.any (v == ·) then (true, v) else version vs supported

/-- `KeyShareEntry` (extensions.go:197-200). -/
structure Share where
  group : Nat
  key : Bytes
  deriving DecidableEq, Repr

/-- What `DHNegotiation` returns when it selects something: group, own public value, shared secret. -/
abbrev DhChoice := Nat × Bytes × Bytes

/-- The inner loop of `DHNegotiation` (negotiation.go:25-45). `n` counts uses of the random number generator. -/
def dhGroups (D : Dh) (share : Share) : Nat → List Nat → Res (Option DhChoice × Nat)
  | n, [] => .ok (none, n)
  | n, g :: gs =>
    if g ≠ share.group then dhGroups D share n gs
    else
      match newKeyShare D n share.group with
      | .ok (pub, priv) =>
        match keyAgreement D share.group share.key priv with
        | .ok secret => .ok (some (g, pub, secret), n + 1)
        | .panic => .panic
        | _ => dhGroups D share (n + 1) gs
      | _ => dhGroups D share (n + 1) gs

/-- `DHNegotiation` (negotiation.go:25-49); `none` stands for `false, 0, nil, nil`. -/
def dh (D : Dh) (groups : List Nat) : Nat → List Share → Res (Option DhChoice)
  | _, [] => .ok none
  | n, s :: ss =>
    match dhGroups D s n groups with
    | .ok (some c, _) => .ok (some c)
    | .ok (none, n') => dh D groups n' ss
    | .err e => .err e
    | .panic => .panic
    | .diverge => .diverge

/-- `PreSharedKey` (conn.go:21-30). Times are in nanoseconds. -/
structure Psk where
  suite : Nat
  isResumption : Bool
  identity : Bytes
  key : Bytes
  nextProto : Bytes
  receivedAt : Int
  expiresAt : Int
  ticketAgeAdd : UInt32
  deriving DecidableEq, Repr

/-- `PSKIdentity` (extensions.go:362-365). -/
structure Identity where
  identity : Bytes
  age : UInt32
  deriving DecidableEq, Repr

/-- One lower case hexadecimal digit. -/
def hexDigit (n : Nat) : UInt8 := if n < 10 then UInt8.ofNat (48 + n) else UInt8.ofNat (87 + n)

/-- `hex.EncodeToString`, the key under which PSKs are cached. -/
def hexString (b : Bytes) : Bytes := b.flatMap fun x => [hexDigit (x.toNat / 16), hexDigit (x.toNat % 16)]

/-- `uint32(time.Since(t) / time.Millisecond)` (negotiation.go:69). -/
def sinceMs (now t : Int) : UInt32 := UInt32.ofInt ((now - t).tdiv 1000000)

/-- `ticketAgeTolerance` (negotiation.go:51-53). -/
def ticketAgeTolerance : UInt32 := 5000

/-- `labelExternalBinder`, `labelResumptionBinder`: `"ext binder"`, `"res binder"` (crypto.go:526-527). -/
def labelExternalBinder : Bytes := [0x65, 0x78, 0x74, 0x20, 0x62, 0x69, 0x6e, 0x64, 0x65, 0x72]
def labelResumptionBinder : Bytes := [0x72, 0x65, 0x73, 0x20, 0x62, 0x69, 0x6e, 0x64, 0x65, 0x72]

/-- The ticket age check (negotiation.go:67-81): whether it passes. -/
def ticketAgeOk (now : Int) (psk : Psk) (obfuscated : UInt32) : Bool :=
  let ext := obfuscated - psk.ticketAgeAdd
  let known := sinceMs now psk.receivedAt
  let delta := if known < ext then ext - known else known - ext
  !(delta > ticketAgeTolerance)

/-- The computation of the binder (negotiation.go:89-104). -/
def computeBinder (P : Prims) (h : HashId) (psk : Psk) (context : Bytes) : Res Bytes :=
  let label := if psk.isResumption then labelResumptionBinder else labelExternalBinder
  let h0 := P.hash h []
  let zero := List.replicate h.size 0
  let earlySecret := hkdfExtract P h (some zero) psk.key
  (deriveSecret P h earlySecret label h0).bind fun binderKey =>
  computeFinishedData P h binderKey (P.hash h context)

/-- What `PSKNegotiation` returns when it selects something: index, PSK, parameters of its cipher suite. -/
abbrev PskChoice := Nat × Psk × Params

/-- `PSKNegotiation` (negotiation.go:55-116) from identity number `i` on; `none` stands for
`false, 0, nil, CipherSuiteParams{}, nil`. `cache` is `psks.Get`. -/
def pskFrom (P : Prims) (now : Int) (binders : List Bytes) (context : Bytes) (cache : Bytes → Option Psk) :
    Nat → List Identity → Res (Option PskChoice)
  | _, [] => .ok none
  | i, id :: ids =>
    match cache (hexString id.identity) with
    | none => pskFrom P now binders context cache (i + 1) ids
    | some psk =>
      if psk.isResumption && !ticketAgeOk now psk id.age then .err .msg
      else
        match suiteParams psk.suite with
        | none => .err .msg
        | some params =>
          (computeBinder P params.hash psk context).bind fun binder =>
          match binders[i]? with
          | none => .panic
          | some b => if binder ≠ b then .err .msg else .ok (some (i, psk, params))

/-- `PSKNegotiation` (negotiation.go:55-116). -/
def psk (P : Prims) (now : Int) (identities : List Identity) (binders : List Bytes) (context : Bytes)
    (cache : Bytes → Option Psk) : Res (Option PskChoice) :=
  pskFrom P now binders context cache 0 identities

/-- `PSKModeNegotiation` (negotiation.go:118-135): (usingDH, usingPSK). Mode 1 is `PSKModeDHEKE` (common.go:154). -/
def pskMode (canDoDH canDoPSK : Bool) (modes : List UInt8) : Bool × Bool :=
  let dhAllowed := modes.foldl (fun b m => b || m == 1) false
  let dhRequired := modes.foldl (fun b m => b && m == 1) true
  let usingPSK := canDoPSK && (!dhRequired || canDoDH) && decide (modes.length > 0)
  let usingDH := canDoDH && (dhAllowed || !usingPSK)
  (usingDH, usingPSK)

/-- What mint uses of an `x509.Certificate`: its DER encoding (`Raw`), DNS names and public key. -/
structure X509 where
  raw : Bytes
  dnsNames : List Bytes
  pub : PubKey
  deriving DecidableEq, Repr

/-- `Certificate` (conn.go:16-19). -/
structure Cert where
  chain : List X509
  key : PrivKey
  deriving DecidableEq, Repr

/-- The candidates by name (negotiation.go:140-148): a certificate is added once per matching name. -/
def certsByName (name : Bytes) : List Cert → Res (List Cert)
  | [] => .ok []
  | c :: cs =>
    match c.chain with
    | [] => .panic
    | leaf :: _ =>
      (certsByName name cs).bind fun rest =>
      .ok ((leaf.dnsNames.filter fun n => decide (name.length > 0) && n == name).map (fun _ => c) ++ rest)

/-- The choice by signature scheme (negotiation.go:157-168). -/
def certByScheme (schemes : List Nat) : List Cert → Res (Cert × Nat)
  | [] => .err .msg
  | c :: cs =>
    match schemes.find? fun s => schemeValidForKey s c.key with
    | some s => .ok (c, s)
    | none => certByScheme schemes cs

/-- `CertificateSelection` (negotiation.go:137-169). -/
def certificate (serverName : Option Bytes) (schemes : List Nat) (certs : List Cert) : Res (Cert × Nat) :=
  match serverName with
  | none => certByScheme schemes certs
  | some name =>
    (certsByName name certs).bind fun candidates =>
    if candidates.length = 0 then .err .msg else certByScheme schemes candidates

/-- `EarlyDataNegotiation` (negotiation.go:171-176): (using, rejected). -/
def earlyData (usingPSK gotEarlyData allowEarlyData : Bool) : Bool × Bool :=
  let using_ := gotEarlyData && usingPSK && allowEarlyData
  (using_, gotEarlyData && !using_)

/-- `CipherSuiteNegotiation` (negotiation.go:178-195). -/
def cipherSuite (psk : Option Psk) (supported : List Nat) : List Nat → Res Nat
  | [] => .err .msg
  | s1 :: offered =>
    match psk with
    | some p => if s1 = p.suite then .ok s1 else cipherSuite psk supported offered
    | none => if supported.any (s1 == ·) then .ok s1 else cipherSuite psk supported offered

/-- The loop of `ALPNNegotiation` (negotiation.go:197-210). -/
def alpnLoop (psk : Option Psk) (supported : List Bytes) : List Bytes → Option Bytes
  | [] => none
  | p1 :: offered =>
    match psk with
    | some p =>
      if p1 ≠ p.nextProto then alpnLoop psk supported offered
      else if supported.any (p1 == ·) then some p1 else alpnLoop psk supported offered
    | none => if supported.any (p1 == ·) then some p1 else alpnLoop psk supported offered

/-- `ALPNNegotiation` (negotiation.go:197-218). -/
def alpn (psk : Option Psk) (offered supported : List Bytes) : Res Bytes :=
  match alpnLoop psk supported offered with
  | some p => .ok p
  | none =>
    match psk with
    | some p => if p.isResumption && decide (offered.length > 0) then .err .msg else .ok []
    | none => .ok []

end Verif.Negotiation

import Verif.Negotiation.Model

/-
Model of `Config` and `PSKMapCache` (conn.go:21-226).

Values of interface, pointer and function types are represented by addresses, `none` being nil; the only ones that matter
here are PSK caches and configurations themselves, which live in `Mem`. The mutex is not modelled: calls are taken one after
the other.
-/

namespace Verif.Conn

open Verif Verif.Negotiation

/-! ### PSKMapCache -/

/-- The Go map `PSKMapCache` (conn.go:50); `none` is the nil map. The order of the entries is not observable. -/
abbrev Cache := Option (List (Bytes × Psk))

/-- `PSKMapCache.Get` (conn.go:52-55). -/
def Cache.get (c : Cache) (key : Bytes) : Option Psk := (c.getD []).lookup key

/-- Assignment to an entry of a map. -/
def assign (key : Bytes) (psk : Psk) : List (Bytes × Psk) → List (Bytes × Psk)
  | [] => [(key, psk)]
  | e :: es => if e.1 = key then (key, psk) :: es else e :: assign key psk es

/-- `PSKMapCache.Put` (conn.go:57-59): assignment to a nil map panics. -/
def Cache.put (c : Cache) (key : Bytes) (psk : Psk) : Res Cache :=
  match c with
  | none => .panic
  | some es => .ok (some (assign key psk es))

/-- `PSKMapCache.Size` (conn.go:61-63). -/
def Cache.size (c : Cache) : Nat := (c.getD []).length

/-- Puts one after the other. -/
def Cache.putAll (c : Cache) : List (Bytes × Psk) → Res Cache
  | [] => .ok c
  | e :: es => (c.put e.1 e.2).bind fun c' => c'.putAll es

/-! ### Config -/

/-- What `ValidForServer` looks at of a `Certificate` (conn.go:16-19): its chain and whether it has a key. -/
structure CertRef where
  chain : List Nat
  key : Option Nat
  deriving DecidableEq

/-- `Config` (conn.go:68-137), all fields. -/
structure Config where
  serverName : Bytes := []
  sendSessionTickets : Bool := false
  ticketLifetime : UInt32 := 0
  ticketLen : Int := 0
  earlyDataLifetime : UInt32 := 0
  allowEarlyData : Bool := false
  requireCookie : Bool := false
  cookieHandler : Option Nat := none
  cookieProtector : Option Nat := none
  extensionHandler : Option Nat := none
  requireClientAuth : Bool := false
  time : Option Nat := none
  rootCAs : Option Nat := none
  insecureSkipVerify : Bool := false
  certificates : List (Option CertRef) := []
  verifyPeerCertificate : Option Nat := none
  cipherSuites : List UInt16 := []
  groups : List UInt16 := []
  signatureSchemes : List UInt16 := []
  nextProtos : List Bytes := []
  psks : Option Nat := none
  pskModes : List UInt8 := []
  nonBlocking : Bool := false
  useDTLS : Bool := false
  recordLayer : Option Nat := none
  deriving DecidableEq

/-- The configurations and PSK caches there are, and the addresses not yet used. -/
structure Mem where
  configs : Nat → Config
  caches : Nat → Cache
  freeConfig : Nat
  freeCache : Nat

/-- Assignment to the configuration at `a`. -/
def Mem.setConfig (m : Mem) (a : Nat) (c : Config) : Mem :=
  { m with configs := fun b => if b = a then c else m.configs b }

/-- Change of the cache at `a`. -/
def Mem.setCache (m : Mem) (a : Nat) (c : Cache) : Mem :=
  { m with caches := fun b => if b = a then c else m.caches b }

/-- `Clone` (conn.go:141-173): the address of the new configuration. Field by field as in the code, which does not mention
`RecordLayer`. -/
def Mem.clone (m : Mem) (a : Nat) : Nat × Mem :=
  let c := m.configs a
  (m.freeConfig,
    { (m.setConfig m.freeConfig
        { serverName := c.serverName
          sendSessionTickets := c.sendSessionTickets
          ticketLifetime := c.ticketLifetime
          ticketLen := c.ticketLen
          earlyDataLifetime := c.earlyDataLifetime
          allowEarlyData := c.allowEarlyData
          requireCookie := c.requireCookie
          cookieHandler := c.cookieHandler
          cookieProtector := c.cookieProtector
          extensionHandler := c.extensionHandler
          requireClientAuth := c.requireClientAuth
          time := c.time
          rootCAs := c.rootCAs
          insecureSkipVerify := c.insecureSkipVerify
          certificates := c.certificates
          verifyPeerCertificate := c.verifyPeerCertificate
          cipherSuites := c.cipherSuites
          groups := c.groups
          signatureSchemes := c.signatureSchemes
          nextProtos := c.nextProtos
          psks := c.psks
          pskModes := c.pskModes
          nonBlocking := c.nonBlocking
          useDTLS := c.useDTLS }) with freeConfig := m.freeConfig + 1 })

/-- `Init` (conn.go:175-199) with the defaults of conn.go:225-257. It returns a nil error always. -/
def Mem.init (m : Mem) (a : Nat) : Mem :=
  let c := m.configs a
  let c1 := if c.cipherSuites.length = 0 then { c with cipherSuites := [0x1301, 0x1302] } else c
  let c2 := if c1.groups.length = 0 then { c1 with groups := [23, 24, 256, 29] } else c1
  let c3 := if c2.signatureSchemes.length = 0 then
      { c2 with signatureSchemes := [0x0804, 0x0805, 0x0806, 0x0403, 0x0503, 0x0603] } else c2
  let c4 := if c3.ticketLen = 0 then { c3 with ticketLen := 16 } else c3
  let (c5, m') := match c4.psks with
    | none => ({ c4 with psks := some m.freeCache }, { m.setCache m.freeCache (some []) with freeCache := m.freeCache + 1 })
    | some _ => (c4, m)
  let c6 := if c5.pskModes.length = 0 then { c5 with pskModes := [0, 1] } else c5
  m'.setConfig a c6

/-- Whether there is a cache with something in it (conn.go:202). -/
def Mem.hasPsk (m : Mem) : Option Nat → Bool
  | some p => decide ((m.caches p).size > 0)
  | none => false

/-- `ValidForServer` (conn.go:201-206). A nil pointer among the certificates is dereferenced if it comes first. -/
def Mem.validForServer (m : Mem) (a : Nat) : Res Bool :=
  let c := m.configs a
  if m.hasPsk c.psks then .ok true
  else
    match c.certificates with
    | [] => .ok false
    | none :: _ => .panic
    | some cert :: _ => .ok (decide (cert.chain.length > 0) && cert.key.isSome)

/-- `ValidForClient` (conn.go:208-210). -/
def Mem.validForClient (m : Mem) (a : Nat) : Bool := decide ((m.configs a).serverName.length > 0)

end Verif.Conn

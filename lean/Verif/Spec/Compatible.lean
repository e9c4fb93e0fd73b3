import Verif.Spec.Link
import Verif.Machine.Server

/-
Configurations of a client and a server that should be able to talk to each other, and executions in which every message
that is delivered is the next one the other end sent. The bounds on lengths are those at which everything fits into the
length fields of the messages; they are not tight.
-/

namespace Verif.Spec

open Verif Verif.Crypto Verif.Messages Verif.Negotiation Verif.Handshake Verif.Machine

/-! ### What is asked of the primitives -/

/-- Key agreement works in a group: there are always key pairs, and any two of them lead to one secret. -/
structure DhWorks (D : Dh) (g : UInt16) : Prop where
  gen : ∀ n, ∃ pub priv, newKeyShare D n g.toNat = .ok (pub, priv)
  agree : ∀ n pub priv n' pub' priv', newKeyShare D n g.toNat = .ok (pub, priv) → newKeyShare D n' g.toNat = .ok (pub', priv') →
    ∃ z, keyAgreement D g.toNat pub' priv = .ok z ∧ keyAgreement D g.toNat pub priv' = .ok z

/-- A certificate that can be shown and used with the given signature schemes: the chain is not empty and parses, and
whatever the key signs with a scheme that goes with it, the public key of the leaf verifies. -/
structure Usable (E : Env) (schemes : List UInt16) (c : Cert) : Prop where
  chain : ∀ x ∈ c.chain, E.x509 x.raw = some x ∧ 0 < x.raw.length
  size : (c.chain.map fun x => 5 + x.raw.length).sum < 16777200
  signs : ∃ leaf rest, c.chain = leaf :: rest ∧ ∀ s ∈ schemes, schemeValidForKey s.toNat c.key = true → ∀ input,
    ∃ sig, sign E.P E.S s.toNat c.key input = .ok sig ∧ sig.length < 65536 ∧ verify E.P E.S s.toNat leaf.pub input sig = true

/-- The names in the first certificate of a chain. -/
def leafNames (c : Cert) : List Bytes :=
  match c.chain with
  | [] => []
  | leaf :: _ => leaf.dnsNames

/-- The encodings of a chain. -/
def rawChain (c : Cert) : List Bytes := c.chain.map (·.raw)

/-! ### Configurations -/

/-- What a client says fits into a ClientHello, and no group is listed twice. -/
structure ClientFits (cfg : Config) : Prop where
  name : 0 < cfg.serverName.length ∧ cfg.serverName.length ≤ 255
  suites : 0 < cfg.suites.length ∧ cfg.suites.length ≤ 1000
  groups : 0 < cfg.groups.length ∧ cfg.groups.length ≤ 16
  distinct : cfg.groups.Nodup
  schemes : 0 < cfg.schemes.length ∧ cfg.schemes.length ≤ 1000
  protos : cfg.nextProtos.length ≤ 50 ∧ ∀ p ∈ cfg.nextProtos, 0 < p.length ∧ p.length ≤ 255
  modes : cfg.pskModes.length ≤ 255
  psk : ∀ k, cfg.psks cfg.serverName = some k → 0 < k.identity.length ∧ k.identity.length ≤ 10000

/-- The two ages of a ticket, in milliseconds, are close. -/
def AgesAgree (k k' : Psk) (t t' : Int) : Prop :=
  ∃ a b : Nat, (t - k.receivedAt).tdiv 1000000 = a ∧ (t' - k'.receivedAt).tdiv 1000000 = b ∧ a < 2 ^ 32 ∧ b < 2 ^ 32 ∧
    a ≤ b + 5000 ∧ b ≤ a + 5000

/-- The client offers a PSK, which the server knows by its identity; it may be used without key agreement, or there is a
common group; a resumed session keeps its protocol; early data is not sent to a server that does not accept it. `now` says
which times the two clocks may show. -/
structure SharePsk (now : Int → Prop) (ccfg scfg : Config) (k k' : Psk) : Prop where
  client : ccfg.psks ccfg.serverName = some k
  server : scfg.psks (hexString k.identity) = some k'
  key : k'.key = k.key
  suite : k'.suite = k.suite
  sort : k'.isResumption = k.isResumption
  known : (suiteParams k.suite).isSome
  offered : ∃ s ∈ ccfg.suites, s.toNat = k.suite
  modes : ccfg.pskModes ≠ []
  exchange : (∃ m ∈ ccfg.pskModes, m ≠ 1) ∨ ∃ g ∈ ccfg.groups, g ∈ scfg.groups
  ages : k.isResumption = true → k'.ticketAgeAdd = k.ticketAgeAdd ∧ ∀ t t', now t → now t' → AgesAgree k k' t t'
  protocol : k.isResumption = true → ccfg.nextProtos = [] ∨ (k'.nextProto ∈ ccfg.nextProtos ∧ k'.nextProto ∈ scfg.nextProtos)
  early : ccfg.allowEarlyData = true → scfg.allowEarlyData = true

/-- The client offers no PSK, or one that the server does not know, and then no early data. -/
def NoCommonPsk (ccfg scfg : Config) : Prop :=
  match ccfg.psks ccfg.serverName with
  | none => True
  | some k => (suiteParams k.suite).isSome ∧ ccfg.pskModes ≠ [] ∧ scfg.psks (hexString k.identity) = none ∧
      ccfg.allowEarlyData = false

/-- There is a group and a suite in common, and the server has a certificate for the name, which the client accepts; if the
server asks for one, the client has certificates the server accepts, or none that goes with the schemes of the server. -/
structure UseCert (E : Env) (now : Int → Prop) (ccfg scfg : Config) : Prop where
  noPsk : NoCommonPsk ccfg scfg
  group : ∃ g ∈ ccfg.groups, g ∈ scfg.groups
  suite : ∃ s ∈ offeredSuites (ccfg.psks ccfg.serverName) ccfg.suites, s ∈ scfg.suites
  known : ∀ s ∈ scfg.suites, (suiteParams s.toNat).isSome
  chains : ∀ c ∈ scfg.certificates, c.chain ≠ []
  certificate : ∃ c ∈ scfg.certificates, ccfg.serverName ∈ leafNames c ∧
    ∃ s ∈ ccfg.schemes, schemeValidForKey s.toNat c.key = true
  usable : ∀ c ∈ scfg.certificates, ccfg.serverName ∈ leafNames c → Usable E ccfg.schemes c
  verified : ∀ c ∈ scfg.certificates, ccfg.serverName ∈ leafNames c → ccfg.insecureSkipVerify = true ∨
    ∀ t, now t → ∃ chains, ccfg.verify t ccfg.serverName (rawChain c) = some chains
  accepted : ∀ f, ccfg.verifyPeer = some f → ∀ c ∈ scfg.certificates, ccfg.serverName ∈ leafNames c →
    ∀ chains, f (rawChain c) chains = true
  clientAuth : scfg.requireClientAuth = true → 0 < scfg.schemes.length ∧ scfg.schemes.length ≤ 1000 ∧
    (∀ c ∈ ccfg.certificates, Usable E scfg.schemes c) ∧
    ∀ f, scfg.verifyPeer = some f → ∀ c ∈ ccfg.certificates, f (rawChain c) [] = true

/-- A client and a server with these configurations should be able to talk to each other. -/
structure Compatible (E : Env) (now : Int → Prop) (ccfg scfg : Config) : Prop where
  fits : ClientFits ccfg
  dh : ∀ g ∈ ccfg.groups, DhWorks E.D g
  noCookie : scfg.requireCookie = false
  method : (∃ k k', SharePsk now ccfg scfg k k') ∨ UseCert E now ccfg scfg

/-! ### Faithful delivery -/

/-- The message the handshake layer at the other end hands over: over TLS sequence numbers are not sent. -/
def arrived (d : Bool) (m : Msg) : Msg := if d then m else { m with seq := 0 }

/-- The random number generator works, it does not give the 32 bytes that mark a HelloRetryRequest, and the clock shows a
possible time. -/
def GoodCoins (now : Int → Prop) (c : Coins) : Prop :=
  (∃ r, c.random = some r ∧ r.1 ≠ hrrRandom) ∧ now c.now

/-- What the two ends have read, when each message read is the next of those the other end has sent, in any order of the two
directions. -/
inductive Delivery (E : Env) (x y : Ctx) (ccfg scfg : Config) (c0 : Coins) (now : Int → Prop) :
    List (Event × Coins) → List (Event × Coins) → Prop where
  | start : Delivery E x y ccfg scfg c0 now [] []
  | toClient {es fs : List (Event × Coins)} (c : Coins) (s : SState) (acts : List Action) (y' : Ctx) (m : Msg) :
      Delivery E x y ccfg scfg c0 now es fs → serverRun E y scfg fs = .ok (s, acts, y') →
      (sent acts)[es.length]? = some m → GoodCoins now c →
      Delivery E x y ccfg scfg c0 now (es ++ [(.msg (arrived x.datagram m), c)]) fs
  | toServer {es fs : List (Event × Coins)} (c : Coins) (s : CState) (acts : List Action) (x' : Ctx) (m : Msg) :
      Delivery E x y ccfg scfg c0 now es fs → clientRun E x ccfg c0 es = .ok (s, acts, x') →
      (sent acts)[fs.length]? = some m → GoodCoins now c →
      Delivery E x y ccfg scfg c0 now es (fs ++ [(.msg (arrived x.datagram m), c)])

/-- The two ends of a connection have the same secrets and parameters. -/
structure SameConnection (c s : Connected) : Prop where
  roles : c.isClient = true ∧ s.isClient = false
  params : c.params = s.params
  suite : c.cp = s.cp
  clientAp : c.clientAp = s.clientAp
  serverAp : c.serverAp = s.serverAp
  exporter : c.exporter = s.exporter
  resumption : c.resumption = s.resumption

end Verif.Spec

import Verif.Spec.Views

/-
A toy world in which handshakes can be computed: used for examples, and as the witness where the code does not have a
property. The hash functions mix all bytes of their input; key agreement is commutative; a signature is the digest and
the number of the key.
-/

namespace Verif.Toy

open Verif Verif.Crypto Verif.Messages Verif.Negotiation Verif.Handshake Verif.Machine Verif.Spec

def mix (seed : Nat) (n : Nat) (b : Bytes) : Bytes :=
  beBytes n (b.foldl (fun a x => (a * 263 + x.toNat + 1) % (256 ^ n - 189)) seed)

def prims : Prims where
  hash h b := mix 5 h.size b
  hmac h k b := mix 11 h.size (mix 7 h.size k ++ b)

theorem prims_sized : prims.Sized := ⟨fun _ _ => by simp [prims, mix], fun _ _ _ => by simp [prims, mix]⟩

def dh : Dh where
  gen n _ := some (beBytes 32 (n + 5), beBytes 32 (n + 5))
  point _ _ := true
  mul _ pub priv := beBytes 32 (beNat pub * beNat priv)

def sig : Sig where
  sign k _ _ d := some (d ++ [UInt8.ofNat k.val])
  verify k _ _ d s := s == d ++ [UInt8.ofNat k.val]

/-- Certificate number `n` for the name "a". -/
def x509 (n : UInt8) : X509 := ⟨[9, n], [[97]], ⟨.rsa, n.toNat⟩⟩
def cert (n : UInt8) : Cert := ⟨[x509 n], ⟨.rsa, n.toNat⟩⟩

def env : Env where
  P := prims
  D := dh
  S := sig
  x509 der := match der with | [9, n] => some (x509 n) | _ => none

def random (n : UInt8) : Random := ⟨List.replicate 32 n, by simp⟩

def coins (n : UInt8) : Coins := ⟨some (random n), n.toNat * 10, 1000, .ok none, 3⟩

/-- A protector that adds a byte. -/
def protector : Protector where
  newToken n b := .ok (UInt8.ofNat n :: b)
  decodeToken b := match b with | 3 :: b => .ok b | _ => .err .msg

def serverCfg : Config where
  serverName := []
  suites := [0x1301]
  groups := [29]
  schemes := [0x0804]
  nextProtos := [[104, 50]]
  psks _ := none
  pskModes := [1]
  allowEarlyData := true
  certificates := [cert 1]
  requireClientAuth := false
  insecureSkipVerify := false
  verify _ _ _ := none
  verifyPeer := none
  requireCookie := false
  cookieHandler := none
  cookieProtector := some protector

def clientCfg : Config where
  serverName := [97]
  suites := [0x1301, 0x1302]
  groups := [29]
  schemes := [0x0804]
  nextProtos := [[104, 50]]
  psks _ := none
  pskModes := [1]
  allowEarlyData := true
  certificates := [cert 2]
  requireClientAuth := false
  insecureSkipVerify := false
  verify _ name certs := if name = [97] ∧ certs = [[9, 1]] then some [certs] else none
  verifyPeer := none
  requireCookie := false
  cookieHandler := none
  cookieProtector := none

/-- A PSK for suite 0x1301. -/
def psk : Psk := ⟨0x1301, false, [1, 2, 3], List.replicate 32 4, [104, 50], 0, 10, 0⟩

def pskClient : Config := { clientCfg with psks := fun n => if n = [97] then some psk else none }
def pskServer : Config := { serverCfg with psks := fun n => if n = [48, 49, 48, 50, 48, 51] then some psk else none }

def tls : Ctx := ⟨false, 0, []⟩
def dtls : Ctx := ⟨true, 0, []⟩

/-- What the peer reads when a message is sent: over TLS there is no sequence number. -/
def arrive (x : Ctx) (n : UInt8) (m : Msg) : Event × Coins := (.msg (if x.datagram then m else { m with seq := 0 }), coins n)

def actsOf {α : Type} : Res (α × List Action × Ctx) → List Action
  | .ok (_, a, _) => a
  | _ => []

/-- The end of the exchange in which each side answers what the other sent, after a number of rounds: what each side has
read. -/
def exchange (x : Ctx) (ccfg scfg : Config) : Nat → List (Event × Coins) × List (Event × Coins)
  | 0 => ([], [])
  | n + 1 =>
    let (_, ss) := exchange x ccfg scfg n
    let cs := (sent (actsOf (serverRun env x scfg ss))).map (arrive x 4)
    (cs, (sent (actsOf (clientRun env x ccfg (coins 2) cs))).map (arrive x 6))

def clientEnd (x : Ctx) (ccfg scfg : Config) (n : Nat) : Res (CState × List Action × Ctx) :=
  clientRun env x ccfg (coins 2) (exchange x ccfg scfg n).1

def serverEnd (x : Ctx) (ccfg scfg : Config) (n : Nat) : Res (SState × List Action × Ctx) :=
  serverRun env x scfg (exchange x ccfg scfg n).2

/-- The connected states, if both ends got there. -/
def connection (x : Ctx) (ccfg scfg : Config) (n : Nat) : Option (Connected × Connected) :=
  match clientEnd x ccfg scfg n, serverEnd x ccfg scfg n with
  | .ok (.connected c, _, _), .ok (.connected s, _, _) => some (c, s)
  | _, _ => none

/-- Whether a client is connected. -/
def clientDone : Res (CState × List Action × Ctx) → Bool
  | .ok (.connected _, _, _) => true
  | _ => false

def serverDone : Res (SState × List Action × Ctx) → Bool
  | .ok (.connected _, _, _) => true
  | _ => false

theorem clientDone_ok {r : Res (CState × List Action × Ctx)} (h : clientDone r = true) :
    ∃ s acts x, r = .ok (.connected s, acts, x) := by
  unfold clientDone at h
  split at h
  · exact ⟨_, _, _, rfl⟩
  · cases h

theorem serverDone_ok {r : Res (SState × List Action × Ctx)} (h : serverDone r = true) :
    ∃ s acts x, r = .ok (.connected s, acts, x) := by
  unfold serverDone at h
  split at h
  · exact ⟨_, _, _, rfl⟩
  · cases h

/-- Whether a client is connected in a state with a property. -/
def clientHas (f : Connected → Bool) : Res (CState × List Action × Ctx) → Bool
  | .ok (.connected s, _, _) => f s
  | _ => false

def serverHas (f : Connected → Bool) : Res (SState × List Action × Ctx) → Bool
  | .ok (.connected s, _, _) => f s
  | _ => false

theorem clientHas_ok {f : Connected → Bool} {r : Res (CState × List Action × Ctx)} (h : clientHas f r = true) :
    ∃ s acts x, r = .ok (.connected s, acts, x) ∧ f s = true := by
  unfold clientHas at h
  split at h
  · exact ⟨_, _, _, rfl, h⟩
  · cases h

theorem serverHas_ok {f : Connected → Bool} {r : Res (SState × List Action × Ctx)} (h : serverHas f r = true) :
    ∃ s acts x, r = .ok (.connected s, acts, x) ∧ f s = true := by
  unfold serverHas at h
  split at h
  · exact ⟨_, _, _, rfl, h⟩
  · cases h

/-- Whether both ends are connected, and their states have a property. -/
def bothHave (f : Connected → Connected → Bool) (r : Res (CState × List Action × Ctx)) (r' : Res (SState × List Action × Ctx)) : Bool :=
  match r, r' with
  | .ok (.connected c, _, _), .ok (.connected s, _, _) => f c s
  | _, _ => false

theorem bothHave_ok {f : Connected → Connected → Bool} {r : Res (CState × List Action × Ctx)}
    {r' : Res (SState × List Action × Ctx)} (h : bothHave f r r' = true) :
    ∃ c acts x s acts' x', r = .ok (.connected c, acts, x) ∧ r' = .ok (.connected s, acts', x') ∧ f c s = true := by
  unfold bothHave at h
  split at h
  · exact ⟨_, _, _, _, _, _, rfl, rfl, h⟩
  · cases h

/-- Whether a client is connected, and its state and what it sent have a property. -/
def clientSent (f : Connected → List Msg → Bool) : Res (CState × List Action × Ctx) → Bool
  | .ok (.connected s, acts, _) => f s (sent acts)
  | _ => false

theorem clientSent_ok {f : Connected → List Msg → Bool} {r : Res (CState × List Action × Ctx)} (h : clientSent f r = true) :
    ∃ s acts x, r = .ok (.connected s, acts, x) ∧ f s (sent acts) = true := by
  unfold clientSent at h
  split at h
  · exact ⟨_, _, _, rfl, h⟩
  · cases h

/-! ### An attacker that sends two HelloRetryRequests -/

/-- The last hello a client sent after reading the given events. -/
def lastHello (x : Ctx) (ccfg : Config) (cs : List (Event × Coins)) : Msg :=
  ((sent (actsOf (clientRun env x ccfg (coins 2) cs))).getLast?).getD ⟨0, 0, [], 0, 0⟩

/-- A handshake message. -/
def message (b : Body) : Msg :=
  match mkMsg tls b with
  | .ok (m, _) => m
  | _ => ⟨0, 0, [], 0, 0⟩

/-- A HelloRetryRequest for a hello. -/
def retryFor (x : Ctx) (hello : Msg) : Msg :=
  match Syntax.marshal cookieStructTy (0x1301, prims.hash .sha256 (x.bytes hello), [], ()) with
  | .ok plain =>
    match makeRetry x 0x1301 [] (3 :: plain) with
    | .ok (m, _) => m
    | _ => ⟨0, 0, [], 0, 0⟩
  | _ => ⟨0, 0, [], 0, 0⟩

/-- Two retries, and then the flight of a server that sees the last hello. -/
def twoRetries : List (Event × Coins) :=
  let r1 := [arrive tls 4 (retryFor tls (lastHello tls clientCfg []))]
  let r2 := r1 ++ [arrive tls 4 (retryFor tls (lastHello tls clientCfg r1))]
  r2 ++ (sent (actsOf (serverRun env tls { serverCfg with requireCookie := true }
    [arrive tls 6 (lastHello tls clientCfg r2)]))).map (arrive tls 4)

/-- A client that sends its first hello twice before it answers the retry. -/
def twoHellos : List (Event × Coins) :=
  let es := (exchange tls clientCfg { serverCfg with requireCookie := true } 3).2
  es.take 1 ++ es

/-! ### A server without secrets -/

/-- The ServerHello of a suite that selects the first PSK and has no key share. -/
def forgedHello (suite : UInt16) : Msg :=
  message (.serverHello ⟨0x0303, random 9, [], suite, 0, [(43, [3, 4], ()), (41, [0, 0], ())]⟩)

/-- A flight that answers a hello with no secret but the given early secret, and the given EncryptedExtensions. -/
def forgedFlight (hello : Msg) (h : HashId) (suite : UInt16) (early : Bytes) (ee : List Ext) : Flight where
  h := h
  early := early
  dh := none
  hellos := wire false [hello]
  sh := forgedHello suite
  ee := message (.encryptedExtensions ee)
  auth := []
  fin := message (.finished ⟨h.size, Flight.serverVerify
    ⟨h, early, none, wire false [hello], forgedHello suite, message (.encryptedExtensions ee), [], ⟨0, 0, [], 0, 0⟩⟩ prims false⟩)

/-- What the client reads. -/
def forged (hello : Msg) (h : HashId) (suite : UInt16) (early : Bytes) (ee : List Ext) : List (Event × Coins) :=
  let F := forgedFlight hello h suite early ee
  [F.sh, F.ee, F.fin].map (arrive tls 4)

/-- A client that accepts no certificate and has no PSK. -/
def strictCfg : Config := { clientCfg with verify := fun _ _ _ => none }

end Verif.Toy

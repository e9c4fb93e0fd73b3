import Verif.Conn.Config

/-
Model of tls.go: Dial, DialWithDialer, Listen, NewListener, Listener.Accept.

The transport (`net.Dialer.Dial`, `net.Listen`, `net.Listener.Accept`) and Conn.Handshake (`Verif.Conn.Handshake`) are given by
their outcomes; of the clock and the scheduler, which of two values is sent first on `errChannel`. Strings are bytes.
-/

namespace Verif.Conn

open Verif

/-- `addr[:strings.LastIndex(addr, ":")]`, all of `addr` without a colon (tls.go:119-123). -/
def hostOf (addr : Bytes) : Bytes :=
  match addr.reverse.dropWhile (· != 58) with
  | [] => addr
  | _ :: host => host.reverse

/-- The string "udp". -/
def udp : Bytes := [0x75, 0x64, 0x70]

/-- What DialWithDialer finds: `timeout` is `dialer.Timeout` (0 for none), `deadline` what is left until `dialer.Deadline`, both
in nanoseconds; whether `dialer.Dial` succeeds; the alert other than AlertNoAlert that Handshake returns, if any; whether the
timer, if there is one, fires before Handshake returns. -/
structure Dialing where
  timeout : Int
  deadline : Option Int
  dialOk : Bool
  handshake : Option Nat
  timerFirst : Bool

/-- `timeout` from line 106 of tls.go on (tls.go:98-107): 0 for none. -/
def Dialing.limit (d : Dialing) : Int :=
  match d.deadline with
  | none => d.timeout
  | some left => if d.timeout = 0 ∨ left < d.timeout then left else d.timeout

/-- Why there is no connection. -/
inductive DialErr where
  | nonBlocking | dial | timeout | alert (a : Nat)
  deriving DecidableEq

/-- The outcome: the configuration of the connection (an address in memory), or an error; and whether the transport was opened
and closed. -/
structure Dialled where
  result : Except DialErr Nat
  opened : Bool
  closed : Bool
  mem : Mem

/-- `config != nil && config.NonBlocking` (tls.go:55, 93). -/
def Mem.refused (m : Mem) : Option Nat → Bool
  | some a => (m.configs a).nonBlocking
  | none => false

/-- A new configuration, zero or a copy (tls.go:125-129). -/
def Mem.fresh (m : Mem) : Option Nat → Nat × Mem
  | none => (m.freeConfig, { m.setConfig m.freeConfig {} with freeConfig := m.freeConfig + 1 })
  | some a => m.clone a

/-- The configuration of the connection (tls.go:125-139). -/
def Mem.forDial (m : Mem) (network addr : Bytes) (config : Option Nat) : Nat × Mem :=
  let a := (m.fresh config).1
  let m1 := (m.fresh config).2
  let m2 := if (m1.configs a).serverName = [] then m1.setConfig a { m1.configs a with serverName := hostOf addr } else m1
  (a, m2.setConfig a { m2.configs a with useDTLS := decide (network = udp) })

/-- `DialWithDialer` (tls.go:92-169); `Dial` (177-179) is the case without timeout and deadline. `config` is an address, or nil.
What Handshake does to the configuration (`Mem.init`) is not included. -/
def dial (m : Mem) (d : Dialing) (network addr : Bytes) (config : Option Nat) : Dialled :=
  if m.refused config then ⟨.error .nonBlocking, false, false, m⟩
  else if !d.dialOk then ⟨.error .dial, false, false, m⟩
  else
    let new := m.forDial network addr config
    if d.limit ≠ 0 ∧ d.timerFirst = true then ⟨.error .timeout, true, true, new.2⟩
    else
      match d.handshake with
      | some a => ⟨.error (.alert a), true, true, new.2⟩
      | none => ⟨.ok new.1, true, false, new.2⟩

/-- `NewListener` (tls.go:54-62): whether there is a listener. -/
def newListener (m : Mem) (config : Option Nat) : Bool := !m.refused config

/-- `Listen` (tls.go:68-77): whether there is a listener, and whether the inner one has been opened, which nothing closes.
`listenOk` is the outcome of `net.Listen`. -/
def listen (m : Mem) (listenOk : Bool) (config : Option Nat) : Res (Bool × Bool) :=
  match config with
  | none => .ok (false, false)
  | some a =>
    (m.validForServer a).bind fun valid =>
    if !valid then .ok (false, false)
    else if !listenOk then .ok (false, false)
    else .ok (newListener m config, true)

/-- What `Accept` returns and does: whether `c` is a connection, the alert in `err` (`some none` for an error of the inner
listener), and whether the transport has been closed by Accept itself. -/
structure Accepted where
  conn : Bool
  err : Option (Option Nat)
  closed : Bool

/-- `Accept` (tls.go:36-48), where `handshake` is as in `Dialing`. -/
def accept (acceptOk : Bool) (handshake : Option Nat) : Accepted :=
  if !acceptOk then ⟨false, some none, false⟩ else ⟨true, handshake.map some, false⟩

end Verif.Conn

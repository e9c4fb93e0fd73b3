import Verif.Machine.Server

/-
Model of a Conn before it is connected: conn.go, HandshakeSetup, Handshake, Writable, and the parts of Read and Write that
come before the handshake is complete.

The layers below are arbitrary: what a state machine reads, and which actions fail, is given by the turns of a call, one for
each call of a Next method. What Read and Write do on a connection is `Verif.Conn.Model`.

A failing Next, or a failing action, may already have written to the running hash, which a state shares with its successors
(`hash.Hash` is a pointer), and have numbered messages: a turn says what. Client: client-state-machine.go:682 (fails at 704,
724), 936-1036 (fails at 979-1054), and all states if an action fails; server: if an action fails.
-/

namespace Verif.Conn

open Verif Verif.Crypto Verif.Messages Verif.Negotiation Verif.Handshake Verif.Machine

/-- `HandshakeState`. -/
inductive HState where
  | client (s : CState)
  | server (s : SState)

/-- Whether it is a `stateConnected`. -/
def HState.connected? : HState → Option Connected
  | .client (.connected s) => some s
  | .server (.connected s) => some s
  | _ => none

/-- Bytes written to the running hash of a state. -/
def HState.spoil (b : Bytes) : HState → HState
  | .client (.waitEE s) => .client (.waitEE { s with sec := s.sec.add b })
  | .client (.waitCertCR s) => .client (.waitCertCR { s with sec := s.sec.add b })
  | .client (.waitCert s) => .client (.waitCert { s with sec := s.sec.add b })
  | .client (.waitCV s) => .client (.waitCV { s with sec := s.sec.add b })
  | .client (.waitFinished s) => .client (.waitFinished { s with sec := s.sec.add b })
  | .server (.waitEOED s) => .server (.waitEOED { s with sec := s.sec.add b })
  | .server (.waitFlight2 s) => .server (.waitFlight2 { s with sec := s.sec.add b })
  | .server (.waitCert s) => .server (.waitCert { s with sec := s.sec.add b })
  | .server (.waitCV s) => .server (.waitCV { s with sec := s.sec.add b })
  | .server (.waitFinished s) => .server (.waitFinished { s with sec := s.sec.add b })
  | s => s

/-- What is drawn from outside during one call of Next and the actions that follow. `event` is what the state reads (`none`:
nothing is there yet); states that read nothing ignore it. `fail` gives the alert with which an action, the i-th of its list,
fails; `written` and `numbered` are what is left behind on failure. The rest is used only by setting up and for tickets. -/
structure Turn where
  event : Option Event
  coins : Coins
  fail : Nat → Action → Option Nat
  written : Bytes
  numbered : Nat
  initOk : Bool
  ageAdd : UInt32
  nonce : Bytes
  ticket : Bytes
  ticketFail : Nat → Action → Option Nat

/-- `Next` of a client state (client-state-machine.go:70-1087). -/
def clientNext (E : Env) (x : Ctx) (t : Turn) (s : CState) : Res (CState × List Action × Ctx) :=
  match s with
  | .start s => (s.next E x t.coins).bind fun (w, acts, x') => .ok (.waitSH w, acts, x')
  | .connected s => .ok (.connected s, [], x)
  | s =>
    match t.event with
    | none => .err .wouldBlock
    | some (.msg m) =>
      match s with
      | .waitSH s => s.next E x m
      | .waitEE s => s.next E x m
      | .waitCertCR s => s.nextCertCR E x m
      | .waitCert s => s.next E x m
      | .waitCV s => s.next E x t.coins m
      | .waitFinished s => s.next E x m
      | s => .ok (s, [], x)
    | some _ => alert Alert.closeNotify

/-- `Next` of a server state (server-state-machine.go:90-1177), and whether it returns AlertStatelessRetry (321), which is not
an error. Early data is appended by WaitEOED within one call of Next, here by one turn for each record. -/
def serverNext (E : Env) (x : Ctx) (t : Turn) (s : SState) : Res (SState × List Action × Ctx × Bool) :=
  match s with
  | .negotiated n => (n.next E x t.coins).bind fun (s', acts, x') => .ok (s', acts, x', false)
  | .waitFlight2 s => .ok (s.nextFlight2, [], x, false)
  | .connected s => .ok (.connected s, [], x, false)
  | s =>
    match t.event with
    | none => .err .wouldBlock
    | some e =>
      match s, e with
      | .readPast, .bad => .ok (.readPast, [], x, false)
      | .readPast, _ => .diverge
      | .waitEOED s, .appData d => .ok (.waitEOED s, [], { x with earlyData := x.earlyData ++ d }, false)
      | .waitEOED _, .bad => alert Alert.badRecordMAC
      | .start s, .msg m =>
        (s.next E x t.coins m).bind fun (r, x1) =>
        match r with
        | .retry hrr => .ok (.start s, [.queue hrr, .sendQueued], x1, true)
        | .negotiated n => .ok (.negotiated n, [], x1, false)
      | .waitEOED s, .msg m => (s.nextEOED E x m).bind fun (s', acts, x') => .ok (s', acts, x', false)
      | .waitCert s, .msg m => (s.nextCert E x m).bind fun (s', acts, x') => .ok (s', acts, x', false)
      | .waitCV s, .msg m => (s.next E x m).bind fun (s', acts, x') => .ok (s', acts, x', false)
      | .waitFinished s, .msg m => (s.next E x m).bind fun (s', acts, x') => .ok (s', acts, x', false)
      | _, _ => alert Alert.closeNotify

def HState.next (E : Env) (x : Ctx) (t : Turn) : HState → Res (HState × List Action × Ctx × Bool)
  | .client s => (clientNext E x t s).bind fun (s', acts, x') => .ok (.client s', acts, x', false)
  | .server s => (serverNext E x t s).bind fun (s', acts, x', r) => .ok (.server s', acts, x', r)

/-- `Conn` (conn.go:259-277), and the fields of its Config used here. `handshakeAlert` is written nowhere. `outEpoch` is
`out.Epoch()`; `closed`: the transport has been closed from this end. The layers and `state`, which equals `hState` once
connected, are left out. -/
structure HConn where
  cfg : Config
  isClient : Bool
  nonBlocking : Bool
  sendTickets : Bool
  ticketLifetime : UInt32
  earlyDataLifetime : UInt32
  hState : Option HState
  handshakeAlert : Nat
  complete : Bool
  x : Ctx
  outEpoch : Nat
  closed : Bool
  readBuffer : Bytes

/-- `NewConn` (conn.go:279-304). The zero value of `handshakeAlert` is AlertCloseNotify. -/
def HConn.new (cfg : Config) (isClient nonBlocking sendTickets : Bool) (ticketLifetime earlyDataLifetime : UInt32)
    (datagram : Bool) : HConn where
  cfg := cfg
  isClient := isClient
  nonBlocking := nonBlocking
  sendTickets := sendTickets
  ticketLifetime := ticketLifetime
  earlyDataLifetime := earlyDataLifetime
  hState := none
  handshakeAlert := Alert.closeNotify
  complete := false
  x := ⟨datagram, 0, []⟩
  outEpoch := 0
  closed := false
  readBuffer := []

/-- `sendAlert` (conn.go:512-536), as far as it matters here. -/
def HConn.sendAlert (c : HConn) (a : Nat) : HConn :=
  if a = 100 ∨ a = Alert.closeNotify then c else { c with closed := true }

/-- The actions one after the other (conn.go:784-791), the first of which is number `i`: the alert of the first that fails.
Of what they do, only the epoch for writing is recorded. -/
def HConn.takeAll (fail : Nat → Action → Option Nat) : Nat → HConn → List Action → Option Nat × HConn
  | _, c, [] => (none, c)
  | i, c, a :: as =>
    match fail i a with
    | some e => (some e, c)
    | none =>
      match a with
      | .rekeyOut epoch _ => HConn.takeAll fail (i + 1) { c with outEpoch := epoch } as
      | .resetOut _ => HConn.takeAll fail (i + 1) { c with outEpoch := 0 } as
      | _ => HConn.takeAll fail (i + 1) c as

/-- `HandshakeSetup` (conn.go:645-693), for a config with a CookieProtector if it requires cookies. -/
def HConn.setup (E : Env) (c : HConn) (t : Turn) : Res Unit × HConn :=
  if !t.initOk then (alert Alert.internalError, c)
  else if c.isClient then
    match ({ cfg := c.cfg } : CStart).next E c.x t.coins with
    | .ok (w, acts, x') =>
      match HConn.takeAll t.fail 0 { c with x := x' } acts with
      | (some a, c') => (alert a, c')
      | (none, c') => (.ok (), { c' with hState := some (.client (.waitSH w)) })
    | .err (.alert a) => (alert a, { c with x := { c.x with outSeq := c.x.outSeq + t.numbered } })
    | .err e => (.err e, c)
    | .panic => (.panic, c)
    | .diverge => (.diverge, c)
  else (.ok (), { c with hState := some (.server (.start ⟨c.cfg⟩)) })

/-- What follows once connected (conn.go:796-826). -/
def HConn.finish (E : Env) (c : HConn) (t : Turn) (s : Connected) : Res Unit × HConn :=
  let c := { c with complete := true }
  if c.isClient then (.ok (), c)
  else
    let moved (c : HConn) : HConn :=
      if c.x.earlyData = [] then c else { c with readBuffer := c.x.earlyData, x := { c.x with earlyData := [] } }
    if c.sendTickets then
      match s.newSessionTicket E c.x t.coins.now c.ticketLifetime c.earlyDataLifetime t.ageAdd t.nonce t.ticket with
      | .ok (acts, x') =>
        match HConn.takeAll t.ticketFail 0 { c with x := x' } acts with
        | (some a, c') => (alert a, c'.sendAlert a)
        | (none, c') => (.ok (), moved c')
      | .err _ => (.ok (), moved c)
      | .panic => (.panic, c)
      | .diverge => (.diverge, c)
    else (.ok (), moved c)

/-- The loop of `Handshake` (conn.go:758-836). When the turns are used up the call has not returned yet, which is represented
by would-block. -/
def HConn.loop (E : Env) : List Turn → HConn → Res Unit × HConn
  | ts, c =>
    match c.hState with
    | none => (.panic, c)
    | some st =>
      if st.connected?.isSome then (.ok (), c)
      else
        match ts with
        | [] => (.err .wouldBlock, c)
        | t :: ts =>
          let left (c : HConn) : HConn := { c with hState := some (st.spoil t.written) }
          match st.next E c.x t with
          | .err (.alert a) =>
            let c' := left { c with x := { c.x with outSeq := c.x.outSeq + t.numbered } }
            (alert a, if a = Alert.closeNotify then c'.sendAlert a else c')
          | .err e => (.err e, c)
          | .panic => (.panic, c)
          | .diverge => (.diverge, c)
          | .ok (st', acts, x', retry) =>
            match HConn.takeAll t.fail 0 { c with x := x' } acts with
            | (some a, c') => (alert a, (left c').sendAlert a)
            | (none, c') =>
              let c' := { c' with hState := some st' }
              let r : Res Unit × HConn := match st'.connected? with
                | some s => c'.finish E t s
                | none => (.ok (), c')
              match r with
              | (.ok _, c') =>
                if c'.nonBlocking then (if retry then alert 253 else .ok (), c')
                else HConn.loop E ts c'
              | r => r

/-- `Handshake` (conn.go:728-837). The first turn is for setting up, if there is none before. -/
def HConn.handshake (E : Env) (c : HConn) (t : Turn) (ts : List Turn) : Res Unit × HConn :=
  if c.handshakeAlert ≠ 255 ∧ c.handshakeAlert ≠ Alert.closeNotify then (alert c.handshakeAlert, c)
  else if c.complete then (.ok (), c)
  else
    match c.hState with
    | none =>
      match c.setup E t with
      | (.ok _, c') => if c'.isClient ∧ c'.nonBlocking then (.ok (), c') else c'.loop E ts
      | r => r
    | some _ => c.loop E ts

/-- Whether `hState` is a stateConnected. -/
def HConn.connected (c : HConn) : Bool := (c.hState.bind HState.connected?).isSome

/-- `Writable` (conn.go:909-921). -/
def HConn.writable (c : HConn) : Bool := c.connected || (c.isClient && c.outEpoch == epochEarlyData)

/-- `Read` (conn.go:414-468) with a buffer of `n` bytes. What it does on a connection (437-467) is `live`, which may change
the connected state. -/
def HConn.read (live : HConn → Res Bytes × Connected) (c : HConn) (n : Nat) : Res Bytes × HConn :=
  if c.connected then
    let r := live c
    (r.1, { c with hState := some (if c.isClient then .client (.connected r.2) else .server (.connected r.2)) })
  else if c.isClient then (.err .msg, c)
  else if !c.cfg.allowEarlyData then (.err .msg, c)
  else if c.x.earlyData = [] then (.err .wouldBlock, c)
  else (.ok (c.x.earlyData.take n), { c with x := { c.x with earlyData := c.x.earlyData.drop n } })

/-- `Write` (conn.go:471-508). What it does if it may write (480-506) is `live`. -/
def HConn.write (live : HConn → Res Nat) (c : HConn) : Res Nat :=
  if c.writable then live c else .err .msg

/-- A call of the application; Write changes nothing that is recorded here. -/
inductive HCall where
  | handshake (t : Turn) (ts : List Turn)
  | read (live : HConn → Res Bytes × Connected) (n : Nat)

def HConn.call (E : Env) (c : HConn) : HCall → HConn
  | .handshake t ts => (c.handshake E t ts).2
  | .read live n => (c.read live n).2

/-- Calls one after the other. -/
def HConn.calls (E : Env) (c : HConn) (ks : List HCall) : HConn := ks.foldl (fun c k => c.call E k) c

end Verif.Conn

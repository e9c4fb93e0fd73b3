import Verif.Conn.Dial
import Verif.Props.Config
import Verif.Props.Failed

/-
C65: dialing and listening.
-/

namespace Verif.Conn

open Verif Verif.Machine

/-! ### Addresses -/

theorem dropWhile_no_colon (l r : Bytes) (h : 58 ∉ l) : (l ++ r).dropWhile (· != 58) = r.dropWhile (· != 58) := by
  induction l with
  | nil => rfl
  | cons b l ih =>
    simp only [List.mem_cons, not_or] at h
    rw [List.cons_append, List.dropWhile_cons, if_pos (by simpa using Ne.symm h.1), ih h.2]

/-- C65, the name asked for if none is given: the part of the address before the last colon, or all of it. Missing: for IPv6
addresses this is not the host, see below. -/
theorem C65_host_partial (host port : Bytes) (hp : 58 ∉ port) :
    hostOf (host ++ 58 :: port) = host ∧ hostOf port = port := by
  have hr : 58 ∉ port.reverse := by simpa using hp
  constructor
  · unfold hostOf
    rw [List.reverse_append, List.reverse_cons, List.append_assoc, dropWhile_no_colon _ _ hr]
    simp
  · unfold hostOf
    have h := dropWhile_no_colon port.reverse [] hr
    rw [List.append_nil] at h
    rw [h]
    rfl

/-- C65 fails for IPv6 addresses, which stand in brackets before the port: the name asked for has the brackets, so it is not
the address. -/
theorem C65_ipv6_fails (host port : Bytes) (hp : 58 ∉ port) :
    hostOf ([91] ++ host ++ [93] ++ 58 :: port) = [91] ++ host ++ [93] ∧ [91] ++ host ++ [93] ≠ host := by
  refine ⟨(C65_host_partial _ port hp).1, fun h => ?_⟩
  have := congrArg List.length h
  simp only [List.length_append, List.length_singleton] at this
  omega

/-! ### Dialing -/

/-- C65: Dial gives a connection exactly if the configuration is not for non-blocking use, the transport connects, and
Handshake returns no error, before the timer if there is one. If the transport was opened and there is no connection, the
transport has been closed, and not otherwise. -/
theorem C65_outcome (m : Mem) (d : Dialing) (network addr : Bytes) (config : Option Nat) :
    ((∃ a, (dial m d network addr config).result = .ok a) ↔
      (∀ a, config = some a → (m.configs a).nonBlocking = false) ∧ d.dialOk = true ∧ d.handshake = none ∧
        ¬(d.limit ≠ 0 ∧ d.timerFirst = true)) ∧
    ((dial m d network addr config).opened = true ↔
      (∀ a, config = some a → (m.configs a).nonBlocking = false) ∧ d.dialOk = true) ∧
    ((dial m d network addr config).closed = true ↔
      (dial m d network addr config).opened = true ∧ ∀ a, (dial m d network addr config).result ≠ .ok a) := by
  have hnb : m.refused config = false ↔ ∀ a, config = some a → (m.configs a).nonBlocking = false := by
    cases config <;> simp [Mem.refused]
  rw [← hnb]
  unfold dial
  cases m.refused config
  · cases d.dialOk
    · simp
    · simp only [Bool.false_eq_true, if_false, Bool.not_true]
      split
      · rename_i ht
        simp [ht]
      · rename_i ht
        cases d.handshake
        · simp [ht]
        · simp
  · simp

/-- C65, the time limit for dialing and handshake together: there is one if a timeout or a deadline is given, and it is the
earlier of the two. Missing: a deadline that is reached just now, see below. -/
theorem C65_limit_partial (d : Dialing) (h : ∀ t, d.deadline = some t → t ≠ 0) :
    (d.limit ≠ 0 ↔ d.timeout ≠ 0 ∨ d.deadline ≠ none) ∧
    (d.timeout ≠ 0 → d.limit ≤ d.timeout) ∧ (∀ t, d.deadline = some t → d.limit ≤ t) ∧
    (d.limit = d.timeout ∨ d.deadline = some d.limit) := by
  unfold Dialing.limit
  cases hd : d.deadline with
  | none => simp
  | some t =>
    have ht := h t hd
    simp only [Option.some.injEq, forall_eq']
    split
    · rename_i hc
      refine ⟨by simp [ht], fun hne => ?_, Int.le_refl _, .inr rfl⟩
      rcases hc with hc | hc
      · exact absurd hc hne
      · omega
    · rename_i hc
      refine ⟨?_, fun _ => Int.le_refl _, by omega, .inl rfl⟩
      simp only [ne_eq, reduceCtorEq, not_false_eq_true, or_true, iff_true]
      omega

/-- C65 fails for a deadline that is reached at the moment of the call: there is no limit then, and the handshake may go on for
ever. -/
theorem C65_deadline_fails (d : Dialing) (h : d.deadline = some 0) (ht : 0 ≤ d.timeout) : d.limit = 0 := by
  unfold Dialing.limit
  rw [h]
  dsimp only
  split <;> omega

theorem setConfig_self (m : Mem) (a : Nat) (c : Config) : (m.setConfig a c).configs a = c := if_pos rfl

theorem setConfig_ne (m : Mem) {a b : Nat} (c : Config) (h : b ≠ a) : (m.setConfig a c).configs b = m.configs b := if_neg h

theorem forDial_spec (m : Mem) (network addr : Bytes) (config : Option Nat) :
    (m.forDial network addr config).1 = m.freeConfig ∧
    (∀ b, b ≠ m.freeConfig → (m.forDial network addr config).2.configs b = m.configs b) ∧
    (m.forDial network addr config).2.caches = m.caches ∧
    (m.forDial network addr config).2.freeConfig = m.freeConfig + 1 ∧
    ∃ given : Config, (config = none → given = {}) ∧ (∀ a, config = some a → given = m.configs a) ∧
      (m.forDial network addr config).2.configs m.freeConfig =
        { given with
          serverName := if given.serverName = [] then hostOf addr else given.serverName
          useDTLS := decide (network = [117, 100, 112])
          recordLayer := none } := by
  obtain ⟨m1, given, hm, h1, h2, h3, h4, h5, h6⟩ : ∃ (m1 : Mem) (given : Config),
      m.fresh config = (m.freeConfig, m1) ∧
      (∀ b, b ≠ m.freeConfig → m1.configs b = m.configs b) ∧ m1.caches = m.caches ∧ m1.freeConfig = m.freeConfig + 1 ∧
      (config = none → given = {}) ∧ (∀ a, config = some a → given = m.configs a) ∧
      m1.configs m.freeConfig = { given with recordLayer := none } := by
    cases config with
    | none =>
      exact ⟨_, {}, rfl, fun b hb => if_neg hb, rfl, rfl, fun _ => rfl, fun a h => (by cases h), if_pos rfl⟩
    | some a =>
      exact ⟨_, m.configs a, rfl, fun b hb => if_neg hb, rfl, rfl, fun h => (by cases h),
        fun b h => (by cases h; rfl), if_pos rfl⟩
  unfold Mem.forDial
  rw [hm]
  dsimp only
  refine ⟨rfl, fun b hb => ?_, ?_, ?_, given, h4, h5, ?_⟩
  · rw [setConfig_ne _ _ hb]
    split
    · rw [setConfig_ne _ _ hb, h1 b hb]
    · exact h1 b hb
  · split <;> exact h2
  · split <;> exact h3
  · rw [setConfig_self]
    split
    · rename_i hn
      rw [setConfig_self, h6]
      rw [h6] at hn
      rw [if_pos hn]; rfl
    · rename_i hn
      rw [h6] at hn ⊢
      rw [if_neg hn]; rfl

/-- C65: dialing changes none of the configurations and caches there were. The connection has a new configuration, with the
caller's settings, or the zero value for a nil one; the name is the caller's, or the host if there is none. Missing: UseDTLS
and RecordLayer are not the caller's, see below. -/
theorem C65_config_partial (m : Mem) (d : Dialing) (network addr : Bytes) (config : Option Nat) :
    (∀ a, a < m.freeConfig → (dial m d network addr config).mem.configs a = m.configs a) ∧
    (dial m d network addr config).mem.caches = m.caches ∧
    ∀ a', (dial m d network addr config).result = .ok a' →
      m.freeConfig ≤ a' ∧ a' < (dial m d network addr config).mem.freeConfig ∧
      ∃ given : Config, (config = none → given = {}) ∧ (∀ a, config = some a → given = m.configs a) ∧
        (dial m d network addr config).mem.configs a' =
          { given with
            serverName := if given.serverName = [] then hostOf addr else given.serverName
            useDTLS := decide (network = [117, 100, 112])
            recordLayer := none } := by
  obtain ⟨h1, h2, h3, h4, h5⟩ := forDial_spec m network addr config
  have hne : ∀ a, a < m.freeConfig → (m.forDial network addr config).2.configs a = m.configs a :=
    fun a ha => h2 a (Nat.ne_of_lt ha)
  unfold dial
  split
  · exact ⟨fun _ _ => rfl, rfl, fun _ h => by cases h⟩
  · split
    · exact ⟨fun _ _ => rfl, rfl, fun _ h => by cases h⟩
    · dsimp only
      split
      · exact ⟨hne, h3, fun _ h => by cases h⟩
      · split
        · exact ⟨hne, h3, fun _ h => by cases h⟩
        · refine ⟨hne, h3, fun a' h => ?_⟩
          obtain rfl : m.freeConfig = a' := by rw [← h1]; exact Except.ok.inj h
          exact ⟨Nat.le_refl _, by rw [h4]; omega, h5⟩

/-- C65 fails for RecordLayer: a custom one is not used. -/
theorem C65_record_layer_fails (m : Mem) (d : Dialing) (network addr : Bytes) (a n : Nat)
    (hr : (m.configs a).recordLayer = some n) (a' : Nat) (h : (dial m d network addr (some a)).result = .ok a') :
    ((dial m d network addr (some a)).mem.configs a').recordLayer ≠ (m.configs a).recordLayer := by
  obtain ⟨-, -, given, -, -, hg⟩ :=
    (C65_config_partial m d network addr (some a)).2.2 a' h
  rw [hg, hr]
  simp

/-- C65 fails for datagram networks other than "udp", such as "udp4" and "udp6": TLS is spoken there, also if the caller asks
for DTLS. -/
theorem C65_udp_fails (m : Mem) (d : Dialing) (addr : Bytes) (version : UInt8) (config : Option Nat) (a' : Nat)
    (h : (dial m d [117, 100, 112, version] addr config).result = .ok a') :
    ((dial m d [117, 100, 112, version] addr config).mem.configs a').useDTLS = false := by
  obtain ⟨-, -, given, -, -, hg⟩ := (C65_config_partial m d _ addr config).2.2 a' h
  rw [hg]
  simp

/-- C65: a connection that Dial returns has completed its handshake, and is connected. `hh`: Handshake behaves as in
Verif.Conn.Handshake, on a new Conn with the NonBlocking of the configuration. -/
theorem C65_connected (m : Mem) (d : Dialing) (network addr : Bytes) (config : Option Nat) (a' : Nat) (h : (dial m d network addr config).result = .ok a')
    (E : Env) (cfg : Machine.Config) (st : Bool) (tl el : UInt32) (t : Turn) (ts : List Turn)
    (hh : d.handshake = none →
      ((HConn.new cfg true ((dial m d network addr config).mem.configs a').nonBlocking st tl el
        ((dial m d network addr config).mem.configs a').useDTLS).handshake E t ts).1 = .ok ()) :
    let c := ((HConn.new cfg true ((dial m d network addr config).mem.configs a').nonBlocking st tl el
      ((dial m d network addr config).mem.configs a').useDTLS).handshake E t ts).2
    c.complete = true ∧ c.connected = true := by
  obtain ⟨hnb, -, hn, -⟩ := ((C65_outcome m d network addr config).1).1 ⟨a', h⟩
  obtain ⟨-, -, given, hg0, hg1, hg⟩ := (C65_config_partial m d network addr config).2.2 a' h
  have hb : ((dial m d network addr config).mem.configs a').nonBlocking = false := by
    rw [hg]
    cases hcfg : config with
    | none => rw [hg0 hcfg]
    | some a => rw [hg1 a hcfg]; exact hnb a hcfg
  have hk := hh hn
  rw [hb] at hk ⊢
  exact Verif.Props.C51_success E cfg true st tl el _ [] t ts hk

/-! ### Listening -/

/-- C65: Accept gives no error exactly if a connection came in and its handshake returned none; it returns a connection exactly if
one came in. -/
theorem C65_accept (ok : Bool) (handshake : Option Nat) :
    ((accept ok handshake).err = none ↔ ok = true ∧ handshake = none) ∧ (accept ok handshake).conn = ok := by
  unfold accept
  cases ok <;> simp

/-- C65 fails for Accept: after a failed handshake it returns the connection beside the error and has not closed the
transport. -/
theorem C65_accept_fails (a : Nat) :
    (accept true (some a)).err = some (some a) ∧ (accept true (some a)).conn = true ∧ (accept true (some a)).closed = false :=
  ⟨rfl, rfl, rfl⟩

/-- C65: Listen gives a listener exactly if there is a configuration that is valid for servers and blocking, and `net.Listen`
succeeds. -/
theorem C65_listen (m : Mem) (ok : Bool) (config : Option Nat) :
    (∃ opened, listen m ok config = .ok (true, opened)) ↔
      ok = true ∧ ∃ a, config = some a ∧ (m.configs a).nonBlocking = false ∧ m.validForServer a = .ok true := by
  cases config with
  | none => simp [listen]
  | some a =>
    simp only [listen, Option.some.injEq, exists_eq_left', Res.bind_eq_ok, newListener, Mem.refused]
    constructor
    · rintro ⟨o, v, hv, h⟩
      cases v
      · simp at h
      · cases ok
        · simp at h
        · simp only [Bool.not_true, Bool.false_eq_true, if_false, Res.ok.injEq, Prod.mk.injEq, Bool.not_eq_true'] at h
          exact ⟨rfl, h.1, hv⟩
    · rintro ⟨rfl, hn, hv⟩
      exact ⟨true, true, hv, by simp [hn]⟩

/-- C65 fails for Listen with a valid configuration for non-blocking use: it returns an error, and the address stays bound. -/
theorem C65_listen_fails (m : Mem) (a : Nat) (hv : m.validForServer a = .ok true) (hn : (m.configs a).nonBlocking = true) :
    listen m true (some a) = .ok (false, true) := by
  simp [listen, hv, newListener, Mem.refused, hn]

/-! ### A case -/

/-- "a:1" -/
example : hostOf [97, 58, 49] = [97] := by decide

/-- Memory with one configuration at 0, which asks for the protocol "x". -/
def dialMem : Mem where
  configs := fun a => if a = 0 then { nextProtos := [[120]], recordLayer := some 5 } else {}
  caches := fun _ => none
  freeConfig := 1
  freeCache := 0

def dialDone : Dialing := { timeout := 5, deadline := some 3, dialOk := true, handshake := none, timerFirst := false }

example : dialDone.limit = 3 := by decide

example : (dial dialMem dialDone [117, 100, 112] [97, 58, 49] (some 0)).result = .ok 1 ∧
    (dial dialMem dialDone [117, 100, 112] [97, 58, 49] (some 0)).mem.configs 1 =
      { serverName := [97], nextProtos := [[120]], useDTLS := true } ∧
    ((dial dialMem dialDone [117, 100, 112, 52] [97, 58, 49] (some 0)).mem.configs 1).useDTLS = false := by
  refine ⟨rfl, by decide, by decide⟩

example : (dial dialMem { dialDone with handshake := some 40 } [117, 100, 112] [97, 58, 49] none).result = .error (.alert 40) ∧
    (dial dialMem { dialDone with handshake := some 40 } [117, 100, 112] [97, 58, 49] none).closed = true := ⟨rfl, rfl⟩

end Verif.Conn

import Verif.Conn.StackSturdy
import Verif.Conn.Toy
import Verif.Props.Panics
import Verif.Props.Survive

/-
C87: Handshake survives whatever arrives.
-/

namespace Verif.Props

open Verif Verif.Crypto Verif.Messages Verif.Negotiation Verif.Handshake Verif.Machine Verif.Spec Verif.Conn Verif.Record

/-- C87 for a client over TLS, with suites that mint implements: whatever bytes and errors the transport delivers, in whatever pieces and
between whatever calls, every call of Handshake returns, unless numbers of records are used up. Missing: alert records of less than
two bytes (`C87_client_short_alert_fails`), records of zeros that the AEAD accepts, which only the peer can make (`C80_zeros_fails`), and the messages
that crash a client (`C45_empty_certificate_fails`, `C45_client_point_fails`). -/
theorem C87_client_partial (E : Env) (hP : E.P.Sized) (A : Bytes → Aead)
    (nz : ∀ key nonce c h p, (A key).opening nonce c h = some p → ∃ b ∈ p, b ≠ 0) (cfg : Config)
    (suites : ∀ s ∈ cfg.suites, ∃ p, suiteParams s.toNat = some p) (l : List Happens)
    (alerts : ∀ pt ∈ recordsRead E A (End.new (.client (.start { cfg := cfg }))) l, WholeAlert pt)
    (harmless : ∀ m ∈ messagesRead E A (End.new (.client (.start { cfg := cfg }))) l, HarmlessToClient E m) :
    (after E A (End.new (.client (.start { cfg := cfg }))) l).outcome.Safe ∨
    NumbersUsedUp (after E A (End.new (.client (.start { cfg := cfg }))) l).reader.keys ∨
    NumbersUsedUp (after E A (End.new (.client (.start { cfg := cfg }))) l).out := by
  have h : Sturdy (clientSide hP) A (End.new (.client (.start { cfg := cfg }))) :=
    ⟨steady_new A _, fun _ => suites, Or.inl (returns_of_safe trivial)⟩
  rcases (h.after nz l alerts harmless fun _ _ => trivial).returns with hr | hr
  · refine Or.inl ?_
    cases ho : (Spec.after E A (End.new (.client (.start { cfg := cfg }))) l).outcome with
    | ok _ => trivial
    | err _ => trivial
    | panic => exact absurd ho hr.1
    | diverge => exact absurd ho (hr.2 rfl)
  · exact Or.inr hr

/-- C87 for a server over TLS with a sound configuration. Missing: as for the client (`C87_server_short_alert_fails`, `C45_cookie_fails`,
`C45_server_point_fails`); and that a server that has refused early data comes to an end of reading it. -/
theorem C87_server_partial (E : Env) (hP : E.P.Sized) (A : Bytes → Aead)
    (nz : ∀ key nonce c h p, (A key).opening nonce c h = some p → ∃ b ∈ p, b ≠ 0) (cfg : Config) (sound : SoundServerConfig cfg)
    (l : List Happens) (cookies : ∀ c ∈ choices l, c.appCookie.Safe)
    (alerts : ∀ pt ∈ recordsRead E A (End.new (.server (.start ⟨cfg⟩))) l, WholeAlert pt)
    (harmless : ∀ m ∈ messagesRead E A (End.new (.server (.start ⟨cfg⟩))) l, HarmlessToServer E cfg m) :
    (after E A (End.new (.server (.start ⟨cfg⟩))) l).outcome ≠ .panic ∨
    NumbersUsedUp (after E A (End.new (.server (.start ⟨cfg⟩))) l).reader.keys ∨
    NumbersUsedUp (after E A (End.new (.server (.start ⟨cfg⟩))) l).out := by
  have h : Sturdy (serverSide hP sound) A (End.new (.server (.start ⟨cfg⟩))) :=
    ⟨steady_new A _, fun _ => ⟨rfl, trivial⟩, Or.inl (returns_of_safe trivial)⟩
  exact (h.after nz l alerts harmless cookies).returns.imp_left And.left

/-- An alert of one byte, in the clear. -/
def shortAlert : Bytes := [21, 3, 1, 0, 1, 2]

/-- Reading it panics. -/
theorem shortAlert_panics {e : End} (hs : e.hs = HsIn.new false true) (hr : e.reader = Reader.new false [.ok shortAlert]) :
    e.readMessage.1 = .panic := by
  have h1 : (readRecord (Reader.new false [.ok shortAlert]) false).1 = .ok ⟨21, 0, 0, [2]⟩ := by decide +kernel
  have h2 : ((HsIn.new false true).readMessage (fun _ => .ok ()) [.ok ⟨21, 0, 0, [2]⟩]).1 = .panic := by decide +kernel
  unfold End.readMessage
  rw [if_pos (by rw [hs]; decide), hr]
  rcases hx : readRecord (Reader.new false [.ok shortAlert]) false with ⟨x, r⟩
  rw [hx] at h1
  dsimp only at h1
  subst h1
  unfold End.parse
  dsimp only
  rw [hs]
  rcases hy : (HsIn.new false true).readMessage (fun _ => .ok ()) [.ok ⟨21, 0, 0, [2]⟩] with ⟨y, h, f⟩
  rw [hy] at h2
  dsimp only at h2
  subst h2
  rfl

/-- C87 is violated: anybody who can send six bytes to a server that has just accepted a connection crashes it, whatever its
configuration (handshake-layer.go:205). -/
theorem C87_server_short_alert_fails (E : Env) (A : Bytes → Aead) (cfg : Config) (c : Coins) :
    (after E A (End.new (.server (.start ⟨cfg⟩))) [.arrives (.ok shortAlert), .call c]).outcome = .panic := by
  have h := shortAlert_panics (e := happen E A (End.new (.server (.start ⟨cfg⟩))) (.arrives (.ok shortAlert))) rfl rfl
  generalize he : happen E A (End.new (.server (.start ⟨cfg⟩))) (.arrives (.ok shortAlert)) = e at h
  have hp : e.party = .server (.start ⟨cfg⟩) := by rw [← he]; rfl
  have ho : e.outcome = .ok () := by rw [← he]; rfl
  show (End.turn E A c (happen E A (End.new (.server (.start ⟨cfg⟩))) (.arrives (.ok shortAlert)))).outcome = .panic
  rw [he]
  simp only [End.turn, ho, hp, End.readTurn, End.receive]
  rcases hx : e.readMessage with ⟨x, e'⟩
  rw [hx] at h
  dsimp only at h
  subst h
  rfl

/-- A client that waits for the answer to its hello is crashed in the same way. -/
theorem C87_client_short_alert_fails : ∃ (E : Env) (A : Bytes → Aead) (cfg : Config) (c : Coins), E.P.Sized ∧
    (∀ s ∈ cfg.suites, ∃ p, suiteParams s.toNat = some p) ∧
    (after E A (End.new (.client (.start { cfg := cfg }))) [.call c, .arrives (.ok shortAlert), .call c]).outcome = .panic :=
  ⟨Toy.env, Toy.aead, Toy.clientCfg, Toy.coins 2, Toy.prims_sized, by
    intro s hs
    simp only [Toy.clientCfg, List.mem_cons, List.not_mem_nil, or_false] at hs
    rcases hs with rfl | rfl <;> exact ⟨_, rfl⟩, Toy.panics_ok (by decide +kernel)⟩

/-! ### Cases -/

/-- An AEAD that refuses plaintexts of zeros. -/
def strictAead (k : Bytes) : Aead :=
  { Toy.aead k with opening := fun n c h => ((Toy.aead k).opening n c h).filter fun p => p.any (· != 0) }

theorem strictAead_nonzero (key nonce c h p : Bytes) (hp : (strictAead key).opening nonce c h = some p) : ∃ b ∈ p, b ≠ 0 := by
  simp only [strictAead, Option.filter_eq_some_iff, List.any_eq_true, bne_iff_ne] at hp
  exact hp.2

/-- The answer of the toy server to the toy client's hello. -/
def toyAnswer : Bytes :=
  ((Net.new Toy.clientCfg Toy.serverCfg).run Toy.env strictAead [.client (Toy.coins 2), .flush, .server (Toy.coins 3), .server (Toy.coins 3)]).server.wire

/-- The answer arrives in three pieces, with a timeout and some garbage behind it. -/
def story : List Happens :=
  [.call (Toy.coins 2), .arrives (.ok (toyAnswer.take 3)), .call (Toy.coins 2), .arrives (.ok ((toyAnswer.drop 3).take 400)), .call (Toy.coins 2),
   .call (Toy.coins 2), .arrives (.error .wouldBlock), .call (Toy.coins 2), .arrives (.ok (toyAnswer.drop 403)), .call (Toy.coins 2),
   .arrives (.ok [23, 3, 3, 0, 1, 7]), .call (Toy.coins 2), .call (Toy.coins 2), .call (Toy.coins 2), .call (Toy.coins 2)]

/-- Whether all alerts among some records have two bytes. -/
def wholeB (l : List Plaintext) : Bool := l.all fun pt => pt.contentType != 21 || decide (2 ≤ pt.fragment.length)

theorem wholeB_ok {l : List Plaintext} (h : wholeB l = true) : ∀ pt ∈ l, WholeAlert pt := by
  intro pt hm ht
  have := List.all_eq_true.1 h pt hm
  simpa [ht] using this

example : (after Toy.env strictAead (End.new (.client (.start { cfg := Toy.clientCfg }))) story).outcome.Safe ∨
    NumbersUsedUp (after Toy.env strictAead (End.new (.client (.start { cfg := Toy.clientCfg }))) story).reader.keys ∨
    NumbersUsedUp (after Toy.env strictAead (End.new (.client (.start { cfg := Toy.clientCfg }))) story).out :=
  C87_client_partial Toy.env Toy.prims_sized strictAead strictAead_nonzero Toy.clientCfg (by
    intro s hs
    simp only [Toy.clientCfg, List.mem_cons, List.not_mem_nil, or_false] at hs
    rcases hs with rfl | rfl <;> exact ⟨_, rfl⟩) story (wholeB_ok (by decide +kernel))
    (by
      have h : (messagesRead Toy.env strictAead (End.new (.client (.start { cfg := Toy.clientCfg }))) story).all (fun m => !Machine.emptyCert m) = true := by
        decide +kernel
      intro m hm
      have := List.all_eq_true.1 h m hm
      exact Machine.harmless_of_not_empty (by simpa using this))

/-- The client reads the whole answer there. -/
example : (messagesRead Toy.env strictAead (End.new (.client (.start { cfg := Toy.clientCfg }))) story).map (·.msgType) = [2, 8, 11, 15, 20] := by
  decide +kernel

/-- A hello of the toy client arrives at a server in two pieces, then an alert and an error. -/
def toyHello : Bytes := ((Net.new Toy.clientCfg Toy.serverCfg).run Toy.env strictAead [.client (Toy.coins 2)]).client.wire

def serverStory : List Happens :=
  [.call (Toy.coins 3), .arrives (.ok (toyHello.take 1)), .call (Toy.coins 3), .arrives (.ok (toyHello.drop 1)), .call (Toy.coins 3),
   .arrives (.ok [21, 3, 1, 0, 2, 2, 40]), .arrives (.error .eof), .call (Toy.coins 3), .call (Toy.coins 3)]

example : (after Toy.env strictAead (End.new (.server (.start ⟨Toy.serverCfg⟩))) serverStory).outcome ≠ .panic ∨
    NumbersUsedUp (after Toy.env strictAead (End.new (.server (.start ⟨Toy.serverCfg⟩))) serverStory).reader.keys ∨
    NumbersUsedUp (after Toy.env strictAead (End.new (.server (.start ⟨Toy.serverCfg⟩))) serverStory).out :=
  C87_server_partial Toy.env Toy.prims_sized strictAead strictAead_nonzero Toy.serverCfg Machine.serverCfg_sound serverStory
    (by
      intro c hc
      simp only [serverStory, choices, List.mem_cons, List.not_mem_nil, or_false] at hc
      rcases hc with rfl | rfl | rfl | rfl | rfl <;> trivial)
    (wholeB_ok (by decide +kernel))
    fun m _ => ⟨fun _ _ _ _ _ _ _ => by simp [Toy.serverCfg], fun _ _ _ _ _ _ _ _ _ _ _ => rfl⟩

example : (messagesRead Toy.env strictAead (End.new (.server (.start ⟨Toy.serverCfg⟩))) serverStory).map (·.msgType) = [1] := by
  decide +kernel

end Verif.Props

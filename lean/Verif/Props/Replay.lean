import Verif.Machine.EarlyData
import Verif.Machine.Toy
import Verif.Props.EarlyData
import Verif.Props.PskNegotiation

/-
C88: recorded early data is not accepted again.
-/

namespace Verif.Toy

open Verif Verif.Crypto Verif.Messages Verif.Negotiation Verif.Handshake Verif.Machine Verif.Spec

/-- A PSK from a ticket. -/
def ticketed : Psk := { psk with isResumption := true }

def ticketClient : Config := { clientCfg with psks := fun n => if n = [97] then some ticketed else none }
def ticketServer : Config := { serverCfg with psks := fun n => if n = [48, 49, 48, 50, 48, 51] then some ticketed else none }

/-- Random choices at some time. -/
def coinsAt (n : UInt8) (t : Int) : Coins := { coins n with now := t }

/-- A connection to a server, on which a client's hello and some early data arrive at some time. -/
def replayed (ccfg : Config) (n : UInt8) (t : Int) : List (Event × Coins) :=
  [(.msg (lastHello tls ccfg []), coinsAt n t), (.appData [1, 2], coinsAt n t)]

end Verif.Toy

namespace Verif.Props

open Verif Verif.Crypto Verif.Messages Verif.Negotiation Verif.Handshake Verif.Machine Verif.Spec

/-- The PSK that is selected is that of the first identity that is known, and its age was checked. -/
theorem pskFrom_first {P : Prims} {now : Int} {bs : List Bytes} {ctx : Bytes} {cache : Bytes → Option Psk} {j : Nat} {k : Psk} {p : Params} :
    ∀ {ids : List Identity} {i : Nat}, pskFrom P now bs ctx cache i ids = .ok (some (j, k, p)) →
    ∃ id, ids.find? (fun id => (cache (hexString id.identity)).isSome) = some id ∧ cache (hexString id.identity) = some k ∧
      (k.isResumption = true → ticketAgeOk now k id.age = true)
  | [], _, h => by cases h
  | id :: ids, i, h => by
    unfold pskFrom at h
    split at h
    · rename_i hk
      obtain ⟨id', h1, h2⟩ := pskFrom_first h
      exact ⟨id', by rw [List.find?_cons, hk]; exact h1, h2⟩
    · rename_i k' hk
      split at h
      · cases h
      · rename_i hage
        split at h
        · cases h
        · rw [Res.bind_eq_ok] at h
          obtain ⟨_, -, h⟩ := h
          split at h
          · cases h
          · split at h
            · cases h
            · simp only [Res.ok.injEq, Option.some.injEq, Prod.mk.injEq] at h
              obtain ⟨-, rfl, -⟩ := h
              refine ⟨id, by rw [List.find?_cons, hk]; rfl, hk, fun hr => ?_⟩
              simpa [hr] using hage

/-- The hello that led to early data. -/
theorem early_hello {E : Env} {x : Ctx} {cfg : Config} {es : List (Event × Coins)} {s : SState} {acts : List Action} {x' : Ctx}
    (h : serverRun E x cfg es = .ok (s, acts, x')) (hd : x'.earlyData ≠ x.earlyData) :
    ∃ a : AfterHello E x cfg es acts, a.n.params.usingEarlyData = true := by
  have h1 := earlyAt h
  cases s with
  | start => exact absurd h1 hd
  | negotiated => exact absurd h1 hd
  | readPast => exact absurd h1 hd
  | waitFlight2 => exact absurd h1 hd
  | waitEOED w => obtain ⟨a, h2, -⟩ := h1; exact ⟨a, h2⟩
  | waitCert => obtain ⟨a, h2, -⟩ := h1.resolve_left hd; exact ⟨a, h2⟩
  | waitCV => obtain ⟨a, h2, -⟩ := h1.resolve_left hd; exact ⟨a, h2⟩
  | waitFinished => obtain ⟨a, h2, -⟩ := h1.resolve_left hd; exact ⟨a, h2⟩
  | connected => obtain ⟨a, h2, -⟩ := h1.resolve_left hd; exact ⟨a, h2⟩

/-- Its PSK. -/
theorem early_psk {E : Env} {x : Ctx} {cfg : Config} {es : List (Event × Coins)} {acts : List Action}
    (a : AfterHello E x cfg es acts) (hu : a.n.params.usingEarlyData = true) :
    a.m.msgType = 1 ∧ ∃ ch o id k, readHello a.x0 a.m = .ok (ch, o) ∧
      (o.ids.map fun i : PskIdentity => (⟨i.1, i.2.1⟩ : Identity)).find? (fun id => (cfg.psks (hexString id.identity)).isSome) = some id ∧
      cfg.psks (hexString id.identity) = some k ∧ (k.isResumption = true → ticketAgeOk a.ce.now k id.age = true) := by
  obtain ⟨f, hx2, ⟨_, _, _, h⟩ | ⟨hsend, n, hn, hfin⟩⟩ := SStart.next_ok a.next
  · cases h
  cases hn
  obtain ⟨hmt, -⟩ := readHello_ok f.hello
  refine ⟨hmt, f.ch, f.o, ?_⟩
  obtain ⟨hdp, cert, psk, et, proto, hcert, hpsk, het, halpn, hneq⟩ := SStart.finish_ok hfin
  have hus : a.n.params.usingEarlyData =
      (Negotiation.earlyData (pskMode f.dhc.isSome f.pskc.isSome f.o.modes).2 f.o.earlyData cfg.allowEarlyData).1 := by rw [hneq]
  rw [hu] at hus
  have hmode : (pskMode f.dhc.isSome f.pskc.isSome f.o.modes).2 = true := by
    revert hus
    cases (pskMode f.dhc.isSome f.pskc.isSome f.o.modes).2 <;> simp [Negotiation.earlyData]
  cases hpc : f.pskc with
  | none => rw [hpc] at hmode; simp [pskMode] at hmode
  | some t =>
    obtain ⟨j, k, p⟩ := t
    have hc := f.psk
    rw [hpc] at hc
    rcases choosePsk_ok hc with ⟨_, h, _⟩ | ⟨-, base, trunc, -, -, h⟩
    · cases h
    · obtain ⟨id, h1, h2, h3⟩ := pskFrom_first h
      exact ⟨id, k, f.hello, h1, h2, h3⟩

/-- If the first message of a connection is the only hello, it is the one that led to early data. -/
theorem first_hello {E : Env} {x : Ctx} {cfg : Config} {hello : Msg} {c : Coins} {rest : List (Event × Coins)} {acts : List Action}
    (a : AfterHello E x cfg ((.msg hello, c) :: rest) acts) (ht : a.m.msgType = 1)
    (only : ∀ m ∈ received rest, m.msgType ≠ 1) : a.m = hello ∧ a.ce = c ∧ a.x0 = x := by
  have he := a.es_eq
  cases h0 : a.es0 with
  | nil =>
    rw [h0] at he
    simp only [List.nil_append, List.cons_append, List.cons.injEq, Prod.mk.injEq, Event.msg.injEq] at he
    have hr := a.run0
    rw [h0] at hr
    simp only [serverRun, SState.run, Res.ok.injEq, Prod.mk.injEq] at hr
    exact ⟨he.1.1.symm, he.1.2.symm, hr.2.2.symm⟩
  | cons e es =>
    rw [h0] at he
    simp only [List.cons_append, List.cons.injEq] at he
    refine absurd ht (only a.m ?_)
    rw [congrArg received he.2]
    simp [received]

/-- C88: a first flight is recorded, and a connection takes its early data. Another connection, to a server with the same PSKs, which
takes early data after the same hello does so less than ten seconds and a millisecond earlier or later, whatever else is in its
configuration. Missing: within that time it may (`C88_replay_fails`); PSKs that are not from tickets (`C88_external_fails`); and tickets of
more than 2^32 milliseconds, whose age is not known (`C88_old_ticket_fails`). -/
theorem C88_window_partial (E : Env) (x : Ctx) (cfg cfg' : Config) (same : cfg.psks = cfg'.psks) (hello : Msg) (c c' : Coins)
    (rest rest' : List (Event × Coins)) (s s' : SState) (acts acts' : List Action) (y y' : Ctx)
    (h : serverRun E x cfg ((.msg hello, c) :: rest) = .ok (s, acts, y)) (took : y.earlyData ≠ x.earlyData)
    (h' : serverRun E x cfg' ((.msg hello, c') :: rest') = .ok (s', acts', y')) (took' : y'.earlyData ≠ x.earlyData)
    (only : ∀ m ∈ received rest, m.msgType ≠ 1) (only' : ∀ m ∈ received rest', m.msgType ≠ 1)
    (tickets : ∀ n k, cfg.psks n = some k → k.isResumption = true ∧
      ∀ t, t = c.now ∨ t = c'.now → k.receivedAt ≤ t ∧ t - k.receivedAt < 2 ^ 32 * 1000000) :
    c.now - c'.now < 10001 * 1000000 ∧ c'.now - c.now < 10001 * 1000000 := by
  obtain ⟨a, hu⟩ := early_hello h took
  obtain ⟨a', hu'⟩ := early_hello h' took'
  obtain ⟨ht, ch, o, id, k, h1, h2, h3, h4⟩ := early_psk a hu
  obtain ⟨ht', ch', o', id', k', h1', h2', h3', h4'⟩ := early_psk a' hu'
  obtain ⟨e1, e2, e3⟩ := first_hello a ht only
  obtain ⟨e1', e2', e3'⟩ := first_hello a' ht' only'
  rw [e1, e3] at h1
  rw [e1', e3', h1] at h1'
  cases h1'
  rw [← same] at h2' h3'
  rw [h2] at h2'
  cases h2'
  rw [h3] at h3'
  cases h3'
  obtain ⟨hr, hb⟩ := tickets _ _ h3
  have g := (ticketAgeOk_iff _ _ _).1 (h4 hr)
  have g' := (ticketAgeOk_iff _ _ _).1 (h4' hr)
  rw [e2] at g
  rw [e2'] at g'
  have b := hb _ (.inl rfl)
  have b' := hb _ (.inr rfl)
  simp only [AgePlausible] at g g'
  rw [Int.tdiv_eq_ediv_of_nonneg (by omega)] at g g'
  omega

/-- Whether a run fails with an alert or an error. -/
def runFails {α : Type} : Res α → Bool
  | .err _ => true
  | _ => false

/-- Two servers with the same configuration, or one server twice, take the same early data at the times `t` and `t'`. -/
def TakenTwice (E : Env) (cfg : Config) (t t' : Int) : Prop :=
  ∃ (x : Ctx) (hello : Msg) (d : Bytes) (c c' : Coins) (s s' : SState) (acts acts' : List Action) (y y' : Ctx),
    x.earlyData = [] ∧ d ≠ [] ∧ c.random ≠ c'.random ∧ c.dh ≠ c'.dh ∧ c.now = t ∧ c'.now = t' ∧
    serverRun E x cfg [(.msg hello, c), (.appData d, c)] = .ok (s, acts, y) ∧ y.earlyData = d ∧
    serverRun E x cfg [(.msg hello, c'), (.appData d, c')] = .ok (s', acts', y') ∧ y'.earlyData = d

theorem taken_twice {ccfg scfg : Config} {t t' : Int}
    (h : Toy.earlySent [1, 2] (fun _ => true) (serverRun Toy.env Toy.tls scfg (Toy.replayed ccfg 6 t)) = true)
    (h' : Toy.earlySent [1, 2] (fun _ => true) (serverRun Toy.env Toy.tls scfg (Toy.replayed ccfg 7 t')) = true) :
    TakenTwice Toy.env scfg t t' := by
  obtain ⟨s, acts, y, h1, h2, -⟩ := Toy.earlySent_ok h
  obtain ⟨s', acts', y', h1', h2', -⟩ := Toy.earlySent_ok h'
  exact ⟨Toy.tls, _, [1, 2], Toy.coinsAt 6 t, Toy.coinsAt 7 t', s, s', acts, acts', y, y', rfl, by simp, by show (Toy.coins 6).random ≠ (Toy.coins 7).random; decide,
    by show (Toy.coins 6).dh ≠ (Toy.coins 7).dh; decide, rfl, rfl,
    h1, h2, h1', h2'⟩

theorem ticketServer_tickets (n : Bytes) (k : Psk) (h : Toy.ticketServer.psks n = some k) : k = Toy.ticketed := by
  simp only [Toy.ticketServer] at h
  split at h
  · cases h; rfl
  · cases h

/-- C88 is violated: within some seconds, five here, early data is taken again. Nothing is remembered of the hellos that were
accepted (RFC 8446, section 8, wants a server to try). -/
theorem C88_replay_fails : ∃ (E : Env) (cfg : Config), E.P.Sized ∧ (∀ n k, cfg.psks n = some k → k.isResumption = true) ∧
    TakenTwice E cfg 1000 (5000 * 1000000) :=
  ⟨Toy.env, Toy.ticketServer, Toy.prims_sized, fun n k h => by rw [ticketServer_tickets n k h]; rfl,
    taken_twice (ccfg := Toy.ticketClient) (by decide +kernel) (by decide +kernel)⟩

/-- With a PSK that is not from a ticket, early data is taken again a year later: there is no check of age. -/
theorem C88_external_fails : ∃ (E : Env) (cfg : Config), E.P.Sized ∧ TakenTwice E cfg 0 (365 * 86400 * 1000000000) :=
  ⟨Toy.env, Toy.pskServer, Toy.prims_sized, taken_twice (ccfg := Toy.pskClient) (by decide +kernel) (by decide +kernel)⟩

/-- With a ticket, early data is taken again after 2^32 milliseconds, some 50 days: the age is counted in 32 bits, and that the
ticket has expired is not looked at. -/
theorem C88_old_ticket_fails : ∃ (E : Env) (cfg : Config), E.P.Sized ∧
    (∀ n k, cfg.psks n = some k → k.isResumption = true ∧ k.expiresAt < 1000) ∧
    TakenTwice E cfg 1000 (1000 + 2 ^ 32 * 1000000) :=
  ⟨Toy.env, Toy.ticketServer, Toy.prims_sized, fun n k h => by rw [ticketServer_tickets n k h]; decide,
    taken_twice (ccfg := Toy.ticketClient) (by decide +kernel) (by decide +kernel)⟩

/-- The hypotheses of `C88_window_partial` hold there. -/
example : (5000 * 1000000 : Int) - 1000 < 10001 * 1000000 := by
  obtain ⟨s, acts, y, h1, h2, -⟩ := Toy.earlySent_ok (d := [1, 2]) (f := fun _ => true)
    (r := serverRun Toy.env Toy.tls Toy.ticketServer (Toy.replayed Toy.ticketClient 6 1000)) (by decide +kernel)
  obtain ⟨s', acts', y', h1', h2', -⟩ := Toy.earlySent_ok (d := [1, 2]) (f := fun _ => true)
    (r := serverRun Toy.env Toy.tls Toy.ticketServer (Toy.replayed Toy.ticketClient 7 (5000 * 1000000))) (by decide +kernel)
  exact (C88_window_partial Toy.env Toy.tls Toy.ticketServer Toy.ticketServer rfl _ _ _ _ _ _ _ _ _ _ _ h1 (by rw [h2]; decide) h1'
    (by rw [h2']; decide) (by simp [received]) (by simp [received]) (fun n k hk => by
      rw [ticketServer_tickets n k hk]
      refine ⟨rfl, ?_⟩
      rintro t (rfl | rfl) <;> decide)).2

/-- A second later than that the server refuses the replay. -/
example : runFails (serverRun Toy.env Toy.tls Toy.ticketServer (Toy.replayed Toy.ticketClient 7 (6000 * 1000000))) = true := by
  decide +kernel

end Verif.Props

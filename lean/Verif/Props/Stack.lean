import Verif.Conn.StackRun
import Verif.Conn.Toy
import Verif.Props.Connect

/-
C68: two ends with compatible configurations, each with its state machine, handshake layer and record layers, connect over a
transport that delivers bytes in pieces.
-/

namespace Verif.Toy

open Verif Verif.Handshake Verif.Machine Verif.Spec Verif.Conn

/-- A round in which the client reads first. -/
def round : List Move := [.flush, .client (coins 2), .server (coins 3)]

/-- A round in which bytes arrive one and seven at a time, and the server takes a turn first. -/
def slowRound : List Move := [.toServer 1, .server (coins 3), .toClient 7, .client (coins 2), .flush, .server (coins 3), .client (coins 2)]

def smallB (N : Net) : Bool := (N.client.asked ++ N.server.asked).all fun m => decide (m.body.length + 5 + 28 ≤ 2 ^ 14)

theorem smallB_ok {N : Net} (h : smallB N = true) : AllSmall 28 N := by
  intro m hm
  have := List.all_eq_true.1 h m hm
  exact of_decide_eq_true (p := m.body.length + 5 + 28 ≤ 2 ^ 14) this

theorem fair (r : List Move) (h : ∀ m ∈ r, ∀ k, m = .client k ∨ m = .server k → k = coins 2 ∨ k = coins 3) : FairCoins noon r := by
  intro m hm k hk
  rcases h m hm k hk with rfl | rfl
  · exact coins_good (by decide)
  · exact coins_good (by decide)

theorem round_fair (n : Nat) : FairCoins noon (List.replicate n round).flatten ∧ FairCoins noon (List.replicate n slowRound).flatten := by
  constructor
  all_goals
    refine fair _ fun m hm k hk => ?_
    obtain ⟨r, hr, hm⟩ := List.mem_flatten.1 hm
    rw [List.eq_of_mem_replicate hr] at hm
    simp only [round, slowRound, List.mem_cons, List.not_mem_nil, or_false] at hm
    rcases hk with rfl | rfl <;> first | exact Or.inl (by simpa using hm) | exact Or.inr (by simpa using hm)

/-- A server with a chain of `n + 1` certificates. -/
def longChain (n : Nat) : Config := { serverCfg with certificates := [⟨x509 1 :: List.replicate n (x509 1), ⟨.rsa, 1⟩⟩] }

def trusting : Config := { clientCfg with insecureSkipVerify := true }

theorem longChain_compatible {n : Nat} (hn : n ≤ 2 ^ 16) : Compatible env noon trusting (longChain n) where
  fits :=
    { name := by decide
      suites := by decide
      groups := by decide
      distinct := by decide
      schemes := by decide
      protos := by decide
      modes := by decide
      psk := by simp [trusting, clientCfg] }
  dh g hg := by
    obtain rfl := List.mem_singleton.1 hg
    exact dh_works
  noCookie := rfl
  method := Or.inr
    { noPsk := trivial
      group := ⟨29, show _ ∈ clientCfg.groups by decide, show _ ∈ serverCfg.groups by decide⟩
      suite := ⟨0x1301, show _ ∈ clientCfg.suites by decide, show _ ∈ serverCfg.suites by decide⟩
      known := show ∀ s ∈ serverCfg.suites, (Crypto.suiteParams s.toNat).isSome = true by decide
      chains := fun c hc => by
        obtain rfl := List.mem_singleton.1 hc
        simp
      certificate := ⟨_, List.mem_singleton.2 rfl, show _ ∈ leafNames (cert 1) by decide, 0x0804, show _ ∈ clientCfg.schemes by decide,
        show Crypto.schemeValidForKey _ (cert 1).key = true by decide⟩
      usable := fun c hc _ => by
        obtain rfl := List.mem_singleton.1 hc
        refine ⟨?_, ?_, x509 1, List.replicate n (x509 1), rfl, ?_⟩
        · intro x hx
          have : x = x509 1 := by
            rcases List.mem_cons.1 hx with h | h
            · exact h
            · exact List.eq_of_mem_replicate h
          rw [this]
          exact ⟨rfl, by simp [x509]⟩
        · simp only [List.map_cons, List.map_replicate, List.sum_cons, List.sum_replicate_nat]
          simp only [x509, List.length_cons, List.length_nil]
          omega
        · obtain ⟨_, _, leaf, rest, h1, h2⟩ := cert_usable 1
          cases h1
          exact h2
      verified := fun c hc _ => Or.inl rfl
      accepted := fun f hf => by cases hf
      clientAuth := fun h => by cases h }

def serverFails (n : Nat) (N : Net) : Bool :=
  match N.server.outcome with
  | .err (.alert a) => a == n
  | _ => false

theorem serverFails_ok {n : Nat} {N : Net} (h : serverFails n N = true) : N.server.outcome = alert n := by
  unfold serverFails at h
  split at h
  · rename_i a h1
    rw [h1, ← eq_of_beq h]
    rfl
  · cases h

end Verif.Toy

namespace Verif.Props

open Verif Verif.Crypto Verif.Messages Verif.Negotiation Verif.Handshake Verif.Machine Verif.Spec Verif.Conn Verif.Record

/-- Whatever order ends take turns in and bytes arrive in, and however the bytes are cut: neither end fails, as long as every
message fits into one protected record. -/
theorem C68_no_failure_partial {E : Env} (hP : E.P.Sized) {now : Int → Prop} {ccfg scfg : Config} (C : Compatible E now ccfg scfg)
    {A : Bytes → Aead} {ov : Nat} (hA : ∀ key, (A key).Lawful ∧ (A key).overhead ≤ ov) (ms : List Move) (hm : FairCoins now ms)
    (hs : AllSmall ov ((Net.new ccfg scfg).run E A ms)) :
    ((Net.new ccfg scfg).run E A ms).client.outcome = .ok () ∧ ((Net.new ccfg scfg).run E A ms).server.outcome = .ok () := by
  obtain ⟨n, h, _⟩ := Sync.run hP C hA ms (sync_new (E := E) (A := A) (now := now)) hm hs
  exact h.outcome

/-- After thirteen rounds, whatever else happens in them, the two ends are connected to each other. Missing: configurations that
are not `Compatible`, and messages that do not fit into one record. -/
theorem C68_connects_partial {E : Env} (hP : E.P.Sized) {now : Int → Prop} {ccfg scfg : Config} (C : Compatible E now ccfg scfg)
    {A : Bytes → Aead} {ov : Nat} (hA : ∀ key, (A key).Lawful ∧ (A key).overhead ≤ ov) (rounds : List (List Move))
    (hr : ∀ r ∈ rounds, Round r) (hn : 13 ≤ rounds.length) (hm : FairCoins now rounds.flatten)
    (hs : AllSmall ov ((Net.new ccfg scfg).run E A rounds.flatten)) :
    ∃ cc sc, Together ((Net.new ccfg scfg).run E A rounds.flatten) cc sc := by
  obtain ⟨n, h, h1 | h1⟩ := Sync.rounds hP C hA rounds (sync_new (E := E) (A := A) (now := now)) hr hm hs
  · have := h.bound hP C
    omega
  · exact h.together hP C h1

theorem toy_round : Round Toy.round ∧ Round Toy.slowRound :=
  ⟨⟨[], [.client (Toy.coins 2), .server (Toy.coins 3)], rfl, ⟨Toy.coins 2, by simp⟩, Toy.coins 3, by simp⟩,
   ⟨[.toServer 1, .server (Toy.coins 3), .toClient 7, .client (Toy.coins 2)], [.server (Toy.coins 3), .client (Toy.coins 2)], rfl,
    ⟨Toy.coins 2, by simp⟩, Toy.coins 3, by simp⟩⟩

/-- The hypotheses hold of a handshake with a PSK and early data. -/
example : Compatible Toy.env Toy.noon Toy.pskClient Toy.pskServer ∧ (∀ key, (Toy.aead key).Lawful ∧ (Toy.aead key).overhead ≤ 28) ∧
    (∀ r ∈ List.replicate 13 Toy.round, Round r) ∧ FairCoins Toy.noon (List.replicate 13 Toy.round).flatten ∧
    AllSmall 28 ((Net.new Toy.pskClient Toy.pskServer).run Toy.env Toy.aead (List.replicate 13 Toy.round).flatten) :=
  ⟨Toy.compatible_psk, fun key => ⟨Toy.aead_lawful key, Nat.le_refl _⟩, fun r hr => by rw [List.eq_of_mem_replicate hr]; exact toy_round.1,
    (Toy.round_fair 13).1, Toy.smallB_ok (by decide +kernel)⟩

/-- And of one with certificates on both sides, in which bytes arrive slowly. -/
example : Compatible Toy.env Toy.noon Toy.clientCfg { Toy.serverCfg with requireClientAuth := true } ∧
    (∀ r ∈ List.replicate 13 Toy.slowRound, Round r) ∧ FairCoins Toy.noon (List.replicate 13 Toy.slowRound).flatten ∧
    AllSmall 28 ((Net.new Toy.clientCfg { Toy.serverCfg with requireClientAuth := true }).run Toy.env Toy.aead
      (List.replicate 13 Toy.slowRound).flatten) :=
  ⟨Toy.compatible, fun r hr => by rw [List.eq_of_mem_replicate hr]; exact toy_round.2, (Toy.round_fair 13).2,
    Toy.smallB_ok (by decide +kernel)⟩

/-! ### Long messages -/

/-- A message that does not fit into a protected record ends the handshake: it is cut into pieces of 2^14 bytes, without regard
for what encryption adds (handshake-layer.go:162, 507-519, record-layer.go:14, 498-500). -/
theorem C68_long_message_fails {A : Bytes → Aead} {e : End} {a : Aead} (ha : (e.out.heap e.out.cur).aead = some a) (hl : a.Lawful)
    (hd : e.out.direction = .write) (ht : e.out.datagram = false) (hiv : 8 ≤ (e.out.heap e.out.cur).iv.length) {m : Msg}
    (hm : 2 ^ 14 < m.body.length + 5 + a.overhead) : (e.act A (.queue m)).outcome = alert Alert.internalError := by
  have key : ∀ f fs, 2 ^ 14 < f.length + 1 + a.overhead → (e.writeAll (f :: fs)).outcome = alert Alert.internalError := by
    intro f fs hf
    have : Record.writeRecord e.out e.out.cur 22 f 0 = .err .msg := by
      simp only [Record.writeRecord, ha, recordHeader, ht, Bool.false_eq_true, if_false, Res.bind_ok, hd, ne_eq, not_true, computeNonce]
      rw [if_neg (by omega)]
      simp only [Res.bind_ok]
      rw [if_pos (by rw [hl.seal_length]; simp [innerPlaintext]; omega)]
    simp only [End.writeAll, this]
  simp only [End.act, tlsWrite]
  by_cases hb : m.body.length > 2 ^ 24
  · rw [if_pos hb]
  · rw [if_neg hb, if_neg (by decide)]
    refine key _ _ ?_
    simp only [tlsFragments, List.length_append, List.length_cons, beBytes_length, List.length_take]
    omega

set_option maxRecDepth 100000 in
/-- So a server with a long certificate chain, though compatible with a client, does not get through a handshake. -/
theorem C68_long_chain_fails : Compatible Toy.env Toy.noon Toy.trusting (Toy.longChain 2399) ∧
    FairCoins Toy.noon [.client (Toy.coins 2), .flush, .server (Toy.coins 3)] ∧
    ((Net.new Toy.trusting (Toy.longChain 2399)).run Toy.env Toy.aead [.client (Toy.coins 2), .flush, .server (Toy.coins 3)]).server.outcome =
      alert Alert.internalError :=
  ⟨Toy.longChain_compatible (by decide), Toy.fair _ (fun m hm k hk => by
    simp only [List.mem_cons, List.not_mem_nil, or_false] at hm
    rcases hk with rfl | rfl <;> first | exact Or.inl (by simpa using hm) | exact Or.inr (by simpa using hm)), Toy.serverFails_ok (by decide +kernel)⟩

end Verif.Props

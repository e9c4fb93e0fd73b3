import Verif.Machine.Epochs
import Verif.Machine.Toy
import Verif.Props.Protection

/-
C83: epochs name the keys, in order.
-/

namespace Verif.Props

open Verif Verif.Crypto Verif.Messages Verif.Negotiation Verif.Handshake Verif.Machine Verif.Spec

/-- Whatever a client reads, its keys for reading are those of epoch 2, then 3, then 4 for every key update; all of 2 and 3 once
it completed the handshake. -/
theorem C83_client_reads (E : Env) (x x' : Ctx) (cfg : Config) (c : Coins) (es : List (Event × Coins)) (s : CState)
    (acts : List Action) (h : clientRun E x cfg c es = .ok (s, acts, x')) :
    ∃ n, inEpochs acts <+: [2, 3] ++ List.replicate n 4 ∧
      ∀ st, s = .connected st → inEpochs acts = [2, 3] ++ List.replicate n 4 := by
  have none : ∀ {o k}, Epochs clientOk [] o k acts → inEpochs acts <+: [2, 3] ++ List.replicate 0 4 :=
    fun h => by rw [h.reads]; exact List.nil_prefix
  have two : ∀ {o k}, Epochs clientOk [2] o k acts → inEpochs acts <+: [2, 3] ++ List.replicate 0 4 :=
    fun h => by rw [h.reads]; exact ⟨[3], rfl⟩
  have ee : ∀ {p}, AfterEE p acts → inEpochs acts <+: [2, 3] ++ List.replicate 0 4 := by
    rintro p (⟨_, h⟩ | h | h)
    · exact two h
    · exact two h
    · exact two h
  have hk := clientEpochs h
  cases s with
  | start s => exact hk.elim
  | waitSH s =>
    refine ⟨0, ?_, fun _ h => by cases h⟩
    rcases hk with ⟨_, h⟩ | ⟨_, h | h⟩
    · exact none h
    · exact none h
    · exact none h
  | waitEE s =>
    refine ⟨0, ?_, fun _ h => by cases h⟩
    rcases hk with ⟨_, h⟩ | ⟨_, h | h⟩
    · exact two h
    · exact two h
    · exact two h
  | waitCertCR s => exact ⟨0, ee hk, fun _ h => by cases h⟩
  | waitCert s => exact ⟨0, ee hk, fun _ h => by cases h⟩
  | waitCV s => exact ⟨0, ee hk, fun _ h => by cases h⟩
  | waitFinished s => exact ⟨0, ee hk, fun _ h => by cases h⟩
  | connected s =>
    obtain ⟨_, _, a, _, _, _, h⟩ := hk
    exact ⟨a, by rw [h.reads]; exact List.prefix_rfl, fun _ _ => h.reads⟩

/-- Whatever a client reads, its keys for sending are those of epoch 1 if it sends early data, then 2, then 3, then 4 for every
key update. What is missing: that the keys of epoch 2 are not installed twice, see `C83_repeats_fails`. -/
theorem C83_client_sends_partial (E : Env) (x x' : Ctx) (cfg : Config) (c : Coins) (es : List (Event × Coins)) (s : CState)
    (acts : List Action) (h : clientRun E x cfg c es = .ok (s, acts, x')) :
    ∃ early hs n, (early = [] ∨ early = [1] ∧ cfg.allowEarlyData = true) ∧ (hs = [2] ∨ hs = [2, 2]) ∧
      outEpochs acts <+: early ++ hs ++ [3] ++ List.replicate n 4 ∧
      ∀ st, s = .connected st → outEpochs acts = early ++ hs ++ [3] ++ List.replicate n 4 := by
  have he : 1 ∈ outEpochs acts → cfg.allowEarlyData = true := early_allowed h
  have hp : ∀ {i o k}, Epochs clientOk i o k acts → o <+: [1, 2, 3] ∨ o <+: [2, 3] → (∀ st, s ≠ .connected st) →
      ∃ early hs n, (early = [] ∨ early = [1] ∧ cfg.allowEarlyData = true) ∧ (hs = [2] ∨ hs = [2, 2]) ∧
      outEpochs acts <+: early ++ hs ++ [3] ++ List.replicate n 4 ∧
      ∀ st, s = .connected st → outEpochs acts = early ++ hs ++ [3] ++ List.replicate n 4 := by
    intro i o k h ho hs
    rcases ho with ho | ho
    · cases o with
      | nil => exact ⟨[], [2], 0, .inl rfl, .inl rfl, by rw [h.sends]; exact List.nil_prefix, fun st e => (hs st e).elim⟩
      | cons a o =>
        have ha : a = 1 := (List.cons_prefix_cons.1 ho).1
        subst ha
        exact ⟨[1], [2], 0, .inr ⟨rfl, he (by rw [h.sends]; simp)⟩, .inl rfl, by rw [h.sends]; exact ho,
          fun st e => (hs st e).elim⟩
    · exact ⟨[], [2], 0, .inl rfl, .inl rfl, by rw [h.sends]; exact ho, fun st e => (hs st e).elim⟩
  have ee : ∀ {p}, AfterEE p acts → (∀ st, s ≠ .connected st) →
      ∃ early hs n, (early = [] ∨ early = [1] ∧ cfg.allowEarlyData = true) ∧ (hs = [2] ∨ hs = [2, 2]) ∧
      outEpochs acts <+: early ++ hs ++ [3] ++ List.replicate n 4 ∧
      ∀ st, s = .connected st → outEpochs acts = early ++ hs ++ [3] ++ List.replicate n 4 := by
    rintro p (⟨_, h⟩ | h | h) hs
    · exact hp h (.inl ⟨_, rfl⟩) hs
    · exact hp h (.inr ⟨_, rfl⟩) hs
    · exact hp h (.inl ⟨_, rfl⟩) hs
  have hk := clientEpochs h
  cases s with
  | start s => exact hk.elim
  | waitSH s =>
    rcases hk with ⟨_, h⟩ | ⟨_, h | h⟩
    · exact hp h (.inl ⟨_, rfl⟩) (fun _ h => by cases h)
    · exact hp h (.inl ⟨_, rfl⟩) (fun _ h => by cases h)
    · exact hp h (.inl ⟨_, rfl⟩) (fun _ h => by cases h)
  | waitEE s =>
    rcases hk with ⟨_, h⟩ | ⟨_, h | h⟩
    · exact hp h (.inl ⟨_, rfl⟩) (fun _ h => by cases h)
    · exact hp h (.inr ⟨_, rfl⟩) (fun _ h => by cases h)
    · exact hp h (.inl ⟨_, rfl⟩) (fun _ h => by cases h)
  | waitCertCR s => exact ee hk (fun _ h => by cases h)
  | waitCert s => exact ee hk (fun _ h => by cases h)
  | waitCV s => exact ee hk (fun _ h => by cases h)
  | waitFinished s => exact ee hk (fun _ h => by cases h)
  | connected s =>
    obtain ⟨o, ho, _, b, _, _, h⟩ := hk
    have e1 : o.head? = some 1 → cfg.allowEarlyData = true := fun hh => he (by
      rw [h.sends]; exact List.mem_append_left _ (List.mem_of_mem_head? (by rw [hh]; rfl)))
    rcases ho with rfl | rfl | rfl | rfl
    · exact ⟨[1], [2], b, .inr ⟨rfl, e1 rfl⟩, .inl rfl, by rw [h.sends]; exact List.prefix_rfl, fun _ _ => h.sends⟩
    · exact ⟨[], [2], b, .inl rfl, .inl rfl, by rw [h.sends]; exact List.prefix_rfl, fun _ _ => h.sends⟩
    · exact ⟨[], [2, 2], b, .inl rfl, .inr rfl, by rw [h.sends]; exact List.prefix_rfl, fun _ _ => h.sends⟩
    · exact ⟨[1], [2, 2], b, .inr ⟨rfl, e1 rfl⟩, .inr rfl, by rw [h.sends]; exact List.prefix_rfl, fun _ _ => h.sends⟩

/-- Whatever a server reads, its keys for reading are those of epoch 1 if it accepts early data, then 2, then 3, then 4 for every
key update; all of 2 and 3 once it completed the handshake. -/
theorem C83_server_reads (E : Env) (x x' : Ctx) (cfg : Config) (es : List (Event × Coins)) (s : SState)
    (acts : List Action) (h : serverRun E x cfg es = .ok (s, acts, x')) :
    ∃ early n, (early = [] ∨ early = [1]) ∧ inEpochs acts <+: early ++ [2, 3] ++ List.replicate n 4 ∧
      ∀ st, s = .connected st → inEpochs acts = early ++ [2, 3] ++ List.replicate n 4 := by
  have hk := serverEpochs h
  have mid : (Epochs inRfcEpoch [2] [2, 3] 3 acts ∨ Epochs inRfcEpoch [1, 2] [2, 3] 3 acts) → (∀ st, s ≠ .connected st) →
      ∃ early n, (early = [] ∨ early = [1]) ∧ inEpochs acts <+: early ++ [2, 3] ++ List.replicate n 4 ∧
      ∀ st, s = .connected st → inEpochs acts = early ++ [2, 3] ++ List.replicate n 4 := by
    rintro (h | h) hs
    · exact ⟨[], 0, .inl rfl, by rw [h.reads]; exact ⟨[3], rfl⟩, fun st e => (hs st e).elim⟩
    · exact ⟨[1], 0, .inr rfl, by rw [h.reads]; exact ⟨[3], rfl⟩, fun st e => (hs st e).elim⟩
  cases s with
  | start s => exact ⟨[], 0, .inl rfl, by rw [Epochs.reads hk]; exact List.nil_prefix, fun _ h => by cases h⟩
  | negotiated s => exact hk.elim
  | waitEOED s => exact ⟨[1], 0, .inr rfl, by rw [Epochs.reads hk]; exact ⟨[2, 3], rfl⟩, fun _ h => by cases h⟩
  | readPast => exact mid (.inl hk) (fun _ h => by cases h)
  | waitFlight2 s => exact hk.elim
  | waitCert s => exact mid hk (fun _ h => by cases h)
  | waitCV s => exact mid hk (fun _ h => by cases h)
  | waitFinished s => exact mid hk (fun _ h => by cases h)
  | connected s =>
    rcases hk with ⟨a, _, _, _, h⟩ | ⟨a, _, _, _, h⟩
    · exact ⟨[], a, .inl rfl, by rw [h.reads]; exact List.prefix_rfl, fun _ _ => h.reads⟩
    · exact ⟨[1], a, .inr rfl, by rw [h.reads]; exact List.prefix_rfl, fun _ _ => h.reads⟩

/-- Whatever a server reads, its keys for sending are those of epoch 2, then 3, then 4 for every key update. -/
theorem C83_server_sends (E : Env) (x x' : Ctx) (cfg : Config) (es : List (Event × Coins)) (s : SState)
    (acts : List Action) (h : serverRun E x cfg es = .ok (s, acts, x')) :
    ∃ n, outEpochs acts <+: [2, 3] ++ List.replicate n 4 ∧
      ∀ st, s = .connected st → outEpochs acts = [2, 3] ++ List.replicate n 4 := by
  have hk := serverEpochs h
  have mid : ∀ {i k}, Epochs inRfcEpoch i [2, 3] k acts → (∀ st, s ≠ .connected st) →
      ∃ n, outEpochs acts <+: [2, 3] ++ List.replicate n 4 ∧
      ∀ st, s = .connected st → outEpochs acts = [2, 3] ++ List.replicate n 4 :=
    fun h hs => ⟨0, by rw [h.sends]; exact List.prefix_rfl, fun st e => (hs st e).elim⟩
  cases s with
  | start s => exact ⟨0, by rw [Epochs.sends hk]; exact List.nil_prefix, fun _ h => by cases h⟩
  | negotiated s => exact hk.elim
  | waitEOED s => exact mid hk (fun _ h => by cases h)
  | readPast => exact mid hk (fun _ h => by cases h)
  | waitFlight2 s => exact hk.elim
  | waitCert s => exact hk.elim (fun h => mid h (fun _ h => by cases h)) (fun h => mid h (fun _ h => by cases h))
  | waitCV s => exact hk.elim (fun h => mid h (fun _ h => by cases h)) (fun h => mid h (fun _ h => by cases h))
  | waitFinished s => exact hk.elim (fun h => mid h (fun _ h => by cases h)) (fun h => mid h (fun _ h => by cases h))
  | connected s =>
    rcases hk with ⟨_, b, _, _, h⟩ | ⟨_, b, _, _, h⟩
    · exact ⟨b, by rw [h.sends]; exact List.prefix_rfl, fun _ _ => h.sends⟩
    · exact ⟨b, by rw [h.sends]; exact List.prefix_rfl, fun _ _ => h.sends⟩

/-- Whatever a client reads, it sends each handshake message in the epoch RFC 9147 has for it. What is missing:
EndOfEarlyData may go out in epoch 2, see `C83_repeats_fails`. -/
theorem C83_client_messages_partial (E : Env) (x x' : Ctx) (cfg : Config) (c : Coins) (es : List (Event × Coins)) (s : CState)
    (acts : List Action) (h : clientRun E x cfg c es = .ok (s, acts, x')) :
    ∀ p ∈ sentIn 0 acts, inRfcEpoch p.1 p.2 ∨ p.2.msgType = 5 ∧ p.1 = 2 := by
  have ee : ∀ {p}, AfterEE p acts → ∀ p ∈ sentIn 0 acts, inRfcEpoch p.1 p.2 ∨ p.2.msgType = 5 ∧ p.1 = 2 := by
    rintro p (⟨_, h⟩ | h | h) <;> exact h.sent
  have hk := clientEpochs h
  cases s with
  | start s => exact hk.elim
  | waitSH s => rcases hk with ⟨_, h⟩ | ⟨_, h | h⟩ <;> exact h.sent
  | waitEE s => rcases hk with ⟨_, h⟩ | ⟨_, h | h⟩ <;> exact h.sent
  | waitCertCR s => exact ee hk
  | waitCert s => exact ee hk
  | waitCV s => exact ee hk
  | waitFinished s => exact ee hk
  | connected s =>
    obtain ⟨_, _, _, _, _, _, h⟩ := hk
    exact h.sent

/-- Whatever a server reads, it sends each handshake message in the epoch RFC 9147 has for it. -/
theorem C83_server_messages (E : Env) (x x' : Ctx) (cfg : Config) (es : List (Event × Coins)) (s : SState)
    (acts : List Action) (h : serverRun E x cfg es = .ok (s, acts, x')) : ∀ p ∈ sentIn 0 acts, inRfcEpoch p.1 p.2 := by
  have hk := serverEpochs h
  cases s with
  | start s => exact Epochs.sent hk
  | negotiated s => exact hk.elim
  | waitEOED s => exact Epochs.sent hk
  | readPast => exact Epochs.sent hk
  | waitFlight2 s => exact hk.elim
  | waitCert s => exact hk.elim (·.sent) (·.sent)
  | waitCV s => exact hk.elim (·.sent) (·.sent)
  | waitFinished s => exact hk.elim (·.sent) (·.sent)
  | connected s => rcases hk with ⟨_, _, _, _, h⟩ | ⟨_, _, _, _, h⟩ <;> exact h.sent

/-- A client to which early data is granted that it did not offer installs keys for epoch 2 twice and sends EndOfEarlyData in
epoch 2. -/
theorem C83_repeats_fails : ∃ (E : Env) (x : Ctx) (cfg : Config) (c : Coins) (es : List (Event × Coins)) (s : Connected)
    (acts : List Action) (x' : Ctx) (m : Msg), E.P.Sized ∧ clientRun E x cfg c es = .ok (.connected s, acts, x') ∧
    outEpochs acts = [2, 2, 3] ∧ (2, m) ∈ sentIn 0 acts ∧ m.msgType = 5 := by
  obtain ⟨s, acts, x', h, hs⟩ := Toy.clientActs_ok
    (f := fun acts => decide (outEpochs acts = [2, 2, 3]) && (sentIn 0 acts).any fun p => decide (p.1 = 2) && decide (p.2.msgType = 5))
    (r := clientRun Toy.env Toy.tls Toy.strictCfg (Toy.coins 2)
      (Toy.forged (Toy.lastHello Toy.tls Toy.strictCfg []) .sha256 0x1301 [] [(42, [], ())])) (by decide +kernel)
  simp only [Bool.and_eq_true, decide_eq_true_eq, List.any_eq_true] at hs
  obtain ⟨h1, ⟨n, m⟩, hm, h2, h3⟩ := hs
  dsimp only at h2
  subst h2
  exact ⟨_, _, _, _, _, s, acts, x', m, Toy.prims_sized, h, h1, hm, h3⟩

/-- Every key update installs keys for epoch 4: after two of them a client over DTLS has installed different keys for the same
epoch. RFC 9147 has each key update take the next epoch. -/
theorem C83_updates_fails : ∃ (E : Env) (cfg : Config) (c : Coins) (es : List (Event × Coins)) (s : Connected)
    (acts : List Action) (x' : Ctx) (k1 k2 : Keys), E.P.Sized ∧ clientRun E ⟨true, 0, []⟩ cfg c es = .ok (.connected s, acts, x') ∧
    inEpochs acts = [2, 3, 4, 4] ∧ .rekeyIn 4 k1 ∈ acts ∧ .rekeyIn 4 k2 ∈ acts ∧ k1 ≠ k2 := by
  obtain ⟨s, acts, x', h, hs⟩ := Toy.clientActs_ok
    (f := fun acts => decide (inEpochs acts = [2, 3, 4, 4]) &&
      acts.any fun a => acts.any fun b => match a, b with
        | .rekeyIn 4 k1, .rekeyIn 4 k2 => decide (k1 ≠ k2)
        | _, _ => false)
    (r := clientRun Toy.env Toy.dtls Toy.clientCfg (Toy.coins 2)
      ((Toy.exchange Toy.dtls Toy.clientCfg Toy.serverCfg 3).1 ++
        [(.msg ⟨24, 9, [0], 0, 1⟩, Toy.coins 2), (.msg ⟨24, 10, [0], 0, 1⟩, Toy.coins 2)])) (by decide +kernel)
  simp only [Bool.and_eq_true, decide_eq_true_eq, List.any_eq_true] at hs
  obtain ⟨h1, a, ha, b, hb, h2⟩ := hs
  split at h2
  · rename_i k1 k2
    exact ⟨_, _, _, _, s, acts, x', k1, k2, Toy.prims_sized, h, h1, ha, hb, of_decide_eq_true h2⟩
  · cases h2

/-- Both ends of a handshake over DTLS with a PSK and early data. -/
example : ∃ s acts x', clientRun Toy.env Toy.dtls Toy.pskClient (Toy.coins 2) (Toy.exchange Toy.dtls Toy.pskClient Toy.pskServer 2).1 =
    .ok (.connected s, acts, x') ∧ outEpochs acts = [1, 2, 3] ∧ inEpochs acts = [2, 3] := by
  obtain ⟨s, acts, x', h, hs⟩ := Toy.clientActs_ok (f := fun acts => decide (outEpochs acts = [1, 2, 3] ∧ inEpochs acts = [2, 3]))
    (r := clientRun Toy.env Toy.dtls Toy.pskClient (Toy.coins 2) (Toy.exchange Toy.dtls Toy.pskClient Toy.pskServer 2).1)
    (by decide +kernel)
  exact ⟨s, acts, x', h, of_decide_eq_true hs⟩
example : ∃ s acts x', serverRun Toy.env Toy.dtls Toy.pskServer (Toy.exchange Toy.dtls Toy.pskClient Toy.pskServer 2).2 =
    .ok (.connected s, acts, x') ∧ s.params.usingEarlyData = true :=
  Toy.serverHas_ok (f := fun s => s.params.usingEarlyData) (by decide +kernel)

end Verif.Props

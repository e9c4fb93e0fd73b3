import Verif.Machine.ClientLemmas
import Verif.Machine.ServerLemmas
import Verif.Machine.Secrets
import Verif.Crypto.Lemmas
import Verif.Spec.Link

/-
The keys installed by the actions of a run are those of the traffic secrets in its state.
-/

namespace Verif.Machine

open Verif Verif.Crypto Verif.Messages Verif.Negotiation Verif.Handshake Verif.Spec

theorem lastOut_snoc_out (l : List Action) (n : Nat) (k : Keys) : lastOut (l ++ [.rekeyOut n k]) = some k := by
  simp [lastOut]

theorem lastOut_snoc_in (l : List Action) (n : Nat) (k : Keys) : lastOut (l ++ [.rekeyIn n k]) = lastOut l := by
  simp [lastOut]

theorem lastIn_snoc_in (l : List Action) (n : Nat) (k : Keys) : lastIn (l ++ [.rekeyIn n k]) = some k := by
  simp [lastIn]

theorem lastIn_snoc_out (l : List Action) (n : Nat) (k : Keys) : lastIn (l ++ [.rekeyOut n k]) = lastIn l := by
  simp [lastIn]

/-- The keys of a connected state are installed. -/
def Installed (P : Prims) (s : Connected) (acts : List Action) : Prop :=
  ∃ ck sk, makeTrafficKeys P s.cp s.clientAp = .ok ck ∧ makeTrafficKeys P s.cp s.serverAp = .ok sk ∧
    (if s.isClient then lastOut acts = some ck ∧ lastIn acts = some sk else lastOut acts = some sk ∧ lastIn acts = some ck)

theorem keyUpdate_installed {E : Env} {x x' : Ctx} {s s' : Connected} {r : UInt8} {acts acts' : List Action}
    (h : s.keyUpdate E x r = .ok (s', acts', x')) (hi : Installed E.P s acts) : Installed E.P s' (acts ++ acts') := by
  obtain ⟨t, keys, m, _, hs, hk, _, rfl⟩ := Connected.keyUpdate_ok h
  obtain ⟨ck, sk, h1, h2, h3⟩ := hi
  have hout : lastOut (acts ++ [.queue m, .sendQueued, .rekeyOut epochUpdate keys]) = some keys := by simp [lastOut]
  have hin : lastIn (acts ++ [.queue m, .sendQueued, .rekeyOut epochUpdate keys]) = lastIn acts := by simp [lastIn]
  cases hc : s.isClient
  · simp only [hc, Bool.false_eq_true, if_false] at hs h3
    subst hs
    refine ⟨ck, keys, h1, hk, ?_⟩
    simp only [hc, Bool.false_eq_true, if_false]
    exact ⟨hout, hin.trans h3.2⟩
  · simp only [hc, if_true] at hs h3
    subst hs
    refine ⟨keys, sk, hk, h2, ?_⟩
    simp only [hc, if_true]
    exact ⟨hout, hin.trans h3.2⟩

theorem process_installed {E : Env} {x x' : Ctx} {s s' : Connected} {now : Int} {m : Msg} {acts acts' : List Action}
    (h : s.process E x now m = .ok (s', acts', x')) (hi : Installed E.P s acts) : Installed E.P s' (acts ++ acts') := by
  rcases Connected.process_ok h with ⟨r, t, s1, keys, _, _, _, hs1, hk, hr⟩ | ⟨_, psk, _, _, _, _, rfl, rfl, _⟩
  · have h1 : Installed E.P s1 (acts ++ [.rekeyIn epochUpdate keys]) := by
      obtain ⟨ck, sk, h1, h2, h3⟩ := hi
      cases hc : s.isClient
      · simp only [hc, Bool.false_eq_true, if_false] at hs1 h3
        subst hs1
        refine ⟨keys, sk, hk, h2, ?_⟩
        simp only [hc, Bool.false_eq_true, if_false]
        exact ⟨(lastOut_snoc_in _ _ _).trans h3.1, lastIn_snoc_in _ _ _⟩
      · simp only [hc, if_true] at hs1 h3
        subst hs1
        refine ⟨ck, keys, h1, hk, ?_⟩
        simp only [hc, if_true]
        exact ⟨(lastOut_snoc_in _ _ _).trans h3.1, lastIn_snoc_in _ _ _⟩
    rcases hr with ⟨_, acts2, hk2, rfl⟩ | ⟨_, rfl, rfl, _⟩
    · have := keyUpdate_installed hk2 h1
      simpa using this
    · exact h1
  · obtain ⟨ck, sk, h1, h2, h3⟩ := hi
    refine ⟨ck, sk, h1, h2, ?_⟩
    have e1 : lastOut (acts ++ [.storePsk psk]) = lastOut acts := by simp [lastOut]
    have e2 : lastIn (acts ++ [.storePsk psk]) = lastIn acts := by simp [lastIn]
    rw [e1, e2]; exact h3

theorem client_installed {E : Env} {x : Ctx} {cfg : Config} {c : Coins} {es : List (Event × Coins)} {s : Connected}
    {acts : List Action} {x' : Ctx} (h : clientRun E x cfg c es = .ok (.connected s, acts, x')) : Installed E.P s acts := by
  have := clientRun_induct (fun _ s acts _ => ∀ c, s = .connected c → Installed E.P c acts) ?_ ?_ h
  · exact this s rfl
  · intro w a x' _ c hc; cases hc
  · intro es s acts x1 e ce s' acts' x2 ih hst c hc
    subst hc
    cases hst with
    | ee _ _ _ _ _ next => obtain ⟨_, _, _, _, _, _, _, _, _, ⟨_, h⟩ | ⟨_, h⟩⟩ := CWaitEE.next_ok next <;> cases h
    | certCR _ _ _ _ _ next => obtain ⟨_, _, ⟨_, _, _, h⟩ | ⟨_, _, _, _, h⟩⟩ := CWaitEE.nextCertCR_ok next <;> cases h
    | cert _ _ _ _ _ next => obtain ⟨_, _, _, _, _, h⟩ := CWaitCert.next_ok next; cases h
    | cv _ _ _ _ _ next =>
      obtain ⟨_, _, _, _, _, _, _, _, _, _, h⟩ := CWaitCV.next_ok next
      cases h
    | finished s0 m _ _ _ next =>
      obtain ⟨_, _, _, ap, ck, sk, a1, t1, x1, a2, t2, _, _, finm, _, _, _, _, _, h1, h2, _, _, _, _, _, hs, rfl⟩ :=
        CWaitFinished.next_ok next
      cases hs
      refine ⟨ck, sk, h1, h2, ?_⟩
      simp [lastOut, lastIn]
    | post s0 m _ _ _ next => exact process_installed next (ih s0 rfl)
    | data s0 d => rw [List.append_nil]; exact ih _ rfl

/-- The secrets of a server that has sent its flight. -/
def SState.sec? : SState → Option SSecrets
  | .waitEOED s => some s.sec
  | .waitFlight2 s => some s.sec
  | .waitCert s => some s.sec
  | .waitCV s => some s.sec
  | .waitFinished s => some s.sec
  | _ => none

theorem settle_sec (s : SState) : s.settle.sec? = s.sec? := by
  cases s with
  | waitFlight2 s =>
    simp only [SState.settle, SWait.nextFlight2]
    split <;> rfl
  | _ => rfl

theorem settle_connected {s : SState} {c : Connected} (h : s.settle = .connected c) : s = .connected c := by
  cases s with
  | waitFlight2 s =>
    simp only [SState.settle, SWait.nextFlight2] at h
    split at h <;> cases h
  | _ => exact h

theorem server_installed {E : Env} {x : Ctx} {cfg : Config} {es : List (Event × Coins)} {s : Connected}
    {acts : List Action} {x' : Ctx} (h : serverRun E x cfg es = .ok (.connected s, acts, x')) : Installed E.P s acts := by
  have := serverRun_induct (fun _ s acts _ => (∀ c, s = .connected c → Installed E.P c acts) ∧
    ∀ sec, s.sec? = some sec → ∃ sk, makeTrafficKeys E.P sec.cp sec.ap.serverAp = .ok sk ∧ lastOut acts = some sk) ?_ ?_ h
  · exact this.1 s rfl
  · exact ⟨fun c h => (by cases h), fun c h => by cases h⟩
  · intro es s acts x1 e ce s' acts' x2 ih hst
    cases hst with
    | skip => exact ⟨fun c h => (by cases h), fun c h => by cases h⟩
    | early s d => rw [List.append_nil]; exact ⟨fun c h => (by cases h), ih.2⟩
    | retry => exact ⟨fun c h => (by cases h), fun c h => by cases h⟩
    | hello s0 m n x1 s1 _ _ next neg =>
      obtain ⟨f, _, hcase⟩ := SNegotiated.next_ok neg
      have hkey : ∀ n keys, lastOut (acts ++ (f.sent ++ [.rekeyIn n keys])) = some f.serverApKeys := by
        intro n keys
        rw [← List.append_assoc, lastOut_snoc_in]
        have : acts ++ f.sent = acts ++ ([.queue f.sh, .rekeyOut epochHandshake f.serverKeys, .queue f.ee] ++ f.acts ++
            [.queue f.fin, .sendQueued]) ++ [.rekeyOut epochApplication f.serverApKeys] := by simp [NegFacts.sent]
        rw [this, lastOut_snoc_out]
      rcases hcase with ⟨_, keys, _, rfl, rfl⟩ | ⟨_, _, rfl, rfl⟩ | ⟨_, _, rfl, rfl⟩
      · exact ⟨fun c h => (by cases h), fun sec h => by cases h; exact ⟨_, f.apKeysOk, hkey _ _⟩⟩
      · exact ⟨fun c h => (by cases settle_connected h), fun sec h => (by rw [settle_sec] at h; cases h)⟩
      · refine ⟨fun c h => (by cases settle_connected h), fun sec h => ?_⟩
        rw [settle_sec] at h
        cases h; exact ⟨_, f.apKeysOk, hkey _ _⟩
    | eoed s0 m s1 _ _ next =>
      obtain ⟨_, _, _, keys, _, rfl, rfl⟩ := SWait.nextEOED_ok next
      refine ⟨fun c h => (by cases settle_connected h), fun sec h => ?_⟩
      rw [settle_sec] at h
      cases h
      obtain ⟨sk, h1, h2⟩ := ih.2 s0.sec rfl
      exact ⟨sk, h1, (lastOut_snoc_in _ _ _).trans h2⟩
    | cert s0 m _ _ _ next =>
      obtain ⟨_, rfl, _, _, _, ⟨_, rfl⟩ | ⟨_, rfl⟩⟩ := SWait.nextCert_ok next
      all_goals
        rw [List.append_nil]
        exact ⟨fun c h => (by cases h), fun sec h => by cases h; exact ih.2 s0.sec rfl⟩
    | cv s0 m _ _ _ next =>
      obtain ⟨_, rfl, _, _, _, _, _, _, _, rfl⟩ := SWaitCV.next_ok next
      rw [List.append_nil]
      exact ⟨fun c h => (by cases h), fun sec h => by cases h; exact ih.2 s0.sec rfl⟩
    | finished s0 m _ _ _ next =>
      obtain ⟨_, _, _, _, _, keys, _, _, _, _, hk, rfl, rfl⟩ := SWaitFinished.next_ok next
      refine ⟨fun c h => ?_, fun sec h => by cases h⟩
      cases h
      obtain ⟨sk, h1, h2⟩ := ih.2 s0.sec rfl
      exact ⟨keys, sk, hk, h1, (lastOut_snoc_in _ _ _).trans h2, lastIn_snoc_in _ _ _⟩
    | post s0 m _ _ _ next => exact ⟨fun c h => (by cases h; exact process_installed next (ih.1 s0 rfl)), fun sec h => by cases h⟩
    | data s0 d => rw [List.append_nil]; exact ih

end Verif.Machine

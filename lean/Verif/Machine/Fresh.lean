import Verif.Machine.Installed
import Verif.Machine.Wire

/-
The last thing a connected end has done to its outgoing stream is to install the keys of its traffic secret: it has written
nothing with them yet.
-/

namespace Verif.Machine

open Verif Verif.Crypto Verif.Messages Verif.Negotiation Verif.Handshake Verif.Spec

/-- Nothing has been written since `k` was installed. -/
def Ends (d : Bool) (acts : List Action) (k : Keys) : Prop := ∃ pre n, outs d acts = pre ++ [.key n k]

theorem Ends.quiet {d : Bool} {acts acts' : List Action} {k : Keys} (h : Ends d acts k) (h' : outs d acts' = []) : Ends d (acts ++ acts') k := by
  obtain ⟨pre, n, h⟩ := h
  exact ⟨pre, n, by rw [outs_append, h, h', List.append_nil]⟩

theorem Ends.after {d : Bool} {acts : List Action} {k : Keys} (h : Ends d acts k) (acts' : List Action) : Ends d (acts' ++ acts) k := by
  obtain ⟨pre, n, h⟩ := h
  exact ⟨outs d acts' ++ pre, n, by rw [outs_append, h, List.append_assoc]⟩

/-- The keys of a connected state are the last thing it has installed for writing. -/
def Fresh (d : Bool) (P : Prims) (s : Connected) (acts : List Action) : Prop :=
  ∃ k, makeTrafficKeys P s.cp (if s.isClient then s.clientAp else s.serverAp) = .ok k ∧ Ends d acts k

theorem keyUpdate_fresh {d : Bool} {E : Env} {x x' : Ctx} {s s' : Connected} {r : UInt8} {acts acts' : List Action}
    (h : s.keyUpdate E x r = .ok (s', acts', x')) : Fresh d E.P s' (acts ++ acts') := by
  obtain ⟨t, keys, m, _, hs, hk, _, rfl⟩ := Connected.keyUpdate_ok h
  refine ⟨keys, ?_, Ends.after ⟨[.msg (arrived d m)], epochUpdate, rfl⟩ _⟩
  cases hc : s.isClient
  · simp only [hc, Bool.false_eq_true, if_false] at hs
    subst hs
    simpa [hc] using hk
  · simp only [hc, if_true] at hs
    subst hs
    simpa [hc] using hk

theorem process_fresh {d : Bool} {E : Env} {x x' : Ctx} {s s' : Connected} {now : Int} {m : Msg} {acts acts' : List Action}
    (h : s.process E x now m = .ok (s', acts', x')) (hi : Fresh d E.P s acts) : Fresh d E.P s' (acts ++ acts') := by
  rcases Connected.process_ok h with ⟨r, t, s1, keys, _, _, _, hs1, hk, hr⟩ | ⟨_, psk, _, _, _, _, rfl, rfl, _⟩
  · have h1 : Fresh d E.P s1 (acts ++ [.rekeyIn epochUpdate keys]) := by
      obtain ⟨k, h1, h2⟩ := hi
      refine ⟨k, ?_, h2.quiet rfl⟩
      cases hc : s.isClient
      · simp only [hc, Bool.false_eq_true, if_false] at hs1 h1
        subst hs1
        simpa [hc] using h1
      · simp only [hc, if_true] at hs1 h1
        subst hs1
        simpa [hc] using h1
    rcases hr with ⟨_, acts2, hk2, rfl⟩ | ⟨_, rfl, rfl, _⟩
    · have := keyUpdate_fresh (d := d) (acts := acts ++ [.rekeyIn epochUpdate keys]) hk2
      simpa using this
    · exact h1
  · obtain ⟨k, h1, h2⟩ := hi
    exact ⟨k, h1, h2.quiet rfl⟩

theorem client_fresh {d : Bool} {E : Env} {x : Ctx} {cfg : Config} {c : Coins} {es : List (Event × Coins)} {s : Connected}
    {acts : List Action} {x' : Ctx} (h : clientRun E x cfg c es = .ok (.connected s, acts, x')) : Fresh d E.P s acts := by
  have := clientRun_induct (fun _ s acts _ => ∀ c, s = .connected c → Fresh d E.P c acts) ?_ ?_ h
  · exact this s rfl
  · intro w a x' _ c hc; cases hc
  · intro es s acts x1 e ce s' acts' x2 ih hst c hc
    subst hc
    cases hst with
    | ee _ _ _ _ _ next => obtain ⟨_, _, _, _, _, _, _, _, _, ⟨_, h⟩ | ⟨_, h⟩⟩ := CWaitEE.next_ok next <;> cases h
    | certCR _ _ _ _ _ next => obtain ⟨_, _, ⟨_, _, _, h⟩ | ⟨_, _, _, _, h⟩⟩ := CWaitEE.nextCertCR_ok next <;> cases h
    | cert _ _ _ _ _ next => obtain ⟨_, _, _, _, _, h⟩ := CWaitCert.next_ok next; cases h
    | cv _ _ _ _ _ next =>
      obtain ⟨_, _, _, _, _, _, _, _, _, _, h⟩ := CWaitCV.next_ok next
      cases h
    | finished s0 m _ _ _ next =>
      obtain ⟨_, _, _, ap, ck, sk, a1, t1, x1, a2, t2, _, _, finm, _, _, _, _, _, h1, h2, _, _, _, _, _, hs, rfl⟩ :=
        CWaitFinished.next_ok next
      cases hs
      refine ⟨ck, h1, Ends.after ?_ _⟩
      simp only [Ends, outs_append, outs]
      exact ⟨outs d a1 ++ outs d a2 ++ [.msg (arrived d finm)], epochApplication, by simp⟩
    | post s0 m _ _ _ next => exact process_fresh next (ih s0 rfl)
    | data s0 d => rw [List.append_nil]; exact ih _ rfl

theorem server_fresh {d : Bool} {E : Env} {x : Ctx} {cfg : Config} {es : List (Event × Coins)} {s : Connected}
    {acts : List Action} {x' : Ctx} (h : serverRun E x cfg es = .ok (.connected s, acts, x')) : Fresh d E.P s acts := by
  have := serverRun_induct (fun _ s acts _ => (∀ c, s = .connected c → Fresh d E.P c acts) ∧
    ∀ sec, s.sec? = some sec → ∃ sk, makeTrafficKeys E.P sec.cp sec.ap.serverAp = .ok sk ∧ Ends d acts sk) ?_ ?_ h
  · exact this.1 s rfl
  · exact ⟨fun c h => (by cases h), fun c h => by cases h⟩
  · intro es s acts x1 e ce s' acts' x2 ih hst
    cases hst with
    | skip => exact ⟨fun c h => (by cases h), fun c h => by cases h⟩
    | early s d => rw [List.append_nil]; exact ⟨fun c h => (by cases h), ih.2⟩
    | retry => exact ⟨fun c h => (by cases h), fun c h => by cases h⟩
    | hello s0 m n x1 s1 _ _ next neg =>
      obtain ⟨f, _, hcase⟩ := SNegotiated.next_ok neg
      have hkey : ∀ n keys, Ends d (acts ++ (f.sent ++ [.rekeyIn n keys])) f.serverApKeys := by
        intro n keys
        refine Ends.after (Ends.quiet ?_ rfl) _
        simp only [NegFacts.sent, Ends, outs_append, outs]
        exact ⟨[.msg (arrived d f.sh), .key epochHandshake f.serverKeys, .msg (arrived d f.ee)] ++ outs d f.acts ++ [.msg (arrived d f.fin)],
          epochApplication, by simp⟩
      rcases hcase with ⟨_, keys, _, rfl, rfl⟩ | ⟨_, _, rfl, rfl⟩ | ⟨_, _, rfl, rfl⟩
      · exact ⟨fun c h => (by cases h), fun sec h => by cases h; exact ⟨_, f.apKeysOk, hkey _ _⟩⟩
      · exact ⟨fun c h => (by cases settle_connected h), fun sec h => (by rw [settle_sec] at h; cases h)⟩
      · refine ⟨fun c h => (by cases settle_connected h), fun sec h => ?_⟩
        rw [settle_sec] at h
        cases h; exact ⟨_, f.apKeysOk, hkey _ _⟩
    | eoed s0 m s1 _ _ next =>
      obtain ⟨_, _, _, keys, _, rfl, rfl⟩ := SWait.nextEOED_ok next
      refine ⟨fun c h => (by cases settle_connected h), fun sec h => ?_⟩
      rw [settle_sec] at h
      cases h
      obtain ⟨sk, h1, h2⟩ := ih.2 s0.sec rfl
      exact ⟨sk, h1, h2.quiet rfl⟩
    | cert s0 m _ _ _ next =>
      obtain ⟨_, rfl, _, _, _, ⟨_, rfl⟩ | ⟨_, rfl⟩⟩ := SWait.nextCert_ok next
      all_goals
        rw [List.append_nil]
        exact ⟨fun c h => (by cases h), fun sec h => by cases h; exact ih.2 s0.sec rfl⟩
    | cv s0 m _ _ _ next =>
      obtain ⟨_, rfl, _, _, _, _, _, _, _, rfl⟩ := SWaitCV.next_ok next
      rw [List.append_nil]
      exact ⟨fun c h => (by cases h), fun sec h => by cases h; exact ih.2 s0.sec rfl⟩
    | finished s0 m _ _ _ next =>
      obtain ⟨_, _, _, _, _, keys, _, _, _, _, hk, rfl, rfl⟩ := SWaitFinished.next_ok next
      refine ⟨fun c h => ?_, fun sec h => by cases h⟩
      cases h
      obtain ⟨sk, h1, h2⟩ := ih.2 s0.sec rfl
      exact ⟨sk, h1, h2.quiet rfl⟩
    | post s0 m _ _ _ next => exact ⟨fun c h => (by cases h; exact process_fresh next (ih.1 s0 rfl)), fun sec h => by cases h⟩
    | data s0 d => rw [List.append_nil]; exact ih

end Verif.Machine

import Verif.Machine.ServerOrder

/-
When a server is stuck in the state ReadPastEarlyData.
-/

namespace Verif.Machine

open Verif Verif.Crypto Verif.Messages Verif.Negotiation Verif.Handshake Verif.Spec

theorem serverRun_datagram {E : Env} {x : Ctx} {cfg : Config} {es : List (Event × Coins)} {s : SState}
    {acts : List Action} {x' : Ctx} (h : serverRun E x cfg es = .ok (s, acts, x')) : x'.datagram = x.datagram :=
  serverRun_induct (P := fun _ _ _ x1 => x1.datagram = x.datagram) rfl
    (fun _ _ _ _ _ _ _ _ _ ih st => (SStep.datagram st).trans ih) h

theorem offerKinds_nodup : (offerKinds.map ExtKind.type).Nodup := by decide

/-- early_data is found only if the extension is there. -/
theorem offer_early {x : Ctx} {m : Msg} {ch : ClientHello} {o : Offer} (h : readHello x m = .ok (ch, o))
    (he : o.earlyData = true) : offersEarlyData x.datagram m = true := by
  obtain ⟨ht, hu, _, found, hf, rfl, _⟩ := readHello_ok h
  rw [safeUnmarshal_ok] at hu
  have hv : (if x.datagram then (0xfefd : UInt16) else 0x0303) = wireVersion x := rfl
  simp only [offersEarlyData, show m.msgType = 1 from ht, hv, hu]
  rcases parsed_findSome (k := .earlyData) asEarlyData offerKinds_nodup hf (by simp [offerKinds]) (by
      intro b hb; cases b <;> simp [asEarlyData] at hb ⊢ <;> rfl) with ⟨_, h2⟩ | ⟨d, b, h1, _⟩
  · simp [offerOf, findEarlyData, h2] at he
  · have : d ∈ dataOf (ExtKind.earlyData.type) ch.exts := by rw [h1]; simp
    simp only [dataOf, List.mem_map, List.mem_filter] at this
    obtain ⟨e, ⟨he, ht⟩, _⟩ := this
    simp only [beq_self_eq_true, Bool.true_and]
    exact List.any_eq_true.2 ⟨e, he, ht⟩

/-- A server is in the state ReadPastEarlyData only if it read a hello that offers early data, and did not accept it. -/
theorem readPast_offered {E : Env} {x : Ctx} {cfg : Config} {es : List (Event × Coins)} {acts : List Action} {x' : Ctx}
    (h : serverRun E x cfg es = .ok (.readPast, acts, x')) : ∃ m ∈ received es, offersEarlyData x.datagram m = true := by
  have key := serverRun_induct (E := E) (x := x) (cfg := cfg)
    (P := fun es s _ x1 => x1.datagram = x.datagram ∧
      (s = .readPast → ∃ m ∈ received es, offersEarlyData x.datagram m = true)) ⟨rfl, fun h => nomatch h⟩ (by
      intro es s acts x1 e ce s' acts' x2 ih st
      refine ⟨(SStep.datagram st).trans ih.1, ?_⟩
      intro hs'
      cases st with
      | skip =>
        obtain ⟨m, hm, ho⟩ := ih.2 rfl
        exact ⟨m, by rw [received_append]; exact List.mem_append_left _ hm, ho⟩
      | hello s m n x1' s'' next neg hnext hneg =>
        obtain ⟨f, _, hf⟩ := SStart.next_ok hnext
        rcases hf with ⟨_, _, _, hf⟩ | ⟨_, n', hn, hfin⟩
        · cases hf
        cases hn
        obtain ⟨_, cert, psk, et, proto, _, _, _, _, hn⟩ := SStart.finish_ok hfin
        obtain ⟨g, _, hg⟩ := SNegotiated.next_ok hneg
        rcases hg with ⟨_, _, _, rfl, _⟩ | ⟨_, hrej, rfl, _⟩ | ⟨_, _, rfl, _⟩
        · cases hs'
        · refine ⟨m, by rw [received_append]; simp [received], ?_⟩
          rw [← ih.1]
          refine offer_early f.hello ?_
          rw [hn] at hrej
          simp only [Negotiation.earlyData, Bool.and_eq_true] at hrej
          exact hrej.1
        · simp only [SState.settle, SWait.nextFlight2] at hs'
          split at hs' <;> cases hs'
      | eoed s m s'' acts' x' next =>
        obtain ⟨_, _, _, keys, _, rfl, _⟩ := SWait.nextEOED_ok next
        simp only [SState.settle, SWait.nextFlight2] at hs'
        split at hs' <;> cases hs'
      | cert s m s'' acts' x' next =>
        subst hs'
        have := SWait.nextCert_ok next
        simp at this
      | cv s m s'' acts' x' next =>
        subst hs'
        have := SWaitCV.next_ok next
        simp at this
      | finished s m s'' acts' x' next =>
        subst hs'
        have := SWaitFinished.next_ok next
        simp at this
      | _ => cases hs')
    h
  exact key.2 rfl

end Verif.Machine

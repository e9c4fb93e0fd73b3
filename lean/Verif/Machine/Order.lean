import Verif.Machine.ClientTrace
import Verif.Machine.ServerLemmas
import Verif.Machine.Found
import Verif.Props.Messages

/-
The order of messages a client accepts.
-/

namespace Verif.Machine

open Verif Verif.Crypto Verif.Messages Verif.Negotiation Verif.Handshake Verif.Spec

theorem word_snoc (es : List (Event × Coins)) (e : Event) (c : Coins) : word (es ++ [(e, c)]) = word es ++ [Event.letter e] := by
  simp [word]

theorem letter_msg (m : Msg) : Event.letter (.msg m) = letterOf m := rfl

theorem letter_ee {m : Msg} (h : m.msgType = typeEncryptedExtensions) : letterOf m = .encryptedExtensions := by
  simp [letterOf, show m.msgType = 8 from h]

theorem letter_cr {m : Msg} (h : m.msgType = typeCertificateRequest) : letterOf m = .certificateRequest := by
  simp [letterOf, show m.msgType = 13 from h]

theorem letter_cert {m : Msg} (h : m.msgType = typeCertificate) : ∃ e, letterOf m = .certificate e := by
  simp [letterOf, show m.msgType = 11 from h]

theorem letter_cv {m : Msg} (h : m.msgType = typeCertificateVerify) : letterOf m = .certificateVerify := by
  simp [letterOf, show m.msgType = 15 from h]

theorem letter_finished {m : Msg} (h : m.msgType = typeFinished) : letterOf m = .finished := by
  simp [letterOf, show m.msgType = 20 from h]

theorem letter_eoed {m : Msg} (h : m.msgType = typeEndOfEarlyData) : letterOf m = .endOfEarlyData := by
  simp [letterOf, show m.msgType = 5 from h]

theorem letter_ch {m : Msg} (h : m.msgType = typeClientHello) : letterOf m = .clientHello := by
  simp [letterOf, show m.msgType = 1 from h]

theorem letter_ticket {m : Msg} (h : m.msgType = typeNewSessionTicket) : letterOf m = .newSessionTicket := by
  simp [letterOf, show m.msgType = 4 from h]

theorem letter_update {m : Msg} (h : m.msgType = typeKeyUpdate) : letterOf m = .keyUpdate := by
  simp [letterOf, show m.msgType = 24 from h]

theorem letter_sh {m : Msg} {sh : ServerHello} {n : Nat} (ht : m.msgType = typeServerHello)
    (hd : ServerHello.unmarshal m.body = .ok (sh, n)) (hr : sh.random.1 ≠ hrrRandom) :
    letterOf m = .serverHello (selectsFirstPsk sh.exts) := by
  simp [letterOf, show m.msgType = 2 from ht, hd, hr]

/-! ### Client -/

/-- What a client has read in each state. -/
def ClientAt (w : List Letter) : CState → Prop
  | .start _ => False
  | .waitSH _ => ∃ r, w = List.replicate r .helloRetryRequest
  | .waitEE e => ∃ r, w = List.replicate r .helloRetryRequest ++ [.serverHello e.params.usingPSK]
  | .waitCertCR _ => ∃ r, w = List.replicate r .helloRetryRequest ++ [.serverHello false, .encryptedExtensions]
  | .waitCert _ => ∃ r, w = List.replicate r .helloRetryRequest ++
      [.serverHello false, .encryptedExtensions, .certificateRequest]
  | .waitCV _ => ∃ r e, w = List.replicate r .helloRetryRequest ++ [.serverHello false, .encryptedExtensions, .certificate e] ∨
      w = List.replicate r .helloRetryRequest ++ [.serverHello false, .encryptedExtensions, .certificateRequest, .certificate e]
  | .waitFinished _ => ∃ r psk auth, ServerAuthWord psk auth ∧
      w = List.replicate r .helloRetryRequest ++ [.serverHello psk, .encryptedExtensions] ++ auth
  | .connected _ => ∃ n, ClientWord n w

theorem clientAt {E : Env} {x : Ctx} {cfg : Config} {c : Coins} {es : List (Event × Coins)} {s : CState}
    {acts : List Action} {x' : Ctx} (h : clientRun E x cfg c es = .ok (s, acts, x')) : ClientAt (word es) s := by
  refine clientRun_induct (fun es s _ _ => ClientAt (word es) s) ?_ ?_ h
  · exact fun w a x1 _ => ⟨0, rfl⟩
  · intro es s acts x1 e ce s' acts' x2 ih hst
    rw [word_snoc]
    cases hst with
    | retry w m hrr st _ acts2 _ check random handle start =>
      obtain ⟨ht, ⟨n, hd⟩, _, _, hsu⟩ := checkHello_ok check
      obtain ⟨r, hr⟩ := ih
      exact ⟨r + 1, by rw [hr, letter_msg, retry_letter ht hd random, List.replicate_succ']⟩
    | hello w m sh e acts x' check random handle =>
      obtain ⟨ht, ⟨n, hd⟩, _, _, hsu⟩ := checkHello_ok check
      obtain ⟨found, _, _, _, _, _, _, h1, _, _, _, _, _, rfl, _⟩ := handleHello_ok handle
      obtain ⟨r, hr⟩ := ih
      exact ⟨r, by rw [hr, letter_msg, letter_sh ht hd random, pskSelected_eq h1]⟩
    | ee s0 m _ _ _ next =>
      obtain ⟨ht, exts, found, keys, h1, h2, _, rfl, rfl, ⟨hp, rfl⟩ | ⟨hp, rfl⟩⟩ := CWaitEE.next_ok next
      · obtain ⟨r, hr⟩ := ih
        exact ⟨r, true, [], Or.inl ⟨rfl, rfl⟩, by rw [hr, letter_msg, letter_ee ht, hp]; simp⟩
      · obtain ⟨r, hr⟩ := ih
        exact ⟨r, by rw [hr, letter_msg, letter_ee ht, hp]; simp⟩
    | certCR s0 m _ _ _ next =>
      obtain ⟨r, hr⟩ := ih
      obtain ⟨rfl, rfl, ⟨cm, ht, hd, rfl⟩ | ⟨q, ht, hd, hctx, rfl⟩⟩ := CWaitEE.nextCertCR_ok next
      · obtain ⟨e, he⟩ := letter_cert ht
        exact ⟨r, e, Or.inl (by rw [hr, letter_msg, he]; simp)⟩
      · exact ⟨r, by rw [hr, letter_msg, letter_cr ht]; simp⟩
    | cert s0 m _ _ _ next =>
      obtain ⟨ht, rfl, rfl, cm, hd, rfl⟩ := CWaitCert.next_ok next
      obtain ⟨r, hr⟩ := ih
      obtain ⟨e, he⟩ := letter_cert ht
      exact ⟨r, e, Or.inr (by rw [hr, letter_msg, he]; simp)⟩
    | cv s0 m _ _ _ next =>
      obtain ⟨ht, rfl, rfl, cv, pub, chains, hd, hl, hv, hch, rfl⟩ := CWaitCV.next_ok next
      obtain ⟨r, e, hr | hr⟩ := ih
      · exact ⟨r, false, [.certificate e, .certificateVerify], Or.inr ⟨rfl, e, Or.inl rfl⟩,
          by rw [hr, letter_msg, letter_cv ht]; simp⟩
      · exact ⟨r, false, [.certificateRequest, .certificate e, .certificateVerify], Or.inr ⟨rfl, e, Or.inr rfl⟩,
          by rw [hr, letter_msg, letter_cv ht]; simp⟩
    | finished s0 m _ _ _ next =>
      obtain ⟨ht, _, _, _, _, _, _, _, _, _, _, _, _, _, _, _, _, _, _, _, _, _, _, _, _, _, rfl, _⟩ :=
        CWaitFinished.next_ok next
      obtain ⟨r, psk, auth, ha, hr⟩ := ih
      exact ⟨r, r, psk, auth, [], Nat.le_refl _, ha, by simp, by rw [hr, letter_msg, letter_finished ht]; simp⟩
    | post s0 m _ _ _ next =>
      obtain ⟨n, r, psk, auth, post, hn, ha, hp, hr⟩ := ih
      refine ⟨n, r, psk, auth, post ++ [letterOf m], hn, ha, ?_, by rw [hr, letter_msg]; simp⟩
      have hm : ClientPost (letterOf m) := by
        rcases Connected.process_ok next with ⟨_, _, _, _, ht, _⟩ | ⟨_, _, ht, _⟩
        · exact Or.inr (Or.inl (letter_update ht))
        · exact Or.inl (letter_ticket ht)
      intro l hl
      rcases List.mem_append.1 hl with hl | hl
      · exact hp l hl
      · rw [List.mem_singleton] at hl; rw [hl]; exact hm
    | data s0 d =>
      obtain ⟨n, r, psk, auth, post, hn, ha, hp, hr⟩ := ih
      refine ⟨n, r, psk, auth, post ++ [.applicationData], hn, ha, ?_, by rw [hr]; simp [Event.letter]⟩
      intro l hl
      rcases List.mem_append.1 hl with hl | hl
      · exact hp l hl
      · rw [List.mem_singleton] at hl; rw [hl]; exact Or.inr (Or.inr rfl)

/-- What a client may read next in each state. -/
def ClientExpects : CState → Letter → Prop
  | .start _, _ => False
  | .waitSH _, l => l = .helloRetryRequest ∨ ∃ b, l = .serverHello b
  | .waitEE _, l => l = .encryptedExtensions
  | .waitCertCR _, l => l = .certificateRequest ∨ ∃ e, l = .certificate e
  | .waitCert _, l => ∃ e, l = .certificate e
  | .waitCV _, l => l = .certificateVerify
  | .waitFinished _, l => l = .finished
  | .connected _, l => ClientPost l

theorem starts_auth {n r : Nat} {psk : Bool} {auth v w : List Letter} (hr : r ≤ n) (ha : ServerAuthWord psk auth)
    (hw : w ++ v = List.replicate r .helloRetryRequest ++ [.serverHello psk, .encryptedExtensions] ++ auth ++ [.finished]) :
    Starts (ClientWord n) w :=
  ⟨v, r, psk, auth, [], hr, ha, by simp, by rw [hw]; simp⟩

theorem authCert (e : Bool) : ServerAuthWord false [.certificate e, .certificateVerify] := Or.inr ⟨rfl, e, Or.inl rfl⟩
theorem authRequest (e : Bool) : ServerAuthWord false [.certificateRequest, .certificate e, .certificateVerify] :=
  Or.inr ⟨rfl, e, Or.inr rfl⟩

theorem auth_exists (b : Bool) : ∃ auth, ServerAuthWord b auth := by
  cases b
  · exact ⟨_, authCert false⟩
  · exact ⟨[], Or.inl ⟨rfl, rfl⟩⟩

theorem clientExpects_starts {w : List Letter} {s : CState} {l : Letter} (h : ClientAt w s) (hl : ClientExpects s l) :
    ∃ n, Starts (ClientWord n) (w ++ [l]) := by
  cases s with
  | start s => cases hl
  | waitSH s =>
    obtain ⟨r, rfl⟩ := h
    rcases hl with rfl | ⟨b, rfl⟩
    · exact ⟨r + 1, starts_auth (r := r + 1) (Nat.le_refl _) (authCert false)
        (v := [.serverHello false, .encryptedExtensions, .certificate false, .certificateVerify, .finished])
        (by simp [List.replicate_succ'])⟩
    · obtain ⟨auth, ha⟩ := auth_exists b
      exact ⟨r, starts_auth (Nat.le_refl r) ha (v := [.encryptedExtensions] ++ auth ++ [.finished]) (by simp)⟩
  | waitEE s =>
    obtain ⟨r, rfl⟩ := h
    cases hl
    obtain ⟨auth, ha⟩ := auth_exists s.params.usingPSK
    exact ⟨r, starts_auth (Nat.le_refl r) ha (v := auth ++ [.finished]) (by simp)⟩
  | waitCertCR s =>
    obtain ⟨r, rfl⟩ := h
    rcases hl with rfl | ⟨e, rfl⟩
    · exact ⟨r, starts_auth (Nat.le_refl r) (authRequest false) (v := [.certificate false, .certificateVerify, .finished]) (by simp)⟩
    · exact ⟨r, starts_auth (Nat.le_refl r) (authCert e) (v := [.certificateVerify, .finished]) (by simp)⟩
  | waitCert s =>
    obtain ⟨r, rfl⟩ := h
    obtain ⟨e, rfl⟩ := hl
    exact ⟨r, starts_auth (Nat.le_refl r) (authRequest e) (v := [.certificateVerify, .finished]) (by simp)⟩
  | waitCV s =>
    cases hl
    obtain ⟨r, e, rfl | rfl⟩ := h
    · exact ⟨r, starts_auth (Nat.le_refl r) (authCert e) (v := [.finished]) (by simp)⟩
    · exact ⟨r, starts_auth (Nat.le_refl r) (authRequest e) (v := [.finished]) (by simp)⟩
  | waitFinished s =>
    cases hl
    obtain ⟨r, psk, auth, ha, rfl⟩ := h
    exact ⟨r, starts_auth (Nat.le_refl r) ha (v := []) (by simp)⟩
  | connected s =>
    obtain ⟨n, r, psk, auth, post, hn, ha, hp, rfl⟩ := h
    refine ⟨n, [], r, psk, auth, post ++ [l], hn, ha, ?_, by simp⟩
    intro l' hl'
    rcases List.mem_append.1 hl' with h' | h'
    · exact hp l' h'
    · rw [List.mem_singleton] at h'; rw [h']; exact hl

theorem clientAt_starts {w : List Letter} {s : CState} (h : ClientAt w s) : ∃ n, Starts (ClientWord n) w := by
  have hmono : ∀ {l}, (∃ n, Starts (ClientWord n) (w ++ [l])) → ∃ n, Starts (ClientWord n) w := by
    rintro l ⟨n, v, hv⟩
    exact ⟨n, l :: v, by simpa using hv⟩
  cases s with
  | start s => cases h
  | waitSH s => exact hmono (clientExpects_starts h (l := .helloRetryRequest) (Or.inl rfl))
  | waitEE s => exact hmono (clientExpects_starts h (l := .encryptedExtensions) rfl)
  | waitCertCR s => exact hmono (clientExpects_starts h (l := .certificateRequest) (Or.inl rfl))
  | waitCert s => exact hmono (clientExpects_starts h (l := .certificate false) ⟨_, rfl⟩)
  | waitCV s => exact hmono (clientExpects_starts h (l := .certificateVerify) rfl)
  | waitFinished s => exact hmono (clientExpects_starts h (l := .finished) rfl)
  | connected s => exact hmono (clientExpects_starts h (l := .keyUpdate) (Or.inr (Or.inl rfl)))

/-- A decoding error is answered with an alert. -/
theorem orAlert_safe {α β : Type} {a : Nat} {r : Res α} (hs : r.Safe) (f : α → Res β)
    (hf : ∀ v, r = .ok v → ∃ a', f v = .err (.alert a')) : ∃ a', (orAlert a r).bind f = .err (.alert a') := by
  cases hr : r with
  | ok v => obtain ⟨a', h⟩ := hf v hr; exact ⟨a', by simp [orAlert, h]⟩
  | err e => exact ⟨a, rfl⟩
  | panic => rw [hr] at hs; cases hs
  | diverge => rw [hr] at hs; cases hs

theorem client_unexpected {E : Env} {x : Ctx} {c : Coins} {s : CState} {e : Event} (hs : ∀ st, s ≠ .start st)
    (h : ¬ ClientExpects s (Event.letter e)) : ∃ a, s.step E x c e = .err (.alert a) := by
  cases e with
  | bad => exact ⟨_, rfl⟩
  | appData d =>
    cases s with
    | connected s => exact absurd (Or.inr (Or.inr rfl)) h
    | _ => exact ⟨_, rfl⟩
  | msg m =>
    rw [letter_msg] at h
    cases s with
    | start s => exact absurd rfl (hs s)
    | waitSH w =>
      simp only [CState.step, CWaitSH.next, checkHello]
      split
      · exact ⟨_, rfl⟩
      · rename_i ht
        have ht : m.msgType = typeServerHello := by simpa using ht
        cases hu : ServerHello.unmarshal m.body with
        | ok v =>
          obtain ⟨sh, n⟩ := v
          refine absurd ?_ h
          by_cases hr : sh.random.1 = hrrRandom
          · exact Or.inl (retry_letter ht hu hr)
          · exact Or.inr ⟨_, letter_sh ht hu hr⟩
        | err e => exact ⟨_, rfl⟩
        | panic => have := ServerHello.unmarshal_safe m.body; rw [hu] at this; cases this
        | diverge => have := ServerHello.unmarshal_safe m.body; rw [hu] at this; cases this
    | waitEE s =>
      simp only [CState.step, CWaitEE.next]
      rw [if_pos (fun ht => h (letter_ee ht))]
      exact ⟨_, rfl⟩
    | waitCertCR s =>
      simp only [CState.step, CWaitEE.nextCertCR]
      refine orAlert_safe (C32_body_safe _ _ _) _ fun b hb => ?_
      have ht := toBody_type hb
      cases b with
      | certificate c => obtain ⟨e, he⟩ := letter_cert ht.symm; exact absurd (Or.inr ⟨e, he⟩) h
      | certificateRequest c => exact absurd (Or.inl (letter_cr ht.symm)) h
      | _ => exact ⟨_, rfl⟩
    | waitCert s =>
      simp only [CState.step, CWaitCert.next]
      rw [if_pos (fun ht => h (letter_cert ht))]
      exact ⟨_, rfl⟩
    | waitCV s =>
      simp only [CState.step, CWaitCV.next]
      rw [if_pos (fun ht => h (letter_cv ht))]
      exact ⟨_, rfl⟩
    | waitFinished s =>
      simp only [CState.step, CWaitFinished.next]
      rw [if_pos (fun ht => h (letter_finished ht))]
      exact ⟨_, rfl⟩
    | connected s =>
      simp only [CState.step, Connected.process]
      rw [Res.bind_assoc]
      refine orAlert_safe (C32_body_safe _ _ _) _ fun b hb => ?_
      have ht := toBody_type hb
      cases b with
      | keyUpdate r => exact absurd (Or.inr (Or.inl (letter_update ht.symm))) h
      | newSessionTicket t => exact absurd (Or.inl (letter_ticket ht.symm)) h
      | _ => exact ⟨_, rfl⟩

end Verif.Machine

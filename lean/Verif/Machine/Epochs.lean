import Verif.Spec.Epochs
import Verif.Machine.ProtectServer

/-
The epochs of keys and messages over every execution of the state machines (for C83).
-/

namespace Verif.Machine

open Verif Verif.Crypto Verif.Messages Verif.Negotiation Verif.Handshake Verif.Spec

theorem inEpochs_append (a b : List Action) : inEpochs (a ++ b) = inEpochs a ++ inEpochs b := List.filterMap_append ..

theorem outEpochs_append (a b : List Action) : outEpochs (a ++ b) = outEpochs a ++ outEpochs b := List.filterMap_append ..

theorem epochNow_append (a b : List Action) (e : Nat) : epochNow e (a ++ b) = epochNow (epochNow e a) b := by
  induction a generalizing e with
  | nil => rfl
  | cons x a ih => cases x <;> simp only [List.cons_append, epochNow, ih]

theorem sentIn_append (a b : List Action) (e : Nat) : sentIn e (a ++ b) = sentIn e a ++ sentIn (epochNow e a) b := by
  induction a generalizing e with
  | nil => rfl
  | cons x a ih => cases x <;> simp only [List.cons_append, sentIn, epochNow, ih]

/-- What an end has done so far: the epochs of its keys for reading and for sending, the epoch it sends in, and that what it
sent was as `ok` has it. -/
structure Epochs (ok : Nat → Msg → Prop) (i o : List Nat) (n : Nat) (acts : List Action) : Prop where
  reads : inEpochs acts = i
  sends : outEpochs acts = o
  now : epochNow 0 acts = n
  sent : ∀ p ∈ sentIn 0 acts, ok p.1 p.2

variable {ok : Nat → Msg → Prop} {i i' o o' : List Nat} {n n' : Nat} {acts a : List Action}

theorem Epochs.nil : Epochs ok [] [] 0 [] := ⟨rfl, rfl, rfl, fun _ h => by cases h⟩

theorem Epochs.add (h : Epochs ok i o n acts) (h1 : inEpochs a = i') (h2 : outEpochs a = o') (h3 : epochNow n a = n')
    (h4 : ∀ p ∈ sentIn n a, ok p.1 p.2) : Epochs ok (i ++ i') (o ++ o') n' (acts ++ a) where
  reads := by rw [inEpochs_append, h.reads, h1]
  sends := by rw [outEpochs_append, h.sends, h2]
  now := by rw [epochNow_append, h.now, h3]
  sent p hp := by
    rw [sentIn_append, h.now] at hp
    rcases List.mem_append.1 hp with hp | hp
    · exact h.sent p hp
    · exact h4 p hp

theorem Epochs.none (h : Epochs ok i o n acts) : Epochs ok i o n (acts ++ []) := by simpa using h

/-- An end that is connected: epoch 3 in both directions, then 4 for each update. -/
def Updated (ok : Nat → Msg → Prop) (i o : List Nat) (acts : List Action) : Prop :=
  ∃ a b n, 3 ≤ n ∧ Epochs ok (i ++ List.replicate a 4) (o ++ List.replicate b 4) n acts

theorem Updated.process {E : Env} {x x' : Ctx} {s s' : Connected} {now : Int} {m : Msg} {a : List Action}
    (hok : ∀ e m, inRfcEpoch e m → ok e m) (h : Updated ok i o acts) (hs : s.process E x now m = .ok (s', a, x')) :
    Updated ok i o (acts ++ a) := by
  obtain ⟨na, nb, n, hn, h⟩ := h
  rcases Connected.process_ok hs with ⟨r, t, s1, keys, _, _, _, _, _, ⟨_, a', hk, rfl⟩ | ⟨_, _, rfl, _⟩⟩ |
    ⟨_, psk, _, _, _, _, _, rfl, _⟩
  · obtain ⟨_, k2, mu, _, _, _, hm, rfl⟩ := Connected.keyUpdate_ok hk
    refine ⟨na + 1, nb + 1, 4, by decide, ?_⟩
    have := h.add (a := [.rekeyIn epochUpdate keys, .queue mu, .sendQueued, .rekeyOut epochUpdate k2]) (i' := [4]) (o' := [4])
      (n' := 4) rfl rfl rfl (fun p hp => by
        simp only [sentIn, List.mem_singleton] at hp
        subst hp
        exact hok _ _ (.inr (.inr (.inr ⟨.inr (mkMsg_type hm), hn⟩))))
    rwa [List.append_assoc, List.append_assoc, ← List.replicate_succ', ← List.replicate_succ'] at this
  · refine ⟨na + 1, nb, n, hn, ?_⟩
    have := h.add (a := [.rekeyIn epochUpdate keys]) (i' := [4]) (o' := []) (n' := n) rfl rfl rfl (fun p hp => by cases hp)
    rwa [List.append_assoc, ← List.replicate_succ', List.append_nil] at this
  · refine ⟨na, nb, n, hn, ?_⟩
    have := h.add (a := [.storePsk psk]) (i' := []) (o' := []) (n' := n) rfl rfl rfl (fun p hp => by cases hp)
    simpa using this

/-! ### The client -/

/-- What a client may send in an epoch: as RFC 9147 has it, and EndOfEarlyData under handshake keys. -/
def clientOk (e : Nat) (m : Msg) : Prop := inRfcEpoch e m ∨ m.msgType = 5 ∧ e = 2

/-- A client that has got EncryptedExtensions. -/
def AfterEE (p : ConnParams) (acts : List Action) : Prop :=
  (p.usingEarlyData = true ∧ Epochs clientOk [2] [1] 1 acts) ∨ Epochs clientOk [2] [2] 2 acts ∨ Epochs clientOk [2] [1, 2] 2 acts

/-- What is known of a client, state by state. -/
def ClientEpochs (acts : List Action) : CState → Prop
  | .start _ => False
  | .waitSH w => (w.params.clientSendingEarlyData = true ∧ Epochs clientOk [] [1] 1 acts) ∨
      (w.params.clientSendingEarlyData = false ∧ (Epochs clientOk [] [] 0 acts ∨ Epochs clientOk [] [1] 0 acts))
  | .waitEE s => (s.params.clientSendingEarlyData = true ∧ Epochs clientOk [2] [1] 1 acts) ∨
      (s.params.clientSendingEarlyData = false ∧ (Epochs clientOk [2] [2] 2 acts ∨ Epochs clientOk [2] [1, 2] 2 acts))
  | .waitCertCR s => AfterEE s.params acts
  | .waitCert s => AfterEE s.params acts
  | .waitCV s => AfterEE s.params acts
  | .waitFinished s => AfterEE s.params acts
  | .connected _ => ∃ o, (o = [1, 2, 3] ∨ o = [2, 3] ∨ o = [2, 2, 3] ∨ o = [1, 2, 2, 3]) ∧ Updated clientOk [2, 3] o acts

theorem clientOk_rfc {e : Nat} {m : Msg} (h : inRfcEpoch e m) : clientOk e m := .inl h

theorem offered_type {E : Env} {x : Ctx} {cfg : Config} {early : Bool} {now : Int} {psk : Psk} {ch : ClientHello} {of : PskOffer}
    (h : offerPsk E x cfg early now psk ch = .ok of) : of.hello.msgType = 1 := by
  obtain ⟨_, _, _, _, _, _, _, _, _, _, _, _, _, _, _, _, h2, _⟩ := offerPsk_ok h
  exact mkMsg_type h2

theorem hello_epochs {m : Msg} (hm : m.msgType = 1) (a : List Action) (h : sentIn 0 a = []) :
    ∀ p ∈ sentIn 0 (.queue m :: .sendQueued :: a), clientOk p.1 p.2 := by
  intro p hp
  simp only [sentIn, h, List.mem_singleton] at hp
  subst hp
  exact .inl (.inl ⟨.inl hm, rfl⟩)

theorem clientEpochs {E : Env} {x x' : Ctx} {cfg : Config} {c : Coins} {es : List (Event × Coins)} {s : CState}
    {acts : List Action} (h : clientRun E x cfg c es = .ok (s, acts, x')) : ClientEpochs acts s := by
  refine clientRun_induct (E := E) (x := x) (cfg := cfg) (c := c) (fun _ s acts _ => ClientEpochs acts s) ?_ ?_ h
  · intro w acts x' hn
    obtain ⟨_, _, _, _, _, _, ⟨psk, of, _, h1, rfl, rfl, _⟩ | ⟨_, m, h1, rfl, rfl⟩⟩ := CStart.next_ok hn
    · by_cases hc : (cfg.allowEarlyData && (none : Option Msg).isNone) = true
      · refine .inl ⟨hc, ?_⟩
        rw [if_pos hc]
        exact ⟨rfl, rfl, rfl, hello_epochs (offered_type h1) _ rfl⟩
      · refine .inr ⟨by simpa using hc, .inl ?_⟩
        rw [if_neg hc]
        exact ⟨rfl, rfl, rfl, hello_epochs (offered_type h1) _ rfl⟩
    · exact .inr ⟨rfl, .inl ⟨rfl, rfl, rfl, hello_epochs (mkMsg_type h1) _ rfl⟩⟩
  · intro es s acts x1 e ce s' a x2 hi hst
    cases hst with
    | retry w m hrr st w' a _ check random handle start =>
      have hret : st.retry.isNone = false := by
        obtain ⟨_, _, _, _, _, rfl⟩ := handleRetry_ok handle
        rfl
      have key : ∀ of : Msg, of.msgType = 1 → a = [.queue of, .sendQueued] → w'.params.clientSendingEarlyData = false →
          ClientEpochs (acts ++ ([.resetOut 1] ++ a)) (.waitSH w') := by
        intro of hty ha hw
        refine .inr ⟨hw, ?_⟩
        have ok : ∀ p ∈ sentIn 0 ([.queue of, .sendQueued] : List Action), clientOk p.1 p.2 := hello_epochs hty [] rfl
        rcases hi with ⟨_, hi⟩ | ⟨_, hi | hi⟩
        · exact .inr (hi.add (i' := []) (o' := []) (by rw [ha]; rfl) (by rw [ha]; rfl) (by rw [ha]; rfl) (by rw [ha]; exact ok))
        · exact .inl (hi.add (i' := []) (o' := []) (by rw [ha]; rfl) (by rw [ha]; rfl) (by rw [ha]; rfl) (by rw [ha]; exact ok))
        · exact .inr (hi.add (i' := []) (o' := []) (by rw [ha]; rfl) (by rw [ha]; rfl) (by rw [ha]; rfl) (by rw [ha]; exact ok))
      obtain ⟨_, _, _, _, _, _, ⟨psk, of, _, h1, rfl, ha, _⟩ | ⟨_, m, h1, rfl, ha⟩⟩ := CStart.next_ok start
      · rw [hret, Bool.and_false, if_neg (by simp), List.append_nil] at ha
        exact key of.hello (offered_type h1) ha (by simp [hret])
      · exact key m (mkMsg_type h1) ha rfl
    | hello w m sh e' a _ check random handle =>
      obtain ⟨_, _, _, _, _, sk, ck, _, _, _, _, _, _, rfl, rfl, _⟩ := handleHello_ok handle
      rcases hi with ⟨hw, hi⟩ | ⟨hw, hi | hi⟩
      · refine .inl ⟨hw, ?_⟩
        rw [hw]
        exact hi.add (i' := [2]) (o' := []) rfl rfl rfl (fun p hp => by cases hp)
      · refine .inr ⟨hw, .inl ?_⟩
        rw [hw]
        exact hi.add (i' := [2]) (o' := [2]) rfl rfl rfl (fun p hp => by cases hp)
      · refine .inr ⟨hw, .inr ?_⟩
        rw [hw]
        exact hi.add (i' := [2]) (o' := [2]) rfl rfl rfl (fun p hp => by cases hp)
    | ee s0 m s' a _ next =>
      obtain ⟨_, _, found, keys, _, _, _, ha, _, hs'⟩ := CWaitEE.next_ok next
      have key : AfterEE (eeParams s0.params found) (acts ++ a) := by
        rcases hi with ⟨hw, hi⟩ | ⟨hw, hi | hi⟩
        · rw [hw] at ha
          cases hf : findEarlyData found with
          | true =>
            rw [hf] at ha
            exact .inl ⟨hf, by rw [ha]; exact hi.none⟩
          | false =>
            rw [hf] at ha
            refine .inr (.inr ?_)
            rw [ha]
            exact hi.add (i' := []) (o' := [2]) rfl rfl rfl (fun p hp => by cases hp)
        · rw [hw] at ha
          exact .inr (.inl (by rw [ha]; exact hi.none))
        · rw [hw] at ha
          exact .inr (.inr (by rw [ha]; exact hi.none))
      rcases hs' with ⟨_, rfl⟩ | ⟨_, rfl⟩
      · exact key
      · exact key
    | certCR s0 m s' a _ next =>
      obtain ⟨rfl, _, ⟨_, _, _, rfl⟩ | ⟨_, _, _, _, rfl⟩⟩ := CWaitEE.nextCertCR_ok next
      · rw [List.append_nil]; exact hi
      · rw [List.append_nil]; exact hi
    | cert s0 m s' a _ next =>
      obtain ⟨_, rfl, _, _, _, rfl⟩ := CWaitCert.next_ok next
      rw [List.append_nil]; exact hi
    | cv s0 m s' a _ next =>
      obtain ⟨_, rfl, _, _, _, _, _, _, _, _, rfl⟩ := CWaitCV.next_ok next
      rw [List.append_nil]; exact hi
    | finished s0 m s' a _ next =>
      obtain ⟨_, _, _, _, ck, sk, a1, _, _, a2, _, _, _, fm, _, _, _, _, _, _, _, he, hau, _, hfm, _, rfl, rfl⟩ :=
        CWaitFinished.next_ok next
      -- what follows EndOfEarlyData
      have hrest : ∀ o acts1, Epochs clientOk [2] o 2 acts1 → Updated clientOk [2, 3] (o ++ [3])
          (acts1 ++ (a2 ++ [.queue fm, .sendQueued, .rekeyIn epochApplication sk, .rekeyOut epochApplication ck])) := by
        intro o acts1 h1
        refine ⟨0, 0, 3, by decide, ?_⟩
        have fin : inRfcEpoch 2 fm := .inr (.inr (.inl ⟨.inr (.inr (.inr (.inr (mkMsg_type hfm)))), rfl⟩))
        rw [List.replicate_zero, List.append_nil, List.append_nil]
        refine h1.add (i' := [3]) (o' := [3]) ?_ ?_ ?_ ?_ <;>
          rcases clientAuth_ok hau with ⟨_, rfl, _⟩ | ⟨_, _, _, _, _, ⟨_, m1, _, hm1, rfl, _⟩ | ⟨_, _, m1, _, _, m2, _, hm1, _, hm2, rfl, _⟩⟩
        all_goals first
          | rfl
          | skip
        · intro p hp
          simp only [sentIn, List.nil_append, List.mem_singleton] at hp
          subst hp; exact .inl fin
        · intro p hp
          simp only [sentIn, List.cons_append, List.nil_append, List.mem_cons, List.not_mem_nil, or_false] at hp
          rcases hp with rfl | rfl
          · exact .inl (.inr (.inr (.inl ⟨.inr (.inl (mkMsg_type hm1)), rfl⟩)))
          · exact .inl fin
        · intro p hp
          simp only [sentIn, List.cons_append, List.nil_append, List.mem_cons, List.not_mem_nil, or_false] at hp
          rcases hp with rfl | rfl | rfl
          · exact .inl (.inr (.inr (.inl ⟨.inr (.inl (mkMsg_type hm1)), rfl⟩)))
          · exact .inl (.inr (.inr (.inl ⟨.inr (.inr (.inr (.inl (mkMsg_type hm2)))), rfl⟩)))
          · exact .inl fin
      rcases clientEOED_ok he with ⟨hu, rfl, _⟩ | ⟨hu, m5, k5, hm5, _, rfl, _⟩
      · rw [List.nil_append]
        rcases hi with ⟨hw, _⟩ | hi | hi
        · rw [hu] at hw; cases hw
        · exact ⟨[2, 3], .inr (.inl rfl), hrest [2] _ hi⟩
        · exact ⟨[1, 2, 3], .inl rfl, hrest [1, 2] _ hi⟩
      · have t5 : m5.msgType = 5 := mkMsg_type hm5
        rw [List.append_assoc, ← List.append_assoc]
        rcases hi with ⟨_, hi⟩ | hi | hi
        · refine ⟨[1, 2, 3], .inl rfl, hrest [1, 2] _ (hi.add (i' := []) (o' := [2]) rfl rfl rfl fun p hp => ?_)⟩
          simp only [sentIn, List.mem_singleton] at hp
          subst hp; exact .inl (.inr (.inl ⟨t5, rfl⟩))
        · refine ⟨[2, 2, 3], .inr (.inr (.inl rfl)), hrest [2, 2] _ (hi.add (i' := []) (o' := [2]) rfl rfl rfl fun p hp => ?_)⟩
          simp only [sentIn, List.mem_singleton] at hp
          subst hp; exact .inr ⟨t5, rfl⟩
        · refine ⟨[1, 2, 2, 3], .inr (.inr (.inr rfl)),
            hrest [1, 2, 2] _ (hi.add (i' := []) (o' := [2]) rfl rfl rfl fun p hp => ?_)⟩
          simp only [sentIn, List.mem_singleton] at hp
          subst hp; exact .inr ⟨t5, rfl⟩
    | post s0 m s' a _ next =>
      obtain ⟨o, ho, hi⟩ := hi
      exact ⟨o, ho, hi.process (fun _ _ => clientOk_rfc) next⟩
    | data s0 d => rw [List.append_nil]; exact hi

/-- Keys for early data are installed only by a client configured for it. -/
theorem early_allowed {E : Env} {x x' : Ctx} {cfg : Config} {c : Coins} {es : List (Event × Coins)} {s : CState}
    {acts : List Action} (h : clientRun E x cfg c es = .ok (s, acts, x')) (h1 : 1 ∈ outEpochs acts) :
    cfg.allowEarlyData = true := by
  by_contra hc
  have hc : cfg.allowEarlyData = false := by simpa using hc
  refine clientRun_induct (E := E) (x := x) (cfg := cfg) (c := c) (fun _ _ acts _ => 1 ∉ outEpochs acts) ?_ ?_ h h1
  · intro w acts x' hn
    obtain ⟨_, _, _, _, _, _, ⟨psk, of, _, _, _, rfl, _⟩ | ⟨_, m, _, _, rfl⟩⟩ := CStart.next_ok hn
    · rw [hc, Bool.false_and, if_neg (by simp)]; exact List.not_mem_nil
    · exact List.not_mem_nil
  · intro es s acts x1 e ce s' a x2 hi hst
    rw [outEpochs_append, List.mem_append]
    rintro (h | h)
    · exact hi h
    refine absurd h ?_
    cases hst with
    | retry w m hrr st w' a _ check random handle start =>
      have hret : st.retry.isNone = false := by
        obtain ⟨_, _, _, _, _, rfl⟩ := handleRetry_ok handle
        rfl
      obtain ⟨_, _, _, _, _, _, ⟨psk, of, _, h1, rfl, rfl, _⟩ | ⟨_, m, h1, rfl, rfl⟩⟩ := CStart.next_ok start
      · rw [hret, Bool.and_false, if_neg (by simp)]; exact List.not_mem_nil
      · exact List.not_mem_nil
    | hello w m sh e' a _ check random handle =>
      obtain ⟨_, _, _, _, _, sk, ck, _, _, _, _, _, _, rfl, rfl, _⟩ := handleHello_ok handle
      split <;> simp [outEpochs, epochHandshake]
    | ee s0 m s' a _ next =>
      obtain ⟨_, _, found, keys, _, _, _, rfl, _⟩ := CWaitEE.next_ok next
      split <;> simp [outEpochs, epochHandshake]
    | certCR s0 m s' a _ next => obtain ⟨rfl, _⟩ := CWaitEE.nextCertCR_ok next; exact List.not_mem_nil
    | cert s0 m s' a _ next => obtain ⟨_, rfl, _⟩ := CWaitCert.next_ok next; exact List.not_mem_nil
    | cv s0 m s' a _ next => obtain ⟨_, rfl, _⟩ := CWaitCV.next_ok next; exact List.not_mem_nil
    | finished s0 m s' a _ next =>
      obtain ⟨_, _, _, _, ck, sk, a1, _, _, a2, _, _, _, fm, _, _, _, _, _, _, _, he, hau, _, hfm, _, _, rfl⟩ :=
        CWaitFinished.next_ok next
      rcases clientEOED_ok he with ⟨hu, rfl, _⟩ | ⟨hu, m5, k5, hm5, _, rfl, _⟩ <;>
        rcases clientAuth_ok hau with ⟨_, rfl, _⟩ | ⟨_, _, _, _, _, ⟨_, m1, _, hm1, rfl, _⟩ | ⟨_, _, m1, _, _, m2, _, hm1, _, hm2, rfl, _⟩⟩ <;>
        simp [outEpochs, epochHandshake, epochApplication]
    | post s0 m s' a _ next =>
      rcases Connected.process_ok next with ⟨r, t, s1, keys, _, _, _, _, _, ⟨_, a', hk, rfl⟩ | ⟨_, _, rfl, _⟩⟩ |
        ⟨_, psk, _, _, _, _, _, rfl, _⟩
      · obtain ⟨_, k2, mu, _, _, _, hm, rfl⟩ := Connected.keyUpdate_ok hk
        simp [outEpochs, epochUpdate]
      · exact List.not_mem_nil
      · exact List.not_mem_nil
    | data s0 d => exact List.not_mem_nil

/-! ### The server -/

/-- What is known of a server, state by state. -/
def ServerEpochs (acts : List Action) : SState → Prop
  | .start _ => Epochs inRfcEpoch [] [] 0 acts
  | .negotiated _ => False
  | .waitEOED _ => Epochs inRfcEpoch [1] [2, 3] 3 acts
  | .readPast => Epochs inRfcEpoch [2] [2, 3] 3 acts
  | .waitFlight2 _ => False
  | .waitCert _ | .waitCV _ | .waitFinished _ => Epochs inRfcEpoch [2] [2, 3] 3 acts ∨ Epochs inRfcEpoch [1, 2] [2, 3] 3 acts
  | .connected _ => Updated inRfcEpoch [2, 3] [2, 3] acts ∨ Updated inRfcEpoch [1, 2, 3] [2, 3] acts

theorem ServerEpochs.flight2 {s : SWait} (h : Epochs inRfcEpoch [2] [2, 3] 3 acts ∨ Epochs inRfcEpoch [1, 2] [2, 3] 3 acts) :
    ServerEpochs acts (SState.settle (.waitFlight2 s)) := by
  simp only [SState.settle, SWait.nextFlight2]
  split <;> exact h

/-- The server's flight. -/
theorem NegFacts.epochs {E : Env} {x : Ctx} {c : Coins} {s : SNegotiated} (f : NegFacts E x c s)
    (h : Epochs inRfcEpoch [] [] 0 acts) : Epochs inRfcEpoch [] [2, 3] 3 (acts ++ f.sent) := by
  have tsh : f.sh.msgType = 2 := mkMsg_type f.shOk
  have tee : f.ee.msgType = 8 := mkMsg_type f.eeOk
  have tfin : f.fin.msgType = 20 := mkMsg_type f.finOk
  have hfin : inRfcEpoch 2 f.fin := .inr (.inr (.inl ⟨.inr (.inr (.inr (.inr tfin))), rfl⟩))
  have hauth : inEpochs f.acts = [] ∧ outEpochs f.acts = [] ∧ epochNow 2 f.acts = 2 ∧
      ∀ p ∈ sentIn 2 f.acts, inRfcEpoch p.1 p.2 := by
    rcases serverAuth_ok f.authOk with ⟨_, h1, _⟩ | ⟨_, a1, _, _, _, mc, _, _, mv, hreq, _, hmc, _, hmv, h1, _⟩
    · rw [h1]; exact ⟨rfl, rfl, rfl, fun _ hp => by cases hp⟩
    · have e1 : inRfcEpoch 2 mc := .inr (.inr (.inl ⟨.inr (.inl (mkMsg_type hmc)), rfl⟩))
      have e2 : inRfcEpoch 2 mv := .inr (.inr (.inl ⟨.inr (.inr (.inr (.inl (mkMsg_type hmv)))), rfl⟩))
      rcases serverRequest_ok hreq with ⟨_, rfl, _⟩ | ⟨_, _, mr, _, hmr, rfl, _⟩
      · rw [h1]
        refine ⟨rfl, rfl, rfl, fun p hp => ?_⟩
        simp only [sentIn, List.nil_append, List.mem_cons, List.not_mem_nil, or_false] at hp
        rcases hp with rfl | rfl
        · exact e1
        · exact e2
      · rw [h1]
        refine ⟨rfl, rfl, rfl, fun p hp => ?_⟩
        simp only [sentIn, List.cons_append, List.nil_append, List.mem_cons, List.not_mem_nil, or_false] at hp
        rcases hp with rfl | rfl | rfl
        · exact .inr (.inr (.inl ⟨.inr (.inr (.inl (mkMsg_type hmr))), rfl⟩))
        · exact e1
        · exact e2
  obtain ⟨g1, g2, g3, g4⟩ := hauth
  have k1 := h.add (a := [.queue f.sh, .rekeyOut epochHandshake f.serverKeys, .queue f.ee]) (i' := []) (o' := [2]) (n' := 2)
    rfl rfl rfl (fun p hp => by
      simp only [sentIn, List.mem_cons, List.not_mem_nil, or_false] at hp
      rcases hp with rfl | rfl
      · exact .inl ⟨.inr tsh, rfl⟩
      · exact .inr (.inr (.inl ⟨.inl tee, rfl⟩)))
  have k2 := k1.add g1 g2 g3 g4
  have k3 := k2.add (a := [.queue f.fin, .sendQueued, .rekeyOut epochApplication f.serverApKeys]) (i' := []) (o' := [3]) (n' := 3)
    rfl rfl rfl (fun p hp => by
      simp only [sentIn, List.mem_singleton] at hp
      subst hp; exact hfin)
  rw [List.append_assoc, List.append_assoc] at k3
  simpa only [NegFacts.sent, List.append_assoc, List.nil_append, List.cons_append] using k3

theorem serverEpochs {E : Env} {x x' : Ctx} {cfg : Config} {es : List (Event × Coins)} {s : SState}
    {acts : List Action} (h : serverRun E x cfg es = .ok (s, acts, x')) : ServerEpochs acts s := by
  refine (serverRun_induct (E := E) (x := x) (cfg := cfg)
    (fun es s acts x1 => serverRun E x cfg es = .ok (s, acts, x1) ∧ ServerEpochs acts s) ⟨rfl, Epochs.nil⟩ ?_ h).2
  intro es s acts x1 e ce s' a x2 ⟨hrun, hi⟩ hst
  have hrun' : serverRun E x cfg (es ++ [(e, ce)]) = .ok (s', acts ++ a, x2) := SState.run_ok_snoc hrun hst.step
  refine ⟨hrun', ?_⟩
  cases hst with
  | skip => rw [List.append_nil]; exact hi
  | early s0 d => rw [List.append_nil]; exact hi
  | retry s0 m hrr _ next =>
    have ht : hrr.msgType = 2 := (serverKnows hrun').2.2.2 hrr (by rw [sent_append]; simp [sent])
    refine Epochs.add (i' := []) (o' := []) hi rfl rfl rfl fun p hp => ?_
    simp only [sentIn, List.mem_singleton] at hp
    subst hp; exact .inl ⟨.inr ht, rfl⟩
  | hello s0 m n0 y1 s1 _ _ next neg =>
    obtain ⟨f, _, ⟨_, k, _, rfl, rfl⟩ | ⟨_, _, rfl, rfl⟩ | ⟨_, _, rfl, rfl⟩⟩ := SNegotiated.next_ok neg
    · have := (f.epochs hi).add (a := [.rekeyIn epochEarlyData k]) (i' := [1]) (o' := []) (n' := 3) rfl rfl rfl
        (fun p hp => by cases hp)
      rw [List.append_assoc] at this
      exact this
    · have := (f.epochs hi).add (a := [.rekeyIn epochHandshake f.clientKeys]) (i' := [2]) (o' := []) (n' := 3) rfl rfl rfl
        (fun p hp => by cases hp)
      rw [List.append_assoc] at this
      exact this
    · have := (f.epochs hi).add (a := [.rekeyIn epochHandshake f.clientKeys]) (i' := [2]) (o' := []) (n' := 3) rfl rfl rfl
        (fun p hp => by cases hp)
      rw [List.append_assoc] at this
      exact ServerEpochs.flight2 (.inl this)
  | eoed s0 m s1 a' _ next =>
    obtain ⟨_, _, _, k, _, rfl, rfl⟩ := SWait.nextEOED_ok next
    exact ServerEpochs.flight2 (.inr (Epochs.add (i' := [2]) (o' := []) hi rfl rfl rfl fun p hp => by cases hp))
  | cert s0 m s1 a' _ next =>
    obtain ⟨_, rfl, _, _, _, ⟨_, rfl⟩ | ⟨_, rfl⟩⟩ := SWait.nextCert_ok next
    · rw [List.append_nil]; exact hi
    · rw [List.append_nil]; exact hi
  | cv s0 m s1 a' _ next =>
    obtain ⟨_, rfl, _, _, _, _, _, _, _, rfl⟩ := SWaitCV.next_ok next
    rw [List.append_nil]; exact hi
  | finished s0 m s1 a' _ next =>
    obtain ⟨_, _, _, _, _, k, _, _, _, _, _, rfl, rfl⟩ := SWaitFinished.next_ok next
    rcases hi with hi | hi
    · exact .inl ⟨0, 0, 3, by decide, Epochs.add (i' := [3]) (o' := []) hi rfl rfl rfl fun p hp => by cases hp⟩
    · exact .inr ⟨0, 0, 3, by decide, Epochs.add (i' := [3]) (o' := []) hi rfl rfl rfl fun p hp => by cases hp⟩
  | post s0 m s1 a' _ next =>
    rcases hi with hi | hi
    · exact .inl (hi.process (fun _ _ h => h) next)
    · exact .inr (hi.process (fun _ _ h => h) next)
  | data s0 d => rw [List.append_nil]; exact hi

end Verif.Machine

import Verif.Conn.HandshakeRun
import Verif.Machine.Epochs
import Verif.Spec.EarlyWrite

/-
When a client that is not connected yet may write (for C84).
-/

namespace Verif.Conn

open Verif Verif.Crypto Verif.Messages Verif.Negotiation Verif.Handshake Verif.Machine Verif.Spec

/-- The actions taken before the first that fails. -/
theorem takeAll_epochNow (fail : Nat → Action → Option Nat) (i : Nat) (c : HConn) (as : List Action) :
    ∃ pre post, as = pre ++ post ∧ (HConn.takeAll fail i c as).2 = { c with outEpoch := epochNow c.outEpoch pre } ∧
      ((HConn.takeAll fail i c as).1 = none ↔ post = []) := by
  induction as generalizing i c with
  | nil => exact ⟨[], [], rfl, rfl, fun _ => rfl, fun _ => rfl⟩
  | cons a as ih =>
    unfold HConn.takeAll
    split
    · exact ⟨[], a :: as, rfl, rfl, (fun h => by cases h), fun h => by cases h⟩
    · split
      · obtain ⟨pre, post, h1, h2, h3⟩ := ih (i + 1) { c with outEpoch := _ }
        exact ⟨_ :: pre, post, by rw [h1]; rfl, h2, h3⟩
      · obtain ⟨pre, post, h1, h2, h3⟩ := ih (i + 1) { c with outEpoch := _ }
        exact ⟨_ :: pre, post, by rw [h1]; rfl, h2, h3⟩
      · rename_i h4 h5
        obtain ⟨pre, post, h1, h2, h3⟩ := ih (i + 1) c
        refine ⟨a :: pre, post, by rw [h1]; rfl, ?_, h3⟩
        rw [h2]
        congr 1
        cases a with
        | rekeyOut e k => exact absurd rfl (h4 e k)
        | resetOut s => exact absurd rfl (h5 s)
        | _ => rfl

theorem epochNow_cases (as : List Action) (e : Nat) : epochNow e as = e ∨ epochNow e as = 0 ∨ epochNow e as ∈ outEpochs as := by
  induction as generalizing e with
  | nil => exact .inl rfl
  | cons a as ih =>
    cases a with
    | rekeyOut e' k =>
      refine .inr ?_
      have : outEpochs (.rekeyOut e' k :: as) = e' :: outEpochs as := rfl
      rw [this]
      rcases ih e' with h | h | h
      · exact .inr (by rw [epochNow, h]; exact List.mem_cons_self)
      · exact .inl (by rw [epochNow, h])
      · exact .inr (List.mem_cons_of_mem _ h)
    | resetOut s =>
      rcases ih 0 with h | h | h
      · exact .inr (.inl h)
      · exact .inr (.inl h)
      · exact .inr (.inr h)
    | _ => exact ih e

/-- Epoch 1 is not entered. -/
theorem epochNow_one {pre post acts : List Action} {e : Nat} (h : acts = pre ++ post) (h1 : 1 ∉ outEpochs acts)
    (he : epochNow e pre = 1) : e = 1 := by
  rcases epochNow_cases pre e with h2 | h2 | h2
  · exact h2 ▸ he
  · rw [he] at h2; cases h2
  · rw [he] at h2
    exact absurd (by rw [h, outEpochs_append]; exact List.mem_append_left _ h2) h1

/-- A client starts again only after a retry. -/
def Again : Option HState → Prop
  | some (.client (.start s)) => s.retry.isSome = true
  | _ => True

theorem earlyOpen_spoil {b : Bytes} {st : HState} (h : earlyOpen (some st)) : earlyOpen (some (st.spoil b)) := by
  cases st with
  | client s => cases s <;> exact h
  | server s => cases s <;> exact h

theorem again_spoil {b : Bytes} {st : HState} (h : Again (some st)) : Again (some (st.spoil b)) := by
  cases st with
  | client s => cases s <;> exact h
  | server s => cases s <;> exact h

/-- A move of a client. -/
theorem clientNext_epochs {E : Env} {x x' : Ctx} {t : Turn} {s s' : CState} {acts : List Action}
    (ha : Again (some (.client s))) (h : clientNext E x t s = .ok (s', acts, x')) :
    1 ∉ outEpochs acts ∧ Again (some (.client s')) ∧
      (epochNow 1 acts = 1 → earlyOpen (some (.client s)) → earlyOpen (some (.client s'))) := by
  have key : ∀ {s0 : CState}, (∀ st, s0 ≠ .start st) → Again (some (.client s0)) := by
    intro s0 h0
    cases s0 with
    | start st => exact absurd rfl (h0 st)
    | _ => trivial
  cases s with
  | start s =>
    simp only [clientNext, Res.bind_eq_ok, Res.ok.injEq, Prod.mk.injEq] at h
    obtain ⟨⟨w, a, x1⟩, h1, rfl, rfl, rfl⟩ := h
    have hret : s.retry.isNone = false := by
      have : s.retry.isSome = true := ha
      cases hr : s.retry with
      | none => rw [hr] at this; cases this
      | some _ => rfl
    refine ⟨?_, trivial, fun _ h => h.elim⟩
    obtain ⟨_, _, _, _, _, _, ⟨psk, of, _, _, _, rfl, _⟩ | ⟨_, m, _, _, rfl⟩⟩ := CStart.next_ok h1
    · rw [hret, Bool.and_false, if_neg (by simp)]; exact List.not_mem_nil
    · exact List.not_mem_nil
  | connected s =>
    simp only [clientNext, Res.ok.injEq, Prod.mk.injEq] at h
    obtain ⟨rfl, rfl, rfl⟩ := h
    exact ⟨List.not_mem_nil, trivial, fun _ h => h⟩
  | waitSH w =>
    simp only [clientNext] at h
    split at h
    · cases h
    · rename_i m _
      obtain ⟨sh, _, ⟨_, st, h2, rfl, rfl, _⟩ | ⟨_, e, h2, rfl⟩⟩ := CWaitSH.next_ok h
      · obtain ⟨_, _, _, _, _, rfl⟩ := handleRetry_ok h2
        exact ⟨List.not_mem_nil, rfl, fun h => by cases h⟩
      · obtain ⟨_, _, _, _, _, sk, ck, _, _, _, _, _, _, rfl, rfl, _⟩ := handleHello_ok h2
        refine ⟨by split <;> simp [outEpochs, epochHandshake], trivial, fun _ h => h⟩
    · simp [alert] at h
  | waitEE s =>
    simp only [clientNext] at h
    split at h
    · cases h
    · rename_i m _
      obtain ⟨_, _, found, keys, _, _, _, rfl, _, hs'⟩ := CWaitEE.next_ok h
      refine ⟨by split <;> simp [outEpochs, epochHandshake], ?_, ?_⟩
      · rcases hs' with ⟨_, rfl⟩ | ⟨_, rfl⟩ <;> trivial
      · intro he ho
        have ho : s.params.clientSendingEarlyData = true := ho
        have hf : findEarlyData found = true := by
          by_contra hf
          rw [Bool.not_eq_true] at hf
          rw [ho, hf] at he
          cases he
        rcases hs' with ⟨_, rfl⟩ | ⟨_, rfl⟩
        · exact hf
        · exact hf
    · simp [alert] at h
  | waitCertCR s =>
    simp only [clientNext] at h
    split at h
    · cases h
    · obtain ⟨rfl, _, ⟨_, _, _, rfl⟩ | ⟨_, _, _, _, rfl⟩⟩ := CWaitEE.nextCertCR_ok h
      · exact ⟨List.not_mem_nil, trivial, fun _ h => h⟩
      · exact ⟨List.not_mem_nil, trivial, fun _ h => h⟩
    · simp [alert] at h
  | waitCert s =>
    simp only [clientNext] at h
    split at h
    · cases h
    · obtain ⟨_, rfl, _, _, _, rfl⟩ := CWaitCert.next_ok h
      exact ⟨List.not_mem_nil, trivial, fun _ h => h⟩
    · simp [alert] at h
  | waitCV s =>
    simp only [clientNext] at h
    split at h
    · cases h
    · obtain ⟨_, rfl, _, _, _, _, _, _, _, _, rfl⟩ := CWaitCV.next_ok h
      exact ⟨List.not_mem_nil, trivial, fun _ h => h⟩
    · simp [alert] at h
  | waitFinished s =>
    simp only [clientNext] at h
    split at h
    · cases h
    · obtain ⟨_, _, _, _, ck, sk, a1, _, _, a2, _, _, _, fm, _, _, _, _, _, _, _, he, hau, _, hfm, _, rfl, rfl⟩ :=
        CWaitFinished.next_ok h
      refine ⟨?_, trivial, ?_⟩
      · rcases clientEOED_ok he with ⟨hu, rfl, _⟩ | ⟨hu, m5, k5, hm5, _, rfl, _⟩ <;>
          rcases clientAuth_ok hau with ⟨_, rfl, _⟩ | ⟨_, _, _, _, _, ⟨_, m1, _, hm1, rfl, _⟩ | ⟨_, _, m1, _, _, m2, _, hm1, _, hm2, rfl, _⟩⟩ <;>
          simp [outEpochs, epochHandshake, epochApplication]
      · intro h
        rw [epochNow_append] at h
        cases h
    · simp [alert] at h

/-- A move of a server. -/
theorem serverNext_epochs {E : Env} {x x' : Ctx} {t : Turn} {s s' : SState} {acts : List Action} {r : Bool}
    (h : serverNext E x t s = .ok (s', acts, x', r)) : 1 ∉ outEpochs acts := by
  unfold serverNext at h
  split at h
  · simp only [Res.bind_eq_ok, Res.ok.injEq, Prod.mk.injEq] at h
    obtain ⟨⟨s1, a1, x1⟩, h1, rfl, rfl, rfl, _⟩ := h
    obtain ⟨f, _, hf⟩ := SNegotiated.next_ok h1
    have hs := (f.epochs (acts := []) Epochs.nil).sends
    rw [List.nil_append] at hs
    rcases hf with ⟨_, _, _, _, rfl⟩ | ⟨_, _, _, rfl⟩ | ⟨_, _, _, rfl⟩ <;> rw [outEpochs_append, hs] <;> simp [outEpochs]
  · simp only [Res.ok.injEq, Prod.mk.injEq] at h
    obtain ⟨_, rfl, _⟩ := h
    exact List.not_mem_nil
  · simp only [Res.ok.injEq, Prod.mk.injEq] at h
    obtain ⟨_, rfl, _⟩ := h
    exact List.not_mem_nil
  · split at h
    · cases h
    · split at h
      · simp only [Res.ok.injEq, Prod.mk.injEq] at h
        obtain ⟨_, rfl, _⟩ := h
        exact List.not_mem_nil
      · cases h
      · simp only [Res.ok.injEq, Prod.mk.injEq] at h
        obtain ⟨_, rfl, _⟩ := h
        exact List.not_mem_nil
      · simp [alert] at h
      · simp only [Res.bind_eq_ok] at h
        obtain ⟨⟨r1, x1⟩, _, h⟩ := h
        dsimp only at h
        split at h
        · simp only [Res.ok.injEq, Prod.mk.injEq] at h
          obtain ⟨_, rfl, _⟩ := h
          exact List.not_mem_nil
        · simp only [Res.ok.injEq, Prod.mk.injEq] at h
          obtain ⟨_, rfl, _⟩ := h
          exact List.not_mem_nil
      · simp only [Res.bind_eq_ok, Res.ok.injEq, Prod.mk.injEq] at h
        obtain ⟨⟨s1, a1, x1⟩, h1, _, rfl, _⟩ := h
        obtain ⟨_, _, _, _, _, _, rfl⟩ := SWait.nextEOED_ok h1
        exact List.not_mem_nil
      · simp only [Res.bind_eq_ok, Res.ok.injEq, Prod.mk.injEq] at h
        obtain ⟨⟨s1, a1, x1⟩, h1, _, rfl, _⟩ := h
        obtain ⟨_, rfl, _⟩ := SWait.nextCert_ok h1
        exact List.not_mem_nil
      · simp only [Res.bind_eq_ok, Res.ok.injEq, Prod.mk.injEq] at h
        obtain ⟨⟨s1, a1, x1⟩, h1, _, rfl, _⟩ := h
        obtain ⟨_, rfl, _⟩ := SWaitCV.next_ok h1
        exact List.not_mem_nil
      · simp only [Res.bind_eq_ok, Res.ok.injEq, Prod.mk.injEq] at h
        obtain ⟨⟨s1, a1, x1⟩, h1, _, rfl, _⟩ := h
        obtain ⟨_, _, _, _, _, _, _, _, _, _, _, _, rfl⟩ := SWaitFinished.next_ok h1
        exact List.not_mem_nil
      · simp [alert] at h

/-- A move of either. -/
theorem next_epochs {E : Env} {x x' : Ctx} {t : Turn} {st st' : HState} {acts : List Action} {r : Bool}
    (ha : Again (some st)) (h : st.next E x t = .ok (st', acts, x', r)) :
    1 ∉ outEpochs acts ∧ Again (some st') ∧ (epochNow 1 acts = 1 → earlyOpen (some st) → earlyOpen (some st')) := by
  cases st with
  | client s =>
    simp only [HState.next, Res.bind_eq_ok, Res.ok.injEq, Prod.mk.injEq] at h
    obtain ⟨⟨s1, a1, x1⟩, h1, rfl, rfl, rfl, _⟩ := h
    exact clientNext_epochs ha h1
  | server s =>
    simp only [HState.next, Res.bind_eq_ok, Res.ok.injEq, Prod.mk.injEq] at h
    obtain ⟨⟨s1, a1, x1, r1⟩, h1, rfl, rfl, rfl, _⟩ := h
    exact ⟨serverNext_epochs h1, trivial, fun _ h => h.elim⟩

/-- What holds of a connection with a given config: epoch 1 means that early data is being offered or was granted. -/
structure HConn.Early (cfg : Config) (c : HConn) : Prop where
  cfgEq : c.cfg = cfg
  again : Again c.hState
  early : c.outEpoch = 1 → earlyOpen c.hState ∧ cfg.allowEarlyData = true ∧ ∃ k, cfg.psks cfg.serverName = some k

theorem HConn.Early.congr {cfg : Config} {c c' : HConn} (h : c.Early cfg) (h1 : c'.cfg = c.cfg) (h2 : c'.hState = c.hState)
    (h3 : c'.outEpoch = c.outEpoch) : c'.Early cfg :=
  ⟨h1.trans h.cfgEq, by rw [h2]; exact h.again, by rw [h2, h3]; exact h.early⟩

theorem ticket_epoch {E : Env} {x x' : Ctx} {s : Connected} {now : Int} {a b d : UInt32} {n tk : Bytes} {acts pre post : List Action}
    (h : s.newSessionTicket E x now a b d n tk = .ok (acts, x')) (hp : acts = pre ++ post) (e : Nat) : epochNow e pre = e := by
  simp only [Connected.newSessionTicket, Res.bind_eq_ok, orAlert_ok, Res.ok.injEq, Prod.mk.injEq] at h
  obtain ⟨_, _, psk, _, ⟨m, x1⟩, _, rfl, _⟩ := h
  have key : ∀ act ∈ pre, (∀ e k, act ≠ .rekeyOut e k) ∧ ∀ s, act ≠ .resetOut s := by
    intro act hact
    have : act ∈ pre ++ post := List.mem_append_left _ hact
    rw [← hp] at this
    simp only [List.mem_cons, List.not_mem_nil, or_false] at this
    rcases this with rfl | rfl | rfl <;> exact ⟨(fun _ _ h => by cases h), fun _ h => by cases h⟩
  clear hp
  induction pre with
  | nil => rfl
  | cons act pre ih =>
    have h0 := key act List.mem_cons_self
    cases act with
    | rekeyOut e k => exact absurd rfl (h0.1 e k)
    | resetOut s => exact absurd rfl (h0.2 s)
    | _ => exact ih fun b hb => key b (List.mem_cons_of_mem _ hb)

theorem finish_earlyInv {E : Env} {cfg : Config} {c : HConn} {t : Turn} {s : Connected} (h : c.Early cfg) :
    (c.finish E t s).2.Early cfg := by
  have hm : ∀ c' : HConn, c'.Early cfg →
      (if c'.x.earlyData = [] then c' else { c' with readBuffer := c'.x.earlyData, x := { c'.x with earlyData := [] } }).Early cfg := by
    intro c' h'
    split
    · exact h'
    · exact h'.congr rfl rfl rfl
  unfold HConn.finish
  dsimp only
  split
  · exact h.congr rfl rfl rfl
  · split
    · split
      · rename_i acts x' hn
        obtain ⟨pre, post, hp, h2, _⟩ := takeAll_epochNow t.ticketFail 0 { c with complete := true, x := x' } acts
        have hk : (HConn.takeAll t.ticketFail 0 { c with complete := true, x := x' } acts).2.Early cfg := by
          rw [h2]
          exact h.congr rfl rfl (ticket_epoch hn hp _)
        split
        · rename_i a c' heq
          rw [heq] at hk
          obtain ⟨b, hb⟩ := sendAlert_closes c' a
          rw [hb]
          exact HConn.Early.congr hk rfl rfl rfl
        · rename_i c' heq
          rw [heq] at hk
          exact hm _ hk
      · exact hm { c with complete := true } (h.congr rfl rfl rfl)
      · exact h.congr rfl rfl rfl
      · exact h.congr rfl rfl rfl
    · exact hm { c with complete := true } (h.congr rfl rfl rfl)

theorem loop_earlyInv (E : Env) {cfg : Config} (ts : List Turn) : ∀ {c : HConn}, c.Early cfg → (HConn.loop E ts c).2.Early cfg := by
  induction ts with
  | nil =>
    intro c h
    rw [HConn.loop]
    split
    · exact h
    · split
      · exact h
      · exact h
  | cons t ts ih =>
    intro c h
    rw [HConn.loop]
    split
    · exact h
    · rename_i st hst
      have ha : Again (some st) := hst ▸ h.again
      split
      · exact h
      · dsimp only
        split
        · rename_i a _
          have hl : ({ c with x := { c.x with outSeq := c.x.outSeq + t.numbered }, hState := some (st.spoil t.written) } : HConn).Early cfg :=
            ⟨h.cfgEq, again_spoil ha, fun he => by
              have := h.early he
              rw [hst] at this
              exact ⟨earlyOpen_spoil this.1, this.2⟩⟩
          split
          · obtain ⟨b, hb⟩ := sendAlert_closes { c with x := { c.x with outSeq := c.x.outSeq + t.numbered }, hState := some (st.spoil t.written) } a
            rw [hb]
            exact hl.congr rfl rfl rfl
          · exact hl
        · exact h
        · exact h
        · exact h
        · rename_i st' acts x' retry hn
          obtain ⟨n1, n2, n3⟩ := next_epochs ha hn
          obtain ⟨pre, post, hp, h2, h3⟩ := takeAll_epochNow t.fail 0 { c with x := x' } acts
          split
          · rename_i a c' heq
            rw [heq] at h2
            obtain ⟨b, hb⟩ := sendAlert_closes { c' with hState := some (st.spoil t.written) } a
            rw [hb]
            have h2 : c' = { c with x := x', outEpoch := epochNow c.outEpoch pre } := h2
            subst h2
            refine ⟨h.cfgEq, again_spoil ha, fun he => ?_⟩
            have := h.early (epochNow_one hp n1 he)
            rw [hst] at this
            exact ⟨earlyOpen_spoil this.1, this.2⟩
          · rename_i c' heq
            rw [heq] at h2 h3
            have h2 : c' = { c with x := x', outEpoch := epochNow c.outEpoch pre } := h2
            obtain rfl : post = [] := h3.1 rfl
            subst h2
            rw [List.append_nil] at hp
            subst hp
            have hmoved : ({ c with x := x', outEpoch := epochNow c.outEpoch acts, hState := some st' } : HConn).Early cfg := by
              refine ⟨h.cfgEq, n2, fun he => ?_⟩
              have h1 := epochNow_one (List.append_nil acts).symm n1 he
              have h4 := h.early h1
              rw [hst] at h4
              refine ⟨n3 ?_ h4.1, h4.2⟩
              rw [h1] at he
              exact he
            have hr : ∀ r : Res Unit × HConn, r.2.Early cfg →
                (match r with
                  | (.ok _, c') => if c'.nonBlocking then (if retry then alert 253 else .ok (), c') else HConn.loop E ts c'
                  | r => r).2.Early cfg := by
              rintro ⟨r1, r2⟩ h
              cases r1 with
              | ok _ =>
                dsimp only
                split
                · exact h
                · exact ih h
              | _ => exact h
            refine hr _ ?_
            split
            · exact finish_earlyInv hmoved
            · exact hmoved

theorem setup_earlyInv (E : Env) {cfg : Config} {c : HConn} (t : Turn) (h : c.Early cfg) (hs : c.hState = none) :
    (c.setup E t).2.Early cfg := by
  have h0 : c.outEpoch ≠ 1 := fun he => by
    have := (h.early he).1
    rw [hs] at this
    exact this
  unfold HConn.setup
  split
  · exact h
  · split
    · split
      · rename_i w acts x' hn
        obtain ⟨pre, post, hp, h2, h3⟩ := takeAll_epochNow t.fail 0 { c with x := x' } acts
        have hcfg := h.cfgEq
        split
        · rename_i a c' heq
          rw [heq] at h2
          have h2 : c' = { c with x := x', outEpoch := epochNow c.outEpoch pre } := h2
          subst h2
          refine ⟨h.cfgEq, by rw [hs]; trivial, fun he => ?_⟩
          have hpost : post ≠ [] := fun h4 => by
            have := h3.2 h4
            rw [heq] at this
            cases this
          obtain ⟨q, z, rfl⟩ := (List.eq_nil_or_concat post).resolve_left hpost
          have hd : acts.dropLast = pre ++ q := by
            rw [hp, List.concat_eq_append, ← List.append_assoc, List.dropLast_concat]
          refine absurd (epochNow_one hd ?_ he) h0
          obtain ⟨_, _, _, _, _, _, ⟨psk, of, _, _, _, rfl, _⟩ | ⟨_, m, _, _, rfl⟩⟩ := CStart.next_ok hn
          · split <;> exact List.not_mem_nil
          · exact List.not_mem_nil
        · rename_i c' heq
          rw [heq] at h2 h3
          have h2 : c' = { c with x := x', outEpoch := epochNow c.outEpoch pre } := h2
          obtain rfl : post = [] := h3.1 rfl
          subst h2
          rw [List.append_nil] at hp
          subst hp
          refine ⟨h.cfgEq, trivial, fun he => ?_⟩
          obtain ⟨_, _, _, _, _, _, ⟨psk, of, hk, _, rfl, rfl, _⟩ | ⟨_, m, _, rfl, rfl⟩⟩ := CStart.next_ok hn
          · by_cases hc : (c.cfg.allowEarlyData && (none : Option Msg).isNone) = true
            · refine ⟨hc, ?_, psk, ?_⟩
              · rw [← hcfg]; simpa using hc
              · rw [← hcfg]; exact hk
            · rw [if_neg hc] at he
              exact absurd he h0
          · exact absurd he h0
      · exact h.congr rfl rfl rfl
      · exact h
      · exact h
      · exact h
    · exact ⟨h.cfgEq, trivial, fun he => absurd he h0⟩

theorem handshake_earlyInv (E : Env) {cfg : Config} {c : HConn} (t : Turn) (ts : List Turn) (h : c.Early cfg) :
    (c.handshake E t ts).2.Early cfg := by
  unfold HConn.handshake
  split
  · exact h
  · split
    · exact h
    · split
      · rename_i hs
        have hset := setup_earlyInv E t h hs
        split
        · rename_i c' heq
          rw [heq] at hset
          split
          · exact hset
          · exact loop_earlyInv E ts hset
        · exact hset
      · exact loop_earlyInv E ts h

theorem read_earlyInv {cfg : Config} {c : HConn} (live : HConn → Res Bytes × Connected) (n : Nat) (h : c.Early cfg) :
    (c.read live n).2.Early cfg := by
  unfold HConn.read
  split
  · rename_i hc
    have h0 : c.outEpoch ≠ 1 := fun he => by
      have h1 := (h.early he).1
      unfold HConn.connected at hc
      cases hs : c.hState with
      | none => rw [hs] at hc; cases hc
      | some st =>
        rw [hs] at hc h1
        cases st with
        | client s => cases s <;> first | exact h1 | cases hc
        | server s => exact h1
    refine ⟨h.cfgEq, ?_, fun he => absurd he h0⟩
    dsimp only
    split <;> trivial
  · split
    · exact h
    · split
      · exact h
      · split
        · exact h
        · exact h.congr rfl rfl rfl

theorem calls_earlyInv (E : Env) {cfg : Config} (ks : List HCall) : ∀ {c : HConn}, c.Early cfg → (c.calls E ks).Early cfg := by
  induction ks with
  | nil => intro c h; exact h
  | cons k ks ih =>
    intro c h
    refine ih (c := c.call E k) ?_
    cases k with
    | handshake t ts => exact handshake_earlyInv E t ts h
    | read live n => exact read_earlyInv live n h

end Verif.Conn

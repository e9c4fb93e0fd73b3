import Verif.Conn.Handshake
import Verif.Machine.ClientLemmas
import Verif.Machine.ServerLemmas

/-
What calls before the handshake is complete do: the fields that stay, when the handshake is complete, and which execution of a
state machine it has followed.
-/

namespace Verif.Conn

open Verif Verif.Crypto Verif.Messages Verif.Negotiation Verif.Handshake Verif.Machine

theorem takeAll_outEpoch (fail : Nat → Action → Option Nat) (i : Nat) (c : HConn) (as : List Action) :
    ∃ e, (HConn.takeAll fail i c as).2 = { c with outEpoch := e } := by
  induction as generalizing i c with
  | nil => exact ⟨c.outEpoch, rfl⟩
  | cons a as ih =>
    unfold HConn.takeAll
    split
    · exact ⟨c.outEpoch, rfl⟩
    · split
      · obtain ⟨e, he⟩ := ih (i + 1) { c with outEpoch := _ }
        exact ⟨e, he⟩
      · obtain ⟨e, he⟩ := ih (i + 1) { c with outEpoch := _ }
        exact ⟨e, he⟩
      · exact ih (i + 1) c

theorem sendAlert_closes (c : HConn) (a : Nat) : ∃ b, c.sendAlert a = { c with closed := b } := by
  unfold HConn.sendAlert
  split
  · exact ⟨c.closed, rfl⟩
  · exact ⟨true, rfl⟩

theorem spoil_connected (b : Bytes) (s : HState) : (s.spoil b).connected? = s.connected? := by
  cases s with
  | client s => cases s <;> rfl
  | server s => cases s <;> rfl

/-- Whether it is a state of a client. -/
def HState.ofClient : HState → Bool
  | .client _ => true
  | .server _ => false

theorem spoil_ofClient (b : Bytes) (s : HState) : (s.spoil b).ofClient = s.ofClient := by
  cases s with
  | client s => cases s <;> rfl
  | server s => cases s <;> rfl

theorem next_ofClient {E : Env} {x x' : Ctx} {t : Turn} {s s' : HState} {acts : List Action} {r : Bool}
    (h : s.next E x t = .ok (s', acts, x', r)) : s'.ofClient = s.ofClient := by
  cases s with
  | client s =>
    simp only [HState.next, Res.bind_eq_ok, Res.ok.injEq, Prod.mk.injEq] at h
    obtain ⟨-, -, rfl, -⟩ := h
    rfl
  | server s =>
    simp only [HState.next, Res.bind_eq_ok, Res.ok.injEq, Prod.mk.injEq] at h
    obtain ⟨-, -, rfl, -⟩ := h
    rfl

/-- What holds between calls. -/
structure HConn.Inv (c : HConn) : Prop where
  alert : c.handshakeAlert = Alert.closeNotify
  complete : c.complete = c.connected
  role : ∀ s, c.hState = some s → s.ofClient = c.isClient

theorem HConn.Inv.congr {c c' : HConn} (h : c.Inv) (h1 : c'.handshakeAlert = c.handshakeAlert) (h2 : c'.complete = c.complete)
    (h3 : c'.hState = c.hState) (h4 : c'.isClient = c.isClient) : c'.Inv := by
  refine ⟨by rw [h1, h.alert], ?_, fun s hs => by rw [h4]; exact h.role s (h3 ▸ hs)⟩
  rw [h2, h.complete, HConn.connected, HConn.connected, h3]

theorem finish_complete (E : Env) (c : HConn) (t : Turn) (s : Connected) :
    let c' := (c.finish E t s).2
    c'.complete = true ∧ c'.handshakeAlert = c.handshakeAlert ∧ c'.hState = c.hState ∧ c'.isClient = c.isClient ∧
    c'.nonBlocking = c.nonBlocking ∧ c'.sendTickets = c.sendTickets ∧ c'.cfg = c.cfg := by
  unfold HConn.finish
  dsimp only
  split
  · exact ⟨rfl, rfl, rfl, rfl, rfl, rfl, rfl⟩
  · split
    · split
      · rename_i acts x' _
        obtain ⟨e, he⟩ := takeAll_outEpoch t.ticketFail 0 { c with complete := true, x := x' } acts
        split
        · rename_i a c' heq
          rw [heq] at he
          simp only at he
          subst he
          obtain ⟨b, hb⟩ := sendAlert_closes { c with complete := true, x := x', outEpoch := e } a
          dsimp only
          rw [hb]
          exact ⟨rfl, rfl, rfl, rfl, rfl, rfl, rfl⟩
        · rename_i c' heq
          rw [heq] at he
          simp only at he
          subst he
          dsimp only
          split <;> exact ⟨rfl, rfl, rfl, rfl, rfl, rfl, rfl⟩
      · dsimp only
        split <;> exact ⟨rfl, rfl, rfl, rfl, rfl, rfl, rfl⟩
      · exact ⟨rfl, rfl, rfl, rfl, rfl, rfl, rfl⟩
      · exact ⟨rfl, rfl, rfl, rfl, rfl, rfl, rfl⟩
    · split <;> exact ⟨rfl, rfl, rfl, rfl, rfl, rfl, rfl⟩

/-- The ways a turn may end. -/
inductive Turned (E : Env) (c : HConn) (st : HState) (t : Turn) : Res Unit × HConn → Prop where
  /-- It would block, or does something a state machine never does. -/
  | stuck (r : Res Unit) (hr : r ≠ .ok ()) : Turned E c st t (r, c)
  /-- Next fails. -/
  | failed (a : Nat) (closed : Bool) (h : st.next E c.x t = .err (.alert a)) :
      Turned E c st t (Machine.alert a,
        { c with x := { c.x with outSeq := c.x.outSeq + t.numbered }, hState := some (st.spoil t.written), closed := closed })
  /-- An action fails. -/
  | refused (a : Nat) (st' : HState) (acts : List Action) (x' : Ctx) (retry : Bool) (outEpoch : Nat) (closed : Bool)
      (h : st.next E c.x t = .ok (st', acts, x', retry))
      (hf : (HConn.takeAll t.fail 0 { c with x := x' } acts).1 = some a) :
      Turned E c st t (Machine.alert a,
        { c with x := x', outEpoch := outEpoch, hState := some (st.spoil t.written), closed := closed })
  /-- Another state, and it is not connected. -/
  | moved (st' : HState) (acts : List Action) (x' : Ctx) (retry : Bool) (outEpoch : Nat)
      (h : st.next E c.x t = .ok (st', acts, x', retry))
      (hf : (HConn.takeAll t.fail 0 { c with x := x' } acts).1 = none) (hc : st'.connected? = none) :
      Turned E c st t (if retry then Machine.alert 253 else .ok (), { c with x := x', outEpoch := outEpoch, hState := some st' })
  /-- It is connected. -/
  | done (st' : HState) (acts : List Action) (x' : Ctx) (retry : Bool) (outEpoch : Nat) (s : Connected)
      (h : st.next E c.x t = .ok (st', acts, x', retry))
      (hf : (HConn.takeAll t.fail 0 { c with x := x' } acts).1 = none) (hc : st'.connected? = some s) :
      Turned E c st t (({ c with x := x', outEpoch := outEpoch, hState := some st' } : HConn).finish E t s)

/-- The retry flag belongs to a state that is not connected. -/
theorem next_retry {E : Env} {x x' : Ctx} {t : Turn} {s s' : HState} {acts : List Action}
    (h : s.next E x t = .ok (s', acts, x', true)) : s'.connected? = none := by
  cases s with
  | client s =>
    simp only [HState.next, Res.bind_eq_ok, Res.ok.injEq, Prod.mk.injEq] at h
    obtain ⟨_, _, _, _, _, h⟩ := h
    cases h
  | server s =>
    simp only [HState.next, Res.bind_eq_ok, Res.ok.injEq, Prod.mk.injEq] at h
    obtain ⟨⟨s1, a1, x1, r1⟩, h1, rfl, -, -, rfl⟩ := h
    revert h1
    unfold serverNext
    split
    · simp only [Res.bind_eq_ok, Res.ok.injEq, Prod.mk.injEq]
      rintro ⟨_, _, _, _, _, h⟩; cases h
    · intro h; simp at h
    · intro h; simp at h
    · split
      · intro h; cases h
      · split
        · intro h; simp at h
        · intro h; cases h
        · intro h; simp at h
        · intro h; cases h
        · simp only [Res.bind_eq_ok]
          rintro ⟨⟨r, x1⟩, -, h⟩
          cases r with
          | retry hrr =>
            simp only [Res.ok.injEq, Prod.mk.injEq] at h
            obtain ⟨rfl, -⟩ := h
            rfl
          | negotiated n => simp at h
        all_goals first
          | (simp only [Res.bind_eq_ok, Res.ok.injEq, Prod.mk.injEq]; rintro ⟨_, _, _, _, _, h⟩; cases h)
          | (intro h; cases h)

/-- One round of the loop: how the turn ends, and that the loop goes on in blocking mode only. -/
theorem loop_cons (E : Env) (c : HConn) (st : HState) (t : Turn) (ts : List Turn) (hs : c.hState = some st)
    (hc : st.connected? = none) :
    ∃ r, Turned E c st t r ∧
      (HConn.loop E (t :: ts) c = r ∧ (c.nonBlocking = true ∨ r.1 ≠ .ok ()) ∨
        (c.nonBlocking = false ∧ r.2.hState ≠ none ∧ HConn.loop E (t :: ts) c = HConn.loop E ts r.2 ∧
          (∃ st' acts x' retry, st.next E c.x t = .ok (st', acts, x', retry) ∧ r.2.hState = some st' ∧
            (HConn.takeAll t.fail 0 { c with x := x' } acts).1 = none ∧ (st'.connected? = none → r.2.x = x')) ∧
          r.2.nonBlocking = c.nonBlocking ∧
          ((r.1 = .ok () ∧ r.2.complete = true ∧ r.2.connected = true) ∨ (r.2.complete = c.complete ∧ r.2.connected = false)))) := by
  rw [HConn.loop]
  split
  · rename_i hs'; rw [hs] at hs'; cases hs'
  rename_i st1 hs'
  obtain rfl : st = st1 := by rw [hs] at hs'; exact Option.some.inj hs'
  dsimp only
  rw [if_neg (by rw [hc]; decide)]
  split
  · rename_i a h
    split
    · obtain ⟨b, hb⟩ := sendAlert_closes { c with x := { c.x with outSeq := c.x.outSeq + t.numbered }, hState := some (st.spoil t.written) } a
      rw [hb]
      exact ⟨_, .failed a b h, .inl ⟨rfl, .inr (by simp [Machine.alert])⟩⟩
    · exact ⟨_, .failed a c.closed h, .inl ⟨rfl, .inr (by simp [Machine.alert])⟩⟩
  · exact ⟨_, .stuck _ (by simp), .inl ⟨rfl, .inr (by simp)⟩⟩
  · exact ⟨_, .stuck _ (by simp), .inl ⟨rfl, .inr (by simp)⟩⟩
  · exact ⟨_, .stuck _ (by simp), .inl ⟨rfl, .inr (by simp)⟩⟩
  · rename_i st' acts x' retry h
    obtain ⟨e, he⟩ := takeAll_outEpoch t.fail 0 { c with x := x' } acts
    split
    · rename_i a c' heq
      have hf : (HConn.takeAll t.fail 0 { c with x := x' } acts).1 = some a := by rw [heq]
      rw [heq] at he
      simp only at he
      subst he
      obtain ⟨b, hb⟩ := sendAlert_closes { c with x := x', outEpoch := e, hState := some (st.spoil t.written) } a
      rw [hb]
      exact ⟨_, .refused a st' acts x' retry e b h hf, .inl ⟨rfl, .inr (by simp [Machine.alert])⟩⟩
    · rename_i c' heq
      have hf : (HConn.takeAll t.fail 0 { c with x := x' } acts).1 = none := by rw [heq]
      rw [heq] at he
      simp only at he
      subst he
      cases hd : st'.connected? with
      | none =>
        dsimp only
        refine ⟨_, .moved st' acts x' retry e h hf hd, ?_⟩
        by_cases hn : c.nonBlocking = true
        · rw [if_pos hn]; exact .inl ⟨rfl, .inl hn⟩
        · rw [if_neg hn]
          exact .inr ⟨by simpa using hn, by simp, rfl, ⟨st', acts, x', retry, h, rfl, hf, fun _ => rfl⟩, rfl, .inr ⟨rfl, by simp [HConn.connected, hd]⟩⟩
      | some s =>
        dsimp only
        have hr : retry = false := by
          cases hr : retry with
          | false => rfl
          | true => subst hr; have := next_retry h; rw [hd] at this; cases this
        subst hr
        obtain ⟨h1, h2, h3, h4, h5, -⟩ := finish_complete E { c with x := x', outEpoch := e, hState := some st' } t s
        refine ⟨_, .done st' acts x' false e s h hf hd, ?_⟩
        split
        · rename_i c'' heq'
          rw [heq'] at h1 h2 h3 h4 h5 ⊢
          dsimp only at h1 h2 h3 h4 h5 ⊢
          rw [h5]
          by_cases hn : c.nonBlocking = true
          · rw [if_pos hn]; exact .inl ⟨rfl, .inl hn⟩
          · rw [if_neg hn]
            exact .inr ⟨by simpa using hn, by rw [h3]; simp, rfl, ⟨st', acts, x', false, h, h3, hf, fun h => by rw [hd] at h; cases h⟩, rfl, .inl ⟨rfl, h1, by simp [HConn.connected, h3, hd]⟩⟩
        · rename_i hne
          exact .inl ⟨rfl, .inr fun h => hne () _ (Prod.ext h rfl)⟩

theorem Turned.inv {E : Env} {c : HConn} {st : HState} {t : Turn} {r : Res Unit × HConn} (h : Turned E c st t r) (hi : c.Inv)
    (hs : c.hState = some st) (hc : st.connected? = none) : r.2.Inv := by
  have hcc : c.complete = false := by rw [hi.complete]; simp [HConn.connected, hs, hc]
  have role := hi.role st hs
  cases h with
  | stuck r hr => exact hi
  | failed a b h =>
    exact ⟨hi.alert, by simp [HConn.connected, spoil_connected, hc, hcc], fun s h => by
      simp only [Option.some.injEq] at h; subst h; rw [spoil_ofClient]; exact role⟩
  | refused a st' acts x' retry e b h hf =>
    exact ⟨hi.alert, by simp [HConn.connected, spoil_connected, hc, hcc], fun s h => by
      simp only [Option.some.injEq] at h; subst h; rw [spoil_ofClient]; exact role⟩
  | moved st' acts x' retry e h hf hd =>
    exact ⟨hi.alert, by simp [HConn.connected, hd, hcc], fun s h' => by
      simp only [Option.some.injEq] at h'; subst h'; rw [next_ofClient h]; exact role⟩
  | done st' acts x' retry e s h hf hd =>
    obtain ⟨h1, h2, h3, h4, -⟩ := finish_complete E { c with x := x', outEpoch := e, hState := some st' } t s
    refine ⟨by rw [h2]; exact hi.alert, by rw [h1]; simp [HConn.connected, h3, hd], fun s' h' => ?_⟩
    rw [h3] at h'
    simp only [Option.some.injEq] at h'
    subst h'
    rw [next_ofClient h, h4]
    exact role

theorem loop_inv (E : Env) (ts : List Turn) : ∀ {c : HConn}, c.Inv → c.hState ≠ none → (HConn.loop E ts c).2.Inv := by
  induction ts with
  | nil =>
    intro c hi hn
    rw [HConn.loop]
    split
    · exact hi
    · split <;> exact hi
  | cons t ts ih =>
    intro c hi hn
    cases hs : c.hState with
    | none => exact absurd hs hn
    | some st =>
      cases hc : st.connected? with
      | some s => rw [HConn.loop, hs]; dsimp only; rw [if_pos (by rw [hc]; rfl)]; exact hi
      | none =>
        obtain ⟨r, hr, ⟨h, -⟩ | ⟨-, hn', h, -⟩⟩ := loop_cons E c st t ts hs hc
        · rw [h]; exact hr.inv hi hs hc
        · rw [h]; exact ih (hr.inv hi hs hc) hn'

theorem setup_inv (E : Env) {c : HConn} (t : Turn) (hi : c.Inv) (hs : c.hState = none) : (c.setup E t).2.Inv ∧
    ((c.setup E t).1 = .ok () → (c.setup E t).2.hState ≠ none) ∧ (c.setup E t).2.connected = false ∧
    (c.setup E t).2.isClient = c.isClient ∧ (c.setup E t).2.nonBlocking = c.nonBlocking := by
  have hcc : c.complete = false := by rw [hi.complete]; simp [HConn.connected, hs]
  have hcn : c.connected = false := by simp [HConn.connected, hs]
  unfold HConn.setup
  split
  · exact ⟨hi, by simp [Machine.alert], hcn, rfl, rfl⟩
  · split
    · rename_i hcl
      split
      · rename_i w acts x' _
        obtain ⟨e, he⟩ := takeAll_outEpoch t.fail 0 { c with x := x' } acts
        split
        · rename_i a c' heq
          rw [heq] at he
          simp only at he
          subst he
          exact ⟨hi.congr rfl rfl rfl rfl, by simp [Machine.alert], hcn, rfl, rfl⟩
        · rename_i c' heq
          rw [heq] at he
          simp only at he
          subst he
          refine ⟨⟨hi.alert, by simp [HConn.connected, hcc, HState.connected?], fun s h => ?_⟩, by simp, rfl, rfl, rfl⟩
          simp only [Option.some.injEq] at h
          subst h
          exact hcl.symm
      · exact ⟨hi.congr rfl rfl rfl rfl, by simp [Machine.alert], hcn, rfl, rfl⟩
      · exact ⟨hi, by simp, hcn, rfl, rfl⟩
      · exact ⟨hi, by simp, hcn, rfl, rfl⟩
      · exact ⟨hi, by simp, hcn, rfl, rfl⟩
    · rename_i hcl
      refine ⟨⟨hi.alert, by simp [HConn.connected, hcc, HState.connected?], fun s h => ?_⟩, by simp, rfl, rfl, rfl⟩
      simp only [Option.some.injEq] at h
      subst h
      simp only [Bool.not_eq_true] at hcl
      exact hcl.symm

theorem handshake_inv (E : Env) {c : HConn} (t : Turn) (ts : List Turn) (hi : c.Inv) : (c.handshake E t ts).2.Inv := by
  unfold HConn.handshake
  split
  · exact hi
  · split
    · exact hi
    · split
      · rename_i hs
        obtain ⟨h1, h2, -⟩ := setup_inv E t hi hs
        split
        · rename_i heq
          rw [heq] at h1 h2
          split
          · exact h1
          · exact loop_inv E ts h1 (h2 rfl)
        · exact h1
      · rename_i hs
        exact loop_inv E ts hi (by rw [hs]; simp)

theorem read_inv (live : HConn → Res Bytes × Connected) {c : HConn} (n : Nat) (hi : c.Inv) : (c.read live n).2.Inv := by
  unfold HConn.read
  split
  · rename_i hc
    refine ⟨hi.alert, ?_, fun s h => ?_⟩
    · rw [show c.complete = true by rw [hi.complete, hc]]
      simp only [HConn.connected, Option.bind_some]
      split <;> rfl
    · simp only [Option.some.injEq] at h
      subst h
      cases h : c.isClient <;> rfl
  · split
    · exact hi
    · split
      · exact hi
      · split
        · exact hi
        · exact hi.congr rfl rfl rfl rfl

theorem calls_inv (E : Env) (ks : List HCall) {c : HConn} (hi : c.Inv) : (c.calls E ks).Inv := by
  induction ks generalizing c with
  | nil => exact hi
  | cons k ks ih =>
    unfold HConn.calls
    rw [List.foldl_cons]
    refine ih ?_
    cases k with
    | handshake t ts => exact handshake_inv E t ts hi
    | read live n => exact read_inv live n hi

theorem new_inv (cfg : Config) (isClient nb st : Bool) (tl el : UInt32) (d : Bool) : (HConn.new cfg isClient nb st tl el d).Inv :=
  ⟨rfl, rfl, fun s h => by cases h⟩

/-- What calls leave as it is. -/
def HConn.same (c' c : HConn) : Prop :=
  c'.cfg = c.cfg ∧ c'.isClient = c.isClient ∧ c'.nonBlocking = c.nonBlocking ∧ c'.sendTickets = c.sendTickets

theorem Turned.same {E : Env} {c : HConn} {st : HState} {t : Turn} {r : Res Unit × HConn} (h : Turned E c st t r) : r.2.same c := by
  cases h with
  | done st' acts x' retry e s h hf hd =>
    obtain ⟨-, -, -, h4, h5, h6, h7⟩ := finish_complete E { c with x := x', outEpoch := e, hState := some st' } t s
    exact ⟨h7, h4, h5, h6⟩
  | _ => exact ⟨rfl, rfl, rfl, rfl⟩

theorem loop_same (E : Env) (ts : List Turn) : ∀ c : HConn, (HConn.loop E ts c).2.same c := by
  induction ts with
  | nil =>
    intro c
    rw [HConn.loop]
    split
    · exact ⟨rfl, rfl, rfl, rfl⟩
    · split <;> exact ⟨rfl, rfl, rfl, rfl⟩
  | cons t ts ih =>
    intro c
    cases hs : c.hState with
    | none => rw [HConn.loop, hs]; exact ⟨rfl, rfl, rfl, rfl⟩
    | some st =>
      cases hc : st.connected? with
      | some s => rw [HConn.loop, hs]; dsimp only; rw [if_pos (by rw [hc]; rfl)]; exact ⟨rfl, rfl, rfl, rfl⟩
      | none =>
        obtain ⟨r, hr, ⟨h, -⟩ | ⟨-, -, h, -⟩⟩ := loop_cons E c st t ts hs hc
        · rw [h]; exact hr.same
        · rw [h]
          obtain ⟨h1, h2, h3, h4⟩ := ih r.2
          obtain ⟨g1, g2, g3, g4⟩ := hr.same
          exact ⟨h1.trans g1, h2.trans g2, h3.trans g3, h4.trans g4⟩

theorem setup_same (E : Env) (c : HConn) (t : Turn) : (c.setup E t).2.same c := by
  unfold HConn.setup
  split
  · exact ⟨rfl, rfl, rfl, rfl⟩
  · split
    · split
      · rename_i w acts x' _
        obtain ⟨e, he⟩ := takeAll_outEpoch t.fail 0 { c with x := x' } acts
        split
        · rename_i a c' heq
          rw [heq] at he
          simp only at he
          subst he
          exact ⟨rfl, rfl, rfl, rfl⟩
        · rename_i c' heq
          rw [heq] at he
          simp only at he
          subst he
          exact ⟨rfl, rfl, rfl, rfl⟩
      all_goals exact ⟨rfl, rfl, rfl, rfl⟩
    · exact ⟨rfl, rfl, rfl, rfl⟩

theorem handshake_same (E : Env) (c : HConn) (t : Turn) (ts : List Turn) : (c.handshake E t ts).2.same c := by
  unfold HConn.handshake
  split
  · exact ⟨rfl, rfl, rfl, rfl⟩
  · split
    · exact ⟨rfl, rfl, rfl, rfl⟩
    · split
      · have hs := setup_same E c t
        split
        · rename_i heq
          rw [heq] at hs
          split
          · exact hs
          · rename_i c' _
            obtain ⟨h1, h2, h3, h4⟩ := loop_same E ts c'
            obtain ⟨g1, g2, g3, g4⟩ := hs
            exact ⟨h1.trans g1, h2.trans g2, h3.trans g3, h4.trans g4⟩
        · exact hs
      · exact loop_same E ts c

theorem calls_same (E : Env) (ks : List HCall) (c : HConn) : (c.calls E ks).same c := by
  induction ks generalizing c with
  | nil => exact ⟨rfl, rfl, rfl, rfl⟩
  | cons k ks ih =>
    unfold HConn.calls
    rw [List.foldl_cons]
    obtain ⟨h1, h2, h3, h4⟩ := ih (c.call E k)
    have : (c.call E k).same c := by
      cases k with
      | handshake t ts => exact handshake_same E c t ts
      | read live n =>
        unfold HConn.call HConn.read
        dsimp only
        repeat' split
        all_goals exact ⟨rfl, rfl, rfl, rfl⟩
    obtain ⟨g1, g2, g3, g4⟩ := this
    exact ⟨h1.trans g1, h2.trans g2, h3.trans g3, h4.trans g4⟩

/-! ### When nothing can be sent -/

/-- Messages cannot be written: with TLS queueing one writes it, with DTLS sending the queue does (handshake-layer.go:403-420). -/
def Turn.Mute (t : Turn) : Prop := (∀ i m, t.fail i (.queue m) ≠ none) ∨ ∀ i, t.fail i .sendQueued ≠ none

theorem takeAll_refused (fail : Nat → Action → Option Nat) (a : Action) (h : ∀ i, fail i a ≠ none) (as : List Action) :
    ∀ (i : Nat) (c : HConn), a ∈ as → (HConn.takeAll fail i c as).1 ≠ none := by
  induction as with
  | nil => intro i c ha; cases ha
  | cons b bs ih =>
    intro i c ha
    unfold HConn.takeAll
    split
    · simp
    · rename_i hb
      have hm : a ∈ bs := by
        rcases List.mem_cons.mp ha with rfl | h'
        · exact absurd hb (h i)
        · exact h'
      split
      · exact ih (i + 1) _ hm
      · exact ih (i + 1) _ hm
      · exact ih (i + 1) _ hm

theorem Turn.Mute.refused {t : Turn} (h : t.Mute) {as : List Action} (m : Msg) (h1 : .queue m ∈ as) (h2 : .sendQueued ∈ as) (c : HConn) :
    (HConn.takeAll t.fail 0 c as).1 ≠ none := by
  rcases h with h | h
  · exact takeAll_refused t.fail (.queue m) (fun i => h i m) as 0 c h1
  · exact takeAll_refused t.fail .sendQueued h as 0 c h2

/-- Something has still to be sent before the handshake is complete. -/
def HState.pending : HState → Bool
  | .client (.connected _) => false
  | .client _ => true
  | .server (.start _) => true
  | .server (.negotiated _) => true
  | .server _ => false

theorem pending_connected {s : HState} (h : s.pending = true) : s.connected? = none := by
  cases s with
  | client s => cases s <;> first | rfl | cases h
  | server s => cases s <;> first | rfl | cases h

theorem spoil_pending (b : Bytes) (s : HState) : (s.spoil b).pending = s.pending := by
  cases s with
  | client s => cases s <;> rfl
  | server s => cases s <;> rfl

theorem next_pending {E : Env} {x x' : Ctx} {t : Turn} {s s' : HState} {acts : List Action} {r : Bool} (hp : s.pending = true)
    (h : s.next E x t = .ok (s', acts, x', r)) : s'.pending = true ∨ (∃ m, .queue m ∈ acts) ∧ .sendQueued ∈ acts := by
  cases s with
  | client s =>
    simp only [HState.next, Res.bind_eq_ok, Res.ok.injEq, Prod.mk.injEq] at h
    obtain ⟨⟨s1, a1, x1⟩, h1, rfl, rfl, rfl, -⟩ := h
    revert h1
    unfold clientNext
    split
    · simp only [Res.bind_eq_ok, Res.ok.injEq, Prod.mk.injEq]
      rintro ⟨_, _, rfl, _⟩
      exact .inl rfl
    · cases hp
    · split
      · intro h; cases h
      · split
        · intro h
          obtain ⟨_, _, ⟨_, _, _, rfl, _⟩ | ⟨_, _, _, rfl⟩⟩ := CWaitSH.next_ok h <;> exact .inl rfl
        · intro h
          cases s1 with
          | connected s => have := CWaitEE.next_ok h; simp at this
          | _ => exact .inl rfl
        · intro h
          cases s1 with
          | connected s => have := CWaitEE.nextCertCR_ok h; simp at this
          | _ => exact .inl rfl
        · intro h
          cases s1 with
          | connected s => have := CWaitCert.next_ok h; simp at this
          | _ => exact .inl rfl
        · intro h
          cases s1 with
          | connected s => have := CWaitCV.next_ok h; simp at this
          | _ => exact .inl rfl
        · intro h
          obtain ⟨-, _, _, _, _, _, acts1, _, _, acts2, _, _, _, finm, _, h'⟩ := CWaitFinished.next_ok h
          refine .inr ?_
          have := h'.2.2.2.2.2.2.2.2.2.2.2.2
          subst this
          exact ⟨⟨finm, by simp⟩, by simp⟩
        · exfalso
          rename_i n1 n2 _ _ _ _ h1 h2 h3 h4 h5 h6
          cases s with
          | start s => exact n1 s rfl
          | connected s => exact n2 s rfl
          | waitSH s => exact h1 s rfl
          | waitEE s => exact h2 s rfl
          | waitCertCR s => exact h3 s rfl
          | waitCert s => exact h4 s rfl
          | waitCV s => exact h5 s rfl
          | waitFinished s => exact h6 s rfl
      · intro h; simp [alert] at h
  | server s =>
    simp only [HState.next, Res.bind_eq_ok, Res.ok.injEq, Prod.mk.injEq] at h
    obtain ⟨⟨s1, a1, x1, r1⟩, h1, rfl, rfl, rfl, -⟩ := h
    cases s with
    | start s =>
      left
      revert h1
      unfold serverNext
      dsimp only
      split
      · intro h; cases h
      · rename_i e _
        cases e with
        | msg m =>
          dsimp only
          simp only [Res.bind_eq_ok]
          rintro ⟨⟨r, x1⟩, -, h⟩
          cases r with
          | retry hrr =>
            simp only [Res.ok.injEq, Prod.mk.injEq] at h
            obtain ⟨rfl, -⟩ := h
            rfl
          | negotiated n =>
            simp only [Res.ok.injEq, Prod.mk.injEq] at h
            obtain ⟨rfl, -⟩ := h
            rfl
        | appData d => intro h; simp [alert] at h
        | bad => intro h; simp [alert] at h
    | negotiated n =>
      right
      simp only [serverNext, Res.bind_eq_ok, Res.ok.injEq, Prod.mk.injEq] at h1
      obtain ⟨⟨s2, a2, x2⟩, h2, rfl, rfl, rfl, rfl⟩ := h1
      obtain ⟨f, -, ⟨-, _, -, -, rfl⟩ | ⟨-, -, -, rfl⟩ | ⟨-, -, -, rfl⟩⟩ := SNegotiated.next_ok h2 <;>
        exact ⟨⟨f.sh, by simp [NegFacts.sent]⟩, by simp [NegFacts.sent]⟩
    | _ => cases hp

/-- The connection has still to send something before its handshake is complete. -/
def HConn.pending (c : HConn) : Prop := c.hState = none ∨ ∃ st, c.hState = some st ∧ st.pending = true

theorem HConn.pending.not_connected {c : HConn} (h : c.pending) : c.connected = false := by
  rcases h with h | ⟨st, h, hp⟩
  · simp [HConn.connected, h]
  · simp [HConn.connected, h, pending_connected hp]

theorem Turned.pending {E : Env} {c : HConn} {st : HState} {t : Turn} {r : Res Unit × HConn} (h : Turned E c st t r)
    (hs : c.hState = some st) (hp : st.pending = true) (hm : t.Mute) : ∃ st', r.2.hState = some st' ∧ st'.pending = true := by
  cases h with
  | stuck r hr => exact ⟨st, hs, hp⟩
  | failed a b h => exact ⟨_, rfl, by rw [spoil_pending]; exact hp⟩
  | refused a st' acts x' retry e b h hf => exact ⟨_, rfl, by rw [spoil_pending]; exact hp⟩
  | moved st' acts x' retry e h hf hd =>
    rcases next_pending hp h with h' | ⟨⟨m, h1⟩, h2⟩
    · exact ⟨_, rfl, h'⟩
    · exact absurd hf (hm.refused m h1 h2 _)
  | done st' acts x' retry e s h hf hd =>
    rcases next_pending hp h with h' | ⟨⟨m, h1⟩, h2⟩
    · rw [pending_connected h'] at hd; cases hd
    · exact absurd hf (hm.refused m h1 h2 _)

theorem loop_pending (E : Env) (ts : List Turn) (hm : ∀ t ∈ ts, t.Mute) : ∀ {c : HConn} {st : HState}, c.hState = some st →
    st.pending = true → (HConn.loop E ts c).2.pending := by
  induction ts with
  | nil =>
    intro c st hs hp
    rw [HConn.loop]
    split
    · exact .inr ⟨st, hs, hp⟩
    · split <;> exact .inr ⟨st, hs, hp⟩
  | cons t ts ih =>
    intro c st hs hp
    obtain ⟨r, hr, ⟨h, -⟩ | ⟨-, -, h, -⟩⟩ := loop_cons E c st t ts hs (pending_connected hp)
    · rw [h]; exact .inr (hr.pending hs hp (hm t (by simp)))
    · rw [h]
      obtain ⟨st', h1, h2⟩ := hr.pending hs hp (hm t (by simp))
      exact ih (fun t ht => hm t (by simp [ht])) h1 h2

theorem setup_pending (E : Env) (c : HConn) (t : Turn) (hs : c.hState = none) : (c.setup E t).2.pending := by
  unfold HConn.setup
  split
  · exact .inl hs
  · split
    · split
      · rename_i w acts x' _
        obtain ⟨e, he⟩ := takeAll_outEpoch t.fail 0 { c with x := x' } acts
        split
        · rename_i a c' heq
          rw [heq] at he
          simp only at he
          subst he
          exact .inl hs
        · exact .inr ⟨_, rfl, rfl⟩
      · exact .inl hs
      · exact .inl hs
      · exact .inl hs
      · exact .inl hs
    · exact .inr ⟨_, rfl, rfl⟩

theorem handshake_pending (E : Env) (c : HConn) (t : Turn) (ts : List Turn) (hm : ∀ t ∈ ts, t.Mute) (hp : c.pending) :
    (c.handshake E t ts).2.pending := by
  unfold HConn.handshake
  split
  · exact hp
  · split
    · exact hp
    · rcases hp with hs | ⟨st, hs, hst⟩
      · have h1 := setup_pending E c t hs
        rw [hs]
        dsimp only
        split
        · rename_i c' heq
          have hok : (c.setup E t).2.hState ≠ none := by
            revert heq
            unfold HConn.setup
            split
            · intro h; simp [Machine.alert] at h
            · split
              · split
                · split
                  · intro h; simp [Machine.alert] at h
                  · intro _; simp
                all_goals (intro h; simp [Machine.alert] at h)
              · intro _; simp
          rw [heq] at h1 hok
          split
          · exact h1
          · rcases h1 with h1 | ⟨st, h1, h2⟩
            · exact absurd h1 hok
            · exact loop_pending E ts hm h1 h2
        · exact h1
      · rw [hs]
        exact loop_pending E ts hm hs hst

/-- No call of Handshake among them can write messages. -/
def HCall.Mute : HCall → Prop
  | .handshake _ ts => ∀ t ∈ ts, t.Mute
  | .read _ _ => True

theorem calls_pending (E : Env) (ks : List HCall) (hm : ∀ k ∈ ks, k.Mute) : ∀ c : HConn, c.pending → (c.calls E ks).pending := by
  induction ks with
  | nil => intro c hp; exact hp
  | cons k ks ih =>
    intro c hp
    unfold HConn.calls
    rw [List.foldl_cons]
    refine ih (fun k hk => hm k (by simp [hk])) _ ?_
    cases k with
    | handshake t ts => exact handshake_pending E c t ts (hm _ (List.mem_cons_self ..)) hp
    | read live n =>
      unfold HConn.call HConn.read
      dsimp only
      rw [if_neg (by rw [hp.not_connected]; decide)]
      repeat' split
      all_goals exact hp

end Verif.Conn

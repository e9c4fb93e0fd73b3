import Verif.Conn.HandshakeLemmas
import Verif.Machine.EarlyData
import Verif.Machine.Toy
import Verif.Props.Failed

/-
C67: what the application of a server reads of the early data.
-/

namespace Verif.Spec

open Verif Verif.Machine Verif.Conn

/-- The early data that a Handshake call on this connection gets: a record of application data that is there while the
server waits for EndOfEarlyData. -/
def arriving (c : HConn) (t : Turn) : Bytes :=
  match c.hState, t.event with
  | some (.server (.waitEOED _)), some (.appData d) => d
  | _, _ => []

/-- The bytes a call of Read returned. -/
def bytesOf : Res Bytes → Bytes
  | .ok b => b
  | _ => []

/-- Calls of Handshake, each of which handles one record or message, and of Read, until the handshake is complete: the
connection they lead to, the early data that arrived, and what Read returned. The calls may fail, except for the last one
if it completes the handshake. -/
inductive Reading (E : Env) (c0 : HConn) : HConn → Bytes → Bytes → Prop where
  | start : Reading E c0 c0 [] []
  | handshake (c : HConn) (early got : Bytes) (t0 t : Turn) : Reading E c0 c early got → c.connected = false →
      ((c.handshake E t0 [t]).2.connected = true → (c.handshake E t0 [t]).1 = .ok ()) →
      Reading E c0 (c.handshake E t0 [t]).2 (early ++ arriving c t) got
  | read (c : HConn) (early got : Bytes) (live : HConn → Res Bytes × Connected) (n : Nat) : Reading E c0 c early got →
      c.connected = false →
      Reading E c0 (c.read live n).2 early (got ++ bytesOf (c.read live n).1)

end Verif.Spec

namespace Verif.Conn

open Verif Verif.Crypto Verif.Messages Verif.Negotiation Verif.Handshake Verif.Machine Verif.Spec

theorem serverNext_early {E : Env} {x x' : Ctx} {t : Turn} {s s' : SState} {acts : List Action} {r : Bool}
    (h : serverNext E x t s = .ok (s', acts, x', r)) (hn : ∀ w d, s = .waitEOED w → t.event ≠ some (.appData d)) :
    x'.earlyData = x.earlyData := by
  unfold serverNext at h
  split at h
  · simp only [Res.bind_eq_ok, Res.ok.injEq, Prod.mk.injEq] at h
    obtain ⟨⟨s1, a1, x1⟩, h1, rfl, rfl, rfl, rfl⟩ := h
    obtain ⟨f, rfl, _⟩ := SNegotiated.next_ok h1
    exact f.early
  · simp only [Res.ok.injEq, Prod.mk.injEq] at h; rw [← h.2.2.1]
  · simp only [Res.ok.injEq, Prod.mk.injEq] at h; rw [← h.2.2.1]
  · split at h
    · cases h
    · rename_i e he
      split at h
      · simp only [Res.ok.injEq, Prod.mk.injEq] at h; rw [← h.2.2.1]
      · cases h
      · exact absurd he (hn _ _ rfl)
      · cases h
      · simp only [Res.bind_eq_ok] at h
        obtain ⟨⟨q, x1⟩, h1, h⟩ := h
        have := SStart.next_early h1
        cases q <;> simp only [Res.ok.injEq, Prod.mk.injEq] at h <;> rw [← h.2.2.1, this]
      · simp only [Res.bind_eq_ok, Res.ok.injEq, Prod.mk.injEq] at h
        obtain ⟨⟨s1, a1, x1⟩, h1, rfl, rfl, rfl, rfl⟩ := h
        rw [(SWait.nextEOED_ok h1).2.2.1]
      · simp only [Res.bind_eq_ok, Res.ok.injEq, Prod.mk.injEq] at h
        obtain ⟨⟨s1, a1, x1⟩, h1, rfl, rfl, rfl, rfl⟩ := h
        rw [(SWait.nextCert_ok h1).2.2.1]
      · simp only [Res.bind_eq_ok, Res.ok.injEq, Prod.mk.injEq] at h
        obtain ⟨⟨s1, a1, x1⟩, h1, rfl, rfl, rfl, rfl⟩ := h
        rw [(SWaitCV.next_ok h1).2.2.1]
      · simp only [Res.bind_eq_ok, Res.ok.injEq, Prod.mk.injEq] at h
        obtain ⟨⟨s1, a1, x1⟩, h1, rfl, rfl, rfl, rfl⟩ := h
        rw [(SWaitFinished.next_ok h1).2.1]
      · cases h

theorem newSessionTicket_early {E : Env} {x x' : Ctx} {s : Connected} {now : Int} {l e a : UInt32} {n t : Bytes} {acts : List Action}
    (h : s.newSessionTicket E x now l e a n t = .ok (acts, x')) : x'.earlyData = x.earlyData := by
  simp only [Connected.newSessionTicket, Res.bind_eq_ok, Res.ok.injEq, Prod.mk.injEq, orAlert_ok] at h
  obtain ⟨_, _, _, _, ⟨m, x1⟩, h1, -, rfl⟩ := h
  exact mkMsg_early h1

theorem loop_nil (E : Env) (c : HConn) : (HConn.loop E [] c).2 = c ∧ (c.connected = true → (HConn.loop E [] c).1 = .ok ()) := by
  rw [HConn.loop]
  unfold HConn.connected
  split
  · rename_i h; rw [h]; exact ⟨rfl, fun h => by cases h⟩
  · rename_i st h
    rw [h]
    split
    · exact ⟨rfl, fun _ => rfl⟩
    · rename_i h1
      exact ⟨rfl, fun h2 => absurd h2 h1⟩

/-- The early data not yet read. -/
def HConn.unread (c : HConn) : Bytes := if c.connected then c.readBuffer else c.x.earlyData

theorem finish_early {E : Env} {c : HConn} {t : Turn} {s : Connected} (hb : c.readBuffer = []) (hc : c.isClient = false)
    (h : (c.finish E t s).1 = .ok ()) : (c.finish E t s).2.readBuffer = c.x.earlyData := by
  have hm : ∀ c' : HConn, c'.readBuffer = [] →
      (if c'.x.earlyData = [] then c' else { c' with readBuffer := c'.x.earlyData, x := { c'.x with earlyData := [] } }).readBuffer =
        c'.x.earlyData := by
    intro c' hb'
    split
    · rename_i h0; rw [hb', h0]
    · rfl
  revert h
  unfold HConn.finish
  dsimp only
  rw [if_neg (by simp [hc])]
  split
  · split
    · rename_i acts x' hn
      obtain ⟨e, he⟩ := takeAll_outEpoch t.ticketFail 0 { c with complete := true, x := x' } acts
      split
      · intro h; simp [Machine.alert] at h
      · rename_i c' heq
        rw [heq] at he
        simp only at he
        subst he
        intro _
        rw [← newSessionTicket_early hn]
        exact hm { c with complete := true, x := x', outEpoch := e } hb
    · intro _; exact hm { c with complete := true } hb
    · intro h; cases h
    · intro h; cases h
  · intro _; exact hm { c with complete := true } hb

/-- A turn of the loop. -/
theorem loop_early (E : Env) {c : HConn} {s : SState} (t : Turn) (hs : c.hState = some (.server s)) (hc : c.connected = false)
    (hb : c.readBuffer = []) (hr : c.isClient = false)
    (hok : (HConn.loop E [t] c).2.connected = true → (HConn.loop E [t] c).1 = .ok ()) :
    (HConn.loop E [t] c).2.unread = c.x.earlyData ++ arriving c t ∧
    ((HConn.loop E [t] c).2.connected = false → (HConn.loop E [t] c).2.readBuffer = []) := by
  have hcs : (HState.server s).connected? = none := by
    unfold HConn.connected at hc; rw [hs] at hc
    simpa using hc
  by_cases hw : ∃ w d, s = .waitEOED w ∧ t.event = some (.appData d)
  · obtain ⟨w, d, rfl, hd⟩ := hw
    have h1 : (HConn.loop E [t] c).2 = { c with x := { c.x with earlyData := c.x.earlyData ++ d } } := by
      have h2 : (HState.server (.waitEOED w)).next E c.x t =
          .ok (.server (.waitEOED w), [], { c.x with earlyData := c.x.earlyData ++ d }, false) := by
        simp [HState.next, serverNext, hd]
      rw [HConn.loop]
      simp only [hs, h2, HConn.takeAll, HState.connected?, Option.isSome_none, Bool.false_eq_true, if_false]
      split
      · rfl
      · rw [(loop_nil E _).1]
    rw [h1]
    have h2 : arriving c t = d := by unfold arriving; rw [hs, hd]
    refine ⟨?_, fun _ => hb⟩
    unfold HConn.unread
    rw [show HConn.connected { c with x := { c.x with earlyData := c.x.earlyData ++ d } } = false from hc, h2]
    rfl
  · have h0 : arriving c t = [] := by
      unfold arriving
      rw [hs]
      split
      · rename_i w d h1 h2
        cases h1
        exact absurd ⟨w, d, rfl, h2⟩ hw
      · rfl
    have hnext : ∀ st' acts x' retry, (HState.server s).next E c.x t = .ok (st', acts, x', retry) → x'.earlyData = c.x.earlyData := by
      intro st' acts x' retry h
      simp only [HState.next, Res.bind_eq_ok, Res.ok.injEq, Prod.mk.injEq] at h
      obtain ⟨⟨s1, a1, x1, r1⟩, h1, rfl, rfl, rfl, rfl⟩ := h
      exact serverNext_early h1 fun w d h2 h3 => hw ⟨w, d, h2, h3⟩
    rw [h0, List.append_nil]
    obtain ⟨r, hT, h⟩ := loop_cons E c _ t [] hs hcs
    have h1 : (HConn.loop E [t] c).2 = r.2 ∧ (r.2.connected = true → (HConn.loop E [t] c).1 = r.1) := by
      rcases h with ⟨h, -⟩ | ⟨-, hne, h, -, -, ⟨h1, -, -⟩ | ⟨-, h1⟩⟩
      · rw [h]; exact ⟨rfl, fun _ => rfl⟩
      · rw [h, (loop_nil E _).1]
        exact ⟨rfl, fun h2 => by rw [(loop_nil E _).2 h2, h1]⟩
      · rw [h, (loop_nil E _).1]
        exact ⟨rfl, fun h2 => by rw [h1] at h2; cases h2⟩
    rw [h1.1] at hok ⊢
    have hok' : r.2.connected = true → r.1 = .ok () := fun h2 => by rw [← h1.2 h2]; exact hok h2
    clear h1 hok h
    have open_ : ∀ c' : HConn, c'.connected = false → c'.x.earlyData = c.x.earlyData → c'.readBuffer = [] →
        c'.unread = c.x.earlyData ∧ (c'.connected = false → c'.readBuffer = []) := by
      intro c' h1 h2 h3
      refine ⟨?_, fun _ => h3⟩
      unfold HConn.unread
      rw [h1]
      exact h2
    cases hT with
    | stuck r hr => exact open_ c hc rfl hb
    | failed a b h =>
      refine open_ _ ?_ rfl hb
      simp [HConn.connected, spoil_connected, hcs]
    | refused a st' acts x' retry e b h hf =>
      refine open_ _ ?_ (hnext _ _ _ _ h) hb
      simp [HConn.connected, spoil_connected, hcs]
    | moved st' acts x' retry e h hf hd =>
      refine open_ _ ?_ (hnext _ _ _ _ h) hb
      simp [HConn.connected, hd]
    | done st' acts x' retry e s' h hf hd =>
      obtain ⟨-, -, h3, -⟩ := finish_complete E { c with x := x', outEpoch := e, hState := some st' } t s'
      have hcon : (({ c with x := x', outEpoch := e, hState := some st' } : HConn).finish E t s').2.connected = true := by
        unfold HConn.connected
        rw [h3]
        simp [hd]
      refine ⟨?_, fun h => by rw [hcon] at h; cases h⟩
      unfold HConn.unread
      rw [hcon, if_pos rfl, finish_early (c := { c with x := x', outEpoch := e, hState := some st' }) hb hr (hok' hcon)]
      exact hnext _ _ _ _ h

/-- Handshake on a server sets up if needed, then enters the loop. -/
theorem handshake_server (E : Env) {c : HConn} (t0 : Turn) (ts : List Turn) (hi : c.Inv) (hc : c.connected = false)
    (hr : c.isClient = false) :
    (c.hState = none ∧ c.handshake E t0 ts = (Machine.alert Alert.internalError, c) ∧
      ∀ ts', c.handshake E t0 ts' = (Machine.alert Alert.internalError, c)) ∨
    (∃ s, (c.hState = some (.server s) ∨ c.hState = none ∧ s = .start ⟨c.cfg⟩) ∧
      ∀ ts', c.handshake E t0 ts' = HConn.loop E ts' { c with hState := some (.server s) }) := by
  have hstart : ∀ ts', c.handshake E t0 ts' = match c.hState with
      | none =>
        match c.setup E t0 with
        | (.ok _, c') => if c'.isClient ∧ c'.nonBlocking then (.ok (), c') else c'.loop E ts'
        | r => r
      | some _ => c.loop E ts' := by
    intro ts'
    unfold HConn.handshake
    rw [if_neg (by simp [hi.alert]), if_neg (by rw [hi.complete, hc]; simp)]
    cases c.hState <;> rfl
  cases hs : c.hState with
  | none =>
    simp only [hs] at hstart
    cases hin : t0.initOk with
    | false =>
      have : c.setup E t0 = (Machine.alert Alert.internalError, c) := by simp [HConn.setup, hin]
      rw [this] at hstart
      exact .inl ⟨rfl, hstart ts, hstart⟩
    | true =>
      have : c.setup E t0 = (.ok (), { c with hState := some (.server (.start ⟨c.cfg⟩)) }) := by simp [HConn.setup, hin, hr]
      rw [this] at hstart
      refine .inr ⟨_, .inr ⟨rfl, rfl⟩, fun ts' => ?_⟩
      rw [hstart]
      simp [hr]
  | some st =>
    simp only [hs] at hstart
    have := hi.role st hs
    cases st with
    | client s => rw [hr] at this; cases this
    | server s =>
      refine .inr ⟨s, .inl rfl, fun ts' => ?_⟩
      rw [hstart, ← hs]

theorem handshake_early (E : Env) {c : HConn} (t0 t : Turn) (hi : c.Inv) (hc : c.connected = false)
    (hb : c.readBuffer = []) (hr : c.isClient = false)
    (hok : (c.handshake E t0 [t]).2.connected = true → (c.handshake E t0 [t]).1 = .ok ()) :
    (c.handshake E t0 [t]).2.unread = c.x.earlyData ++ arriving c t ∧
    ((c.handshake E t0 [t]).2.connected = false → (c.handshake E t0 [t]).2.readBuffer = []) := by
  rcases handshake_server E t0 [t] hi hc hr with ⟨hs, h, -⟩ | ⟨s, hs, h⟩
  · rw [h]
    have h0 : arriving c t = [] := by unfold arriving; rw [hs]
    rw [h0, List.append_nil]
    exact ⟨by unfold HConn.unread; rw [hc]; rfl, fun _ => hb⟩
  · rw [h] at hok ⊢
    have hc' : HConn.connected { c with hState := some (.server s) } = false := by
      rcases hs with hs | ⟨-, rfl⟩
      · rw [← hc]; unfold HConn.connected; rw [hs]
      · rfl
    have ha : arriving { c with hState := some (.server s) } t = arriving c t := by
      rcases hs with hs | ⟨hs, rfl⟩
      · unfold arriving; rw [hs]
      · unfold arriving; rw [hs]
    rw [← ha]
    exact loop_early E (c := { c with hState := some (.server s) }) t rfl hc' hb hr hok

end Verif.Conn

namespace Verif.Conn

open Verif Verif.Crypto Verif.Messages Verif.Negotiation Verif.Handshake Verif.Machine Verif.Spec

/-- Read before the handshake is complete. -/
theorem read_open (live : HConn → Res Bytes × Connected) {c : HConn} (n : Nat) (hc : c.connected = false) :
    (∃ e, c.read live n = (.err e, c)) ∨
    c.read live n = (.ok (c.x.earlyData.take n), { c with x := { c.x with earlyData := c.x.earlyData.drop n } }) := by
  unfold HConn.read
  rw [if_neg (by simp [hc])]
  split
  · exact .inl ⟨_, rfl⟩
  · split
    · exact .inl ⟨_, rfl⟩
    · split
      · exact .inl ⟨_, rfl⟩
      · exact .inr rfl

theorem reading_inv {E : Env} {c0 c : HConn} {early got : Bytes} (h : Reading E c0 c early got) (hi : c0.Inv) : c.Inv ∧ c.isClient = c0.isClient := by
  induction h with
  | start => exact ⟨hi, rfl⟩
  | handshake c early got t0 t _ _ _ ih => exact ⟨handshake_inv E t0 [t] ih.1, (handshake_same E c t0 [t]).2.1.trans ih.2⟩
  | read c early got live n _ hc ih =>
    refine ⟨read_inv live n ih.1, ?_⟩
    rw [← ih.2]
    rcases read_open live n hc with ⟨e, h⟩ | h <;> rw [h]

/-- What the application of a server has read of the early data, followed by what it can still read, is the early data that
arrived: in order, and each byte once. Before the handshake is complete, what is left is in the buffer for early data, from
which Read takes it; when the handshake completes, it is what the next Read on the connection returns first. Missing from
C67: the case that the handshake completes but sending the ticket fails. -/
theorem C67_delivered_partial (E : Env) (cfg : Config) (nb st : Bool) (tl el : UInt32) (d : Bool) (c : HConn) (early got : Bytes)
    (h : Reading E (HConn.new cfg false nb st tl el d) c early got) :
    (c.connected = false → got ++ c.x.earlyData = early) ∧ (c.connected = true → got ++ c.readBuffer = early) := by
  have key : got ++ c.unread = early ∧ (c.connected = false → c.readBuffer = []) := by
    induction h with
    | start => exact ⟨rfl, fun _ => rfl⟩
    | handshake c early got t0 t h hc hok ih =>
      obtain ⟨hi, hr⟩ := reading_inv h (new_inv _ _ _ _ _ _ _)
      obtain ⟨h1, h2⟩ := handshake_early E t0 t hi hc (ih.2 hc) hr hok
      refine ⟨?_, h2⟩
      rw [h1, ← List.append_assoc, ← ih.1]
      unfold HConn.unread
      rw [hc]
      rfl
    | read c early got live n h hc ih =>
      obtain ⟨ih1, ih2⟩ := ih
      rcases read_open live n hc with ⟨e, h⟩ | h
      · rw [h]
        exact ⟨by simpa [bytesOf] using ih1, ih2⟩
      · rw [h]
        refine ⟨?_, fun _ => ih2 hc⟩
        unfold HConn.unread at ih1 ⊢
        rw [hc] at ih1
        rw [show HConn.connected { c with x := { c.x with earlyData := c.x.earlyData.drop n } } = false from hc]
        rw [if_neg (by decide), bytesOf, List.append_assoc, List.take_append_drop]
        exact ih1
  refine ⟨fun hc => ?_, fun hc => ?_⟩
  · have := key.1; unfold HConn.unread at this; rw [hc] at this; exact this
  · have := key.1; unfold HConn.unread at this; rw [hc] at this; exact this

/-- A call that handles several records and messages is as good as calls that handle one each. -/
theorem loop_split (E : Env) {c : HConn} {st : HState} (t : Turn) (ts : List Turn) (hs : c.hState = some st)
    (hc : st.connected? = none) :
    HConn.loop E (t :: ts) c = HConn.loop E [t] c ∨
    ((HConn.loop E [t] c).2.connected = false ∧ (HConn.loop E [t] c).2.hState ≠ none ∧
      HConn.loop E (t :: ts) c = HConn.loop E ts (HConn.loop E [t] c).2) := by
  rw [HConn.loop, HConn.loop]
  simp only [hs, hc, Option.isSome_none, Bool.false_eq_true, if_false]
  split
  · exact .inl rfl
  · exact .inl rfl
  · exact .inl rfl
  · exact .inl rfl
  · rename_i st' acts x' retry h
    split
    · exact .inl rfl
    · rename_i c' heq
      cases hd : st'.connected? with
      | none =>
        dsimp only
        split
        · exact .inl rfl
        · refine .inr ?_
          rw [(loop_nil E _).1]
          exact ⟨by simp [HConn.connected, hd], by simp, rfl⟩
      | some s =>
        dsimp only
        obtain ⟨-, -, h3, -⟩ := finish_complete E { c' with hState := some st' } t s
        split
        · rename_i c'' heq'
          rw [heq'] at h3
          split
          · exact .inl rfl
          · refine .inl ?_
            have hcon : ∀ l, HConn.loop E l c'' = (.ok (), c'') := by
              intro l
              rw [HConn.loop.eq_def]
              have h3' : c''.hState = some st' := h3
              simp [h3', hd]
            rw [hcon, hcon]
        · exact .inl rfl

/-- Every call of Handshake, however much it handles, is covered by `C67_delivered_partial`: it takes some of what is there,
in order, one at a time. -/
theorem C67_calls (E : Env) (cfg : Config) (nb st : Bool) (tl el : UInt32) (d : Bool) (early got : Bytes) (t0 : Turn)
    (ts : List Turn) (hts : ts ≠ []) : ∀ (c : HConn), Reading E (HConn.new cfg false nb st tl el d) c early got → c.connected = false →
    ((c.handshake E t0 ts).2.connected = true → (c.handshake E t0 ts).1 = .ok ()) →
    ∃ used more, ts = used ++ more ∧ used ≠ [] ∧
      (c.handshake E t0 ts).2 = used.foldl (fun c t => (c.handshake E t0 [t]).2) c ∧
      ∃ early', Reading E (HConn.new cfg false nb st tl el d) (c.handshake E t0 ts).2 (early ++ early') got := by
  induction ts generalizing early with
  | nil => exact absurd rfl hts
  | cons t ts ih =>
    intro c hR hc hok
    obtain ⟨hi, hr⟩ := reading_inv hR (new_inv _ _ _ _ _ _ _)
    have one : c.handshake E t0 (t :: ts) = c.handshake E t0 [t] →
        ∃ used more, t :: ts = used ++ more ∧ used ≠ [] ∧
          (c.handshake E t0 (t :: ts)).2 = used.foldl (fun c t => (c.handshake E t0 [t]).2) c ∧
          ∃ early', Reading E (HConn.new cfg false nb st tl el d) (c.handshake E t0 (t :: ts)).2 (early ++ early') got := by
      intro h
      rw [h] at hok ⊢
      exact ⟨[t], ts, rfl, by simp, rfl, _, .handshake c early got t0 t hR hc hok⟩
    rcases handshake_server E t0 (t :: ts) hi hc hr with ⟨-, -, h⟩ | ⟨s, hs, h⟩
    · exact one ((h _).trans (h _).symm)
    · have hcs : (HState.server s).connected? = none := by
        rcases hs with hs | ⟨-, rfl⟩
        · unfold HConn.connected at hc; rw [hs] at hc; simpa using hc
        · rfl
      rcases loop_split E (c := { c with hState := some (.server s) }) t ts rfl hcs with h1 | ⟨h1, h2, h3⟩
      · exact one (by rw [h, h, h1])
      · rw [← h, ← h] at h3
        rw [← h] at h1 h2
        cases ts with
        | nil => exact one rfl
        | cons t1 ts =>
          have hR' := Reading.handshake c early got t0 t hR hc (fun h => by rw [h1] at h; cases h)
          obtain ⟨hi', hr'⟩ := reading_inv hR' (new_inv _ _ _ _ _ _ _)
          have h4 : HConn.loop E (t1 :: ts) (c.handshake E t0 [t]).2 = (c.handshake E t0 [t]).2.handshake E t0 (t1 :: ts) := by
            rcases handshake_server E t0 (t1 :: ts) hi' h1 hr' with ⟨h5, -⟩ | ⟨s', h5, h6⟩
            · exact absurd h5 h2
            · rcases h5 with h5 | ⟨h5, -⟩
              · rw [h6]
                have : ({ (c.handshake E t0 [t]).2 with hState := some (.server s') } : HConn) = (c.handshake E t0 [t]).2 := by rw [← h5]
                rw [this]
              · exact absurd h5 h2
          rw [h3, h4] at hok ⊢
          obtain ⟨used, more, h5, h6, h7, early', h8⟩ := ih _ (by simp) _ hR' h1 hok
          exact ⟨t :: used, more, by rw [h5]; rfl, by simp, h7, arriving c t ++ early', by rw [← List.append_assoc]; exact h8⟩

/-! ### Cases -/

namespace EarlyCase

open Verif.Props.FailedCase

/-- What the server reads in the toy handshake with early data. It makes a move after the ClientHello and another one after
EndOfEarlyData. -/
def nth (i : Nat) : Turn :=
  match (Toy.exchange Toy.tls Toy.pskClient Toy.pskServer 2).2[i]? with
  | some (e, c) => turn (some e) c
  | none => turn none (Toy.coins 6)
def data (b : Bytes) : Turn := turn (some (.appData b)) (Toy.coins 6)
def move : Turn := turn none (Toy.coins 6)

def server (nb tickets : Bool) : HConn := HConn.new Toy.pskServer false nb tickets 100 100 false

def handle (c : HConn) (t : Turn) : HConn := (c.handshake Toy.env setupTurn [t]).2

/-- A Read on a connection, which there is not yet. -/
def live (_ : HConn) : Res Bytes × Connected := (.err .msg, ⟨{}, false, ⟨0, .sha256, 0, 0⟩, [], [], [], [], [], []⟩)

/-- Two records of early data arrive, the application reads one byte, then the handshake goes on. -/
def early1 : HConn := [nth 0, move, data [1, 2], data [3]].foldl handle (server true true)
def early2 : HConn := (early1.read live 1).2
def early3 : HConn := handle (handle early2 (nth 1)) move

theorem read_handle {c0 c : HConn} {early got early' : Bytes} (h : Reading Toy.env c0 c early got) (t : Turn)
    (hc : c.connected = false ∧ (handle c t).connected = false) (he : early ++ arriving c t = early') :
    Reading Toy.env c0 (handle c t) early' got :=
  he ▸ .handshake c early got setupTurn t h hc.1 fun h => absurd hc.2 (by unfold handle; simp [h])

theorem read_done {c0 c : HConn} {early got early' : Bytes} (h : Reading Toy.env c0 c early got) (t : Turn)
    (hc : c.connected = false ∧ (c.handshake Toy.env setupTurn [t]).1 = .ok ()) (he : early ++ arriving c t = early') :
    Reading Toy.env c0 (handle c t) early' got :=
  he ▸ .handshake c early got setupTurn t h hc.1 fun _ => hc.2

theorem read_bytes {c0 c : HConn} {early got got' : Bytes} (h : Reading Toy.env c0 c early got) (n : Nat)
    (hc : c.connected = false) (he : got ++ bytesOf (c.read live n).1 = got') :
    Reading Toy.env c0 (c.read live n).2 early got' :=
  he ▸ .read c early got live n h hc

theorem early1_reading : Reading Toy.env (server true true) early1 [1, 2, 3] [] := by
  refine read_handle (early := [1, 2]) (c := [nth 0, move, data [1, 2]].foldl handle (server true true)) ?_ (data [3])
    (by decide +kernel) (by decide +kernel)
  refine read_handle (early := []) (c := [nth 0, move].foldl handle (server true true)) ?_ (data [1, 2])
    (by decide +kernel) (by decide +kernel)
  refine read_handle (early := []) (c := [nth 0].foldl handle (server true true)) ?_ move (by decide +kernel) (by decide +kernel)
  exact read_handle (early := []) .start (nth 0) (by decide +kernel) (by decide +kernel)

theorem early2_reading : Reading Toy.env (server true true) early2 [1, 2, 3] [1] :=
  read_bytes early1_reading 1 (by decide +kernel) (by decide +kernel)

theorem early3_reading : Reading Toy.env (server true true) early3 [1, 2, 3] [1] ∧ early3.connected = false :=
  have h : Reading Toy.env (server true true) (handle early2 (nth 1)) [1, 2, 3] [1] :=
    read_handle early2_reading (nth 1) (by decide +kernel) (by decide +kernel)
  ⟨read_handle h move (by decide +kernel) (by decide +kernel), by decide +kernel⟩

end EarlyCase

open EarlyCase Verif.Props.FailedCase

/-- The application has read one of three bytes when the handshake completes. -/
example : ∃ c, Reading Toy.env (server true true) c [1, 2, 3] [1] ∧ c.connected = true ∧ c.readBuffer = [2, 3] := by
  exact ⟨handle early3 (nth 2), read_done early3_reading.1 _ (by decide +kernel) (by decide +kernel), by decide +kernel⟩

/-- A blocking call handles all that is there. -/
example : ∃ c, Reading Toy.env (server false true) c [] [] ∧ c.connected = false ∧
    (c.handshake Toy.env setupTurn [nth 0, move, data [1, 2], data [3], nth 1, move, nth 2]).1 = .ok () ∧
    (c.handshake Toy.env setupTurn [nth 0, move, data [1, 2], data [3], nth 1, move, nth 2]).2.readBuffer = [1, 2, 3] :=
  ⟨server false true, .start, rfl, by decide +kernel⟩

/-- C67 fails if the ticket cannot be sent: Handshake returns an error, after which it returns none, and the two bytes that
the application has not read are not there to be read. -/
theorem C67_ticket_fails : ∃ (E : Env) (cfg : Config) (c : HConn) (t : Turn),
    Reading E (HConn.new cfg false true true 100 100 false) c [1, 2, 3] [1] ∧ c.connected = false ∧
    (c.handshake E setupTurn [t]).1 = .err (.alert 80) ∧
    ((c.handshake E setupTurn [t]).2.handshake E setupTurn []).1 = .ok () ∧
    ((c.handshake E setupTurn [t]).2.handshake E setupTurn []).2.connected = true ∧
    ((c.handshake E setupTurn [t]).2.handshake E setupTurn []).2.readBuffer = [] :=
  ⟨Toy.env, Toy.pskServer, early3, noTicket (nth 2), early3_reading.1, early3_reading.2, by decide +kernel⟩

end Verif.Conn

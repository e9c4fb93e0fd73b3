import Verif.Handshake.Lemmas
import Verif.Props.Frames

/-
Properties C21 and C22: what any history of incoming records can make the handshake layer do.
-/

namespace Verif.Handshake

open Verif Verif.Record

/-- What happens to the receiving handshake layer: a ReadMessage call, during which the record layer answers with the
outcomes in `feed` (only as many as are asked for); the end of the peer's flight (`receivedEndOfFlight`,
dtls.go:164-181); installation of keys for an epoch. -/
inductive HsOp where
  | read (feed : Feed)
  | endOfFlight
  | epoch (e : Nat)

/-- State after one operation. -/
def HsIn.apply (onAck : Bytes → Res Unit) (h : HsIn) : HsOp → HsIn
  | .read feed => (h.readMessage onAck feed).2.1
  | .endOfFlight => if h.datagram then { h with queued := [], recvd := [] } else h
  | .epoch e => { h with epoch := e }

/-- What the ReadMessage calls of a history return, in order. -/
def HsIn.results (onAck : Bytes → Res Unit) : HsIn → List HsOp → List (Res (Option Msg))
  | _, [] => []
  | h, op :: ops =>
    match op with
    | .read feed => (h.readMessage onAck feed).1 :: HsIn.results onAck (h.apply onAck op) ops
    | _ => HsIn.results onAck (h.apply onAck op) ops

/-- The messages among the results. -/
def messages (rs : List (Res (Option Msg))) : List Msg :=
  rs.filterMap fun r => match r with | .ok m => m | _ => none

/-! ### C21 -/

/-- A result over DTLS is the message whose turn it is, or no message at all. -/
def Turn (h : HsIn) (r : Res (Option Msg)) (h' : HsIn) : Prop :=
  h'.datagram = h.datagram ∧
  match r with
  | .ok (some m) => m.seq = h.msgSeq ∧ h'.msgSeq = h.msgSeq + 1
  | _ => h'.msgSeq = h.msgSeq

theorem turn_of_eq {h h' h'' : HsIn} {r : Res (Option Msg)} (hd : h'.datagram = h.datagram)
    (hs : h'.msgSeq = h.msgSeq) (ht : Turn h' r h'') : Turn h r h'' := by
  obtain ⟨h1, h2⟩ := ht
  refine ⟨h1.trans hd, ?_⟩
  rw [hs] at h2
  exact h2

theorem HsIn.check_turn (h : HsIn) : Turn h h.check.1 h.check.2 := by
  unfold HsIn.check
  split
  · exact ⟨rfl, rfl⟩
  · split
    · exact ⟨rfl, rfl⟩
    · rename_i hm _ _ hne
      have hs : hm.seq = h.msgSeq := by simpa using hne
      split
      · exact ⟨rfl, hs, by simp [HsIn.noteDelivered, hs]⟩
      · split
        · exact ⟨rfl, rfl⟩
        · exact ⟨rfl, hs, by simp [HsIn.noteDelivered, hs]⟩
        all_goals exact ⟨rfl, rfl⟩

theorem HsIn.received_turn (h : HsIn) (m : Msg) : Turn h (h.received m).1 (h.received m).2 := by
  unfold HsIn.received
  split
  · exact ⟨rfl, rfl⟩
  · split
    · rename_i hm
      exact ⟨rfl, hm.1, by simp [HsIn.noteDelivered, hm.1]⟩
    · exact HsIn.check_turn _

theorem HsIn.processFrame_turn {h h' : HsIn} (hd : h.datagram = true) :
    (∀ r, h.processFrame = (some r, h') → Turn h r h') ∧
    (h.processFrame = (none, h') → h'.datagram = h.datagram ∧ h'.msgSeq = h.msgSeq) := by
  unfold HsIn.processFrame
  constructor
  · intro r hp
    split at hp
    · simp at hp
    · simp only [Prod.mk.injEq, Option.some.injEq] at hp
      obtain ⟨rfl, rfl⟩ := hp
      exact ⟨rfl, rfl⟩
    · rename_i hdr body f _
      simp only [Prod.mk.injEq, Option.some.injEq] at hp
      obtain ⟨rfl, rfl⟩ := hp
      have heq : { h with frame := f }.deliver hdr body = { h with frame := f }.received (parseFrag hdr body) :=
        if_pos hd
      rw [heq]
      exact HsIn.received_turn { h with frame := f } (parseFrag hdr body)
  · intro hp
    split at hp
    · simp only [Prod.mk.injEq, true_and] at hp
      subst hp; exact ⟨rfl, rfl⟩
    · simp at hp
    · simp at hp

theorem HsIn.readMessage_turn (onAck : Bytes → Res Unit) (feed : Feed) (h : HsIn) (hd : h.datagram = true) :
    Turn h (h.readMessage onAck feed).1 (h.readMessage onAck feed).2.1 := by
  have hc := h.check_turn
  unfold HsIn.readMessage
  split
  · rename_i h1 hc1
    rw [hc1] at hc
    have hseq : h1.msgSeq = h.msgSeq := hc.2
    have hdat : h1.datagram = h.datagram := hc.1
    obtain ⟨used, _, hR⟩ := HsIn.readLoop_rel onAck (fun h _ _ r h' => h.datagram = true → Turn h r h')
      (fun _ _ _ => ⟨rfl, rfl⟩) (fun _ _ _ => ⟨rfl, rfl⟩) (fun _ _ _ _ _ _ => ⟨rfl, rfl⟩)
      (fun _ _ _ _ _ => ⟨rfl, rfl⟩) (fun _ _ _ _ _ => ⟨rfl, rfl⟩)
      (fun h r h' _ hp hd => (HsIn.processFrame_turn hd).1 r hp)
      (fun h h' _ _ hp hd => (HsIn.processFrame_turn hd).2 hp)
      (fun h h' used _ r h'' hp hR hd => by
        have := (HsIn.processFrame_turn hd).2 hp
        exact turn_of_eq this.1 this.2 (hR (this.1.trans hd)))
      (fun h rec h' used _ r h'' hp hR hd => by
        have := HsIn.readRecord_inv hp
        exact turn_of_eq this.1 this.2.2.2.1 (hR (this.1.trans hd)))
      (fun h rec used _ r h'' _ hR hd => hR hd) (2 * feed.length + 2) feed h1
    exact turn_of_eq hdat hseq (hR (hdat.trans hd))
  · rename_i r h1 hne hc1
    rw [hc1] at hc
    exact hc

theorem HsIn.results_turns (onAck : Bytes → Res Unit) (ops : List HsOp) (h : HsIn) (hd : h.datagram = true) :
    (messages (h.results onAck ops)).map Msg.seq =
      List.range' h.msgSeq (messages (h.results onAck ops)).length := by
  induction ops generalizing h with
  | nil => rfl
  | cons op ops ih =>
    cases op with
    | read feed =>
      have ht := HsIn.readMessage_turn onAck feed h hd
      simp only [HsIn.results, HsIn.apply, messages, List.filterMap_cons]
      have ih' := ih (h.readMessage onAck feed).2.1 (ht.1.trans hd)
      cases hr : (h.readMessage onAck feed).1 with
      | ok m =>
        rw [hr] at ht
        cases m with
        | none =>
          have hs : (h.readMessage onAck feed).2.1.msgSeq = h.msgSeq := ht.2
          rw [hs] at ih'
          exact ih'
        | some m =>
          have h2 : m.seq = h.msgSeq ∧ (h.readMessage onAck feed).2.1.msgSeq = h.msgSeq + 1 := ht.2
          rw [h2.2] at ih'
          simp only [List.map_cons, List.length_cons, List.range'_succ, h2.1, List.cons.injEq, true_and]
          exact ih'
      | err e =>
        rw [hr] at ht
        have hs : (h.readMessage onAck feed).2.1.msgSeq = h.msgSeq := ht.2
        rw [hs] at ih'
        exact ih'
      | panic =>
        rw [hr] at ht
        have hs : (h.readMessage onAck feed).2.1.msgSeq = h.msgSeq := ht.2
        rw [hs] at ih'
        exact ih'
      | diverge =>
        rw [hr] at ht
        have hs : (h.readMessage onAck feed).2.1.msgSeq = h.msgSeq := ht.2
        rw [hs] at ih'
        exact ih'
    | endOfFlight =>
      have := ih (h.apply onAck .endOfFlight) (by simp [HsIn.apply, hd])
      have hs : (h.apply onAck .endOfFlight).msgSeq = h.msgSeq := by simp [HsIn.apply, hd]
      rw [hs] at this
      exact this
    | epoch e => exact ih (h.apply onAck (.epoch e)) hd

/-- C21. Over DTLS, whatever records arrive, however reads are scheduled, whatever errors occur in between: the
messages ReadMessage returns are numbered 0, 1, 2, ... in the order in which they are returned. -/
theorem C21_consecutive (onAck : Bytes → Res Unit) (nonblocking : Bool) (ops : List HsOp) :
    ∃ n, (messages ((HsIn.new true nonblocking).results onAck ops)).map Msg.seq = List.range n := by
  refine ⟨(messages ((HsIn.new true nonblocking).results onAck ops)).length, ?_⟩
  rw [HsIn.results_turns onAck ops (HsIn.new true nonblocking) rfl, List.range_eq_range']
  rfl

/-- C21. In particular no message number is delivered twice, and none before a smaller one. -/
theorem C21_at_most_once (onAck : Bytes → Res Unit) (nonblocking : Bool) (ops : List HsOp) :
    (messages ((HsIn.new true nonblocking).results onAck ops)).Pairwise (fun a b => a.seq < b.seq) := by
  obtain ⟨n, hn⟩ := C21_consecutive onAck nonblocking ops
  have : ((messages ((HsIn.new true nonblocking).results onAck ops)).map Msg.seq).Pairwise (· < ·) := by
    rw [hn]; exact List.pairwise_lt_range
  exact List.pairwise_map.mp this

/-- The record (current epoch, number 0) carrying one DTLS fragment. -/
def fragRecord (m : Msg) : Except Err Plaintext := .ok ⟨22, 0, 0, m.marshal true⟩

/-- Message 1 arrives before message 0, message 0 twice: both are returned once, in order. -/
example :
    let m0 : Msg := ⟨1, 0, [7, 8], 0, 2⟩
    let m1 : Msg := ⟨11, 1, [9], 0, 1⟩
    messages ((HsIn.new true true).results (fun _ => .ok ()) [.read [fragRecord m1], .read [fragRecord m0],
      .read [fragRecord m0], .read [fragRecord m0], .read []]) = [m0, m1] := by decide

/-! ### C22 -/

/-- The handshake bytes among records: fragments of handshake records of the current epoch. -/
def acceptedBytes (epoch : Nat) : Feed → Bytes
  | [] => []
  | .ok pt :: feed =>
    (if pt.contentType = 22 ∧ pt.epoch = epoch then pt.fragment else []) ++ acceptedBytes epoch feed
  | .error _ :: feed => acceptedBytes epoch feed

/-- The stream of handshake bytes a history brings in: those of the records that were actually read. -/
def HsIn.stream (onAck : Bytes → Res Unit) : HsIn → List HsOp → Bytes
  | _, [] => []
  | h, op :: ops =>
    (match op with
      | .read feed => acceptedBytes h.epoch (feed.take (feed.length - (h.readMessage onAck feed).2.2.length))
      | _ => []) ++ HsIn.stream onAck (h.apply onAck op) ops

/-- No alert record is shorter than an alert. -/
def AlertsWhole (feed : Feed) : Prop := ∀ pt, .ok pt ∈ feed → pt.contentType = 21 → 2 ≤ pt.fragment.length

/-- Frames whose fragments lie within their messages. -/
def FramesInRange (es : List FrameEvent) : Prop :=
  ∀ hdr body, .ok (hdr, body) ∈ es → (parseFrag hdr body).InRange

/-- State between calls: reader in order, queued fragments in range, and so are the ones to come in `s`. -/
structure Sound (h : HsIn) (s : Bytes) : Prop where
  inv : h.frame.Inv (hsFraming h.datagram)
  queue : ∀ f ∈ h.queued, f.InRange
  coming : h.datagram = true → FramesInRange (h.frame.future (hsFraming h.datagram) s)

/-- The relation kept by the loop of ReadMessage. -/
def SafeStep (h : HsIn) (used : Feed) (r : Res (Option Msg)) (h' : HsIn) : Prop :=
  AlertsWhole used → ∀ s, Sound h (acceptedBytes h.epoch used ++ s) →
    (r = .diverge ∨ r.Safe) ∧ h'.datagram = h.datagram ∧ h'.epoch = h.epoch ∧ Sound h' s

theorem HsIn.processFrame_sound {h h' : HsIn} {s : Bytes} (hs : Sound h s) :
    (∀ r, h.processFrame = (some r, h') →
      r.Safe ∧ h'.datagram = h.datagram ∧ h'.epoch = h.epoch ∧ Sound h' s) ∧
    (h.processFrame = (none, h') → h'.datagram = h.datagram ∧ h'.epoch = h.epoch ∧ Sound h' s) := by
  constructor
  · intro r hp
    obtain ⟨f, hf, ⟨e, rfl, rfl, hfut⟩ | ⟨hdr, body, rfl, rfl, hfut⟩⟩ := HsIn.processFrame_some hs.inv hp
    · refine ⟨trivial, rfl, rfl, hf, hs.queue, fun hd hdr body hm => ?_⟩
      exact hs.coming hd hdr body (by rw [hfut]; exact List.mem_cons_of_mem _ hm)
    · have hpar := HsIn.deliver_params { h with frame := f } hdr body
      have hq : ({ h with frame := f }.deliver hdr body).1.Safe ∧
          ∀ x ∈ ({ h with frame := f }.deliver hdr body).2.queued, x.InRange := by
        unfold HsIn.deliver
        split
        · rename_i hd
          refine HsIn.received_safe { h with frame := f } (parseFrag hdr body) ?_ hs.queue
          exact hs.coming hd hdr body (by rw [hfut]; exact List.mem_cons_self)
        · exact ⟨trivial, hs.queue⟩
      refine ⟨hq.1, hpar.1, hpar.2.2.1, ?_, hq.2, ?_⟩
      · rw [hpar.2.2.2.1, hpar.1]; exact hf
      · intro hd
        rw [hpar.1] at hd
        rw [hpar.2.2.2.1, hpar.1]
        intro hdr' body' hm
        exact hs.coming hd hdr' body' (by rw [hfut]; exact List.mem_cons_of_mem _ hm)
  · intro hp
    obtain ⟨f, rfl, hf, _, _, hfut⟩ := HsIn.processFrame_none hs.inv hp
    refine ⟨rfl, rfl, hf, hs.queue, fun hd => ?_⟩
    have := hs.coming hd
    rw [← hfut] at this
    exact this

theorem HsIn.readRecord_safe {onAck : Bytes → Res Unit} (hack : ∀ b, (onAck b).Safe) (h : HsIn)
    (r : Except Err Plaintext) (ha : AlertsWhole [r]) : (h.readRecord onAck r).Safe := by
  unfold HsIn.readRecord
  split
  · trivial
  · rename_i pt
    have h2 := ha pt (by simp)
    split
    · trivial
    · split
      · split
        · trivial
        · exact Res.safe_bind (hack _) fun _ _ => trivial
      · split
        · rename_i h21
          have := h2 h21
          split
          · trivial
          · rename_i hno
            rcases hfr : pt.fragment with _ | ⟨a, _ | ⟨b, l⟩⟩
            · simp [hfr] at this
            · simp [hfr] at this
            · exact absurd hfr (hno a b l)
        · split
          · split <;> trivial
          · trivial

theorem HsIn.readLoop_safeStep {onAck : Bytes → Res Unit} (hack : ∀ b, (onAck b).Safe) (n : Nat) (feed : Feed)
    (h : HsIn) :
    ∃ used, feed = used ++ (h.readLoop onAck n feed).2.2 ∧
      SafeStep h used (h.readLoop onAck n feed).1 (h.readLoop onAck n feed).2.1 := by
  have htail : ∀ (r : Except Err Plaintext) used, AlertsWhole (r :: used) → AlertsWhole [r] ∧ AlertsWhole used :=
    fun r used ha => ⟨fun pt hm => ha pt (by simp at hm; simp [hm]), fun pt hm => ha pt (List.mem_cons_of_mem _ hm)⟩
  have hrej : ∀ (h : HsIn) r e used, h.readRecord onAck r = .err e →
      acceptedBytes h.epoch (r :: used) = acceptedBytes h.epoch used := by
    intro h r e used hr
    cases r with
    | error e' => rfl
    | ok pt =>
      have hno : ¬ (pt.contentType = 22 ∧ pt.epoch = h.epoch) := by
        intro hh
        rw [HsIn.readRecord_accept onAck h pt hh.1 hh.2] at hr
        simp at hr
      simp only [acceptedBytes, if_neg hno, List.nil_append]
  apply HsIn.readLoop_rel onAck fun h used _ r h' => SafeStep h used r h'
  · intro h _ _ s hs; exact ⟨Or.inl rfl, rfl, rfl, hs⟩
  · intro h _ _ s hs; exact ⟨Or.inr trivial, rfl, rfl, hs⟩
  · intro h r e _ hr ha s hs
    rw [hrej h r e [] hr] at hs
    exact ⟨Or.inr trivial, rfl, rfl, hs⟩
  · intro h r _ hr ha s hs
    have := HsIn.readRecord_safe hack h r ha
    rw [hr] at this
    exact this.elim
  · intro h r _ hr ha s hs
    have := HsIn.readRecord_safe hack h r ha
    rw [hr] at this
    exact this.elim
  · intro h r h' _ hp _ s hs
    have := (HsIn.processFrame_sound hs).1 r hp
    exact ⟨Or.inr this.1, this.2⟩
  · intro h h' _ _ hp _ s hs
    have := (HsIn.processFrame_sound hs).2 hp
    exact ⟨Or.inr trivial, this⟩
  · intro h h' used _ r h'' hp hR ha s hs
    have := (HsIn.processFrame_sound hs).2 hp
    have h2 := hR ha s (by rw [this.2.1]; exact this.2.2)
    exact ⟨h2.1, h2.2.1.trans this.1, h2.2.2.1.trans this.2.1, h2.2.2.2⟩
  · intro h rec h' used _ r h'' hp hR ha s hs
    have hpar := HsIn.readRecord_inv hp
    have hs' : Sound h' (acceptedBytes h'.epoch used ++ s) := by
      rw [hpar.2.2.1]
      refine ⟨by rw [hpar.1]; exact hpar.2.2.2.2.2 _ hs.inv, by rw [hpar.2.2.2.2.1]; exact hs.queue, fun hd => ?_⟩
      rw [hpar.1] at hd ⊢
      have hc := hs.coming hd
      rcases HsIn.readRecord_ok hp with ⟨pt, rfl, h22, hep, rfl⟩ | ⟨pt, rfl, hno, rfl⟩
      · simp only [acceptedBytes, h22, hep, and_self, if_true] at hc
        dsimp only
        rw [FrameReader.future_addChunk, ← List.append_assoc]
        exact hc
      · simp only [acceptedBytes, if_neg hno, List.nil_append] at hc
        exact hc
    have h2 := hR (htail _ _ ha).2 s hs'
    exact ⟨h2.1, h2.2.1.trans hpar.1, h2.2.2.1.trans hpar.2.2.1, h2.2.2.2⟩
  · intro h rec used _ r h'' hp hR ha s hs
    rw [hrej h rec _ used hp] at hs
    exact hR (htail _ _ ha).2 s hs

theorem HsIn.readMessage_safe {onAck : Bytes → Res Unit} (hack : ∀ b, (onAck b).Safe) (feed : Feed) (h : HsIn)
    (ha : AlertsWhole feed) (s : Bytes)
    (hs : Sound h (acceptedBytes h.epoch (feed.take (feed.length - (h.readMessage onAck feed).2.2.length)) ++ s)) :
    (h.readMessage onAck feed).1.Safe ∧ (h.readMessage onAck feed).2.1.datagram = h.datagram ∧
    Sound (h.readMessage onAck feed).2.1 s := by
  have hcs := HsIn.check_safe h hs.queue
  have hcp := h.check_params
  have hack' : ∀ b, onAck b ≠ .diverge := fun b hb => by have := hack b; rw [hb] at this; exact this
  have hsound : ∀ s, Sound h s → Sound h.check.2 s := by
    intro s hs
    exact ⟨by rw [hcp.1, hcp.2.2.2.1]; exact hs.inv, hcs.2, by rw [hcp.1, hcp.2.2.2.1]; exact hs.coming⟩
  rcases HsIn.readMessage_cases onAck feed h with ⟨hc1, heq⟩ | ⟨hc1, heq⟩
  · rw [heq] at hs ⊢
    generalize h.check.2 = h1 at *
    obtain ⟨used, hu, hR⟩ := HsIn.readLoop_safeStep hack (2 * feed.length + 2) feed h1
    have hlen := congrArg List.length hu
    rw [List.length_append] at hlen
    have htake : feed.take (feed.length - (h1.readLoop onAck (2 * feed.length + 2) feed).2.2.length) = used := by
      rw [show feed.length - (h1.readLoop onAck (2 * feed.length + 2) feed).2.2.length = used.length by omega]
      exact (List.prefix_iff_eq_take.mp ⟨_, hu.symm⟩).symm
    rw [htake] at hs
    have hs1 := hsound _ hs
    rw [← hcp.2.2.1] at hs1
    have hout := hR (fun pt hm => ha pt (by rw [hu]; exact List.mem_append_left _ hm)) s hs1
    have hnd := HsIn.readLoop_ne_diverge hack' (2 * feed.length + 2) feed h1 hs1.inv (by split <;> omega)
    refine ⟨?_, hout.2.1.trans hcp.1, hout.2.2.2⟩
    rcases hout.1 with hd | hsafe
    · exact absurd hd hnd
    · exact hsafe
  · rw [heq] at hs ⊢
    simp only [Nat.sub_self, List.take_zero, acceptedBytes, List.nil_append] at hs
    exact ⟨hcs.1, hcp.1, hsound _ hs⟩

theorem HsIn.results_safe {onAck : Bytes → Res Unit} (hack : ∀ b, (onAck b).Safe) (ops : List HsOp) (h : HsIn)
    (ha : ∀ feed, .read feed ∈ ops → AlertsWhole feed) (hs : Sound h (h.stream onAck ops)) :
    ∀ r ∈ h.results onAck ops, r.Safe := by
  induction ops generalizing h with
  | nil => simp [HsIn.results]
  | cons op ops ih =>
    have ha' : ∀ feed, .read feed ∈ ops → AlertsWhole feed := fun feed hm => ha feed (List.mem_cons_of_mem _ hm)
    cases op with
    | read feed =>
      simp only [HsIn.stream] at hs
      obtain ⟨h1, _, h3⟩ := HsIn.readMessage_safe hack feed h (ha feed List.mem_cons_self) _ hs
      intro r hr
      simp only [HsIn.results, List.mem_cons] at hr
      rcases hr with rfl | hr
      · exact h1
      · exact ih _ ha' h3 r hr
    | endOfFlight =>
      refine ih (h.apply onAck .endOfFlight) ha' ?_
      simp only [HsIn.stream, List.nil_append] at hs
      generalize hst : HsIn.stream onAck (h.apply onAck .endOfFlight) ops = st at hs ⊢
      unfold HsIn.apply
      dsimp only
      split
      · exact ⟨hs.inv, by simp, hs.coming⟩
      · exact hs
    | epoch e =>
      simp only [HsIn.stream, List.nil_append] at hs
      exact ih (h.apply onAck (.epoch e)) ha' ⟨hs.inv, hs.queue, hs.coming⟩

/-- C22, partial. No history of records makes ReadMessage panic or hang, provided that alert records have at least
two bytes and, over DTLS, that every fragment in the handshake byte stream lies within the length its own header
announces. Missing: exactly these two malformations, see `C22_short_alert_fails` and `C22_fragment_range_fails`.
`onAck` is the processing of ACK records by the sending side, assumed not to crash. -/
theorem C22_reading_safe_partial (onAck : Bytes → Res Unit) (hack : ∀ b, (onAck b).Safe) (datagram nonblocking : Bool)
    (ops : List HsOp) (halert : ∀ feed, .read feed ∈ ops → AlertsWhole feed)
    (hrange : datagram = true →
      FramesInRange (frameEvents (hsFraming true) ((HsIn.new datagram nonblocking).stream onAck ops))) :
    ∀ r ∈ (HsIn.new datagram nonblocking).results onAck ops, r.Safe := by
  refine HsIn.results_safe hack ops _ halert ⟨FrameReader.inv_new _, by simp [HsIn.new], fun hd => ?_⟩
  have hd' : datagram = true := hd
  subst hd'
  show FramesInRange ((FrameReader.new (hsFraming true)).future (hsFraming true) _)
  rw [FrameReader.future_new]
  exact hrange rfl

/-- C22 over TLS: only short alert records can crash ReadMessage. -/
theorem C22_tls_safe_partial (onAck : Bytes → Res Unit) (hack : ∀ b, (onAck b).Safe) (nonblocking : Bool)
    (ops : List HsOp) (halert : ∀ feed, .read feed ∈ ops → AlertsWhole feed) :
    ∀ r ∈ (HsIn.new false nonblocking).results onAck ops, r.Safe :=
  C22_reading_safe_partial onAck hack false nonblocking ops halert (by simp)

/-- C22 fails for an alert record of one byte: the second byte is read before the length is checked
(handshake-layer.go:205-206). -/
theorem C22_short_alert_fails :
    ∃ ops : List HsOp, Res.panic ∈ (HsIn.new false false).results (fun _ => .ok ()) ops :=
  ⟨[.read [.ok ⟨21, 0, 0, [2]⟩]], by decide⟩

/-- C22 fails for DTLS fragments longer than the message they belong to (handshake-layer.go:331-334): five bytes and
then three more at offset 3 for a message of length 1. -/
theorem C22_fragment_range_fails :
    ∃ ops : List HsOp, Res.panic ∈ (HsIn.new true false).results (fun _ => .ok ()) ops :=
  ⟨[.read [fragRecord ⟨1, 0, [1, 2, 3, 4, 5], 0, 1⟩], .read [fragRecord ⟨1, 0, [6, 7, 8], 3, 1⟩]], by decide⟩

/-- A history within the hypotheses of `C22_reading_safe_partial`: a fragment cut across two records, an alert, a
record of an unknown type and one of an old epoch. -/
example :
    let f := (⟨1, 0, [1, 2], 0, 3⟩ : Msg).marshal true
    let ops : List HsOp := [.read [.ok ⟨22, 0, 0, f.take 5⟩], .read [.ok ⟨21, 0, 1, [2, 40]⟩, .ok ⟨23, 0, 2, []⟩],
      .read [.ok ⟨23, 0, 2, []⟩], .read [.ok ⟨22, 2, 0, [9]⟩], .read [.ok ⟨22, 0, 3, f.drop 5⟩]]
    (∀ feed, .read feed ∈ ops → AlertsWhole feed) ∧
    FramesInRange (frameEvents (hsFraming true) ((HsIn.new true true).stream (fun _ => .ok ()) ops)) ∧
    (HsIn.new true true).results (fun _ => .ok ()) ops =
      [.err .wouldBlock, .err (.alert 40), .err .msg, .err .wouldBlock, .ok none] := by
  refine ⟨?_, ?_, by decide⟩
  · intro feed hm pt hpt h21
    simp only [List.mem_cons, HsOp.read.injEq, List.not_mem_nil, or_false] at hm
    rcases hm with rfl | rfl | rfl | rfl | rfl <;> simp at hpt <;> rcases hpt with rfl | rfl <;> simp_all
  · have h := C11_frames_complete (hsFraming true) (by decide)
      [.add ((⟨1, 0, [1, 2], 0, 3⟩ : Msg).marshal true), .process] rfl
    intro hdr body hm
    have h2 : .ok (hdr, body) ∈ frameEvents (hsFraming true) ((⟨1, 0, [1, 2], 0, 3⟩ : Msg).marshal true) := hm
    rw [show (⟨1, 0, [1, 2], 0, 3⟩ : Msg).marshal true =
      opsBytes [.add ((⟨1, 0, [1, 2], 0, 3⟩ : Msg).marshal true), .process] from rfl, ← h] at h2
    have h4 : .ok (hdr, body) ∈ ([.ok ([1, 0, 0, 3, 0, 0, 0, 0, 0, 0, 0, 2], [1, 2])] : List FrameEvent) := h2
    simp only [List.mem_singleton, Except.ok.injEq, Prod.mk.injEq] at h4
    rw [h4.1, h4.2]
    unfold Msg.InRange
    decide

end Verif.Handshake

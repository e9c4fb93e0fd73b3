import Verif.Handshake.Layer

/-
Facts about the receiving handshake layer used by the property theorems.
-/

namespace Verif.Handshake

open Verif Verif.Record

/-! ### Rounds of the loop -/

/-- One `ReadMessage` loop, as a relation: `used` was consumed, `rest` left, and the outcome is `r`, `h'`. `R` is any
relation kept by the pieces the loop is made of. -/
theorem HsIn.readLoop_rel (onAck : Bytes → Res Unit) (R : HsIn → Feed → Feed → Res (Option Msg) → HsIn → Prop)
    (hzero : ∀ h rest, R h [] rest .diverge h)
    (hwait : ∀ h, h.frame.needed > 0 → R h [] [] (.err .wouldBlock) h)
    (hfail : ∀ h r e rest, h.readRecord onAck r = .err e → R h [r] rest (.err e) h)
    (hpanic : ∀ h r rest, h.readRecord onAck r = .panic → R h [r] rest .panic h)
    (hdiv : ∀ h r rest, h.readRecord onAck r = .diverge → R h [r] rest .diverge h)
    (hframe : ∀ h r h' rest, h.processFrame = (some r, h') → R h [] rest r h')
    (hnone : ∀ h h' rest, h.nonblocking = true → h.processFrame = (none, h') → R h [] rest (.err .wouldBlock) h')
    (hskip : ∀ h h' used rest r h'', h.processFrame = (none, h') → R h' used rest r h'' → R h used rest r h'')
    (hread : ∀ h rec h' used rest r h'', h.readRecord onAck rec = .ok h' → R h' used rest r h'' →
      R h (rec :: used) rest r h'')
    (hblock : ∀ h rec used rest r h'', h.readRecord onAck rec = .err .wouldBlock → R h used rest r h'' →
      R h (rec :: used) rest r h'')
    (n : Nat) (feed : Feed) (h : HsIn) :
    ∃ used, feed = used ++ (h.readLoop onAck n feed).2.2 ∧
      R h used (h.readLoop onAck n feed).2.2 (h.readLoop onAck n feed).1 (h.readLoop onAck n feed).2.1 := by
  induction n generalizing feed h with
  | zero => exact ⟨[], rfl, hzero h _⟩
  | succ n ih =>
    have hstep : ∀ (feed : Feed) (h : HsIn), ∀ out : Res (Option Msg) × HsIn × Feed,
        out = (match h.processFrame with
          | (some r, h') => (r, h', feed)
          | (none, h') =>
            if h.nonblocking then (.err .wouldBlock, h', feed) else HsIn.readLoop onAck n feed h') →
        ∃ used, feed = used ++ out.2.2 ∧ R h used out.2.2 out.1 out.2.1 := by
      intro feed h out hout
      rcases hp : h.processFrame with ⟨r, h'⟩
      rw [hp] at hout
      cases r with
      | some r => dsimp only at hout; subst hout; exact ⟨[], rfl, hframe h r h' _ hp⟩
      | none =>
        dsimp only at hout
        by_cases hn : h.nonblocking = true
        · rw [if_pos hn] at hout; subst hout; exact ⟨[], rfl, hnone h h' _ hn hp⟩
        · rw [if_neg hn] at hout; subst hout
          obtain ⟨used, hu, hr⟩ := ih feed h'
          exact ⟨used, hu, hskip _ _ _ _ _ _ hp hr⟩
    generalize hout : h.readLoop onAck (n + 1) feed = out
    rw [HsIn.readLoop.eq_def] at hout
    dsimp only at hout
    by_cases hneed : h.frame.needed > 0
    · rw [if_pos hneed] at hout
      cases feed with
      | nil => subst hout; exact ⟨[], rfl, hwait h hneed⟩
      | cons rec feed =>
        dsimp only at hout
        cases hrec : h.readRecord onAck rec with
        | ok h1 =>
          rw [hrec] at hout; dsimp only at hout
          obtain ⟨used, hu, hr⟩ := hstep feed h1 _ hout.symm
          exact ⟨rec :: used, by rw [List.cons_append, ← hu], hread _ _ _ _ _ _ _ hrec hr⟩
        | err e =>
          rw [hrec] at hout; dsimp only at hout
          by_cases hc : h.nonblocking = true ∨ e ≠ .wouldBlock
          · rw [if_pos hc] at hout; subst hout; exact ⟨[rec], rfl, hfail _ _ _ _ hrec⟩
          · rw [if_neg hc] at hout
            have he : e = .wouldBlock := Classical.byContradiction fun hne => hc (Or.inr hne)
            subst he
            obtain ⟨used, hu, hr⟩ := hstep feed h _ hout.symm
            exact ⟨rec :: used, by rw [List.cons_append, ← hu], hblock _ _ _ _ _ _ hrec hr⟩
        | panic => rw [hrec] at hout; subst hout; exact ⟨[rec], rfl, hpanic _ _ _ hrec⟩
        | diverge => rw [hrec] at hout; subst hout; exact ⟨[rec], rfl, hdiv _ _ _ hrec⟩
    · rw [if_neg hneed] at hout
      exact hstep feed h _ hout.symm

/-! ### The pieces keep the parameters of the layer -/

theorem HsIn.check_params (h : HsIn) :
    h.check.2.datagram = h.datagram ∧ h.check.2.nonblocking = h.nonblocking ∧ h.check.2.epoch = h.epoch ∧
    h.check.2.frame = h.frame ∧ h.check.2.recvd = h.recvd := by
  unfold HsIn.check
  split
  · simp
  · split
    · simp
    · split
      · simp [HsIn.noteDelivered]
      · split <;> simp [HsIn.noteDelivered]

theorem HsIn.received_params (h : HsIn) (m : Msg) :
    (h.received m).2.datagram = h.datagram ∧ (h.received m).2.nonblocking = h.nonblocking ∧
    (h.received m).2.epoch = h.epoch ∧ (h.received m).2.frame = h.frame ∧ (h.received m).2.recvd = h.recvd := by
  unfold HsIn.received
  split
  · simp
  · split
    · simp [HsIn.noteDelivered]
    · exact HsIn.check_params _

theorem HsIn.deliver_params (h : HsIn) (a b : Bytes) :
    (h.deliver a b).2.datagram = h.datagram ∧ (h.deliver a b).2.nonblocking = h.nonblocking ∧
    (h.deliver a b).2.epoch = h.epoch ∧ (h.deliver a b).2.frame = h.frame ∧ (h.deliver a b).2.recvd = h.recvd := by
  unfold HsIn.deliver
  split
  · exact HsIn.received_params _ _
  · simp

theorem hsFraming_headerLen (d : Bool) : (hsFraming d).headerLen ≠ 0 := by
  cases d <;> simp [hsFraming]

/-- What `readRecord` does when it succeeds. -/
theorem HsIn.readRecord_ok {onAck : Bytes → Res Unit} {h h' : HsIn} {r : Except Err Plaintext}
    (hr : h.readRecord onAck r = .ok h') :
    (∃ pt, r = .ok pt ∧ pt.contentType = 22 ∧ pt.epoch = h.epoch ∧
      h' = { h with recvd := h.recvd ++ [pt.seq], frame := h.frame.addChunk pt.fragment }) ∨
    (∃ pt, r = .ok pt ∧ ¬ (pt.contentType = 22 ∧ pt.epoch = h.epoch) ∧ h' = h) := by
  unfold HsIn.readRecord at hr
  split at hr
  · simp at hr
  · rename_i pt
    split at hr
    · simp at hr
    · rename_i h1
      split at hr
      · rename_i h2
        split at hr
        · simp at hr
        · obtain ⟨_, _, h4⟩ := Res.bind_eq_ok.mp hr
          simp only [Res.ok.injEq] at h4
          exact Or.inr ⟨pt, rfl, by simp [h2], h4.symm⟩
      · rename_i h2
        split at hr
        · split at hr <;> simp at hr
        · rename_i h3
          have h22 : pt.contentType = 22 := by
            refine Classical.byContradiction fun hne => h1 ⟨hne, h3, h2⟩
          split at hr
          · rename_i h4
            split at hr
            · simp only [Res.ok.injEq] at hr
              exact Or.inr ⟨pt, rfl, fun hh => h4 hh.2, hr.symm⟩
            · simp at hr
          · rename_i h4
            simp only [Res.ok.injEq] at hr
            exact Or.inl ⟨pt, rfl, h22, by simpa using h4, hr.symm⟩

/-- A handshake record of the current epoch is taken. -/
theorem HsIn.readRecord_accept (onAck : Bytes → Res Unit) (h : HsIn) (pt : Plaintext) (h22 : pt.contentType = 22)
    (hep : pt.epoch = h.epoch) :
    h.readRecord onAck (.ok pt) =
      .ok { h with recvd := h.recvd ++ [pt.seq], frame := h.frame.addChunk pt.fragment } := by
  simp [HsIn.readRecord, h22, hep]

/-! ### Safety of reassembly -/

/-- A fragment that lies within the length announced for its message. -/
def Msg.InRange (m : Msg) : Prop := m.offset + m.body.length ≤ m.length

theorem mem_insertFrag {m x : Msg} {q : List Msg} : x ∈ insertFrag m q ↔ x = m ∨ x ∈ q := by
  induction q with
  | nil => simp [insertFrag]
  | cons f fs ih =>
    rw [insertFrag]
    split
    · simp
    · simp only [List.mem_cons, ih]
      constructor
      · rintro (h | h | h) <;> simp [h]
      · rintro (h | h | h) <;> simp [h]

theorem assemble_safe (seq length : Nat) (q : List Msg) (fin : Nat) (buf : Bytes) (hq : ∀ f ∈ q, f.InRange) :
    (assemble seq length q fin buf).Safe := by
  induction q generalizing fin buf with
  | nil => simp [assemble]
  | cons f fs ih =>
    have ih' := fun fin buf => ih fin buf fun f hf => hq f (List.mem_cons_of_mem _ hf)
    have hf := hq f List.mem_cons_self
    unfold Msg.InRange at hf
    rw [assemble]
    split
    · simp
    · split
      · simp
      · split
        · simp
        · split
          · rw [copyAt, if_neg (by omega), Res.bind_ok]
            split
            · simp
            · exact ih' _ _
          · exact ih' _ _

theorem HsIn.check_safe (h : HsIn) (hq : ∀ f ∈ h.queued, f.InRange) :
    h.check.1.Safe ∧ ∀ f ∈ h.check.2.queued, f.InRange := by
  unfold HsIn.check
  split
  · exact ⟨trivial, hq⟩
  · rename_i hm rest hqq
    have hdrop : ∀ f ∈ (h.noteDelivered hm.seq).queued, f.InRange := by
      intro f hf
      simp only [HsIn.noteDelivered] at hf
      exact hq f (List.mem_of_mem_drop hf)
    split
    · exact ⟨trivial, hq⟩
    · split
      · exact ⟨trivial, hdrop⟩
      · have := assemble_safe hm.seq hm.length h.queued 0 (List.replicate hm.length 0) hq
        split
        · exact ⟨trivial, hq⟩
        · exact ⟨trivial, hdrop⟩
        · exact ⟨trivial, hq⟩
        · simp_all
        · simp_all

theorem HsIn.received_safe (h : HsIn) (m : Msg) (hm : m.InRange) (hq : ∀ f ∈ h.queued, f.InRange) :
    (h.received m).1.Safe ∧ ∀ f ∈ (h.received m).2.queued, f.InRange := by
  unfold HsIn.received
  split
  · exact ⟨trivial, hq⟩
  · split
    · refine ⟨trivial, fun f hf => ?_⟩
      simp only [HsIn.noteDelivered] at hf
      exact hq f (List.mem_of_mem_drop hf)
    · refine HsIn.check_safe _ fun f hf => ?_
      rcases mem_insertFrag.mp hf with rfl | hf
      · exact hm
      · exact hq f hf

theorem assemble_ne_diverge (seq length : Nat) (q : List Msg) (fin : Nat) (buf : Bytes) :
    assemble seq length q fin buf ≠ .diverge := by
  induction q generalizing fin buf with
  | nil => simp [assemble]
  | cons f fs ih =>
    rw [assemble]
    split
    · simp
    · split
      · simp
      · split
        · simp
        · split
          · unfold copyAt
            split
            · simp
            · rw [Res.bind_ok]
              split
              · simp
              · exact ih _ _
          · exact ih _ _

theorem HsIn.check_ne_diverge (h : HsIn) : h.check.1 ≠ .diverge := by
  unfold HsIn.check
  split
  · simp
  · split
    · simp
    · split
      · simp
      · rename_i hm _ _ _ _
        have := assemble_ne_diverge hm.seq hm.length h.queued 0 (List.replicate hm.length 0)
        split <;> simp_all

theorem HsIn.deliver_ne_diverge (h : HsIn) (a b : Bytes) : (h.deliver a b).1 ≠ .diverge := by
  unfold HsIn.deliver
  split
  · unfold HsIn.received
    split
    · simp
    · split
      · simp
      · exact HsIn.check_ne_diverge _
  · simp

/-! ### One frame -/

theorem HsIn.processFrame_none {h h' : HsIn} (hi : h.frame.Inv (hsFraming h.datagram))
    (hp : h.processFrame = (none, h')) :
    ∃ f, h' = { h with frame := f } ∧ f.Inv (hsFraming h.datagram) ∧ f.needed ≠ 0 ∧
      h.frame.future (hsFraming h.datagram) [] = [] ∧
      ∀ s, f.future (hsFraming h.datagram) s = h.frame.future (hsFraming h.datagram) s := by
  have hs := FrameReader.process_spec _ (hsFraming_headerLen h.datagram) h.frame hi
  unfold HsIn.processFrame at hp
  rcases hx : h.frame.process (hsFraming h.datagram) with ⟨e, f⟩
  rw [hx] at hs hp
  cases e with
  | none =>
    simp only [Prod.mk.injEq, true_and] at hp
    exact ⟨f, hp.symm, hs.1, hs.2.1, hs.2.2.1, hs.2.2.2⟩
  | some e => cases e <;> simp at hp

theorem HsIn.processFrame_some {h h' : HsIn} {r : Res (Option Msg)} (hi : h.frame.Inv (hsFraming h.datagram))
    (hp : h.processFrame = (some r, h')) :
    ∃ f, f.Inv (hsFraming h.datagram) ∧
      ((∃ e, r = .err e ∧ h' = { h with frame := f } ∧ ∀ s,
          h.frame.future (hsFraming h.datagram) s = .error e :: f.future (hsFraming h.datagram) s) ∨
       (∃ hdr body, r = ({ h with frame := f }.deliver hdr body).1 ∧ h' = ({ h with frame := f }.deliver hdr body).2 ∧
          ∀ s, h.frame.future (hsFraming h.datagram) s = .ok (hdr, body) :: f.future (hsFraming h.datagram) s)) := by
  have hs := FrameReader.process_spec _ (hsFraming_headerLen h.datagram) h.frame hi
  unfold HsIn.processFrame at hp
  rcases hx : h.frame.process (hsFraming h.datagram) with ⟨e, f⟩
  rw [hx] at hs hp
  cases e with
  | none => simp at hp
  | some e =>
    cases e with
    | error e =>
      simp only [Prod.mk.injEq, Option.some.injEq] at hp
      exact ⟨f, hs.1, Or.inl ⟨e, hp.1.symm, hp.2.symm, hs.2⟩⟩
    | ok x =>
      obtain ⟨hdr, body⟩ := x
      simp only [Prod.mk.injEq, Option.some.injEq] at hp
      exact ⟨f, hs.1, Or.inr ⟨hdr, body, hp.1.symm, hp.2.symm, hs.2⟩⟩

theorem HsIn.readRecord_inv {onAck : Bytes → Res Unit} {h h' : HsIn} {r : Except Err Plaintext}
    (hr : h.readRecord onAck r = .ok h') :
    h'.datagram = h.datagram ∧ h'.nonblocking = h.nonblocking ∧ h'.epoch = h.epoch ∧ h'.msgSeq = h.msgSeq ∧
    h'.queued = h.queued ∧ ∀ d : Framing, h.frame.Inv d → h'.frame.Inv d := by
  rcases HsIn.readRecord_ok hr with ⟨pt, _, _, _, rfl⟩ | ⟨pt, _, _, rfl⟩
  · exact ⟨rfl, rfl, rfl, rfl, rfl, fun d hd => FrameReader.inv_addChunk hd _⟩
  · exact ⟨rfl, rfl, rfl, rfl, rfl, fun d hd => hd⟩

theorem HsIn.readRecord_ne_diverge {onAck : Bytes → Res Unit} (hack : ∀ b, onAck b ≠ .diverge) (h : HsIn)
    (r : Except Err Plaintext) : h.readRecord onAck r ≠ .diverge := by
  unfold HsIn.readRecord
  split
  · simp
  · rename_i pt
    have := hack pt.fragment
    repeat' split
    all_goals first | (simp; done) | (cases hx : onAck pt.fragment <;> simp_all)

/-- The bound on the rounds is not reached. -/
theorem HsIn.readLoop_ne_diverge {onAck : Bytes → Res Unit} (hack : ∀ b, onAck b ≠ .diverge) (n : Nat) (feed : Feed)
    (h : HsIn) (hi : h.frame.Inv (hsFraming h.datagram))
    (hn : (if h.frame.needed > 0 then 2 * feed.length + 1 else 2 * feed.length + 2) ≤ n) :
    (h.readLoop onAck n feed).1 ≠ .diverge := by
  induction n generalizing feed h with
  | zero => split at hn <;> omega
  | succ n ih =>
    have hstep : ∀ (feed : Feed) (h : HsIn), h.frame.Inv (hsFraming h.datagram) → 2 * feed.length + 1 ≤ n →
        ∀ out : Res (Option Msg) × HsIn × Feed, out = (match h.processFrame with
          | (some r, h') => (r, h', feed)
          | (none, h') =>
            if h.nonblocking then (.err .wouldBlock, h', feed) else HsIn.readLoop onAck n feed h') →
        out.1 ≠ .diverge := by
      intro feed h hi hn out hout
      rcases hp : h.processFrame with ⟨r, h'⟩
      rw [hp] at hout
      cases r with
      | some r =>
        dsimp only at hout; subst hout
        obtain ⟨f, _, ⟨e, he, _⟩ | ⟨hdr, body, hr, _⟩⟩ := HsIn.processFrame_some hi hp
        · simp [he]
        · rw [hr]; exact HsIn.deliver_ne_diverge _ _ _
      | none =>
        dsimp only at hout
        obtain ⟨f, rfl, hf, hnd, _⟩ := HsIn.processFrame_none hi hp
        split at hout
        · subst hout; simp
        · subst hout
          refine ih feed _ hf ?_
          rw [if_pos (by dsimp only; omega)]; exact hn
    generalize hout : h.readLoop onAck (n + 1) feed = out
    rw [HsIn.readLoop.eq_def] at hout
    dsimp only at hout
    by_cases hneed : h.frame.needed > 0
    · rw [if_pos hneed] at hout hn
      cases feed with
      | nil => subst hout; simp
      | cons rec feed =>
        simp only [List.length_cons] at hn
        dsimp only at hout
        cases hrec : h.readRecord onAck rec with
        | ok h1 =>
          rw [hrec] at hout
          have hp := HsIn.readRecord_inv hrec
          exact hstep feed h1 (by rw [hp.1]; exact hp.2.2.2.2.2 _ hi) (by omega) _ hout.symm
        | err e =>
          rw [hrec] at hout; dsimp only at hout
          split at hout
          · subst hout; simp
          · exact hstep feed h hi (by omega) _ hout.symm
        | panic => rw [hrec] at hout; subst hout; simp
        | diverge => exact absurd hrec (HsIn.readRecord_ne_diverge hack h rec)
    · rw [if_neg hneed] at hout hn
      exact hstep feed h hi (by omega) _ hout.symm

theorem future_nil_of_needed {d : Framing} (hd : d.headerLen ≠ 0) {f : FrameReader} (hi : f.Inv d)
    (hn : f.needed > 0) : f.future d [] = [] := by
  have hs := FrameReader.process_spec d hd f hi
  have hp : f.process d = (none, f) := by
    rw [FrameReader.process, FrameReader.processN, if_neg (by omega)]
  rw [hp] at hs
  exact hs.2.2.1

/-- The two ways through `ReadMessage`. -/
theorem HsIn.readMessage_cases (onAck : Bytes → Res Unit) (feed : Feed) (h : HsIn) :
    (h.check.1 = .ok none ∧ h.readMessage onAck feed = h.check.2.readLoop onAck (2 * feed.length + 2) feed) ∨
    (h.check.1 ≠ .ok none ∧ h.readMessage onAck feed = (h.check.1, h.check.2, feed)) := by
  unfold HsIn.readMessage
  rcases hc : h.check with ⟨r, h1⟩
  by_cases hr : r = .ok none
  · subst hr; exact Or.inl ⟨rfl, rfl⟩
  · refine Or.inr ⟨hr, ?_⟩
    split
    · rename_i heq
      simp only [Prod.mk.injEq] at heq
      exact absurd heq.1 hr
    · rename_i heq
      simp only [Prod.mk.injEq] at heq
      rw [heq.1, heq.2]

/-! ### Frames of handshake streams -/

theorem frameEvents_no_error (d : Framing) (htotal : ∀ h, ∃ n, d.frameLen h = .ok n) (s : Bytes) (e : Err) :
    .error e ∉ frameEvents d s := by
  fun_induction frameEvents d s with
  | case1 s h => simp
  | case2 s h e he ih => obtain ⟨n, hn⟩ := htotal (s.take d.headerLen); rw [hn] at he; simp at he
  | case3 s h n hn hlt => simp
  | case4 s h n hn hlt ih => simpa using ih

theorem future_no_error (d : Framing) (htotal : ∀ h, ∃ n, d.frameLen h = .ok n) (f : FrameReader) (s : Bytes)
    (e : Err) : .error e ∉ f.future d s := by
  unfold FrameReader.future
  dsimp only
  split
  · split
    · simp
    · simpa using frameEvents_no_error d htotal _ e
  · exact frameEvents_no_error d htotal _ e

theorem hsFraming_total (d : Bool) (h : Bytes) : ∃ n, (hsFraming d).frameLen h = .ok n := ⟨_, rfl⟩

/-- A stream starting with a whole frame. -/
theorem frameEvents_cons (d : Framing) (hdr body s : Bytes) (h0 : d.headerLen ≠ 0) (hl : hdr.length = d.headerLen)
    (hf : d.frameLen hdr = .ok body.length) :
    frameEvents d (hdr ++ body ++ s) = .ok (hdr, body) :: frameEvents d s := by
  rw [frameEvents, dif_neg (by simp; omega)]
  have h1 : (hdr ++ body ++ s).take d.headerLen = hdr := by
    rw [List.append_assoc, ← hl]; exact List.take_left' rfl
  have h2 : (hdr ++ body ++ s).drop d.headerLen = body ++ s := by
    rw [List.append_assoc, ← hl]; exact List.drop_left' rfl
  rw [h1, h2, hf]
  simp only [List.length_append]
  rw [if_neg (by omega), List.take_left' rfl, List.drop_left' rfl]

end Verif.Handshake

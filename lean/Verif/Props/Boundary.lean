import Verif.Props.HandshakeTls

/-
Property C61: handshake messages do not span a change of keys.
-/

namespace Verif.Handshake

open Verif Verif.Record

/-! ### Specification -/

/-- What one ReadMessage call returns, the handshake bytes of the records it read, and the state afterwards. -/
def HsIn.readOnce (onAck : Bytes → Res Unit) (h : HsIn) (feed : Feed) : Res (Option Msg) × Bytes × HsIn :=
  ((h.readMessage onAck feed).1,
    acceptedBytes h.epoch (feed.take (feed.length - (h.readMessage onAck feed).2.2.length)), (h.readMessage onAck feed).2.1)

/-- Several ReadMessage calls: the results, the handshake bytes of the records read, the state afterwards. -/
def HsIn.reads (onAck : Bytes → Res Unit) : HsIn → List Feed → List (Res (Option Msg)) × Bytes × HsIn
  | h, [] => ([], [], h)
  | h, feed :: feeds =>
    let a := h.readOnce onAck feed
    let b := HsIn.reads onAck a.2.2 feeds
    (a.1 :: b.1, a.2.1 ++ b.2.1, b.2.2)

/-- What was read with one set of keys. -/
structure Era where
  msgs : List Msg
  bytes : Bytes

/-- A history: under each set of keys some ReadMessage calls, then a change of keys. `none`: keys are changed though the last
call returned no message (the state machine does not, it changes keys in response to a message), or the change is refused. -/
def HsIn.eras (onAck : Bytes → Res Unit) : HsIn → List (List Feed × Nat) → Option (List Era × HsIn)
  | h, [] => some ([], h)
  | h, (feeds, epoch) :: more =>
    match (h.reads onAck feeds).1.getLast?, (h.reads onAck feeds).2.2.rekeyIn epoch with
    | some (.ok (some _)), .ok h' =>
      match HsIn.eras onAck h' more with
      | some (es, h'') => some (⟨messages (h.reads onAck feeds).1, (h.reads onAck feeds).2.1⟩ :: es, h'')
      | none => none
    | _, _ => none

/-! ### Bytes in the frame reader -/

/-- The bytes a frame reader holds. -/
def _root_.Verif.Record.FrameReader.held (f : FrameReader) : Bytes :=
  (if f.inBody then f.header else []) ++ f.filled ++ f.remainder

theorem processN_held (d : Framing) (n : Nat) (f : FrameReader) (hi : f.Inv d) :
    match f.processN d n with
    | (none, g) => g.held = f.held
    | (some (.error _), _) => True
    | (some (.ok (hdr, body)), g) => f.held = hdr ++ body ++ g.held ∧ g.inBody = false ∧ g.filled = [] ∧
        hdr.length = d.headerLen ∧ d.frameLen hdr = .ok body.length := by
  induction n generalizing f with
  | zero => rfl
  | succ n ih =>
    rw [FrameReader.processN]
    by_cases hz : f.needed = 0
    · have hle := (FrameReader.needed_eq_zero hi.1).mp hz
      obtain ⟨h1, h2, h3, h4, h5, h6⟩ := FrameReader.fill_eq hi.1 hle
      have hfr : f.fill.filled ++ f.fill.remainder = f.filled ++ f.remainder := by
        rw [h1, h2, List.take_append_drop]
      rw [if_pos hz]
      dsimp only
      rw [if_neg (by omega)]
      cases hb : f.inBody with
      | true =>
        obtain ⟨hl, hf⟩ := hi.3 hb
        rw [if_pos rfl]
        dsimp only
        refine ⟨?_, rfl, rfl, by rw [h5]; exact hl, by rw [h5, h3]; exact hf⟩
        simp only [FrameReader.held, hb, if_true, Bool.false_eq_true, if_false, List.nil_append, h5, List.append_assoc, hfr]
      | false =>
        rw [if_neg (by simp)]
        cases hf : d.frameLen f.fill.filled with
        | error e => trivial
        | ok len =>
          dsimp only
          have := ih { f.fill with inBody := true, header := f.fill.filled, target := len, filled := [] }
            ⟨by simp, by simp, fun _ => ⟨by rw [h3]; exact hi.2 hb, hf⟩⟩
          have hh : FrameReader.held { f.fill with inBody := true, header := f.fill.filled, target := len, filled := [] } =
              f.held := by
            simp only [FrameReader.held, hb, if_true, Bool.false_eq_true, if_false, List.nil_append, List.append_nil, hfr]
          rw [hh] at this
          exact this
    · rw [if_neg hz]

theorem frameMsg_marshal (hdr body : Bytes) (h1 : hdr.length = (hsFraming false).headerLen)
    (h2 : (hsFraming false).frameLen hdr = .ok body.length) : (frameMsg hdr body).marshal false = hdr ++ body := by
  simp only [hsFraming, Bool.false_eq_true, if_false, Except.ok.injEq] at h1 h2
  rcases hdr with _ | ⟨a, t⟩
  · simp at h1
  · have ht : t.length = 3 := by simpa using h1
    rw [h1] at h2
    have h2' : beNat t = body.length := h2
    have := beBytes_beNat t
    rw [ht, h2'] at this
    simp [Msg.marshal, frameMsg, this]

/-! ### One call -/

/-- Relation kept by the loop of ReadMessage over TLS: no handshake byte is lost, and none comes twice. -/
def BytesStep (h : HsIn) (used : Feed) (r : Res (Option Msg)) (h' : HsIn) : Prop :=
  TlsState h → TlsState h' ∧ h'.epoch = h.epoch ∧
    match r with
    | .ok none => False
    | .ok (some m) => h.frame.held ++ acceptedBytes h.epoch used = m.marshal false ++ h'.frame.held ∧
        h'.frame.inBody = false ∧ h'.frame.filled = []
    | _ => h.frame.held ++ acceptedBytes h.epoch used = h'.frame.held

theorem held_addChunk (f : FrameReader) (c : Bytes) : (f.addChunk c).held = f.held ++ c := by
  cases f with | mk b h t l r => cases b <;> simp [FrameReader.held, FrameReader.addChunk, List.append_assoc]

theorem HsIn.readRecord_rejected {onAck : Bytes → Res Unit} {h : HsIn} {r : Except Err Plaintext}
    (hr : ∀ h', h.readRecord onAck r ≠ .ok h') (used : Feed) :
    acceptedBytes h.epoch (r :: used) = acceptedBytes h.epoch used := by
  cases r with
  | error e => rfl
  | ok pt =>
    have hno : ¬ (pt.contentType = 22 ∧ pt.epoch = h.epoch) := fun hh =>
      hr _ (HsIn.readRecord_accept onAck h pt hh.1 hh.2)
    simp only [acceptedBytes, if_neg hno, List.nil_append]

theorem HsIn.processFrame_bytes {h h' : HsIn} {r : Option (Res (Option Msg))} (hs : TlsState h)
    (hp : h.processFrame = (r, h')) : TlsState h' ∧ h'.epoch = h.epoch ∧
      match (generalizing := false) r with
      | none => h'.frame.held = h.frame.held
      | some r => ∃ m, r = .ok (some m) ∧ h.frame.held = m.marshal false ++ h'.frame.held ∧
          h'.frame.inBody = false ∧ h'.frame.filled = [] := by
  have hh := processN_held (hsFraming false) 2 h.frame hs.inv
  have hi := FrameReader.processN_spec (hsFraming false) (hsFraming_headerLen false) 2 h.frame hs.inv (by split <;> omega)
  have htls := hs.tls
  have hq := hs.queue
  obtain ⟨dg, nb, ep, fr, ms, q, rc⟩ := h
  dsimp only at htls hq hh hi
  subst htls hq
  unfold HsIn.processFrame FrameReader.process at hp
  dsimp only at hp
  generalize FrameReader.processN (hsFraming false) 2 fr = out at hp hh hi
  obtain ⟨e, f⟩ := out
  have hT : TlsState ⟨false, nb, ep, f, ms, [], rc⟩ := ⟨hi.1, rfl, rfl⟩
  rcases e with _ | ⟨e | ⟨hdr, body⟩⟩
  · simp only [Prod.mk.injEq] at hp
    obtain ⟨rfl, rfl⟩ := hp
    exact ⟨hT, rfl, hh⟩
  · have := hi.2 []
    have hno := future_no_error (hsFraming false) (hsFraming_total _) fr [] e
    rw [this] at hno
    exact absurd List.mem_cons_self hno
  · have hdel : (⟨false, nb, ep, f, ms, [], rc⟩ : HsIn).deliver hdr body =
        (.ok (some (frameMsg hdr body)), ⟨false, nb, ep, f, ms, [], rc⟩) := if_neg (by simp)
    dsimp only at hp
    rw [hdel] at hp
    simp only [Prod.mk.injEq] at hp
    obtain ⟨rfl, rfl⟩ := hp
    obtain ⟨a, b, c, d, e⟩ := hh
    exact ⟨hT, rfl, _, rfl, by rw [frameMsg_marshal hdr body d e]; exact a, b, c⟩

theorem HsIn.readLoop_bytes (onAck : Bytes → Res Unit) (n : Nat) (feed : Feed) (h : HsIn) :
    ∃ used, feed = used ++ (h.readLoop onAck n feed).2.2 ∧
      BytesStep h used (h.readLoop onAck n feed).1 (h.readLoop onAck n feed).2.1 := by
  apply HsIn.readLoop_rel onAck fun h used _ r h' => BytesStep h used r h'
  · intro h _ hs; exact ⟨hs, rfl, by simp [acceptedBytes]⟩
  · intro h _ hs; exact ⟨hs, rfl, by simp [acceptedBytes]⟩
  · intro h r e _ hr hs
    refine ⟨hs, rfl, ?_⟩
    rw [HsIn.readRecord_rejected (by rw [hr]; simp)]
    simp [acceptedBytes]
  · intro h r _ hr hs
    refine ⟨hs, rfl, ?_⟩
    rw [HsIn.readRecord_rejected (by rw [hr]; simp)]
    simp [acceptedBytes]
  · intro h r _ hr hs
    refine ⟨hs, rfl, ?_⟩
    rw [HsIn.readRecord_rejected (by rw [hr]; simp)]
    simp [acceptedBytes]
  · intro h r h' _ hp hs
    obtain ⟨h1, h2, m, rfl, h3, h4⟩ := HsIn.processFrame_bytes hs hp
    exact ⟨h1, h2, by simpa [acceptedBytes] using h3, h4⟩
  · intro h h' _ _ hp hs
    obtain ⟨h1, h2, h3⟩ := HsIn.processFrame_bytes hs hp
    exact ⟨h1, h2, by simp [acceptedBytes, h3]⟩
  · intro h h' used _ r h'' hp hR hs
    obtain ⟨h1, h2, h3⟩ := HsIn.processFrame_bytes hs hp
    have := hR h1
    rw [h2, h3] at this
    exact this
  · intro h rec h' used _ r h'' hp hR hs
    have hpar := HsIn.readRecord_inv hp
    have hs' : TlsState h' := ⟨hpar.2.2.2.2.2 _ hs.inv, hpar.1.trans hs.tls, hpar.2.2.2.2.1.trans hs.queue⟩
    have hacc : h.frame.held ++ acceptedBytes h.epoch (rec :: used) = h'.frame.held ++ acceptedBytes h.epoch used := by
      rcases HsIn.readRecord_ok hp with ⟨pt, rfl, h22, hep, rfl⟩ | ⟨pt, rfl, hno, rfl⟩
      · simp only [acceptedBytes, h22, hep, and_self, if_true, held_addChunk, List.append_assoc]
      · simp only [acceptedBytes, if_neg hno, List.nil_append]
    have := hR hs'
    rw [hpar.2.2.1] at this
    rw [hacc]
    exact this
  · intro h rec used _ r h'' hp hR hs
    rw [HsIn.readRecord_rejected (by rw [hp]; simp)]
    exact hR hs

theorem HsIn.readOnce_bytes (onAck : Bytes → Res Unit) (h : HsIn) (feed : Feed) (hs : TlsState h) :
    TlsState (h.readOnce onAck feed).2.2 ∧ (h.readOnce onAck feed).2.2.epoch = h.epoch ∧
    match (h.readOnce onAck feed).1 with
    | .ok none => False
    | .ok (some m) => h.frame.held ++ (h.readOnce onAck feed).2.1 = m.marshal false ++ (h.readOnce onAck feed).2.2.frame.held ∧
        (h.readOnce onAck feed).2.2.frame.inBody = false ∧ (h.readOnce onAck feed).2.2.frame.filled = []
    | _ => h.frame.held ++ (h.readOnce onAck feed).2.1 = (h.readOnce onAck feed).2.2.frame.held := by
  have hcheck : h.check = (.ok none, h) := by unfold HsIn.check; rw [hs.queue]
  have heq : h.readMessage onAck feed = h.readLoop onAck (2 * feed.length + 2) feed := by
    unfold HsIn.readMessage; rw [hcheck]
  unfold HsIn.readOnce
  dsimp only
  rw [heq]
  obtain ⟨used, hu, hR⟩ := HsIn.readLoop_bytes onAck (2 * feed.length + 2) feed h
  have hlen := congrArg List.length hu
  rw [List.length_append] at hlen
  have htake : feed.take (feed.length - (h.readLoop onAck (2 * feed.length + 2) feed).2.2.length) = used := by
    rw [show feed.length - (h.readLoop onAck (2 * feed.length + 2) feed).2.2.length = used.length by omega]
    exact (List.prefix_iff_eq_take.mp ⟨_, hu.symm⟩).symm
  rw [htake]
  exact hR hs

theorem messages_cons (r : Res (Option Msg)) (rs : List (Res (Option Msg))) :
    messages (r :: rs) = (match r with | .ok (some m) => [m] | _ => []) ++ messages rs := by
  unfold messages
  rw [List.filterMap_cons]
  rcases r with ⟨_ | m⟩ | _ | _ | _ <;> rfl

theorem HsIn.reads_bytes (onAck : Bytes → Res Unit) (feeds : List Feed) (h : HsIn) (hs : TlsState h) :
    TlsState (h.reads onAck feeds).2.2 ∧ (h.reads onAck feeds).2.2.epoch = h.epoch ∧
    h.frame.held ++ (h.reads onAck feeds).2.1 =
      (messages (h.reads onAck feeds).1).flatMap (Msg.marshal false) ++ (h.reads onAck feeds).2.2.frame.held ∧
    (∀ m, (h.reads onAck feeds).1.getLast? = some (.ok (some m)) →
      (h.reads onAck feeds).2.2.frame.inBody = false ∧ (h.reads onAck feeds).2.2.frame.filled = []) := by
  induction feeds generalizing h with
  | nil => exact ⟨hs, rfl, by simp [HsIn.reads, messages], by simp [HsIn.reads]⟩
  | cons feed feeds ih =>
    obtain ⟨a1, a2, a3⟩ := HsIn.readOnce_bytes onAck h feed hs
    simp only [HsIn.reads]
    generalize h.readOnce onAck feed = a at *
    obtain ⟨r, bs, h1⟩ := a
    dsimp only at *
    obtain ⟨b1, b2, b3, b4⟩ := ih h1 a1
    generalize hb : h1.reads onAck feeds = b at *
    refine ⟨b1, b2.trans a2, ?_, fun m hm => ?_⟩
    · rw [← List.append_assoc, messages_cons, List.flatMap_append, List.append_assoc (List.flatMap _ _), ← b3]
      rcases r with ⟨_ | m⟩ | _ | _ | _
      · exact a3.elim
      · rw [a3.1]; simp
      all_goals rw [a3]; simp
    · cases feeds with
      | nil =>
        subst hb
        simp only [HsIn.reads, List.getLast?_singleton, Option.some.injEq] at hm
        subst hm
        exact a3.2
      | cons f fs =>
        refine b4 m ?_
        subst hb
        simp only [HsIn.reads] at hm ⊢
        rwa [List.getLast?_cons_cons] at hm

/-! ### C61 -/

theorem HsIn.eras_bytes {onAck : Bytes → Res Unit} {hist : List (List Feed × Nat)} {h0 : HsIn} {es : List Era} {h : HsIn}
    (hs : TlsState h0) (h0h : h0.frame.held = []) (he : h0.eras onAck hist = some (es, h)) :
    TlsState h ∧ h.frame.held = [] ∧ ∀ e ∈ es, e.bytes = e.msgs.flatMap (Msg.marshal false) := by
  induction hist generalizing h0 es h with
  | nil =>
    simp only [HsIn.eras, Option.some.injEq, Prod.mk.injEq] at he
    obtain ⟨rfl, rfl⟩ := he
    exact ⟨hs, h0h, by simp⟩
  | cons x more ih =>
    obtain ⟨feeds, epoch⟩ := x
    obtain ⟨b1, b2, b3, b4⟩ := HsIn.reads_bytes onAck feeds h0 hs
    rw [HsIn.eras] at he
    split at he
    · rename_i m h' hm hk
      have hidle := b4 m hm
      unfold HsIn.rekeyIn at hk
      split at hk
      · cases hk
      · rename_i hrem
        have hrem' : (h0.reads onAck feeds).2.2.frame.remainder = [] := by simpa using hrem
        have hheld : (h0.reads onAck feeds).2.2.frame.held = [] := by
          simp [FrameReader.held, hidle.1, hidle.2, hrem']
        simp only [Res.ok.injEq] at hk
        subst hk
        split at he
        · rename_i es' h'' hmore
          simp only [Option.some.injEq, Prod.mk.injEq] at he
          obtain ⟨rfl, rfl⟩ := he
          obtain ⟨c1, c2, c3⟩ := ih (h0 := { (h0.reads onAck feeds).2.2 with epoch := epoch })
              ⟨b1.inv, b1.tls, b1.queue⟩ hheld hmore
          refine ⟨c1, c2, fun e he => ?_⟩
          rcases List.mem_cons.1 he with rfl | he
          · rw [h0h, hheld, List.nil_append, List.append_nil] at b3
            exact b3
          · exact c3 e he
        · cases he
    · cases he

theorem fresh_new (nb : Bool) : TlsState (HsIn.new false nb) ∧ (HsIn.new false nb).frame.held = [] :=
  ⟨⟨FrameReader.inv_new _, rfl, rfl⟩, by simp [HsIn.new, FrameReader.held, FrameReader.new]⟩

/-- Over TLS, keys being changed in response to a message: under each set of keys, the handshake bytes of the records read are
the messages returned, one after the other, and nothing more. So no message returned has a byte of a record that was
protected with other keys than the first byte of the message was. Missing: DTLS, see `C61_dtls_queue_fails`. -/
theorem C61_tls_partial (onAck : Bytes → Res Unit) (nonblocking : Bool) (hist : List (List Feed × Nat)) (es : List Era) (h : HsIn)
    (hh : (HsIn.new false nonblocking).eras onAck hist = some (es, h)) :
    (∀ e ∈ es, e.bytes = e.msgs.flatMap (Msg.marshal false)) ∧
    ∀ feeds, (messages (h.reads onAck feeds).1).flatMap (Msg.marshal false) <+: (h.reads onAck feeds).2.1 := by
  obtain ⟨c1, c2, c3⟩ := HsIn.eras_bytes (fresh_new nonblocking).1 (fresh_new nonblocking).2 hh
  refine ⟨c3, fun feeds => ?_⟩
  have := (HsIn.reads_bytes onAck feeds h c1).2.2.1
  rw [c2, List.nil_append] at this
  exact ⟨_, this.symm⟩

/-- Over TLS the change of keys is refused, with decode_error, exactly if the records read carry more than the messages
returned. -/
theorem C61_tls_refused (onAck : Bytes → Res Unit) (nonblocking : Bool) (hist : List (List Feed × Nat)) (es : List Era)
    (h : HsIn) (hh : (HsIn.new false nonblocking).eras onAck hist = some (es, h)) (feeds : List Feed) (m : Msg)
    (hm : (h.reads onAck feeds).1.getLast? = some (.ok (some m))) (epoch : Nat) :
    (h.reads onAck feeds).2.2.rekeyIn epoch = .err (.alert 50) ↔
      (h.reads onAck feeds).2.1 ≠ (messages (h.reads onAck feeds).1).flatMap (Msg.marshal false) := by
  obtain ⟨c1, c2, _⟩ := HsIn.eras_bytes (fresh_new nonblocking).1 (fresh_new nonblocking).2 hh
  obtain ⟨_, _, b3, b4⟩ := HsIn.reads_bytes onAck feeds h c1
  have hidle := b4 m hm
  have hheld : (h.reads onAck feeds).2.2.frame.held = (h.reads onAck feeds).2.2.frame.remainder := by
    simp [FrameReader.held, hidle.1, hidle.2]
  rw [c2, List.nil_append, hheld] at b3
  rw [b3]
  unfold HsIn.rekeyIn
  by_cases hr : (h.reads onAck feeds).2.2.frame.remainder = []
  · simp [hr]
  · simp [hr]

/-- A fragment in a record of the given epoch. -/
def recordOf (epoch : Nat) (bytes : Bytes) : Except Err Plaintext := .ok ⟨22, epoch, 0, bytes⟩

/-- Over DTLS a fragment that came in the clear is kept, and the message it makes is returned after the keys have changed,
without any record having been read under the new keys. -/
theorem C61_dtls_queue_fails : ∃ (m0 m1 : Msg) (h : HsIn), ((HsIn.new true false).eras (fun _ => .ok ())
      [([[recordOf 0 (m1.marshal true)], [recordOf 0 (m0.marshal true)]], 2)]).map Prod.snd = some h ∧
    (h.reads (fun _ => .ok ()) [[]]).1 = [.ok (some m1)] :=
  ⟨⟨2, 0, [1, 2], 0, 2⟩, ⟨8, 1, [3, 4, 5], 0, 3⟩, _, rfl, by decide⟩

/-- Three messages, the last two under other keys, one record holding the end of one and all of the next; and the same with
the change of keys between these two, which is refused. -/
example :
    let m0 : Bytes := (⟨2, 0, [1, 2], 0, 2⟩ : Msg).marshal false
    let m1 : Bytes := (⟨8, 0, [], 0, 0⟩ : Msg).marshal false
    let m2 : Bytes := (⟨20, 0, [5], 0, 1⟩ : Msg).marshal false
    ((HsIn.new false false).eras (fun _ => .ok ()) [([[recordOf 0 (m0.take 3), recordOf 0 (m0.drop 3)]], 2),
      ([[recordOf 2 (m1.take 2), recordOf 2 (m1.drop 2 ++ m2)], []], 3)]).isSome = true ∧
    ((HsIn.new false false).eras (fun _ => .ok ()) [([[recordOf 0 (m0.take 3), recordOf 0 (m0.drop 3)]], 2),
      ([[recordOf 2 (m1.take 2), recordOf 2 (m1.drop 2 ++ m2)]], 3)]).isSome = false := by
  decide

end Verif.Handshake

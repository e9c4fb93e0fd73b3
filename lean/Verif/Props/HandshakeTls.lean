import Verif.Props.HandshakeRead

/-
Property C19: handshake messages over TLS survive fragmentation.
-/

namespace Verif.Handshake

open Verif Verif.Record

/-! ### Reading -/

/-- Every outcome is a handshake record of the given epoch. -/
def AllHandshake (epoch : Nat) (feed : Feed) : Prop :=
  ∀ r ∈ feed, ∃ pt : Plaintext, r = .ok pt ∧ pt.contentType = 22 ∧ pt.epoch = epoch

/-- The message a TLS frame stands for. -/
def frameMsg (hdr body : Bytes) : Msg := ⟨hdr.getD 0 0, 0, body, 0, body.length⟩

/-- State of a TLS layer between calls. -/
structure TlsState (h : HsIn) : Prop where
  inv : h.frame.Inv (hsFraming false)
  tls : h.datagram = false
  queue : h.queued = []

/-- Relation kept by the loop of ReadMessage over TLS. -/
def TlsStep (h : HsIn) (used rest : Feed) (r : Res (Option Msg)) (h' : HsIn) : Prop :=
  TlsState h → AllHandshake h.epoch used →
    TlsState h' ∧ h'.epoch = h.epoch ∧ h'.nonblocking = h.nonblocking ∧
    match r with
    | .ok m => ∃ hdr body, m = some (frameMsg hdr body) ∧
        ∀ s, h.frame.future (hsFraming false) (acceptedBytes h.epoch used ++ s) =
          .ok (hdr, body) :: h'.frame.future (hsFraming false) s
    | .err e => e = .wouldBlock ∧ (h.nonblocking = false → rest = []) ∧
        h'.frame.future (hsFraming false) [] = [] ∧
        ∀ s, h.frame.future (hsFraming false) (acceptedBytes h.epoch used ++ s) =
          h'.frame.future (hsFraming false) s
    | .panic => False
    | .diverge => True

theorem HsIn.readLoop_tlsStep (onAck : Bytes → Res Unit) (n : Nat) (feed : Feed) (h : HsIn) :
    ∃ used, feed = used ++ (h.readLoop onAck n feed).2.2 ∧
      TlsStep h used (h.readLoop onAck n feed).2.2 (h.readLoop onAck n feed).1 (h.readLoop onAck n feed).2.1 := by
  have hok : ∀ (h : HsIn) r used, AllHandshake h.epoch (r :: used) →
      ∃ h', h.readRecord onAck r = .ok h' := by
    intro h r used ha
    obtain ⟨pt, rfl, h22, hep⟩ := ha r List.mem_cons_self
    exact ⟨_, HsIn.readRecord_accept onAck h pt h22 hep⟩
  apply HsIn.readLoop_rel onAck TlsStep
  · intro h rest hs _; exact ⟨hs, rfl, rfl, trivial⟩
  · intro h hneed hs _
    exact ⟨hs, rfl, rfl, rfl, fun _ => rfl, future_nil_of_needed (hsFraming_headerLen false) hs.inv hneed,
      fun _ => rfl⟩
  · intro h r e rest hr hs ha
    obtain ⟨h', hh⟩ := hok h r [] ha
    rw [hh] at hr; simp at hr
  · intro h r rest hr hs ha
    obtain ⟨h', hh⟩ := hok h r [] ha
    rw [hh] at hr; simp at hr
  · intro h r rest hr hs ha
    obtain ⟨h', hh⟩ := hok h r [] ha
    rw [hh] at hr; simp at hr
  · intro h r h' rest hp hs _
    have hi : h.frame.Inv (hsFraming h.datagram) := by rw [hs.tls]; exact hs.inv
    obtain ⟨f, hf, ⟨e, rfl, rfl, hfut⟩ | ⟨hdr, body, rfl, rfl, hfut⟩⟩ := HsIn.processFrame_some hi hp
    · have := future_no_error (hsFraming h.datagram) (hsFraming_total _) h.frame [] e
      rw [hfut] at this
      exact absurd List.mem_cons_self this
    · have hdel : { h with frame := f }.deliver hdr body = (.ok (some (frameMsg hdr body)), { h with frame := f }) :=
        if_neg (by simp [hs.tls])
      rw [hdel]
      rw [hs.tls] at hf hfut
      exact ⟨⟨hf, hs.tls, hs.queue⟩, rfl, rfl, hdr, body, rfl, hfut⟩
  · intro h h' rest hnb hp hs _
    have hi : h.frame.Inv (hsFraming h.datagram) := by rw [hs.tls]; exact hs.inv
    obtain ⟨f, rfl, hf, _, hnil, hfut⟩ := HsIn.processFrame_none hi hp
    rw [hs.tls] at hf hfut hnil
    refine ⟨⟨hf, hs.tls, hs.queue⟩, rfl, rfl, rfl, fun hb => ?_, by rw [hfut]; exact hnil, fun s => (hfut s).symm⟩
    rw [hnb] at hb; simp at hb
  · intro h h' used rest r h'' hp hR hs ha
    have hi : h.frame.Inv (hsFraming h.datagram) := by rw [hs.tls]; exact hs.inv
    obtain ⟨f, rfl, hf, _, hnil, hfut⟩ := HsIn.processFrame_none hi hp
    rw [hs.tls] at hf hfut hnil
    have := hR ⟨hf, hs.tls, hs.queue⟩ ha
    dsimp only at this
    simp only [hfut] at this
    exact this
  · intro h rec h' used rest r h'' hp hR hs ha
    obtain ⟨pt, rfl, h22, hep⟩ := ha rec List.mem_cons_self
    rw [HsIn.readRecord_accept onAck h pt h22 hep, Res.ok.injEq] at hp
    subst hp
    have := hR ⟨FrameReader.inv_addChunk hs.inv _, hs.tls, hs.queue⟩ fun r hr => ha r (List.mem_cons_of_mem _ hr)
    dsimp only at this
    simp only [FrameReader.future_addChunk, ← List.append_assoc] at this
    have hacc : acceptedBytes h.epoch (.ok pt :: used) = pt.fragment ++ acceptedBytes h.epoch used := by
      simp [acceptedBytes, h22, hep]
    rw [hacc]
    exact this
  · intro h rec used rest r h'' hp hR hs ha
    obtain ⟨h', hh⟩ := hok h rec _ ha
    rw [hh] at hp; simp at hp

theorem acceptedBytes_append (epoch : Nat) (a b : Feed) :
    acceptedBytes epoch (a ++ b) = acceptedBytes epoch a ++ acceptedBytes epoch b := by
  induction a with
  | nil => rfl
  | cons r a ih =>
    cases r with
    | error e => simpa [acceptedBytes] using ih
    | ok pt => simp [acceptedBytes, ih]

/-- One ReadMessage call over TLS, reading handshake records only. -/
theorem HsIn.readMessage_tls (onAck : Bytes → Res Unit) (hack : ∀ b, onAck b ≠ .diverge) (feed : Feed) (h : HsIn)
    (hs : TlsState h) (ha : AllHandshake h.epoch feed) :
    TlsState (h.readMessage onAck feed).2.1 ∧ (h.readMessage onAck feed).2.1.epoch = h.epoch ∧
    (h.readMessage onAck feed).2.1.nonblocking = h.nonblocking ∧
    AllHandshake h.epoch (h.readMessage onAck feed).2.2 ∧
    ((∃ hdr body, (h.readMessage onAck feed).1 = .ok (some (frameMsg hdr body)) ∧
        ∀ s, h.frame.future (hsFraming false) (acceptedBytes h.epoch feed ++ s) = .ok (hdr, body) ::
          (h.readMessage onAck feed).2.1.frame.future (hsFraming false)
            (acceptedBytes h.epoch (h.readMessage onAck feed).2.2 ++ s)) ∨
     ((h.readMessage onAck feed).1 = .err .wouldBlock ∧
        (h.nonblocking = false → (h.readMessage onAck feed).2.2 = []) ∧
        (h.readMessage onAck feed).2.1.frame.future (hsFraming false) [] = [] ∧
        ∀ s, h.frame.future (hsFraming false) (acceptedBytes h.epoch feed ++ s) =
          (h.readMessage onAck feed).2.1.frame.future (hsFraming false)
            (acceptedBytes h.epoch (h.readMessage onAck feed).2.2 ++ s))) := by
  have hcheck : h.check = (.ok none, h) := by unfold HsIn.check; rw [hs.queue]
  have heq : h.readMessage onAck feed = h.readLoop onAck (2 * feed.length + 2) feed := by
    unfold HsIn.readMessage; rw [hcheck]
  rw [heq]
  obtain ⟨used, hu, hR⟩ := HsIn.readLoop_tlsStep onAck (2 * feed.length + 2) feed h
  have hnd := HsIn.readLoop_ne_diverge hack (2 * feed.length + 2) feed h (by rw [hs.tls]; exact hs.inv)
    (by split <;> omega)
  generalize h.readLoop onAck (2 * feed.length + 2) feed = out at *
  obtain ⟨r, h', rest⟩ := out
  dsimp only at *
  have hau : AllHandshake h.epoch used := fun x hx => ha x (by rw [hu]; exact List.mem_append_left _ hx)
  have har : AllHandshake h.epoch rest := fun x hx => ha x (by rw [hu]; exact List.mem_append_right _ hx)
  obtain ⟨h1, h2, h3, h4⟩ := hR hs hau
  refine ⟨h1, h2, h3, har, ?_⟩
  have hacc : acceptedBytes h.epoch feed = acceptedBytes h.epoch used ++ acceptedBytes h.epoch rest := by
    rw [hu, acceptedBytes_append]
  cases r with
  | ok m =>
    obtain ⟨hdr, body, rfl, hfut⟩ := h4
    refine Or.inl ⟨hdr, body, rfl, fun s => ?_⟩
    rw [hacc, List.append_assoc, hfut]
  | err e =>
    obtain ⟨rfl, h5, h6, h7⟩ := h4
    refine Or.inr ⟨rfl, h5, h6, fun s => ?_⟩
    rw [hacc, List.append_assoc, h7]
  | panic => exact h4.elim
  | diverge => exact absurd rfl hnd

/-- `k` successive ReadMessage calls. -/
def HsIn.calls (onAck : Bytes → Res Unit) : Nat → Feed → HsIn → List (Res (Option Msg)) × HsIn × Feed
  | 0, feed, h => ([], h, feed)
  | k + 1, feed, h =>
    let r := h.readMessage onAck feed
    (r.1 :: (HsIn.calls onAck k r.2.2 r.2.1).1, (HsIn.calls onAck k r.2.2 r.2.1).2)

/-- The events of the stream, as far as the calls got. -/
theorem HsIn.calls_tls (onAck : Bytes → Res Unit) (hack : ∀ b, onAck b ≠ .diverge) (k : Nat) (feed : Feed) (h : HsIn)
    (hs : TlsState h) (ha : AllHandshake h.epoch feed) :
    ∃ evs : List (Bytes × Bytes), messages (h.calls onAck k feed).1 = evs.map (fun e => frameMsg e.1 e.2) ∧
      (∀ r ∈ (h.calls onAck k feed).1, r = .err .wouldBlock ∨ ∃ m, r = .ok (some m)) ∧
      ((h.calls onAck k feed).1.getLast? = some (.err .wouldBlock) →
        (h.calls onAck k feed).2.1.frame.future (hsFraming false) [] = []) ∧
      ∀ s, h.frame.future (hsFraming false) (acceptedBytes h.epoch feed ++ s) = evs.map .ok ++
        (h.calls onAck k feed).2.1.frame.future (hsFraming false)
          (acceptedBytes h.epoch (h.calls onAck k feed).2.2 ++ s) := by
  induction k generalizing feed h with
  | zero => exact ⟨[], rfl, by simp [HsIn.calls], by simp [HsIn.calls], fun s => rfl⟩
  | succ k ih =>
    obtain ⟨h1, h2, h3, h4, h5⟩ := HsIn.readMessage_tls onAck hack feed h hs ha
    obtain ⟨evs, e1, e2, e3, e4⟩ := ih (h.readMessage onAck feed).2.2 (h.readMessage onAck feed).2.1 h1
      (by rw [h2]; exact h4)
    rw [h2] at e4
    simp only [HsIn.calls]
    generalize hcl : HsIn.calls onAck k (h.readMessage onAck feed).2.2 (h.readMessage onAck feed).2.1 = cl at *
    have hlast : ∀ r, (r :: cl.1).getLast? = some (.err .wouldBlock) →
        (cl.1 = [] ∧ r = .err .wouldBlock) ∨ cl.1.getLast? = some (.err .wouldBlock) := by
      intro r hr
      cases hc : cl.1 with
      | nil => rw [hc] at hr; simp at hr; exact Or.inl ⟨rfl, hr⟩
      | cons a l => rw [hc, List.getLast?_cons_cons] at hr; exact Or.inr hr
    have hk0 : cl.1 = [] → cl.2.1 = (h.readMessage onAck feed).2.1 := by
      intro hnil
      cases k with
      | zero => rw [← hcl]; rfl
      | succ k => rw [← hcl] at hnil; simp [HsIn.calls] at hnil
    rcases h5 with ⟨hdr, body, hr, hfut⟩ | ⟨hr, _, hnil, hfut⟩
    · refine ⟨(hdr, body) :: evs, ?_, ?_, ?_, ?_⟩
      · rw [hr]; simp only [messages, List.filterMap_cons, List.map_cons]
        exact congrArg _ e1
      · intro r hm
        rcases List.mem_cons.mp hm with rfl | hm
        · exact Or.inr ⟨_, hr⟩
        · exact e2 r hm
      · intro hl
        rcases hlast _ hl with ⟨_, hh⟩ | hh
        · rw [hr] at hh; simp at hh
        · exact e3 hh
      · intro s; rw [hfut, e4]; rfl
    · refine ⟨evs, ?_, ?_, ?_, ?_⟩
      · rw [hr]; simp only [messages, List.filterMap_cons]
        exact e1
      · intro r hm
        rcases List.mem_cons.mp hm with rfl | hm
        · exact Or.inl hr
        · exact e2 r hm
      · intro hl
        rcases hlast _ hl with ⟨hh, _⟩ | hh
        · rw [hk0 hh]; exact hnil
        · exact e3 hh
      · intro s; rw [hfut, e4]

/-! ### Writing -/

/-- A handshake message as given to the handshake layer (HandshakeMessageFromBody, handshake-layer.go:103-118). -/
def ofBody (t : UInt8) (body : Bytes) : Msg := ⟨t, 0, body, 0, body.length⟩

theorem tlsFragments_more (room : Nat) (hr : 0 < room) (n : Nat) (b : Bytes) (hn : b.length ≤ n) :
    (tlsFragments.more room n b).flatten = b ∧
    ∀ f ∈ tlsFragments.more room n b, 0 < f.length ∧ f.length ≤ room := by
  induction n generalizing b with
  | zero =>
    have : b = [] := List.length_eq_zero_iff.mp (by omega)
    subst this
    simp [tlsFragments.more]
  | succ n ih =>
    rw [tlsFragments.more]
    split
    · simp_all
    · rename_i hb
      have hpos := List.length_pos_iff.mpr hb
      have := ih (b.drop room) (by simp; omega)
      refine ⟨by rw [List.flatten_cons, this.1, List.take_append_drop], fun f hf => ?_⟩
      rcases List.mem_cons.mp hf with rfl | hf
      · simp; omega
      · exact this.2 f hf

/-- C19 (writing). Laid end to end, the fragments written for a message are its encoding; each fits the room and
none is empty, so a peer never sees an empty handshake record. -/
theorem C19_fragments (room : Nat) (m : Msg) (fs : List Bytes) (hr : 4 < room) (hw : tlsWrite room m = .ok fs) :
    fs.flatten = m.marshal false ∧ ∀ f ∈ fs, 0 < f.length ∧ f.length ≤ room := by
  unfold tlsWrite at hw
  split at hw
  · simp at hw
  · rw [if_neg (by omega), Res.ok.injEq] at hw
    subst hw
    have := tlsFragments_more room (by omega) m.body.length (m.body.drop (room - 4)) (by simp)
    refine ⟨?_, fun f hf => ?_⟩
    · rw [List.flatten_cons]
      simp only [tlsFragments]
      rw [this.1]
      simp [Msg.marshal]
    · rcases List.mem_cons.mp hf with rfl | hf
      · simp only [tlsFragments, List.length_cons, List.length_append, beBytes_length, List.length_take]
        omega
      · exact this.2 f hf

theorem frameEvents_marshal (t : UInt8) (body s : Bytes) (hb : body.length < 2 ^ 24) :
    frameEvents (hsFraming false) ((ofBody t body).marshal false ++ s) =
      .ok (t :: beBytes 3 body.length, body) :: frameEvents (hsFraming false) s := by
  have := frameEvents_cons (hsFraming false) (t :: beBytes 3 body.length) body s (hsFraming_headerLen _)
    (by simp [hsFraming]) ?_
  · rw [← this]; rfl
  · simp only [hsFraming, Except.ok.injEq]
    rw [show (t :: beBytes 3 body.length).length - 3 = 1 by simp]
    rw [List.drop_succ_cons, List.drop_zero, beNat_beBytes_of_lt]
    exact hb

theorem frameEvents_marshals (ms : List (UInt8 × Bytes)) (hb : ∀ m ∈ ms, m.2.length < 2 ^ 24) (s : Bytes) :
    frameEvents (hsFraming false) ((ms.map fun m => (ofBody m.1 m.2).marshal false).flatten ++ s) =
      ms.map (fun m => .ok (m.1 :: beBytes 3 m.2.length, m.2)) ++ frameEvents (hsFraming false) s := by
  induction ms with
  | nil => rfl
  | cons m ms ih =>
    rw [List.map_cons, List.flatten_cons, List.append_assoc, frameEvents_marshal _ _ _ (hb m List.mem_cons_self),
      ih fun x hx => hb x (List.mem_cons_of_mem _ hx)]
    rfl

theorem frameEvents_nil (d : Framing) (hd : d.headerLen ≠ 0) : frameEvents d [] = [] := by
  rw [frameEvents, dif_pos (Or.inr (by simp; omega))]

theorem tlsState_new (nb : Bool) : TlsState (HsIn.new false nb) := ⟨FrameReader.inv_new _, rfl, rfl⟩

/-- The message in a frame event. -/
def eventMsg : FrameEvent → Msg
  | .ok (hdr, body) => frameMsg hdr body
  | .error _ => ⟨0, 0, [], 0, 0⟩

theorem allHandshake_map (pts : List Plaintext) (hp : ∀ pt ∈ pts, pt.contentType = 22 ∧ pt.epoch = 0) :
    AllHandshake 0 (pts.map .ok) ∧ acceptedBytes 0 (pts.map .ok) = (pts.map Plaintext.fragment).flatten := by
  constructor
  · intro r hr
    obtain ⟨pt, hpt, rfl⟩ := List.mem_map.mp hr
    exact ⟨pt, rfl, hp pt hpt⟩
  · induction pts with
    | nil => rfl
    | cons pt l ih =>
      simp only [List.map_cons, List.flatten_cons, acceptedBytes]
      rw [if_pos (hp pt List.mem_cons_self), ih fun x hx => hp x (List.mem_cons_of_mem _ hx)]

theorem future_new_marshals (nb : Bool) (ms : List (UInt8 × Bytes)) (hb : ∀ m ∈ ms, m.2.length < 2 ^ 24) :
    (HsIn.new false nb).frame.future (hsFraming false)
      ((ms.map fun m => (ofBody m.1 m.2).marshal false).flatten ++ []) =
      ms.map (fun m => .ok (m.1 :: beBytes 3 m.2.length, m.2)) := by
  show (FrameReader.new (hsFraming false)).future (hsFraming false) _ = _
  rw [FrameReader.future_new, frameEvents_marshals ms hb, frameEvents_nil _ (hsFraming_headerLen _),
    List.append_nil]

/-- C19 (reading), whatever the blocking mode. Messages (each under 2^24 bytes) whose encodings, laid end to end, were
cut into handshake records in any way: any number of ReadMessage calls returns the first few of them, in order and
unchanged, and nothing else but would-block; after a call that would block with no record left, all of them. -/
theorem C19_read_any_mode_partial (onAck : Bytes → Res Unit) (hack : ∀ b, onAck b ≠ .diverge) (nonblocking : Bool)
    (ms : List (UInt8 × Bytes)) (hb : ∀ m ∈ ms, m.2.length < 2 ^ 24) (pts : List Plaintext)
    (hp : ∀ pt ∈ pts, pt.contentType = 22 ∧ pt.epoch = 0)
    (hs : (pts.map Plaintext.fragment).flatten = (ms.map fun m => (ofBody m.1 m.2).marshal false).flatten) (k : Nat) :
    let out := (HsIn.new false nonblocking).calls onAck k (pts.map .ok)
    messages out.1 <+: ms.map (fun m => ofBody m.1 m.2) ∧
    (∀ r ∈ out.1, r = .err .wouldBlock ∨ ∃ m, r = .ok (some m)) ∧
    (out.1.getLast? = some (.err .wouldBlock) → out.2.2 = [] →
      messages out.1 = ms.map (fun m => ofBody m.1 m.2)) := by
  intro out
  obtain ⟨ha, hacc⟩ := allHandshake_map pts hp
  obtain ⟨evs, e1, e2, e3, e4⟩ := HsIn.calls_tls onAck hack k (pts.map .ok) _ (tlsState_new nonblocking) ha
  have h4 := e4 []
  rw [show (HsIn.new false nonblocking).epoch = 0 from rfl, hacc, hs, future_new_marshals nonblocking ms hb] at h4
  have h5 := congrArg (List.map eventMsg) h4
  rw [List.map_append, List.map_map, List.map_map] at h5
  have h6 : ms.map (fun m => ofBody m.1 m.2) = messages out.1 ++ ((HsIn.calls onAck k (pts.map .ok)
      (HsIn.new false nonblocking)).2.1.frame.future (hsFraming false) (acceptedBytes 0
        (HsIn.calls onAck k (pts.map .ok) (HsIn.new false nonblocking)).2.2 ++ [])).map eventMsg := by
    rw [show messages out.1 = _ from e1]
    exact h5
  refine ⟨⟨_, h6.symm⟩, e2, fun hl hrest => ?_⟩
  have hrest' : (HsIn.calls onAck k (pts.map .ok) (HsIn.new false nonblocking)).2.2 = [] := hrest
  rw [hrest', show acceptedBytes 0 [] ++ [] = [] from rfl, e3 hl, List.map_nil, List.append_nil] at h6
  exact h6.symm

theorem HsIn.calls_blocking (onAck : Bytes → Res Unit) (hack : ∀ b, onAck b ≠ .diverge)
    (evs : List (Bytes × Bytes)) (feed : Feed) (h : HsIn) (hs : TlsState h) (ha : AllHandshake h.epoch feed)
    (hnb : h.nonblocking = false)
    (hf : h.frame.future (hsFraming false) (acceptedBytes h.epoch feed ++ []) = evs.map .ok) :
    (h.calls onAck evs.length feed).1 = evs.map fun e => .ok (some (frameMsg e.1 e.2)) := by
  induction evs generalizing feed h with
  | nil => rfl
  | cons e evs ih =>
    obtain ⟨h1, h2, h3, h4, h5⟩ := HsIn.readMessage_tls onAck hack feed h hs ha
    rcases h5 with ⟨hdr, body, hr, hfut⟩ | ⟨hr, hrest, hnil, hfut⟩
    · rw [hfut, List.map_cons, List.cons.injEq, Except.ok.injEq] at hf
      rw [List.length_cons, HsIn.calls]
      dsimp only
      rw [hr, ih _ _ h1 (by rw [h2]; exact h4) (h3.trans hnb) (by rw [h2]; exact hf.2), ← hf.1]
      rfl
    · rw [hfut, hrest hnb] at hf
      rw [show acceptedBytes h.epoch [] ++ [] = [] from rfl, hnil] at hf
      simp at hf

/-- C19 (reading), blocking mode. As many ReadMessage calls as there are messages return exactly these messages, however
the encodings were cut into records. Missing in both: messages of exactly 2^24 bytes, see `C19_max_length_fails`. -/
theorem C19_read_blocking_partial (onAck : Bytes → Res Unit) (hack : ∀ b, onAck b ≠ .diverge)
    (ms : List (UInt8 × Bytes)) (hb : ∀ m ∈ ms, m.2.length < 2 ^ 24) (pts : List Plaintext)
    (hp : ∀ pt ∈ pts, pt.contentType = 22 ∧ pt.epoch = 0)
    (hs : (pts.map Plaintext.fragment).flatten = (ms.map fun m => (ofBody m.1 m.2).marshal false).flatten) :
    ((HsIn.new false false).calls onAck ms.length (pts.map .ok)).1 =
      ms.map fun m => .ok (some (ofBody m.1 m.2)) := by
  obtain ⟨ha, hacc⟩ := allHandshake_map pts hp
  have hf := future_new_marshals false ms hb
  rw [← hs, ← hacc] at hf
  have := HsIn.calls_blocking onAck hack (ms.map fun m => (m.1 :: beBytes 3 m.2.length, m.2)) (pts.map .ok)
    (HsIn.new false false) (tlsState_new false) ha rfl (by rw [List.map_map]; exact hf)
  rw [List.length_map, List.map_map] at this
  exact this

/-- The fragments written for a sequence of messages. -/
def writeAll (room : Nat) : List Msg → Res (List Bytes)
  | [] => .ok []
  | m :: ms => (tlsWrite room m).bind fun fs => (writeAll room ms).bind fun gs => .ok (fs ++ gs)

theorem writeAll_flatten (room : Nat) (hr : 4 < room) (ms : List Msg) (fs : List Bytes)
    (hw : writeAll room ms = .ok fs) : fs.flatten = (ms.map (Msg.marshal false)).flatten := by
  induction ms generalizing fs with
  | nil => simp only [writeAll, Res.ok.injEq] at hw; subst hw; rfl
  | cons m ms ih =>
    simp only [writeAll, Res.bind_eq_ok, Res.ok.injEq] at hw
    obtain ⟨a, h1, b, h2, rfl⟩ := hw
    rw [List.flatten_append, (C19_fragments room m a hr h1).1, ih b h2]
    rfl

/-- C19, write and read. Messages written one after the other, each fragment in a record of its own, and read by a
peer: the peer's ReadMessage calls return the messages. (That the record layer hands over what was written is C12.) -/
theorem C19_roundtrip_partial (onAck : Bytes → Res Unit) (hack : ∀ b, onAck b ≠ .diverge) (room : Nat) (hr : 4 < room)
    (ms : List (UInt8 × Bytes)) (hb : ∀ m ∈ ms, m.2.length < 2 ^ 24) :
    ∃ fs, writeAll room (ms.map fun m => ofBody m.1 m.2) = .ok fs ∧
      ∀ pts : List Plaintext, pts.map Plaintext.fragment = fs → (∀ pt ∈ pts, pt.contentType = 22 ∧ pt.epoch = 0) →
        ((HsIn.new false false).calls onAck ms.length (pts.map .ok)).1 = ms.map fun m => .ok (some (ofBody m.1 m.2)) := by
  have hex : ∃ fs, writeAll room (ms.map fun m => ofBody m.1 m.2) = .ok fs := by
    induction ms with
    | nil => exact ⟨[], rfl⟩
    | cons m ms ih =>
      obtain ⟨gs, hg⟩ := ih fun x hx => hb x (List.mem_cons_of_mem _ hx)
      have := hb m List.mem_cons_self
      refine ⟨(tlsFragments room (ofBody m.1 m.2)).1 :: (tlsFragments room (ofBody m.1 m.2)).2 ++ gs, ?_⟩
      rw [List.map_cons, writeAll, tlsWrite, if_neg (by simp only [ofBody]; omega), if_neg (by omega), hg]
      rfl
  obtain ⟨fs, hfs⟩ := hex
  refine ⟨fs, hfs, fun pts hpts hp => C19_read_blocking_partial onAck hack ms hb pts hp ?_⟩
  have h2 := writeAll_flatten room hr _ fs hfs
  rw [List.map_map] at h2
  rw [hpts, h2]
  rfl

/-- C19: messages longer than the length field can express are refused, and nothing else is. Missing: a body of exactly
2^24 bytes is accepted, see `C19_max_length_fails`. -/
theorem C19_oversize_refused_partial (room : Nat) (hr : 4 < room) (m : Msg) :
    (m.body.length > 2 ^ 24 → tlsWrite room m = .err .msg) ∧
    (m.body.length < 2 ^ 24 → ∃ fs, tlsWrite room m = .ok fs) := by
  constructor
  · intro h; rw [tlsWrite, if_pos h]
  · intro h; exact ⟨_, by rw [tlsWrite, if_neg (by omega), if_neg (by omega)]⟩

/-- C19 fails for messages of exactly 2^24 bytes, which WriteMessage accepts (`maxHandshakeMessageLen`,
handshake-layer.go:499): the length field wraps to zero, and the peer reads an empty message instead. -/
theorem C19_max_length_fails (t : UInt8) (body : Bytes) (hb : body.length = 2 ^ 24) :
    ∃ fs, tlsWrite (2 ^ 14) (ofBody t body) = .ok fs ∧
      frameEvents (hsFraming false) fs.flatten = .ok ([t, 0, 0, 0], []) :: frameEvents (hsFraming false) body := by
  have hw : tlsWrite (2 ^ 14) (ofBody t body) = .ok ((tlsFragments (2 ^ 14) (ofBody t body)).1 ::
      (tlsFragments (2 ^ 14) (ofBody t body)).2) := by
    rw [tlsWrite, if_neg (by simp only [ofBody]; omega), if_neg (by decide)]
  refine ⟨_, hw, ?_⟩
  rw [(C19_fragments _ _ _ (by decide) hw).1]
  have hm : (ofBody t body).marshal false = [t, 0, 0, 0] ++ [] ++ body := by
    simp only [Msg.marshal, ofBody, hb]
    rfl
  rw [hm]
  exact frameEvents_cons (hsFraming false) [t, 0, 0, 0] [] body (hsFraming_headerLen _) rfl rfl

/-- Two messages, one of them empty, in fragments of at most 6 bytes, read back. -/
example :
    writeAll 6 [ofBody 1 [1, 2, 3, 4, 5, 6, 7, 8, 9], ofBody 5 []] =
      .ok [[1, 0, 0, 9, 1, 2], [3, 4, 5, 6, 7, 8], [9], [5, 0, 0, 0]] ∧
    ((HsIn.new false false).calls (fun _ => .ok ()) 2
      [.ok ⟨22, 0, 0, [1, 0, 0]⟩, .ok ⟨22, 0, 1, [9, 1, 2, 3, 4, 5, 6, 7, 8, 9, 5, 0]⟩, .ok ⟨22, 0, 2, [0, 0]⟩]).1 =
      [.ok (some (ofBody 1 [1, 2, 3, 4, 5, 6, 7, 8, 9])), .ok (some (ofBody 5 []))] := by decide

end Verif.Handshake

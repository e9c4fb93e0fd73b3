import Verif.Conn.DatagramSending

/-
C81: what Read returns over an established DTLS connection is what the peer's Writes protected.
-/

namespace Verif.Props

open Verif Verif.Crypto Verif.Messages Verif.Negotiation Verif.Handshake Verif.Machine Verif.Spec Verif.Conn Verif.Record

/-! ### Specification

`Opened` and `Genuine` are in `Verif.Conn.DatagramReading`. -/

/-- Among the records that arrive, the AEAD of none of the first `n` generations of keys opens any, with whatever nonce, but those the
peer sealed with these keys: authenticity of the AEAD, restricted to what arrives. The key of generation `g` is the (g + 2)nd of a
connection, after those of the clear and of the handshake. -/
def NoForgedRecord (W : World) (cp : Params) (fromClient : Bool) (s : Bytes) (n : Nat) (wire : List WireRec) (frames : List FrameEvent) : Prop :=
  ∀ g nonce header body p, g ≤ n → .ok (header, body) ∈ frames → (guardOf W cp fromClient s g).aead.opening nonce body header = some p →
    ∃ w ∈ wire, w.key = g + 2 ∧ w.bytes = header ++ body

/-- How many times the keys for reading were changed. -/
def _root_.Verif.Conn.DLive.updatesRead (c : DLive) : Nat := c.reader.keys.cur - 2

/-- Whatever arrives, all that Reads return, followed by what waits to be read, is the data in some of the arriving records, in
the order of arrival, no record being used twice; each of these records opens under the keys of its generation, with the nonce for
the number and the epoch in its header, and generations never go back. Nothing is assumed of the AEAD or of the peer. -/
theorem C81_opened (W : World) (hP : W.E.P.Sized) (st : Connected) (hz : 0 < st.cp.hash.size) (fromClient : Bool)
    (hr : st.isClient = !fromClient) (x : Ctx) (nb : Bool) (sn : Bytes) (ho hi o i : Machine.Keys)
    (hk : i = keysOf W.E.P st.cp (dirSecret fromClient st)) (conn : List (Except Err Bytes)) (ks : List DCall) :
    ∃ us : List Opened, (∀ u ∈ us, Genuine W st.cp fromClient (dirSecret fromClient st) u) ∧
      us.Pairwise (fun u v => u.generation ≤ v.generation) ∧
      (us.map Opened.frame).Sublist (frameEvents (recordFraming true) (connData conn)) ∧
      returned ((DLive.start W st x nb sn ho hi o i conn).calls W ks).1 ++ ((DLive.start W st x nb sn ho hi o i conn).calls W ks).2.readBuffer =
        us.flatMap Opened.data := by
  obtain ⟨g', us, -, -, h1, h2, h3, h4⟩ := calls_got (W := W) hP hz ks (start_hears (W := W) (x := x) (nb := nb) (sn := sn) (ho := ho)
    (hi := hi) (o := o) (conn := conn) hr hk)
  refine ⟨us, fun u hu => (h1 u hu).1, h2, ?_, ?_⟩
  · have hf : (DLive.start W st x nb sn ho hi o i conn).reader.frames = frameEvents (recordFraming true) (connData conn) :=
      FrameReader.future_new (recordFraming true) (connData conn)
    rw [hf] at h3
    exact (List.sublist_append_left _ _).trans h3
  · rw [← h4]
    simp [DLive.start]

theorem sealed_data {W : World} (hl : W.Lawful) {cp : Params} {b : Bool} {s : Bytes} {P : Bytes → Prop} {wire : List WireRec}
    (hw : OnWire W cp b s P wire) {u : Opened} (hG : Genuine W cp b s u) {w : WireRec} (hm : w ∈ wire) (hk : w.key = u.generation + 2)
    (hb : w.bytes = u.header ++ u.body) : P u.data := by
  obtain ⟨g, ct, f, e1, hs, hct, hp⟩ := hw w hm
  have : g = u.generation := by omega
  subst this
  obtain ⟨nonce, pad, l13, -, hn, ho⟩ := hG
  obtain ⟨kw, kw', i, w1, w2, w3, w4, w5, w6⟩ := hs
  obtain ⟨header, body, he, -, hseq, -, hcase⟩ := writeRecord_ok w6
  rcases hcase with ⟨a, nonce', ha, -, hh, hn', hbody⟩ | ⟨ha, -⟩
  · rw [w4] at ha
    cases ha
    obtain ⟨h1, -, -, h4, -⟩ := recordHeader_ok hh
    rw [w1] at h1
    have h13 : header.length = 13 := h1
    rw [hb] at he
    obtain ⟨eh, eb⟩ := List.append_inj he (by rw [l13, h13])
    have hep : (kw.heap i).epoch < 2 ^ 16 := by
      rw [w3]; simp only [guardOf]; split <;> decide
    have hnum := h4 w1
    rw [Nat.mod_eq_of_lt (combineSeq_lt (by omega) hep _)] at hnum
    rw [eh, hnum] at hn
    have hiv : computeNonce ⟨0, 0, (guardOf W cp b s u.generation).iv, none⟩ (combineSeq (kw.heap i) kw.datagram) =
        computeNonce (kw.heap i) (combineSeq (kw.heap i) kw.datagram) := by
      unfold computeNonce; rw [w5]
    rw [hiv, hn'] at hn
    cases hn
    have hopen := (show (guardOf W cp b s u.generation).aead.Lawful from hl _ _).open_seal nonce (innerPlaintext ct f 0) header
    rw [← hbody, ← eh, ← eb, ho, Option.some.injEq] at hopen
    have h23 := stripPadding_inner 23 u.data pad (by decide)
    rw [hopen, stripPadding_inner ct f 0 hct, Res.ok.injEq, Prod.mk.injEq] at h23
    rw [← h23.2]
    exact hp h23.1
  · rw [w4] at ha; cases ha

/-- Both directions. -/
theorem authentic {W : World} (hl : W.Lawful) (hP : W.E.P.Sized) {cp : Params} (hz : 0 < cp.hash.size) {b : Bool} {s : Bytes}
    {sender receiver : DLive} {ks ks' : List DCall} (hF : NoForgedRecord W cp b s (receiver.calls W ks').2.updatesRead
      (sender.calls W ks).2.out.wire receiver.reader.frames) (hempty : receiver.readBuffer = [])
    (hT : ∀ P : Bytes → Prop, Talks W cp b s P sender) (hH : Hears W cp b s 0 receiver) :
    ∃ us : List Opened, (∀ u ∈ us, (∃ w ∈ (sender.calls W ks).2.out.wire, w.key = u.generation + 2 ∧ w.bytes = u.header ++ u.body) ∧
        ∃ d, .write d ∈ ks ∧ u.data <:+: d) ∧
      us.Pairwise (fun u v => u.generation ≤ v.generation) ∧
      (us.map Opened.frame).Sublist receiver.reader.frames ∧
      returned (receiver.calls W ks').1 ++ (receiver.calls W ks').2.readBuffer = us.flatMap Opened.data := by
  obtain ⟨g', us, -, hh, h1, h2, h3, h4⟩ := calls_got (W := W) hP hz ks' hH
  have hsub := (List.sublist_append_left (us.map Opened.frame) _).trans h3
  have hw := calls_said hP hz ks (hT (fun f => ∃ d, .write d ∈ ks ∧ f <:+: d)) (fun d f hm hf => ⟨d, hm, hf⟩)
  refine ⟨us, fun u hu => ?_, h2, hsub, ?_⟩
  · obtain ⟨hG, -, hg⟩ := h1 u hu
    have hmem : (.ok (u.header, u.body) : FrameEvent) ∈ receiver.reader.frames := hsub.subset (List.mem_map.mpr ⟨u, hu, rfl⟩)
    obtain ⟨nonce, pad, e1, e2, e3, e4⟩ := hG
    have hc := hh.count
    obtain ⟨w, hm, hk, hb⟩ := hF u.generation nonce u.header u.body _ (by unfold DLive.updatesRead; omega) hmem e4
    exact ⟨⟨w, hm, hk, hb⟩, sealed_data hl hw ⟨nonce, pad, e1, e2, e3, e4⟩ hm hk hb⟩
  · rw [← h4, hempty]; simp

/-- After a handshake, let the client make any calls and the server make any calls, and let the network deliver anything at all to
both, except for forgeries to the server. Then all that the server's Reads return, followed by what waits to be read, is the data
of records the client sent: for each of them, a piece of what was given to one of its Writes. The records come in the order of
arrival and each arrival counts once; those under older keys come before those under newer ones. -/
theorem C81_to_server (W : World) (hl : W.Lawful) (hP : W.E.P.Sized) (cl sv : Connected) (co ci so si : Machine.Keys)
    (h : Established W cl sv co ci so si) (x y : Ctx) (nb nb' : Bool) (sn sn' : Bytes) (ho hi ho' hi' : Machine.Keys)
    (conn conn' : List (Except Err Bytes)) (ks ks' : List DCall)
    (hF : NoForgedRecord W cl.cp true cl.clientAp ((DLive.start W sv y nb' sn' ho' hi' so si conn').calls W ks').2.updatesRead
      ((DLive.start W cl x nb sn ho hi co ci conn).calls W ks).2.out.wire (frameEvents (recordFraming true) (connData conn'))) :
    ∃ us : List Opened,
      (∀ u ∈ us, (∃ w ∈ ((DLive.start W cl x nb sn ho hi co ci conn).calls W ks).2.out.wire,
          w.key = u.generation + 2 ∧ w.bytes = u.header ++ u.body) ∧ ∃ d, .write d ∈ ks ∧ u.data <:+: d) ∧
      us.Pairwise (fun u v => u.generation ≤ v.generation) ∧
      (us.map Opened.frame).Sublist (frameEvents (recordFraming true) (connData conn')) ∧
      returned ((DLive.start W sv y nb' sn' ho' hi' so si conn').calls W ks').1 ++
        ((DLive.start W sv y nb' sn' ho' hi' so si conn').calls W ks').2.readBuffer = us.flatMap Opened.data := by
  obtain ⟨hz, hc, hs, e1, e2, e3, e4⟩ := h.ends hP
  have hf : (DLive.start W sv y nb' sn' ho' hi' so si conn').reader.frames = frameEvents (recordFraming true) (connData conn') :=
    FrameReader.future_new (recordFraming true) (connData conn')
  have hH := start_hears (W := W) (st := sv) (x := y) (nb := nb') (sn := sn') (ho := ho') (hi := hi') (o := so) (i := si) (b := true)
    (conn := conn') hs (by rw [← h.suite]; exact e4.trans (by rw [h.client]; rfl))
  rw [← h.suite, show dirSecret true sv = cl.clientAp from h.client.symm] at hH
  rw [← hf] at hF ⊢
  exact authentic hl hP hz hF rfl (fun P => start_talks hc e1) hH

/-- The same from the server to the client. -/
theorem C81_to_client (W : World) (hl : W.Lawful) (hP : W.E.P.Sized) (cl sv : Connected) (co ci so si : Machine.Keys)
    (h : Established W cl sv co ci so si) (x y : Ctx) (nb nb' : Bool) (sn sn' : Bytes) (ho hi ho' hi' : Machine.Keys)
    (conn conn' : List (Except Err Bytes)) (ks ks' : List DCall)
    (hF : NoForgedRecord W cl.cp false cl.serverAp ((DLive.start W cl x nb sn ho hi co ci conn).calls W ks).2.updatesRead
      ((DLive.start W sv y nb' sn' ho' hi' so si conn').calls W ks').2.out.wire (frameEvents (recordFraming true) (connData conn))) :
    ∃ us : List Opened,
      (∀ u ∈ us, (∃ w ∈ ((DLive.start W sv y nb' sn' ho' hi' so si conn').calls W ks').2.out.wire,
          w.key = u.generation + 2 ∧ w.bytes = u.header ++ u.body) ∧ ∃ d, .write d ∈ ks' ∧ u.data <:+: d) ∧
      us.Pairwise (fun u v => u.generation ≤ v.generation) ∧
      (us.map Opened.frame).Sublist (frameEvents (recordFraming true) (connData conn)) ∧
      returned ((DLive.start W cl x nb sn ho hi co ci conn).calls W ks).1 ++
        ((DLive.start W cl x nb sn ho hi co ci conn).calls W ks).2.readBuffer = us.flatMap Opened.data := by
  obtain ⟨hz, hc, hs, e1, e2, e3, e4⟩ := h.ends hP
  have hf : (DLive.start W cl x nb sn ho hi co ci conn).reader.frames = frameEvents (recordFraming true) (connData conn) :=
    FrameReader.future_new (recordFraming true) (connData conn)
  have hH := start_hears (W := W) (st := cl) (x := x) (nb := nb) (sn := sn) (ho := ho) (hi := hi) (o := co) (i := ci) (b := false)
    (conn := conn) hc e2
  have hT : ∀ P : Bytes → Prop, Talks W cl.cp false cl.serverAp P (DLive.start W sv y nb' sn' ho' hi' so si conn') := by
    intro P
    have := start_talks (W := W) (st := sv) (x := y) (nb := nb') (sn := sn') (ho := ho') (hi := hi') (o := so) (i := si) (b := false)
      (conn := conn') (P := P) hs (by rw [← h.suite]; exact e3.trans (by rw [h.server]; rfl))
    rwa [← h.suite, show dirSecret false sv = cl.serverAp from h.server.symm] at this
  rw [← hf] at hF ⊢
  exact authentic hl hP hz hF rfl hT hH

/-! ### Instances -/

/-- A check of `NoForgedRecord` in the toy world. -/
def Toy.noForged (cp : Params) (b : Bool) (s : Bytes) (n : Nat) (wire : List WireRec) (frames : List FrameEvent) : Bool :=
  (List.range (n + 1)).all fun g => frames.all fun e => match e with
    | .ok (header, body) =>
      let t := body.drop (body.length - 28)
      (generation Toy.world cp b s g).1.length == 16 && t != List.replicate 28 255 &&
        (t.take 16 != (generation Toy.world cp b s g).1 || wire.any fun w => w.key == g + 2 && w.bytes == header ++ body)
    | _ => true

theorem Toy.noForged_ok {cp : Params} {b : Bool} {s : Bytes} {n : Nat} {wire : List WireRec} {frames : List FrameEvent}
    (h : Toy.noForged cp b s n wire frames = true) : NoForgedRecord Toy.world cp b s n wire frames := by
  intro g nonce header body p hg hm ho
  simp only [Toy.noForged, List.all_eq_true, List.mem_range] at h
  have h := h g (by omega) _ hm
  simp only [Bool.and_eq_true, Bool.or_eq_true, beq_iff_eq, bne_iff_ne, ne_eq, List.any_eq_true] at h
  obtain ⟨⟨h1, h2⟩, h3⟩ := h
  simp only [guardOf, Toy.world, Toy.aead] at ho
  split at ho
  · rename_i hc
    obtain ⟨-, ht⟩ := hc
    unfold Toy.tag at ht
    split at ht
    · rename_i hn
      have ht' : (generation Toy.world cp b s g).1 ++ nonce = body.drop (body.length - 28) := by
        rw [ht]
        exact (List.take_left' (by rw [List.length_append, h1, hn])).symm
      rw [← ht'] at h3
      rcases h3 with h3 | ⟨w, h4, h5, h6⟩
      · exact absurd (by rw [← h1, List.take_left]) h3
      · exact ⟨w, h4, h5, h6⟩
    · exact absurd ht h2
  · cases ho

/-- A client writes, updates its keys and asks the server to do the same, writes again; the network reorders and repeats, and inserts a
record in the clear: nothing is forged, and the server's Reads return data of both generations. -/
example : ∃ (cl sv : Connected) (co ci so si : Machine.Keys) (x y : Ctx), Established Toy.world cl sv co ci so si ∧
    let sender := (DLive.start Toy.world cl x true [97] ([1], [1]) ([2], [2]) co ci []).calls Toy.world
      [.write [1], .write [2, 3], .update true, .write [4]]
    let d := sender.2.datagrams
    let clear : Bytes := [21, 254, 253, 0, 0, 0, 0, 0, 0, 0, 0, 0, 2, 2, 40]
    let receiver := (DLive.start Toy.world sv y true [] ([2], [2]) ([1], [1]) so si
        ([d.getD 1 [], clear, d.getD 0 [], d.getD 1 [], d.getD 2 [], d.getD 3 []].map .ok)).calls Toy.world
      (List.replicate 12 (.read 0 false 9 9))
    NoForgedRecord Toy.world cl.cp true cl.clientAp receiver.2.updatesRead sender.2.out.wire
      (frameEvents (recordFraming true) (connData ([d.getD 1 [], clear, d.getD 0 [], d.getD 1 [], d.getD 2 [], d.getD 3 []].map .ok))) ∧
    returned receiver.1 = [2, 3, 1, 2, 3, 4] ∧ receiver.2.updatesRead = 1 := by
  obtain ⟨cl, x, co, ci, sv, y, so, si, ca, sa, hc, hs, h1, h2, h3, h4, h⟩ := Toy.linked_ok
    (f := fun cl x co ci sv y so si => cl.cp == sv.cp && cl.clientAp == sv.clientAp && cl.serverAp == sv.serverAp &&
      (let sender := (DLive.start Toy.world cl x true [97] ([1], [1]) ([2], [2]) co ci []).calls Toy.world
        [.write [1], .write [2, 3], .update true, .write [4]]
       let d := sender.2.datagrams
       let clear : Bytes := [21, 254, 253, 0, 0, 0, 0, 0, 0, 0, 0, 0, 2, 2, 40]
       let receiver := (DLive.start Toy.world sv y true [] ([2], [2]) ([1], [1]) so si
          ([d.getD 1 [], clear, d.getD 0 [], d.getD 1 [], d.getD 2 [], d.getD 3 []].map .ok)).calls Toy.world
        (List.replicate 12 (.read 0 false 9 9))
       Toy.noForged cl.cp true cl.clientAp receiver.2.updatesRead sender.2.out.wire
        (frameEvents (recordFraming true) (connData ([d.getD 1 [], clear, d.getD 0 [], d.getD 1 [], d.getD 2 [], d.getD 3 []].map .ok))) &&
       (returned receiver.1 == [2, 3, 1, 2, 3, 4] && receiver.2.updatesRead == 1)))
    (r := clientRun Toy.env Toy.dtls Toy.pskClient (Toy.coins 2) (Toy.exchange Toy.dtls Toy.pskClient Toy.pskServer 2).1)
    (r' := serverRun Toy.env Toy.dtls Toy.pskServer (Toy.exchange Toy.dtls Toy.pskClient Toy.pskServer 2).2) (by decide +kernel)
  simp only [Bool.and_eq_true, beq_iff_eq] at h
  obtain ⟨⟨⟨h5, h6⟩, h7⟩, h8, h9, h10⟩ := h
  exact ⟨cl, sv, co, ci, so, si, x, y, ⟨⟨_, _, _, _, _, _, _, _, _, _, _, hc, hs, h1, h2, h3, h4⟩, h5, h6, h7⟩, Toy.noForged_ok h8, h9, h10⟩

end Verif.Props

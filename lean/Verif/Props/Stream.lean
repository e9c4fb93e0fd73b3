import Verif.Conn.Toy
import Verif.Conn.Delivery
import Verif.Props.KeyUpdate
import Verif.Props.Record

/-
C49, C50: what Read returns and Write reports.
-/

namespace Verif.Props

open Verif Verif.Crypto Verif.Messages Verif.Negotiation Verif.Handshake Verif.Machine Verif.Spec Verif.Conn Verif.Record

/-! ### C49 -/

theorem start_writes {W : World} {cp : Params} {b : Bool} {st : Connected} {x : Ctx} {nb : Bool} {sn : Bytes} {o i : Machine.Keys} {v : Nat}
    {conn : List (Except Err Bytes)} (h1 : st.cp = cp) (h2 : st.isClient = b) (ho : o = keysOf W.E.P cp (dirSecret b st)) :
    Writes W cp b (dirSecret b st) (Live.start W st x nb sn o i v conn) := by
  refine ⟨h1, h2, rfl, rfl, bounded_nil, _, .nil _, fun _ => ⟨rfl, ?_, ?_, rfl⟩⟩
  · simp [Live.start, Record.Keys.rekey, ho, h1]
  · simp [Live.start, Record.Keys.rekey, ho]

theorem start_reads {W : World} {cp : Params} {b : Bool} {st : Connected} {x : Ctx} {nb : Bool} {sn : Bytes} {o i : Machine.Keys} {v : Nat}
    {conn : List (Except Err Bytes)} {L : List Item} (h1 : st.cp = cp) (h2 : st.isClient = b)
    (hi : i = keysOf W.E.P cp (dirSecret (!b) st)) (hL : ∃ t, Wrote W cp (!b) L (dirSecret (!b) st) t) :
    Conn.Reads W cp b (dirSecret (!b) st) L (delivered conn) [] (Live.start W st x nb sn o i v conn) := by
  refine ⟨[], L, h1, h2, rfl, ?_, rfl, rfl, ?_, rfl, .nil _, hL, ?_, ?_, rfl, rfl⟩
  · exact FrameReader.inv_new _
  · intro e he
    have : (Live.start W st x nb sn o i v conn).reader.frames = delivered conn :=
      FrameReader.future_new (recordFraming false) (connData conn)
    rw [this] at he
    exact he
  · simp [Live.start, Record.Keys.rekey, hi, h1]
  · simp [Live.start, Record.Keys.rekey, hi]

/-- Two ends of a connection after a handshake that gave both the same suite and traffic secrets. -/
structure Established (W : World) (cl sv : Connected) (co ci so si : Machine.Keys) : Prop where
  shake : ∃ (x y x' y' : Ctx) (ccfg scfg : Config) (c : Coins) (es es' : List (Event × Coins)) (ca sa : List Action),
    clientRun W.E x ccfg c es = .ok (.connected cl, ca, x') ∧ serverRun W.E y scfg es' = .ok (.connected sv, sa, y') ∧
    lastOut ca = some co ∧ lastIn ca = some ci ∧ lastOut sa = some so ∧ lastIn sa = some si
  suite : cl.cp = sv.cp
  client : cl.clientAp = sv.clientAp
  server : cl.serverAp = sv.serverAp

theorem Established.ends {W : World} (hP : W.E.P.Sized) {cl sv : Connected} {co ci so si : Machine.Keys}
    (h : Established W cl sv co ci so si) : 0 < cl.cp.hash.size ∧ cl.isClient = true ∧ sv.isClient = false ∧
      co = keysOf W.E.P cl.cp cl.clientAp ∧ ci = keysOf W.E.P cl.cp cl.serverAp ∧
      so = keysOf W.E.P cl.cp cl.serverAp ∧ si = keysOf W.E.P cl.cp cl.clientAp := by
  obtain ⟨⟨x, y, x', y', ccfg, scfg, c, es, es', ca, sa, h1, h2, h3, h4, h5, h6⟩, h7, h8, h9⟩ := h
  obtain ⟨hz, hk⟩ := linkOk_start hP h1 h2 h7 h8 h9 h3 h4 h5 h6
  refine ⟨hz, hk.client.role, hk.server.role, hk.client.out, hk.client.in_, ?_, ?_⟩
  · exact hk.server.out.trans (by rw [h9]; rfl)
  · exact hk.server.in_.trans (by rw [h8]; rfl)

/-- After a handshake, let the client make any calls and the server make any calls, and let the transport deliver anything at
all to the server, except for forgeries. Then the bytes the server's Reads return, until one reports end of file, are the
first of the bytes the client's Writes reported, in order. Missing: Reads after end of file, for which it is false. -/
theorem C49_to_server_partial (W : World) (hl : W.Lawful) (hP : W.E.P.Sized) (cl sv : Connected) (co ci so si : Machine.Keys)
    (h : Established W cl sv co ci so si) (x y : Ctx) (nb nb' : Bool) (sn sn' : Bytes) (v v' : Nat)
    (conn conn' : List (Except Err Bytes)) (ks ks' : List Call)
    (hret : (Live.calls W (Live.start W cl x nb sn co ci v conn) ks).1.length = ks.length)
    (hF : NoForgery W cl.cp true cl.clientAp (Live.calls W (Live.start W cl x nb sn co ci v conn) ks).2.log (delivered conn')) :
    gotten (Live.calls W (Live.start W sv y nb' sn' so si v' conn') ks').1 <+:
      written (Live.calls W (Live.start W cl x nb sn co ci v conn) ks).1 := by
  obtain ⟨hz, hc, hs, e1, e2, e3, e4⟩ := h.ends hP
  have hw := calls_logged hl hP hz ks (start_writes (W := W) (x := x) (nb := nb) (sn := sn) (o := co) (i := ci) (v := v)
    (conn := conn) rfl hc e1)
  obtain ⟨⟨hL, hb⟩, hdata⟩ := hw
  have hdata := (hdata hret).2
  have hsec : dirSecret true cl = dirSecret (!false) sv := h.client
  rw [hsec] at hL
  have hr := start_reads (W := W) (cp := cl.cp) (b := false) (st := sv) (x := y) (nb := nb') (sn := sn') (o := so) (i := si)
    (v := v') (conn := conn') h.suite.symm hs (by rw [e4, ← hsec]; rfl) hL
  have := calls_reads hP hz hb (by rw [← hsec]; exact hF) ks' hr
  rw [hdata] at this
  simpa [Live.start, appData] using this

/-- The same for the other direction. -/
theorem C49_to_client_partial (W : World) (hl : W.Lawful) (hP : W.E.P.Sized) (cl sv : Connected) (co ci so si : Machine.Keys)
    (h : Established W cl sv co ci so si) (x y : Ctx) (nb nb' : Bool) (sn sn' : Bytes) (v v' : Nat)
    (conn conn' : List (Except Err Bytes)) (ks ks' : List Call)
    (hret : (Live.calls W (Live.start W sv y nb' sn' so si v' conn') ks').1.length = ks'.length)
    (hF : NoForgery W cl.cp false cl.serverAp (Live.calls W (Live.start W sv y nb' sn' so si v' conn') ks').2.log (delivered conn)) :
    gotten (Live.calls W (Live.start W cl x nb sn co ci v conn) ks).1 <+:
      written (Live.calls W (Live.start W sv y nb' sn' so si v' conn') ks').1 := by
  obtain ⟨hz, hc, hs, e1, e2, e3, e4⟩ := h.ends hP
  have hsec : dirSecret false sv = dirSecret (!true) cl := h.server.symm
  have hw := calls_logged hl hP hz ks' (start_writes (W := W) (cp := cl.cp) (x := y) (nb := nb') (sn := sn') (o := so) (i := si) (v := v')
    (conn := conn') h.suite.symm hs (by rw [e3, hsec]; rfl))
  obtain ⟨⟨hL, hb⟩, hdata⟩ := hw
  have hdata := (hdata hret).2
  rw [hsec] at hL
  have hr := start_reads (W := W) (cp := cl.cp) (b := true) (st := cl) (x := x) (nb := nb) (sn := sn) (o := co) (i := ci)
    (v := v) (conn := conn) rfl hc e2 hL
  have := calls_reads (b := true) hP hz hb hF ks hr
  rw [hdata] at this
  simpa [Live.start, appData] using this

/-- A connection of the toy world, over which the client writes, updates its keys and asks the server to do the same, and
writes again; the server, to which the transport delivers all of it in two pieces, reads everything. No forgery is delivered. -/
example : ∃ (cl sv : Connected) (co ci so si : Machine.Keys) (x y : Ctx) (conn' : List (Except Err Bytes)) (ks ks' : List Call),
    Established Toy.world cl sv co ci so si ∧
    (Live.calls Toy.world (Live.start Toy.world cl x true [97] co ci 0 []) ks).1.length = ks.length ∧
    NoForgery Toy.world cl.cp true cl.clientAp (Live.calls Toy.world (Live.start Toy.world cl x true [97] co ci 0 []) ks).2.log
      (delivered conn') ∧
    gotten (Live.calls Toy.world (Live.start Toy.world sv y true [] so si 0 conn') ks').1 = [1, 2, 3, 4] ∧ ks'.length = 3 := by
  obtain ⟨cl, x, co, ci, sv, y, so, si, ca, sa, hc, hs, h1, h2, h3, h4, h⟩ := Toy.linked_ok
    (f := fun c x co ci s y so si => c.cp == s.cp && c.clientAp == s.clientAp && c.serverAp == s.serverAp &&
      (let r := Live.calls Toy.world (Live.start Toy.world c x true [97] co ci 0 []) [.write [1, 2, 3], .update true, .write [4]]
       let conn := [.ok (r.2.wire.take 20), .ok (r.2.wire.drop 20)]
       r.1.length == 3 && Toy.noForgery c.cp true c.clientAp r.2.log (delivered conn) &&
       gotten (Live.calls Toy.world (Live.start Toy.world s y true [] so si 0 conn) [.read 0 9 2, .read 0 9 9, .read 0 9 9]).1 ==
         [1, 2, 3, 4]))
    (r := clientRun Toy.env Toy.tls Toy.pskClient (Toy.coins 2) (Toy.exchange Toy.tls Toy.pskClient Toy.pskServer 2).1)
    (r' := serverRun Toy.env Toy.tls Toy.pskServer (Toy.exchange Toy.tls Toy.pskClient Toy.pskServer 2).2) (by decide +kernel)
  simp only [Bool.and_eq_true, beq_iff_eq] at h
  obtain ⟨⟨⟨h5, h6⟩, h7⟩, ⟨h8, h9⟩, h10⟩ := h
  exact ⟨cl, sv, co, ci, so, si, x, y, _, _, _, ⟨⟨_, _, _, _, _, _, _, _, _, _, _, hc, hs, h1, h2, h3, h4⟩, h5, h6, h7⟩, h8,
    Toy.noForgery_ok h9, h10, rfl⟩

theorem Established.ivLen {W : World} (hP : W.E.P.Sized) {cl sv : Connected} {co ci so si : Machine.Keys}
    (h : Established W cl sv co ci so si) : 8 ≤ cl.cp.ivLen := by
  obtain ⟨⟨_, _, _, _, _, _, _, _, _, _, _, hc, -⟩, -⟩ := h
  obtain ⟨vw⟩ := clientView hP hc
  have := vw.suite
  rw [← vw.cp] at this
  simp only [suiteParams] at this
  split at this
  · rw [← Option.some.inj this]; decide
  · split at this
    · rw [← Option.some.inj this]; decide
    · cases this

theorem start_canWrite {W : World} (hl : W.Lawful) (hP : W.E.P.Sized) {st : Connected} {x : Ctx} {nb : Bool} {sn : Bytes} {o i : Machine.Keys}
    {v : Nat} {conn : List (Except Err Bytes)} (hs : 0 < st.cp.hash.size) (hiv : 8 ≤ st.cp.ivLen) {s : Bytes} (ho : o = keysOf W.E.P st.cp s) :
    CanWrite (Live.start W st x nb sn o i v conn) (W.A st.cp o.1) := by
  refine ⟨rfl, rfl, rfl, ?_, hl _ _, ?_, ?_⟩
  · simp [Live.start, Record.Keys.rekey]
  · simp only [Live.start, Record.Keys.rekey, upd_same, ho, keysOf, trafficKeys, expandLabel]
    rw [expand_length _ hP _ hs]
    exact hiv
  · simp [Live.start, Record.Keys.rekey]

/-- Either end can write when the handshake is complete: the hypothesis of C50. -/
theorem established_canWrite {W : World} (hl : W.Lawful) (hP : W.E.P.Sized) {cl sv : Connected} {co ci so si : Machine.Keys}
    (h : Established W cl sv co ci so si) (x y : Ctx) (nb nb' : Bool) (sn sn' : Bytes) (v v' : Nat) (conn conn' : List (Except Err Bytes)) :
    CanWrite (Live.start W cl x nb sn co ci v conn) (W.A cl.cp co.1) ∧ CanWrite (Live.start W sv y nb' sn' so si v' conn') (W.A sv.cp so.1) := by
  obtain ⟨hz, -, -, e1, -, e3, -⟩ := h.ends hP
  have hiv := h.ivLen hP
  refine ⟨start_canWrite hl hP hz hiv e1, start_canWrite hl hP (h.suite ▸ hz) (h.suite ▸ hiv) (by rw [e3, h.suite])⟩

/-! What arrives -/

theorem connData_ok (pieces : List Bytes) : connData (pieces.map .ok) = pieces.flatten := by
  induction pieces with
  | nil => rfl
  | cons p ps ih => simp [connData, ih]

theorem start_receives {W : World} (hl : W.Lawful) (hP : W.E.P.Sized) {cp : Params} (hs : 0 < cp.hash.size) (hiv : 8 ≤ cp.ivLen) {b : Bool}
    {st st' : Connected} {x y : Ctx} {nb nb' : Bool} {sn sn' : Bytes} {o i o' i' : Machine.Keys} {v v' : Nat} {pieces : List Bytes}
    {conn : List (Except Err Bytes)} {L : List Item} {k : Record.Keys} (h1 : st.cp = cp) (h1' : st'.cp = cp) (h2 : st.isClient = b) (hi : i = o')
    {s : Bytes} (ho : o = keysOf W.E.P cp s) (hL : ∃ t, Wrote W cp (!b) L (dirSecret (!b) st) t) (hord : Ordinary (!b) L)
    (hw : sendAll (Live.start W st' y nb' sn' o' i' v' conn).out L = .ok (pieces.flatten, k)) :
    Receives W cp b L (Live.start W st x nb sn o i v (pieces.map .ok)) := by
  subst hi
  refine ⟨h1, h2, rfl, FrameReader.inv_new _, rfl, ?_, hL, hord, ?_, ⟨o.1, ?_⟩, by simp [Live.start, Record.Keys.rekey]⟩
  · intro e he
    simp only [Live.start, Reader.new, List.mem_map] at he
    obtain ⟨_, _, he⟩ := he
    cases he
  · refine ⟨_, k, pieces.flatten, ?_, rfl, by simp [Live.start, Record.Keys.rekey], hw, ?_⟩
    · refine ⟨rfl, rfl, rfl, ?_, ?_, ?_, ?_, ?_, ?_, ?_, ?_⟩
      · simp [Live.start, Record.Keys.rekey, h1, h1']
      · simp [Live.start, Record.Keys.rekey]
      · simp [Live.start, Record.Keys.rekey]
      · simp [Live.start, Record.Keys.rekey]
      · simp [Live.start, Record.Keys.rekey]
      · intro h; cases h
      · simp [Live.start, Record.Keys.rekey, epochApplication]
      · intro a ha
        simp only [Live.start, Record.Keys.rekey, upd_same, Option.some.injEq] at ha
        exact ha ▸ hl _ _
    · have : (Live.start W st x nb sn o i v (pieces.map .ok)).reader.frames = frameEvents (recordFraming false) (connData (pieces.map .ok)) :=
        FrameReader.future_new (recordFraming false) _
      rw [this, connData_ok]
  · rw [← h1] at hs hiv ho ⊢
    exact start_canWrite hl hP hs hiv ho

/-- Nothing is lost: let the client make any calls and send no alert and no ticket, and let the transport deliver what it was
given, cut into any pieces. If the server reads often enough, with whatever buffers, it gets everything the client's Writes
reported. -/
theorem C49_all_to_server (W : World) (hl : W.Lawful) (hP : W.E.P.Sized) (hov : ∀ cp key, (W.A cp key).overhead ≤ 255) (cl sv : Connected)
    (co ci so si : Machine.Keys) (h : Established W cl sv co ci so si) (x y : Ctx) (nb nb' : Bool) (sn sn' : Bytes) (v v' : Nat)
    (conn : List (Except Err Bytes)) (pieces : List Bytes) (ks ks' : List Call)
    (hret : (Live.calls W (Live.start W cl x nb sn co ci v conn) ks).1.length = ks.length)
    (hord : Ordinary true (Live.calls W (Live.start W cl x nb sn co ci v conn) ks).2.log)
    (hwire : pieces.flatten = (Live.calls W (Live.start W cl x nb sn co ci v conn) ks).2.wire)
    (hreads : ∀ k ∈ ks', ∃ now fuel n, k = .read now fuel n ∧ 0 < fuel ∧ 0 < n)
    (hmany : pieces.length + (Live.calls W (Live.start W cl x nb sn co ci v conn) ks).2.log.length +
      (written (Live.calls W (Live.start W cl x nb sn co ci v conn) ks).1).length ≤ ks'.length) :
    gotten (Live.calls W (Live.start W sv y nb' sn' so si v' (pieces.map .ok)) ks').1 =
      written (Live.calls W (Live.start W cl x nb sn co ci v conn) ks).1 := by
  obtain ⟨hz, hc, hs, e1, e2, e3, e4⟩ := h.ends hP
  have hiv := h.ivLen hP
  obtain ⟨⟨hL, -⟩, hdata⟩ := calls_logged hl hP hz ks (start_writes (W := W) (x := x) (nb := nb) (sn := sn) (o := co) (i := ci) (v := v)
    (conn := conn) rfl hc e1)
  have hdata := (hdata hret).2
  have hsec : dirSecret true cl = dirSecret (!false) sv := h.client
  rw [hsec] at hL
  obtain ⟨k, hw⟩ := calls_onWire W (Live.start W cl x nb sn co ci v conn) ks rfl rfl
  rw [← hwire] at hw
  have hr := start_receives (b := false) (x := y) (nb := nb') (sn := sn') (v := v') hl hP hz hiv h.suite.symm rfl hs (e4.trans e1.symm) e3
    hL hord hw
  have := (calls_receives hl hP hz hiv (hov _) ks' hreads hr).2
  rw [hdata] at this
  simp only [Live.start, Reader.new, List.length_map, appData, List.nil_append] at this hmany ⊢
  exact this hmany

/-- The same for the other direction, where tickets may be sent as well. -/
theorem C49_all_to_client (W : World) (hl : W.Lawful) (hP : W.E.P.Sized) (hov : ∀ cp key, (W.A cp key).overhead ≤ 255) (cl sv : Connected)
    (co ci so si : Machine.Keys) (h : Established W cl sv co ci so si) (x y : Ctx) (nb nb' : Bool) (sn sn' : Bytes) (v v' : Nat)
    (conn' : List (Except Err Bytes)) (pieces : List Bytes) (ks ks' : List Call)
    (hret : (Live.calls W (Live.start W sv y nb' sn' so si v' conn') ks').1.length = ks'.length)
    (hord : Ordinary false (Live.calls W (Live.start W sv y nb' sn' so si v' conn') ks').2.log)
    (hwire : pieces.flatten = (Live.calls W (Live.start W sv y nb' sn' so si v' conn') ks').2.wire)
    (hreads : ∀ k ∈ ks, ∃ now fuel n, k = .read now fuel n ∧ 0 < fuel ∧ 0 < n)
    (hmany : pieces.length + (Live.calls W (Live.start W sv y nb' sn' so si v' conn') ks').2.log.length +
      (written (Live.calls W (Live.start W sv y nb' sn' so si v' conn') ks').1).length ≤ ks.length) :
    gotten (Live.calls W (Live.start W cl x nb sn co ci v (pieces.map .ok)) ks).1 =
      written (Live.calls W (Live.start W sv y nb' sn' so si v' conn') ks').1 := by
  obtain ⟨hz, hc, hs, e1, e2, e3, e4⟩ := h.ends hP
  have hiv := h.ivLen hP
  have hsec : dirSecret false sv = dirSecret (!true) cl := h.server.symm
  obtain ⟨⟨hL, -⟩, hdata⟩ := calls_logged hl hP hz ks' (start_writes (W := W) (cp := cl.cp) (x := y) (nb := nb') (sn := sn') (o := so) (i := si)
    (v := v') (conn := conn') h.suite.symm hs (by rw [e3, hsec]; rfl))
  have hdata := (hdata hret).2
  rw [hsec] at hL
  obtain ⟨k, hw⟩ := calls_onWire W (Live.start W sv y nb' sn' so si v' conn') ks' rfl rfl
  rw [← hwire] at hw
  have hr := start_receives (b := true) (x := x) (nb := nb) (sn := sn) (v := v) hl hP hz hiv rfl h.suite.symm hc (e2.trans e3.symm) e1
    hL hord hw
  have := (calls_receives hl hP hz hiv (hov _) ks hreads hr).2
  rw [hdata] at this
  simp only [Live.start, Reader.new, List.length_map, appData, List.nil_append] at this hmany ⊢
  exact this hmany

/-- A server that writes, sends a ticket, asks for a key update and writes again, over a transport that delivers in pieces, one
of them empty. -/
example : ∃ (cl sv : Connected) (co ci so si : Machine.Keys) (y : Ctx) (pieces : List Bytes) (ks' : List Call),
    Established Toy.world cl sv co ci so si ∧
    (Live.calls Toy.world (Live.start Toy.world sv y true [] so si 0 []) ks').1.length = ks'.length ∧
    Ordinary false (Live.calls Toy.world (Live.start Toy.world sv y true [] so si 0 []) ks').2.log ∧
    pieces.flatten = (Live.calls Toy.world (Live.start Toy.world sv y true [] so si 0 []) ks').2.wire ∧
    written (Live.calls Toy.world (Live.start Toy.world sv y true [] so si 0 []) ks').1 = [1, 2, 3, 4] ∧ pieces.length = 3 := by
  obtain ⟨cl, x, co, ci, sv, y, so, si, ca, sa, hc, hs, h1, h2, h3, h4, h⟩ := Toy.linked_ok
    (f := fun c x co ci s y so si => c.cp == s.cp && c.clientAp == s.clientAp && c.serverAp == s.serverAp &&
      (let r := Live.calls Toy.world (Live.start Toy.world s y true [] so si 0 [])
        [.write [1, 2], .ticket 5 100 10 7 [1, 2] [8, 9], .update true, .write [3, 4]]
       r.1.length == 4 && Toy.ordinary false r.2.log && [r.2.wire.take 20, [], r.2.wire.drop 20].flatten == r.2.wire && written r.1 == [1, 2, 3, 4]))
    (r := clientRun Toy.env Toy.tls Toy.pskClient (Toy.coins 2) (Toy.exchange Toy.tls Toy.pskClient Toy.pskServer 2).1)
    (r' := serverRun Toy.env Toy.tls Toy.pskServer (Toy.exchange Toy.tls Toy.pskClient Toy.pskServer 2).2) (by decide +kernel)
  simp only [Bool.and_eq_true, beq_iff_eq] at h
  obtain ⟨⟨⟨h5, h6⟩, h7⟩, ⟨⟨h8, h9⟩, h10⟩, h11⟩ := h
  exact ⟨cl, sv, co, ci, so, si, y, _, _, ⟨⟨_, _, _, _, _, _, _, _, _, _, _, hc, hs, h1, h2, h3, h4⟩, h5, h6, h7⟩, h8,
    Toy.ordinary_ok h9, h10, h11, rfl⟩

/-- The history of an end, in which C49 finds what was written, is on the wire: the bytes given to the transport are those
the record layer makes of it. -/
theorem C49_history (W : World) (st : Connected) (x : Ctx) (nb : Bool) (sn : Bytes) (o i : Machine.Keys) (v : Nat)
    (conn : List (Except Err Bytes)) (ks : List Call) :
    ∃ k, sendAll (Live.start W st x nb sn o i v conn).out (Live.calls W (Live.start W st x nb sn o i v conn) ks).2.log =
      .ok ((Live.calls W (Live.start W st x nb sn o i v conn) ks).2.wire, k) := calls_onWire W _ ks rfl rfl

/-- Whatever the state of the connection, Write adds to the application data sent exactly the first bytes of its buffer, as
many as it reports, and reports all of them if it reports no error. -/
theorem C49_write_reports (c c' : Live) (b : Bytes) (n : Nat) (e : Option Err) (h : c.write b = (.ok (n, e), c')) :
    appData c'.log = appData c.log ++ b.take n ∧ (e = none → n = b.length) := by
  obtain ⟨h1, -⟩ := writeAll_sent (fragments b.length b) 0 c
  obtain ⟨-, h2, h3⟩ := h1 n e c' h
  rw [fragments_flatten _ _ (Nat.le_refl _)] at h2 h3
  exact ⟨by simpa using h2, fun he => by simpa using h3 he⟩

/-- A Write that succeeds. -/
example : ∃ (c c' : Live) (b : Bytes) (n : Nat) (e : Option Err), c.write b = (.ok (n, e), c') ∧ n = 3 ∧ e = none := by
  obtain ⟨cl, x, co, ci, sv, y, so, si, ca, sa, hc, hs, h1, h2, h3, h4, h⟩ := Toy.linked_ok
    (f := fun c x co ci s y so si =>
      match (Live.start Toy.world c x true [97] co ci 0 []).write [1, 2, 3] with
      | (.ok (n, none), _) => n == 3
      | _ => false)
    (r := clientRun Toy.env Toy.tls Toy.pskClient (Toy.coins 2) (Toy.exchange Toy.tls Toy.pskClient Toy.pskServer 2).1)
    (r' := serverRun Toy.env Toy.tls Toy.pskServer (Toy.exchange Toy.tls Toy.pskClient Toy.pskServer 2).2) (by decide +kernel)
  split at h
  · rename_i n c' hw
    exact ⟨_, c', _, n, none, hw, by simpa using h, rfl⟩
  · cases h

/-- Why C49 speaks of the bytes until end of file is reported. The server writes [1], updates its keys and asks for an
update, writes [2], and updates its keys again. The client cannot write any more. So its Read reports end of file when it
should answer the update: but by then it has new keys for reading, while its state still has the old secret
(conn.go:339-364, state-machine.go:185-212). The server's next update gives it the same keys again, with sequence number
zero: and it takes a record a second time. Nothing is forged, and the application just goes on calling Read. -/
theorem C49_after_eof_fails : ∃ (cl sv : Connected) (co ci so si : Machine.Keys) (x y : Ctx) (conn : List (Except Err Bytes)) (ks ks' : List Call),
    Established Toy.world cl sv co ci so si ∧
    (Live.calls Toy.world (Live.start Toy.world sv y true [] so si 0 []) ks').1.length = ks'.length ∧
    NoForgery Toy.world cl.cp false cl.serverAp (Live.calls Toy.world (Live.start Toy.world sv y true [] so si 0 []) ks').2.log
      (delivered conn) ∧
    written (Live.calls Toy.world (Live.start Toy.world sv y true [] so si 0 []) ks').1 = [1, 2] ∧
    ((Live.calls Toy.world (Live.start Toy.world cl x true [97] co ci 0 conn) ks).1.flatMap fun r => r.2.bytes) = [1, 2, 2] := by
  obtain ⟨cl, x, co, ci, sv, y, so, si, ca, sa, hc, hs, h1, h2, h3, h4, h⟩ := Toy.linked_ok
    (f := fun c x co ci s y so si => c.cp == s.cp && c.clientAp == s.clientAp && c.serverAp == s.serverAp &&
      (let w1 := (Live.calls Toy.world (Live.start Toy.world s y true [] so si 0 []) [.write [1], .update true]).2.wire.length
       let w2 := (Live.calls Toy.world (Live.start Toy.world s y true [] so si 0 []) [.write [1], .update true, .write [2]]).2.wire.length
       let r := Live.calls Toy.world (Live.start Toy.world s y true [] so si 0 []) [.write [1], .update true, .write [2], .update false]
       let conn := [.ok r.2.wire, .ok ((r.2.wire.take w2).drop w1)]
       r.1.length == 4 && Toy.noForgery c.cp false c.serverAp r.2.log (delivered conn) && written r.1 == [1, 2] &&
       ((Live.calls Toy.world (Live.start Toy.world c x true [97] co ci 0 conn)
        [.close, .read 0 9 9, .read 0 9 9, .read 0 9 9, .read 0 9 9, .read 0 9 9]).1.flatMap fun r => r.2.bytes) == [1, 2, 2]))
    (r := clientRun Toy.env Toy.tls Toy.pskClient (Toy.coins 2) (Toy.exchange Toy.tls Toy.pskClient Toy.pskServer 2).1)
    (r' := serverRun Toy.env Toy.tls Toy.pskServer (Toy.exchange Toy.tls Toy.pskClient Toy.pskServer 2).2) (by decide +kernel)
  simp only [Bool.and_eq_true, beq_iff_eq] at h
  obtain ⟨⟨⟨h5, h6⟩, h7⟩, ⟨⟨h8, h9⟩, h10⟩, h11⟩ := h
  exact ⟨cl, sv, co, ci, so, si, x, y, _, _, _, ⟨⟨_, _, _, _, _, _, _, _, _, _, _, hc, hs, h1, h2, h3, h4⟩, h5, h6, h7⟩, h8,
    Toy.noForgery_ok h9, h10, h11⟩

/-! ### C50 -/

/-- C50, for short buffers: if the buffer and the overhead of encryption (one byte of content type and the tag) fit into
2^14 bytes, Write succeeds and reports all bytes. Missing: longer buffers, for which it is false. -/
theorem C50_write_partial (c : Live) (a : Aead) (h : CanWrite c a) (b : Bytes) (hb : b.length + 1 + a.overhead ≤ 2 ^ 14) :
    (c.write b).1 = .ok (b.length, none) := by
  have hlt : b.length < 2 ^ 14 := by omega
  have hfr : fragments b.length b = if b = [] then [] else [b] := by
    cases hn : b.length with
    | zero => rfl
    | succ n => rw [fragments, if_neg (by omega)]
  unfold Live.write
  rw [hfr]
  by_cases he : b = []
  · subst he; rfl
  · rw [if_neg he]
    have := (writeRecord_iff h 23 b).1 hb
    rcases hx : c.writeRecord 23 b with ⟨res, c'⟩
    rw [hx] at this
    simp only at this
    subst this
    simp [Live.writeAll, hx]

/-- C50 fails for every longer buffer, whatever the suite: Write reports an error, and nothing is sent. Above 2^14 bytes the
code cuts the buffer into fragments of 2^14 bytes (conn.go:481-496), none of which can be encrypted within the limit of 2^14
bytes that the record layer sets (record-layer.go:489-491). -/
theorem C50_write_fails (c : Live) (a : Aead) (h : CanWrite c a) (b : Bytes) (hb : 2 ^ 14 < b.length + 1 + a.overhead) (hne : b ≠ []) :
    c.write b = (.ok (0, some .msg), c) := by
  obtain ⟨f, fs, hfr, hlen⟩ : ∃ f fs, fragments b.length b = f :: fs ∧ 2 ^ 14 < f.length + 1 + a.overhead := by
    cases hn : b.length with
    | zero => exact absurd (List.eq_nil_of_length_eq_zero hn) hne
    | succ n =>
      rw [fragments]
      by_cases hge : b.length ≥ 2 ^ 14
      · rw [if_pos hge]
        exact ⟨_, _, rfl, by rw [List.length_take]; omega⟩
      · rw [if_neg hge, if_neg hne]
        exact ⟨_, _, rfl, hb⟩
  unfold Live.write
  rw [hfr, Live.writeAll, (writeRecord_iff h 23 f).2 hlen]

/-- In the toy world, where encryption adds 28 bytes: a buffer of 16355 bytes is written, one of 16356 bytes is not, and
neither is one of a million bytes. -/
example : ∃ (c : Live) (a : Aead), CanWrite c a ∧ (c.write (List.replicate 16355 1)).1 = .ok (16355, none) ∧
    c.write (List.replicate 16356 1) = (.ok (0, some .msg), c) ∧ c.write (List.replicate 1000000 1) = (.ok (0, some .msg), c) := by
  obtain ⟨cl, x, co, ci, sv, y, so, si, ca, sa, hc, hs, h1, h2, h3, h4, h⟩ := Toy.linked_ok
    (f := fun c x co ci s y so si => c.cp == s.cp && c.clientAp == s.clientAp && c.serverAp == s.serverAp)
    (r := clientRun Toy.env Toy.tls Toy.pskClient (Toy.coins 2) (Toy.exchange Toy.tls Toy.pskClient Toy.pskServer 2).1)
    (r' := serverRun Toy.env Toy.tls Toy.pskServer (Toy.exchange Toy.tls Toy.pskClient Toy.pskServer 2).2) (by decide +kernel)
  simp only [Bool.and_eq_true, beq_iff_eq] at h
  obtain ⟨⟨h5, h6⟩, h7⟩ := h
  have hE : Established Toy.world cl sv co ci so si := ⟨⟨_, _, _, _, _, _, _, _, _, _, _, hc, hs, h1, h2, h3, h4⟩, h5, h6, h7⟩
  have hw := (established_canWrite Toy.world_lawful Toy.prims_sized hE x y true true [97] [] 0 0 [] []).1
  have hne : ∀ n, List.replicate (n + 1) (1 : UInt8) ≠ [] := fun n h => by simp at h
  refine ⟨_, _, hw, ?_, ?_, ?_⟩
  · have := C50_write_partial _ _ hw (List.replicate 16355 1) (by rw [List.length_replicate]; exact Nat.le_refl _)
    rwa [List.length_replicate] at this
  · exact C50_write_fails _ _ hw _ (by rw [List.length_replicate]; exact Nat.lt_succ_self _) (hne 16355)
  · exact C50_write_fails _ _ hw _ (by rw [List.length_replicate]; show 2 ^ 14 < 1000000 + 1 + 28; omega) (hne 999999)

end Verif.Props

import Verif.Props.Stream
import Verif.Conn.Closing

/-
C72: what end of file from Read means.
-/

namespace Verif.Props

open Verif Verif.Crypto Verif.Messages Verif.Negotiation Verif.Handshake Verif.Machine Verif.Spec Verif.Conn Verif.Record

/-- C72, unless the transport reports end of file. After a handshake, let the client and the server make any calls, and let the
transport deliver anything at all to the server, except for forgeries, and never report end of file. If a call of the server
reports end of file, then the client has written a record that explains it, and the Reads before have returned all
application data the client sent before that record. Missing: end of file of the transport, for which it is false. -/
theorem C72_to_server_partial (W : World) (hl : W.Lawful) (hP : W.E.P.Sized) (cl sv : Connected) (co ci so si : Machine.Keys)
    (h : Established W cl sv co ci so si) (x y : Ctx) (nb nb' : Bool) (sn sn' : Bytes) (v v' : Nat)
    (conn conn' : List (Except Err Bytes)) (ks ks' : List Call)
    (hF : NoForgery W cl.cp true cl.clientAp (Live.calls W (Live.start W cl x nb sn co ci v conn) ks).2.log (delivered conn'))
    (hconn : .error .eof ∉ conn')
    (he : ∃ k r, (k, r) ∈ (Live.calls W (Live.start W sv y nb' sn' so si v' conn') ks').1 ∧ r.error = some .eof) :
    StopsAt true (Live.calls W (Live.start W cl x nb sn co ci v conn) ks).2.log
      (gotten (Live.calls W (Live.start W sv y nb' sn' so si v' conn') ks').1) := by
  obtain ⟨hz, hc, hs, e1, e2, e3, e4⟩ := h.ends hP
  obtain ⟨⟨hL, hb⟩, -⟩ := calls_logged hl hP hz ks (start_writes (W := W) (x := x) (nb := nb) (sn := sn) (o := co) (i := ci) (v := v)
    (conn := conn) rfl hc e1)
  have hsec : dirSecret true cl = dirSecret (!false) sv := h.client
  rw [hsec] at hL
  have hr := start_reads (W := W) (cp := cl.cp) (b := false) (st := sv) (x := y) (nb := nb') (sn := sn') (o := so) (i := si)
    (v := v') (conn := conn') h.suite.symm hs (by rw [e4, ← hsec]; rfl) hL
  have := calls_eof hP hz hb (by rw [← hsec]; exact hF) ks' hr (by simpa [Live.start, Reader.new] using hconn) he
  simpa using this

/-- The same for the other direction: here no ticket can be the reason. -/
theorem C72_to_client_partial (W : World) (hl : W.Lawful) (hP : W.E.P.Sized) (cl sv : Connected) (co ci so si : Machine.Keys)
    (h : Established W cl sv co ci so si) (x y : Ctx) (nb nb' : Bool) (sn sn' : Bytes) (v v' : Nat)
    (conn conn' : List (Except Err Bytes)) (ks ks' : List Call)
    (hF : NoForgery W cl.cp false cl.serverAp (Live.calls W (Live.start W sv y nb' sn' so si v' conn') ks').2.log (delivered conn))
    (hconn : .error .eof ∉ conn)
    (he : ∃ k r, (k, r) ∈ (Live.calls W (Live.start W cl x nb sn co ci v conn) ks).1 ∧ r.error = some .eof) :
    StopsAt false (Live.calls W (Live.start W sv y nb' sn' so si v' conn') ks').2.log
      (gotten (Live.calls W (Live.start W cl x nb sn co ci v conn) ks).1) := by
  obtain ⟨hz, hc, hs, e1, e2, e3, e4⟩ := h.ends hP
  have hsec : dirSecret false sv = dirSecret (!true) cl := h.server.symm
  obtain ⟨⟨hL, hb⟩, -⟩ := calls_logged hl hP hz ks' (start_writes (W := W) (cp := cl.cp) (x := y) (nb := nb') (sn := sn') (o := so) (i := si) (v := v')
    (conn := conn') h.suite.symm hs (by rw [e3, hsec]; rfl))
  rw [hsec] at hL
  have hr := start_reads (W := W) (cp := cl.cp) (b := true) (st := cl) (x := x) (nb := nb) (sn := sn) (o := co) (i := ci)
    (v := v) (conn := conn) rfl hc e2 hL
  have := calls_eof (b := true) hP hz hb hF ks hr (by simpa [Live.start, Reader.new] using hconn) he
  simpa using this

/-- Some call has reported end of file. -/
def anyEof (rs : List (Call × Reply)) : Bool := rs.any fun r => r.2.error = some .eof

theorem anyEof_ok {rs : List (Call × Reply)} (h : anyEof rs = true) : ∃ k r, (k, r) ∈ rs ∧ r.error = some .eof := by
  simp only [anyEof, List.any_eq_true, decide_eq_true_eq] at h
  obtain ⟨⟨k, r⟩, h1, h2⟩ := h
  exact ⟨k, r, h1, h2⟩

/-- A client that sends a ticket: the server reads [1, 2], then reports end of file, and sends an alert behind its own
data [5]. The client reads [5] and reports end of file. -/
example : ∃ (cl sv : Connected) (co ci so si : Machine.Keys) (x y : Ctx) (conn conn' : List (Except Err Bytes)) (ks ks' : List Call),
    Established Toy.world cl sv co ci so si ∧
    NoForgery Toy.world cl.cp true cl.clientAp (Live.calls Toy.world (Live.start Toy.world cl x true [97] co ci 0 []) ks).2.log
      (delivered conn') ∧ .error .eof ∉ conn' ∧
    (∃ k r, (k, r) ∈ (Live.calls Toy.world (Live.start Toy.world sv y true [] so si 0 conn') ks').1 ∧ r.error = some .eof) ∧
    NoForgery Toy.world cl.cp false cl.serverAp (Live.calls Toy.world (Live.start Toy.world sv y true [] so si 0 conn') ks').2.log
      (delivered conn) ∧ .error .eof ∉ conn ∧
    (∃ k r, (k, r) ∈ (Live.calls Toy.world (Live.start Toy.world cl x true [97] co ci 0 conn) ks).1 ∧ r.error = some .eof) ∧
    gotten (Live.calls Toy.world (Live.start Toy.world sv y true [] so si 0 conn') ks').1 = [1, 2] ∧
    gotten (Live.calls Toy.world (Live.start Toy.world cl x true [97] co ci 0 conn) ks).1 = [5] := by
  obtain ⟨cl, x, co, ci, sv, y, so, si, ca, sa, hc, hs, h1, h2, h3, h4, h⟩ := Toy.linked_ok
    (f := fun c x co ci s y so si => c.cp == s.cp && c.clientAp == s.clientAp && c.serverAp == s.serverAp &&
      (let ks := [.write [1, 2], .ticket 5 100 10 7 [1, 2] [8, 9], .write [3], .read 0 9 9, .read 0 9 9]
       let ks' := [.write [5], .read 0 9 9, .read 0 9 9]
       let r := Live.calls Toy.world (Live.start Toy.world c x true [97] co ci 0 []) ks
       let conn' := [.ok r.2.wire]
       let r' := Live.calls Toy.world (Live.start Toy.world s y true [] so si 0 conn') ks'
       let conn := [.ok r'.2.wire]
       let r'' := Live.calls Toy.world (Live.start Toy.world c x true [97] co ci 0 conn) ks
       Toy.noForgery c.cp true c.clientAp r.2.log (delivered conn') && Toy.noForgery c.cp false c.serverAp r'.2.log (delivered conn) &&
       anyEof r'.1 && anyEof r''.1 && gotten r'.1 == [1, 2] && gotten r''.1 == [5]))
    (r := clientRun Toy.env Toy.tls Toy.pskClient (Toy.coins 2) (Toy.exchange Toy.tls Toy.pskClient Toy.pskServer 2).1)
    (r' := serverRun Toy.env Toy.tls Toy.pskServer (Toy.exchange Toy.tls Toy.pskClient Toy.pskServer 2).2) (by decide +kernel)
  simp only [Bool.and_eq_true, beq_iff_eq] at h
  obtain ⟨⟨⟨h5, h6⟩, h7⟩, ⟨⟨⟨⟨h8, h9⟩, h10⟩, h11⟩, h12⟩, h13⟩ := h
  exact ⟨cl, sv, co, ci, so, si, x, y, _, _, _, _, ⟨⟨_, _, _, _, _, _, _, _, _, _, _, hc, hs, h1, h2, h3, h4⟩, h5, h6, h7⟩,
    Toy.noForgery_ok h8, by simp, anyEof_ok h10, Toy.noForgery_ok h9, by simp, anyEof_ok h11, h12, h13⟩

end Verif.Props

namespace Verif.Toy

open Verif.Spec Verif.Record

/-- A history of application data only. -/
def onlyData (log : List Item) : Bool := log.all fun i => match i with | .record ct _ _ => ct == 23 | .rekey _ _ _ => false

theorem onlyData_ok {log : List Item} (h : onlyData log = true) (got : Bytes) : ¬ StopsAt true log got := by
  rintro ⟨pre, ct, f, post, rfl, hs, -⟩
  have := List.all_eq_true.mp h (.record ct f 0) (by simp)
  simp only [beq_iff_eq] at this
  subst this
  simp [Stops] at hs

end Verif.Toy

namespace Verif.Props

open Verif Verif.Crypto Verif.Messages Verif.Negotiation Verif.Handshake Verif.Machine Verif.Spec Verif.Conn Verif.Record

/-- C72 is false if the transport may report end of file: whoever controls it can cut a connection between two records. The
client writes [1, 2] and [3, 4], and sends nothing that would end the connection; the server reads [1, 2] and is told that
this is all. -/
theorem C72_cut_fails : ∃ (cl sv : Connected) (co ci so si : Machine.Keys) (x y : Ctx) (conn' : List (Except Err Bytes)) (ks ks' : List Call),
    Established Toy.world cl sv co ci so si ∧
    NoForgery Toy.world cl.cp true cl.clientAp (Live.calls Toy.world (Live.start Toy.world cl x true [97] co ci 0 []) ks).2.log
      (delivered conn') ∧
    (∃ k r, (k, r) ∈ (Live.calls Toy.world (Live.start Toy.world sv y true [] so si 0 conn') ks').1 ∧ r.error = some .eof) ∧
    written (Live.calls Toy.world (Live.start Toy.world cl x true [97] co ci 0 []) ks).1 = [1, 2, 3, 4] ∧
    gotten (Live.calls Toy.world (Live.start Toy.world sv y true [] so si 0 conn') ks').1 = [1, 2] ∧
    ¬ StopsAt true (Live.calls Toy.world (Live.start Toy.world cl x true [97] co ci 0 []) ks).2.log
      (gotten (Live.calls Toy.world (Live.start Toy.world sv y true [] so si 0 conn') ks').1) := by
  obtain ⟨cl, x, co, ci, sv, y, so, si, ca, sa, hc, hs, h1, h2, h3, h4, h⟩ := Toy.linked_ok
    (f := fun c x co ci s y so si => c.cp == s.cp && c.clientAp == s.clientAp && c.serverAp == s.serverAp &&
      (let ks := [.write [1, 2], .write [3, 4]]
       let ks' := [.read 0 9 9, .read 0 9 9]
       let first := (Live.calls Toy.world (Live.start Toy.world c x true [97] co ci 0 []) [.write [1, 2]]).2.wire
       let r := Live.calls Toy.world (Live.start Toy.world c x true [97] co ci 0 []) ks
       let conn' := [.ok first, .error .eof]
       let r' := Live.calls Toy.world (Live.start Toy.world s y true [] so si 0 conn') ks'
       Toy.noForgery c.cp true c.clientAp r.2.log (delivered conn') && anyEof r'.1 && written r.1 == [1, 2, 3, 4] && gotten r'.1 == [1, 2] &&
       Toy.onlyData r.2.log))
    (r := clientRun Toy.env Toy.tls Toy.pskClient (Toy.coins 2) (Toy.exchange Toy.tls Toy.pskClient Toy.pskServer 2).1)
    (r' := serverRun Toy.env Toy.tls Toy.pskServer (Toy.exchange Toy.tls Toy.pskClient Toy.pskServer 2).2) (by decide +kernel)
  simp only [Bool.and_eq_true, beq_iff_eq] at h
  obtain ⟨⟨⟨h5, h6⟩, h7⟩, ⟨⟨⟨h8, h9⟩, h10⟩, h11⟩, h12⟩ := h
  exact ⟨cl, sv, co, ci, so, si, x, y, _, _, _, ⟨⟨_, _, _, _, _, _, _, _, _, _, _, hc, hs, h1, h2, h3, h4⟩, h5, h6, h7⟩,
    Toy.noForgery_ok h8, anyEof_ok h9, h10, h11, Toy.onlyData_ok h12 _⟩

theorem writeAll_onlyData (fs : List Bytes) (n : Nat) (c : Live) (h : Toy.onlyData c.log = true) : Toy.onlyData (c.writeAll fs n).2.log = true := by
  induction fs generalizing c n with
  | nil => exact h
  | cons f fs ih =>
    have hw : Toy.onlyData (c.writeRecord 23 f).2.log = true := by
      unfold Live.writeRecord
      split
      · split
        · exact h
        · simp only [Toy.onlyData, List.all_append, Bool.and_eq_true]
          exact ⟨h, by simp⟩
      all_goals exact h
    rw [Live.writeAll]
    split
    all_goals
      rename_i he
      rw [he] at hw
    · exact ih _ _ hw
    all_goals exact hw

theorem writes_onlyData (W : World) (bs : List Bytes) (c : Live) (h : Toy.onlyData c.log = true) :
    Toy.onlyData (Live.calls W c (bs.map .write ++ [.close])).2.log = true := by
  induction bs generalizing c with
  | nil => simpa [Live.calls, Live.call, Live.close] using h
  | cons b bs ih =>
    have hw := writeAll_onlyData (fragments b.length b) 0 c h
    have hc : Toy.onlyData (c.call W (.write b)).2.log = true := by
      rw [Live.call, Live.write]
      split
      all_goals
        rename_i he
        rw [he] at hw
        exact hw
    simp only [List.map_cons, List.cons_append]
    rw [Live.calls]
    split
    · rename_i he
      rw [he] at hc
      exact ih _ hc
    · rename_i he
      rw [he] at hc
      exact hc

/-- Nor does an end that closes the connection say so (conn.go:539-543): Close gives the transport nothing. Let the client
write and then close. Whatever the transport delivers to the server, the server learns of the end of the connection only if
the transport reports it, that is, never from the client. -/
theorem C72_close_fails (W : World) (hl : W.Lawful) (hP : W.E.P.Sized) (cl sv : Connected) (co ci so si : Machine.Keys)
    (h : Established W cl sv co ci so si) (x y : Ctx) (nb nb' : Bool) (sn sn' : Bytes) (v v' : Nat)
    (conn conn' : List (Except Err Bytes)) (bs : List Bytes) (ks' : List Call)
    (hF : NoForgery W cl.cp true cl.clientAp (Live.calls W (Live.start W cl x nb sn co ci v conn) (bs.map .write ++ [.close])).2.log (delivered conn'))
    (hconn : .error .eof ∉ conn') (k : Call) (r : Reply) (hr : (k, r) ∈ (Live.calls W (Live.start W sv y nb' sn' so si v' conn') ks').1) :
    r.error ≠ some .eof := by
  intro he
  have := C72_to_server_partial W hl hP cl sv co ci so si h x y nb nb' sn sn' v v' conn conn' _ ks' hF hconn ⟨k, r, hr, he⟩
  exact Toy.onlyData_ok (writes_onlyData W bs (Live.start W cl x nb sn co ci v conn) rfl) _ this

/-- A client that writes [1, 2] and [3] and closes, and a server to which all of it is delivered: it reads [1, 2, 3], and
its next Read would block. -/
example : ∃ (cl sv : Connected) (co ci so si : Machine.Keys) (x y : Ctx) (conn' : List (Except Err Bytes)) (bs : List Bytes) (ks' : List Call),
    Established Toy.world cl sv co ci so si ∧
    NoForgery Toy.world cl.cp true cl.clientAp
      (Live.calls Toy.world (Live.start Toy.world cl x true [97] co ci 0 []) (bs.map .write ++ [.close])).2.log (delivered conn') ∧
    .error .eof ∉ conn' ∧
    (Live.calls Toy.world (Live.start Toy.world sv y true [] so si 0 conn') ks').1.map (fun r => (r.2.bytes, r.2.error)) =
      [([1, 2], none), ([3], none), ([], some .wouldBlock)] := by
  obtain ⟨cl, x, co, ci, sv, y, so, si, ca, sa, hc, hs, h1, h2, h3, h4, h⟩ := Toy.linked_ok
    (f := fun c x co ci s y so si => c.cp == s.cp && c.clientAp == s.clientAp && c.serverAp == s.serverAp &&
      (let bs : List Bytes := [[1, 2], [3]]
       let ks' := [.read 0 9 9, .read 0 9 9, .read 0 9 9]
       let r := Live.calls Toy.world (Live.start Toy.world c x true [97] co ci 0 []) (bs.map .write ++ [.close])
       let conn' := [.ok r.2.wire]
       let r' := Live.calls Toy.world (Live.start Toy.world s y true [] so si 0 conn') ks'
       Toy.noForgery c.cp true c.clientAp r.2.log (delivered conn') &&
       r'.1.map (fun r => (r.2.bytes, r.2.error)) == [([1, 2], none), ([3], none), ([], some .wouldBlock)]))
    (r := clientRun Toy.env Toy.tls Toy.pskClient (Toy.coins 2) (Toy.exchange Toy.tls Toy.pskClient Toy.pskServer 2).1)
    (r' := serverRun Toy.env Toy.tls Toy.pskServer (Toy.exchange Toy.tls Toy.pskClient Toy.pskServer 2).2) (by decide +kernel)
  simp only [Bool.and_eq_true, beq_iff_eq] at h
  obtain ⟨⟨⟨h5, h6⟩, h7⟩, h8, h9⟩ := h
  exact ⟨cl, sv, co, ci, so, si, x, y, _, _, _, ⟨⟨_, _, _, _, _, _, _, _, _, _, _, hc, hs, h1, h2, h3, h4⟩, h5, h6, h7⟩,
    Toy.noForgery_ok h8, by simp, h9⟩

end Verif.Props

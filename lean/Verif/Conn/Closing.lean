import Verif.Conn.Receiving
import Verif.Spec.Closing

/-
When an established connection reports end of file.
-/

namespace Verif.Conn

open Verif Verif.Crypto Verif.Messages Verif.Negotiation Verif.Handshake Verif.Machine Verif.Spec Verif.Record

/-! ### End of file of the record layer -/

theorem bind_noEof {α β : Type} {x : Res α} {f : α → Res β} (hx : x ≠ .err .eof) (hf : ∀ a, f a ≠ .err .eof) : x.bind f ≠ .err .eof := by
  cases x with
  | ok a => exact hf a
  | err e => simpa [Res.bind] using hx
  | panic => simp [Res.bind]
  | diverge => simp [Res.bind]

theorem computeNonce_noEof (c : CipherState) (seq : Nat) : computeNonce c seq ≠ .err .eof := by
  unfold computeNonce
  split <;> simp

theorem bumpSeq_noEof (h : Nat → CipherState) (i : Nat) : bumpSeq h i ≠ .err .eof := by
  unfold bumpSeq
  split <;> simp

theorem decrypt_noEof (d : Direction) (c : CipherState) (seq : Nat) (h f : Bytes) : decrypt d c seq h f ≠ .err .eof := by
  unfold decrypt
  split
  · simp
  · split
    · simp
    · split
      · simp
      · refine bind_noEof (computeNonce_noEof _ _) fun n => ?_
        split
        · simp
        · unfold stripPadding
          split <;> simp

theorem selectCipher_noEof (k : Record.Keys) (any : Bool) (h : Bytes) : selectCipher k any h ≠ .err .eof := by
  unfold selectCipher
  split
  · dsimp only
    split
    · simp
    · split
      · split <;> simp
      · simp
  · simp

theorem openRecord_noEof (k : Record.Keys) (any : Bool) (h b : Bytes) : openRecord k any h b ≠ .err .eof := by
  unfold openRecord
  dsimp only
  split
  · simp
  · split
    · simp
    · refine bind_noEof (selectCipher_noEof _ _ _) fun ⟨i, s⟩ => bind_noEof ?_ fun ⟨ct, s, f⟩ => ?_
      · dsimp only
        split
        · exact bind_noEof (decrypt_noEof _ _ _ _ _) fun _ => by simp
        · simp
      · dsimp only
        split
        · simp
        · exact bind_noEof (bumpSeq_noEof _ _) fun _ => by simp

theorem recordHeader_noEof (k : Record.Keys) (t : UInt8) (seq n : Nat) : recordHeader k t seq n ≠ .err .eof := by
  unfold recordHeader
  split
  · refine bind_noEof ?_ fun _ => by simp
    unfold dtlsConvertVersion
    split
    · simp
    · split <;> simp
  · simp

theorem writeRecord_noEof (k : Record.Keys) (i : Nat) (ct : UInt8) (f : Bytes) (pad : Nat) : Record.writeRecord k i ct f pad ≠ .err .eof := by
  unfold Record.writeRecord
  dsimp only
  split
  · refine bind_noEof (recordHeader_noEof _ _ _ _) fun _ => ?_
    split
    · simp
    · refine bind_noEof (computeNonce_noEof _ _) fun n => ?_
      split
      · simp
      · exact bind_noEof (bumpSeq_noEof _ _) fun _ => by simp
  · refine bind_noEof (recordHeader_noEof _ _ _ _) fun _ => ?_
    split
    · simp
    · split
      · simp
      · exact bind_noEof (bumpSeq_noEof _ _) fun _ => by simp

theorem processN_noErr (dg : Bool) (n : Nat) (f : FrameReader) (e : Err) : (FrameReader.processN (recordFraming dg) n f).1 ≠ some (.error e) := by
  induction n generalizing f with
  | zero => simp [FrameReader.processN]
  | succ n ih =>
    rw [FrameReader.processN]
    split
    · dsimp only
      split
      · simp
      · split
        · simp
        · split
          · rename_i h
            simp [recordFraming] at h
          · exact ih _
    · simp

theorem readFrame_error (dg : Bool) (conn : List (Except Err Bytes)) (f : FrameReader) :
    (∀ e, (readFrame (recordFraming dg) conn f).1 = .connErr e → .error e ∈ conn) ∧
    ∀ e, (readFrame (recordFraming dg) conn f).1 ≠ .frameErr e := by
  induction conn generalizing f with
  | nil =>
    rw [readFrame]
    split
    · simp
    · rename_i e f' h
      exact absurd (congrArg Prod.fst h) (processN_noErr dg 2 f e)
    · simp
  | cons x conn ih =>
    rw [readFrame]
    split
    · simp
    · rename_i e f' h
      exact absurd (congrArg Prod.fst h) (processN_noErr dg 2 f e)
    · split
      · simp
      · split
        · simp
        · exact ⟨fun e he => List.mem_cons_of_mem _ ((ih _).1 e he), (ih _).2⟩

/-- The record layer reports end of file only if the transport does. -/
theorem readRecord_eof {r : Reader} {any : Bool} {r' : Reader} (h : Record.readRecord r any = (.err .eof, r')) : .error .eof ∈ r.conn := by
  have h1 : (nextRecord r any).1 = .err .eof := congrArg Prod.fst h
  unfold nextRecord at h1
  split at h1
  · simp at h1
  · obtain ⟨g1, g2⟩ := readFrame_error r.keys.datagram r.conn r.frame
    split at h1
    · split at h1
      · simp at h1
      · rename_i he
        simp only [Res.err.injEq] at h1
        exact absurd (h1 ▸ he) (openRecord_noEof _ _ _ _)
      · simp at h1
      · simp at h1
    · rename_i hf
      rw [hf] at g2
      exact absurd rfl (g2 _)
    · rename_i hf
      simp only [Res.err.injEq] at h1
      rw [hf] at g1
      exact g1 _ (by simp [h1])
    · simp at h1

/-! ### What is left of the transport -/

theorem writeRecord_reader (c : Live) (ct : UInt8) (f : Bytes) : (c.writeRecord ct f).2.reader = c.reader := by
  unfold Live.writeRecord
  split
  · split <;> rfl
  all_goals rfl

theorem sendAlert_reader (c : Live) (a : Nat) : (c.sendAlert a).2.reader = c.reader := by
  have h := writeRecord_reader c 21 [UInt8.ofNat a, if a = 100 ∨ a = Alert.closeNotify then 1 else 2]
  unfold Live.sendAlert
  dsimp only
  split
  · rename_i he; rw [he] at h; exact h
  · rename_i he; rw [he] at h; exact h
  · rename_i he; rw [he] at h
    split <;> exact h

theorem abort_reader (c : Live) (a : Nat) (e : Err) : (c.abort a e).2.reader = c.reader := by
  have h := sendAlert_reader c a
  unfold Live.abort
  split
  · rename_i he; rw [he] at h; exact h
  · exact h

theorem writeFragments_reader (fs : List Bytes) (c : Live) : (c.writeFragments fs).2.reader = c.reader := by
  induction fs generalizing c with
  | nil => rfl
  | cons f fs ih =>
    have h := writeRecord_reader c 22 f
    rw [Live.writeFragments]
    split
    · rename_i he; rw [he] at h; exact (ih _).trans h
    · exact h

theorem takeAction_conn (W : World) (c : Live) (a : Action) : (c.takeAction W a).2.reader.conn = c.reader.conn := by
  cases a with
  | queue m =>
    rw [Live.takeAction]
    split
    · rename_i fs _
      have h := writeFragments_reader fs c
      unfold internal
      split
      · rename_i he; rw [he] at h; exact congrArg _ h
      · exact congrArg _ h
    all_goals rfl
  | rekeyIn e k => rw [Live.takeAction]; split <;> rfl
  | _ => rfl

theorem takeAll_conn (W : World) (as : List Action) (c : Live) : (c.takeAll W as).2.reader.conn = c.reader.conn := by
  induction as generalizing c with
  | nil => rfl
  | cons a as ih =>
    have h := takeAction_conn W c a
    rw [Live.takeAll]
    split
    · rename_i he; rw [he] at h; exact (ih _).trans h
    · exact h

theorem process_conn (W : World) (c : Live) (now : Int) (m : Msg) : (c.process W now m).2.reader.conn = c.reader.conn := by
  unfold Live.process
  split
  · rename_i s acts x _
    have h := takeAll_conn W acts { c with x := x }
    split
    · rename_i he; rw [he] at h; exact h
    · unfold Live.orAbort
      split
      · rename_i he; rw [he] at h; rw [abort_reader]; exact h
      · exact h
  · rw [abort_reader]
  all_goals rfl

theorem postHandshake_conn (W : World) (now : Int) (n : Nat) (c : Live) (b : Bytes) :
    (Live.postHandshake W now n c b).2.reader.conn = c.reader.conn := by
  induction n generalizing c b with
  | zero => rfl
  | succ n ih =>
    rw [Live.postHandshake]
    split
    · rfl
    · split
      · rfl
      · dsimp only
        split
        · rfl
        · have h := process_conn W c now ⟨b.getD 0 0, 0, (b.drop 4).take (beNat ((b.drop 1).take 3)), 0, 0⟩
          split
          · rename_i he; rw [he] at h; exact (ih _ _).trans h
          · exact h

theorem handle_conn (W : World) (c : Live) (now : Int) (ct : UInt8) (f : Bytes) : (c.handle W now ct f).2.reader.conn = c.reader.conn := by
  unfold Live.handle
  split
  · exact postHandshake_conn W now _ c f
  · split
    · split
      · split
        · rfl
        · split
          · rfl
          · split
            · rfl
            · rw [abort_reader]
      · rw [abort_reader]
    · split
      · rfl
      · split <;> rfl

theorem consume_conn (W : World) (c : Live) (now : Int) (hi : c.reader.Inv) (hc : c.reader.cached = none) :
    (c.consume W now).2.reader.conn <:+ c.reader.conn := by
  have h : (Record.readRecord c.reader false).2.conn <:+ c.reader.conn := (nextRecord_spec c.reader false hi hc).2.1
  unfold Live.consume
  split
  · rename_i pt r he
    rw [he] at h
    rw [handle_conn]
    exact h
  all_goals
    rename_i he
    rw [he] at h
    exact h

/-! ### End of file of Read -/

/-- End of file without end of file of the transport: the next record of the writer is one at which a reader may stop. -/
theorem consume_eof {W : World} (hP : W.E.P.Sized) {cp : Params} (hs : 0 < cp.hash.size) {b : Bool} {s0 : Bytes} {L : List Item}
    {F : List FrameEvent} {got : Bytes} {c : Live} (h : Reads W cp b s0 L F got c) (hb : Bounded L) (hF : NoForgery W cp (!b) s0 L F)
    (hconn : .error .eof ∉ c.reader.conn) (hbuf : c.readBuffer = []) (now : Int) (he : (c.consume W now).1 = .err .eof) :
    StopsAt (!b) L got := by
  obtain ⟨p, q, h⟩ := h
  unfold Live.consume at he
  rcases hr : Record.readRecord c.reader false with ⟨res, r⟩
  rw [hr] at he
  cases res with
  | err e =>
    simp only [Res.err.injEq] at he
    subst he
    exact absurd (readRecord_eof hr) hconn
  | panic => simp at he
  | diverge => simp at he
  | ok pt =>
    obtain ⟨q', rfl, -⟩ := next_record h hb hF pt r hr
    obtain ⟨ct, ep, sq, f⟩ := pt
    dsimp only at h he
    have hd : got = appData p := by rw [h.data, hbuf, List.append_nil]
    have stop : Stops (!b) ct f → StopsAt (!b) L got := fun hst => ⟨p, ct, f, q', h.split, hst, hd⟩
    obtain ⟨t, ht⟩ := h.after
    cases ht with
    | plain _ _ _ _ _ hct ht' =>
      rcases hct with rfl | rfl
      · simp [Live.handle] at he
      · exact stop (.inl rfl)
    | ticket m tk _ _ _ hbody hlen ht' =>
      cases hcl : b with
      | false =>
        refine hcl ▸ stop (.inr ⟨rfl, .inl ⟨by rw [hcl]; rfl, ?_⟩⟩)
        simp only [List.cons_append, List.head?_cons, ne_eq, Option.some.injEq]
        intro h24
        rw [h24] at hbody
        simp [toBody, typeClientHello, typeServerHello, typeEncryptedExtensions, typeCertificate, typeCertificateRequest,
          typeCertificateVerify, typeFinished, typeNewSessionTicket, typeKeyUpdate, Res.bind_eq_ok] at hbody
      | true =>
        exfalso
        have hhs : ({ c with reader := r } : Live).handle W now 22 (m.msgType :: beBytes 3 m.body.length ++ m.body) =
            ({ c with reader := r } : Live).process W now ⟨m.msgType, 0, m.body, 0, 0⟩ := by
          unfold Live.handle
          rw [if_pos rfl]
          rw [show (m.msgType :: beBytes 3 m.body.length ++ m.body).length + 1 = (m.body.length + 3) + 2 by simp; omega]
          exact postHandshake_one W now _ _ _ hlen _
        rw [hhs] at he
        obtain ⟨psk, hproc⟩ : ∃ psk, c.st.process W.E c.x now ⟨m.msgType, 0, m.body, 0, 0⟩ = .ok (c.st, [.storePsk psk], c.x) := by
          have hrole := h.role.trans hcl
          obtain ⟨psk, hpsk⟩ : ∃ psk, ticketPsk W.E.P c.st now tk = .ok psk := by
            simp only [ticketPsk, hkdfExpandLabel_eq W.E.P hP _ (h.params ▸ hs : 0 < c.st.cp.hash.size), Res.bind_ok]
            exact ⟨_, rfl⟩
          refine ⟨psk, ?_⟩
          simp only [Connected.process, hbody, orAlert, Res.bind_ok, hrole, hpsk, Bool.not_true, Bool.false_eq_true, if_false]
        simp only [Live.process, hproc] at he
        simp [Live.takeAll, Live.takeAction] at he
    | update ku q'' _ _ ht' =>
      by_cases hku : ku = 1
      · exact stop (.inr ⟨rfl, .inr (by rw [hku])⟩)
      · exfalso
        have hbody := keyUpdate_toBody W.E ku
        have hhs : ({ c with reader := r } : Live).handle W now 22 [24, 0, 0, 1, ku] =
            ({ c with reader := r } : Live).process W now ⟨24, 0, [ku], 0, 0⟩ := by
          unfold Live.handle
          rw [if_pos rfl]
          have := postHandshake_one W now ({ c with reader := r } : Live) 24 [ku] (by simp) 4
          simpa [beBytes] using this
        rw [hhs] at he
        obtain ⟨s', rest, x', hproc, hcp, hic, hrd, hrest⟩ := process_update hP c.x c.st (h.params ▸ hs) now (m := ⟨24, 0, [ku], 0, 0⟩) hbody
        rcases hrest with ⟨-, rfl, -⟩ | ⟨h1, -⟩
        · simp only [Live.process, hproc] at he
          simp [Live.takeAll, Live.takeAction, h.rest] at he
        · exact hku h1

theorem readLoop_eof {W : World} (hP : W.E.P.Sized) {cp : Params} (hs : 0 < cp.hash.size) {b : Bool} {s0 : Bytes} {L : List Item}
    {F : List FrameEvent} {got : Bytes} (hb : Bounded L) (hF : NoForgery W cp (!b) s0 L F) (now : Int) (fuel : Nat) {c : Live}
    (h : Reads W cp b s0 L F got c) (hconn : .error .eof ∉ c.reader.conn) :
    ((Live.readLoop W now fuel c).1 = .err .eof → StopsAt (!b) L got) ∧ (Live.readLoop W now fuel c).2.reader.conn <:+ c.reader.conn := by
  induction fuel generalizing c with
  | zero =>
    rw [Live.readLoop]
    split <;> simp
  | succ n ih =>
    rw [Live.readLoop]
    split
    · rename_i hbuf
      have hsuf : (c.consume W now).2.reader.conn <:+ c.reader.conn := by
        obtain ⟨p, q, h⟩ := h
        exact consume_conn W c now h.inv h.cached
      have hc := consume_reads hP hs h hb hF now
      have he := consume_eof hP hs h hb hF hconn hbuf now
      split
      · rename_i c' hx
        rw [hx] at hc hsuf
        obtain ⟨g1, g2⟩ := ih (hc (.inl rfl)) (fun hm => hconn (hsuf.subset hm))
        exact ⟨g1, g2.trans hsuf⟩
      · rename_i e c' hx
        rw [hx] at hc hsuf he
        split
        · exact ⟨he, hsuf⟩
        · rename_i hcond
          have hne : e ≠ .eof := by
            rintro rfl
            exact hcond (.inr (by simp))
          obtain ⟨g1, g2⟩ := ih (hc (.inr ⟨e, rfl, hne⟩)) (fun hm => hconn (hsuf.subset hm))
          exact ⟨g1, g2.trans hsuf⟩
      · exact ⟨he, hsuf⟩
    · exact ⟨by simp, List.suffix_refl _⟩

theorem abort_noEof (c : Live) (a : Nat) {e : Err} (h : e ≠ .eof) : (c.abort a e).1 ≠ .err .eof := by
  rcases abort_res c a e with h1 | h1
  · rw [h1]; simpa using h
  · intro h2; rw [h2] at h1; simp at h1

theorem takeAll_noEof (W : World) (as : List Action) (c : Live) : (c.takeAll W as).1 ≠ .err .eof := by
  intro h
  obtain ⟨n, hn⟩ := takeAll_err W as c _ h
  cases hn

theorem writeAll_noEof (fs : List Bytes) (n : Nat) (c : Live) (m : Nat) (h : (c.writeAll fs n).1 = .ok (m, some .eof)) : False := by
  induction fs generalizing c n with
  | nil => simp [Live.writeAll] at h
  | cons f fs ih =>
    rw [Live.writeAll] at h
    split at h
    · exact ih _ _ h
    · rename_i e c' he
      simp only [Res.ok.injEq, Prod.mk.injEq, Option.some.injEq] at h
      obtain ⟨-, rfl⟩ := h
      unfold Live.writeRecord at he
      split at he
      · split at he <;> simp at he
      · rename_i he'
        simp only [Prod.mk.injEq, Res.err.injEq] at he
        exact writeRecord_noEof _ _ _ _ _ (he.1 ▸ he')
      all_goals simp at he
    all_goals simp at h

theorem writeAll_noErr (fs : List Bytes) (n : Nat) (c : Live) (e : Err) : (c.writeAll fs n).1 ≠ .err e := by
  induction fs generalizing c n with
  | nil => simp [Live.writeAll]
  | cons f fs ih =>
    rw [Live.writeAll]
    split
    · exact ih _ _
    all_goals simp

theorem update_noEof {W : World} (hP : W.E.P.Sized) (c : Live) (hs : 0 < c.st.cp.hash.size) (request : Bool) : (c.update W request).1 ≠ .err .eof := by
  obtain ⟨s', m2, x', hk, -⟩ := keyUpdate_spec hP c.x c.st hs (if request then 1 else 0)
  unfold Live.update
  rw [hk]
  dsimp only
  unfold Live.orAbort
  split
  · exact abort_noEof _ _ (by simp)
  · exact takeAll_noEof W _ _

theorem ticket_noEof (W : World) (c : Live) (now : Int) (l e a : UInt32) (n t : Bytes) : (c.ticket W now l e a n t).1 ≠ .err .eof := by
  unfold Live.ticket
  split
  · split
    · exact abort_noEof _ _ (by simp)
    · exact takeAll_noEof W _ _
  all_goals simp

theorem call_eof {W : World} (hP : W.E.P.Sized) {cp : Params} (hs : 0 < cp.hash.size) {b : Bool} {s0 : Bytes} {L : List Item}
    {F : List FrameEvent} {got : Bytes} (hb : Bounded L) (hF : NoForgery W cp (!b) s0 L F) {c : Live}
    (h : Reads W cp b s0 L F got c) (hconn : .error .eof ∉ c.reader.conn) (k : Call) (r : Reply) (c' : Live)
    (hk : c.call W k = (.ok r, c')) : (r.error = some .eof → StopsAt (!b) L got) ∧ c'.reader.conn <:+ c.reader.conn := by
  have hcp : c.st.cp = cp := by obtain ⟨p, q, h⟩ := h; exact h.params
  have hreply : ∀ z : Res Unit × Live, z.1 ≠ .err .eof → SameIn c z.2 → reply z = (.ok r, c') →
      (r.error = some .eof → StopsAt (!b) L got) ∧ c'.reader.conn <:+ c.reader.conn := by
    rintro ⟨res, d⟩ hne hsame he
    cases res with
    | ok u =>
      simp only [reply, Prod.mk.injEq, Res.ok.injEq] at he
      obtain ⟨rfl, rfl⟩ := he
      exact ⟨by simp, by rw [hsame.reader]; exact List.suffix_refl _⟩
    | err e =>
      simp only [reply, Prod.mk.injEq, Res.ok.injEq] at he
      obtain ⟨rfl, rfl⟩ := he
      refine ⟨fun h => ?_, by rw [hsame.reader]; exact List.suffix_refl _⟩
      simp only [Option.some.injEq] at h
      exact absurd (by rw [h]) hne
    | panic => simp [reply] at he
    | diverge => simp [reply] at he
  cases k with
  | read now fuel n =>
    rw [Live.call, Live.read] at hk
    by_cases hn : n = 0
    · rw [if_pos hn] at hk
      simp only [Prod.mk.injEq, Res.ok.injEq] at hk
      obtain ⟨rfl, rfl⟩ := hk
      exact ⟨by simp, List.suffix_refl _⟩
    · rw [if_neg hn] at hk
      obtain ⟨g1, g2⟩ := readLoop_eof hP hs hb hF now fuel h hconn
      rcases hx : Live.readLoop W now fuel c with ⟨res, d⟩
      rw [hx] at hk g1 g2
      cases res with
      | ok u =>
        simp only [Live.readPartial, Prod.mk.injEq, Res.ok.injEq] at hk
        obtain ⟨rfl, rfl⟩ := hk
        exact ⟨by simp, g2⟩
      | err e =>
        simp only [Prod.mk.injEq, Res.ok.injEq] at hk
        obtain ⟨rfl, rfl⟩ := hk
        refine ⟨fun h => g1 ?_, g2⟩
        simp only [Option.some.injEq] at h
        rw [h]
      | panic => simp at hk
      | diverge => simp at hk
  | write d =>
    rw [Live.call, Live.write] at hk
    have hsame := writeAll_same (fragments d.length d) 0 c
    have hno := writeAll_noEof (fragments d.length d) 0 c
    rcases hx : c.writeAll (fragments d.length d) 0 with ⟨res, c1⟩
    have hres := writeAll_noErr (fragments d.length d) 0 c
    rw [hx] at hsame hk hno hres
    cases res with
    | ok z =>
      simp only [Prod.mk.injEq, Res.ok.injEq] at hk
      obtain ⟨rfl, rfl⟩ := hk
      refine ⟨fun h => ?_, by rw [hsame.reader]; exact List.suffix_refl _⟩
      obtain ⟨m, e⟩ := z
      simp only at h
      exact absurd (by rw [h]) (hno m)
    | err e => exact absurd rfl (hres e)
    | panic => simp at hk
    | diverge => simp at hk
  | update request => exact hreply _ (update_noEof hP c (hcp ▸ hs) request) (update_same hP c (hcp ▸ hs) request) hk
  | ticket now lifetime early ageAdd nonce tkt =>
    exact hreply _ (ticket_noEof W c now lifetime early ageAdd nonce tkt) (ticket_same W c now lifetime early ageAdd nonce tkt) hk
  | close =>
    simp only [Live.call, Prod.mk.injEq, Res.ok.injEq] at hk
    obtain ⟨rfl, rfl⟩ := hk
    exact ⟨by simp, List.suffix_refl _⟩

/-- A reader that reports end of file has stopped at a record of the writer. -/
theorem calls_eof {W : World} (hP : W.E.P.Sized) {cp : Params} (hs : 0 < cp.hash.size) {b : Bool} {s0 : Bytes} {L : List Item}
    {F : List FrameEvent} {got : Bytes} (hb : Bounded L) (hF : NoForgery W cp (!b) s0 L F) (ks : List Call) {c : Live}
    (h : Reads W cp b s0 L F got c) (hconn : .error .eof ∉ c.reader.conn)
    (he : ∃ k r, (k, r) ∈ (Live.calls W c ks).1 ∧ r.error = some .eof) : StopsAt (!b) L (got ++ gotten (Live.calls W c ks).1) := by
  induction ks generalizing c got with
  | nil => simp [Live.calls] at he
  | cons k ks ih =>
    rw [Live.calls] at he ⊢
    rcases hx : c.call W k with ⟨res, c'⟩
    rw [hx] at he
    cases res with
    | ok r =>
      obtain ⟨h1, h2⟩ := call_reads hP hs hb hF h k r c' hx
      obtain ⟨h3, h4⟩ := call_eof hP hs hb hF h hconn k r c' hx
      simp only [gotten]
      by_cases hr : r.error = some .eof
      · rw [if_pos hr, h2 hr]
        simpa using h3 hr
      · rw [if_neg hr, ← List.append_assoc]
        refine ih (h1 hr) (fun hm => hconn (h4.subset hm)) ?_
        obtain ⟨k', r', hm, he'⟩ := he
        simp only [List.mem_cons, Prod.mk.injEq] at hm
        rcases hm with ⟨-, rfl⟩ | hm
        · exact absurd he' hr
        · exact ⟨k', r', hm, he'⟩
    | err e => simp at he
    | panic => simp at he
    | diverge => simp at he

end Verif.Conn

import Verif.Conn.Receiving
import Verif.Conn.History
import Verif.Props.Record

/-
An end that only reads, over a faithful transport: it gets everything.
-/

namespace Verif.Conn

open Verif Verif.Crypto Verif.Messages Verif.Negotiation Verif.Handshake Verif.Machine Verif.Spec Verif.Record

/-- Reading the next frame, which opens: done, or more must arrive. -/
theorem next_or_wait {r : Reader} (hi : r.Inv) (hc : r.cached = none) (hconn : ∀ e, .error e ∉ r.conn) {h b : Bytes}
    {fs : List FrameEvent} (hf : r.frames = .ok (h, b) :: fs) {pt : Plaintext} {k : Record.Keys}
    (ho : openRecord r.keys false h b = .ok (pt, k)) :
    ∃ r', r'.Inv ∧ r'.cached = none ∧ r'.conn <:+ r.conn ∧ ((readRecord r false = (.ok pt, r') ∧ r'.keys = k ∧ r'.frames = fs) ∨
      (readRecord r false = (.err .wouldBlock, r') ∧ r'.keys = r.keys ∧ r'.frames = r.frames ∧ r'.conn.length < r.conn.length)) := by
  obtain ⟨h1, h2, h3, h4⟩ := nextRecord_spec r false hi hc
  rcases h4 with ⟨h', b', fs', e1, e2, e3⟩ | ⟨e, e0, ek, ec, e4⟩
  · rw [hf] at e1
    simp only [List.cons.injEq, Except.ok.injEq, Prod.mk.injEq] at e1
    obtain ⟨⟨rfl, rfl⟩, rfl⟩ := e1
    rcases e3 with ⟨pt', k', e5, e6, e7, e8⟩ | ⟨e5, -⟩
    · rw [ho] at e5
      simp only [Res.ok.injEq, Prod.mk.injEq] at e5
      obtain ⟨rfl, rfl⟩ := e5
      exact ⟨{ (nextRecord r false).2 with cached := none }, h1, rfl, h2, .inl ⟨by simp [readRecord, e6], e7, e2⟩⟩
    · exact absurd ho (e5 _)
  · rcases e4 with ⟨fs', e4, -⟩ | ⟨e4, ⟨e5, e6⟩ | e5⟩
    · rw [hf] at e4; simp at e4
    · rcases e6 with ⟨-, rfl⟩ | ⟨e', e6⟩
      · exact ⟨{ (nextRecord r false).2 with cached := none }, h1, rfl, h2, .inr ⟨by simp [readRecord, e0], ek, e4, e5⟩⟩
      · exact absurd e6 (hconn e')
    · rw [hf] at e5; simp at e5

/-- Nothing more is there to be read. -/
theorem next_none {r : Reader} (hi : r.Inv) (hc : r.cached = none) (hf : r.frames = []) :
    ∃ r' e, r'.Inv ∧ r'.cached = none ∧ r'.conn <:+ r.conn ∧ readRecord r false = (.err e, r') ∧ r'.keys = r.keys ∧ r'.frames = [] := by
  obtain ⟨h1, h2, h3, h4⟩ := nextRecord_spec r false hi hc
  rcases h4 with ⟨h', b', fs', e1, -⟩ | ⟨e, e0, ek, ec, e4⟩
  · rw [hf] at e1; cases e1
  · refine ⟨{ (nextRecord r false).2 with cached := none }, e, h1, rfl, h2, by simp [readRecord, e0], ek, ?_⟩
    rcases e4 with ⟨fs, e4, -⟩ | ⟨e4, -⟩
    · rw [hf] at e4; cases e4
    · exact e4.trans hf

theorem frameEvents_nil : frameEvents (recordFraming false) [] = [] := by
  rw [frameEvents, dif_pos (Or.inr (by simp [recordFraming]))]

/-- A message that fits into one record. -/
theorem queue_short (W : World) {c : Live} {a : Aead} (h : CanWrite c a) (m : Msg) (hm : m.body.length + 5 + a.overhead ≤ 2 ^ 14) :
    ∃ rec k, c.takeAction W (.queue m) =
        (.ok (), { c with out := k, wire := c.wire ++ rec, log := c.log ++ [.record 22 (m.marshal false) 0] }) ∧
      Record.writeRecord c.out c.out.cur 22 (m.marshal false) 0 = .ok (rec, k) := by
  have h1 : (tlsFragments (2 ^ 14) m).1 = m.marshal false := by
    simp only [tlsFragments, Msg.marshal, Bool.false_eq_true, if_false]
    rw [List.take_of_length_le (by omega)]
  have h2 : (tlsFragments (2 ^ 14) m).2 = [] := by
    simp only [tlsFragments]
    rw [List.drop_eq_nil_of_le (by omega), more_nil]
  have hw := (writeRecord_iff h 22 (m.marshal false)).1 (by simp [Msg.marshal]; omega)
  rcases writeRecord_cases c 22 (m.marshal false) with ⟨rec, k, he, hcl, hw'⟩ | ⟨res, k, he, hno, _⟩
  · refine ⟨rec, k, ?_, hw'⟩
    simp only [Live.takeAction, tlsWrite]
    rw [if_neg (by omega), if_neg (by decide), h1, h2]
    simp [Live.writeFragments, he, internal]
  · rw [he] at hw
    exact absurd hw (hno _)

/-- What an end that reads still has to read: the items `q`. It can answer requests for key updates. -/
structure Receives (W : World) (cp : Params) (b : Bool) (q : List Item) (c : Live) : Prop where
  params : c.st.cp = cp
  role : c.st.isClient = b
  rest : c.hsRest = []
  inv : c.reader.Inv
  cached : c.reader.cached = none
  whole : ∀ e, .error e ∉ c.reader.conn
  wrote : ∃ t, Wrote W cp (!b) q (dirSecret (!b) c.st) t
  usual : Ordinary (!b) q
  sender : ∃ w w' bytes, Paired w c.reader.keys ∧ w.datagram = false ∧ (w.heap w.cur).aead.isSome = true ∧
    sendAll w q = .ok (bytes, w') ∧ c.reader.frames = frameEvents (recordFraming false) bytes
  answers : ∃ key, CanWrite c (W.A cp key)
  first : (c.out.heap c.out.cur).seq = 0

/-- Answering a request, and the keys after that. -/
theorem answer_spec {W : World} (hl : W.Lawful) {cp : Params} (hov : ∀ key, (W.A cp key).overhead ≤ 255) {d : Live} {key : Bytes}
    (h : CanWrite d (W.A cp key)) (hcp : d.st.cp = cp) {m : Msg} {r : UInt8} (hm : m.marshal false = [24, 0, 0, 1, r]) (K : Machine.Keys)
    (hK : 8 ≤ K.2.length) :
    ∃ d', d.takeAll W [.queue m, .sendQueued, .rekeyOut epochUpdate K] = (.ok (), d') ∧ CanWrite d' (W.A cp K.1) ∧
      (d'.out.heap d'.out.cur).seq = 0 ∧ d'.reader = d.reader ∧ d'.readBuffer = d.readBuffer ∧ d'.hsRest = d.hsRest ∧
      d'.nonBlocking = d.nonBlocking := by
  have hlen : m.body.length = 1 := by
    have := congrArg List.length hm
    simp [Msg.marshal] at this
    omega
  obtain ⟨rec, k, he, hw⟩ := queue_short W h m (by have := hov key; omega)
  obtain ⟨h1, h2, h3, h4, h5, h6⟩ := writeRecord_keys hw
  refine ⟨{ d with
      out := k.rekey epochUpdate (W.A cp K.1) K.2
      wire := d.wire ++ rec
      log := d.log ++ [.record 22 (m.marshal false) 0] ++ [.rekey epochUpdate (W.A cp K.1) K.2] }, ?_, ?_, ?_, rfl, rfl, rfl, rfl⟩
  · simp only [Live.takeAll, he]
    simp only [Live.takeAction, hcp]
  · exact ⟨h.opened, h1.trans h.dir, h2.trans h.tls, by simp [Record.Keys.rekey], hl _ _, by simpa [Record.Keys.rekey] using hK,
      by simp [Record.Keys.rekey]⟩
  · simp [Record.Keys.rekey]

theorem _root_.Verif.Spec.CanWrite.congr {c c' : Live} {a : Aead} (h : CanWrite c a) (h1 : c'.out = c.out) (h2 : c'.closed = c.closed) : CanWrite c' a := by
  refine ⟨h2.trans h.opened, ?_, ?_, ?_, h.lawful, ?_, ?_⟩
  all_goals rw [h1]
  exacts [h.dir, h.tls, h.aead, h.iv, h.seq]

/-- One record is read: the connection makes progress, or nothing is left. -/
theorem consume_receives {W : World} (hl : W.Lawful) (hP : W.E.P.Sized) {cp : Params} (hs : 0 < cp.hash.size) (hiv : 8 ≤ cp.ivLen)
    (hov : ∀ key, (W.A cp key).overhead ≤ 255) {b : Bool} {q : List Item} {c : Live} (h : Receives W cp b q c) (now : Int) :
    ∃ q' c', Receives W cp b q' c' ∧ c'.readBuffer ++ appData q' = c.readBuffer ++ appData q ∧ q'.length ≤ q.length ∧
      ((c.consume W now = (.ok (), c') ∧ c'.reader.conn.length + q'.length < c.reader.conn.length + q.length) ∨
       (∃ e, c.consume W now = (.err e, c') ∧ c'.readBuffer = c.readBuffer ∧ c'.reader.conn.length + q'.length ≤ c.reader.conn.length + q.length ∧
         (q' = [] ∨ (e = .wouldBlock ∧ c'.reader.conn.length + q'.length < c.reader.conn.length + q.length)))) := by
  obtain ⟨w, w', bytes, hpair, hwd, haead, hsend, hframes⟩ := h.sender
  obtain ⟨t, ht⟩ := h.wrote
  cases q with
  | nil =>
    simp only [sendAll, Res.ok.injEq, Prod.mk.injEq] at hsend
    obtain ⟨rfl, rfl⟩ := hsend
    have hf0 : c.reader.frames = [] := by rw [hframes]; exact frameEvents_nil
    obtain ⟨r', e, i1, i2, i3, i4, i5, i6⟩ := next_none h.inv h.cached hf0
    refine ⟨[], { c with reader := r' }, ?_, rfl, Nat.le_refl _, .inr ⟨e, by simp [Live.consume, i4], rfl, ?_, .inl rfl⟩⟩
    · obtain ⟨key, hk⟩ := h.answers
      refine ⟨h.params, h.role, h.rest, i1, i2, fun e he => h.whole e (i3.subset he), ⟨t, ht⟩, h.usual, ?_, ⟨key, hk.congr rfl rfl⟩, h.first⟩
      exact ⟨w, w, [], by rw [i5]; exact hpair, hwd, haead, rfl, by rw [i6, frameEvents_nil]⟩
    · have := i3.length_le
      simp only [List.length_nil]; omega
  | cons it q1 =>
    cases it with
    | rekey e a iv => cases ht
    | record ct f pad =>
      simp only [sendAll, Res.bind_eq_ok, Res.ok.injEq, Prod.mk.injEq] at hsend
      obtain ⟨⟨rec, w1⟩, hw, ⟨more, w2⟩, hmore, rfl, rfl⟩ := hsend
      have hct : ct ≠ 0 ∧ pad = 0 := by
        cases ht with
        | plain _ _ _ _ _ hc _ => rcases hc with rfl | rfl <;> exact ⟨by decide, rfl⟩
        | ticket => exact ⟨by decide, rfl⟩
        | update => exact ⟨by decide, rfl⟩
      obtain ⟨hct, rfl⟩ := hct
      obtain ⟨hd, bd, pt, k, rfl, hlen, hfl, ho, hpt1, hpt2, -, hp', haead', hdg⟩ :=
        openRecord_writeRecord false hpair hw hct (fun h => by rw [h] at haead; cases haead)
      rw [hwd] at hlen hfl
      dsimp only at hmore
      have hev : c.reader.frames = .ok (hd, bd) :: frameEvents (recordFraming false) more := by
        rw [hframes]
        have := frameEvents_cons (recordFraming_pos _) hlen hfl (rest := more)
        simpa [List.append_assoc] using this
      obtain ⟨r', i1, i2, i3, hcase⟩ := next_or_wait h.inv h.cached h.whole hev ho
      have i3l := i3.length_le
      have hwhole : ∀ e, .error e ∉ r'.conn := fun e he => h.whole e (i3.subset he)
      obtain ⟨key, hkey⟩ := h.answers
      rcases hcase with ⟨hr, i4, i5⟩ | ⟨hr, i4, i5, i6⟩
      · -- the record is there
        have hw1d : w1.datagram = false := by
          rw [hp'.dgram, hdg, ← hpair.dgram, hwd]
        have husual : Ordinary (!b) q1 := fun ct f pad hm => h.usual ct f pad (by simp [hm])
        have hcons : c.consume W now = ({ c with reader := r' } : Live).handle W now ct f := by
          simp only [Live.consume, hr, hpt1, hpt2]
        rw [hcons]
        have moved : (∃ t, Wrote W cp (!b) q1 (dirSecret (!b) c.st) t) → ∀ (buf : Bytes) (st' : List (Bytes × Psk)),
            Receives W cp b q1 { c with reader := r', readBuffer := buf, stored := st' } := by
          intro ha buf st'
          refine ⟨h.params, h.role, h.rest, i1, i2, hwhole, ha, husual, ?_, ⟨key, hkey.congr rfl rfl⟩, h.first⟩
          exact ⟨w1, w2, more, by rw [i4]; exact hp', hw1d, by rw [haead']; exact haead, hmore, i5⟩
        cases ht with
        | plain _ _ _ _ _ hc ht' =>
          rcases hc with rfl | rfl
          · refine ⟨q1, { c with reader := r', readBuffer := c.readBuffer ++ f }, moved ⟨t, ht'⟩ _ c.stored, ?_, by simp, .inl ⟨?_, ?_⟩⟩
            · simp [appData]
            · simp [Live.handle]
            · simp only [List.length_cons]; omega
          · exact absurd rfl (h.usual 21 f 0 (by simp)).1
        | ticket m tk _ _ _ hbody hlen' ht' =>
          have hhs : ({ c with reader := r' } : Live).handle W now 22 (m.msgType :: beBytes 3 m.body.length ++ m.body) =
              ({ c with reader := r' } : Live).process W now ⟨m.msgType, 0, m.body, 0, 0⟩ := by
            unfold Live.handle
            rw [if_pos rfl]
            rw [show (m.msgType :: beBytes 3 m.body.length ++ m.body).length + 1 = (m.body.length + 3) + 2 by simp; omega]
            exact postHandshake_one W now _ _ _ hlen' _
          rw [hhs]
          have hb : b = true := by
            cases hb : b with
            | true => rfl
            | false =>
              have := (h.usual 22 _ 0 (List.mem_cons_self ..)).2 (by rw [hb]; rfl) rfl
              simp only [List.cons_append, List.head?_cons, Option.some.injEq] at this
              rw [this] at hbody
              have hne : toBody W.E.parses 24 m.body ≠ .ok (.newSessionTicket tk) := by
                intro hcon
                simp [toBody, typeClientHello, typeServerHello, typeEncryptedExtensions, typeCertificate, typeCertificateRequest,
                  typeCertificateVerify, typeFinished, typeNewSessionTicket, typeKeyUpdate, Res.bind_eq_ok] at hcon
              exact absurd hbody hne
          obtain ⟨psk, hproc⟩ : ∃ psk, c.st.process W.E c.x now ⟨m.msgType, 0, m.body, 0, 0⟩ = .ok (c.st, [.storePsk psk], c.x) := by
            have hrole := h.role.trans hb
            obtain ⟨psk, hpsk⟩ : ∃ psk, ticketPsk W.E.P c.st now tk = .ok psk := by
              simp only [ticketPsk, hkdfExpandLabel_eq W.E.P hP _ (h.params ▸ hs : 0 < c.st.cp.hash.size), Res.bind_ok]
              exact ⟨_, rfl⟩
            refine ⟨psk, ?_⟩
            simp only [Connected.process, hbody, orAlert, Res.bind_ok, hrole, hpsk, Bool.not_true, Bool.false_eq_true, if_false]
          refine ⟨q1, { c with
              reader := r'
              readBuffer := c.readBuffer
              stored := c.stored ++ [(if c.st.isClient then c.serverName else hexString psk.identity, psk)] },
            moved ⟨t, ht'⟩ _ _, ?_, by simp, .inl ⟨?_, ?_⟩⟩
          · simp [appData]
          · simp only [Live.process, hproc]
            rfl
          · simp only [List.length_cons]; omega
        | update ku q'' _ _ ht' =>
          have hbody := keyUpdate_toBody W.E ku
          have hhs : ({ c with reader := r' } : Live).handle W now 22 [24, 0, 0, 1, ku] =
              ({ c with reader := r' } : Live).process W now ⟨24, 0, [ku], 0, 0⟩ := by
            unfold Live.handle
            rw [if_pos rfl]
            have := postHandshake_one W now ({ c with reader := r' } : Live) 24 [ku] (by simp) 4
            simpa [beBytes] using this
          rw [hhs]
          obtain ⟨s', rest, x', he, hcp, hic, hrd, hrest⟩ := process_update hP c.x c.st (h.params ▸ hs) now (m := ⟨24, 0, [ku], 0, 0⟩) hbody
          rw [h.role, h.params] at hrd
          rw [h.role, h.params] at he
          simp only [sendAll] at hmore
          have hrep := rekey_paired hp' epochUpdate (W.A cp (keysOf W.E.P cp (dirNext W.E.P cp (!b) (dirSecret (!b) c.st))).1)
            (keysOf W.E.P cp (dirNext W.E.P cp (!b) (dirSecret (!b) c.st))).2 (hl _ _) (by decide)
          generalize hK : keysOf W.E.P cp (dirNext W.E.P cp (!b) (dirSecret (!b) c.st)) = K at he hmore hrep
          have hin : ({ c with reader := r', x := x' } : Live).takeAll W (.rekeyIn epochUpdate K :: rest) =
              ({ c with x := x', reader := { r' with keys := r'.keys.rekey epochUpdate (W.A cp K.1) K.2 } } : Live).takeAll W rest := by
            rw [Live.takeAll]
            simp [Live.takeAction, h.rest, h.params]
          generalize hdd : ({ c with x := x', reader := { r' with keys := r'.keys.rekey epochUpdate (W.A cp K.1) K.2 } } : Live) = d at hin
          have e0 : d.st = c.st := by rw [← hdd]
          have e1 : d.closed = c.closed ∧ d.out = c.out ∧ d.nonBlocking = c.nonBlocking := by rw [← hdd]; exact ⟨rfl, rfl, rfl⟩
          have e2 : d.hsRest = c.hsRest := by rw [← hdd]
          have e3 : d.readBuffer = c.readBuffer := by rw [← hdd]
          have e4 : d.reader = { r' with keys := r'.keys.rekey epochUpdate (W.A cp K.1) K.2 } := by rw [← hdd]
          -- the connection after the actions
          have fin : ∀ d' : Live, d.takeAll W rest = (.ok (), d') → d'.hsRest = d.hsRest → d'.reader = d.reader → d'.readBuffer = d.readBuffer →
              d'.nonBlocking = d.nonBlocking → (∃ key, CanWrite d' (W.A cp key)) → (d'.out.heap d'.out.cur).seq = 0 →
              ∃ q' c', Receives W cp b q' c' ∧ c'.readBuffer ++ appData q' = c.readBuffer ++ appData (.record 22 [24, 0, 0, 1, ku] 0 :: .rekey epochUpdate (W.A cp K.1) K.2 :: q'') ∧
                q'.length ≤ q''.length + 2 ∧ ({ c with reader := r' } : Live).process W now ⟨24, 0, [ku], 0, 0⟩ = (.ok (), c') ∧
                c'.reader.conn.length + q'.length < c.reader.conn.length + (q''.length + 2) := by
            intro d' hd1 hd2 hd3 hd4 hd5 ⟨key', hd6⟩ hd7
            refine ⟨q'', { d' with st := s' }, ?_, ?_, by omega, ?_, ?_⟩
            · refine ⟨hcp.trans h.params, hic.trans h.role, (hd2.trans e2).trans h.rest, ?_, ?_, ?_, ?_, ?_, ?_, ⟨key', hd6.congr rfl rfl⟩, hd7⟩
              · show d'.reader.Inv; rw [hd3, e4]; exact i1
              · show d'.reader.cached = none; rw [hd3, e4]; exact i2
              · show ∀ e, .error e ∉ d'.reader.conn; rw [hd3, e4]; exact hwhole
              · exact ⟨t, by show Wrote W cp (!b) q'' (dirSecret (!b) s') t; rw [hrd]; exact ht'⟩
              · exact fun ct f pad hm => husual ct f pad (by simp [hm])
              · refine ⟨w1.rekey epochUpdate (W.A cp K.1) K.2, w2, more, ?_, hw1d, by simp [Record.Keys.rekey], hmore, ?_⟩
                · show Paired _ d'.reader.keys
                  rw [hd3, e4]
                  dsimp only
                  rw [i4]; exact hrep
                · show d'.reader.frames = _
                  rw [hd3, e4]; exact i5
            · simp [appData, hd4, e3]
            · simp only [Live.process, he]
              rw [hin, hd1]
            · show d'.reader.conn.length + _ < _
              rw [hd3, e4]
              dsimp only
              omega
          have : ∃ d' : Live, d.takeAll W rest = (.ok (), d') ∧ d'.hsRest = d.hsRest ∧ d'.reader = d.reader ∧ d'.readBuffer = d.readBuffer ∧
              d'.nonBlocking = d.nonBlocking ∧ (∃ key, CanWrite d' (W.A cp key)) ∧ (d'.out.heap d'.out.cur).seq = 0 := by
            have hcan : CanWrite d (W.A cp key) := hkey.congr e1.2.1 e1.1
            rcases hrest with ⟨_, rfl, _⟩ | ⟨_, _, m2, hm2, rfl⟩
            · exact ⟨d, rfl, rfl, rfl, rfl, rfl, ⟨key, hcan⟩, by rw [e1.2.1]; exact h.first⟩
            · obtain ⟨d', g1, g2, g3, g4, g5, g6, g7⟩ := answer_spec hl hov hcan (by rw [e0]; exact h.params) hm2
                (keysOf W.E.P c.st.cp (dirNext W.E.P c.st.cp c.st.isClient (dirSecret c.st.isClient c.st)))
                (by
                  simp only [keysOf, trafficKeys, expandLabel]
                  rw [expand_length _ hP _ (h.params ▸ hs), h.params]; exact hiv)
              exact ⟨d', g1, g6, g4, g5, g7, ⟨_, g2⟩, g3⟩
          obtain ⟨d', a1, a2, a3, a4, a5, a6, a7⟩ := this
          obtain ⟨q', c', b1, b2, b3, b4, b5⟩ := fin d' a1 a2 a3 a4 a5 a6 a7
          exact ⟨q', c', b1, b2, by simp only [List.length_cons]; omega, .inl ⟨b4, by simp only [List.length_cons]; omega⟩⟩
      · refine ⟨_, { c with reader := r' }, ?_, rfl, Nat.le_refl _, .inr ⟨.wouldBlock, by simp [Live.consume, hr], rfl, by simp only; omega, .inr ⟨rfl, by simp only; omega⟩⟩⟩
        refine ⟨h.params, h.role, h.rest, i1, i2, hwhole, ⟨t, ht⟩, h.usual, ?_, ⟨key, hkey.congr rfl rfl⟩, h.first⟩
        exact ⟨w, w2, hd ++ bd ++ more, by rw [i4]; exact hpair, hwd, haead, by simp [sendAll, hw, hmore], by rw [i5]; exact hframes⟩

section
variable {W : World} (hl : W.Lawful) (hP : W.E.P.Sized) {cp : Params} (hs : 0 < cp.hash.size) (hiv : 8 ≤ cp.ivLen)
  (hov : ∀ key, (W.A cp key).overhead ≤ 255) {b : Bool}
include hl hP hs hiv hov

theorem readLoop_receives (now : Int) (fuel : Nat) {q : List Item} {c : Live} (h : Receives W cp b q c) :
    ∃ q' c', Receives W cp b q' c' ∧ c'.readBuffer ++ appData q' = c.readBuffer ++ appData q ∧ q'.length ≤ q.length ∧
      c'.reader.conn.length + q'.length ≤ c.reader.conn.length + q.length ∧
      ((Live.readLoop W now fuel c = (.ok (), c') ∧ c'.readBuffer ≠ []) ∨
       (∃ e, Live.readLoop W now fuel c = (.err e, c') ∧ c'.readBuffer = [] ∧ (q' = [] ∨ (e = .wouldBlock ∧
        (0 < fuel → c'.reader.conn.length + q'.length < c.reader.conn.length + q.length))))) := by
  induction fuel generalizing q c with
  | zero =>
    rw [Live.readLoop]
    by_cases hb : c.readBuffer = []
    · exact ⟨q, c, h, rfl, Nat.le_refl _, Nat.le_refl _, .inr ⟨_, by rw [if_pos hb], hb, .inr ⟨rfl, fun h => absurd h (by omega)⟩⟩⟩
    · exact ⟨q, c, h, rfl, Nat.le_refl _, Nat.le_refl _, .inl ⟨by rw [if_neg hb], hb⟩⟩
  | succ n ih =>
    rw [Live.readLoop]
    by_cases hb : c.readBuffer = []
    · rw [if_pos hb]
      obtain ⟨q1, c1, h1, hd1, hnb, hc⟩ := consume_receives hl hP hs hiv hov h now
      have more : c1.reader.conn.length + q1.length < c.reader.conn.length + q.length ∨
            (q1 = [] ∧ c1.reader.conn.length + q1.length ≤ c.reader.conn.length + q.length) →
          ∃ q' c', Receives W cp b q' c' ∧ c'.readBuffer ++ appData q' = c.readBuffer ++ appData q ∧ q'.length ≤ q.length ∧
          c'.reader.conn.length + q'.length ≤ c.reader.conn.length + q.length ∧
          ((Live.readLoop W now n c1 = (.ok (), c') ∧ c'.readBuffer ≠ []) ∨
           (∃ e, Live.readLoop W now n c1 = (.err e, c') ∧ c'.readBuffer = [] ∧ (q' = [] ∨ (e = .wouldBlock ∧
            (0 < n + 1 → c'.reader.conn.length + q'.length < c.reader.conn.length + q.length))))) := by
        intro hlt
        obtain ⟨q2, c2, h2, hd2, hl2, hm2, hc2⟩ := ih h1
        refine ⟨q2, c2, h2, hd2.trans hd1, by omega, by omega, ?_⟩
        rcases hc2 with hc2 | ⟨e, g1, g2, g3⟩
        · exact .inl hc2
        · refine .inr ⟨e, g1, g2, ?_⟩
          rcases g3 with g3 | ⟨g3, g4⟩
          · exact .inl g3
          · rcases hlt with hlt | ⟨rfl, hle⟩
            · exact .inr ⟨g3, fun _ => by omega⟩
            · exact .inl (List.eq_nil_of_length_eq_zero (by simpa using hl2))
      rcases hc with ⟨he, hlt⟩ | ⟨e, he, hbuf, hle, hq⟩
      · rw [he]
        exact more (.inl hlt)
      · rw [he]
        dsimp only
        by_cases hcond : c.nonBlocking = true ∨ e ≠ .wouldBlock
        · rw [if_pos hcond]
          refine ⟨q1, c1, h1, hd1, hnb, hle, .inr ⟨e, rfl, hbuf.trans hb, ?_⟩⟩
          rcases hq with hq | ⟨hq, hlt⟩
          · exact .inl hq
          · exact .inr ⟨hq, fun _ => hlt⟩
        · rw [if_neg hcond]
          refine more ?_
          rcases hq with hq | ⟨-, hlt⟩
          · exact .inr ⟨hq, hle⟩
          · exact .inl hlt
    · exact ⟨q, c, h, rfl, Nat.le_refl _, Nat.le_refl _, .inl ⟨by rw [if_neg hb], hb⟩⟩

/-- One call of Read. -/
theorem read_receives (now : Int) (fuel n : Nat) (hfuel : 0 < fuel) (hn : 0 < n) {q : List Item} {c : Live} (h : Receives W cp b q c) :
    ∃ q' c' rep, Receives W cp b q' c' ∧ c.call W (.read now fuel n) = (.ok rep, c') ∧
      c.readBuffer ++ appData q = rep.bytes ++ (c'.readBuffer ++ appData q') ∧
      ((rep.error = none ∧ rep.bytes ≠ [] ∧ c'.reader.conn.length + q'.length ≤ c.reader.conn.length + q.length) ∨
       (rep.bytes = [] ∧ c'.readBuffer = [] ∧ (q' = [] ∨ (rep.error = some .wouldBlock ∧
         c'.reader.conn.length + q'.length < c.reader.conn.length + q.length)))) := by
  obtain ⟨q1, c1, h1, hd1, hl1, hm1, hc⟩ := readLoop_receives hl hP hs hiv hov now fuel h
  rcases hc with ⟨he, hne⟩ | ⟨e, he, hb, hq⟩
  · refine ⟨q1, { c1 with readBuffer := c1.readBuffer.drop n }, { bytes := c1.readBuffer.take n }, ?_, ?_, ?_, .inl ⟨rfl, ?_, hm1⟩⟩
    · obtain ⟨key, hk⟩ := h1.answers
      exact ⟨h1.params, h1.role, h1.rest, h1.inv, h1.cached, h1.whole, h1.wrote, h1.usual, h1.sender, ⟨key, hk.congr rfl rfl⟩, h1.first⟩
    · simp only [Live.call, Live.read, he]
      rw [if_neg (by omega)]
      rfl
    · rw [← hd1, ← List.append_assoc, List.take_append_drop]
    · intro hz
      cases hbuf : c1.readBuffer with
      | nil => exact hne hbuf
      | cons x xs =>
        obtain ⟨m, rfl⟩ : ∃ m, n = m + 1 := ⟨n - 1, by omega⟩
        simp [hbuf] at hz
  · refine ⟨q1, c1, { error := some e }, h1, ?_, ?_, .inr ⟨rfl, hb, ?_⟩⟩
    · simp only [Live.call, Live.read, he]
      rw [if_neg (by omega)]
    · rw [← hd1]; rfl
    · rcases hq with hq | ⟨rfl, hq⟩
      · exact .inl hq
      · exact .inr ⟨rfl, hq hfuel⟩

/-- Calls of Read, one after the other: nothing but what was sent, and all of it if there are enough of them. -/
theorem calls_receives (ks : List Call) (hk : ∀ k ∈ ks, ∃ now fuel n, k = .read now fuel n ∧ 0 < fuel ∧ 0 < n) {q : List Item} {c : Live}
    (h : Receives W cp b q c) :
    gotten (Live.calls W c ks).1 <+: c.readBuffer ++ appData q ∧
    (c.reader.conn.length + q.length + (c.readBuffer ++ appData q).length ≤ ks.length → gotten (Live.calls W c ks).1 = c.readBuffer ++ appData q) := by
  induction ks generalizing q c with
  | nil =>
    refine ⟨by simp [Live.calls, gotten], fun hz => ?_⟩
    have : (c.readBuffer ++ appData q).length = 0 := by simp only [List.length_nil] at hz; omega
    rw [List.eq_nil_of_length_eq_zero this]
    rfl
  | cons k ks ih =>
    obtain ⟨now, fuel, n, rfl, hf, hn⟩ := hk k (by simp)
    obtain ⟨q1, c1, rep, h1, he, hd, hc⟩ := read_receives hl hP hs hiv hov now fuel n hf hn h
    obtain ⟨i1, i2⟩ := ih (fun k hk' => hk k (by simp [hk'])) h1
    have hg : gotten (Live.calls W c (.read now fuel n :: ks)).1 =
        rep.bytes ++ if rep.error = some .eof then [] else gotten (Live.calls W c1 ks).1 := by
      simp only [Live.calls, he, gotten]
    rw [hg, hd]
    rcases hc with ⟨hn1, hne, hle⟩ | ⟨hb, hb', hq⟩
    · rw [hn1, if_neg (by simp)]
      refine ⟨List.prefix_append_right_inj _ |>.2 i1, fun hlen => ?_⟩
      rw [i2 ?_]
      have : 0 < rep.bytes.length := List.length_pos_iff.2 hne
      simp only [List.length_append, List.length_cons] at hlen ⊢
      omega
    · rw [hb, hb', List.nil_append, List.nil_append, List.nil_append]
      rw [hb', List.nil_append] at i1 i2
      rcases hq with rfl | ⟨hq, hlt⟩
      · have : gotten (Live.calls W c1 ks).1 = [] := by simpa [appData] using i1
        rw [this]
        simp [appData]
      · rw [hq, if_neg (by simp)]
        refine ⟨i1, fun hlen => i2 ?_⟩
        rw [List.length_cons] at hlen
        omega

end

end Verif.Conn

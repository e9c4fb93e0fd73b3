import Verif.Props.DatagramConn

/-
What an established DTLS connection reads, whatever arrives: lemmas for C81.
-/

namespace Verif.Props

open Verif Verif.Crypto Verif.Messages Verif.Negotiation Verif.Handshake Verif.Machine Verif.Spec Verif.Conn Verif.Record

/-! ### Specification -/

/-- A record from which application data was taken: the number of key updates before it, the frame, the data. -/
structure Opened where
  generation : Nat
  header : Bytes
  body : Bytes
  data : Bytes

def Opened.frame (u : Opened) : FrameEvent := .ok (u.header, u.body)

/-- The AEAD opens the body of the record under the key of its generation, with the nonce for the number in the header and with
the header as additional data, and finds the data, the type of application data, and padding. The epoch in the header is that
of the generation. -/
def Genuine (W : World) (cp : Params) (fromClient : Bool) (s : Bytes) (u : Opened) : Prop :=
  ∃ nonce pad, u.header.length = 13 ∧ beNat ((u.header.drop 3).take 2) = (guardOf W cp fromClient s u.generation).epoch ∧
    computeNonce ⟨0, 0, (guardOf W cp fromClient s u.generation).iv, none⟩ (beNat ((u.header.drop 3).take 8)) = .ok nonce ∧
    (guardOf W cp fromClient s u.generation).aead.opening nonce u.body u.header = some (innerPlaintext 23 u.data pad)

/-! ### What does not concern the reader -/

structure SameEnd (c c' : DLive) : Prop where
  cp : c'.st.cp = c.st.cp
  role : c'.st.isClient = c.st.isClient
  secret : dirSecret (!c.st.isClient) c'.st = dirSecret (!c.st.isClient) c.st
  rest : c'.hsRest = c.hsRest
  reader : c'.reader = c.reader
  buffer : c'.readBuffer = c.readBuffer

theorem SameEnd.refl (c : DLive) : SameEnd c c := ⟨rfl, rfl, rfl, rfl, rfl, rfl⟩

theorem SameEnd.trans {a b c : DLive} (h : SameEnd a b) (h' : SameEnd b c) : SameEnd a c := by
  refine ⟨h'.cp.trans h.cp, h'.role.trans h.role, ?_, h'.rest.trans h.rest, h'.reader.trans h.reader, h'.buffer.trans h.buffer⟩
  have := h'.secret
  rw [h.role] at this
  exact this.trans h.secret

theorem sends_same (c : DLive) (r : Res Out) : SameEnd c (c.sends r).2 ∧ (c.sends r).2.st = c.st := by
  unfold DLive.sends
  split
  · split <;> exact ⟨⟨rfl, rfl, rfl, rfl, rfl, rfl⟩, rfl⟩
  all_goals exact ⟨.refl c, rfl⟩

theorem dSendAlert_same (c : DLive) (a : Nat) : SameEnd c (c.sendAlert a).2 := by
  have h := (sends_same c (c.out.op (.other 21 [UInt8.ofNat a, if a = 100 ∨ a = Alert.closeNotify then 1 else 2]))).1
  unfold DLive.sendAlert
  dsimp only
  change SameEnd c (c.writeRecord 21 _).2 at h
  split <;> rename_i he <;> rw [he] at h
  · exact h
  · exact h
  · dsimp only at h ⊢
    split
    · exact h
    · exact ⟨h.cp, h.role, h.secret, h.rest, h.reader, h.buffer⟩

theorem dAbort_same (c : DLive) (a : Nat) (e : Err) : SameEnd c (c.abort a e).2 := by
  have h := dSendAlert_same c a
  unfold DLive.abort
  split
  · rename_i he; rw [he] at h; exact h
  · exact h

theorem dInternal_snd (r : Res Unit × DLive) : (dInternal r).2 = r.2 := by
  unfold dInternal; split <;> rfl

theorem dTakeAction_same (W : World) (c : DLive) (a : Action) (h : noRekeyIn a = true) :
    SameEnd c (c.takeAction W a).2 ∧ (c.takeAction W a).2.st = c.st := by
  cases a with
  | queue m => rw [DLive.takeAction, dInternal_snd]; exact sends_same c _
  | sendQueued => rw [DLive.takeAction, dInternal_snd]; exact sends_same c _
  | rekeyIn e k => cases h
  | rekeyOut e k => exact sends_same c _
  | resetOut s => exact sends_same c _
  | storePsk p => exact ⟨⟨rfl, rfl, rfl, rfl, rfl, rfl⟩, rfl⟩

theorem dTakeAll_same (W : World) (as : List Action) (c : DLive) (h : ∀ a ∈ as, noRekeyIn a = true) :
    SameEnd c (c.takeAll W as).2 ∧ (c.takeAll W as).2.st = c.st := by
  induction as generalizing c with
  | nil => exact ⟨.refl c, rfl⟩
  | cons a as ih =>
    rw [DLive.takeAll]
    obtain ⟨h1, h2⟩ := dTakeAction_same W c a (h a (by simp))
    split
    · rename_i c' he
      rw [he] at h1 h2
      obtain ⟨i1, i2⟩ := ih c' (fun a ha => h a (by simp [ha]))
      exact ⟨h1.trans i1, i2.trans h2⟩
    · exact ⟨h1, h2⟩

theorem dOrAbort_same (e : Err) (c : DLive) (r : Res Unit × DLive) (h : SameEnd c r.2) : SameEnd c (DLive.orAbort e r).2 := by
  unfold DLive.orAbort
  split
  · exact h.trans (dAbort_same _ _ _)
  · exact h

theorem dUpdate_same {W : World} (hP : W.E.P.Sized) (c : DLive) (hs : 0 < c.st.cp.hash.size) (request : Bool) :
    SameEnd c (c.update W request).2 := by
  obtain ⟨s', m, x', hk, _, hcp, hic, _, hr⟩ := keyUpdate_spec hP c.x c.st hs (if request then 1 else 0)
  unfold DLive.update
  rw [hk]
  dsimp only
  refine dOrAbort_same _ _ _ ?_
  have h1 : SameEnd c { c with st := s', x := x' } := ⟨hcp, hic, hr, rfl, rfl, rfl⟩
  refine h1.trans (dTakeAll_same W _ _ ?_).1
  intro a ha
  simp only [List.mem_cons, List.not_mem_nil, or_false] at ha
  rcases ha with rfl | rfl | rfl <;> rfl

theorem dTicket_same (W : World) (c : DLive) (now : Int) (lifetime early ageAdd : UInt32) (nonce tkt : Bytes) :
    SameEnd c (c.ticket W now lifetime early ageAdd nonce tkt).2 := by
  unfold DLive.ticket
  split
  · rename_i acts x hn
    have h1 : SameEnd c { c with x := x } := ⟨rfl, rfl, rfl, rfl, rfl, rfl⟩
    have hall : ∀ a ∈ acts, noRekeyIn a = true := by
      simp only [Connected.newSessionTicket, Res.bind_eq_ok, orAlert_ok, Res.ok.injEq, Prod.mk.injEq] at hn
      obtain ⟨exts, -, psk, -, ⟨m, x2⟩, -, rfl, -⟩ := hn
      intro a ha
      simp only [List.mem_cons, List.not_mem_nil, or_false] at ha
      rcases ha with rfl | rfl | rfl <;> rfl
    have h2 := h1.trans (dTakeAll_same W acts { c with x := x } hall).1
    split
    · rename_i he
      rw [he] at h2
      exact h2.trans (dAbort_same _ _ _)
    · exact h2
  · exact .refl c
  · exact .refl c
  · exact .refl c

theorem dWriteAll_same (fs : List Bytes) (sent : Nat) (c : DLive) : SameEnd c (c.writeAll fs sent).2 := by
  induction fs generalizing sent c with
  | nil => exact .refl c
  | cons f fs ih =>
    rw [DLive.writeAll]
    have h := (sends_same c (c.out.op (.other 23 f))).1
    change SameEnd c (c.writeRecord 23 f).2 at h
    split
    · rename_i he; rw [he] at h; exact h.trans (ih _ _)
    all_goals
      rename_i he; rw [he] at h; exact h

theorem checkTimers_same (c : DLive) (e : Bool) : SameEnd c (c.checkTimers e).2 := by
  unfold DLive.checkTimers
  split
  · rw [dInternal_snd]; exact (sends_same c _).1
  · exact .refl c

/-! ### Frames of datagrams -/

theorem frameEvents_datagram {s h b : Bytes} (hm : .ok (h, b) ∈ frameEvents (recordFraming true) s) :
    h.length = 13 ∧ (recordFraming true).frameLen h = .ok b.length := by
  induction hn : s.length using Nat.strongRecOn generalizing s with
  | _ n ih =>
    rw [frameEvents] at hm
    split at hm
    · simp at hm
    · rename_i hlen
      have h5 : (recordFraming true).headerLen = 13 := rfl
      rw [h5] at hm hlen
      split at hm
      · rename_i e he
        simp [recordFraming] at he
      · rename_i k hk
        split at hm
        · simp at hm
        · rename_i hbig
          simp only [List.mem_cons] at hm
          rcases hm with hm | hm
          · simp only [Except.ok.injEq, Prod.mk.injEq] at hm
            obtain ⟨rfl, rfl⟩ := hm
            refine ⟨by simp; omega, ?_⟩
            rw [hk, Except.ok.injEq, List.length_take]
            omega
          · exact ih _ (by simp; omega) hm rfl

theorem frames_datagram {r : Reader} (hi : r.Inv) (hd : r.keys.datagram = true) {h b : Bytes} (hm : .ok (h, b) ∈ r.frames) :
    h.length = 13 ∧ (recordFraming true).frameLen h = .ok b.length := by
  unfold Reader.frames FrameReader.future at hm
  rw [hd] at hm
  unfold Reader.Inv at hi
  rw [hd] at hi
  dsimp only at hm
  split at hm
  · rename_i hb
    split at hm
    · simp at hm
    · rename_i hlen
      simp only [List.mem_cons] at hm
      rcases hm with hm | hm
      · simp only [Except.ok.injEq, Prod.mk.injEq] at hm
        obtain ⟨rfl, rfl⟩ := hm
        obtain ⟨h1, h2⟩ := hi.body hb
        refine ⟨h1, ?_⟩
        rw [h2, Except.ok.injEq, List.length_take]
        omega
      · exact frameEvents_datagram hm
  · exact frameEvents_datagram hm

/-! ### The reader -/

/-- The keys for reading are those after `g` updates of the peer; the connected state has counted one less if it failed to
answer the last one. -/
structure Hears (W : World) (cp : Params) (b : Bool) (s : Bytes) (g : Nat) (c : DLive) : Prop where
  params : c.st.cp = cp
  role : c.st.isClient = !b
  secret : ∃ gs, gs ≤ g ∧ g ≤ gs + 1 ∧ dirSecret b c.st = updates W.E.P cp.hash (trafficLabel b) gs s
  rest : c.hsRest = []
  inv : c.reader.Inv
  cached : c.reader.cached = none
  datagram : c.reader.keys.datagram = true
  epoch : (c.reader.keys.heap c.reader.keys.cur).epoch = (guardOf W cp b s g).epoch
  aead : (c.reader.keys.heap c.reader.keys.cur).aead = some (guardOf W cp b s g).aead
  iv : (c.reader.keys.heap c.reader.keys.cur).iv = (guardOf W cp b s g).iv
  fresh : c.reader.keys.fresh = c.reader.keys.cur + 1
  count : g + 2 ≤ c.reader.keys.cur

section
variable {W : World} {cp : Params} {b : Bool} {s : Bytes}

theorem Hears.same {g : Nat} {c c' : DLive} (h : Hears W cp b s g c) (k : SameEnd c c') : Hears W cp b s g c' := by
  have hb : (!c.st.isClient) = b := by rw [h.role]; simp
  obtain ⟨gs, h1, h2, h3⟩ := h.secret
  refine ⟨k.cp.trans h.params, k.role.trans h.role, ⟨gs, h1, h2, ?_⟩, k.rest.trans h.rest, ?_, ?_, ?_, ?_, ?_, ?_, ?_, ?_⟩
  · have := k.secret
    rw [hb] at this
    exact this.trans h3
  all_goals rw [k.reader]
  · exact h.inv
  · exact h.cached
  · exact h.datagram
  · exact h.epoch
  · exact h.aead
  · exact h.iv
  · exact h.fresh
  · exact h.count

/-- What a step of the reader does: it takes some records from what arrives, in order, none before keys that came after it; their
data is returned or added to the buffer. -/
def Got (W : World) (cp : Params) (b : Bool) (s : Bytes) (g : Nat) (c c' : DLive) (out : Bytes) : Prop :=
  ∃ (g' : Nat) (us : List Opened), g ≤ g' ∧ Hears W cp b s g' c' ∧
    (∀ u ∈ us, Genuine W cp b s u ∧ g ≤ u.generation ∧ u.generation ≤ g') ∧
    us.Pairwise (fun u v => u.generation ≤ v.generation) ∧
    (us.map Opened.frame ++ c'.reader.frames).Sublist c.reader.frames ∧
    c.readBuffer ++ us.flatMap Opened.data = out ++ c'.readBuffer

theorem Got.nothing {g : Nat} {c c' : DLive} (h : Hears W cp b s g c) (k : SameEnd c c') : Got W cp b s g c c' [] :=
  ⟨g, [], Nat.le_refl _, h.same k, by simp, .nil, by simp [k.reader], by simp [k.buffer]⟩

theorem Got.hears {g : Nat} {c c' : DLive} {out : Bytes} (h : Got W cp b s g c c' out) : ∃ g', g ≤ g' ∧ Hears W cp b s g' c' := by
  obtain ⟨g', _, h1, h2, _⟩ := h
  exact ⟨g', h1, h2⟩

theorem Got.trans {g : Nat} {c c' c'' : DLive} {o o' : Bytes} (h : Got W cp b s g c c' o)
    (h' : ∀ g', Hears W cp b s g' c' → Got W cp b s g' c' c'' o') : Got W cp b s g c c'' (o ++ o') := by
  obtain ⟨g1, us, h1, h2, h3, h4, h5, h6⟩ := h
  obtain ⟨g2, vs, i1, i2, i3, i4, i5, i6⟩ := h' g1 h2
  refine ⟨g2, us ++ vs, by omega, i2, ?_, ?_, ?_, ?_⟩
  · intro u hu
    rcases List.mem_append.mp hu with hu | hu
    · obtain ⟨a1, a2, a3⟩ := h3 u hu; exact ⟨a1, a2, by omega⟩
    · obtain ⟨a1, a2, a3⟩ := i3 u hu; exact ⟨a1, by omega, a3⟩
  · refine List.pairwise_append.mpr ⟨h4, i4, ?_⟩
    intro u hu v hv
    have := (h3 u hu).2.2
    have := (i3 v hv).2.1
    omega
  · rw [List.map_append, List.append_assoc]
    exact ((List.Sublist.refl _).append i5).trans h5
  · rw [List.flatMap_append, ← List.append_assoc, h6, List.append_assoc, i6, List.append_assoc]

theorem Got.same {g : Nat} {c c' c'' : DLive} {o : Bytes} (h : Got W cp b s g c c' o) (k : SameEnd c' c'') : Got W cp b s g c c'' o := by
  have := h.trans (c'' := c'') (o' := []) fun g' hg => Got.nothing hg k
  simpa using this

/-- A connection with other keys for reading. -/
def rekeyedEnd (W : World) (cp : Params) (c : DLive) (x : Ctx) (K : Machine.Keys) : DLive :=
  { c with x := x, reader := { c.reader with keys := c.reader.keys.rekey epochUpdate (W.A cp K.1) K.2 } }

/-- A change of keys. -/
theorem Hears.rekeyed {g gs : Nat} {c : DLive} (h : Hears W cp b s g c) (h1 : gs ≤ g) (h2 : g ≤ gs + 1)
    (h3 : dirSecret b c.st = updates W.E.P cp.hash (trafficLabel b) gs s) {K : Machine.Keys}
    (hK : K = keysOf W.E.P cp (dirNext W.E.P cp b (dirSecret b c.st))) (x : Ctx) :
    Hears W cp b s (gs + 1) (rekeyedEnd W cp c x K) := by
  rw [h3, (generation_keys W cp b s gs).1] at hK
  subst hK
  have hinv := h.inv
  refine ⟨h.params, h.role, ⟨gs, by omega, by omega, h3⟩, h.rest, hinv, h.cached, h.datagram, ?_, ?_, ?_, ?_, ?_⟩
  · simp [rekeyedEnd, Record.Keys.rekey, upd, guardOf, epochUpdate]
  · simp [rekeyedEnd, Record.Keys.rekey, upd, guardOf]
  · simp [rekeyedEnd, Record.Keys.rekey, upd, guardOf]
  · rfl
  · have := h.count
    show gs + 1 + 2 ≤ c.reader.keys.fresh
    rw [h.fresh]
    omega

variable (hP : W.E.P.Sized) (hs : 0 < cp.hash.size)
include hP hs

theorem process_got {g : Nat} {c : DLive} (h : Hears W cp b s g c) (now : Int) (m : Msg) :
    Got W cp b s g c (c.process W now m).2 [] := by
  have hz : 0 < c.st.cp.hash.size := by rw [h.params]; exact hs
  have hb : (!c.st.isClient) = b := by rw [h.role]; simp
  unfold DLive.process
  rcases process_cases hP c.x c.st hz now m with ⟨a, he, -, -⟩ | hun | ⟨psk, he, -⟩ | ⟨r, hr⟩
  · rw [he]; exact Got.nothing h (dAbort_same _ _ _)
  · cases hp : c.st.process W.E c.x now m with
    | ok z => rw [hp] at hun; simp at hun
    | err e => rw [hp] at hun; simp at hun
    | panic => exact Got.nothing h (.refl c)
    | diverge => exact Got.nothing h (.refl c)
  · rw [he]
    exact Got.nothing h ⟨rfl, rfl, rfl, rfl, rfl, rfl⟩
  · obtain ⟨s', rest, x', he, hcp, hic, hrd, hrest⟩ := process_update hP c.x c.st hz now hr
    rw [he]
    dsimp only
    obtain ⟨gs, h1, h2, h3⟩ := h.secret
    rw [hb, h.params] at hrd
    have hall : ∀ a ∈ rest, noRekeyIn a = true := by
      rcases hrest with ⟨-, rfl, -⟩ | ⟨-, -, m2, -, rfl⟩ <;> simp [noRekeyIn]
    have htake : ({ c with x := x' } : DLive).takeAll W (.rekeyIn epochUpdate
        (keysOf W.E.P c.st.cp (dirNext W.E.P c.st.cp (!c.st.isClient) (dirSecret (!c.st.isClient) c.st))) :: rest) =
        (rekeyedEnd W cp c x' (keysOf W.E.P cp (dirNext W.E.P cp b (dirSecret b c.st)))).takeAll W rest := by
      rw [DLive.takeAll, DLive.takeAction, if_neg (by simp [h.rest]), hb, h.params]
      rfl
    rw [htake]
    generalize hd : rekeyedEnd W cp c x' (keysOf W.E.P cp (dirNext W.E.P cp b (dirSecret b c.st))) = d
    have hH : Hears W cp b s (gs + 1) d := by
      rw [← hd]; exact h.rekeyed h1 h2 h3 rfl x'
    have hg : Got W cp b s g c d [] := by
      refine ⟨gs + 1, [], by omega, hH, by simp, .nil, ?_, ?_⟩
      · rw [← hd]; simp [rekeyedEnd, Reader.frames, Record.Keys.rekey]
      · rw [← hd]; simp [rekeyedEnd]
    obtain ⟨t1, t2⟩ := dTakeAll_same W rest d hall
    split
    · rename_i c' heq
      rw [heq] at t1 t2
      have hH' := hH.same t1
      have e1 : s'.isClient = !b := hic.trans h.role
      refine ⟨gs + 1, [], by omega, ⟨hcp.trans h.params, e1, ⟨gs + 1, Nat.le_refl _, by omega, ?_⟩, hH'.rest, hH'.inv, hH'.cached,
        hH'.datagram, hH'.epoch, hH'.aead, hH'.iv, hH'.fresh, hH'.count⟩, by simp, .nil, ?_, ?_⟩
      · show dirSecret b s' = _
        rw [hrd, h3, (generation_keys W cp b s gs).2]
      · rw [t1.reader, ← hd]; simp [rekeyedEnd, Reader.frames, Record.Keys.rekey]
      · rw [t1.buffer, ← hd]; simp [rekeyedEnd]
    · exact hg.same (dOrAbort_same _ _ _ t1)

theorem postHandshake_got (now : Int) (n : Nat) {g : Nat} {c : DLive} (h : Hears W cp b s g c) (d : Bytes) :
    Got W cp b s g c (DLive.postHandshake W now n c d).2 [] := by
  induction n generalizing g c d with
  | zero => exact Got.nothing h (.refl c)
  | succ n ih =>
    unfold DLive.postHandshake
    split
    · exact Got.nothing h (.refl c)
    · split
      · exact Got.nothing h (.refl c)
      · dsimp only
        split
        · exact Got.nothing h (.refl c)
        · have hr := process_got hP hs h now ⟨d.getD 0 0, 0, (d.drop 12).take (beNat ((d.drop 1).take 3)), 0, 0⟩
          split
          · rename_i heq
            rw [heq] at hr
            exact hr.trans (o' := []) fun g' hg => ih hg _
          · exact hr

/-- The switch over the type of a record that is not application data. -/
theorem handle_got (now : Int) {g : Nat} {c : DLive} (h : Hears W cp b s g c) (ct : UInt8) (f : Bytes) (hct : ct ≠ 23) :
    Got W cp b s g c (c.handle W now ct f).2 [] := by
  unfold DLive.handle
  split
  · exact postHandshake_got hP hs now _ h _
  · split
    · split
      · split
        · exact Got.nothing h (.refl c)
        · split
          · exact Got.nothing h (.refl c)
          · split
            · exact Got.nothing h (.refl c)
            · exact Got.nothing h (dAbort_same _ _ _)
      · exact Got.nothing h (dAbort_same _ _ _)
    · split
      · exact Got.nothing h (sends_same c _).1
      · exact Got.nothing h (.refl c)

omit hP hs in
/-- One record is taken from what arrives. -/
theorem readRecord_got {g : Nat} {c : DLive} (h : Hears W cp b s g c) :
    Hears W cp b s g { c with reader := (readRecord c.reader false).2 } ∧
    ((readRecord c.reader false).2.frames).Sublist c.reader.frames ∧
    ∀ pt, (readRecord c.reader false).1 = .ok pt →
      ∃ hd bd, c.reader.frames = .ok (hd, bd) :: (readRecord c.reader false).2.frames ∧
        (pt.contentType = 23 → Genuine W cp b s ⟨g, hd, bd, pt.fragment⟩) := by
  obtain ⟨h1, -, h0, h4⟩ := nextRecord_spec c.reader false h.inv h.cached
  have hf : (readRecord c.reader false).2.frames = (nextRecord c.reader false).2.frames := rfl
  rw [hf]
  have mk : (nextRecord c.reader false).2.keys.cur = c.reader.keys.cur →
      (nextRecord c.reader false).2.keys.fresh = c.reader.keys.fresh →
      (∀ i, ((nextRecord c.reader false).2.keys.heap i).epoch = (c.reader.keys.heap i).epoch ∧
        ((nextRecord c.reader false).2.keys.heap i).aead = (c.reader.keys.heap i).aead ∧
        ((nextRecord c.reader false).2.keys.heap i).iv = (c.reader.keys.heap i).iv) →
      Hears W cp b s g { c with reader := (readRecord c.reader false).2 } := by
    intro e1 e2 e3
    refine ⟨h.params, h.role, h.secret, h.rest, h1, rfl, h0.trans h.datagram, ?_, ?_, ?_, ?_, ?_⟩
    · show ((nextRecord c.reader false).2.keys.heap (nextRecord c.reader false).2.keys.cur).epoch = _
      rw [e1, (e3 _).1]; exact h.epoch
    · show ((nextRecord c.reader false).2.keys.heap (nextRecord c.reader false).2.keys.cur).aead = _
      rw [e1, (e3 _).2.1]; exact h.aead
    · show ((nextRecord c.reader false).2.keys.heap (nextRecord c.reader false).2.keys.cur).iv = _
      rw [e1, (e3 _).2.2]; exact h.iv
    · show (nextRecord c.reader false).2.keys.fresh = (nextRecord c.reader false).2.keys.cur + 1
      rw [e1, e2]; exact h.fresh
    · show g + 2 ≤ (nextRecord c.reader false).2.keys.cur
      rw [e1]; exact h.count
  have hone : (readRecord c.reader false).1 = (nextRecord c.reader false).1 := rfl
  rw [hone]
  rcases h4 with ⟨hd, bd, fs, f1, f2, ⟨pt, k, ho, e6, e7, -⟩ | ⟨hno, e6, e7, -⟩⟩ | ⟨e, e0, ek, -, hfs⟩
  · obtain ⟨i, seq, hsel, -, -, -, hk, -, -, hcase⟩ := openRecord_ok ho
    refine ⟨mk ?_ ?_ ?_, ?_, ?_⟩
    · rw [e7, hk]
    · rw [e7, hk]
    · intro j
      rw [e7, hk]
      simp only [upd]
      split
      · rename_i e; rw [e]; exact ⟨rfl, rfl, rfl⟩
      · exact ⟨rfl, rfl, rfl⟩
    · rw [f1, f2]; exact List.sublist_cons_self _ _
    · intro pt' hpt
      rw [e6] at hpt
      cases hpt
      refine ⟨hd, bd, by rw [f1, f2], ?_⟩
      intro hct
      have hm : .ok (hd, bd) ∈ c.reader.frames := by rw [f1]; simp
      obtain ⟨l13, hlen⟩ := frames_datagram h.inv h.datagram hm
      have hann : (bd ++ List.replicate (announced hd) 0).take (announced hd) = bd := by
        have : announced hd = bd.length := by
          simp only [recordFraming, if_true, Except.ok.injEq] at hlen
          simp only [announced, l13]
          omega
        rw [this]; simp
      unfold selectCipher at hsel
      simp only [h.datagram, if_true] at hsel
      rw [seq_shift l13] at hsel
      split at hsel
      · simp at hsel
      · split at hsel
        · simp at hsel
        · rename_i hep
          simp only [ne_eq, Decidable.not_not] at hep
          simp only [Res.ok.injEq, Prod.mk.injEq] at hsel
          obtain ⟨rfl, rfl⟩ := hsel
          rcases hcase with ⟨a, ha, -, hdec⟩ | ⟨hnone, -⟩
          · rw [hann] at hdec
            unfold decrypt at hdec
            split at hdec
            · simp at hdec
            · split at hdec
              · simp at hdec
              · rw [h.aead] at hdec
                dsimp only at hdec
                rw [Res.bind_eq_ok] at hdec
                obtain ⟨nonce, hn, hdec⟩ := hdec
                split at hdec
                · simp at hdec
                · rename_i p hp
                  obtain ⟨-, pad, rfl⟩ := stripPadding_ok hdec
                  rw [hct] at hp
                  refine ⟨nonce, pad, l13, by rw [hep]; exact h.epoch, ?_, hp⟩
                  rw [← hn]
                  simp only [computeNonce, h.iv]
          · rw [h.aead] at hnone; cases hnone
  · refine ⟨mk ?_ ?_ ?_, ?_, ?_⟩
    · rw [e7]
    · rw [e7]
    · intro i; rw [e7]; exact ⟨rfl, rfl, rfl⟩
    · rw [f1, f2]; exact List.sublist_cons_self _ _
    · intro pt hpt
      rw [e6, Res.bind_eq_ok] at hpt
      obtain ⟨x, hx, -⟩ := hpt
      exact absurd hx (hno x)
  · refine ⟨mk ?_ ?_ ?_, ?_, ?_⟩
    · rw [ek]
    · rw [ek]
    · intro i; rw [ek]; exact ⟨rfl, rfl, rfl⟩
    · rcases hfs with ⟨fs, f1, f2⟩ | ⟨f1, -⟩
      · rw [f1, f2]; exact List.sublist_cons_self _ _
      · rw [f1]
    · intro pt hpt; rw [e0] at hpt; cases hpt

theorem consume_got (now : Int) {g : Nat} {c : DLive} (h : Hears W cp b s g c) : Got W cp b s g c (c.consume W now).2 [] := by
  obtain ⟨h1, h2, h3⟩ := readRecord_got h
  unfold DLive.consume
  have plain : Got W cp b s g c { c with reader := (readRecord c.reader false).2 } [] :=
    ⟨g, [], Nat.le_refl _, h1, by simp, .nil, h2, by simp⟩
  split <;> rename_i heq <;> rw [heq] at h1 h2 h3 plain
  · rename_i pt r
    by_cases hct : pt.contentType = 23
    · obtain ⟨hd, bd, hfr, hg⟩ := h3 pt rfl
      have hc : ({ c with reader := r } : DLive).handle W now pt.contentType pt.fragment =
          (.ok (), { c with reader := r, readBuffer := c.readBuffer ++ pt.fragment }) := by
        unfold DLive.handle
        rw [hct]
        simp
      rw [hc]
      refine ⟨g, [⟨g, hd, bd, pt.fragment⟩], Nat.le_refl _,
        ⟨h1.params, h1.role, h1.secret, h1.rest, h1.inv, h1.cached, h1.datagram, h1.epoch, h1.aead, h1.iv, h1.fresh, h1.count⟩, ?_, by simp, ?_, ?_⟩
      · intro u hu
        rw [List.mem_singleton] at hu
        subst hu
        exact ⟨hg hct, Nat.le_refl _, Nat.le_refl _⟩
      · rw [hfr]; exact List.Sublist.refl _
      · simp
    · exact plain.trans (o' := []) fun g' hg => handle_got hP hs now hg _ _ hct
  all_goals exact plain

theorem readLoop_got (now : Int) (fuel : Nat) {g : Nat} {c : DLive} (h : Hears W cp b s g c) :
    Got W cp b s g c (DLive.readLoop W now fuel c).2 [] := by
  induction fuel generalizing g c with
  | zero => unfold DLive.readLoop; split <;> exact Got.nothing h (.refl c)
  | succ fuel ih =>
    unfold DLive.readLoop
    split
    · have hr := consume_got hP hs now h
      split
      · rename_i heq; rw [heq] at hr; exact hr.trans (o' := []) fun g' hg => ih hg
      · rename_i heq
        rw [heq] at hr
        split
        · exact hr
        · exact hr.trans (o' := []) fun g' hg => ih hg
      · exact hr
    · exact Got.nothing h (.refl c)

/-- The bytes a call returned. -/
def gotBytes : Res Reply → Bytes
  | .ok r => r.bytes
  | _ => []

omit hP hs in
theorem Got.drop {g : Nat} {c c' : DLive} (h : Got W cp b s g c c' []) (n : Nat) :
    Got W cp b s g c { c' with readBuffer := c'.readBuffer.drop n } (c'.readBuffer.take n) := by
  obtain ⟨g', us, h1, h2, h3, h4, h5, h6⟩ := h
  exact ⟨g', us, h1, ⟨h2.params, h2.role, h2.secret, h2.rest, h2.inv, h2.cached, h2.datagram, h2.epoch, h2.aead, h2.iv, h2.fresh, h2.count⟩,
    h3, h4, h5, by rw [h6]; simp⟩

theorem call_got {g : Nat} {c : DLive} (h : Hears W cp b s g c) (k : DCall) :
    Got W cp b s g c (c.call W k).2 (gotBytes (c.call W k).1) := by
  have hz : 0 < c.st.cp.hash.size := by rw [h.params]; exact hs
  have rep : ∀ r : Res Unit × DLive, Got W cp b s g c r.2 [] → Got W cp b s g c (dReply r).2 (gotBytes (dReply r).1) := by
    intro r hr
    unfold dReply
    split <;> exact hr
  cases k with
  | read now expired fuel n =>
    simp only [DLive.call, DLive.read]
    by_cases hn : n = 0
    · rw [if_pos hn]; exact Got.nothing h (.refl c)
    · rw [if_neg hn]
      have ht := checkTimers_same c expired
      rcases he : c.checkTimers expired with ⟨r0, c0⟩
      rw [he] at ht
      have h0 := Got.nothing h ht
      cases r0 with
      | ok u =>
        dsimp only
        have hl : Got W cp b s g c (DLive.readLoop W now fuel c0).2 [] := h0.trans (o' := []) fun g' hg => readLoop_got hP hs now fuel hg
        rcases hr : DLive.readLoop W now fuel c0 with ⟨r1, c1⟩
        rw [hr] at hl
        cases r1 with
        | ok u => exact hl.drop n
        | err e => exact hl
        | panic => exact hl
        | diverge => exact hl
      | err e => exact h0
      | panic => exact h0
      | diverge => exact h0
  | write d =>
    simp only [DLive.call, DLive.write]
    have hr := Got.nothing h (dWriteAll_same (Conn.fragments d.length d) 0 c)
    split <;> rename_i heq <;> rw [heq] at hr <;> exact hr
  | update request => exact rep _ (Got.nothing h (dUpdate_same hP c hz request))
  | ticket now l e a nonce tkt => exact rep _ (Got.nothing h (dTicket_same W c now l e a nonce tkt))
  | close => exact Got.nothing h ⟨rfl, rfl, rfl, rfl, rfl, rfl⟩

theorem calls_got (ks : List DCall) {g : Nat} {c : DLive} (h : Hears W cp b s g c) :
    Got W cp b s g c (DLive.calls W c ks).2 (returned (DLive.calls W c ks).1) := by
  induction ks generalizing g c with
  | nil => exact Got.nothing h (.refl c)
  | cons k ks ih =>
    have hr := call_got hP hs h k
    unfold DLive.calls
    split
    · rename_i r c' heq
      rw [heq] at hr
      exact hr.trans fun g' hg => ih hg
    · rename_i r c' hno heq
      rw [heq] at hr
      cases r with
      | ok r => exact absurd rfl (hno r)
      | err e => exact hr
      | panic => exact hr
      | diverge => exact hr

end

theorem start_hears {W : World} {st : Connected} {x : Ctx} {nb : Bool} {sn : Bytes} {ho hi o i : Machine.Keys} {b : Bool}
    {conn : List (Except Err Bytes)} (hr : st.isClient = !b) (h : i = keysOf W.E.P st.cp (dirSecret b st)) :
    Hears W st.cp b (dirSecret b st) 0 (DLive.start W st x nb sn ho hi o i conn) := by
  refine ⟨rfl, hr, ⟨0, Nat.le_refl _, by omega, rfl⟩, rfl, FrameReader.inv_new _, rfl, rfl, ?_, ?_, ?_, rfl, ?_⟩
  · simp [DLive.start, Record.Keys.rekey, guardOf, epochApplication]
  · simp [DLive.start, Record.Keys.rekey, guardOf, h]; rfl
  · simp [DLive.start, Record.Keys.rekey, guardOf, h]; rfl
  · simp [DLive.start, Record.Keys.rekey, Record.Keys.new]

end Verif.Props

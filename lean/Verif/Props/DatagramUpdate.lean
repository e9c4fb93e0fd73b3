import Verif.Props.DatagramClosing

/-
C79, continued: data and a key update from one end to the other over a network that loses, repeats and reorders.
-/

namespace Verif.Props

open Verif Verif.Crypto Verif.Messages Verif.Negotiation Verif.Handshake Verif.Machine Verif.Spec Verif.Conn Verif.Record

/-- Of the datagrams that arrive (given by their numbers) those whose data is read, number `k` being the key update: until the key
update arrives those sent before it, from then on those sent after it. -/
def surviving (k : Nat) (idx : List Nat) : List Nat :=
  (idx.takeWhile (· ≠ k)).filter (· < k) ++ (idx.dropWhile (· ≠ k)).filter (k < ·)

/-! ### The sender -/

/-- Writes leave the queue alone. -/
theorem writeAll_keeps (fs : List Bytes) (sent : Nat) (c : DLive) :
    (c.writeAll fs sent).2.st = c.st ∧ (c.writeAll fs sent).2.x = c.x ∧ (c.writeAll fs sent).2.out.queued = c.out.queued ∧
      (c.writeAll fs sent).2.out.sent = c.out.sent ∧ (c.writeAll fs sent).2.out.room = c.out.room := by
  induction fs generalizing c sent with
  | nil => exact ⟨rfl, rfl, rfl, rfl, rfl⟩
  | cons f fs ih =>
    rw [DLive.writeAll]
    split
    · rename_i c1 h1
      have h2 : c1.st = c.st ∧ c1.x = c.x ∧ c1.out.queued = c.out.queued ∧ c1.out.sent = c.out.sent ∧ c1.out.room = c.out.room := by
        unfold DLive.writeRecord DLive.sends at h1
        split at h1
        · rename_i o ho
          simp only [Out.op, Out.emit, Res.bind_eq_ok, Res.ok.injEq] at ho
          obtain ⟨_, _, rfl⟩ := ho
          split at h1
          · simp at h1
          · cases h1
            exact ⟨rfl, rfl, rfl, rfl, rfl⟩
        · simp at h1
        · simp at h1
        · simp at h1
      obtain ⟨i1, i2, i3, i4, i5⟩ := ih (sent + f.length) c1
      exact ⟨i1.trans h2.1, i2.trans h2.2.1, i3.trans h2.2.2.1, i4.trans h2.2.2.2.1, i5.trans h2.2.2.2.2⟩
    · rename_i h1
      cases writeRecord_fails h1 (by simp)
      exact ⟨rfl, rfl, rfl, rfl, rfl⟩
    · rename_i h1
      cases writeRecord_fails h1 (by simp)
      exact ⟨rfl, rfl, rfl, rfl, rfl⟩
    · rename_i h1
      cases writeRecord_fails h1 (by simp)
      exact ⟨rfl, rfl, rfl, rfl, rfl⟩

theorem write_snd (W : World) (c : DLive) (data : Bytes) : (c.call W (.write data)).2 = (c.write data).2 := by
  simp only [DLive.call]
  split <;> (rename_i h; rw [h])

/-- Writes keep the keys, and leave the queue alone. -/
theorem writes_keep {W : World} {cp : Params} {b : Bool} {s : Bytes} {g : Nat} (bufs : List Bytes) {c : DLive}
    (h : Speaking W cp b s g c) (hret : (DLive.calls W c (bufs.map .write)).1.length = bufs.length) :
    let c' := (DLive.calls W c (bufs.map .write)).2
    Speaking W cp b s g c' ∧ c'.st = c.st ∧ c'.out.queued = c.out.queued ∧ c'.out.sent = c.out.sent ∧ c'.out.room = c.out.room := by
  induction bufs generalizing c with
  | nil => exact ⟨h, rfl, rfl, rfl, rfl⟩
  | cons x bufs ih =>
    rw [List.map_cons, DLive.calls] at hret ⊢
    split at hret
    · rename_i rep c1 h1
      dsimp only at hret ⊢
      obtain ⟨ds, gs, e1, e2, e3, e4⟩ := write_speaking h h1
      have hw := write_snd W c x
      rw [h1] at hw
      dsimp only at hw
      obtain ⟨k1, k2, k3, k4, k5⟩ := writeAll_keeps (fragments x.length x) 0 c
      have hw' : c1 = (c.writeAll (fragments x.length x) 0).2 := hw
      rw [← hw'] at k1 k2 k3 k4 k5
      obtain ⟨i1, i2, i3, i4, i5⟩ := ih e4 (by simpa using hret)
      exact ⟨i1, i2.trans k1, i3.trans k3, i4.trans k4, i5.trans k5⟩
    · simp at hret

/-- SendKeyUpdate, if nothing waits for an acknowledgement. -/
theorem update_speaking {W : World} (hP : W.E.P.Sized) {cp : Params} (hz : 0 < cp.hash.size) {b : Bool} {s : Bytes} {g : Nat} {c c' : DLive}
    (h : Speaking W cp b s g c) (hq : c.out.queued = []) (hs : c.out.sent = []) (hr : c.out.room = 1200) (hcp : c.st.cp = cp)
    (hb : c.st.isClient = b) (hsec : dirSecret b c.st = updates W.E.P cp.hash (trafficLabel b) g s)
    (hu : c.call W (.update false) = (.ok {}, c')) :
    ∃ d seq, c'.datagrams = c.datagrams ++ [d] ∧ Sealed (guardOf W cp b s g) 22 (keyUpdateBytes seq) d ∧ Speaking W cp b s (g + 1) c' := by
  obtain ⟨s', m, x', hk, -, hty, hbd, hcp', -, -, -⟩ := connected_keyUpdate hP c.x c.st (hcp ▸ hz) 0
  simp only [DLive.call, DLive.update, Bool.false_eq_true, if_false] at hu
  rw [hk] at hu
  dsimp only at hu
  have hta : ∃ r c1, ({ c with st := s', x := x' } : DLive).takeAll W [.queue m, .sendQueued,
      .rekeyOut epochUpdate (keysOf W.E.P c.st.cp (dirNext W.E.P c.st.cp c.st.isClient (dirSecret c.st.isClient c.st)))] = (r, c1) := ⟨_, _, rfl⟩
  obtain ⟨r, c1, hta⟩ := hta
  rw [hta] at hu
  have hok : r = .ok () ∧ c1 = c' := by
    cases r with
    | ok u => simpa [DLive.orAbort, dReply] using hu
    | err e =>
      exfalso
      cases e with
      | alert a =>
        simp only [DLive.orAbort, DLive.abort] at hu
        split at hu
        · simp [dReply] at hu
        · rename_i hno
          rcases hsa : c1.sendAlert a with ⟨rb, cb⟩
          rw [hsa] at hu
          cases rb with
          | ok u => exact hno _ _ hsa
          | err e => simp [dReply] at hu
          | panic => simp [dReply] at hu
          | diverge => simp [dReply] at hu
      | msg => simp [DLive.orAbort, dReply] at hu
      | wouldBlock => simp [DLive.orAbort, dReply] at hu
      | eof => simp [DLive.orAbort, dReply] at hu
    | panic => simp [DLive.orAbort, dReply] at hu
    | diverge => simp [DLive.orAbort, dReply] at hu
  obtain ⟨rfl, rfl⟩ := hok
  have hp : Speaking W cp b s g ({ c with st := s', x := x' } : DLive) := ⟨h.1, h.2, h.3, h.4, h.5⟩
  obtain ⟨d, c2, d1, d2, d3, d4, d5, d6, d7⟩ := lone_actions hp hq hs hr (by rw [hbd]; decide) hta
  rw [DLive.takeAll] at d7
  have hact : c2.takeAction W (.rekeyOut epochUpdate (keysOf W.E.P c.st.cp (dirNext W.E.P c.st.cp c.st.isClient (dirSecret c.st.isClient c.st)))) =
      (.ok (), { c2 with
        out := { c2.out with
          keys := c2.out.keys.rekey epochUpdate (W.A cp (generation W cp b s (g + 1)).1) (generation W cp b s (g + 1)).2 } }) := by
    rw [hcp, hb, hsec, (generation_keys W cp b s g).1]
    have : c2.st.cp = cp := by rw [d4]; exact hcp'.trans hcp
    simp [DLive.takeAction, Out.op, DLive.sends, this]
  rw [hact] at d7
  simp only [DLive.takeAll] at d7
  simp only [Prod.mk.injEq, true_and] at d7
  subst d7
  refine ⟨d, m.seq, d1, ?_, ?_⟩
  · have : Msg.marshal true ⟨m.msgType, m.seq, m.body, 0, m.body.length⟩ = keyUpdateBytes m.seq := by
      simp [Msg.marshal, keyUpdateBytes, hty, hbd, beBytes]
    rwa [this] at d5
  · refine ⟨d6.datagram, d6.direction, ?_, ?_, ?_⟩
    · simp [Record.Keys.rekey, guardOf, epochUpdate]
    · simp [Record.Keys.rekey, guardOf]
    · simp [Record.Keys.rekey, guardOf]

/-! ### The network -/

theorem surviving_cons (k i : Nat) (idx : List Nat) :
    surviving k (i :: idx) = if i = k then idx.filter (k < ·) else if i < k then i :: surviving k idx else surviving k idx := by
  unfold surviving
  by_cases h : i = k
  · subst h; simp
  · by_cases h2 : i < k
    · simp [h, h2]
    · simp [h, h2]

theorem getD_left {l l' : List Bytes} {i : Nat} (h : i < l.length) : (l ++ l').getD i [] = l.getD i [] := by
  simp [List.getD_eq_getElem?_getD, List.getElem?_append_left h]

theorem getD_right {l l' : List Bytes} {i : Nat} (h : l.length ≤ i) : (l ++ l').getD i [] = l'.getD (i - l.length) [] := by
  simp [List.getD_eq_getElem?_getD, List.getElem?_append_right h]

theorem forall₂_at {R : Bytes → Bytes → Prop} {ds gs : List Bytes} (h : List.Forall₂ R ds gs) (i : Nat) (hi : i < ds.length) :
    R (ds.getD i []) (gs.getD i []) := by
  have := forall₂_select h [i] (by simpa using hi)
  simpa using this

theorem arrives_update {W : World} (hl : W.Lawful) {cp : Params} {b : Bool} {s : Bytes} {ds gs ds' gs' : List Bytes} {u : Bytes} {seq : Nat}
    (h : List.Forall₂ (fun d f => Sealed (guardOf W cp b s 0) 23 f d) ds gs) (hu : Sealed (guardOf W cp b s 0) 22 (keyUpdateBytes seq) u)
    (h' : List.Forall₂ (fun d f => Sealed (guardOf W cp b s 1) 23 f d) ds' gs') (idx : List Nat)
    (hidx : ∀ i ∈ idx, i < gs.length + 1 + gs'.length) :
    Arrives W cp b s 0 (idx.map fun i => (ds ++ u :: ds').getD i []) ((surviving gs.length idx).map fun i => (gs ++ [] :: gs').getD i []) := by
  have hlen := h.length_eq
  have hlen' := h'.length_eq
  have hb : ∀ i, i < gs.length → Sealed (guardOf W cp b s 0) 23 ((gs ++ [] :: gs').getD i []) ((ds ++ u :: ds').getD i []) := by
    intro i hi
    have := forall₂_at h i (by omega)
    rwa [getD_left hi, getD_left (by omega)]
  have hk : (ds ++ u :: ds').getD gs.length [] = u := by
    rw [← hlen, getD_right (Nat.le_refl _)]; simp
  have ha : ∀ i, gs.length < i → i < gs.length + 1 + gs'.length →
      Sealed (guardOf W cp b s 1) 23 ((gs ++ [] :: gs').getD i []) ((ds ++ u :: ds').getD i []) := by
    intro i h1 h2
    have := forall₂_at h' (i - gs.length - 1) (by omega)
    rw [getD_right (by omega), getD_right (by omega), hlen]
    obtain ⟨j, hj⟩ : ∃ j, i - gs.length = j + 1 := ⟨i - gs.length - 1, by omega⟩
    rw [hj] at this ⊢
    simpa using this
  have late : ∀ idx : List Nat, (∀ i ∈ idx, i < gs.length + 1 + gs'.length) →
      Arrives W cp b s 1 (idx.map fun i => (ds ++ u :: ds').getD i []) ((idx.filter (gs.length < ·)).map fun i => (gs ++ [] :: gs').getD i []) := by
    intro idx
    induction idx with
    | nil => exact fun _ => .done
    | cons i idx ih =>
      intro hi
      have hr := ih fun j hj => hi j (by simp [hj])
      have hi0 := hi i (by simp)
      by_cases hlt : gs.length < i
      · simp only [List.map_cons, List.filter_cons, hlt, decide_true, if_true]
        exact .data (ha i hlt hi0) hr
      · simp only [List.map_cons, List.filter_cons, hlt, decide_false, Bool.false_eq_true, if_false]
        refine .stray ?_ hr
        by_cases he : i = gs.length
        · rw [he, hk]
          exact sealed_stray hu (by simp [guardOf]) (hl cp _) (by simp [guardOf])
        · exact sealed_stray (hb i (by omega)) (by simp [guardOf]) (hl cp _) (by simp [guardOf])
  induction idx with
  | nil => exact .done
  | cons i idx ih =>
    have hr := ih fun j hj => hidx j (by simp [hj])
    have hi0 := hidx i (by simp)
    rw [surviving_cons, List.map_cons]
    by_cases he : i = gs.length
    · rw [if_pos he, he, hk]
      exact .update hu (late idx fun j hj => hidx j (by simp [hj]))
    · rw [if_neg he]
      by_cases hlt : i < gs.length
      · rw [if_pos hlt]
        exact .data (hb i hlt) hr
      · rw [if_neg hlt]
        exact .stray (sealed_stray (ha i (by omega) hi0) (by simp [guardOf]) (hl cp _) (by simp [guardOf])) hr

/-- From an end that has not sent anything to one that has not read anything: Writes, a key update, Writes. The network delivers
any selection of the datagrams, in any order, each as often as it likes. The Reads of the peer return the data of those sent
before the key update that arrive before it, and of those sent after it that arrive after it, in the order of arrival; they do
not fail, and enough of them return all of this. Missing: more than one key update (C79_second_update_fails,
C79_third_update_fails), a key update that asks for an answer, an expired timer. -/
theorem one_update {W : World} (hl : W.Lawful) (hP : W.E.P.Sized) {cp : Params} (hz : 0 < cp.hash.size) {b : Bool} {s : Bytes}
    {c c1 r : DLive} (hsp : Speaking W cp b s 0 c) (hq : c.out.queued = []) (hsent : c.out.sent = []) (hroom : c.out.room = 1200)
    (hnone : c.datagrams = []) (hcp : c.st.cp = cp) (hrole : c.st.isClient = b) (hsec : dirSecret b c.st = s)
    (hr : ∀ n, n + 1 < 2 ^ 48 → Listening W cp b s 0 n r) (hrb : r.readBuffer = []) (bufs bufs' : List Bytes)
    (hret : (c.calls W (bufs.map .write)).1.length = bufs.length)
    (hu : (c.calls W (bufs.map .write)).2.call W (.update false) = (.ok {}, c1))
    (hret' : (c1.calls W (bufs'.map .write)).1.length = bufs'.length) :
    ∃ gs gs' : List Bytes, gs.flatten = (c.calls W (bufs.map .write)).1.flatMap (fun r => r.2.wrote) ∧
      gs'.flatten = (c1.calls W (bufs'.map .write)).1.flatMap (fun r => r.2.wrote) ∧
      gs.length + 1 + gs'.length = (c1.calls W (bufs'.map .write)).2.datagrams.length ∧
      ∀ (idx : List Nat) (ks : List DCall), (∀ i ∈ idx, i < gs.length + 1 + gs'.length) → idx.length + 1 < 2 ^ 48 → OnlyReads ks →
        let ds := idx.map fun i => (c1.calls W (bufs'.map .write)).2.datagrams.getD i []
        let reads := (r.arrives ds).calls W ks
        let got := ((surviving gs.length idx).map fun i => (gs ++ [] :: gs').getD i []).flatten
        reads.1.length = ks.length ∧ (∀ r ∈ reads.1, r.2.error = none ∨ r.2.error = some .wouldBlock) ∧
        returned reads.1 <+: got ∧ (idx.length + got.length ≤ ks.length → returned reads.1 = got) := by
  obtain ⟨ds, gs, g1, g2, g3⟩ := writes_speaking bufs hsp hret
  obtain ⟨k1, k2, k3, k4, k5⟩ := writes_keep bufs hsp hret
  obtain ⟨u, seq, u1, u2, u3⟩ := update_speaking hP hz k1 (k3.trans hq) (k4.trans hsent) (k5.trans hroom) (by rw [k2]; exact hcp)
    (by rw [k2]; exact hrole) (by rw [k2]; exact hsec) hu
  obtain ⟨ds', gs', f1, f2, f3⟩ := writes_speaking bufs' u3 hret'
  have hall : (c1.calls W (bufs'.map .write)).2.datagrams = ds ++ u :: ds' := by
    rw [f2, u1, g2, hnone]; simp
  refine ⟨gs, gs', g1, f1, by rw [hall]; simp [g3.length_eq, f3.length_eq]; omega, ?_⟩
  intro idx ks hidx hlen hks
  rw [hall]
  have := C79_reads_partial W hl hP cp hz b s 0 r _ _ (hr _ (by simpa using hlen)) (arrives_update hl g3 u2 f3 idx hidx) ks hks
  rw [hrb] at this
  simpa using this

/-- From a client to a server: the client writes, updates its keys, and writes. The network delivers any selection of the
datagrams, in any order, each as often as it likes. The server's Reads return the data of those sent before the key update that
arrive before it, and of those sent after it that arrive after it, in the order of arrival; they do not fail, and enough of them
return all of this. Missing: more than one key update (C79_second_update_fails, C79_third_update_fails), one that asks for an
answer, an expired timer. -/
theorem C79_update_to_server_partial (W : World) (hl : W.Lawful) (hP : W.E.P.Sized) (cl sv : Connected) (co ci so si : Machine.Keys)
    (h : Established W cl sv co ci so si) (x y : Ctx) (nb nb' : Bool) (sn sn' : Bytes) (ho hi ho' hi' : Machine.Keys)
    (conn : List (Except Err Bytes)) (bufs bufs' : List Bytes) (c1 : DLive)
    (hret : ((DLive.start W cl x nb sn ho hi co ci conn).calls W (bufs.map .write)).1.length = bufs.length)
    (hu : ((DLive.start W cl x nb sn ho hi co ci conn).calls W (bufs.map .write)).2.call W (.update false) = (.ok {}, c1))
    (hret' : (c1.calls W (bufs'.map .write)).1.length = bufs'.length) :
    ∃ gs gs' : List Bytes,
      gs.flatten = ((DLive.start W cl x nb sn ho hi co ci conn).calls W (bufs.map .write)).1.flatMap (fun r => r.2.wrote) ∧
      gs'.flatten = (c1.calls W (bufs'.map .write)).1.flatMap (fun r => r.2.wrote) ∧
      gs.length + 1 + gs'.length = (c1.calls W (bufs'.map .write)).2.datagrams.length ∧
      ∀ (idx : List Nat) (ks : List DCall), (∀ i ∈ idx, i < gs.length + 1 + gs'.length) → idx.length + 1 < 2 ^ 48 → OnlyReads ks →
        let ds := idx.map fun i => (c1.calls W (bufs'.map .write)).2.datagrams.getD i []
        let reads := ((DLive.start W sv y nb' sn' ho' hi' so si []).arrives ds).calls W ks
        let got := ((surviving gs.length idx).map fun i => (gs ++ [] :: gs').getD i []).flatten
        reads.1.length = ks.length ∧ (∀ r ∈ reads.1, r.2.error = none ∨ r.2.error = some .wouldBlock) ∧
        returned reads.1 <+: got ∧ (idx.length + got.length ≤ ks.length → returned reads.1 = got) := by
  obtain ⟨hz, hc, hs, e1, e2, e3, e4⟩ := h.ends hP
  refine one_update (b := true) (s := cl.clientAp) (cp := cl.cp) hl hP hz (start_speaking (b := true) e1) rfl rfl rfl rfl rfl hc rfl ?_ rfl bufs bufs' hret hu hret'
  intro n hn
  have hL := start_listening (W := W) (st := sv) (x := y) (nb := nb') (sn := sn') (ho := ho') (hi := hi') (o := so) (i := si) (b := true)
    (conn := []) n hn hs (by rw [← h.suite, if_pos rfl, ← h.client]; exact e4)
  rwa [if_pos rfl, ← h.suite, ← h.client] at hL

/-- The same from a server to a client. -/
theorem C79_update_to_client_partial (W : World) (hl : W.Lawful) (hP : W.E.P.Sized) (cl sv : Connected) (co ci so si : Machine.Keys)
    (h : Established W cl sv co ci so si) (x y : Ctx) (nb nb' : Bool) (sn sn' : Bytes) (ho hi ho' hi' : Machine.Keys)
    (conn : List (Except Err Bytes)) (bufs bufs' : List Bytes) (c1 : DLive)
    (hret : ((DLive.start W sv y nb' sn' ho' hi' so si conn).calls W (bufs.map .write)).1.length = bufs.length)
    (hu : ((DLive.start W sv y nb' sn' ho' hi' so si conn).calls W (bufs.map .write)).2.call W (.update false) = (.ok {}, c1))
    (hret' : (c1.calls W (bufs'.map .write)).1.length = bufs'.length) :
    ∃ gs gs' : List Bytes,
      gs.flatten = ((DLive.start W sv y nb' sn' ho' hi' so si conn).calls W (bufs.map .write)).1.flatMap (fun r => r.2.wrote) ∧
      gs'.flatten = (c1.calls W (bufs'.map .write)).1.flatMap (fun r => r.2.wrote) ∧
      gs.length + 1 + gs'.length = (c1.calls W (bufs'.map .write)).2.datagrams.length ∧
      ∀ (idx : List Nat) (ks : List DCall), (∀ i ∈ idx, i < gs.length + 1 + gs'.length) → idx.length + 1 < 2 ^ 48 → OnlyReads ks →
        let ds := idx.map fun i => (c1.calls W (bufs'.map .write)).2.datagrams.getD i []
        let reads := ((DLive.start W cl x nb sn ho hi co ci []).arrives ds).calls W ks
        let got := ((surviving gs.length idx).map fun i => (gs ++ [] :: gs').getD i []).flatten
        reads.1.length = ks.length ∧ (∀ r ∈ reads.1, r.2.error = none ∨ r.2.error = some .wouldBlock) ∧
        returned reads.1 <+: got ∧ (idx.length + got.length ≤ ks.length → returned reads.1 = got) := by
  obtain ⟨hz, hc, hs, e1, e2, e3, e4⟩ := h.ends hP
  have hsp := start_speaking (W := W) (st := sv) (x := y) (nb := nb') (sn := sn') (ho := ho') (hi := hi') (o := so) (i := si) (b := false)
    (conn := conn) (by rw [if_neg (by simp), ← h.suite, ← h.server]; exact e3)
  rw [if_neg (by simp), ← h.suite, ← h.server] at hsp
  exact one_update (b := false) (s := cl.serverAp) (cp := cl.cp) hl hP hz hsp rfl rfl rfl rfl h.suite.symm hs h.server.symm
    (fun n hn => start_listening (b := false) n hn hc e2) rfl bufs bufs' hret hu hret'

/-- Three Writes, the key update after the second; what arrives, and what is read. -/
example : surviving 2 [3, 1, 0, 3, 2, 1, 3, 2, 3] = [1, 0, 3, 3] := by decide

example : ∃ (cl sv : Connected) (co ci so si : Machine.Keys) (x y : Ctx) (c1 : DLive), Established Toy.world cl sv co ci so si ∧
    ((DLive.start Toy.world cl x true [97] ([1], [1]) ([2], [2]) co ci []).calls Toy.world ([[1], [2, 3]].map .write)).1.length = 2 ∧
    ((DLive.start Toy.world cl x true [97] ([1], [1]) ([2], [2]) co ci []).calls Toy.world ([[1], [2, 3]].map .write)).2.call Toy.world
      (.update false) = (.ok {}, c1) ∧
    (c1.calls Toy.world ([[4]].map .write)).1.length = 1 ∧
    returned (((DLive.start Toy.world sv y true [] ([2], [2]) ([1], [1]) so si []).arrives ([3, 1, 0, 3, 2, 1, 3, 2, 3].map fun i =>
      (c1.calls Toy.world ([[4]].map .write)).2.datagrams.getD i [])).calls Toy.world (List.replicate 14 (.read 0 false 9 9))).1 = [2, 3, 1, 4, 4] := by
  obtain ⟨cl, sv, co, ci, so, si, x, y, h, hf⟩ := toy_dtls
    (fun c s =>
      match (c.calls Toy.world ([[1], [2, 3]].map .write)).2.call Toy.world (.update false) with
      | (.ok r, c1) => decide (r.bytes = [] ∧ r.wrote = [] ∧ r.error = none) && decide ((c.calls Toy.world ([[1], [2, 3]].map .write)).1.length = 2) &&
          decide ((c1.calls Toy.world ([[4]].map .write)).1.length = 1) &&
          decide (returned ((s.arrives ([3, 1, 0, 3, 2, 1, 3, 2, 3].map fun i =>
            (c1.calls Toy.world ([[4]].map .write)).2.datagrams.getD i [])).calls Toy.world (List.replicate 14 (.read 0 false 9 9))).1 = [2, 3, 1, 4, 4])
      | _ => false) (by decide +kernel)
  split at hf
  · rename_i r c1 hc1
    simp only [Bool.and_eq_true, decide_eq_true_eq] at hf
    obtain ⟨⟨⟨⟨hr1, hr2, hr3⟩, h1⟩, h2⟩, h3⟩ := hf
    obtain ⟨rb, rw', re⟩ := r
    cases hr1
    cases hr2
    cases hr3
    exact ⟨cl, sv, co, ci, so, si, x, y, c1, h, h1, hc1, h2, h3⟩
  · cases hf

end Verif.Props

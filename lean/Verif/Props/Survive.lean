import Verif.Conn.Sturdy
import Verif.Conn.Toy
import Verif.Machine.Wire
import Verif.Props.DatagramConn

/-
C80: an established connection survives whatever arrives.
-/

namespace Verif.Props

open Verif Verif.Crypto Verif.Messages Verif.Negotiation Verif.Handshake Verif.Machine Verif.Spec Verif.Conn Verif.Record

/-- Some key of a record layer has been used for 2^48 - 1 records. -/
def NumbersUsedUp (k : Record.Keys) : Prop := ∃ i, 2 ^ 48 - 1 ≤ (k.heap i).seq

/-- Some key would have been used for so many records if all queued messages were sent, each byte in a record of its own. -/
def NumbersUsedUpBy (k : Record.Keys) (queue : List OutMsg) : Prop :=
  ∃ i, 2 ^ 48 - 1 ≤ (k.heap i).seq + (queue.map fun m => m.body.length + 1).sum

/-- Over TLS, after a handshake with any suite of the library: whatever the transport delivers, in whatever pieces and with
whatever errors, every Read, Write, SendKeyUpdate, ticket and Close returns, unless the numbers of records are used up. Missing:
records of zeros that the AEAD accepts, which only the peer can make (`C80_zeros_fails`). -/
theorem C80_stream_partial (W : World) (hP : W.E.P.Sized) (st : Connected) (suite : Nat) (hs : suiteParams suite = some st.cp)
    (nz : ∀ key nonce c h p, (W.A st.cp key).opening nonce c h = some p → ∃ b ∈ p, b ≠ 0)
    (x : Ctx) (nb : Bool) (sn : Bytes) (o i : Machine.Keys) (ho : 8 ≤ o.2.length) (hi : 8 ≤ i.2.length) (v : Nat)
    (conn : List (Except Err Bytes)) (ks : List Call) :
    (Live.calls W (Live.start W st x nb sn o i v conn) ks).1.length = ks.length ∨
    NumbersUsedUp (Live.calls W (Live.start W st x nb sn o i v conn) ks).2.reader.keys ∨
    NumbersUsedUp (Live.calls W (Live.start W st x nb sn o i v conn) ks).2.out := by
  have hiv : 8 ≤ st.cp.ivLen := by rw [suiteParams_iv hs]; decide
  have h : (Live.start W st x nb sn o i v conn).Good W st.cp := by
    refine ⟨rfl, ⟨?_, rfl, ⟨i.1, ?_⟩, ?_⟩, ?_⟩
    · exact FrameReader.inv_new _
    · simp [Live.start, Record.Keys.rekey]
    · simpa [Live.start, Record.Keys.rekey] using hi
    · refine WriterOk.rekey ⟨rfl, fun h => ?_, fun j hj => ?_⟩ ho
      · simp [Record.Keys.setVersion, Record.Keys.new] at h
      · simp [Record.Keys.setVersion, Record.Keys.new, nullCipher] at hj
  exact (h.calls hP (suiteParams_size hs) hiv nz ks).2

/-- The same over DTLS, for all datagrams and all expiries of the timer. -/
theorem C80_datagrams_partial (W : World) (hP : W.E.P.Sized) (st : Connected) (suite : Nat) (hs : suiteParams suite = some st.cp)
    (nz : ∀ key nonce c h p, (W.A st.cp key).opening nonce c h = some p → ∃ b ∈ p, b ≠ 0)
    (x : Ctx) (nb : Bool) (sn : Bytes) (ho hi o i : Machine.Keys) (hho : 8 ≤ ho.2.length) (hop : 8 ≤ o.2.length) (hip : 8 ≤ i.2.length)
    (conn : List (Except Err Bytes)) (ks : List DCall) :
    (DLive.calls W (DLive.start W st x nb sn ho hi o i conn) ks).1.length = ks.length ∨
    NumbersUsedUp (DLive.calls W (DLive.start W st x nb sn ho hi o i conn) ks).2.reader.keys ∨
    NumbersUsedUpBy (DLive.calls W (DLive.start W st x nb sn ho hi o i conn) ks).2.out.keys
      (DLive.calls W (DLive.start W st x nb sn ho hi o i conn) ks).2.out.queued := by
  have hiv : 8 ≤ st.cp.ivLen := by rw [suiteParams_iv hs]; decide
  have h : (DLive.start W st x nb sn ho hi o i conn).Good W st.cp := by
    refine ⟨rfl, ⟨?_, rfl, ⟨i.1, ?_⟩, ?_⟩, ⟨rfl, ?_⟩⟩
    · exact FrameReader.inv_new _
    · simp [DLive.start, Record.Keys.rekey]
    · simpa [DLive.start, Record.Keys.rekey] using hip
    · refine WriterOk.rekey (WriterOk.rekey ⟨rfl, fun _ => rfl, fun j hj => ?_⟩ hho) hop
      simp [Record.Keys.setVersion, Out.new, Record.Keys.new, nullCipher] at hj
  exact (h.calls hP (suiteParams_size hs) hiv nz ks).2

/-- A world whose AEAD refuses plaintexts of zeros. -/
def strictWorld : World :=
  ⟨Toy.env, fun _ k => { Toy.aead k with opening := fun n c h => ((Toy.aead k).opening n c h).filter fun p => p.any (· != 0) }⟩

/-- Such a world meets the hypotheses, and records are read in it. -/
example (st : Connected) (hs : suiteParams 0x1301 = some st.cp) (x : Ctx) (conn : List (Except Err Bytes)) (ks : List Call) :
    (Live.calls strictWorld (Live.start strictWorld st x true [] ([1], List.replicate 12 0) ([2], List.replicate 12 0) 0x0303 conn) ks).1.length = ks.length ∨
    NumbersUsedUp (Live.calls strictWorld (Live.start strictWorld st x true [] ([1], List.replicate 12 0) ([2], List.replicate 12 0) 0x0303 conn) ks).2.reader.keys ∨
    NumbersUsedUp (Live.calls strictWorld (Live.start strictWorld st x true [] ([1], List.replicate 12 0) ([2], List.replicate 12 0) 0x0303 conn) ks).2.out := by
  refine C80_stream_partial strictWorld Toy.prims_sized st 0x1301 hs ?_ x true [] _ _ (by simp) (by simp) 0x0303 conn ks
  intro key nonce c h p hp
  simp only [strictWorld, Option.filter_eq_some_iff, List.any_eq_true, bne_iff_ne] at hp
  exact hp.2

/-- And over DTLS. -/
example (st : Connected) (hs : suiteParams 0x1301 = some st.cp) (x : Ctx) (conn : List (Except Err Bytes)) (ks : List DCall) :
    let end_ := DLive.calls strictWorld (DLive.start strictWorld st x true [] ([1], List.replicate 12 0) ([2], List.replicate 12 0)
      ([3], List.replicate 12 0) ([4], List.replicate 12 0) conn) ks
    end_.1.length = ks.length ∨ NumbersUsedUp end_.2.reader.keys ∨ NumbersUsedUpBy end_.2.out.keys end_.2.out.queued := by
  refine C80_datagrams_partial strictWorld Toy.prims_sized st 0x1301 hs ?_ x true [] _ _ _ _ (by simp) (by simp) (by simp) conn ks
  intro key nonce c h p hp
  simp only [strictWorld, Option.filter_eq_some_iff, List.any_eq_true, bne_iff_ne] at hp
  exact hp.2

/-- A record of zeros (here: one), protected with the keys of a connection. -/
def zeroRecord (k : Record.Keys) : Bytes :=
  match (k.heap k.cur).aead with
  | some a =>
    match recordHeader k 23 (combineSeq (k.heap k.cur) k.datagram) (1 + a.overhead), computeNonce (k.heap k.cur) (combineSeq (k.heap k.cur) k.datagram) with
    | .ok h, .ok n => h ++ a.sealing n [0] h
    | _, _ => []
  | none => []

/-- The two ends of a TLS connection of the toy world. -/
theorem toy_tls (f : Live → (List (Except Err Bytes) → Live) → Bool)
    (h : Toy.linked (fun c x co ci s y so si => c.cp == s.cp && c.clientAp == s.clientAp && c.serverAp == s.serverAp &&
        f (Live.start Toy.world c x true [97] co ci 0x0303 []) (Live.start Toy.world s y true [] so si 0x0303))
      (clientRun Toy.env Toy.tls Toy.pskClient (Toy.coins 2) (Toy.exchange Toy.tls Toy.pskClient Toy.pskServer 2).1)
      (serverRun Toy.env Toy.tls Toy.pskServer (Toy.exchange Toy.tls Toy.pskClient Toy.pskServer 2).2) = true) :
    ∃ (cl sv : Connected) (co ci so si : Machine.Keys) (x y : Ctx), Established Toy.world cl sv co ci so si ∧
      f (Live.start Toy.world cl x true [97] co ci 0x0303 []) (Live.start Toy.world sv y true [] so si 0x0303) = true := by
  obtain ⟨cl, x, co, ci, sv, y, so, si, ca, sa, hc, hs, h1, h2, h3, h4, h⟩ := Toy.linked_ok h
  simp only [Bool.and_eq_true, beq_iff_eq] at h
  obtain ⟨⟨⟨h5, h6⟩, h7⟩, h8⟩ := h
  exact ⟨cl, sv, co, ci, so, si, x, y, ⟨⟨_, _, _, _, _, _, _, _, _, _, _, hc, hs, h1, h2, h3, h4⟩, h5, h6, h7⟩, h8⟩

/-- A peer can crash the program: the server's Read does not return when the client sends a record of zeros
(record-layer.go:288). RFC 8446, 5.4: such a record is to be answered with unexpected_message. -/
theorem C80_zeros_fails : ∃ (cl sv : Connected) (co ci so si : Machine.Keys) (x y : Ctx), Established Toy.world cl sv co ci so si ∧
    (Live.calls Toy.world (Live.start Toy.world sv y true [] so si 0x0303
      [.ok (zeroRecord (Live.start Toy.world cl x true [97] co ci 0x0303 []).out)]) [.read 0 9 9]).1.length = 0 := by
  obtain ⟨cl, sv, co, ci, so, si, x, y, h, hf⟩ := toy_tls
    (fun c s => (Live.calls Toy.world (s [.ok (zeroRecord c.out)]) [.read 0 9 9]).1.length == 0) (by decide +kernel)
  exact ⟨cl, sv, co, ci, so, si, x, y, h, eq_of_beq hf⟩

/-- The same over DTLS. -/
theorem C80_zeros_datagram_fails : ∃ (cl sv : Connected) (co ci so si : Machine.Keys) (x y : Ctx), Established Toy.world cl sv co ci so si ∧
    (DLive.calls Toy.world ((DLive.start Toy.world sv y true [] ([2], [2]) ([1], [1]) so si []).arrives
      [zeroRecord (DLive.start Toy.world cl x true [97] ([1], [1]) ([2], [2]) co ci []).out.keys]) [.read 0 false 9 9]).1.length = 0 := by
  obtain ⟨cl, sv, co, ci, so, si, x, y, h, hf⟩ := toy_dtls
    (fun c s => (DLive.calls Toy.world (s.arrives [zeroRecord c.out.keys]) [.read 0 false 9 9]).1.length == 0) (by decide +kernel)
  exact ⟨cl, sv, co, ci, so, si, x, y, h, eq_of_beq hf⟩

end Verif.Props

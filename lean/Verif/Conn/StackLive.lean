import Verif.Conn.StackRun
import Verif.Machine.Fresh
import Verif.Machine.ClientView
import Verif.Machine.ServerView
import Verif.Machine.LinkLemmas

/-
The connection after a handshake of two compatible ends.
-/

namespace Verif.Conn

open Verif Verif.Crypto Verif.Messages Verif.Negotiation Verif.Handshake Verif.Machine Verif.Spec Verif.Record

variable {E : Env} {A : Bytes → Aead} {ov : Nat} {now : Int → Prop} {ccfg scfg : Config} {N : Net} {n : Nat} {X : Bytes}

/-- A client whose handshake is complete writes more. -/
theorem Sync.more (h : Sync E A now ccfg scfg X N n) (hf : Finished N.client) (Y : Bytes) :
    Sync E A now ccfg scfg (X ++ Y) (N.clientWrote Y) n := by
  cases h with
  | early hclient =>
    rcases hf with ⟨cc, hf⟩ | ⟨cc, hf⟩
    · rw [hclient.party] at hf; cases hf
    · rw [hclient.party] at hf; cases hf
  | @joint es fs c I T x' s J U y' _ hj hclient hserver toServer toClient late steps version =>
    refine .joint (N := N.clientWrote Y) hj (hclient.sentOff _) hserver ?_ toClient (fun _ => ?_) steps version
    · obtain ⟨v, b, bT, wT, rest, h1, h2, h3, h4, h5, h6⟩ := toServer
      refine ⟨v, b, bT, wT, rest, h1, h2, h3, h4, h5, ?_⟩
      show N.server.reader.held ++ (N.client.wire ++ Y) = _
      rw [← List.append_assoc, h6, List.append_assoc]
    · rcases hf with ⟨cc, hf⟩ | ⟨cc, hf⟩
      · rw [hclient.party] at hf; cases hf; exact ⟨cc, rfl⟩
      · rw [hclient.party] at hf; cases hf

/-- It stays as it is. -/
theorem run_client (hf : Finished N.client) (ms : List Move) :
    (N.run E A ms).client.party = N.client.party ∧ (N.run E A ms).client.out = N.client.out := by
  induction ms generalizing N with
  | nil => exact ⟨rfl, rfl⟩
  | cons m ms ih =>
    have h1 : (N.move E A m).client.party = N.client.party ∧ (N.move E A m).client.out = N.client.out := by
      cases m with
      | client k => rw [Net.move, turn_connected hf]; exact ⟨rfl, rfl⟩
      | _ => exact ⟨rfl, rfl⟩
    have h2 : Finished (N.move E A m).client := by
      rw [Finished, h1.1]; exact hf
    have h3 := ih h2
    exact ⟨h3.1.trans h1.1, h3.2.trans h1.2⟩

/-- Except for what arrives. -/
theorem run_reader (hf : Finished N.client) (ms : List Move) :
    ∃ cs : List Bytes, (N.run E A ms).client.reader = { N.client.reader with conn := N.client.reader.conn ++ cs.map .ok } ∧
      (N.run E A ms).client.hs = N.client.hs := by
  induction ms generalizing N with
  | nil => exact ⟨[], by simp [Net.run], rfl⟩
  | cons m ms ih =>
    have h1 : ∃ cs : List Bytes, (N.move E A m).client.reader = { N.client.reader with conn := N.client.reader.conn ++ cs.map .ok } ∧
        (N.move E A m).client.hs = N.client.hs := by
      cases m with
      | client k => rw [Net.move, turn_connected hf]; exact ⟨[], by simp, rfl⟩
      | server k => exact ⟨[], by simp [Net.move], rfl⟩
      | toServer n => exact ⟨[], by simp [Net.move], rfl⟩
      | toClient n => exact ⟨_, rfl, rfl⟩
      | flush => exact ⟨_, rfl, rfl⟩
    have h2 : Finished (N.move E A m).client := by
      have := (run_client (E := E) (A := A) hf [m]).1
      rw [Finished]
      simp only [Net.run] at this
      rw [this]; exact hf
    obtain ⟨cs, g1, g2⟩ := h1
    obtain ⟨ds, g3, g4⟩ := ih h2
    refine ⟨cs ++ ds, ?_, g4.trans g2⟩
    show ((N.move E A m).run E A ms).client.reader = _
    rw [g3, g1]
    simp

theorem connData_pieces (l : List (Except Err Bytes)) (pieces : List Bytes) :
    connData (l ++ pieces.map .ok) = connData l ++ pieces.flatten := by
  induction l with
  | nil =>
    induction pieces with
    | nil => rfl
    | cons p ps ih => simpa [connData] using ih
  | cons a l ih => cases a <;> simp [connData, ih]

/-- So what is known of it later was so before. -/
theorem run_ready (hf : Finished N.client) {ms : List Move} (h : (N.run E A ms).client.reader.Ready) (hh : (N.run E A ms).client.reader.held = []) :
    N.client.reader.Ready ∧ N.client.reader.held = [] ∧ N.client.reader.keys = (N.run E A ms).client.reader.keys := by
  obtain ⟨cs, h1, _⟩ := run_reader (E := E) (A := A) hf ms
  rw [h1] at h hh ⊢
  obtain ⟨a, b, c, d⟩ := h
  refine ⟨⟨a, b, c, fun x hx => d x (List.mem_append_left _ hx)⟩, ?_, rfl⟩
  simp only [Reader.held, List.append_eq_nil_iff] at hh ⊢
  refine ⟨hh.1, ?_⟩
  rw [connData_pieces] at hh
  exact (List.append_eq_nil_iff.1 hh.2).1

theorem sendAll_keeps {l : List Sym} {k k' : Record.Keys} {b : Bytes} (h : sendAll k (items A l) = .ok (b, k')) :
    k'.direction = k.direction ∧ k'.datagram = k.datagram := by
  induction l generalizing k b with
  | nil =>
    simp only [items, sendAll, Res.ok.injEq, Prod.mk.injEq] at h
    rw [h.2]; exact ⟨rfl, rfl⟩
  | cons a l ih =>
    cases a with
    | msg m =>
      simp only [items, sendAll, Res.bind_eq_ok, Res.ok.injEq, Prod.mk.injEq] at h
      obtain ⟨⟨rec, k1⟩, h1, ⟨b2, k2⟩, h2, rfl, rfl⟩ := h
      obtain ⟨g1, g2, _⟩ := writeRecord_keys h1
      have := ih h2
      exact ⟨this.1.trans g1, this.2.trans g2⟩
    | key n kk => exact ih (k := k.rekey n (A kk.1) kk.2) h
    | reset n => exact ih (k := k) h

/-- The keys of a writer that has just installed them. -/
structure JustInstalled (A : Bytes → Aead) (w : Record.Keys) (k : Machine.Keys) : Prop where
  dir : w.direction = .write
  tls : w.datagram = false
  aead : (w.heap w.cur).aead = some (A k.1)
  iv : (w.heap w.cur).iv = k.2
  seq : (w.heap w.cur).seq = 0

theorem Chan.justInstalled {I T pre : List Sym} {X u : Bytes} {w : Record.Keys} {r : Reader} (h : Chan A I T X w u r) {n : Nat} {k : Machine.Keys}
    (hI : I = pre ++ [.key n k]) : JustInstalled A w k := by
  obtain ⟨v, b, bT, wT, rest, h1, _⟩ := h
  rw [hI, items_append] at h1
  obtain ⟨b1, k1, b2, h7, h8, _⟩ := sendAll_split h1
  obtain ⟨g1, g2⟩ := sendAll_keeps h7
  simp only [items, sendAll, Res.ok.injEq, Prod.mk.injEq] at h8
  rw [← h8.2]
  exact ⟨g1, g2, by simp [Record.Keys.rekey], by simp [Record.Keys.rekey], by simp [Record.Keys.rekey]⟩

/-- Everything known of two ends whose handshakes are complete: the client has written `X` since. -/
structure Opened (E : Env) (A : Bytes → Aead) (N : Net) (X : Bytes) (cc sc : Connected) : Prop where
  client : N.client.party = .client (.connected cc)
  server : N.server.party = .server (.connected sc)
  same : SameConnection cc sc
  size : 0 < cc.cp.hash.size
  ivLen : 8 ≤ cc.cp.ivLen
  clientKeys : JustInstalled A N.client.out (keysOf E.P cc.cp cc.clientAp)
  serverKeys : JustInstalled A N.server.out (keysOf E.P cc.cp cc.serverAp)
  toServer : Paired N.client.out N.server.reader.keys
  toClient : Paired N.server.out N.client.reader.keys
  onTheWay : N.server.reader.held ++ N.client.wire = X
  nothing : N.client.reader.held = [] ∧ N.server.wire = []
  ready : N.client.reader.Ready ∧ N.server.reader.Ready
  layers : N.client.hs.frame.remainder = [] ∧ N.server.hs.frame.remainder = []

theorem Sync.opened (hP : E.P.Sized) (C : Compatible E now ccfg scfg) (h : Sync E A now ccfg scfg X N n) (hb : Both N) :
    ∃ cc sc, Opened E A N X cc sc := by
  obtain ⟨cc, sc, I, J, es, fs, c0, ca, sa, x', y', h1, h2, h3, h4, h5, h6, h7, h8, h9, h10, h11⟩ := h.both hP C hb
  obtain ⟨v⟩ := clientView hP h8
  have hz : 0 < cc.cp.hash.size := by rw [v.cp]; exact suiteParams_size v.suite
  have hiv : 8 ≤ cc.cp.ivLen := by
    have := v.suite
    rw [← v.cp] at this
    simp only [suiteParams] at this
    split at this
    · rw [← Option.some.inj this]; decide
    · split at this
      · rw [← Option.some.inj this]; decide
      · cases this
  obtain ⟨kc, hk, pre, m, ho⟩ := client_fresh (d := false) h8
  obtain ⟨ks, hk', pre', m', ho'⟩ := server_fresh (d := false) h9
  rw [h3.roles.1] at hk
  rw [h3.roles.2] at hk'
  simp only [if_true] at hk
  simp only [Bool.false_eq_true, if_false] at hk'
  rw [makeTrafficKeys_eq E.P hP _ hz, Res.ok.injEq] at hk
  rw [← h3.suite, ← h3.serverAp, makeTrafficKeys_eq E.P hP _ hz, Res.ok.injEq] at hk'
  rw [← h10] at ho
  rw [← h11] at ho'
  obtain ⟨g1, g2, _⟩ := h5.done (List.prefix_refl _)
  refine ⟨cc, sc, h1, h2, h3, hz, hiv, ?_, ?_, h4.paired, h5.paired, h4.rest (List.prefix_refl _), ⟨g1, g2⟩, ⟨h5.ready, h4.ready⟩, h6, h7⟩
  · have := h4.justInstalled ho
    rw [← hk] at this
    exact this
  · have := h5.justInstalled ho'
    rw [← hk'] at this
    exact this

/-! ### The connection -/

/-- One connection for all suites. -/
def oneAead (E : Env) (A : Bytes → Aead) : World := ⟨E, fun _ => A⟩

variable {e : End} {st : Connected} {cp : Params} {b nb : Bool} {name : Bytes} {conn : List (Except Err Bytes)}

theorem live_writes (h1 : st.cp = cp) (h2 : st.isClient = b) (h : JustInstalled A e.out (keysOf E.P cp (dirSecret b st))) :
    Writes (oneAead E A) cp b (dirSecret b st) (e.live st nb name conn) :=
  ⟨h1, h2, h.dir, h.tls, bounded_nil, _, .nil _, fun _ => ⟨rfl, h.aead, h.iv, h.seq⟩⟩

theorem live_canWrite (hP : E.P.Sized) (hA : ∀ key, (A key).Lawful) (hz : 0 < cp.hash.size) (hiv : 8 ≤ cp.ivLen) {s : Bytes}
    (h : JustInstalled A e.out (keysOf E.P cp s)) :
    CanWrite (e.live st nb name conn) ((oneAead E A).A cp (keysOf E.P cp s).1) := by
  refine ⟨rfl, h.dir, h.tls, h.aead, hA _, ?_, ?_⟩
  · show 8 ≤ (e.out.heap e.out.cur).iv.length
    rw [h.iv]
    simp only [keysOf, trafficKeys, expandLabel]
    rw [expand_length _ hP _ hz]
    exact hiv
  · show (e.out.heap e.out.cur).seq < _
    rw [h.seq]
    decide

theorem live_frames (hr : e.reader.Ready) (pieces : List Bytes) :
    (e.live st nb name (pieces.map .ok)).reader.frames = frameEvents (recordFraming false) (e.reader.held ++ pieces.flatten) := by
  have := FrameReader.future_pending (recordFraming_pos false) (f := e.reader.frame) (by rw [← hr.tls]; exact hr.inv)
    (connData (e.reader.conn ++ pieces.map .ok))
  simp only [End.live, Reader.frames, hr.tls]
  rw [this, connData_pieces, Reader.held, List.append_assoc]

theorem live_receives (hP : E.P.Sized) (hA : ∀ key, (A key).Lawful) (hz : 0 < cp.hash.size) (hiv : 8 ≤ cp.ivLen) {w : Record.Keys}
    {L : List Item} {bytes : Bytes} {k : Record.Keys} {pieces : List Bytes} {key : Machine.Keys} {s : Bytes}
    (h1 : st.cp = cp) (h2 : st.isClient = b) (hrem : e.hs.frame.remainder = []) (hr : e.reader.Ready)
    (hp : Paired w e.reader.keys) (hw : JustInstalled A w key) (ho : JustInstalled A e.out (keysOf E.P cp s))
    (hL : ∃ t, Wrote (oneAead E A) cp (!b) L (dirSecret (!b) st) t) (hord : Ordinary (!b) L)
    (hs : sendAll w L = .ok (bytes, k)) (hb : e.reader.held ++ pieces.flatten = bytes) :
    Receives (oneAead E A) cp b L (e.live st nb name (pieces.map .ok)) := by
  refine ⟨h1, h2, hrem, hr.inv, hr.cached, ?_, hL, hord, ⟨w, k, bytes, hp, hw.tls, by rw [hw.aead]; rfl, hs, ?_⟩,
    ⟨_, live_canWrite hP hA hz hiv ho⟩, ho.seq⟩
  · intro er he
    simp only [End.live, List.mem_append, List.mem_map] at he
    rcases he with he | ⟨_, _, he⟩
    · obtain ⟨_, h, _⟩ := hr.whole _ he
      cases h
    · cases he
  · rw [live_frames hr, hb]

theorem live_reads {L : List Item} {w : Record.Keys} (h1 : st.cp = cp) (h2 : st.isClient = b)
    (hrem : e.hs.frame.remainder = []) (hr : e.reader.Ready) (hp : Paired w e.reader.keys)
    (hw : JustInstalled A w (keysOf E.P cp (dirSecret (!b) st))) (hL : ∃ t, Wrote (oneAead E A) cp (!b) L (dirSecret (!b) st) t) :
    Conn.Reads (oneAead E A) cp b (dirSecret (!b) st) L (e.live st nb name conn).reader.frames [] (e.live st nb name conn) := by
  refine ⟨[], L, h1, h2, hrem, hr.inv, hr.cached, hr.tls, fun _ h => h, rfl, .nil _, hL, ?_, ?_, ?_, rfl⟩
  · exact hp.aead.symm.trans hw.aead
  · exact hp.iv.symm.trans hw.iv
  · exact (hp.seq hw.tls).symm.trans hw.seq

end Verif.Conn

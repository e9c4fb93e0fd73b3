import Verif.Conn.StackLive
import Verif.Props.Stack
import Verif.Props.Stream

/-
C69: application data gets through, from the first byte of a handshake on.
-/

namespace Verif.Toy

open Verif Verif.Handshake Verif.Machine Verif.Spec Verif.Conn

def clientOpen (N : Net) (f : Connected → Bool) : Bool :=
  match N.client.party with
  | .client (.connected c) => f c
  | _ => false

theorem clientOpen_ok {N : Net} {f : Connected → Bool} (h : clientOpen N f = true) : ∃ c, N.client.party = .client (.connected c) ∧ f c = true := by
  unfold clientOpen at h
  split at h
  · exact ⟨_, ‹_›, h⟩
  · cases h

def serverOpen (N : Net) (f : Connected → Bool) : Bool :=
  match N.server.party with
  | .server (.connected c) => f c
  | _ => false

theorem serverOpen_ok {N : Net} {f : Connected → Bool} (h : serverOpen N f = true) : ∃ c, N.server.party = .server (.connected c) ∧ f c = true := by
  unfold serverOpen at h
  split at h
  · exact ⟨_, ‹_›, h⟩
  · cases h

/-- Both ends have a certificate. -/
def mutualCfg : Config := { serverCfg with requireClientAuth := true }

/-- The client's handshake has just been completed, the server's has not. -/
def half : Net := (Net.new clientCfg mutualCfg).run env aead (List.replicate 8 round).flatten

/-- The client writes, updates its keys, and writes again. -/
def clientCalls (c : Connected) : List (Call × Reply) × Live :=
  Live.calls (oneAead env aead) (half.client.live c true [97] []) [.write [1, 2, 3], .update true, .write [4]]

/-- Some of it arrives while the server is still in its handshake. -/
def whole (c : Connected) : Net :=
  (half.clientWrote (clientCalls c).2.wire).run env aead ([.toServer 7] ++ (List.replicate 3 [Move.toServer 70, .server (coins 3)]).flatten ++ [.server (coins 3), .server (coins 3)])

/-- The server writes, sends a ticket, updates its keys and writes again. -/
def serverCalls (c s : Connected) : List (Call × Reply) × Live :=
  Live.calls (oneAead env aead) ((whole c).server.live s true [] []) [.write [5, 6], .ticket 5 100 10 7 [1, 2] [8, 9], .update true, .write [7]]

end Verif.Toy

namespace Verif.Props

open Verif Verif.Crypto Verif.Messages Verif.Negotiation Verif.Handshake Verif.Machine Verif.Spec Verif.Conn Verif.Record

/-- What is known when the client has completed its handshake, has written `Y`, and later the server is connected too. -/
theorem later {E : Env} (hP : E.P.Sized) {now : Int → Prop} {ccfg scfg : Config} (C : Compatible E now ccfg scfg) {A : Bytes → Aead} {ov : Nat}
    (hA : ∀ key, (A key).Lawful ∧ (A key).overhead ≤ ov) {ms ms' : List Move} (hm : FairCoins now ms) (hm' : FairCoins now ms') {N N' : Net}
    (hN : N = (Net.new ccfg scfg).run E A ms) {cc : Connected} (hcc : N.client.party = .client (.connected cc)) {Y : Bytes}
    (hN' : N' = (N.clientWrote Y).run E A ms') (hs : AllSmall ov N') {sc : Connected} (hsc : N'.server.party = .server (.connected sc)) :
    Opened E A N' Y cc sc ∧ N'.client.out = N.client.out := by
  have hs1 : AllSmall ov N := AllSmall.before (N := N.clientWrote Y) (ms := ms') (hN' ▸ hs)
  obtain ⟨n, h, _⟩ := Sync.run hP C hA ms (sync_new (E := E) (A := A) (now := now)) hm (hN ▸ hs1)
  rw [← hN] at h
  have hf : Finished N.client := .inl ⟨cc, hcc⟩
  obtain ⟨n', h', _⟩ := (h.more hf Y).run hP C hA ms' hm' (hN' ▸ hs)
  have hr := run_client (E := E) (A := A) (N := N.clientWrote Y) hf ms'
  rw [← hN'] at h' hr
  have hp : N'.client.party = .client (.connected cc) := hr.1.trans hcc
  obtain ⟨cc', sc', o⟩ := h'.opened hP C ⟨.inl ⟨cc, hp⟩, .inr ⟨sc, hsc⟩⟩
  have e1 : cc' = cc := by have := o.client.symm.trans hp; cases this; rfl
  have e2 : sc' = sc := by have := o.server.symm.trans hsc; cases this; rfl
  rw [e1, e2, List.nil_append] at o
  exact ⟨o, hr.2⟩

/-- The server gets everything the client writes, even what the client writes before the server has completed its handshake:
the client's Handshake returns, it makes any calls and sends no alert; whatever the order of turns and arrivals, when the server's
Handshake has returned and the rest of the bytes is delivered in any pieces, the server's Reads return exactly what the client's
Writes reported. -/
theorem C69_to_server_partial {E : Env} (hP : E.P.Sized) {now : Int → Prop} {ccfg scfg : Config} (C : Compatible E now ccfg scfg)
    {A : Bytes → Aead} {ov : Nat} (hA : ∀ key, (A key).Lawful ∧ (A key).overhead ≤ ov) (hov : ov ≤ 255) {ms ms' : List Move}
    (hm : FairCoins now ms) (hm' : FairCoins now ms') {N N' : Net} (hN : N = (Net.new ccfg scfg).run E A ms)
    {cc sc : Connected} (hcc : N.client.party = .client (.connected cc)) {nb nb' : Bool} {name name' : Bytes} {conn : List (Except Err Bytes)}
    {ks ks' : List Call} {L : List (Call × Reply) × Live} (hL : L = Live.calls (oneAead E A) (N.client.live cc nb name conn) ks)
    (hret : L.1.length = ks.length) (hord : Ordinary true L.2.log) (hN' : N' = (N.clientWrote L.2.wire).run E A ms') (hs : AllSmall ov N')
    (hsc : N'.server.party = .server (.connected sc)) {pieces : List Bytes} (hwire : pieces.flatten = N'.client.wire)
    (hreads : ∀ k ∈ ks', ∃ now fuel n, k = .read now fuel n ∧ 0 < fuel ∧ 0 < n)
    (hmany : N'.server.reader.conn.length + pieces.length + L.2.log.length + (written L.1).length ≤ ks'.length) :
    SameConnection cc sc ∧
      gotten (Live.calls (oneAead E A) (N'.server.live sc nb' name' (pieces.map .ok)) ks').1 = written L.1 := by
  obtain ⟨o, ho⟩ := later hP C hA hm hm' hN hcc hN' hs hsc
  have hl : (oneAead E A).Lawful := fun _ key => (hA key).1
  have hck : JustInstalled A N.client.out (keysOf E.P cc.cp (dirSecret true cc)) := ho ▸ o.clientKeys
  obtain ⟨⟨hLg, -⟩, hdata⟩ := calls_logged hl hP o.size ks
    (live_writes (b := true) (nb := nb) (name := name) (conn := conn) rfl o.same.roles.1 hck)
  rw [← hL] at hLg hdata
  have hdata := (hdata hret).2
  obtain ⟨k, hw⟩ := calls_onWire (oneAead E A) (N.client.live cc nb name conn) ks rfl rfl
  rw [← hL] at hw
  have hsec : dirSecret true cc = dirSecret (!false) sc := o.same.clientAp
  rw [hsec] at hLg
  have hw' : sendAll N'.client.out L.2.log = .ok (L.2.wire, k) := by rw [ho]; exact hw
  have hr := live_receives (b := false) (nb := nb') (name := name') (pieces := pieces) hP (fun key => (hA key).1) o.size o.ivLen
    o.same.suite.symm o.same.roles.2 o.layers.2 o.ready.2 o.toServer o.clientKeys o.serverKeys hLg hord hw'
    (by rw [hwire]; exact o.onTheWay)
  have := (calls_receives hl hP o.size o.ivLen (fun key => Nat.le_trans (hA key).2 hov) ks' hreads hr).2
  rw [hdata] at this
  simp only [End.live, List.length_append, List.length_map, appData, List.nil_append] at this ⊢
  exact ⟨o.same, this (by omega)⟩

/-- Application data that arrives behind the client's last handshake message does no harm: the client writes anything as soon as
its own handshake is complete, and neither end fails; and after thirteen more rounds the server's handshake is complete too. -/
theorem C69_server_completes_partial {E : Env} (hP : E.P.Sized) {now : Int → Prop} {ccfg scfg : Config} (C : Compatible E now ccfg scfg)
    {A : Bytes → Aead} {ov : Nat} (hA : ∀ key, (A key).Lawful ∧ (A key).overhead ≤ ov) {ms : List Move} (hm : FairCoins now ms) {N : Net}
    (hN : N = (Net.new ccfg scfg).run E A ms) {cc : Connected} (hcc : N.client.party = .client (.connected cc)) (b : Bytes)
    (rounds : List (List Move)) (hr : ∀ r ∈ rounds, Round r) (hm' : FairCoins now rounds.flatten)
    (hs : AllSmall ov ((N.clientWrote b).run E A rounds.flatten)) :
    ((N.clientWrote b).run E A rounds.flatten).server.outcome = .ok () ∧
      (13 ≤ rounds.length → ∃ sc, ((N.clientWrote b).run E A rounds.flatten).server.party = .server (.connected sc) ∧ SameConnection cc sc) := by
  have hs1 : AllSmall ov N := AllSmall.before (N := N.clientWrote b) (ms := rounds.flatten) hs
  obtain ⟨n, h, _⟩ := Sync.run hP C hA ms (sync_new (E := E) (A := A) (now := now)) hm (hN ▸ hs1)
  rw [← hN] at h
  have hf : Finished N.client := .inl ⟨cc, hcc⟩
  obtain ⟨n', h', h1⟩ := (h.more hf b).rounds hP C hA rounds hr hm' hs
  refine ⟨h'.outcome.2, fun hn => ?_⟩
  rcases h1 with h1 | h1
  · have := h'.bound hP C
    omega
  · obtain ⟨cc', sc, o⟩ := h'.opened hP C h1
    have hp := (run_client (E := E) (A := A) (N := N.clientWrote b) hf rounds.flatten).1.trans hcc
    have : cc' = cc := by have := o.client.symm.trans hp; cases this; rfl
    exact ⟨sc, o.server, this ▸ o.same⟩

/-- The other direction. The client may have written anything (`b`) since its Handshake returned; it gets everything the server
writes once its own Handshake has returned. -/
theorem C69_to_client_partial {E : Env} (hP : E.P.Sized) {now : Int → Prop} {ccfg scfg : Config} (C : Compatible E now ccfg scfg)
    {A : Bytes → Aead} {ov : Nat} (hA : ∀ key, (A key).Lawful ∧ (A key).overhead ≤ ov) (hov : ov ≤ 255) {ms ms' : List Move}
    (hm : FairCoins now ms) (hm' : FairCoins now ms') {N N' : Net} (hN : N = (Net.new ccfg scfg).run E A ms)
    {cc sc : Connected} (hcc : N.client.party = .client (.connected cc)) {b : Bytes} (hN' : N' = (N.clientWrote b).run E A ms')
    (hs : AllSmall ov N') (hsc : N'.server.party = .server (.connected sc)) {nb nb' : Bool} {name name' : Bytes}
    {conn : List (Except Err Bytes)} {ks ks' : List Call} {L : List (Call × Reply) × Live}
    (hL : L = Live.calls (oneAead E A) (N'.server.live sc nb name conn) ks) (hret : L.1.length = ks.length) (hord : Ordinary false L.2.log)
    {pieces : List Bytes} (hwire : pieces.flatten = L.2.wire) (hreads : ∀ k ∈ ks', ∃ now fuel n, k = .read now fuel n ∧ 0 < fuel ∧ 0 < n)
    (hmany : N.client.reader.conn.length + pieces.length + L.2.log.length + (written L.1).length ≤ ks'.length) :
    SameConnection cc sc ∧
      gotten (Live.calls (oneAead E A) (N.client.live cc nb' name' (pieces.map .ok)) ks').1 = written L.1 := by
  obtain ⟨o, ho⟩ := later hP C hA hm hm' hN hcc hN' hs hsc
  have hl : (oneAead E A).Lawful := fun _ key => (hA key).1
  have hf : Finished N.client := .inl ⟨cc, hcc⟩
  have hready := o.ready.1
  have hheld := o.nothing.1
  have hpair := o.toClient
  have hlay := o.layers.1
  rw [hN'] at hready hheld
  obtain ⟨g1, g2, g3⟩ := run_ready (E := E) (A := A) (N := N.clientWrote b) hf hready hheld
  obtain ⟨_, _, g4⟩ := run_reader (E := E) (A := A) (N := N.clientWrote b) hf ms'
  rw [← hN'] at g3 g4
  rw [← g3] at hpair
  rw [g4] at hlay
  have hsk : JustInstalled A N'.server.out (keysOf E.P cc.cp (dirSecret false sc)) := by
    have := o.serverKeys
    rw [o.same.serverAp] at this
    exact this
  obtain ⟨⟨hLg, -⟩, hdata⟩ := calls_logged hl hP o.size ks
    (live_writes (b := false) (nb := nb) (name := name) (conn := conn) o.same.suite.symm o.same.roles.2 hsk)
  rw [← hL] at hLg hdata
  have hdata := (hdata hret).2
  obtain ⟨k, hw⟩ := calls_onWire (oneAead E A) (N'.server.live sc nb name conn) ks rfl rfl
  rw [← hL] at hw
  have hsec : dirSecret false sc = dirSecret (!true) cc := o.same.serverAp.symm
  rw [hsec] at hLg
  have hck : JustInstalled A N.client.out (keysOf E.P cc.cp cc.clientAp) := ho ▸ o.clientKeys
  have hr := live_receives (e := N.client) (b := true) (nb := nb') (name := name') (pieces := pieces) hP (fun key => (hA key).1) o.size o.ivLen
    rfl o.same.roles.1 hlay g1 hpair o.serverKeys hck hLg hord hw
    (by rw [hwire]; exact (congrArg (· ++ L.2.wire) g2).trans (List.nil_append _))
  have := (calls_receives hl hP o.size o.ivLen (fun key => Nat.le_trans (hA key).2 hov) ks' hreads hr).2
  rw [hdata] at this
  simp only [End.live, List.length_append, List.length_map, appData, List.nil_append] at this ⊢
  exact ⟨o.same, this (by omega)⟩

/-- And if, once the server's Handshake has returned, the transport delivers anything at all except for forgeries, and the server
makes any calls: the bytes its Reads return, until one reports end of file, are the first of those the client wrote. -/
theorem C69_prefix_to_server_partial {E : Env} (hP : E.P.Sized) {now : Int → Prop} {ccfg scfg : Config} (C : Compatible E now ccfg scfg)
    {A : Bytes → Aead} {ov : Nat} (hA : ∀ key, (A key).Lawful ∧ (A key).overhead ≤ ov) {ms ms' : List Move}
    (hm : FairCoins now ms) (hm' : FairCoins now ms') {N N' : Net} (hN : N = (Net.new ccfg scfg).run E A ms)
    {cc sc : Connected} (hcc : N.client.party = .client (.connected cc)) {nb nb' : Bool} {name name' : Bytes}
    {conn conn' : List (Except Err Bytes)} {ks ks' : List Call} {L : List (Call × Reply) × Live}
    (hL : L = Live.calls (oneAead E A) (N.client.live cc nb name conn) ks)
    (hret : L.1.length = ks.length) (hN' : N' = (N.clientWrote L.2.wire).run E A ms') (hs : AllSmall ov N')
    (hsc : N'.server.party = .server (.connected sc))
    (hF : NoForgery (oneAead E A) cc.cp true cc.clientAp L.2.log (N'.server.live sc nb' name' conn').reader.frames) :
    gotten (Live.calls (oneAead E A) (N'.server.live sc nb' name' conn') ks').1 <+: written L.1 := by
  obtain ⟨o, ho⟩ := later hP C hA hm hm' hN hcc hN' hs hsc
  have hl : (oneAead E A).Lawful := fun _ key => (hA key).1
  have hck : JustInstalled A N.client.out (keysOf E.P cc.cp (dirSecret true cc)) := ho ▸ o.clientKeys
  obtain ⟨⟨hLg, hb⟩, hdata⟩ := calls_logged hl hP o.size ks
    (live_writes (b := true) (nb := nb) (name := name) (conn := conn) rfl o.same.roles.1 hck)
  rw [← hL] at hLg hb hdata
  have hdata := (hdata hret).2
  have hsec : dirSecret true cc = dirSecret (!false) sc := o.same.clientAp
  rw [hsec] at hLg
  have hck' : JustInstalled A N'.client.out (keysOf E.P cc.cp (dirSecret (!false) sc)) := by rw [ho, ← hsec]; exact hck
  have hr := live_reads (b := false) (nb := nb') (name := name') (conn := conn') o.same.suite.symm o.same.roles.2 o.layers.2 o.ready.2
    o.toServer hck' hLg
  have := calls_reads hP o.size hb (by rw [← hsec]; exact hF) ks' hr
  rw [hdata] at this
  simpa [End.live, appData] using this

/-- The same for the other direction. -/
theorem C69_prefix_to_client_partial {E : Env} (hP : E.P.Sized) {now : Int → Prop} {ccfg scfg : Config} (C : Compatible E now ccfg scfg)
    {A : Bytes → Aead} {ov : Nat} (hA : ∀ key, (A key).Lawful ∧ (A key).overhead ≤ ov) {ms ms' : List Move}
    (hm : FairCoins now ms) (hm' : FairCoins now ms') {N N' : Net} (hN : N = (Net.new ccfg scfg).run E A ms)
    {cc sc : Connected} (hcc : N.client.party = .client (.connected cc)) {b : Bytes} (hN' : N' = (N.clientWrote b).run E A ms')
    (hs : AllSmall ov N') (hsc : N'.server.party = .server (.connected sc)) {nb nb' : Bool} {name name' : Bytes}
    {conn conn' : List (Except Err Bytes)} {ks ks' : List Call} {L : List (Call × Reply) × Live}
    (hL : L = Live.calls (oneAead E A) (N'.server.live sc nb name conn) ks) (hret : L.1.length = ks.length)
    (hF : NoForgery (oneAead E A) cc.cp false cc.serverAp L.2.log (N.client.live cc nb' name' conn').reader.frames) :
    gotten (Live.calls (oneAead E A) (N.client.live cc nb' name' conn') ks').1 <+: written L.1 := by
  obtain ⟨o, ho⟩ := later hP C hA hm hm' hN hcc hN' hs hsc
  have hl : (oneAead E A).Lawful := fun _ key => (hA key).1
  have hf : Finished N.client := .inl ⟨cc, hcc⟩
  have hready := o.ready.1
  have hheld := o.nothing.1
  have hpair := o.toClient
  have hlay := o.layers.1
  rw [hN'] at hready hheld
  obtain ⟨g1, g2, g3⟩ := run_ready (E := E) (A := A) (N := N.clientWrote b) hf hready hheld
  obtain ⟨_, _, g4⟩ := run_reader (E := E) (A := A) (N := N.clientWrote b) hf ms'
  rw [← hN'] at g3 g4
  rw [← g3] at hpair
  rw [g4] at hlay
  have hsk : JustInstalled A N'.server.out (keysOf E.P cc.cp (dirSecret false sc)) := by
    have := o.serverKeys
    rw [o.same.serverAp] at this
    exact this
  obtain ⟨⟨hLg, hb⟩, hdata⟩ := calls_logged hl hP o.size ks
    (live_writes (b := false) (nb := nb) (name := name) (conn := conn) o.same.suite.symm o.same.roles.2 hsk)
  rw [← hL] at hLg hb hdata
  have hdata := (hdata hret).2
  have hsec : dirSecret false sc = dirSecret (!true) cc := o.same.serverAp.symm
  rw [hsec] at hLg
  have hr := live_reads (e := N.client) (b := true) (nb := nb') (name := name') (conn := conn') rfl o.same.roles.1 hlay g1 hpair
    o.serverKeys hLg
  have := calls_reads (b := true) hP o.size hb hF ks' hr
  rw [hdata] at this
  simpa [End.live, appData] using this

/-! ### A connection of the toy world -/

theorem half_fair : FairCoins Toy.noon (List.replicate 8 Toy.round).flatten ∧
    FairCoins Toy.noon ([.toServer 7] ++ (List.replicate 3 [Move.toServer 70, .server (Toy.coins 3)]).flatten ++
      [.server (Toy.coins 3), .server (Toy.coins 3)]) := by
  refine ⟨(Toy.round_fair 8).1, Toy.fair _ fun m hm k hk => ?_⟩
  simp only [List.replicate, List.flatten_cons, List.flatten_nil, List.cons_append, List.nil_append, List.mem_cons, List.not_mem_nil, or_false] at hm
  rcases hk with rfl | rfl <;> first | exact Or.inl (by simpa using hm) | exact Or.inr (by simpa using hm)

/-- The client writes when the server is still in its handshake; some of what it writes is in the server's buffer when the
server's handshake is complete, and the rest arrives in three pieces, one of them empty. -/
example : Compatible Toy.env Toy.noon Toy.clientCfg Toy.mutualCfg ∧ ∃ (cc sc : Connected) (pieces : List Bytes), Toy.half.client.party = .client (.connected cc) ∧
    (∀ s, Toy.half.server.party ≠ .server (.connected s)) ∧ (Toy.clientCalls cc).1.length = 3 ∧ Ordinary true (Toy.clientCalls cc).2.log ∧
    AllSmall 28 (Toy.whole cc) ∧ (Toy.whole cc).server.party = .server (.connected sc) ∧ pieces.flatten = (Toy.whole cc).client.wire ∧
    pieces.length = 3 ∧ (Toy.whole cc).server.reader.held.length = 23 ∧ written (Toy.clientCalls cc).1 = [1, 2, 3, 4] := by
  refine ⟨Toy.compatible, ?_⟩
  obtain ⟨cc, h1, h⟩ := Toy.clientOpen_ok (N := Toy.half) (f := fun c => !Toy.serverOpen Toy.half (fun _ => true) && ((Toy.clientCalls c).1.length == 3 &&
    (Toy.ordinary true (Toy.clientCalls c).2.log && (Toy.smallB (Toy.whole c) && (written (Toy.clientCalls c).1 == [1, 2, 3, 4] &&
      Toy.serverOpen (Toy.whole c) (fun _ => (Toy.whole c).server.reader.held.length == 23)))))) (by decide +kernel)
  simp only [Bool.and_eq_true, beq_iff_eq, Bool.not_eq_true'] at h
  obtain ⟨h2, h3, h4, h5, h6, h7⟩ := h
  obtain ⟨sc, h8, h9⟩ := Toy.serverOpen_ok h7
  refine ⟨cc, sc, [(Toy.whole cc).client.wire.take 9, [], (Toy.whole cc).client.wire.drop 9], h1, fun s hs => ?_, h3, Toy.ordinary_ok h4,
    Toy.smallB_ok h5, h8, by simp, rfl, eq_of_beq h9, h6⟩
  simp only [Toy.serverOpen, hs] at h2
  cases h2

/-- The server then writes, sends a ticket, asks for a key update and writes again. -/
example : ∃ (cc sc : Connected) (pieces : List Bytes), Toy.half.client.party = .client (.connected cc) ∧ AllSmall 28 (Toy.whole cc) ∧
    (Toy.whole cc).server.party = .server (.connected sc) ∧ (Toy.serverCalls cc sc).1.length = 4 ∧ Ordinary false (Toy.serverCalls cc sc).2.log ∧
    pieces.flatten = (Toy.serverCalls cc sc).2.wire ∧ pieces.length = 3 ∧ written (Toy.serverCalls cc sc).1 = [5, 6, 7] := by
  obtain ⟨cc, h1, h⟩ := Toy.clientOpen_ok (N := Toy.half) (f := fun c => Toy.smallB (Toy.whole c) && Toy.serverOpen (Toy.whole c) fun s =>
    ((Toy.serverCalls c s).1.length == 4 && (Toy.ordinary false (Toy.serverCalls c s).2.log && written (Toy.serverCalls c s).1 == [5, 6, 7])))
    (by decide +kernel)
  simp only [Bool.and_eq_true] at h
  obtain ⟨h2, h3⟩ := h
  obtain ⟨sc, h4, h5⟩ := Toy.serverOpen_ok h3
  simp only [Bool.and_eq_true, beq_iff_eq] at h5
  exact ⟨cc, sc, [(Toy.serverCalls cc sc).2.wire.take 9, [], (Toy.serverCalls cc sc).2.wire.drop 9], h1, Toy.smallB_ok h2, h4, h5.1,
    Toy.ordinary_ok h5.2.1, by simp, rfl, h5.2.2⟩

/-- Records that arrive twice are no forgeries: the server gets the first of what was written. -/
example : ∃ cc sc conn, Toy.half.client.party = .client (.connected cc) ∧ AllSmall 28 (Toy.whole cc) ∧
    (Toy.whole cc).server.party = .server (.connected sc) ∧
    NoForgery (oneAead Toy.env Toy.aead) cc.cp true cc.clientAp (Toy.clientCalls cc).2.log ((Toy.whole cc).server.live sc true [] conn).reader.frames ∧
    gotten (Live.calls (oneAead Toy.env Toy.aead) ((Toy.whole cc).server.live sc true [] conn) [.read 0 9 9, .read 0 9 9]).1 = [1, 2, 3] := by
  obtain ⟨cc, h1, h⟩ := Toy.clientOpen_ok (N := Toy.half) (f := fun c => Toy.smallB (Toy.whole c) && Toy.serverOpen (Toy.whole c) fun s =>
    (let l := (Toy.whole c).server.live s true [] [.ok ((Toy.whole c).client.wire.take 14), .ok ((Toy.clientCalls c).2.wire.take 37)]
     Toy.noForgery c.cp true c.clientAp (Toy.clientCalls c).2.log l.reader.frames &&
      gotten (Live.calls (oneAead Toy.env Toy.aead) l [.read 0 9 9, .read 0 9 9]).1 == [1, 2, 3])) (by decide +kernel)
  simp only [Bool.and_eq_true] at h
  obtain ⟨h2, h3⟩ := h
  obtain ⟨sc, h4, h5⟩ := Toy.serverOpen_ok h3
  simp only [Bool.and_eq_true, beq_iff_eq] at h5
  exact ⟨cc, sc, _, h1, Toy.smallB_ok h2, h4, Toy.noForgery_ok h5.1, h5.2⟩

end Verif.Props

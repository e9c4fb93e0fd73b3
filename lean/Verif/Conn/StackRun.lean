import Verif.Conn.Turns
import Verif.Conn.Reading
import Verif.Machine.Together

/-
Two compatible ends: what holds after any moves.
-/

namespace Verif.Conn

open Verif Verif.Crypto Verif.Messages Verif.Negotiation Verif.Handshake Verif.Machine Verif.Spec Verif.Record

variable {E : Env} {A : Bytes → Aead} {ov : Nat} {now : Int → Prop} {ccfg scfg : Config}

/-- Where two compatible ends are after `n` steps. The client has written `X` after its handshake. -/
inductive Sync (E : Env) (A : Bytes → Aead) (now : Int → Prop) (ccfg scfg : Config) (X : Bytes) (N : Net) : Nat → Prop where
  | early (client : At N.client (.client (.start { cfg := ccfg })) ⟨false, 0, []⟩) (server : At N.server (.server (.start ⟨scfg⟩)) ⟨false, 0, []⟩)
      (toServer : Chan A [] [] [] N.client.out N.client.wire N.server.reader)
      (toClient : Chan A [] [] [] N.server.out N.server.wire N.client.reader)
      (asked : N.client.asked = []) (asked' : N.server.asked = []) (none : X = []) : Sync E A now ccfg scfg X N 0
  | joint {es fs : List (Event × Coins)} {c : CState} {I T : List Sym} {x' : Ctx} {s : SState} {J U : List Sym} {y' : Ctx} {n : Nat}
      (joint : Joint E false now ccfg scfg ⟨false, 0, []⟩ ⟨false, 0, []⟩ es fs c I T x' s J U y' N.client.asked N.server.asked)
      (client : At N.client (.client c) x') (server : At N.server (.server s) y')
      (toServer : Chan A I T X N.client.out N.client.wire N.server.reader)
      (toClient : Chan A J U [] N.server.out N.server.wire N.client.reader) (late : X ≠ [] → ∃ cc, c = .connected cc) (steps : n = 1 + es.length + fs.length)
      (version : N.client.out.version = 0x0303) :
      Sync E A now ccfg scfg X N n

/-- An end whose handshake is complete. -/
def Finished (e : End) : Prop := (∃ c, e.party = .client (.connected c)) ∨ ∃ c, e.party = .server (.connected c)

/-- An end whose next turn gets it further: a client that has not begun, or one for which a record has arrived, and whose
handshake is not complete. -/
def Wakes (e : End) : Prop := (∃ s, e.party = .client (.start s)) ∨ (e.reader.frames ≠ [] ∧ ¬ Finished e)

theorem sync_new : Sync E A now ccfg scfg [] (Net.new ccfg scfg) 0 :=
  .early ⟨rfl, rfl, rfl, quiet_new⟩ ⟨rfl, rfl, rfl, quiet_new⟩ (chan_new A) (chan_new A) rfl rfl rfl

theorem keysOnly_ins {acts : List Action} (h : ∀ a ∈ ins acts, a.good false) : KeysOnly (ins acts) := by
  have key : ∀ a ∈ ins acts, ∃ n k, a = .key n k := by
    clear h
    induction acts with
    | nil => intro a ha; cases ha
    | cons b l ih =>
      cases b with
      | rekeyIn n k =>
        intro a ha
        rcases List.mem_cons.1 ha with rfl | ha
        · exact ⟨n, k, rfl⟩
        · exact ih a ha
      | _ => exact ih
  intro a ha
  obtain ⟨n, k, rfl⟩ := key a ha
  exact ⟨n, k, rfl, (h _ ha).1⟩

theorem small_arrived {m : Msg} (h : Small ov m) : Small ov (arrived false m) := h

/-! ### Turns -/

theorem turn_client {e : End} {c : CState} (ho : e.outcome = .ok ()) (hp : e.party = .client c) (h1 : ∀ s, c ≠ .start s)
    (h2 : ∀ s, c ≠ .connected s) (k : Coins) : e.turn E A k = e.readTurn E A k := by
  simp only [End.turn, ho, hp]
  cases c with
  | start s => exact absurd rfl (h1 s)
  | connected s => exact absurd rfl (h2 s)
  | _ => rfl

theorem turn_server {e : End} {s : SState} (ho : e.outcome = .ok ()) (hp : e.party = .server s) (h2 : ∀ c, s ≠ .connected c) (k : Coins) :
    e.turn E A k = e.readTurn E A k := by
  simp only [End.turn, ho, hp]
  cases s with
  | connected s => exact absurd rfl (h2 s)
  | _ => rfl

theorem turn_connected {e : End} (h : Finished e) (k : Coins) :
    e.turn E A k = e := by
  unfold End.turn
  rcases h with ⟨c, h⟩ | ⟨c, h⟩
  · rw [h]; split <;> rfl
  · rw [h]; split <;> rfl

theorem readTurn_none {e : End} {r : Reader} (h : e.receive = (.ok none, { e with reader := r })) (k : Coins) :
    e.readTurn E A k = { e with reader := r } := by
  simp only [End.readTurn, h]

theorem readTurn_some {e : End} {r : Reader} {h' : HsIn} {m : Msg} (h : e.receive = (.ok (some (.msg m)), { e with reader := r, hs := h' }))
    {k : Coins} {p : HState} {acts : List Action} {x : Ctx} (hs : e.party.step E e.x k (.msg m) = .ok (p, acts, x)) :
    e.readTurn E A k = ({ e with reader := r, hs := h' } : End).advance A (.ok (p, acts, x)) := by
  simp only [End.readTurn, h, hs]

/-- A message has been read, and the end advances: both directions. -/
theorem advance_chans (hA : ∀ key, (A key).Lawful ∧ (A key).overhead ≤ ov) {e : End} (ho : e.outcome = .ok ())
    (q : e.hs.Quiet (epochOf e.reader)) {p : HState} {acts : List Action} {x : Ctx} {I T J U : List Sym} {w : Record.Keys} {u : Bytes}
    {r : Reader} {Y : Bytes} (hout : Chan A I T [] e.out e.wire r) (hin : Chan A J U Y w u e.reader) (hg : ∀ a ∈ I ++ outs false acts, a.good false)
    (hl : (I ++ outs false acts).length ≤ 12) (hs : ∀ m, .msg m ∈ I ++ outs false acts → Small ov m) (hs' : ∀ m ∈ sent acts, Small ov m)
    (hi : ∀ a ∈ ins acts, a.good false) (hv : e.party.setsVersion p = true → I = [] ∨ e.out.version = 0x0303) :
    At (e.advance A (.ok (p, acts, x))) p x ∧
      Chan A (I ++ outs false acts) T [] (e.advance A (.ok (p, acts, x))).out (e.advance A (.ok (p, acts, x))).wire r ∧
      Chan A J (U ++ ins acts) Y w u (e.advance A (.ok (p, acts, x))).reader := by
  replace hout : Chan A I T [] (e.setVersion p).out e.wire r := by
    unfold End.setVersion
    split
    · rename_i h
      rcases hv h with rfl | hv
      · exact hout.version _
      · have : e.out.setVersion 0x0303 = e.out := by rw [Record.Keys.setVersion, ← hv]
        dsimp only
        rw [this]
        exact hout
    · exact hout
  obtain ⟨b, w', hw⟩ := hout.sends hA (by omega) hg hs
  obtain ⟨h1, h2, h3, h4⟩ := advance_eq (p := p) (x := x) ho q (fun a ha => hg a (List.mem_append_right _ ha)) hs' hw
  refine ⟨h1, ?_, ?_⟩
  · rw [h2, h3]
    exact hout.write hw
  · rw [h4]
    exact hin.install (fun key => (hA key).1) (keysOnly_ins hi)

theorem lt_of_small {m : Msg} (h : Small ov m) : m.body.length < 2 ^ 24 := by
  unfold Small at h
  omega

variable {N : Net} {n : Nat} {X : Bytes}

theorem Sync.clientTurn (hP : E.P.Sized) (C : Compatible E now ccfg scfg) (hA : ∀ key, (A key).Lawful ∧ (A key).overhead ≤ ov)
    (h : Sync E A now ccfg scfg X N n) {k : Coins} (hk : GoodCoins now k) (hs : ∀ m ∈ (N.client.turn E A k).asked, Small ov m)
    (hs' : ∀ m ∈ N.server.asked, Small ov m) :
    ∃ n', Sync E A now ccfg scfg X (N.move E A (.client k)) n' ∧ n ≤ n' ∧ (Wakes N.client → n < n') := by
  cases h with
  | early hc hserver toServer toClient asked asked' none =>
    obtain ⟨w, acts0, x0, hw, hi, hj⟩ := Joint.start (d := false) (x := ⟨false, 0, []⟩) (y := ⟨false, 0, []⟩) hP C rfl rfl hk
    have hturn : N.client.turn E A k = N.client.advance A (.ok (.client (.waitSH w), acts0, x0)) := by
      simp only [End.turn, hc.outcome, hc.party, hc.ctx, hw, Res.bind_ok]
    rw [hturn, advance_asked, asked, List.nil_append] at hs
    obtain ⟨_, _, hg, _, _, _, hl, _, _, _, _, _, _, hm, _⟩ := hj.facts hP C
    obtain ⟨h1, h2, h3⟩ := advance_chans (p := .client (.waitSH w)) (x := x0) (acts := acts0) hA hc.outcome hc.quiet toServer toClient
      (by simpa using hg) (by simpa using hl) (by
        intro m hmem
        obtain ⟨m0, h0, rfl⟩ := hm m (by simpa using hmem)
        exact small_arrived (hs m0 h0)) hs (by rw [hi]; intro a ha; cases ha) (fun _ => .inl rfl)
    rw [List.nil_append] at h2
    rw [hi, List.append_nil] at h3
    refine ⟨1, ?_, by omega, fun _ => by omega⟩
    have hj' := hj
    rw [show sent acts0 = (N.client.advance A (.ok (.client (.waitSH w), acts0, x0))).asked by
      rw [advance_asked, asked, List.nil_append], ← asked'] at hj'
    simp only [Net.move, hturn]
    exact .joint hj' h1 hserver (none ▸ h2) h3 (fun h => absurd none h) rfl (by rw [advance_version, End.setVersion, hc.party]; rfl)
  | @joint es fs c I T x' s J U y' _ hj hc hserver toServer toClient late steps version =>
    obtain ⟨hJ, hI, hgI, hgJ, hgT, hgU, hlI, hlJ, hcd, hsd, hst, _, _, hmI, hmJ, _⟩ := hj.facts hP C
    by_cases hconn : ∃ cc, c = .connected cc
    · obtain ⟨cc, rfl⟩ := hconn
      have hturn : N.client.turn E A k = N.client := turn_connected (.inl ⟨cc, hc.party⟩) k
      refine ⟨n, ?_, Nat.le_refl _, ?_⟩
      · simp only [Net.move, hturn]
        exact .joint hj hc hserver toServer toClient late steps version
      · rintro (⟨s0, h0⟩ | h0)
        · rw [hc.party] at h0; cases h0
        · exact absurd (.inl ⟨cc, hc.party⟩) h0.2
    · have hX : X = [] := by
        by_cases hX : X = []
        · exact hX
        · exact absurd (late hX) hconn
      subst hX
      have hturn := turn_client (E := E) (A := A) hc.outcome hc.party hst (fun s h => hconn ⟨s, h⟩) k
      have stay : ∀ r, N.client.receive = (.ok none, { N.client with reader := r }) → Chan A J U [] N.server.out N.server.wire r →
          N.client.hs.Quiet (epochOf r) → N.client.reader.frames = [] →
          ∃ n', Sync E A now ccfg scfg [] (N.move E A (.client k)) n' ∧ n ≤ n' ∧ (Wakes N.client → n < n') := by
        intro r h1 h2 h3 h4
        refine ⟨n, ?_, Nat.le_refl _, ?_⟩
        · simp only [Net.move, hturn, readTurn_none h1]
          exact .joint hj ⟨hc.party, hc.ctx, hc.outcome, h3⟩ hserver toServer h2 late steps version
        · rintro (⟨s0, h0⟩ | h0)
          · rw [hc.party] at h0; cases h0; exact absurd rfl (hst s0)
          · exact absurd h4 h0.1
      rcases hJ with hJ | ⟨m, more, hJ⟩
      · obtain ⟨r, h1, h2, h3⟩ := receive_nothing hc toClient hJ
        exact stay r h1 h2 h3 (toClient.done hJ).2.2
      · have hmem : .msg m ∈ J := by rw [hJ]; simp
        obtain ⟨m0, hm0, hm0'⟩ := hmJ m hmem
        rcases receive_next hc toClient hJ (hgJ _ hmem) (lt_of_small (by rw [hm0']; exact small_arrived (hs' m0 hm0)))
          with ⟨r, h', h1, h2, h3⟩ | ⟨r, h1, h2, h3, h4⟩
        · obtain ⟨c2, a2, x2, hstep, hj'⟩ := hj.clientReads hP C hJ hk
          have hps : N.client.party.step E N.client.x k (.msg m) = .ok (.client c2, a2, x2) := by
            rw [hc.party, hc.ctx, HState.step, hstep]; rfl
          have hturn' := hturn.trans (readTurn_some (A := A) h1 hps)
          rw [hturn', advance_asked] at hs
          dsimp only at hs
          obtain ⟨_, _, hgI', _, _, hgU', hlI', _, _, _, _, _, _, hmI', _⟩ := hj'.facts hP C
          obtain ⟨g1, g2, g3⟩ := advance_chans (e := { N.client with reader := r, hs := h' }) (p := .client c2) (x := x2) (acts := a2) hA
            hc.outcome h3 toServer h2 hgI' hlI' (by
              intro m hmem
              obtain ⟨m0, h0, rfl⟩ := hmI' m hmem
              exact small_arrived (hs m0 h0)) (fun m hm => hs m (List.mem_append_right _ hm))
              (fun a ha => hgU' a (List.mem_append_right _ ha)) (fun _ => .inr version)
          refine ⟨1 + (es.length + 1) + fs.length, ?_, by omega, fun _ => by omega⟩
          rw [show N.client.asked ++ sent a2 = (End.advance A { N.client with reader := r, hs := h' } (.ok (.client c2, a2, x2))).asked from
            (advance_asked A { N.client with reader := r, hs := h' } _ _ _).symm] at hj'
          simp only [Net.move, hturn']
          exact .joint hj' g1 hserver g2 g3 (fun h => absurd rfl h) (by simp) (by
            rw [advance_version, End.setVersion]
            split
            · rfl
            · exact version)
        · exact stay r h1 h2 h3 h4

theorem not_behind {I T more : List Sym} {m : Msg} (h : I = T ++ .msg m :: more) : ¬ I <+: T := by
  intro hp
  have := hp.length_le
  rw [h, List.length_append, List.length_cons] at this
  omega

theorem Sync.serverTurn (hP : E.P.Sized) (C : Compatible E now ccfg scfg) (hA : ∀ key, (A key).Lawful ∧ (A key).overhead ≤ ov)
    (h : Sync E A now ccfg scfg X N n) {k : Coins} (hk : GoodCoins now k) (hs : ∀ m ∈ (N.server.turn E A k).asked, Small ov m)
    (hs' : ∀ m ∈ N.client.asked, Small ov m) :
    ∃ n', Sync E A now ccfg scfg X (N.move E A (.server k)) n' ∧ n ≤ n' ∧ (Wakes N.server → n < n') := by
  cases h with
  | early hclient hc toServer toClient asked asked' none =>
    have hturn := turn_server (E := E) (A := A) hc.outcome hc.party (by intro c h; cases h) k
    obtain ⟨r, h1, h2, h3⟩ := receive_nothing hc toServer (List.prefix_refl _)
    refine ⟨0, ?_, Nat.le_refl _, ?_⟩
    · simp only [Net.move, hturn, readTurn_none h1]
      exact .early hclient ⟨hc.party, hc.ctx, hc.outcome, h3⟩ h2 toClient asked asked' none
    · rintro (⟨s0, h0⟩ | h0)
      · rw [hc.party] at h0; cases h0
      · exact absurd (toServer.done (List.prefix_refl _)).2.2 h0.1
  | @joint es fs c I T x' s J U y' _ hj hclient hc toServer toClient late steps version =>
    obtain ⟨hJ, hI, hgI, hgJ, hgT, hgU, hlI, hlJ, hcd, hsd, hst, _, _, hmI, hmJ, hprog⟩ := hj.facts hP C
    by_cases hconn : ∃ cc, s = .connected cc
    · obtain ⟨cc, rfl⟩ := hconn
      have hturn : N.server.turn E A k = N.server := turn_connected (.inr ⟨cc, hc.party⟩) k
      refine ⟨n, ?_, Nat.le_refl _, ?_⟩
      · simp only [Net.move, hturn]
        exact .joint hj hclient hc toServer toClient late steps version
      · rintro (⟨s0, h0⟩ | h0)
        · rw [hc.party] at h0; cases h0
        · exact absurd (.inr ⟨cc, hc.party⟩) h0.2
    · have hturn := turn_server (E := E) (A := A) hc.outcome hc.party (fun s h => hconn ⟨s, h⟩) k
      have stay : ∀ r, N.server.receive = (.ok none, { N.server with reader := r }) → Chan A I T X N.client.out N.client.wire r →
          N.server.hs.Quiet (epochOf r) → N.server.reader.frames = [] →
          ∃ n', Sync E A now ccfg scfg X (N.move E A (.server k)) n' ∧ n ≤ n' ∧ (Wakes N.server → n < n') := by
        intro r h1 h2 h3 h4
        refine ⟨n, ?_, Nat.le_refl _, ?_⟩
        · simp only [Net.move, hturn, readTurn_none h1]
          exact .joint hj hclient ⟨hc.party, hc.ctx, hc.outcome, h3⟩ h2 toClient late steps version
        · rintro (⟨s0, h0⟩ | h0)
          · rw [hc.party] at h0; cases h0
          · exact absurd h4 h0.1
      rcases hI with hI | ⟨m, more, hI⟩
      · have hX : X = [] := by
          by_cases hX : X = []
          · exact hX
          · obtain ⟨cc, rfl⟩ := late hX
            rcases hprog with ⟨m, more, h⟩ | ⟨m, more, h⟩ | ⟨_, _, _, sc, _, h, _⟩
            · exact absurd (hcd cc rfl) (not_behind h)
            · exact absurd hI (not_behind h)
            · exact absurd ⟨sc, h⟩ hconn
        subst hX
        obtain ⟨r, h1, h2, h3⟩ := receive_nothing hc toServer hI
        exact stay r h1 h2 h3 (toServer.done hI).2.2
      · have hmem : .msg m ∈ I := by rw [hI]; simp
        obtain ⟨m0, hm0, hm0'⟩ := hmI m hmem
        rcases receive_next hc toServer hI (hgI _ hmem) (lt_of_small (by rw [hm0']; exact small_arrived (hs' m0 hm0)))
          with ⟨r, h', h1, h2, h3⟩ | ⟨r, h1, h2, h3, h4⟩
        · obtain ⟨c2, a2, x2, hstep, hj'⟩ := hj.serverReads hP C hI hk
          have hps : N.server.party.step E N.server.x k (.msg m) = .ok (.server c2, a2, x2) := by
            rw [hc.party, hc.ctx, HState.step, hstep]; rfl
          have hturn' := hturn.trans (readTurn_some (A := A) h1 hps)
          rw [hturn', advance_asked] at hs
          dsimp only at hs
          obtain ⟨_, _, _, hgJ', hgT', _, _, hlJ', _, _, _, _, _, _, hmJ', _⟩ := hj'.facts hP C
          obtain ⟨g1, g2, g3⟩ := advance_chans (e := { N.server with reader := r, hs := h' }) (p := .server c2) (x := x2) (acts := a2) hA
            hc.outcome h3 toClient h2 hgJ' hlJ' (by
              intro m hmem
              obtain ⟨m0, h0, rfl⟩ := hmJ' m hmem
              exact small_arrived (hs m0 h0)) (fun m hm => hs m (List.mem_append_right _ hm))
              (fun a ha => hgT' a (List.mem_append_right _ ha)) (by
                intro h
                dsimp only at h
                rw [hc.party] at h
                cases s with
                | start s0 => exact .inl (hj.unheard hP C rfl)
                | _ => cases c2 <;> cases h)
          refine ⟨1 + es.length + (fs.length + 1), ?_, by omega, fun _ => by omega⟩
          rw [show N.server.asked ++ sent a2 = (End.advance A { N.server with reader := r, hs := h' } (.ok (.server c2, a2, x2))).asked from
            (advance_asked A { N.server with reader := r, hs := h' } _ _ _).symm] at hj'
          simp only [Net.move, hturn']
          exact .joint hj' hclient g1 g3 g2 late (by simp) version
        · exact stay r h1 h2 h3 h4

/-! ### Bytes under way -/

theorem At.deliver {e : End} {p : HState} {x : Ctx} (h : At e p x) (cs : List Bytes) : At (e.deliver cs) p x :=
  ⟨h.party, h.ctx, h.outcome, h.quiet⟩

theorem At.sentOff {e : End} {p : HState} {x : Ctx} (h : At e p x) (b : Bytes) : At { e with wire := b } p x :=
  ⟨h.party, h.ctx, h.outcome, h.quiet⟩

/-- Some bytes arrive at each end. -/
theorem Sync.arrive (h : Sync E A now ccfg scfg X N n) {cs ds : List Bytes} {u v : Bytes} (hc : N.server.wire = cs.flatten ++ u)
    (hd : N.client.wire = ds.flatten ++ v) (hc' : [] ∉ cs) (hd' : [] ∉ ds) :
    Sync E A now ccfg scfg X ⟨{ N.client with wire := v }.deliver cs, { N.server with wire := u }.deliver ds⟩ n := by
  cases h with
  | early hclient hserver toServer toClient asked asked' none =>
    exact .early ((hclient.sentOff _).deliver _) ((hserver.sentOff _).deliver _) (toServer.arrive hd hd') (toClient.arrive hc hc') asked asked' none
  | joint hj hclient hserver toServer toClient late steps version =>
    exact .joint hj ((hclient.sentOff _).deliver _) ((hserver.sentOff _).deliver _) (toServer.arrive hd hd') (toClient.arrive hc hc') late steps version

theorem piece_flatten (n : Nat) (b : Bytes) : b = (piece n b).flatten ++ b.drop (min n (5 + 2 ^ 14)) := by
  unfold piece
  split
  · rename_i h
    have := List.take_append_drop (min n (5 + 2 ^ 14)) b
    rw [h] at this
    simpa using this.symm
  · simp

theorem piece_nonempty (n : Nat) (b : Bytes) : [] ∉ piece n b := by
  unfold piece
  split
  · simp
  · rename_i h
    exact fun h' => h (List.mem_singleton.1 h').symm

theorem fragments_nonempty (n : Nat) (b : Bytes) : [] ∉ fragments n b := by
  induction n generalizing b with
  | zero =>
    rw [fragments]
    split
    · simp
    · rename_i h; exact fun h' => h (List.mem_singleton.1 h').symm
  | succ n ih =>
    rw [fragments]
    split
    · rename_i h
      intro hm
      rcases List.mem_cons.1 hm with hm | hm
      · have := congrArg List.length hm
        simp at this
        omega
      · exact ih _ hm
    · split
      · simp
      · rename_i h; exact fun h' => h (List.mem_singleton.1 h').symm

theorem deliver_nil (e : End) : e.deliver [] = e := by
  simp [End.deliver]

/-- Every move. -/
theorem Sync.move (hP : E.P.Sized) (C : Compatible E now ccfg scfg) (hA : ∀ key, (A key).Lawful ∧ (A key).overhead ≤ ov)
    (h : Sync E A now ccfg scfg X N n) {m : Move} (hm : ∀ k, m = .client k ∨ m = .server k → GoodCoins now k)
    (hs : ∀ m' ∈ (N.move E A m).client.asked ++ (N.move E A m).server.asked, Small ov m') :
    ∃ n', Sync E A now ccfg scfg X (N.move E A m) n' ∧ n ≤ n' ∧ (∀ k, m = .client k → Wakes N.client → n < n') ∧
      (∀ k, m = .server k → Wakes N.server → n < n') := by
  cases m with
  | client k =>
    obtain ⟨n', h1, h2, h3⟩ := h.clientTurn hP C hA (hm k (.inl rfl)) (fun m' h' => hs m' (List.mem_append_left _ h'))
      (fun m' h' => hs m' (List.mem_append_right _ h'))
    exact ⟨n', h1, h2, fun _ _ => h3, fun _ h => by cases h⟩
  | server k =>
    obtain ⟨n', h1, h2, h3⟩ := h.serverTurn hP C hA (hm k (.inr rfl)) (fun m' h' => hs m' (List.mem_append_right _ h'))
      (fun m' h' => hs m' (List.mem_append_left _ h'))
    exact ⟨n', h1, h2, (fun _ h => by cases h), fun _ _ => h3⟩
  | toServer k =>
    refine ⟨n, ?_, Nat.le_refl _, (fun _ h => by cases h), (fun _ h => by cases h)⟩
    have := h.arrive (cs := []) (u := N.server.wire) rfl (piece_flatten k N.client.wire) (by simp) (piece_nonempty _ _)
    rw [deliver_nil] at this
    exact this
  | toClient k =>
    refine ⟨n, ?_, Nat.le_refl _, (fun _ h => by cases h), (fun _ h => by cases h)⟩
    have := h.arrive (ds := []) (v := N.client.wire) (piece_flatten k N.server.wire) rfl (piece_nonempty _ _) (by simp)
    rw [deliver_nil] at this
    exact this
  | flush =>
    refine ⟨n, ?_, Nat.le_refl _, (fun _ h => by cases h), (fun _ h => by cases h)⟩
    exact h.arrive (u := []) (v := []) (by rw [fragments_flatten _ _ (Nat.le_refl _), List.append_nil])
      (by rw [fragments_flatten _ _ (Nat.le_refl _), List.append_nil]) (fragments_nonempty _ _) (fragments_nonempty _ _)

/-! ### Many moves -/

theorem frameEvents_more {d : Framing} {s : Bytes} (h : frameEvents d s ≠ []) (t : Bytes) : frameEvents d (s ++ t) ≠ [] := by
  rw [frameEvents] at h ⊢
  split at h
  · exact absurd rfl h
  · rename_i h1
    have h2 : ¬ s.length < d.headerLen := fun h => h1 (.inr h)
    have h3 : ¬ (d.headerLen = 0 ∨ (s ++ t).length < d.headerLen) := by
      rintro (h | h)
      · exact h1 (.inl h)
      · rw [List.length_append] at h; omega
    rw [dif_neg h3, List.take_append_of_le_length (by omega)]
    split at h
    · simp
    · rename_i k hk
      split at h
      · exact absurd rfl h
      · rename_i h4
        rw [if_neg (by simp only [List.length_drop, List.length_append] at h4 ⊢; omega)]
        simp

theorem deliver_wakes {e : End} (h : Wakes e) (cs : List Bytes) : Wakes (e.deliver cs) := by
  rcases h with h | ⟨h, hf⟩
  · exact .inl h
  · refine .inr ⟨?_, hf⟩
    have hd : connData (e.reader.conn ++ cs.map .ok) = connData e.reader.conn ++ cs.flatten := by
      induction e.reader.conn with
      | nil =>
        simp only [List.nil_append, connData]
        induction cs with
        | nil => rfl
        | cons c cs ih => simp [connData, ih]
      | cons a l ih => cases a <;> simp [connData, ih]
    simp only [Reader.frames, FrameReader.future, End.deliver, hd] at h ⊢
    rw [← List.append_assoc]
    split at h
    · split at h
      · exact absurd rfl h
      · rename_i h1 h2
        rw [if_pos h1, if_neg (by rw [List.length_append]; omega)]
        simp
    · rename_i h1
      rw [if_neg h1]
      exact frameEvents_more h _

theorem client_wakes {m : Move} (hm : ∀ k, m ≠ .client k) (h : Wakes N.client) : Wakes (N.move E A m).client := by
  cases m with
  | client k => exact absurd rfl (hm k)
  | server k => exact h
  | toServer k => exact h
  | toClient k => exact deliver_wakes h _
  | flush => exact deliver_wakes (e := { N.client with wire := [] }) h _

theorem server_wakes {m : Move} (hm : ∀ k, m ≠ .server k) (h : Wakes N.server) : Wakes (N.move E A m).server := by
  cases m with
  | client k => exact h
  | server k => exact absurd rfl (hm k)
  | toServer k => exact deliver_wakes h _
  | toClient k => exact h
  | flush => exact deliver_wakes (e := { N.server with wire := [] }) h _

theorem move_keeps (N : Net) (m : Move) :
    N.client.asked ⊆ (N.move E A m).client.asked ∧ N.server.asked ⊆ (N.move E A m).server.asked := by
  cases m with
  | client k => exact ⟨turn_keeps .., List.Subset.refl _⟩
  | server k => exact ⟨List.Subset.refl _, turn_keeps ..⟩
  | _ => exact ⟨List.Subset.refl _, List.Subset.refl _⟩

theorem run_keeps (ms : List Move) (N : Net) :
    N.client.asked ⊆ (N.run E A ms).client.asked ∧ N.server.asked ⊆ (N.run E A ms).server.asked := by
  induction ms generalizing N with
  | nil => exact ⟨List.Subset.refl _, List.Subset.refl _⟩
  | cons m ms ih =>
    have h1 := move_keeps (E := E) (A := A) N m
    have h2 := ih (N.move E A m)
    exact ⟨h1.1.trans h2.1, h1.2.trans h2.2⟩

theorem run_append (ms ms' : List Move) (N : Net) : N.run E A (ms ++ ms') = (N.run E A ms).run E A ms' := by
  induction ms generalizing N with
  | nil => rfl
  | cons m ms ih => exact ih _

theorem AllSmall.before {ms : List Move} (h : AllSmall ov (N.run E A ms)) : AllSmall ov N := by
  intro m hm
  have := run_keeps (E := E) (A := A) ms N
  rcases List.mem_append.1 hm with hm | hm
  · exact h m (List.mem_append_left _ (this.1 hm))
  · exact h m (List.mem_append_right _ (this.2 hm))

theorem Sync.run (hP : E.P.Sized) (C : Compatible E now ccfg scfg) (hA : ∀ key, (A key).Lawful ∧ (A key).overhead ≤ ov) (ms : List Move)
    (h : Sync E A now ccfg scfg X N n) (hm : FairCoins now ms) (hs : AllSmall ov (N.run E A ms)) :
    ∃ n', Sync E A now ccfg scfg X (N.run E A ms) n' ∧ n ≤ n' ∧ ((∃ k, .client k ∈ ms) → Wakes N.client → n < n') ∧
      ((∃ k, .server k ∈ ms) → Wakes N.server → n < n') := by
  induction ms generalizing N n with
  | nil => exact ⟨n, h, Nat.le_refl _, fun ⟨_, h⟩ => by simp at h, fun ⟨_, h⟩ => by simp at h⟩
  | cons m ms ih =>
    have hs1 : AllSmall ov (N.move E A m) := AllSmall.before (ms := ms) hs
    obtain ⟨n1, h1, h2, h3, h4⟩ := h.move hP C hA (hm m (by simp)) hs1
    obtain ⟨n2, g1, g2, g3, g4⟩ := ih h1 (fun m' hm' => hm m' (List.mem_cons_of_mem _ hm')) hs
    refine ⟨n2, g1, by omega, ?_, ?_⟩
    · rintro ⟨k, hk⟩ hw
      by_cases hc : ∃ k, m = .client k
      · obtain ⟨k', rfl⟩ := hc
        have := h3 k' rfl hw
        omega
      · have := g3 ⟨k, (List.mem_cons.1 hk).resolve_left fun h => hc ⟨k, h.symm⟩⟩ (client_wakes (fun k h => hc ⟨k, h⟩) hw)
        omega
    · rintro ⟨k, hk⟩ hw
      by_cases hc : ∃ k, m = .server k
      · obtain ⟨k', rfl⟩ := hc
        have := h4 k' rfl hw
        omega
      · have := g4 ⟨k, (List.mem_cons.1 hk).resolve_left fun h => hc ⟨k, h.symm⟩⟩ (server_wakes (fun k h => hc ⟨k, h⟩) hw)
        omega

theorem Chan.empty {I : List Sym} {w : Record.Keys} {u : Bytes} {r : Reader} (h : Chan A I I [] w u r) : Empty r := by
  obtain ⟨h1, _, _⟩ := h.done (List.prefix_refl _)
  have hr := h.ready
  simp only [Reader.held, FrameReader.pending, List.append_eq_nil_iff] at h1
  obtain ⟨⟨⟨h1, h2⟩, h3⟩, h4⟩ := h1
  have hb : r.frame.inBody = false := by
    cases hb : r.frame.inBody with
    | false => rfl
    | true =>
      have := (hr.inv.body hb).1
      rw [hb, if_pos rfl] at h1
      rw [h1, hr.tls] at this
      cases this
  refine ⟨hb, h2, h3, ?_, hr.cached⟩
  cases hc : r.conn with
  | nil => rfl
  | cons a l =>
    obtain ⟨b, rfl, hne⟩ := hr.whole a (by rw [hc]; simp)
    rw [hc] at h4
    simp only [connData, List.append_eq_nil_iff] at h4
    exact absurd h4.1 hne

theorem Chan.paired {I : List Sym} {X : Bytes} {w : Record.Keys} {u : Bytes} {r : Reader} (h : Chan A I I X w u r) : Paired w r.keys := by
  obtain ⟨v, b, bT, wT, rest, h1, h2, _, h4, _⟩ := h
  rw [h1, Res.ok.injEq, Prod.mk.injEq] at h2
  rw [h2.2]
  exact h4

/-- Both handshakes are complete. -/
def Both (N : Net) : Prop := Finished N.client ∧ Finished N.server

/-- If all has arrived, one of the two ends gets further, or they are connected. -/
theorem Sync.progress (hP : E.P.Sized) (C : Compatible E now ccfg scfg) (h : Sync E A now ccfg scfg X N n) (hc : N.client.wire = [])
    (hs : N.server.wire = []) : Wakes N.client ∨ Wakes N.server ∨ Both N := by
  cases h with
  | early hclient _ _ _ _ _ => exact .inl (.inl ⟨_, hclient.party⟩)
  | joint hj hclient hserver toServer toClient late steps version =>
    obtain ⟨_, _, _, _, _, _, _, _, hcd, hsd, _, _, _, _, _, hp⟩ := hj.facts hP C
    rw [hc] at toServer
    rw [hs] at toClient
    rcases hp with ⟨m, more, h⟩ | ⟨m, more, h⟩ | ⟨rfl, rfl, cc, sc, rfl, rfl, hsame⟩
    · refine .inl (.inr ⟨toClient.arrived h, ?_⟩)
      rintro (⟨cc, hf⟩ | ⟨cc, hf⟩)
      · rw [hclient.party] at hf
        cases hf
        exact not_behind h (hcd cc rfl)
      · rw [hclient.party] at hf; cases hf
    · refine .inr (.inl (.inr ⟨toServer.arrived h, ?_⟩))
      rintro (⟨cc, hf⟩ | ⟨cc, hf⟩)
      · rw [hserver.party] at hf; cases hf
      · rw [hserver.party] at hf
        cases hf
        exact not_behind h (hsd cc rfl)
    · exact .inr (.inr ⟨.inl ⟨cc, hclient.party⟩, .inr ⟨sc, hserver.party⟩⟩)

/-- Complete handshakes stay so. -/
theorem Both.move (h : Both N) (m : Move) : Both (N.move E A m) := by
  cases m with
  | client k => simp only [Net.move, turn_connected h.1]; exact h
  | server k => simp only [Net.move, turn_connected h.2]; exact h
  | _ => exact h

theorem Both.run (h : Both N) (ms : List Move) : Both (N.run E A ms) := by
  induction ms generalizing N with
  | nil => exact h
  | cons m ms ih => exact ih (h.move m)

/-- What is known when both handshakes are complete. -/
theorem Sync.both (hP : E.P.Sized) (C : Compatible E now ccfg scfg) (h : Sync E A now ccfg scfg X N n) (hb : Both N) :
    ∃ cc sc I J es fs c0 ca sa x' y', N.client.party = .client (.connected cc) ∧ N.server.party = .server (.connected sc) ∧
      SameConnection cc sc ∧ Chan A I I X N.client.out N.client.wire N.server.reader ∧
      Chan A J J [] N.server.out N.server.wire N.client.reader ∧ N.client.hs.frame.remainder = [] ∧ N.server.hs.frame.remainder = [] ∧
      clientRun E ⟨false, 0, []⟩ ccfg c0 es = .ok (.connected cc, ca, x') ∧ serverRun E ⟨false, 0, []⟩ scfg fs = .ok (.connected sc, sa, y') ∧
      I = outs false ca ∧ J = outs false sa := by
  cases h with
  | early hclient =>
    rcases hb.1 with ⟨cc, hf⟩ | ⟨cc, hf⟩
    · rw [hclient.party] at hf; cases hf
    · rw [hclient.party] at hf; cases hf
  | @joint es fs c I T x' s J U y' _ hj hclient hserver toServer toClient late steps version =>
    obtain ⟨_, _, _, _, _, _, _, _, hcd, hsd, _, _, _, _, _, hp⟩ := hj.facts hP C
    obtain ⟨cc, rfl⟩ : ∃ cc, c = .connected cc := by
      rcases hb.1 with ⟨cc, hf⟩ | ⟨cc, hf⟩
      · rw [hclient.party] at hf; cases hf; exact ⟨cc, rfl⟩
      · rw [hclient.party] at hf; cases hf
    obtain ⟨sc, rfl⟩ : ∃ cc, s = .connected cc := by
      rcases hb.2 with ⟨cc, hf⟩ | ⟨cc, hf⟩
      · rw [hserver.party] at hf; cases hf
      · rw [hserver.party] at hf; cases hf; exact ⟨cc, rfl⟩
    rcases hp with ⟨m, more, h⟩ | ⟨m, more, h⟩ | ⟨rfl, rfl, cc', sc', h1, h2, hsame⟩
    · exact absurd (hcd cc rfl) (not_behind h)
    · exact absurd (hsd sc rfl) (not_behind h)
    · cases h1
      cases h2
      obtain ⟨c0, w, acts0, x0, cacts, sacts, _, hw, _, ha, hI, _, hJ, _⟩ := hj.place
      exact ⟨cc, sc, _, _, es, fs, c0, acts0 ++ cacts, sacts, x', y', hclient.party, hserver.party, hsame, toServer, toClient,
        hclient.quiet.remainder, hserver.quiet.remainder, by simp only [clientRun, hw, ha.client, Res.bind_ok], ha.server, hI, hJ⟩

theorem Sync.together (hP : E.P.Sized) (C : Compatible E now ccfg scfg) (h : Sync E A now ccfg scfg [] N n) (hb : Both N) :
    ∃ cc sc, Together N cc sc := by
  obtain ⟨cc, sc, I, J, es, fs, c0, ca, sa, x', y', h1, h2, h3, h4, h5, h6, h7, _⟩ := h.both hP C hb
  exact ⟨cc, sc, h1, h2, h3, h4.paired, h5.paired, ⟨(h4.done (List.prefix_refl _)).2.1, (h5.done (List.prefix_refl _)).2.1⟩,
    ⟨h5.empty, h4.empty⟩, h6, h7⟩

theorem Sync.bound (hP : E.P.Sized) (C : Compatible E now ccfg scfg) (h : Sync E A now ccfg scfg X N n) : n ≤ 12 := by
  cases h with
  | early => omega
  | joint hj _ _ _ _ _ steps =>
    obtain ⟨_, _, _, _, _, _, _, _, _, _, _, h1, h2, _⟩ := hj.facts hP C
    omega

theorem Sync.outcome (h : Sync E A now ccfg scfg X N n) : N.client.outcome = .ok () ∧ N.server.outcome = .ok () := by
  cases h with
  | early hc hs => exact ⟨hc.outcome, hs.outcome⟩
  | joint _ hc hs => exact ⟨hc.outcome, hs.outcome⟩

theorem flush_wires (N : Net) : (N.move E A .flush).client.wire = [] ∧ (N.move E A .flush).server.wire = [] := ⟨rfl, rfl⟩

/-- A round gets one of the ends further, unless they are connected. -/
theorem Sync.round (hP : E.P.Sized) (C : Compatible E now ccfg scfg) (hA : ∀ key, (A key).Lawful ∧ (A key).overhead ≤ ov) {ms : List Move}
    (h : Sync E A now ccfg scfg X N n) (hr : Round ms) (hm : FairCoins now ms) (hs : AllSmall ov (N.run E A ms)) :
    ∃ n', Sync E A now ccfg scfg X (N.run E A ms) n' ∧ (n < n' ∨ Both (N.run E A ms)) := by
  obtain ⟨a, b, rfl, hcl, hsv⟩ := hr
  have ha : FairCoins now (a ++ [.flush]) := by
    intro m hm' k hk
    rcases List.mem_append.1 hm' with h | h
    · exact hm m (List.mem_append_left _ h) k hk
    · rw [List.mem_singleton.1 h] at hk
      rcases hk with hk | hk <;> cases hk
  have hsplit : N.run E A (a ++ .flush :: b) = (N.run E A (a ++ [.flush])).run E A b := by
    rw [← run_append, List.append_assoc]; rfl
  rw [hsplit] at hs ⊢
  obtain ⟨n1, h1, h2, _, _⟩ := h.run hP C hA (a ++ [.flush]) ha (AllSmall.before hs)
  have hw : (N.run E A (a ++ [.flush])).client.wire = [] ∧ (N.run E A (a ++ [.flush])).server.wire = [] := by
    rw [run_append]; exact flush_wires (E := E) (A := A) _
  obtain ⟨n2, g1, g2, g3, g4⟩ := h1.run hP C hA b (fun m hm' => hm m (by simp [hm'])) hs
  refine ⟨n2, g1, ?_⟩
  rcases h1.progress hP C hw.1 hw.2 with hk | hk | hk
  · exact .inl (by have := g3 hcl hk; omega)
  · exact .inl (by have := g4 hsv hk; omega)
  · exact .inr (hk.run b)

theorem Sync.rounds (hP : E.P.Sized) (C : Compatible E now ccfg scfg) (hA : ∀ key, (A key).Lawful ∧ (A key).overhead ≤ ov)
    (rs : List (List Move)) (h : Sync E A now ccfg scfg X N n) (hr : ∀ r ∈ rs, Round r) (hm : FairCoins now rs.flatten)
    (hs : AllSmall ov (N.run E A rs.flatten)) :
    ∃ n', Sync E A now ccfg scfg X (N.run E A rs.flatten) n' ∧ (n + rs.length ≤ n' ∨ Both (N.run E A rs.flatten)) := by
  induction rs generalizing N n with
  | nil => exact ⟨n, h, .inl (by simp)⟩
  | cons r rs ih =>
    rw [List.flatten_cons, run_append] at hs ⊢
    have hm1 : FairCoins now r := fun m h => hm m (by rw [List.flatten_cons]; exact List.mem_append_left _ h)
    have hm2 : FairCoins now rs.flatten := fun m h => hm m (by rw [List.flatten_cons]; exact List.mem_append_right _ h)
    obtain ⟨n1, h1, h2⟩ := h.round hP C hA (hr r (by simp)) hm1 (AllSmall.before hs)
    obtain ⟨n2, g1, g2⟩ := ih h1 (fun r' h' => hr r' (List.mem_cons_of_mem _ h')) hm2 hs
    refine ⟨n2, g1, ?_⟩
    rcases h2 with h2 | h2
    · rcases g2 with g2 | g2
      · left
        rw [List.length_cons]
        omega
      · exact .inr g2
    · exact .inr (h2.run _)

end Verif.Conn

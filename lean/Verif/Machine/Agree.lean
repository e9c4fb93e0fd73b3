import Verif.Machine.ClientView
import Verif.Machine.ServerView
import Verif.Machine.Hello
import Verif.Machine.Order
import Verif.Machine.ServerOrder
import Verif.Spec.Agreement

/-
Lemmas for the agreement of both ends (C41).
-/

namespace Verif.Machine

open Verif Verif.Crypto Verif.Messages Verif.Negotiation Verif.Handshake Verif.Spec

/-! ### HKDF-Expand-Label and Finished -/

theorem expandLabel_one (P : Prims) (hP : P.Sized) {h : HashId} (hz : 0 < h.size) (secret label context : Bytes) :
    expandLabel P h secret label context h.size = P.hmac h secret (labelInput h label context) := by
  have h1 : (h.size + h.size - 1) / h.size = 1 := by
    rw [Nat.div_eq_iff hz]; omega
  simp only [expandLabel, expand, h1, List.range_one, List.map_cons, List.map_nil, List.flatten_cons, List.flatten_nil,
    List.append_nil, block, labelInput, List.nil_append]
  exact List.take_of_length_le (by rw [hP.hmac]; exact Nat.le_refl _)

theorem labelInput_inj {h : HashId} {label c c' : Bytes} (he : labelInput h label c = labelInput h label c')
    (hl : c.length = c'.length) : c = c' := by
  simp only [labelInput, hkdfLabel, hl] at he
  simpa using he

/-- The MAC of a Finished determines everything it depends on, or something is broken. -/
theorem finished_eq {P : Prims} (hP : P.Sized) {h : HashId} (hz : 0 < h.size) {label k a b k' a' b' : Bytes}
    (he : finishedMac P h (derive P h k label a) b = finishedMac P h (derive P h k' label a') b') :
    (k = k' ∧ a = a' ∧ b = b') ∨ FinishedBroken P h label k a b k' a' b' := by
  refine Classical.byContradiction fun hn => ?_
  have hn1 : ¬ FinishedBroken P h label k a b k' a' b' := fun h => hn (.inr h)
  have m1 : ¬ MacCollision P h (expandLabel P h (derive P h k label a) (ascii "finished") [] h.size) (P.hash h b)
      (expandLabel P h (derive P h k' label a') (ascii "finished") [] h.size) (P.hash h b') := fun h => hn1 (.mac h)
  have h1 : (expandLabel P h (derive P h k label a) (ascii "finished") [] h.size, P.hash h b) =
      (expandLabel P h (derive P h k' label a') (ascii "finished") [] h.size, P.hash h b') :=
    Classical.byContradiction fun hne => m1 ⟨hne, he⟩
  rw [Prod.mk.injEq] at h1
  obtain ⟨h2, h3⟩ := h1
  rw [expandLabel_one P hP hz, expandLabel_one P hP hz] at h2
  have h4 : (derive P h k label a, labelInput h (ascii "finished") []) =
      (derive P h k' label a', labelInput h (ascii "finished") []) :=
    Classical.byContradiction fun hne => hn1 (.finishedKey ⟨hne, h2⟩)
  rw [Prod.mk.injEq] at h4
  have h5 := h4.1
  rw [derive, derive, expandLabel_one P hP hz, expandLabel_one P hP hz] at h5
  have h6 : (k, labelInput h label (P.hash h a)) = (k', labelInput h label (P.hash h a')) :=
    Classical.byContradiction fun hne => hn1 (.trafficSecret ⟨hne, h5⟩)
  rw [Prod.mk.injEq] at h6
  have h7 := labelInput_inj h6.2 (by rw [hP.hash, hP.hash])
  have h8 : a = a' := Classical.byContradiction fun hne => hn1 (.hello ⟨hne, h7⟩)
  have h9 : b = b' := Classical.byContradiction fun hne => hn1 (.transcript ⟨hne, h3⟩)
  exact hn (.inl ⟨h6.1, h8, h9⟩)

/-- The length of the verify data tells the hash function. -/
theorem hash_of_size {s s' : Nat} {p p' : Params} (h : suiteParams s = some p) (h' : suiteParams s' = some p')
    (hs : p.hash.size = p'.hash.size) : p.hash = p'.hash := by
  simp only [suiteParams] at h h'
  repeat' split at h
  all_goals repeat' split at h'
  all_goals cases h; try cases h'
  all_goals first | rfl | (revert hs; decide)

/-! ### Messages from bytes -/

theorem marshal_inj {d : Bool} {m m' : Msg} {r r' : Bytes} (hf : Framed m) (hf' : Framed m')
    (h : m.marshal d ++ r = m'.marshal d ++ r') : m.msgType = m'.msgType ∧ m.body = m'.body ∧ r = r' ∧ m.marshal d = m'.marshal d := by
  have key : ∀ {a b : Bytes}, a = b → m.body.length = m'.body.length → a = m.body ++ r → b = m'.body ++ r' →
      m.body = m'.body ∧ r = r' := by
    rintro a b rfl hl h1 h2
    exact List.append_inj (h1.symm.trans h2) hl
  have hlen : ∀ {u v : Bytes}, beBytes 3 m.body.length ++ u = beBytes 3 m'.body.length ++ v →
      m.body.length = m'.body.length ∧ u = v := by
    intro u v he
    have := List.append_inj he (by rw [beBytes_length, beBytes_length])
    exact ⟨by
      have h1 := congrArg beNat this.1
      rwa [beNat_beBytes_of_lt (n := 3) (by simpa using hf.2), beNat_beBytes_of_lt (n := 3) (by simpa using hf'.2)] at h1, this.2⟩
  cases d with
  | false =>
    simp only [Msg.marshal, Bool.false_eq_true, if_false, List.cons_append, List.append_assoc, List.cons.injEq, hf.1, hf'.1] at h ⊢
    obtain ⟨h1, h2⟩ := h
    obtain ⟨h3, h4⟩ := hlen h2
    obtain ⟨h5, h6⟩ := List.append_inj h4 h3
    exact ⟨h1, h5, h6, h1, by rw [h5]⟩
  | true =>
    simp only [Msg.marshal, if_true, List.cons_append, List.append_assoc, List.cons.injEq, hf.1, hf'.1] at h ⊢
    obtain ⟨h1, h2⟩ := h
    obtain ⟨h3, h4⟩ := hlen h2
    obtain ⟨h5, h6⟩ := List.append_inj h4 (by rw [beBytes_length, beBytes_length])
    obtain ⟨h7, h8⟩ := List.append_inj h6 (by rw [beBytes_length, beBytes_length])
    obtain ⟨_, h9⟩ := hlen h8
    obtain ⟨h10, h11⟩ := List.append_inj h9 h3
    exact ⟨h1, h10, h11, h1, by rw [h10, h5, h7]⟩

theorem marshal_ne_nil (d : Bool) (m : Msg) : m.marshal d ≠ [] := by
  cases d <;> simp [Msg.marshal]

theorem said_cons (m : Msg) (ms : List Msg) : said (m :: ms) = (m.msgType, m.body) :: said ms := rfl
theorem said_append (a b : List Msg) : said (a ++ b) = said a ++ said b := by simp [said]

theorem wire_inj {d : Bool} : ∀ {ms ms' : List Msg}, (∀ m ∈ ms, Framed m) → (∀ m ∈ ms', Framed m) → wire d ms = wire d ms' →
    said ms = said ms'
  | [], [], _, _, _ => rfl
  | [], m :: ms, _, _, h => by
    rw [wire_nil, wire_cons] at h
    exact absurd (List.append_eq_nil_iff.1 h.symm).1 (marshal_ne_nil d m)
  | m :: ms, [], _, _, h => by
    rw [wire_nil, wire_cons] at h
    exact absurd (List.append_eq_nil_iff.1 h).1 (marshal_ne_nil d m)
  | m :: ms, m' :: ms', hf, hf', h => by
    rw [wire_cons, wire_cons] at h
    obtain ⟨h1, h2, h3, _⟩ := marshal_inj (hf m (List.mem_cons_self ..)) (hf' m' (List.mem_cons_self ..)) h
    rw [said_cons, said_cons, h1, h2, wire_inj (fun a ha => hf a (List.mem_cons_of_mem _ ha))
      (fun a ha => hf' a (List.mem_cons_of_mem _ ha)) h3]

/-- A first message can be read off bytes that start with it. -/
theorem wire_cons_inj {d : Bool} {m m' : Msg} {r r' : Bytes} (hf : Framed m) (hf' : Framed m')
    (h : wire d [m] ++ r = wire d [m'] ++ r') : said [m] = said [m'] ∧ r = r' := by
  simp only [wire_cons, wire_nil, List.append_nil] at h
  obtain ⟨h1, h2, h3, _⟩ := marshal_inj hf hf' h
  exact ⟨by simp [said, h1, h2], h3⟩

theorem wire_head (d : Bool) (m : Msg) (ms : List Msg) : ∃ r, wire d (m :: ms) = m.msgType :: r := by
  rw [wire_cons]
  cases d <;> simp [Msg.marshal]

/-! ### The hellos -/

theorem retry_type {m : Msg} (h : letterOf m = .helloRetryRequest) : m.msgType = 2 := by
  simp only [letterOf] at h
  repeat' split at h
  all_goals first | assumption | cases h

theorem hellos_eq {P : Prims} (hP : P.Sized) {h : HashId} {d : Bool} {cfg : Config} {hellos retries : List Msg} {t t' : Bytes}
    {hello hello' sh sh' : Msg} {suite : UInt16} {exts : List Ext} {p : Params}
    (hc : HelloTranscript P h d hellos retries t) (hlast : hellos.getLast? = some hello) (hty : ∀ m ∈ hellos, m.msgType = 1)
    (hrt : ∀ m ∈ retries, letterOf m = .helloRetryRequest) (hs : ServerHellos d cfg suite exts hello' t')
    (hty' : hello'.msgType = 1) (hsu : suiteParams suite.toNat = some p) (hh : h = p.hash) (sound : SoundCookies cfg)
    (f1 : ∀ m ∈ hellos, Framed m) (f2 : ∀ m ∈ retries, Framed m) (f3 : Framed hello') (f4 : Framed sh) (f5 : Framed sh')
    (he : t ++ wire d [sh] = t' ++ wire d [sh']) : said [hello, sh] = said [hello', sh'] ∧ t = t' := by
  cases hc with
  | plain ch =>
    simp only [List.getLast?_singleton, Option.some.injEq] at hlast
    subst hlast
    have hch := hty ch (List.mem_singleton.2 rfl)
    cases hs with
    | plain =>
      have h1 : wire d [ch, sh] = wire d [hello', sh'] := by
        rw [show [ch, sh] = [ch] ++ [sh] from rfl, show [hello', sh'] = [hello'] ++ [sh'] from rfl, wire_append, wire_append]
        exact he
      refine ⟨wire_inj (by simp [f1 ch, f4]) (by simp [f3, f5]) h1, ?_⟩
      have h2 : ch.marshal d ++ wire d [sh] = hello'.marshal d ++ wire d [sh'] := by
        rw [← wire_cons, ← wire_cons]; exact h1
      have h3 := marshal_inj (f1 ch (List.mem_singleton.2 rfl)) f3 h2
      simp [wire, h3.2.2.2]
    | cookie c plain hash app prot rs =>
      obtain ⟨r, hr⟩ := wire_head d ch []
      rw [hr, hch] at he
      simp [helloHash] at he
  | retry chs rs ch1 hrr ch2 =>
    have hch2 : ch2 = hello := by
      simpa [List.getLast?_append] using hlast
    subst hch2
    cases hs with
    | plain =>
      obtain ⟨r, hr⟩ := wire_head d hello' []
      rw [hr, hty'] at he
      simp [helloHash] at he
    | cookie c plain hash app prot rs' _ _ hprot hdec hcook _ hrs =>
      obtain ⟨q, hq, hql⟩ := sound prot c plain suite hash app hprot hdec hcook
      rw [hsu, Option.some.injEq] at hq
      subst hq
      simp only [helloHash, List.append_assoc] at he
      have h1 := List.append_cancel_left he
      obtain ⟨h2, h3⟩ := List.append_inj h1 (by rw [hP.hash, hql, hh])
      have fr : Framed hrr := f2 hrr (by simp)
      have tr : hrr.msgType = 2 := retry_type (hrt hrr (by simp))
      rcases hrs with ⟨_, rfl⟩ | ⟨_, hrr', rfl, tr', fr'⟩
      · obtain ⟨r, hr⟩ := wire_head d hrr [ch2]
        obtain ⟨r', hr'⟩ := wire_head d hello' []
        rw [hr, List.nil_append, hr', tr, hty'] at h3
        simp at h3
      · have h4 : wire d [hrr, ch2, sh] = wire d [hrr', hello', sh'] := by
          rw [show [hrr, ch2, sh] = [hrr, ch2] ++ [sh] from rfl, show [hrr', hello', sh'] = [hrr', hello'] ++ [sh'] from rfl,
            wire_append, wire_append]
          exact h3
        have f6 : Framed ch2 := f1 ch2 (by simp)
        have h5 := wire_inj (d := d) (by simp [fr, f6, f4]) (by simp [fr', f3, f5]) h4
        rw [wire_cons, wire_cons] at h4
        have h6 := marshal_inj fr fr' h4
        have h7 : ch2.marshal d ++ wire d [sh] = hello'.marshal d ++ wire d [sh'] := by
          rw [← wire_cons, ← wire_cons]; exact h6.2.2.1
        have h8 := marshal_inj f6 f3 h7
        refine ⟨?_, ?_⟩
        · rw [said_cons, said_cons] at h5
          exact (List.cons.inj h5).2
        · rw [h2]
          simp [helloHash, wire, h6.2.2.2, h8.2.2.2]

/-! ### Agreement -/

/-- What two flights have in common if their Finished does. -/
theorem agree_core {P : Prims} {d : Bool} {F G : Flight} {hello hello' : Msg} (hh : F.h = G.h)
    (hk : F.handshake P = G.handshake P) (hsh : said [hello, F.sh] = said [hello', G.sh]) (ht : F.hellos = G.hellos)
    (hre : said (F.ee :: F.auth ++ [F.fin]) = said (G.ee :: G.auth ++ [G.fin])) (hf : F.toFinished d = G.toFinished d) :
    Agreed P d F hello G hello' := by
  refine ⟨hh, ht, ?_, hf, hk⟩
  have := congr (congrArg List.append hsh) hre
  exact this

theorem Agreed.secrets {P : Prims} {d : Bool} {F G : Flight} {hello hello' : Msg} (a : Agreed P d F hello G hello') {ms : List Msg}
    {nc ns : Nat} {s : Connected} (hs : HasSecrets P d F ms nc ns s) : HasSecrets P d G ms nc ns s := by
  have hm : F.master P = G.master P := by simp [Flight.master, a.hash, a.handshakeSecret]
  obtain ⟨h1, h2, h3, h4⟩ := hs
  refine ⟨?_, ?_, ?_, ?_⟩
  · rw [h1]; simp [Flight.exporter, hm, a.hash, a.transcript]
  · rw [h2]; simp [Flight.resumption, hm, a.hash, a.transcript]
  · rw [h3]; simp [Flight.clientAp, hm, a.hash, a.transcript]
  · rw [h4]; simp [Flight.serverAp, hm, a.hash, a.transcript]

/-- The messages an end has to do with in a handshake. -/
theorem clientView_framed {E : Env} {d : Bool} {cfg : Config} {es : List (Event × Coins)} {acts : List Action} {s : Connected}
    (v : ClientView E d cfg es acts s) (hr : ∀ m ∈ received es, Framed m) (hs : ∀ m ∈ sent acts, Framed m) :
    (∀ m ∈ v.hellos, Framed m) ∧ (∀ m ∈ v.retries, Framed m) ∧ Framed v.F.sh ∧
      (∀ m ∈ v.F.ee :: v.F.auth ++ [v.F.fin], Framed m) ∧ (∀ m ∈ v.eoed ++ v.cauth, Framed m) ∧ Framed v.cfin := by
  rw [v.got] at hr
  rw [v.out] at hs
  refine ⟨fun m hm => hs m (by simp [hm]), fun m hm => hr m (by simp [hm]), hr _ (by simp), fun m hm => hr m ?_,
    fun m hm => hs m ?_, hs _ (by simp)⟩
  · simp only [List.cons_append, List.mem_cons, List.mem_append, List.not_mem_nil, or_false] at hm ⊢
    rcases hm with h | h | h <;> simp [h]
  · simp only [List.mem_append] at hm ⊢
    rcases hm with h | h <;> simp [h]

theorem serverFlight_framed {E : Env} {d : Bool} {cfg : Config} {es : List (Event × Coins)} {acts : List Action}
    (v : ServerFlight E d cfg es acts) (hr : ∀ m ∈ received es, Framed m) (hs : ∀ m ∈ sent acts, Framed m) :
    Framed v.hello ∧ Framed v.F.sh ∧ (∀ m ∈ v.F.ee :: v.F.auth ++ [v.F.fin], Framed m) := by
  rw [v.got] at hr
  rw [v.out_eq] at hs
  refine ⟨hr _ (by simp), hs _ (by simp), fun m hm => hs m ?_⟩
  simp only [List.cons_append, List.mem_cons, List.mem_append, List.not_mem_nil, or_false] at hm ⊢
  rcases hm with h | h | h <;> simp [h]

/-- The verify data of a server's Finished, if both ends have the same, makes them agree. -/
theorem agree_server_finished {E : Env} (hP : E.P.Sized) {d : Bool} {ccfg scfg : Config} {es es' : List (Event × Coins)}
    {acts acts' : List Action} {s : Connected} (v : ClientView E d ccfg es acts s) (w : ServerFlight E d scfg es' acts')
    (sound : SoundCookies scfg)
    (f1 : ∀ m ∈ received es, Framed m) (f2 : ∀ m ∈ sent acts, Framed m) (f3 : ∀ m ∈ received es', Framed m)
    (f4 : ∀ m ∈ sent acts', Framed m) (hfin : wire d [v.F.fin] = wire d [w.F.fin]) :
    Agreed E.P d v.F v.hello w.F w.hello ∨
    FinishedBroken E.P v.F.h (ascii "s hs traffic") (v.F.handshake E.P) (v.F.toServerHello d) (v.F.toServerAuth d)
      (w.F.handshake E.P) (w.F.toServerHello d) (w.F.toServerAuth d) := by
  obtain ⟨g1, g2, g3, g4, _, _⟩ := clientView_framed v f1 f2
  obtain ⟨g5, g6, g7⟩ := serverFlight_framed w f3 f4
  have hbody : v.F.fin.body = w.F.fin.body := by
    have := wire_inj (d := d) (ms := [v.F.fin]) (ms' := [w.F.fin]) (by simpa using g4 v.F.fin (by simp))
      (by simpa using g7 w.F.fin (by simp)) hfin
    simp [said] at this
    exact this.2
  have hh : v.F.h = w.F.h := by
    have h1 := congrArg List.length hbody
    rw [v.fin, w.fin, Flight.serverVerify, Flight.serverVerify, finishedMac, finishedMac, hP.hmac, hP.hmac, v.hash, w.hash] at h1
    rw [v.hash, w.hash]
    exact hash_of_size v.suite w.suite h1
  have hz : 0 < v.F.h.size := by rw [v.hash]; exact suiteParams_size v.suite
  rw [v.fin, w.fin, Flight.serverVerify, Flight.serverVerify, Flight.serverHs, Flight.serverHs, ← hh, serverHsTraffic,
    serverHsTraffic] at hbody
  rcases finished_eq hP hz hbody with ⟨h1, h2, h3⟩ | h1
  · refine .inl ?_
    obtain ⟨h4, h5⟩ := hellos_eq hP v.transcript v.lastHello v.helloTypes v.retryTypes w.transcript w.helloType w.suite
      (hh.trans w.hash) sound g1 g2 g5 g3 g6 h2
    have h6 : v.F.toFinished d = w.F.toFinished d := by rw [Flight.toFinished, Flight.toFinished, h3, hfin]
    refine agree_core hh h1 h4 h5 ?_ h6
    refine wire_inj (d := d) g4 g7 ?_
    rw [wire_append, wire_append, hfin]
    rw [Flight.toServerAuth, Flight.toServerAuth, h2] at h3
    rw [List.append_cancel_left h3]
  · exact .inr h1

/-! ### There is one Finished -/

/-- The number of Finished messages. -/
def finishes (ms : List Msg) : Nat := (ms.filter fun m => m.msgType == 20).length

theorem finishes_append (a b : List Msg) : finishes (a ++ b) = finishes a + finishes b := by simp [finishes]

theorem finishes_zero {ms : List Msg} (h : ∀ m ∈ ms, m.msgType ≠ 20) : finishes ms = 0 := by
  simp only [finishes, List.length_eq_zero_iff, List.filter_eq_nil_iff]
  intro m hm; simpa using h m hm

theorem finishes_unique {ms : List Msg} (h : finishes ms ≤ 1) {a b : Msg} (ha : a ∈ ms) (hb : b ∈ ms) (hta : a.msgType = 20)
    (htb : b.msgType = 20) : a = b := by
  have h1 : a ∈ ms.filter fun m => m.msgType == 20 := List.mem_filter.2 ⟨ha, by simp [hta]⟩
  have h2 : b ∈ ms.filter fun m => m.msgType == 20 := List.mem_filter.2 ⟨hb, by simp [htb]⟩
  simp only [finishes] at h
  cases hl : ms.filter fun m => m.msgType == 20 with
  | nil => rw [hl] at h1; cases h1
  | cons c r =>
    rw [hl] at h h1 h2
    cases r with
    | nil => rw [List.mem_singleton.1 h1, List.mem_singleton.1 h2]
    | cons d r => simp at h

theorem letter_finished_iff {m : Msg} : letterOf m = .finished ↔ m.msgType = 20 := by
  constructor
  · intro h
    simp only [letterOf] at h
    repeat' split at h
    all_goals first | assumption | cases h
  · intro h
    simp [letterOf, h]

theorem finishes_received (es : List (Event × Coins)) : finishes (received es) = (word es).count .finished := by
  induction es with
  | nil => rfl
  | cons e es ih =>
    obtain ⟨e, c⟩ := e
    have hw : word ((e, c) :: es) = Event.letter e :: word es := rfl
    rw [hw, List.count_cons, ← ih]
    cases e with
    | msg m =>
      have : received ((Event.msg m, c) :: es) = [m] ++ received es := rfl
      rw [this, finishes_append, Nat.add_comm]
      congr 1
      by_cases h : m.msgType = 20
      · have := letter_finished_iff.2 h
        simp [finishes, h, Spec.Event.letter, this]
      · have : letterOf m ≠ .finished := fun h' => h (letter_finished_iff.1 h')
        simp [finishes, h, Spec.Event.letter, this]
    | appData d => simp [received, Spec.Event.letter, finishes]
    | bad => simp [received, Spec.Event.letter, finishes]

theorem count_zero_of {l : List Letter} (h : ∀ a ∈ l, a ≠ .finished) : l.count .finished = 0 :=
  List.count_eq_zero.2 fun hm => h _ hm rfl

theorem client_one_finished {E : Env} {x x' : Ctx} {cfg : Config} {c : Coins} {es : List (Event × Coins)} {s : Connected}
    {acts : List Action} (h : clientRun E x cfg c es = .ok (.connected s, acts, x')) : finishes (received es) ≤ 1 := by
  obtain ⟨n, r, psk, auth, post, _, hauth, hpost, hw⟩ := clientAt h
  rw [finishes_received, hw]
  simp only [List.count_append]
  have h1 : auth.count .finished = 0 := by
    rcases hauth with ⟨_, rfl⟩ | ⟨_, e, rfl | rfl⟩ <;> simp
  have h2 : post.count .finished = 0 := by
    refine count_zero_of fun a ha => ?_
    rcases hpost a ha with h | h | h <;> simp [h]
  have h3 : (List.replicate r Letter.helloRetryRequest).count .finished = 0 := by simp [List.count_replicate]
  rw [h1, h2, h3]
  simp

theorem server_one_finished {E : Env} {x x' : Ctx} {cfg : Config} {es : List (Event × Coins)} {s : SState}
    {acts : List Action} (h : serverRun E x cfg es = .ok (s, acts, x')) : finishes (sent acts) ≤ 1 := by
  have := serverRun_induct (cfg := cfg)
    (fun es s acts x' => serverRun E x cfg es = .ok (s, acts, x') ∧ finishes (sent acts) ≤ 1) ?_ ?_ h
  · exact this.2
  · exact ⟨rfl, by simp [sent, finishes]⟩
  · rintro es s acts x1 e ce s' acts' x2 ⟨hrun, ih⟩ hst
    refine ⟨SState.run_ok_snoc hrun hst.step, ?_⟩
    rw [sent_append, finishes_append]
    have keep : (∀ m ∈ sent acts', m.msgType ≠ 20) → finishes (sent acts) + finishes (sent acts') ≤ 1 := by
      intro h; rw [finishes_zero h]; exact ih
    cases hst with
    | skip => exact keep (by simp [sent])
    | early => exact keep (by simp [sent])
    | retry s0 m hrr _ next =>
      refine keep ?_
      have hr := only_retries (SState.run_ok_snoc hrun (SStep.step (.retry (c := ce) s0 m hrr _ next)))
      intro m' hm'
      have := retry_type (hr m' (by rw [sent_append]; exact List.mem_append.2 (.inr hm')))
      rw [this]; decide
    | hello s0 m n y1 s' _ _ next neg =>
      have h0 : finishes (sent acts) = 0 := by
        refine finishes_zero fun m hm => ?_
        rw [retry_type (only_retries hrun m hm)]; decide
      obtain ⟨f, _, hf⟩ := SNegotiated.next_ok neg
      have hacts : sent acts' = sent f.sent := by
        rcases hf with ⟨_, _, _, _, rfl⟩ | ⟨_, _, _, rfl⟩ | ⟨_, _, _, rfl⟩ <;> simp [sent]
      have hauth : ∀ m ∈ sent f.acts, m.msgType ≠ 20 := by
        intro m hm
        rcases serverAuth_ok f.authOk with ⟨_, h1, _⟩ | ⟨_, a1, _, _, _, mc, _, _, mv, hreq, _, hmc, _, hmv, h1, _⟩
        · rw [h1] at hm; cases hm
        · rw [h1, sent_append] at hm
          rcases List.mem_append.1 hm with hm | hm
          · rcases serverRequest_ok hreq with ⟨_, rfl, _⟩ | ⟨_, _, mr, _, hmr, rfl, _⟩
            · cases hm
            · simp [sent] at hm
              rw [hm, mkMsg_type hmr]; simp [Body.type, typeCertificateRequest]
          · simp [sent] at hm
            rcases hm with rfl | rfl
            · rw [mkMsg_type hmc]; simp [certBody, Body.type, typeCertificate]
            · rw [mkMsg_type hmv]; simp [Body.type, typeCertificateVerify]
      rw [h0, hacts, NegFacts.sent, sent_append, sent_append, finishes_append, finishes_append, finishes_zero hauth]
      have h1 : finishes (sent [.queue f.sh, .rekeyOut epochHandshake f.serverKeys, .queue f.ee]) = 0 := by
        refine finishes_zero ?_
        intro m hm
        simp [sent] at hm
        rcases hm with rfl | rfl
        · rw [mkMsg_type f.shOk]; simp [Body.type, typeServerHello]
        · rw [mkMsg_type f.eeOk]; simp [Body.type, typeEncryptedExtensions]
      have h2 : finishes (sent [.queue f.fin, .sendQueued, .rekeyOut epochApplication f.serverApKeys]) ≤ 1 := by
        simp only [finishes]
        exact Nat.le_trans (List.length_filter_le ..) (by simp [sent])
      omega
    | eoed s m s' _ _ next =>
      obtain ⟨_, _, _, _, _, _, rfl⟩ := SWait.nextEOED_ok next
      exact keep (by simp [sent])
    | cert s m s' _ _ next =>
      obtain ⟨_, rfl, _⟩ := SWait.nextCert_ok next
      exact keep (by simp [sent])
    | cv s m s' _ _ next =>
      obtain ⟨_, rfl, _⟩ := SWaitCV.next_ok next
      exact keep (by simp [sent])
    | finished s m s' _ _ next =>
      obtain ⟨_, _, _, _, _, _, _, _, _, _, _, _, rfl⟩ := SWaitFinished.next_ok next
      exact keep (by simp [sent])
    | post s m s' _ _ next => exact keep fun m hm => by rw [process_sends next m hm]; decide
    | data => exact keep (by simp [sent])

theorem client_sends_one {E : Env} {d : Bool} {cfg : Config} {es : List (Event × Coins)} {acts : List Action} {s : Connected}
    (v : ClientView E d cfg es acts s) : finishes (sent acts) ≤ 1 := by
  rw [v.out]
  simp only [finishes_append]
  have h1 : finishes v.hellos = 0 := finishes_zero fun m hm => by rw [v.helloTypes m hm]; decide
  have h2 : finishes v.eoed = 0 := by
    rcases v.eoedOk with ⟨_, h⟩ | ⟨_, m, h, ht, _⟩
    · rw [h]; rfl
    · rw [h]; exact finishes_zero fun a ha => by rw [List.mem_singleton.1 ha, ht]; decide
  have h3 : finishes v.cauth = 0 := by
    rcases v.cauthOk with ⟨_, h⟩ | ⟨_, m, h, ht⟩ | ⟨_, _, _, m, mv, h, ht, _, _, _, htv⟩
    · rw [h]; rfl
    · rw [h]; exact finishes_zero fun a ha => by rw [List.mem_singleton.1 ha, ht]; decide
    · rw [h]
      refine finishes_zero fun a ha => ?_
      simp only [List.mem_cons, List.not_mem_nil, or_false] at ha
      rcases ha with rfl | rfl
      · rw [ht]; decide
      · rw [htv]; decide
  have h4 : finishes v.postOut = 0 := finishes_zero fun m hm => by rw [v.postOutTypes m hm]; decide
  have h5 : finishes [v.cfin] ≤ 1 := List.length_filter_le ..
  omega

theorem server_reads_one {E : Env} {x x' : Ctx} {cfg : Config} {es : List (Event × Coins)} {s : Connected}
    {acts : List Action} (h : serverRun E x cfg es = .ok (.connected s, acts, x')) : finishes (received es) ≤ 1 := by
  obtain ⟨n, r, early, auth, post, _, hearly, hauth, hpost, hw⟩ := (serverAt h).2
  rw [finishes_received, hw]
  simp only [List.count_append]
  have h1 : early.count .finished = 0 := by
    rcases hearly with ⟨_, n, rfl⟩ | ⟨_, n, rfl⟩ <;> simp [List.count_replicate]
  have h2 : auth.count .finished = 0 := by
    rcases hauth with ⟨_, rfl⟩ | ⟨_, rfl | rfl⟩ <;> simp
  have h3 : post.count .finished = 0 := by
    refine count_zero_of fun a ha => ?_
    rcases hpost a ha with h | h <;> simp [h]
  have h4 : (List.replicate r Letter.clientHello).count .finished = 0 := by simp [List.count_replicate]
  rw [h1, h2, h3, h4]
  simp

/-! ### What follows for the parameters -/

theorem asks_said (ms : List Msg) : asksCertificate ms = (said ms).any fun p => p.1 == 13 := by
  simp [asksCertificate, said, List.any_map]; rfl

theorem protocol_unique {exts : List Ext} {a b : Bytes} (ha : NamesProtocol exts a) (hb : NamesProtocol exts b) : a = b := by
  rcases ha with ⟨h1, rfl⟩ | ⟨d, ps, h1, h2, rfl⟩ <;> rcases hb with ⟨h3, rfl⟩ | ⟨d', ps', h3, h4, rfl⟩
  · rfl
  · rw [h1] at h3; cases h3
  · rw [h1] at h3; cases h3
  · rw [h1] at h3
    cases h3
    rw [h2] at h4
    cases h4
    rfl

theorem agreed_params {E : Env} {d : Bool} {ccfg scfg : Config} {es es' : List (Event × Coins)}
    {acts acts' : List Action} {s : Connected} (v : ClientView E d ccfg es acts s) (w : ServerFlight E d scfg es' acts')
    (a : Agreed E.P d v.F v.hello w.F w.hello) : v.sh = w.sh ∧ v.ee = w.ee ∧ v.p = w.p ∧
      selectsFirstPsk v.sh.exts = w.psk.isSome ∧ asksCertificate v.F.auth = asksCertificate w.F.auth := by
  have h := a.messages
  simp only [List.cons_append, said_cons, List.cons.injEq, Prod.mk.injEq, said_append] at h
  obtain ⟨_, ⟨_, h1⟩, ⟨_, h2⟩, h3⟩ := h
  have h4 := (List.append_inj' h3 rfl).1
  obtain ⟨n, h5⟩ := v.shBody
  have h6 : v.sh = w.sh := by
    rw [h1, w.shBody] at h5
    simp only [Res.ok.injEq, Prod.mk.injEq] at h5
    exact h5.1.symm
  have h7 : v.ee = w.ee := by
    have := v.eeBody
    rw [h2, w.eeBody] at this
    simp only [Res.ok.injEq, Prod.mk.injEq, and_true] at this
    exact this.symm
  refine ⟨h6, h7, ?_, ?_, ?_⟩
  · have := v.suite
    rw [h6, w.suite] at this
    exact (Option.some.inj this).symm
  · have hlen : v.F.auth.length = w.F.auth.length := by simpa [said] using congrArg List.length h4
    cases v.auth with
    | psk hs hn =>
      rw [hs]
      cases w.auth with
      | psk hs' _ => rw [hs']
      | cert _ _ _ req mc mv ha => rw [hn, ha] at hlen; simp at hlen
    | cert hs req mc mv ha =>
      rw [hs]
      cases w.auth with
      | psk hs' hn => rw [hn, ha] at hlen; simp at hlen
      | cert hs' => rw [hs']
  · rw [asks_said, asks_said, h4]

/-! ### The client's Finished -/

theorem wire_length {d : Bool} : ∀ {a b : List Msg}, said a = said b → (wire d a).length = (wire d b).length
  | [], [], _ => rfl
  | [], b :: bs, h => by simp [said] at h
  | a :: as, [], h => by simp [said] at h
  | a :: as, b :: bs, h => by
    rw [said_cons, said_cons, List.cons.injEq, Prod.mk.injEq] at h
    rw [wire_cons, wire_cons, List.length_append, List.length_append, wire_length h.2]
    congr 1
    cases d <;> simp [Msg.marshal, h.1.2, beBytes_length]

theorem split_at_finished : ∀ {a a' r r' : List (UInt8 × Bytes)} {f f' : UInt8 × Bytes}, (∀ m ∈ a, m.1 ≠ 20) →
    (∀ m ∈ a', m.1 ≠ 20) → f.1 = 20 → f'.1 = 20 → a ++ f :: r = a' ++ f' :: r' → a = a' ∧ f = f' ∧ r = r'
  | [], [], _, _, _, _, _, _, _, _, h => by simpa using h
  | [], b :: bs, _, _, _, _, _, h2, h3, _, h => by
    simp only [List.nil_append, List.cons_append, List.cons.injEq] at h
    exact absurd (h.1 ▸ h3) (h2 b (List.mem_cons_self ..))
  | b :: bs, [], _, _, _, _, h1, _, _, h4, h => by
    simp only [List.nil_append, List.cons_append, List.cons.injEq] at h
    exact absurd (h.1 ▸ h4) (h1 b (List.mem_cons_self ..))
  | b :: bs, c :: cs, _, _, _, _, h1, h2, h3, h4, h => by
    simp only [List.cons_append, List.cons.injEq] at h
    obtain ⟨h5, h6, h7⟩ := split_at_finished (fun m hm => h1 m (List.mem_cons_of_mem _ hm))
      (fun m hm => h2 m (List.mem_cons_of_mem _ hm)) h3 h4 h.2
    exact ⟨by rw [h.1, h5], h6, h7⟩

theorem said_types {ms : List Msg} (h : ∀ m ∈ ms, m.msgType ≠ 20) : ∀ p ∈ said ms, p.1 ≠ 20 := by
  intro p hp
  obtain ⟨m, hm, rfl⟩ := List.mem_map.1 hp
  exact h m hm

theorem authed_types {E : Env} {d : Bool} {cfg : Config} {h : HashId} {t : Bytes} {psk : Bool} {auth : List Msg} {certs : List Bytes}
    {chains : List (List Bytes)} (ha : ServerAuthed E d cfg h t psk auth certs chains) : ∀ m ∈ auth, m.msgType ≠ 20 := by
  intro m hm
  cases ha with
  | psk _ hn => rw [hn] at hm; cases hm
  | cert _ req mc mv ha hr hc _ _ hv =>
    rw [ha] at hm
    rcases List.mem_append.1 hm with hm | hm
    · rcases hr with rfl | ⟨mr, rfl, hr⟩
      · cases hm
      · rw [List.mem_singleton.1 hm, hr]; decide
    · simp only [List.mem_cons, List.not_mem_nil, or_false] at hm
      rcases hm with rfl | rfl
      · rw [hc]; decide
      · rw [hv]; decide

theorem authSent_types {E : Env} {d : Bool} {cfg : Config} {h : HashId} {t : Bytes} {psk : Bool} {auth : List Msg}
    (ha : ServerAuthSent E d cfg h t psk auth) : ∀ m ∈ auth, m.msgType ≠ 20 := by
  intro m hm
  cases ha with
  | psk _ hn => rw [hn] at hm; cases hm
  | cert _ cert own req mc mv ha hr hc _ _ _ hv =>
    rw [ha] at hm
    rcases List.mem_append.1 hm with hm | hm
    · rcases hr with ⟨_, rfl⟩ | ⟨_, mr, rfl, hr⟩
      · cases hm
      · rw [List.mem_singleton.1 hm, hr]; decide
    · simp only [List.mem_cons, List.not_mem_nil, or_false] at hm
      rcases hm with rfl | rfl
      · rw [hc]; decide
      · rw [hv]; decide

/-- The verify data of a client's Finished, if both ends have the same, makes them agree on everything. -/
theorem agree_client_finished {E : Env} (hP : E.P.Sized) {d : Bool} {ccfg scfg : Config} {es es' : List (Event × Coins)}
    {acts acts' : List Action} {s t : Connected} (v : ClientView E d ccfg es acts s) (w : ServerView E d scfg es' acts' t)
    (sound : SoundCookies scfg)
    (f1 : ∀ m ∈ received es, Framed m) (f2 : ∀ m ∈ sent acts, Framed m) (f3 : ∀ m ∈ received es', Framed m)
    (f4 : ∀ m ∈ sent acts', Framed m) (hfin : wire d [v.cfin] = wire d [w.cfin]) :
    (Agreed E.P d v.F v.hello w.F w.hello ∧ said (v.eoed ++ v.cauth ++ [v.cfin]) = said (w.eoed ++ w.cauth ++ [w.cfin]) ∧
      wire d (v.eoed ++ v.cauth ++ [v.cfin]) = wire d (w.eoed ++ w.cauth ++ [w.cfin])) ∨
    FinishedBroken E.P v.F.h (ascii "c hs traffic")
      (v.F.handshake E.P) (v.F.toServerHello d) (v.F.toFinished d ++ wire d (v.eoed ++ v.cauth))
      (w.F.handshake E.P) (w.F.toServerHello d) (w.F.toFinished d ++ wire d (w.eoed ++ w.cauth)) := by
  obtain ⟨g1, g2, g3, g4, g8, g9⟩ := clientView_framed v f1 f2
  obtain ⟨g5, g6, g7⟩ := serverFlight_framed w.toServerFlight f3 f4
  have g10 : ∀ m ∈ w.eoed ++ w.cauth ++ [w.cfin], Framed m := by
    intro m hm
    refine f3 m ?_
    rw [w.got, w.rest_eq]
    exact List.mem_append_right _ (List.mem_append_left _ hm)
  have hbody : v.cfin.body = w.cfin.body := by
    have := wire_inj (d := d) (ms := [v.cfin]) (ms' := [w.cfin]) (by simpa using g9)
      (by simpa using g10 w.cfin (by simp)) hfin
    simp [said] at this
    exact this.2
  have hh : v.F.h = w.F.h := by
    have h1 := congrArg List.length hbody
    rw [v.cfinBody, w.cfinBody, Flight.clientVerify, Flight.clientVerify, finishedMac, finishedMac, hP.hmac, hP.hmac, v.hash,
      w.hash] at h1
    rw [v.hash, w.hash]
    exact hash_of_size v.suite w.suite h1
  have hz : 0 < v.F.h.size := by rw [v.hash]; exact suiteParams_size v.suite
  rw [v.cfinBody, w.cfinBody, Flight.clientVerify, Flight.clientVerify, Flight.clientHs, Flight.clientHs, ← hh, clientHsTraffic,
    clientHsTraffic] at hbody
  rcases finished_eq hP hz hbody with ⟨h1, h2, h3⟩ | h1
  · refine .inl ?_
    obtain ⟨h4, h5⟩ := hellos_eq hP v.transcript v.lastHello v.helloTypes v.retryTypes w.transcript w.helloType w.suite
      (hh.trans w.hash) sound g1 g2 g5 g3 g6 h2
    have expand : ∀ F : Flight, ∀ ms, F.toFinished d ++ wire d ms =
        F.toServerHello d ++ wire d (F.ee :: F.auth ++ [F.fin] ++ ms) := by
      intro F ms; simp [Flight.toFinished, Flight.toServerAuth, wire]
    rw [expand, expand, h2] at h3
    have h6 := List.append_cancel_left h3
    have h7 := wire_inj (d := d) (fun m hm => (List.mem_append.1 hm).elim (g4 m) (g8 m))
      (fun m hm => (List.mem_append.1 hm).elim (g7 m) (fun h => g10 m (List.mem_append_left _ h))) h6
    have h8 : said (v.F.ee :: v.F.auth) ++ (v.F.fin.msgType, v.F.fin.body) :: said (v.eoed ++ v.cauth) =
        said (w.F.ee :: w.F.auth) ++ (w.F.fin.msgType, w.F.fin.body) :: said (w.eoed ++ w.cauth) := by
      have e : ∀ F : Flight, ∀ ms, said (F.ee :: F.auth) ++ (F.fin.msgType, F.fin.body) :: said ms =
          said (F.ee :: F.auth ++ [F.fin] ++ ms) := by intro F ms; simp [said]
      rw [e, e]; exact h7
    obtain ⟨h9, h10, h11⟩ := split_at_finished
      (said_types (by
        intro m hm
        rcases List.mem_cons.1 hm with rfl | hm
        · rw [v.eeType]; decide
        · exact authed_types v.auth m hm))
      (said_types (by
        intro m hm
        rcases List.mem_cons.1 hm with rfl | hm
        · rw [w.eeType]; decide
        · exact authSent_types w.auth m hm)) v.finType w.finType h8
    have h12 : said (v.F.ee :: v.F.auth ++ [v.F.fin]) = said (w.F.ee :: w.F.auth ++ [w.F.fin]) := by
      rw [said_append, said_append, h9]
      simp [said, h10]
    have h6' : wire d (v.F.ee :: v.F.auth ++ [v.F.fin]) ++ wire d (v.eoed ++ v.cauth) =
        wire d (w.F.ee :: w.F.auth ++ [w.F.fin]) ++ wire d (w.eoed ++ w.cauth) := by
      rw [← wire_append, ← wire_append]; exact h6
    obtain ⟨h13, h14⟩ := List.append_inj h6' (wire_length h12)
    have hone := wire_inj (d := d) (ms := [v.cfin]) (ms' := [w.cfin]) (by simpa using g9) (by simpa using g10 w.cfin (by simp)) hfin
    refine ⟨agree_core hh h1 h4 h5 h12 ?_, ?_, ?_⟩
    · have e1 := expand v.F []
      have e2 := expand w.F []
      rw [wire_nil, List.append_nil, List.append_nil] at e1 e2
      rw [e1, e2, h2, h13]
    · rw [said_append (v.eoed ++ v.cauth), said_append (w.eoed ++ w.cauth), h11, hone]
    · rw [wire_append d (v.eoed ++ v.cauth), wire_append d (w.eoed ++ w.cauth), h14, hfin]
  · exact .inr h1

end Verif.Machine

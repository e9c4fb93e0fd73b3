import Verif.Machine.Link
import Verif.Machine.ClientLemmas
import Verif.Machine.ClientView
import Verif.Machine.Secrets
import Verif.Props.Messages

/-
The invariant of a link: the records in flight lead from the reader's secret to the writer's.
-/

namespace Verif.Machine

open Verif Verif.Crypto Verif.Messages Verif.Handshake Verif.Spec

/-- The label of the secret for one direction. -/
def dirLabel (toServer : Bool) : Bytes := if toServer then ascii "c ap traffic" else ascii "s ap traffic"

def dirSecret (toServer : Bool) (s : Connected) : Bytes := if toServer then s.clientAp else s.serverAp

def dirNext (P : Prims) (cp : Params) (toServer : Bool) (secret : Bytes) : Bytes :=
  expandLabel P cp.hash secret (dirLabel toServer) [] cp.hash.size

def keysOf (P : Prims) (cp : Params) (secret : Bytes) : Keys := trafficKeys P cp.hash cp.keyLen cp.ivLen secret

/-- The keys installed at an end. -/
structure EndOk (P : Prims) (cp : Params) (b : Bool) (e : Endpoint) : Prop where
  params : e.st.cp = cp
  role : e.st.isClient = b
  out : e.outKeys = keysOf P cp (dirSecret b e.st)
  in_ : e.inKeys = keysOf P cp (dirSecret (!b) e.st)

/-- Records that lead from one secret to another. -/
inductive Follows (E : Env) (cp : Params) (toServer : Bool) : List Packet → Bytes → Bytes → Prop where
  | nil (s : Bytes) : Follows E cp toServer [] s s
  | data (d : Bytes) (q : List Packet) (s t : Bytes) : Follows E cp toServer q s t →
      Follows E cp toServer ((keysOf E.P cp s, .data d) :: q) s t
  | update (m : Msg) (r : UInt8) (q : List Packet) (s t : Bytes) : toBody E.parses m.msgType m.body = .ok (.keyUpdate r) →
      Follows E cp toServer q (dirNext E.P cp toServer s) t → Follows E cp toServer ((keysOf E.P cp s, .msg m) :: q) s t
  | ticket (m : Msg) (tk : Ticket) (q : List Packet) (s t : Bytes) : toServer = false →
      toBody E.parses m.msgType m.body = .ok (.newSessionTicket tk) →
      Follows E cp toServer q s t → Follows E cp toServer ((keysOf E.P cp s, .msg m) :: q) s t

theorem Follows.append {E : Env} {cp : Params} {b : Bool} {q q' : List Packet} {s t u : Bytes} (h : Follows E cp b q s t)
    (h' : Follows E cp b q' t u) : Follows E cp b (q ++ q') s u := by
  induction h with
  | nil s => exact h'
  | data d q s t _ ih => exact .data d _ s _ (ih h')
  | update m r q s t hm _ ih => exact .update m r _ s _ hm (ih h')
  | ticket m tk q s t hb hm _ ih => exact .ticket m tk _ s _ hb hm (ih h')

theorem Follows.nil_eq {E : Env} {cp : Params} {b : Bool} {s t : Bytes} (h : Follows E cp b [] s t) : s = t := by
  generalize hq : ([] : List Packet) = q at h
  cases h with
  | nil => rfl
  | data => cases hq
  | update => cases hq
  | ticket => cases hq

theorem keyUpdate_body {E : Env} {x x' : Ctx} {r : UInt8} {m : Msg} (h : mkMsg x (.keyUpdate r) = .ok (m, x')) :
    toBody E.parses m.msgType m.body = .ok (.keyUpdate r) := by
  obtain ⟨d, hd, rfl, _⟩ := mkMsg_ok h
  exact C31_body_roundtrip_partial E.parses (.keyUpdate r) d trivial hd

theorem nextSecret_eq {P : Prims} (hP : P.Sized) {cp : Params} (hs : 0 < cp.hash.size) (label secret : Bytes) :
    nextSecret P cp.hash label secret = .ok (expandLabel P cp.hash secret label [] cp.hash.size) := by
  rw [nextSecret, hkdfExpandLabel_eq P hP _ hs]

theorem keyUpdate_total (x : Ctx) (r : UInt8) :
    ∃ m x', mkMsg x (.keyUpdate r) = .ok (m, x') ∧ m.msgType = 24 ∧ m.body = [r] := by
  have hd : (Body.keyUpdate r).marshal = .ok [r] := by
    simp [Body.marshal, keyUpdateTy, Syntax.marshal, Syntax.Ty.encode, Syntax.Fields.encode, Syntax.Width.bytes, beBytes]
    rw [if_pos (by decide)]
    simp [Syntax.Width.getNat]
  exact ⟨_, _, by simp only [mkMsg, hd, Res.bind_ok]; rfl, rfl, rfl⟩

theorem connected_keyUpdate {E : Env} (hP : E.P.Sized) (x : Ctx) (s : Connected) (hs : 0 < s.cp.hash.size) (r : UInt8) :
    ∃ s' m x', s.keyUpdate E x r = .ok (s', [.queue m, .sendQueued,
        .rekeyOut epochUpdate (keysOf E.P s.cp (dirNext E.P s.cp s.isClient (dirSecret s.isClient s)))], x') ∧
      toBody E.parses m.msgType m.body = .ok (.keyUpdate r) ∧
      m.msgType = 24 ∧ m.body = [r] ∧ s'.cp = s.cp ∧ s'.isClient = s.isClient ∧
      dirSecret s.isClient s' = dirNext E.P s.cp s.isClient (dirSecret s.isClient s) ∧
      dirSecret (!s.isClient) s' = dirSecret (!s.isClient) s := by
  obtain ⟨m, x', hm, hty, hbd⟩ := keyUpdate_total x r
  have hb := keyUpdate_body (E := E) hm
  cases hc : s.isClient
  · refine ⟨{ s with serverAp := dirNext E.P s.cp false (dirSecret false s) }, m, x', ?_, hb, hty, hbd, rfl, hc, rfl, rfl⟩
    simp only [Connected.keyUpdate, hc, Bool.false_eq_true, if_false, nextSecret_eq hP hs, Res.bind_ok, makeTrafficKeys_eq E.P hP _ hs,
      hm, orAlert]
    rfl
  · refine ⟨{ s with clientAp := dirNext E.P s.cp true (dirSecret true s) }, m, x', ?_, hb, hty, hbd, rfl, hc, rfl, rfl⟩
    simp only [Connected.keyUpdate, hc, if_true, nextSecret_eq hP hs, Res.bind_ok, makeTrafficKeys_eq E.P hP _ hs,
      hm, orAlert]
    rfl

theorem update_ok {E : Env} (hP : E.P.Sized) {cp : Params} (hs : 0 < cp.hash.size) {b : Bool} {e : Endpoint} (h : EndOk E.P cp b e)
    (request : Bool) : ∃ e' ps, e.update E request = .ok (e', ps) ∧ EndOk E.P cp b e' ∧
      Follows E cp b ps (dirSecret b e.st) (dirSecret b e'.st) ∧ dirSecret (!b) e'.st = dirSecret (!b) e.st := by
  obtain ⟨rfl, rfl, h1, h2⟩ := h
  obtain ⟨s', m, x', hk, hb, _, _, hcp, hic, hw, hr⟩ := connected_keyUpdate hP e.x e.st hs (if request then 1 else 0)
  refine ⟨_, _, by rw [Endpoint.update, hk]; rfl, ⟨hcp, hic, ?_, ?_⟩, ?_, hr⟩
  · simp only [Endpoint.takeAll, Endpoint.take]
    rw [hw]
  · simp only [Endpoint.takeAll, Endpoint.take]
    rw [hr]; exact h2
  · simp only [Endpoint.takeAll, Endpoint.take, List.append_nil, List.nil_append]
    rw [h1]
    refine .update m _ _ _ _ hb ?_
    rw [hw]
    exact .nil _

theorem read_ok {E : Env} (hP : E.P.Sized) {cp : Params} (hs : 0 < cp.hash.size) {b : Bool} {e : Endpoint} (h : EndOk E.P cp b e)
    (now : Int) {p : Packet} {q : List Packet} {t : Bytes} (hf : Follows E cp (!b) (p :: q) (dirSecret (!b) e.st) t) :
    ∃ e' ps, e.read E now p = .ok (e', ps) ∧ EndOk E.P cp b e' ∧ Follows E cp (!b) q (dirSecret (!b) e'.st) t ∧
      Follows E cp b ps (dirSecret b e.st) (dirSecret b e'.st) ∧
      (dirSecret (!b) e'.st = dirSecret (!b) e.st ∨ dirSecret (!b) e'.st = dirNext E.P cp (!b) (dirSecret (!b) e.st)) := by
  obtain ⟨rfl, rfl, h1, h2⟩ := h
  cases hf with
  | data d _ _ _ hf =>
    exact ⟨e, [], by simp [Endpoint.read, h2], ⟨rfl, rfl, h1, h2⟩, hf, .nil _, .inl rfl⟩
  | ticket m tk _ _ _ hb hm hf =>
    have hc : e.st.isClient = true := by simpa using hb
    have : ∃ psk, e.st.process E e.x now m = .ok (e.st, [.storePsk psk], e.x) := by
      simp only [Connected.process, hm, orAlert, Res.bind_ok, hc, ticketPsk, hkdfExpandLabel_eq E.P hP _ hs]
      exact ⟨_, rfl⟩
    obtain ⟨psk, hp⟩ := this
    refine ⟨e, [], ?_, ⟨rfl, rfl, h1, h2⟩, hf, .nil _, .inl rfl⟩
    simp only [Endpoint.read, h2, ne_eq, not_true, if_false, hp, Res.bind_ok]
    rw [← h2]
    rfl
  | update m r _ _ _ hm hf =>
    -- the state after the reading keys were changed
    let s1 : Connected := if e.st.isClient then { e.st with serverAp := dirNext E.P e.st.cp false e.st.serverAp }
      else { e.st with clientAp := dirNext E.P e.st.cp true e.st.clientAp }
    have hs1cp : s1.cp = e.st.cp := by simp only [s1]; split <;> rfl
    have hs1c : s1.isClient = e.st.isClient := by simp only [s1]; split <;> rfl
    have hs1r : dirSecret (!e.st.isClient) s1 = dirNext E.P e.st.cp (!e.st.isClient) (dirSecret (!e.st.isClient) e.st) := by
      cases hc : e.st.isClient <;> simp [s1, hc, dirSecret]
    have hs1w : dirSecret e.st.isClient s1 = dirSecret e.st.isClient e.st := by
      cases hc : e.st.isClient <;> simp [s1, hc, dirSecret]
    have hproc : e.st.process E e.x now m =
        (if r = 1 then
          (s1.keyUpdate E e.x 0).bind fun (s'', acts, x') =>
            .ok (s'', .rekeyIn epochUpdate (keysOf E.P e.st.cp (dirSecret (!e.st.isClient) s1)) :: acts, x')
        else .ok (s1, [.rekeyIn epochUpdate (keysOf E.P e.st.cp (dirSecret (!e.st.isClient) s1))], e.x)) := by
      cases hc : e.st.isClient
      all_goals
        simp only [Connected.process, hm, orAlert, Res.bind_ok, hc, nextSecret_eq hP hs, makeTrafficKeys_eq E.P hP _ hs, s1,
          Bool.not_false, Bool.not_true, Bool.false_eq_true, if_true, if_false]
        rfl
    by_cases hr : r = 1
    · obtain ⟨s', m2, x', hk, hb, _, _, hcp, hic, hw, hrd⟩ := connected_keyUpdate hP e.x s1 (hs1cp ▸ hs) 0
      rw [if_pos hr, hk] at hproc
      simp only [Res.bind_ok] at hproc
      rw [hs1c, hs1cp] at hw
      rw [hs1c] at hrd
      refine ⟨_, _, by simp only [Endpoint.read, h2, ne_eq, not_true, if_false, hproc, Res.bind_ok]; rfl,
        ⟨hcp.trans hs1cp, hic.trans hs1c, ?_, ?_⟩, ?_, ?_, .inr ?_⟩
      · simp only [Endpoint.takeAll, Endpoint.take]
        rw [hw, hs1c, hs1cp]
      · simp only [Endpoint.takeAll, Endpoint.take]
        rw [hrd]
      · simp only [Endpoint.takeAll, Endpoint.take]
        rw [hrd, hs1r]; exact hf
      · simp only [Endpoint.takeAll, Endpoint.take, List.append_nil, List.nil_append]
        rw [h1]
        refine .update m2 _ _ _ _ hb ?_
        rw [hw, hs1w]
        exact .nil _
      · simp only [Endpoint.takeAll, Endpoint.take]
        rw [hrd, hs1r]
    · rw [if_neg hr] at hproc
      refine ⟨_, _, by simp only [Endpoint.read, h2, ne_eq, not_true, if_false, hproc, Res.bind_ok]; rfl,
        ⟨hs1cp, hs1c, ?_, rfl⟩, ?_, ?_, .inr ?_⟩
      · simp only [Endpoint.takeAll, Endpoint.take]
        rw [hs1w]; exact h1
      · simp only [Endpoint.takeAll, Endpoint.take]
        rw [hs1r]; exact hf
      · simp only [Endpoint.takeAll, Endpoint.take, List.append_nil]
        rw [hs1w]
        exact .nil _
      · simp only [Endpoint.takeAll, Endpoint.take]
        rw [hs1r]

theorem ticket_ok {E : Env} {cp : Params} {e e' : Endpoint} (h : EndOk E.P cp false e) {now : Int}
    {lifetime early ageAdd : UInt32} {nonce ticket : Bytes} {ps : List Packet}
    (ht : e.ticket E now lifetime early ageAdd nonce ticket = .ok (e', ps)) :
    EndOk E.P cp false e' ∧ Follows E cp false ps (dirSecret false e.st) (dirSecret false e'.st) ∧ e'.st = e.st := by
  simp only [Endpoint.ticket, Connected.newSessionTicket, Res.bind_eq_ok, orAlert_ok, Res.ok.injEq, Prod.mk.injEq] at ht
  obtain ⟨⟨acts, x1⟩, ⟨exts, _, psk, _, ⟨m, x2⟩, hm, rfl, rfl⟩, ht⟩ := ht
  simp only [Endpoint.takeAll, Endpoint.take, List.append_nil, List.nil_append, Prod.mk.injEq] at ht
  obtain ⟨rfl, rfl⟩ := ht
  refine ⟨⟨h.params, h.role, h.out, h.in_⟩, ?_, rfl⟩
  rw [h.out]
  obtain ⟨d, hd, rfl, _⟩ := mkMsg_ok hm
  exact .ticket _ _ _ _ _ rfl
    (show toBody E.parses (Body.newSessionTicket _).type d = _ from
      C31_body_roundtrip_partial E.parses (.newSessionTicket _) d trivial hd) (.nil _)

/-- One secret follows from another by updates. -/
def Derived (P : Prims) (cp : Params) (b : Bool) (s t : Bytes) : Prop := ∃ n, t = updates P cp.hash (dirLabel b) n s

theorem Derived.refl (P : Prims) (cp : Params) (b : Bool) (s : Bytes) : Derived P cp b s s := ⟨0, rfl⟩

theorem Derived.trans {P : Prims} {cp : Params} {b : Bool} {s t u : Bytes} (h : Derived P cp b s t) (h' : Derived P cp b t u) :
    Derived P cp b s u := by
  obtain ⟨n, rfl⟩ := h
  obtain ⟨m, rfl⟩ := h'
  exact ⟨n + m, updates_add _ _ _ _ _ _⟩

theorem Derived.next {P : Prims} {cp : Params} {b : Bool} {s t u : Bytes} (h : Derived P cp b s t)
    (h' : u = t ∨ u = dirNext P cp b t) : Derived P cp b s u := by
  rcases h' with rfl | rfl
  · exact h
  · exact h.trans ⟨1, rfl⟩

theorem Follows.derived {E : Env} {cp : Params} {b : Bool} {q : List Packet} {s t : Bytes} (h : Follows E cp b q s t) :
    Derived E.P cp b s t ∧ ∀ p ∈ q, ∃ u, Derived E.P cp b s u ∧ p.1 = keysOf E.P cp u := by
  induction h with
  | nil s => exact ⟨.refl _ _ _ _, by simp⟩
  | data d q s t _ ih | ticket _ _ q s t _ _ _ ih =>
    refine ⟨ih.1, ?_⟩
    intro p hp
    rcases List.mem_cons.1 hp with rfl | hp
    · exact ⟨s, .refl _ _ _ _, rfl⟩
    · exact ih.2 p hp
  | update m r q s t hm _ ih =>
    have h1 : Derived E.P cp b s (dirNext E.P cp b s) := ⟨1, rfl⟩
    refine ⟨h1.trans ih.1, ?_⟩
    intro p hp
    rcases List.mem_cons.1 hp with rfl | hp
    · exact ⟨s, .refl _ _ _ _, rfl⟩
    · obtain ⟨u, hu, hk⟩ := ih.2 p hp
      exact ⟨u, h1.trans hu, hk⟩

/-- The invariant. -/
structure LinkOk (E : Env) (cp : Params) (c0 s0 : Bytes) (l : Link) : Prop where
  client : EndOk E.P cp true l.client
  server : EndOk E.P cp false l.server
  toServer : Follows E cp true l.toServer l.server.st.clientAp l.client.st.clientAp
  toClient : Follows E cp false l.toClient l.client.st.serverAp l.server.st.serverAp
  chainC : Derived E.P cp true c0 l.server.st.clientAp
  chainS : Derived E.P cp false s0 l.client.st.serverAp

theorem LinkOk.step {E : Env} (hP : E.P.Sized) {cp : Params} (hs : 0 < cp.hash.size) {c0 s0 : Bytes} {l l' : Link} (h : LinkOk E cp c0 s0 l)
    (hst : LinkStep E l l') : LinkOk E cp c0 s0 l' := by
  cases hst with
  | clientUpdate request e ps hu =>
    obtain ⟨e', ps', hu', h1, h2, h3⟩ := update_ok hP hs h.client request
    rw [hu] at hu'; cases hu'
    have h3 : e.st.serverAp = l.client.st.serverAp := h3
    refine ⟨h1, h.server, h.toServer.append h2, ?_, h.chainC, ?_⟩
    · rw [h3]; exact h.toClient
    · rw [h3]; exact h.chainS
  | serverUpdate request e ps hu =>
    obtain ⟨e', ps', hu', h1, h2, h3⟩ := update_ok hP hs h.server request
    rw [hu] at hu'; cases hu'
    have h3 : e.st.clientAp = l.server.st.clientAp := h3
    refine ⟨h.client, h1, ?_, h.toClient.append h2, ?_, h.chainS⟩
    · rw [h3]; exact h.toServer
    · rw [h3]; exact h.chainC
  | serverTicket now lifetime early ageAdd nonce ticket e ps ht =>
    obtain ⟨h1, h2, h3⟩ := ticket_ok h.server ht
    refine ⟨h.client, h1, ?_, h.toClient.append h2, ?_, h.chainS⟩
    · rw [h3]; exact h.toServer
    · rw [h3]; exact h.chainC
  | clientWrite d =>
    refine ⟨h.client, h.server, h.toServer.append ?_, h.toClient, h.chainC, h.chainS⟩
    rw [Endpoint.write, h.client.out]
    exact .data d _ _ _ (.nil _)
  | serverWrite d =>
    refine ⟨h.client, h.server, h.toServer, h.toClient.append ?_, h.chainC, h.chainS⟩
    rw [Endpoint.write, h.server.out]
    exact .data d _ _ _ (.nil _)
  | clientRead p rest now e ps hq hr =>
    have hf := h.toClient
    rw [hq] at hf
    obtain ⟨e', ps', hr', h1, h2, h3, h4⟩ := read_ok hP hs h.client now hf
    rw [hr] at hr'; cases hr'
    exact ⟨h1, h.server, h.toServer.append h3, h2, h.chainC, h.chainS.next h4⟩
  | serverRead p rest now e ps hq hr =>
    have hf := h.toServer
    rw [hq] at hf
    obtain ⟨e', ps', hr', h1, h2, h3, h4⟩ := read_ok hP hs h.server now hf
    rw [hr] at hr'; cases hr'
    exact ⟨h.client, h1, h2, h.toClient.append h3, h.chainC.next h4, h.chainS⟩

theorem LinkOk.run {E : Env} (hP : E.P.Sized) {cp : Params} (hs : 0 < cp.hash.size) {c0 s0 : Bytes} {l l' : Link} (h : LinkOk E cp c0 s0 l)
    (hr : LinkRun E l l') : LinkOk E cp c0 s0 l' := by
  induction hr with
  | refl => exact h
  | step l' l'' _ hst ih => exact ih.step hP hs hst

end Verif.Machine

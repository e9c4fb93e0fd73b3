import Verif.Spec.Signer
import Verif.Props.Binding

/-
C86: who signed is who answered.
-/

namespace Verif.Toy

open Verif Verif.Crypto Verif.Messages Verif.Negotiation Verif.Handshake Verif.Machine Verif.Spec

/-- A server that asks for a certificate; it does not use cookies. -/
def askingCfg : Config := { plainCfg with requireClientAuth := true }

/-- Both ends complete the handshake in `n` rounds, each with a certificate of the other, and every message is framed. -/
def meetsSigned (ccfg scfg : Config) (n : Nat) : Bool :=
  match clientRun env tls ccfg (coins 2) (exchange tls ccfg scfg n).1, serverRun env tls scfg (exchange tls ccfg scfg n).2 with
  | .ok (.connected s, acts, _), .ok (.connected t, acts', _) =>
    decide (∀ m ∈ received (exchange tls ccfg scfg n).1 ++ sent acts ++ received (exchange tls ccfg scfg n).2 ++ sent acts', Framed m) &&
    decide (s.params.usingPSK = false ∧ t.params.usingPSK = false) && decide (s.peerCerts = [[9, 1]]) && decide (t.peerCerts = [[9, 2]])
  | _, _ => false

end Verif.Toy

namespace Verif.Props

open Verif Verif.Crypto Verif.Messages Verif.Negotiation Verif.Handshake Verif.Machine Verif.Spec

variable {E : Env} {d : Bool}

theorem signedContent_inj {a b : Bytes} (h : signedContent .server a = signedContent .server b) : a = b :=
  List.append_cancel_left h

/-- Equal transcripts consist of the same messages. -/
theorem transcripts_eq {n : Nat} {hello hello' : Msg} {t t' : Bytes} {ms ms' : List Msg} (hf : HelloForm d n hello t)
    (hf' : HelloForm d n hello' t') (ht : hello.msgType = 1) (ht' : hello'.msgType = 1)
    (f : ∀ m ∈ hello :: ms, Framed m) (f' : ∀ m ∈ hello' :: ms', Framed m) (he : t ++ wire d ms = t' ++ wire d ms') :
    said (hello :: ms) = said (hello' :: ms') ∧ t = t' ∧ wire d ms = wire d ms' := by
  have h1 := helloForm_inj hf hf' ht ht' f f' he
  refine ⟨h1, List.append_inj' he (wire_length ?_)⟩
  rw [said_cons, said_cons, List.cons.injEq] at h1
  exact h1.2

/-- What the transcript that was signed consists of. -/
structure SignedForm (E : Env) (d : Bool) (h : HashId) (t content : Bytes) (hello : Msg) (hellos : Bytes) (ms : List Msg) : Prop where
  form : HelloForm d h.size hello hellos
  type : hello.msgType = 1
  suite : ∃ n p, suiteParams n = some p ∧ h = p.hash
  framed : ∀ m ∈ hello :: ms, Framed m
  eq : t = hellos ++ wire d ms
  content : content = signedContent .server (E.P.hash h t)

theorem clientSigned_form (hP : E.P.Sized) {cfg : Config} {es : List (Event × Coins)} {acts : List Action} {s : Connected}
    (v : ClientView E d cfg es acts s) (f : ∀ m ∈ received es ++ sent acts, Framed m) (mcert mcv : Msg) (hc : v.cauth = [mcert, mcv]) :
    SignedForm E d v.F.h (v.F.toFinished d ++ wire d (v.eoed ++ [mcert]))
      (signedContent .server (E.P.hash v.F.h (v.F.toFinished d ++ wire d (v.eoed ++ [mcert])))) v.hello v.F.hellos
      (v.F.sh :: v.F.ee :: v.F.auth ++ v.F.fin :: (v.eoed ++ [mcert])) := by
  obtain ⟨h1, h2, h3, h4⟩ := endView_form hP (.client cfg es acts v) trivial f
  refine ⟨h1, h2, h3, fun m hm => h4 m ?_, ?_, rfl⟩
  · simp only [EndView.hello, EndView.F, EndView.last, hc, List.cons_append, List.mem_cons, List.mem_append, List.not_mem_nil, or_false] at hm ⊢
    tauto
  · simp [Flight.toFinished, Flight.toServerAuth, Flight.toServerHello, wire_append, wire_cons, wire_nil]

theorem serverSigned_form {cfg : Config} {es : List (Event × Coins)} {acts : List Action}
    (w : ServerFlight E d cfg es acts) (sound : SoundCookies cfg) (f : ∀ m ∈ received es ++ sent acts, Framed m) (req : List Msg)
    (mcert mcv : Msg) (hc : w.F.auth = req ++ [mcert, mcv]) :
    SignedForm E d w.F.h (w.F.toServerHello d ++ wire d ([w.F.ee] ++ req ++ [mcert]))
      (signedContent .server (E.P.hash w.F.h (w.F.toServerHello d ++ wire d ([w.F.ee] ++ req ++ [mcert])))) w.hello w.F.hellos
      (w.F.sh :: w.F.ee :: req ++ [mcert]) := by
  obtain ⟨g1, g2, g3⟩ := serverFlight_framed w (fun m hm => f m (by simp [hm])) (fun m hm => f m (by simp [hm]))
  refine ⟨serverFlight_form w sound, w.helloType, ⟨_, _, w.suite, w.hash⟩, fun m hm => ?_, ?_, rfl⟩
  · simp only [List.cons_append, List.mem_cons, List.mem_append, List.not_mem_nil, or_false] at hm
    rcases hm with rfl | rfl | rfl | h | rfl
    · exact g1
    · exact g2
    · exact g3 _ (by simp)
    · exact g3 _ (by simp [hc, h])
    · exact g3 _ (by simp [hc])
  · simp [Flight.toServerHello, wire_append, wire_cons, wire_nil]

/-- The same content was signed for the same messages, or there is a collision. -/
theorem signedForm_eq (hP : E.P.Sized) {h h' : HashId} {t t' content : Bytes} {hello hello' : Msg} {hellos hellos' : Bytes} {ms ms' : List Msg}
    (a : SignedForm E d h t content hello hellos ms) (b : SignedForm E d h' t' content hello' hellos' ms') :
    h = h' ∧ ((said (hello :: ms) = said (hello' :: ms') ∧ hellos = hellos' ∧ wire d ms = wire d ms') ∨ HashCollision E.P h t t') := by
  have hc := signedContent_inj (a.content.symm.trans b.content)
  obtain ⟨n, p, h1, h2⟩ := a.suite
  obtain ⟨n', p', h3, h4⟩ := b.suite
  have hh : h = h' := by
    have := congrArg List.length hc
    rw [hP.hash, hP.hash, h2, h4] at this
    rw [h2, h4]
    exact hash_of_size h1 h3 this
  subst hh
  refine ⟨rfl, ?_⟩
  by_cases ht : t = t'
  · left
    rw [a.eq, b.eq] at ht
    exact transcripts_eq a.form b.form a.type b.type a.framed b.framed ht
  · exact .inr ⟨ht, hc⟩

/-- A list of messages with a Finished in it is not one without. -/
theorem finished_said {a a' r : List Msg} {f : Msg} (hf : f.msgType = 20) (h : ∀ m ∈ a', m.msgType ≠ 20)
    (he : said a' = said (a ++ f :: r)) : False := by
  have := said_types h (20, f.body) (by rw [he, said_append, said_cons, hf]; simp)
  exact this rfl

theorem certificate_decodes {parses parses' : Bytes → Bool} {bs : Bytes} {c c' : CertificateMsg} {n n' : Nat}
    (h : CertificateMsg.unmarshal parses bs = .ok (c, n)) (h' : CertificateMsg.unmarshal parses' bs = .ok (c', n')) : c = c' := by
  simp only [CertificateMsg.unmarshal, Res.bind_eq_ok] at h h'
  obtain ⟨⟨⟨ctx, l, _⟩, k⟩, h1, h2⟩ := h
  obtain ⟨⟨⟨ctx', l', _⟩, k'⟩, h3, h4⟩ := h'
  rw [h1, Res.ok.injEq] at h3
  cases h3
  dsimp only at h2 h4
  split at h2
  · split at h4
    · cases h2; cases h4; rfl
    · cases h4
  · cases h2

theorem pair_unique {α β : Type} {a : α} {b b' : β} : ∀ {l : List (α × β)}, (l.map (·.1)).Nodup → (a, b) ∈ l → (a, b') ∈ l → b = b'
  | [], _, h, _ => by cases h
  | p :: l, hn, h, h' => by
    rw [List.map_cons, List.nodup_cons] at hn
    rcases List.mem_cons.1 h with h | h <;> rcases List.mem_cons.1 h' with h' | h'
    · rw [← h] at h'; cases h'; rfl
    · exact absurd (List.mem_map.2 ⟨_, h', by rw [← h]⟩) hn.1
    · exact absurd (List.mem_map.2 ⟨_, h, by rw [← h']⟩) hn.1
    · exact pair_unique hn.2 h h'

/-- The two ends of key agreement have one secret. -/
theorem dh_same {cfg scfg : Config} {ch : ClientHello} {exts : List Ext} {dh dh' : Option Bytes}
    (shares : ∃ shares, Carries (.keyShare 1) ch.exts (.keyShare 1 0 shares) ∧ shares.map (·.1) = cfg.groups)
    (hn : cfg.groups.Nodup) (hw : ∀ g ∈ cfg.groups, DhWorks E.D g) (hc : ClientDh E cfg ch.exts exts dh)
    (hs : ServerDh E scfg ch exts dh') : dh = dh' := by
  obtain ⟨sh, c1, c2⟩ := shares
  have uniq : ∀ {sh'}, Carries (.keyShare 1) ch.exts (.keyShare 1 0 sh') → sh' = sh := by
    intro sh' h
    obtain ⟨b, h1, h2⟩ := h
    obtain ⟨b', h3, h4⟩ := c1
    rw [h1, List.cons.injEq] at h3
    rw [h3.1, h4, Res.ok.injEq] at h2
    simp only [Prod.mk.injEq, ExtBody.keyShare.injEq] at h2
    exact h2.1.2.2.symm
  cases hc with
  | none h0 =>
    cases hs with
    | none => rfl
    | share g theirs shares n own priv secret _ _ _ _ _ h1 => rw [h0] at h1; cases h1
  | share g pub shares n own priv secret h1 hg hcar hin hk ha =>
    cases hs with
    | none h0 => rw [h0] at h1; cases h1
    | share g' theirs shares' n' own' priv' secret' hcar' hin' _ hk' ha' h1' =>
      rw [h1, List.cons.injEq] at h1'
      have h2 := h1'.1
      rw [List.append_assoc, List.append_assoc] at h2
      obtain ⟨h3, h4⟩ := List.append_inj h2 (by rw [beBytes_length, beBytes_length])
      obtain ⟨_, h5⟩ := List.append_inj h4 (by rw [beBytes_length, beBytes_length])
      have h6 : g = g' := UInt16.toNat_inj.1 (beBytes_inj (by simpa using g.toNat_lt) (by simpa using g'.toNat_lt) h3)
      subst h6 h5
      rw [uniq hcar] at hin
      rw [uniq hcar'] at hin'
      have h7 : own = theirs := by
        rw [← c2] at hn
        exact congrArg Prod.fst (pair_unique hn hin hin')
      subst h7
      obtain ⟨z, z1, z2⟩ := (hw g hg).agree _ _ _ _ _ _ hk hk'
      rw [ha] at z1
      rw [ha'] at z2
      cases z1
      cases z2
      rfl

/-- The messages up to the Certificate of the client's run are those of the server's run. -/
theorem answered {cfg scfg : Config} {es es' : List (Event × Coins)} {acts acts' : List Action} {s : Connected}
    (v : ClientView E d cfg es acts s) (w : ServerFlight E d scfg es' acts') (notPsk : s.params.usingPSK = false)
    {req req' : List Msg} {mcert mcv mcert' mcv' : Msg} {cm cm' : CertificateMsg} {cert : Cert} (hv : v.F.auth = req ++ [mcert, mcv])
    (hw : w.F.auth = req' ++ [mcert', mcv']) (tv : mcv.msgType = 15) (tw : mcv'.msgType = 15)
    (dv : CertificateMsg.unmarshal E.parses mcert.body = .ok (cm, mcert.body.length)) (certs : s.peerCerts = cm.list.map (·.1))
    (dw : CertificateMsg.unmarshal (fun _ => true) mcert'.body = .ok (cm', mcert'.body.length))
    (own : cert ∈ scfg.certificates) (chain : cm'.list.map (·.1) = cert.chain.map (·.raw)) (hash : v.F.h = w.F.h)
    (same : said (v.hello :: v.F.sh :: v.F.ee :: req ++ [mcert]) = said (w.hello :: w.F.sh :: w.F.ee :: req' ++ [mcert']))
    (hellos : v.F.toServerHello d = w.F.toServerHello d) : Answered v w cert.key := by
  have h := same
  simp only [List.cons_append, said_cons, List.cons.injEq, Prod.mk.injEq, said_append] at h
  obtain ⟨⟨_, h0⟩, ⟨_, h1⟩, ⟨_, h2⟩, h3⟩ := h
  obtain ⟨h4, h4'⟩ := List.append_inj' h3 rfl
  obtain ⟨n, h5⟩ := v.shBody
  have h6 : v.sh = w.sh := by
    rw [h1, w.shBody] at h5
    simp only [Res.ok.injEq, Prod.mk.injEq] at h5
    exact h5.1.symm
  have h7 : v.ee = w.ee := by
    have := v.eeBody
    rw [h2, w.eeBody] at this
    simp only [Res.ok.injEq, Prod.mk.injEq, and_true] at this
    exact this.symm
  obtain ⟨ck, o⟩ := last_offer v.offer
  have h8 : v.ch = w.ch := by
    have := o.body
    rw [h0, w.helloBody] at this
    simp only [Res.ok.injEq, Prod.mk.injEq, and_true] at this
    exact this.symm
  have h9 : w.psk = none := by
    cases w.auth with
    | psk _ hn => rw [hn] at hw; simp at hw
    | cert hs => simpa using hs
  have h10 : mcert.body = mcert'.body := by simpa using congrArg Prod.snd (List.cons.inj h4').1
  refine ⟨hash, ⟨req, mcert, mcv, req', mcert', mcv', hv, hw, same⟩, hellos, h6 ▸ v.repSuite, h9, h7 ▸ v.repEarly, ?_, h7 ▸ v.repProto,
    ⟨cert, own, rfl, ?_⟩, ?_⟩
  · rw [v.repAuth, hv, hw, show ∀ (l : List Msg) a b, l ++ [a, b] = l ++ [a] ++ [b] from fun l a b => by simp,
      show req' ++ [mcert', mcv'] = req' ++ [mcert'] ++ [mcv'] by simp, asks_said, asks_said, said_append, said_append (_ ++ _), said_append,
      said_append, h4, show said [mcert] = said [mcert'] from h4']
    simp [said, tv, tw]
  · rw [h10] at dv
    rw [certs, certificate_decodes dv dw, chain]
  · intro hn hd
    have e : v.F.handshake E.P = w.F.handshake E.P := by
      rw [Flight.handshake, Flight.handshake, v.early, w.early, h9, ← hash, ← v.repPsk, notPsk,
        dh_same o.shares hn hd v.dh (by rw [h8, h6]; exact w.dh)]
      rfl
    refine ⟨e, ?_, ?_⟩
    · rw [Flight.clientHs, Flight.clientHs, e, hash, hellos]
    · rw [Flight.serverHs, Flight.serverHs, e, hash, hellos]

/-- C86. A client has completed its handshake without a PSK. Let `H` be the runs of clients and servers in which a private key is
used, with whatever configurations, whatever their peers are. Then one of these is the run of a server that has answered this client:
with the same messages from the ClientHello to the Certificate, the same suite, protocol and secrets of the handshake, and showing the
certificates that are configured for the key; or the signature in the CertificateVerify that the client accepted is a forgery; or the
hash function has a collision among the transcripts signed. -/
theorem C86_server (hP : E.P.Sized) {cfg : Config} {es : List (Event × Coins)} {acts : List Action} {s : Connected}
    (v : ClientView E d cfg es acts s) (framed : ∀ m ∈ received es ++ sent acts, Framed m) (notPsk : s.params.usingPSK = false)
    (H : Signer E d → Prop) (honest : ∀ r, H r → r.Sound ∧ ∀ m ∈ r.messages, Framed m) (key : PrivKey) :
    ∃ req mcert mcv cm cv pub t, v.F.auth = req ++ [mcert, mcv] ∧
      CertificateMsg.unmarshal E.parses mcert.body = .ok (cm, mcert.body.length) ∧ LeafKey E cm.list pub ∧
      s.peerCerts = cm.list.map (·.1) ∧ CertVerify.unmarshal mcv.body = .ok (cv, mcv.body.length) ∧
      t = v.F.toServerHello d ++ wire d ([v.F.ee] ++ req ++ [mcert]) ∧
      ((∃ scfg es' acts' w, H (.server scfg es' acts' w) ∧ Answered v w key) ∨
        Forged E d H key pub cv (signedContent .server (E.P.hash v.F.h t)) ∨ SignedOther E d H key v.F.h t) := by
  have hna := v.auth
  rw [← v.repPsk, notPsk] at hna
  cases hna with
  | psk h => cases h
  | cert _ req mcert mcv auth_eq reqOk certType cm certOk cvType cv pub cvOk leaf verified certs_eq accepted =>
    refine ⟨req, mcert, mcv, cm, cv, pub, _, auth_eq, certOk, leaf, certs_eq, cvOk, rfl, ?_⟩
    have ver : verify E.P E.S cv.algorithm.toNat pub (signedContent .server (E.P.hash v.F.h (v.F.toServerHello d ++ wire d ([v.F.ee] ++ req ++ [mcert]))))
        cv.signature = true := by
      rw [SignsTranscript, List.append_assoc, ← wire_append, ← List.append_assoc] at verified
      exact verified
    have vform : SignedForm E d v.F.h (v.F.toServerHello d ++ wire d ([v.F.ee] ++ req ++ [mcert]))
        (signedContent .server (E.P.hash v.F.h (v.F.toServerHello d ++ wire d ([v.F.ee] ++ req ++ [mcert])))) v.hello v.F.hellos
        (v.F.sh :: v.F.ee :: req ++ [mcert]) := by
      obtain ⟨h1, h2, h3, h4⟩ := endView_form hP (.client cfg es acts v) trivial framed
      refine ⟨h1, h2, h3, fun m hm => h4 m ?_, ?_, rfl⟩
      · simp only [EndView.hello, EndView.F, EndView.last, auth_eq, List.cons_append, List.mem_cons, List.mem_append, List.not_mem_nil, or_false] at hm ⊢
        tauto
      · simp [Flight.toServerHello, wire_append, wire_cons, wire_nil]
    have vtypes : ∀ m ∈ v.hello :: v.F.sh :: v.F.ee :: req ++ [mcert], m.msgType ≠ 20 := by
      have h1 := authed_types v.auth
      intro m hm
      simp only [List.cons_append, List.mem_cons, List.mem_append, List.not_mem_nil, or_false] at hm
      rcases hm with rfl | rfl | rfl | h | rfl
      · rw [vform.type]; decide
      · rw [v.shType]; decide
      · rw [v.eeType]; decide
      · exact h1 _ (by simp [auth_eq, h])
      · exact h1 _ (by simp [auth_eq])
    by_cases hf : Forged E d H key pub cv (signedContent .server (E.P.hash v.F.h (v.F.toServerHello d ++ wire d ([v.F.ee] ++ req ++ [mcert]))))
    · exact .inr (.inl hf)
    · simp only [Forged, ver, true_and, not_forall, not_not] at hf
      obtain ⟨r, hr, t', hs⟩ := hf
      obtain ⟨snd, frm⟩ := honest r hr
      have hs' := hs
      cases r with
      | client ccfg es' acts' s' u =>
        obtain ⟨cert, own, mc, mv, cm', cv', hk, hca, hd, hch, hty, hcv, ht, hcont, hsig⟩ := hs
        have uform := clientSigned_form hP u frm mc mv hca
        rw [← ht, ← hcont] at uform
        obtain ⟨_, ⟨h1, _⟩ | h1⟩ := signedForm_eq hP vform uform
        · exact (finished_said (a := u.hello :: u.F.sh :: u.F.ee :: u.F.auth) u.finType vtypes h1).elim
        · exact .inr (.inr ⟨_, t', hr, hs', h1⟩)
      | server scfg es' acts' w =>
        obtain ⟨cert, own, req', mc, mv, cm', cv', hk, hca, hd, hch, hty, hcv, ht, hcont, hsig⟩ := hs
        have wform := serverSigned_form w snd frm req' mc mv hca
        rw [← ht, ← hcont] at wform
        obtain ⟨hh, ⟨h1, h2, h3⟩ | h1⟩ := signedForm_eq hP vform wform
        · refine .inl ⟨scfg, es', acts', w, hr, ?_⟩
          subst hk
          refine answered v w notPsk auth_eq hca cvType hty certOk certs_eq hd own hch hh h1 ?_
          rw [Flight.toServerHello, Flight.toServerHello, h2]
          congr 1
          have h4 : wire d [v.F.sh] ++ wire d (v.F.ee :: req ++ [mcert]) = wire d [w.F.sh] ++ wire d (w.F.ee :: req' ++ [mc]) := by
            rw [← wire_append, ← wire_append]; exact h3
          refine (List.append_inj h4 (wire_length ?_)).1
          simp only [List.cons_append, said_cons, List.cons.injEq] at h1
          rw [said_cons, said_cons, h1.2.1]
        · exact .inr (.inr ⟨_, t', hr, hs', h1⟩)

/-- C86. A server has completed its handshake, and reports certificates of its client. Then one of the runs `H`, in which a private
key is used, is the run of a client that completed this handshake: both agree on all of it up to the server's Finished, and on the
messages up to the Certificate, which shows the certificates configured for the key; or the signature in the CertificateVerify that
the server accepted is a forgery; or a collision of the hash function or of HMAC is found. -/
theorem C86_client (hP : E.P.Sized) {cfg : Config} {es : List (Event × Coins)} {acts : List Action} {s : Connected}
    (w : ServerView E d cfg es acts s) (sound : SoundCookies cfg) (framed : ∀ m ∈ received es ++ sent acts, Framed m)
    (shown : s.peerCerts ≠ []) (H : Signer E d → Prop) (honest : ∀ r, H r → r.Sound ∧ ∀ m ∈ r.messages, Framed m) (key : PrivKey) :
    ∃ mcert mcv cm cv pub t, w.cauth = [mcert, mcv] ∧
      CertificateMsg.unmarshal E.parses mcert.body = .ok (cm, mcert.body.length) ∧ LeafKey E cm.list pub ∧
      s.peerCerts = cm.list.map (·.1) ∧ CertVerify.unmarshal mcv.body = .ok (cv, mcv.body.length) ∧
      t = w.F.toFinished d ++ wire d (w.eoed ++ [mcert]) ∧
      ((∃ ccfg es' acts' s' v, H (.client ccfg es' acts' s' v) ∧
          ((Agreed E.P d v.F v.hello w.F w.hello ∧ (∃ mcert' mcv', v.cauth = [mcert', mcv'] ∧ said (v.eoed ++ [mcert']) = said (w.eoed ++ [mcert])) ∧
            ∃ cert ∈ ccfg.certificates, cert.key = key ∧ s.peerCerts = cert.chain.map (·.raw)) ∨
          FinishedBroken E.P v.F.h (ascii "s hs traffic") (v.F.handshake E.P) (v.F.toServerHello d) (v.F.toServerAuth d)
            (w.F.handshake E.P) (w.F.toServerHello d) (w.F.toServerAuth d))) ∨
        Forged E d H key pub cv (signedContent .server (E.P.hash w.F.h t)) ∨ SignedOther E d H key w.F.h t) := by
  cases w.cauthOk with
  | none _ _ h => exact absurd h shown
  | empty _ _ _ _ _ _ _ h => exact absurd h shown
  | cert _ mcert mcv auth_eq certType cm certOk nonempty cvType cv pub cvOk leaf verified certs_eq accepted =>
    refine ⟨mcert, mcv, cm, cv, pub, _, auth_eq, certOk, leaf, certs_eq, cvOk, rfl, ?_⟩
    have ver : verify E.P E.S cv.algorithm.toNat pub (signedContent .server (E.P.hash w.F.h (w.F.toFinished d ++ wire d (w.eoed ++ [mcert]))))
        cv.signature = true := by
      rw [SignsTranscript, List.append_assoc, ← wire_append] at verified
      exact verified
    have wform : SignedForm E d w.F.h (w.F.toFinished d ++ wire d (w.eoed ++ [mcert]))
        (signedContent .server (E.P.hash w.F.h (w.F.toFinished d ++ wire d (w.eoed ++ [mcert])))) w.hello w.F.hellos
        (w.F.sh :: w.F.ee :: w.F.auth ++ w.F.fin :: (w.eoed ++ [mcert])) := by
      obtain ⟨h1, h2, h3, h4⟩ := endView_form hP (.server cfg es acts w) sound framed
      refine ⟨h1, h2, h3, fun m hm => h4 m ?_, ?_, rfl⟩
      · simp only [EndView.hello, EndView.F, EndView.last, auth_eq, List.cons_append, List.mem_cons, List.mem_append, List.not_mem_nil, or_false] at hm ⊢
        tauto
      · simp [Flight.toFinished, Flight.toServerAuth, Flight.toServerHello, wire_append, wire_cons, wire_nil]
    by_cases hf : Forged E d H key pub cv (signedContent .server (E.P.hash w.F.h (w.F.toFinished d ++ wire d (w.eoed ++ [mcert]))))
    · exact .inr (.inl hf)
    · simp only [Forged, ver, true_and, not_forall, not_not] at hf
      obtain ⟨r, hr, t', hs⟩ := hf
      obtain ⟨snd, frm⟩ := honest r hr
      have hs' := hs
      cases r with
      | client ccfg es' acts' s' v =>
        obtain ⟨cert, own, mc, mv, cm', cv', hk, hca, hd, hch, hty, hcv, ht, hcont, hsig⟩ := hs
        have vform := clientSigned_form hP v frm mc mv hca
        rw [← ht, ← hcont] at vform
        obtain ⟨hh, ⟨h1, h2, h3⟩ | h1⟩ := signedForm_eq hP wform vform
        · refine .inl ⟨ccfg, es', acts', s', v, hr, ?_⟩
          have wtypes : ∀ m ∈ w.hello :: w.F.sh :: w.F.ee :: w.F.auth, m.msgType ≠ 20 := by
            have h1 := authSent_types w.auth
            intro m hm
            simp only [List.mem_cons] at hm
            rcases hm with rfl | rfl | rfl | h
            · rw [wform.type]; decide
            · rw [w.shType]; decide
            · rw [w.eeType]; decide
            · exact h1 _ h
          have vtypes : ∀ m ∈ v.hello :: v.F.sh :: v.F.ee :: v.F.auth, m.msgType ≠ 20 := by
            have h1 := authed_types v.auth
            intro m hm
            simp only [List.mem_cons] at hm
            rcases hm with rfl | rfl | rfl | h
            · rw [vform.type]; decide
            · rw [v.shType]; decide
            · rw [v.eeType]; decide
            · exact h1 _ h
          have h4 : said (w.hello :: w.F.sh :: w.F.ee :: w.F.auth) ++ (w.F.fin.msgType, w.F.fin.body) :: said (w.eoed ++ [mcert]) =
              said (v.hello :: v.F.sh :: v.F.ee :: v.F.auth) ++ (v.F.fin.msgType, v.F.fin.body) :: said (v.eoed ++ [mc]) := by
            rw [← said_cons, ← said_cons, ← said_append, ← said_append]; exact h1
          obtain ⟨h5, h6, h7⟩ := split_at_finished (said_types wtypes) (said_types vtypes) w.finType v.finType h4
          have h8 : wire d (w.F.sh :: w.F.ee :: w.F.auth) ++ (wire d [w.F.fin] ++ wire d (w.eoed ++ [mcert])) =
              wire d (v.F.sh :: v.F.ee :: v.F.auth) ++ (wire d [v.F.fin] ++ wire d (v.eoed ++ [mc])) := by
            rw [← wire_append, ← wire_append, ← wire_append, ← wire_append]; exact h3
          have h9 := (List.append_inj h8 (wire_length (by
            rw [said_cons w.hello, said_cons v.hello, List.cons.injEq] at h5; exact h5.2))).2
          have hfin : wire d [v.F.fin] = wire d [w.F.fin] := (List.append_inj h9 (wire_length (by
            rw [said_cons, said_cons, h6]))).1.symm
          rcases agree_server_finished hP v w.toServerFlight sound (fun m hm => frm m (List.mem_append_left _ hm))
            (fun m hm => frm m (List.mem_append_right _ hm)) (fun m hm => framed m (List.mem_append_left _ hm))
            (fun m hm => framed m (List.mem_append_right _ hm)) hfin with ha | hb
          · refine .inl ⟨ha, ⟨mc, mv, hca, h7.symm⟩, cert, own, hk, ?_⟩
            have h10 : mc.body = mcert.body := by
              rw [said_append, said_append] at h7
              have := (List.append_inj' h7 rfl).2
              simpa [said] using (congrArg Prod.snd (List.cons.inj this).1).symm
            rw [h10] at hd
            rw [certs_eq, certificate_decodes certOk hd, hch]
          · exact .inr hb
        · exact .inr (.inr ⟨_, t', hr, hs', h1⟩)
      | server scfg es' acts' u =>
        obtain ⟨cert, own, req', mc, mv, cm', cv', hk, hca, hd, hch, hty, hcv, ht, hcont, hsig⟩ := hs
        have uform := serverSigned_form u snd frm req' mc mv hca
        rw [← ht, ← hcont] at uform
        obtain ⟨_, ⟨h1, _⟩ | h1⟩ := signedForm_eq hP wform uform
        · refine (finished_said (a := w.hello :: w.F.sh :: w.F.ee :: w.F.auth) w.finType (fun m hm => ?_) h1.symm).elim
          have h2 := authSent_types u.auth
          simp only [List.cons_append, List.mem_cons, List.mem_append, List.not_mem_nil, or_false] at hm
          rcases hm with rfl | rfl | rfl | h | rfl
          · rw [uform.type]; decide
          · rw [u.shType]; decide
          · rw [u.eeType]; decide
          · exact h2 _ (by simp [hca, h])
          · exact h2 _ (by simp [hca])
        · exact .inr (.inr ⟨_, t', hr, hs', h1⟩)

/-- C86. Every run in which a certificate is shown signs, with the key configured for the certificate: a server that uses no PSK, and a
client that sends a CertificateVerify. -/
theorem C86_signs (cfg : Config) (es : List (Event × Coins)) (acts : List Action) (s : Connected) :
    (∀ w : ServerFlight E d cfg es acts, w.psk = none →
      ∃ cert ∈ cfg.certificates, ∃ t content, (Signer.server cfg es acts w).Signs cert.key t content) ∧
    (∀ v : ClientView E d cfg es acts s, v.cauth.length = 2 →
      ∃ cert ∈ cfg.certificates, ∃ t content, (Signer.client cfg es acts s v).Signs cert.key t content) := by
  refine ⟨fun w hw => ?_, fun v hv => ?_⟩
  · have h := w.auth
    rw [hw] at h
    cases h with
    | psk h => cases h
    | cert _ cert own req mcert mcv auth_eq _ _ cm certOk chain cvType cv cvOk signed =>
      refine ⟨cert, own, _, _, cert, own, req, mcert, mcv, cm, cv, rfl, auth_eq, certOk, chain, cvType, cvOk, rfl, rfl, ?_⟩
      rw [List.append_assoc, ← wire_append, ← List.append_assoc] at signed
      exact signed
  · cases v.cauthOk with
    | none _ h => rw [h] at hv; cases hv
    | empty _ _ h => rw [h] at hv; cases hv
    | cert _ cert own mcert mcv auth_eq _ cm certOk chain cvType cv cvOk signed =>
      refine ⟨cert, own, _, _, cert, own, mcert, mcv, cm, cv, rfl, auth_eq, certOk, chain, cvType, cvOk, rfl, rfl, ?_⟩
      rw [List.append_assoc, ← wire_append] at signed
      exact signed

/-- A client and a server that authenticate each other: the hypotheses are met, with the two runs as those in which the keys are used;
and in them there are signatures. -/
example : ∃ (s t : Connected) (es es' : List (Event × Coins)) (acts acts' : List Action)
    (v : ClientView Toy.env false Toy.clientCfg es acts s) (w : ServerView Toy.env false Toy.askingCfg es' acts' t),
    SoundCookies Toy.askingCfg ∧ s.params.usingPSK = false ∧ t.peerCerts ≠ [] ∧
    (∀ m ∈ received es ++ sent acts ++ received es' ++ sent acts', Framed m) ∧ Toy.clientCfg.groups.Nodup ∧
    ∃ cert t content, (Signer.server _ _ _ w.toServerFlight).Signs cert t content := by
  have h : Toy.meetsSigned Toy.clientCfg Toy.askingCfg 3 = true := by decide +kernel
  unfold Toy.meetsSigned at h
  split at h
  · rename_i s acts x' t acts' y' h1 h2
    simp only [Bool.and_eq_true, decide_eq_true_eq] at h
    obtain ⟨v⟩ := clientView Toy.prims_sized h1
    obtain ⟨w⟩ := serverView Toy.prims_sized h2
    have hp : w.psk = none := by
      have := w.repPsk
      rw [h.1.1.2.2] at this
      simpa using this.symm
    obtain ⟨cert, _, tr, content, hs⟩ := (C86_signs _ _ _ t).1 w.toServerFlight hp
    exact ⟨s, t, _, _, acts, acts', v, w, fun prot _ _ _ _ _ hp => by (cases hp), h.1.1.2.1, by rw [h.2]; simp, h.1.1.1,
      by decide, cert.key, tr, content, hs⟩
  · cases h

end Verif.Props

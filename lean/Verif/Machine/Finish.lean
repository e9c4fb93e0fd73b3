import Verif.Machine.Complete

/-
The last flight of the client, and what the server makes of it.
-/

namespace Verif.Machine

open Verif Verif.Crypto Verif.Messages Verif.Negotiation Verif.Handshake Verif.Spec

variable {E : Env} {d : Bool} {now : Int → Prop} {w : CWaitSH} {s : SNegotiated}

/-- The choice by scheme finds a certificate of the list and a scheme that goes with it, or nothing. -/
theorem certByScheme_cases (schemes : List UInt16) : ∀ certs : List Cert,
    (∃ (c : Cert) (a : UInt16), certByScheme (schemes.map (·.toNat)) certs = .ok (c, a.toNat) ∧ c ∈ certs ∧ a ∈ schemes ∧
      schemeValidForKey a.toNat c.key = true) ∨
    (certByScheme (schemes.map (·.toNat)) certs = .err .msg ∧
      ∀ c ∈ certs, ∀ a ∈ schemes, schemeValidForKey a.toNat c.key = false)
  | [] => .inr ⟨rfl, by simp⟩
  | c :: cs => by
    cases hf : (schemes.map (·.toNat)).find? fun s => schemeValidForKey s c.key with
    | some n =>
      have hm := List.mem_of_find?_eq_some hf
      obtain ⟨a, ha, rfl⟩ := List.mem_map.1 hm
      refine .inl ⟨c, a, ?_, by simp, ha, by simpa using List.find?_some hf⟩
      simp only [certByScheme, hf]
    | none =>
      have hnone : ∀ a ∈ schemes, schemeValidForKey a.toNat c.key = false := by
        intro a ha
        rw [List.find?_eq_none] at hf
        simpa using hf a.toNat (List.mem_map.2 ⟨a, ha, rfl⟩)
      rcases certByScheme_cases schemes cs with ⟨c', a, h1, h2, h3, h4⟩ | ⟨h1, h2⟩
      · exact .inl ⟨c', a, by simp only [certByScheme, hf, h1], by simp [h2], h3, h4⟩
      · refine .inr ⟨by simp only [certByScheme, hf, h1], ?_⟩
        intro c' hc'
        rcases List.mem_cons.1 hc' with rfl | hc'
        · exact hnone
        · exact h2 c' hc'

theorem usable_mono {l l' : List UInt16} {c : Cert} (h : Usable E l c) (hl : ∀ a ∈ l', a ∈ l) : Usable E l' c := by
  obtain ⟨h1, h2, leaf, rest, h3, h4⟩ := h
  exact ⟨h1, h2, leaf, rest, h3, fun a ha => h4 a (hl a ha)⟩

theorem finished_reads {x x' : Ctx} {v : Bytes} {m : Msg} (hm : mkMsg x (.finished ⟨v.length, v⟩) = .ok (m, x')) :
    m.msgType = 20 ∧ safeUnmarshal (Finished.unmarshal v.length) m.body = .ok ⟨v.length, v⟩ := by
  obtain ⟨b, hb, rfl, _⟩ := mkMsg_ok hm
  have hbv : b = v := by simpa [Body.marshal, Finished.marshal] using hb.symm
  subst hbv
  exact ⟨rfl, safeUnmarshal_ok.2 (by simp [Finished.unmarshal])⟩

theorem server_run_waitCert {x x' x'' : Ctx} {c : Coins} {v : SWait} {s' s'' : SState} {m : Msg} {es : List (Event × Coins)}
    {acts acts' : List Action} (h : v.nextCert E x m = .ok (s', acts, x')) (h' : s'.run E x' es = .ok (s'', acts', x'')) :
    SState.run E x (.waitCert v) ((.msg m, c) :: es) = .ok (s'', acts ++ acts', x'') := SState.run_cons (by exact h) h'

theorem server_run_waitCV {x x' x'' : Ctx} {c : Coins} {v : SWaitCV} {s' s'' : SState} {m : Msg} {es : List (Event × Coins)}
    {acts acts' : List Action} (h : v.next E x m = .ok (s', acts, x')) (h' : s'.run E x' es = .ok (s'', acts', x'')) :
    SState.run E x (.waitCV v) ((.msg m, c) :: es) = .ok (s'', acts ++ acts', x'') := SState.run_cons (by exact h) h'

theorem server_run_waitFinished {x x' x'' : Ctx} {c : Coins} {v : SWaitFinished} {s' s'' : SState} {m : Msg} {es : List (Event × Coins)}
    {acts acts' : List Action} (h : v.next E x m = .ok (s', acts, x')) (h' : s'.run E x' es = .ok (s'', acts', x'')) :
    SState.run E x (.waitFinished v) ((.msg m, c) :: es) = .ok (s'', acts ++ acts', x'') := SState.run_cons (by exact h) h'

/-- The server after its flight. -/
def SWait.begin (v : SWait) : SState := if v.params.usingEarlyData then .waitEOED v else v.nextFlight2

/-- EndOfEarlyData. -/
theorem client_eoed {y : Ctx} (hy : y.datagram = d) (wf : CWaitFinished) (v : SWait) {keys keys' : Keys}
    (hpar : wf.params.usingEarlyData = v.params.usingEarlyData) (hk : makeTrafficKeys E.P wf.sec.cp wf.sec.hs.clientHs = .ok keys)
    (hk' : makeTrafficKeys E.P v.sec.cp v.sec.clientHs = .ok keys') :
    ∃ acts t y', clientEOED E y wf v.sec.transcript = .ok (acts, t, y') ∧ y'.datagram = d ∧
      ∀ (z : Ctx), z.datagram = d → ∀ gs, Over d now (sent acts) gs → ∃ sacts,
        SState.run E z v.begin gs = .ok (SWait.nextFlight2 ⟨v.cfg, v.params, { v.sec with transcript := t }⟩, sacts, z) ∧
        sent sacts = [] ∧ lastOut sacts = none ∧ outs d sacts = [] ∧ (keys = keys' → v.begin.heard E z gs = outs d acts) := by
  unfold clientEOED SWait.begin
  rw [hpar]
  cases hu : v.params.usingEarlyData with
  | false =>
    refine ⟨_, _, _, rfl, hy, fun z hz gs hg => ⟨[], ?_, rfl, rfl, rfl, ?_⟩⟩ <;>
    have := over_nil (by simpa [sent] using hg) <;>
    subst this
    · simp only [Bool.false_eq_true, if_false]
      rfl
    · intro _; rfl
  | true =>
    have hb : Body.marshal .endOfEarlyData = .ok [] := rfl
    obtain ⟨m, y', hm⟩ := mkMsg_fits y hb
    simp only [if_true, hm, Res.bind_ok, hk]
    refine ⟨_, _, _, rfl, (mkMsg_datagram hm).trans hy, fun z hz gs hg => ?_⟩
    obtain ⟨c, gs, rfl, _, hg⟩ := over_cons (by simpa [sent] using hg)
    have := over_nil hg
    subst this
    obtain ⟨b, hb', hmeq, _⟩ := mkMsg_ok hm
    rw [hb, Res.ok.injEq] at hb'
    subst hb'
    have ht : m.msgType = typeEndOfEarlyData := by rw [hmeq]; rfl
    have hbody : m.body = [] := by rw [hmeq]
    have hstep : SState.step E z c (.waitEOED v) (.msg (arrived d m)) =
        .ok (SWait.nextFlight2 ⟨v.cfg, v.params, { v.sec with transcript := v.sec.transcript ++ y.bytes m }⟩,
          [.rekeyIn epochHandshake keys'], z) := by
      simp only [SState.step, SWait.nextEOED, arrived_type, arrived_body, ht, hbody]
      rw [if_neg (by simp), if_neg (by simp), hk', Res.bind_ok, Res.bind_ok, SState.settle, SSecrets.add, bytes_same hy hz]
    refine ⟨[.rekeyIn epochHandshake keys'] ++ [], SState.run_cons hstep rfl, rfl, rfl, rfl, ?_⟩
    rintro rfl
    rw [SState.heard_cons hstep rfl]
    rfl

/-- Certificate and CertificateVerify of the client. -/
theorem client_auth {y : Ctx} (hy : y.datagram = d) (wf : CWaitFinished) (v : SWait) (hpar : wf.params = v.params)
    (hhash : wf.sec.cp = v.sec.cp) (hreq : Requested v.cfg wf.params wf.request)
    (hauth : v.cfg.requireClientAuth = true → wf.params.usingPSK = false → (∀ c ∈ wf.certificates, Usable E v.cfg.schemes c) ∧
      ∀ f, v.cfg.verifyPeer = some f → ∀ c ∈ wf.certificates, f (rawChain c) [] = true) :
    ∃ acts t y', clientAuth E y wf v.sec.transcript = .ok (acts, t, y') ∧ y'.datagram = d ∧
      ∀ (z : Ctx), z.datagram = d → ∀ gs, Over d now (sent acts) gs → ∃ certs,
        SState.run E z v.nextFlight2 gs = .ok (.waitFinished ⟨v.params, { v.sec with transcript := t }, certs⟩, [], z) ∧
        v.nextFlight2.heard E z gs = outs d acts := by
  unfold clientAuth SWait.nextFlight2
  rw [hpar]
  cases hu : v.params.usingClientAuth with
  | false =>
    refine ⟨_, _, _, rfl, hy, fun z hz gs hg => ⟨[], ?_, ?_⟩⟩ <;>
    have := over_nil (by simpa [sent] using hg) <;>
    subst this
    · simp only [Bool.false_eq_true, if_false]
      rfl
    · rfl
  | true =>
    obtain ⟨h1, h2, r, h3, h4⟩ := hreq (by rw [hpar]; exact hu)
    obtain ⟨h5, h6⟩ := hauth h1 h2
    simp only [if_true, h3, h4, orAlert, Res.bind_ok, certificate]
    rcases certByScheme_cases v.cfg.schemes wf.certificates with ⟨c, a, hc, hm, ha, hv⟩ | ⟨hc, _⟩
    · simp only [hc]
      have hus := h5 c hm
      obtain ⟨b, hb⟩ := usable_marshals hus
      obtain ⟨m, y1, hmk⟩ := mkMsg_fits y hb
      simp only [hmk, Res.bind_ok]
      obtain ⟨cv, cb, pub, hs1, hs2, hs3, hs4⟩ := usable_signs hus ha hv (E.P.hash wf.sec.cp.hash (v.sec.transcript ++ y.bytes m))
      have ha' : UInt16.ofNat a.toNat = a := by simp
      obtain ⟨mv, y2, hmv⟩ := mkMsg_fits (b := .certificateVerify cv) y1 hs2
      simp only [ha', hs1, Res.bind_ok, hmv]
      refine ⟨_, _, _, rfl, (mkMsg_datagram hmv).trans ((mkMsg_datagram hmk).trans hy), fun z hz gs hg => ⟨rawChain c, ?_⟩⟩
      obtain ⟨c1, gs, rfl, _, hg⟩ := over_cons (by simpa [sent] using hg)
      obtain ⟨c2, gs, rfl, _, hg⟩ := over_cons hg
      have := over_nil hg
      subst this
      obtain ⟨ht, hr⟩ := usable_reads hus hmk
      obtain ⟨ht2, hr2⟩ := certVerify_reads hmv
      have ht' : m.msgType = typeCertificate := ht
      have ht2' : mv.msgType = typeCertificateVerify := ht2
      obtain ⟨leaf, rest, hch, _⟩ := hus.signs
      have hstep1 : SWait.nextCert E z v (arrived d m) = .ok (.waitCV ⟨v.cfg, v.params, v.sec.add (y.bytes m),
          ⟨[], c.chain.map fun x => (x.raw, [], ())⟩⟩, [], z) := by
        simp only [SWait.nextCert, arrived_type, arrived_body, ht', ne_eq, not_true_eq_false, if_false, hr, orAlert, Res.bind_ok,
          bytes_same hy hz, hch, List.map_cons, List.length_cons]
        rw [if_neg (by omega)]
      have hraw : (c.chain.map fun x => ((x.raw, [], ()) : CertEntry)).map (·.1) = rawChain c := by
        simp [rawChain, Function.comp_def]
      have hstep2 : SWaitCV.next E z ⟨v.cfg, v.params, v.sec.add (y.bytes m), ⟨[], c.chain.map fun x => (x.raw, [], ())⟩⟩
          (arrived d mv) = .ok (.waitFinished ⟨v.params, { v.sec with transcript := v.sec.transcript ++ y.bytes m ++ y.bytes mv }, rawChain c⟩, [], z) := by
        rw [hhash] at hs4
        cases hvp : v.cfg.verifyPeer with
        | none =>
          simp only [SWaitCV.next, arrived_type, arrived_body, ht2', ne_eq, not_true_eq_false, if_false, hr2, orAlert, Res.bind_ok, hs3,
            SSecrets.add, hs4, hraw, hvp, Bool.not_true, Bool.false_eq_true, bytes_same hy hz]
        | some g =>
          simp only [SWaitCV.next, arrived_type, arrived_body, ht2', ne_eq, not_true_eq_false, if_false, hr2, orAlert, Res.bind_ok, hs3,
            SSecrets.add, hs4, hraw, hvp, h6 g hvp c hm, Bool.not_true, Bool.false_eq_true, bytes_same hy hz]
      refine ⟨server_run_waitCert hstep1 (server_run_waitCV hstep2 rfl), ?_⟩
      rw [SState.heard_cons (SState.step_waitCert hstep1) (SState.heard_cons (SState.step_waitCV hstep2) rfl)]
      rfl
    · simp only [hc]
      obtain ⟨b, hb⟩ := fits_certificate (l := []) (by simp) (by decide)
      have hb' : (Body.certificate ⟨[], []⟩).marshal = .ok b := hb
      obtain ⟨m, y1, hmk⟩ := mkMsg_fits y hb'
      simp only [hmk, Res.bind_ok]
      refine ⟨_, _, _, rfl, (mkMsg_datagram hmk).trans hy, fun z hz gs hg => ⟨[], ?_⟩⟩
      obtain ⟨c1, gs, rfl, _, hg⟩ := over_cons (by simpa [sent] using hg)
      have := over_nil hg
      subst this
      obtain ⟨b', hb2, hmeq, _⟩ := mkMsg_ok hmk
      have ht : m.msgType = typeCertificate := by rw [hmeq]; rfl
      have hr : safeUnmarshal (CertificateMsg.unmarshal E.parses) m.body = .ok ⟨[], []⟩ := by
        have := plain_self plain_cert (show Syntax.marshal certTy ([], [], ()) = .ok b' from hb2)
        rw [hmeq]
        exact safeUnmarshal_ok.2 (by simp [CertificateMsg.unmarshal, this])
      have hstep1 : SWait.nextCert E z v (arrived d m) =
          .ok (.waitFinished ⟨v.params, { v.sec with transcript := v.sec.transcript ++ y.bytes m }, []⟩, [], z) := by
        simp only [SWait.nextCert, arrived_type, arrived_body, ht, ne_eq, not_true_eq_false, if_false, hr, orAlert, Res.bind_ok,
          bytes_same hy hz, List.length_nil, if_true, SSecrets.add]
      refine ⟨server_run_waitCert hstep1 rfl, ?_⟩
      rw [SState.heard_cons (SState.step_waitCert hstep1) rfl]
      rfl

theorem lastOut_snoc (l : List Action) (n : Nat) (k : Keys) : lastOut (l ++ [.rekeyOut n k]) = some k := by simp [lastOut]

theorem lastIn_snoc (l : List Action) (n : Nat) (k : Keys) : lastIn (l ++ [.rekeyIn n k]) = some k := by simp [lastIn]

theorem lastOut_append_none (l : List Action) {l' : List Action} (h : lastOut l' = none) : lastOut (l ++ l') = lastOut l := by
  unfold lastOut at h ⊢
  rw [List.filterMap_append, List.getLast?_append, h]
  rfl

theorem SState.run_then {x x' x'' : Ctx} {s s' s'' : SState} {es es' : List (Event × Coins)} {acts acts' : List Action}
    (h : s.run E x es = .ok (s', acts, x')) (h' : s'.run E x' es' = .ok (s'', acts', x'')) :
    s.run E x (es ++ es') = .ok (s'', acts ++ acts', x'') := by
  simp only [SState.run_append, h, Res.bind_ok, h']

theorem CState.run_then {x x' x'' : Ctx} {s s' s'' : CState} {es es' : List (Event × Coins)} {acts acts' : List Action}
    (h : s.run E x es = .ok (s', acts, x')) (h' : s'.run E x' es' = .ok (s'', acts', x'')) :
    s.run E x (es ++ es') = .ok (s'', acts ++ acts', x'') := by
  simp only [CState.run_append, h, Res.bind_ok, h']

theorem lastIn_append_some (l : List Action) {l' : List Action} {k : Keys} (h : lastIn l' = some k) : lastIn (l ++ l') = some k := by
  unfold lastIn at h ⊢
  rw [List.filterMap_append, List.getLast?_append, h]
  rfl

theorem lastOut_append_some (l : List Action) {l' : List Action} {k : Keys} (h : lastOut l' = some k) : lastOut (l ++ l') = some k := by
  unfold lastOut at h ⊢
  rw [List.filterMap_append, List.getLast?_append, h]
  rfl

/-- The client's Finished step, and the run of the server over the messages it sends. -/
theorem client_done_heard (hP : E.P.Sized) (M : Matched E d now w s) {x y : Ctx} {c : Coins} (f : NegFacts E x c s) {wf : CWaitFinished}
    (R : FlightRead f w wf) (hx : x.datagram = d) (hy : y.datagram = d) :
    ∃ cc acts y', wf.next E y (arrived d f.fin) = .ok (.connected cc, acts, y') ∧ y'.datagram = d ∧
      lastIn acts = some f.serverApKeys ∧ (∃ k, lastOut acts = some k) ∧ 0 < (sent acts).length ∧ (sent acts).length ≤ 4 ∧
      ins acts = [.key epochApplication f.serverApKeys] ∧ (∀ a ∈ outs d acts, a.good d) ∧ (outs d acts).length ≤ 6 ∧
      ∀ (z : Ctx), z.datagram = d → ∀ gs, Over d now (sent acts) gs → ∃ sc sacts z',
        SState.run E z f.wait.begin gs = .ok (.connected sc, sacts, z') ∧ sent sacts = [] ∧ lastOut sacts = none ∧
        lastIn sacts = lastOut acts ∧ SameConnection cc sc ∧ outs d sacts = [] ∧ f.wait.begin.heard E z gs = outs d acts ∧
        ∀ gs1 gs2 s1 a1 z1, gs = gs1 ++ gs2 → gs2 ≠ [] → SState.run E z f.wait.begin gs1 ≠ .ok (.connected s1, a1, z1) := by
  have hsz := suiteParams_size f.suiteOk
  obtain ⟨_, _, hx3, _⟩ := f.datagram
  obtain ⟨hft, hfr⟩ := finished_reads f.finOk
  have hft' : f.fin.msgType = typeFinished := hft
  obtain ⟨hpar, hsec, hcerts, hreq⟩ := R
  have hck := makeTrafficKeys_eq E.P hP f.p hsz f.ap.clientAp
  obtain ⟨acts1, t1, y1, he, hy1, hrun1⟩ := client_eoed (now := now) (E := E) hy wf f.wait (by rw [hpar])
    (keys := f.clientKeys) (keys' := f.clientKeys) (by rw [hsec]; exact f.clientKeysOk) f.clientKeysOk
  obtain ⟨acts2, t2, y2, ha, hy2, hrun2⟩ := client_auth (now := now) (E := E) hy1 wf
    ⟨f.wait.cfg, f.wait.params, { f.wait.sec with transcript := t1 }⟩ hpar (by rw [hsec]; rfl) (by rw [show f.wait.cfg = s.cfg from rfl]; exact hreq)
    (fun h1 h2 => by
      rw [hpar] at h2
      rw [hcerts]
      exact (M.auth h2 h1).2.2)
  dsimp only at ha
  have hv := computeFinishedData_eq E.P hP f.p.hash hsz f.hs.clientHs t2
  obtain ⟨b, hb⟩ := finished_fits (finishedMac E.P f.p.hash f.hs.clientHs t2)
  obtain ⟨finm, y3, hfm⟩ := mkMsg_fits y2 hb
  have hres := deriveSecret_eq E.P hP f.p.hash hsz f.hs.master labelResumptionSecret (t2 ++ y2.bytes finm)
  have hap : apSecrets E.P f.p.hash f.hs.master (f.transcript3 ++ y.bytes (arrived d f.fin)) = .ok f.ap := by
    rw [bytes_same hx hy]; exact f.apOk
  have heq : clientEOED E y wf (f.transcript3 ++ y.bytes (arrived d f.fin)) = .ok (acts1, t1, y1) := by
    rw [bytes_same hx hy]; exact he
  have hnext : wf.next E y (arrived d f.fin) = .ok (.connected
      { params := wf.params, isClient := true, cp := f.p,
        resumption := derive E.P f.p.hash f.hs.master labelResumptionSecret (t2 ++ y2.bytes finm), clientAp := f.ap.clientAp,
        serverAp := f.ap.serverAp, exporter := f.ap.exporter, peerCerts := wf.peerCerts, chains := wf.chains },
      acts1 ++ acts2 ++ [.queue finm, .sendQueued, .rekeyIn epochApplication f.serverApKeys,
        .rekeyOut epochApplication (trafficKeys E.P f.p.hash f.p.keyLen f.p.ivLen f.ap.clientAp)], y3) := by
    simp only [CWaitFinished.next, arrived_type, arrived_body, hft', ne_eq, not_true_eq_false, if_false, hsec, f.verifyOk, Res.bind_ok,
      hfr, orAlert, hap, hck, f.apKeysOk, heq, ha, hv, hfm, hres]
  have hl1 : (sent acts1).length ≤ 1 := by
    rcases clientEOED_ok he with ⟨_, rfl, _⟩ | ⟨_, m, keys, _, _, rfl, _⟩ <;> simp [sent]
  have hl2 : (sent acts2).length ≤ 2 := by
    rcases clientAuth_ok ha with ⟨_, rfl, _⟩ | ⟨_, r, schemes, _, _, ⟨e, m, _, _, rfl, _⟩ | ⟨cert, sch, m, x1, cv, mv, _, _, _, _, rfl, _⟩⟩ <;>
      simp [sent]
  have hl3 : ∀ k, (sent [.queue finm, .sendQueued, .rekeyIn epochApplication f.serverApKeys, .rekeyOut epochApplication k]).length = 1 :=
    fun _ => rfl
  refine ⟨_, _, _, hnext, (mkMsg_datagram hfm).trans hy2, ?_, ?_, ?_, ?_, ?_, ?_, ?_, ?_⟩
  · simp [lastIn]
  · simp [lastOut]
  · simp only [sent_append, List.length_append, hl3]; omega
  · simp only [sent_append, List.length_append, hl3]; omega
  · rw [ins_append, ins_append]
    have h1 : ins acts1 = [] := by
      rcases clientEOED_ok he with ⟨_, rfl, _⟩ | ⟨_, m, keys, _, _, rfl, _⟩ <;> rfl
    have h2 : ins acts2 = [] := by
      rcases clientAuth_ok ha with ⟨_, rfl, _⟩ | ⟨_, r, schemes, _, _, ⟨e, m, _, _, rfl, _⟩ | ⟨cert, sch, m, x1, cv, mv, _, _, _, _, rfl, _⟩⟩ <;> rfl
    rw [h1, h2]
    rfl
  · intro a hm
    rw [outs_append, outs_append, List.mem_append, List.mem_append] at hm
    rcases hm with (hm | hm) | hm
    · rcases clientEOED_ok he with ⟨_, rfl, _⟩ | ⟨_, m, keys, hmk, hkk, rfl, _⟩
      · simp [outs] at hm
      · rw [hsec] at hkk
        simp only [outs, List.mem_cons, List.not_mem_nil, or_false] at hm
        rcases hm with rfl | rfl
        · exact good_made d hmk
        · exact good_keys hP d f.suiteOk hkk (by decide)
    · rcases clientAuth_ok ha with ⟨_, rfl, _⟩ | ⟨_, r, schemes, _, _, ⟨e, m, _, hm1, rfl, _⟩ | ⟨cert, sch, m, x1, cv, mv, _, hm1, _, hm2, rfl, _⟩⟩
      · simp [outs] at hm
      · simp only [outs, List.mem_cons, List.not_mem_nil, or_false] at hm
        rw [hm]; exact good_made d hm1
      · simp only [outs, List.mem_cons, List.not_mem_nil, or_false] at hm
        rcases hm with rfl | rfl
        · exact good_made d hm1
        · exact good_made d hm2
    · simp only [outs, List.mem_cons, List.not_mem_nil, or_false] at hm
      rcases hm with rfl | rfl
      · exact good_made d hfm
      · exact good_keys hP d f.suiteOk hck (by decide)
  · rw [outs_append, outs_append]
    have h1 : (outs d acts1).length ≤ 2 := by
      rcases clientEOED_ok he with ⟨_, rfl, _⟩ | ⟨_, m, keys, _, _, rfl, _⟩ <;> simp [outs]
    have h2 : (outs d acts2).length ≤ 2 := by
      rcases clientAuth_ok ha with ⟨_, rfl, _⟩ | ⟨_, r, schemes, _, _, ⟨e, m, _, _, rfl, _⟩ | ⟨cert, sch, m, x1, cv, mv, _, _, _, _, rfl, _⟩⟩ <;>
        simp [outs]
    simp only [List.length_append, outs, List.length_cons, List.length_nil]
    omega
  · intro z hz gs hg
    simp only [sent_append] at hg
    obtain ⟨gs1, gs2, rfl, hg1, hg2⟩ := over_append hg
    obtain ⟨gs0, gs1', rfl, hg0, hg1⟩ := over_append hg1
    obtain ⟨sacts, hr1, hs1, ho1, hq1, hh1⟩ := hrun1 z hz _ hg0
    obtain ⟨certs, hr2, hh2⟩ := hrun2 z hz _ hg1
    obtain ⟨c1, gs2, rfl, _, hg2⟩ := over_cons (by simpa [sent] using hg2)
    have := over_nil hg2
    subst this
    obtain ⟨hmt, hmr⟩ := finished_reads hfm
    have hmt' : finm.msgType = typeFinished := hmt
    have hlen : (finishedMac E.P f.p.hash f.hs.clientHs t2).length = f.p.hash.size := by
      simp [finishedMac, hP.hmac]
    rw [hlen] at hmr
    have hstep : SWaitFinished.next E z ⟨f.wait.params, { f.wait.sec with transcript := t2 }, certs⟩ (arrived d finm) =
        .ok (.connected
          { params := f.wait.params, isClient := false, cp := f.p,
            resumption := derive E.P f.p.hash f.hs.master labelResumptionSecret (t2 ++ y2.bytes finm), clientAp := f.ap.clientAp,
            serverAp := f.ap.serverAp, exporter := f.ap.exporter, peerCerts := certs, chains := [] },
        [.rekeyIn epochApplication (trafficKeys E.P f.p.hash f.p.keyLen f.p.ivLen f.ap.clientAp)], z) := by
      simp only [SWaitFinished.next, arrived_type, arrived_body, hmt', ne_eq, not_true_eq_false, if_false, NegFacts.wait, hmr, orAlert,
        Res.bind_ok, hv, bytes_same hy2 hz, hres, hck]
    have hr3 := server_run_waitFinished (c := c1) (es := []) hstep rfl
    refine ⟨_, _, _, SState.run_then (SState.run_then hr1 hr2) hr3, ?_, ?_, ?_, ⟨⟨rfl, rfl⟩, hpar, rfl, rfl, rfl, rfl, rfl⟩, ?_, ?_, ?_⟩
    · simp only [sent_append, hs1, List.append_nil, List.nil_append]
      rfl
    · rw [List.append_nil, lastOut_append_none _ (by simp [lastOut]), ho1]
    · rw [lastIn_append_some (k := trafficKeys E.P f.p.hash f.p.keyLen f.p.ivLen f.ap.clientAp) _ (by simp [lastIn])]
      simp [lastOut]
    · simp only [outs_append, hq1, List.append_nil, List.nil_append]
      rfl
    · rw [SState.heard_append (SState.run_then hr1 hr2), SState.heard_append hr1, hh1 rfl, hh2,
        SState.heard_cons (SState.step_waitFinished hstep) rfl]
      simp [outs, got, ins, SState.heard]
    · intro ga gb s1 a1 z1 hgs hne hrun
      have hb : gb = gb.dropLast ++ [gb.getLast hne] := (List.dropLast_concat_getLast hne).symm
      rw [hb, ← List.append_assoc] at hgs
      have hgs' := (List.append_inj' hgs rfl).1
      have h12 := SState.run_then hr1 hr2
      rw [hgs', SState.run_append, hrun, Res.bind_ok] at h12
      simp only [Res.bind_eq_ok, Res.ok.injEq, Prod.mk.injEq] at h12
      obtain ⟨⟨s2, a2, z2⟩, h3, h4, _⟩ := h12
      obtain ⟨s3, rfl⟩ := SState.connected_stays h3
      cases h4

theorem client_done (hP : E.P.Sized) (M : Matched E d now w s) {x y : Ctx} {c : Coins} (f : NegFacts E x c s) {wf : CWaitFinished}
    (R : FlightRead f w wf) (hx : x.datagram = d) (hy : y.datagram = d) :
    ∃ cc acts y', wf.next E y (arrived d f.fin) = .ok (.connected cc, acts, y') ∧ y'.datagram = d ∧
      lastIn acts = some f.serverApKeys ∧ (∃ k, lastOut acts = some k) ∧ 0 < (sent acts).length ∧ (sent acts).length ≤ 4 ∧
      ∀ (z : Ctx), z.datagram = d → ∀ gs, Over d now (sent acts) gs → ∃ sc sacts z',
        SState.run E z f.wait.begin gs = .ok (.connected sc, sacts, z') ∧ sent sacts = [] ∧ lastOut sacts = none ∧
        lastIn sacts = lastOut acts ∧ SameConnection cc sc := by
  obtain ⟨cc, acts, y', h1, h2, h3, h4, h5, h6, _, _, _, h7⟩ := client_done_heard hP M f R hx hy
  refine ⟨cc, acts, y', h1, h2, h3, h4, h5, h6, fun z hz gs hg => ?_⟩
  obtain ⟨sc, sacts, z', g1, g2, g3, g4, g5, _⟩ := h7 z hz gs hg
  exact ⟨sc, sacts, z', g1, g2, g3, g4, g5⟩

end Verif.Machine

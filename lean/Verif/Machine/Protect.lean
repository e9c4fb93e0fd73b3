import Verif.Machine.ClientView
import Verif.Machine.Installed

/-
With which keys a client sends and reads what.
-/

namespace Verif.Machine

open Verif Verif.Crypto Verif.Messages Verif.Negotiation Verif.Handshake Verif.Spec

/-! ### Vocabulary -/

theorem sealedWith_append (k : Option Keys) (a b : List Action) :
    sealedWith k (a ++ b) = sealedWith k a ++ sealedWith (sendKeys k a) b := by
  induction a generalizing k with
  | nil => rfl
  | cons x a ih => cases x <;> simp [sealedWith, sendKeys, ih]

theorem sendKeys_append (k : Option Keys) (a b : List Action) : sendKeys k (a ++ b) = sendKeys (sendKeys k a) b := by
  induction a generalizing k with
  | nil => rfl
  | cons x a ih => cases x <;> simp [sendKeys, ih]

theorem sealedWith_queue (k : Option Keys) (ms : List Msg) : sealedWith k (ms.map .queue) = under k ms := by
  induction ms with
  | nil => rfl
  | cons m ms ih => simp [sealedWith, under, ih]

theorem sendKeys_queue (k : Option Keys) (ms : List Msg) : sendKeys k (ms.map .queue) = k := by
  induction ms with
  | nil => rfl
  | cons m ms ih => simp [sendKeys, ih]

theorem lastIn_append (a b : List Action) : lastIn (a ++ b) = (lastIn b).or (lastIn a) := by
  simp [lastIn, List.getLast?_append]

theorem lastIn_queue (ms : List Msg) : lastIn (ms.map .queue) = none := by
  induction ms with
  | nil => rfl
  | cons m ms ih => simp_all [lastIn]

theorem under_append (k : Option Keys) (a b : List Msg) : under k (a ++ b) = under k a ++ under k b := by simp [under]

theorem makeKeys {P : Prims} (hP : P.Sized) {p : Params} (hs : 0 < p.hash.size) {secret : Bytes} {k : Keys}
    (h : makeTrafficKeys P p secret = .ok k) : k = trafficKeysOf P p secret := by
  rw [makeTrafficKeys_eq P hP _ hs, Res.ok.injEq] at h
  exact h.symm

/-! ### Until the ServerHello -/

theorem CStart.next_keys {E : Env} (hP : E.P.Sized) {x x' : Ctx} {c : Coins} {s : CStart} {w : CWaitSH} {acts : List Action}
    (h : s.next E x c = .ok (w, acts, x')) :
    sealedWith none acts = [(none, w.clientHello)] ∧ lastIn acts = none ∧
    w.params.clientSendingEarlyData = ((s.cfg.psks s.cfg.serverName).isSome && s.cfg.allowEarlyData && s.retry.isNone) ∧
    sendKeys none acts = (if w.params.clientSendingEarlyData then clientEarlyKeys E.P x.datagram s.cfg w.clientHello else none) ∧
    (w.params.clientSendingEarlyData = true → (sendKeys none acts).isSome = true) := by
  obtain ⟨_, _, _, _, _, _, ⟨psk, o, hpsk, h1, rfl, rfl, rfl⟩ | ⟨hpsk, _, h1, rfl, rfl⟩⟩ := CStart.next_ok h
  · obtain ⟨p, _, _, _, _, _, _, et, hp, _, _, _, _, _, _, _, _, hes, _, het, hk⟩ := offerPsk_ok h1
    have hsz := suiteParams_size hp
    have hkeys : some o.keys = clientEarlyKeys E.P x.datagram s.cfg o.hello := by
      rw [earlyTraffic_eq E.P hP _ hsz, Res.ok.injEq] at het
      rw [makeKeys hP hsz hk, ← het, hes, clientEarlyKeys, hpsk]
      simp only [hp]
      rw [wire_singleton]
      rfl
    cases hb : s.cfg.allowEarlyData && s.retry.isNone
    · simp [sealedWith, sendKeys, lastIn, hpsk, hb]
    · simp [sealedWith, sendKeys, lastIn, hpsk, hb, ← hkeys]
  · simp [sealedWith, sendKeys, lastIn, hpsk]

/-- What is known of the keys while a client waits for a ServerHello. -/
structure KeysSH (E : Env) (x : Ctx) (cfg : Config) (es : List (Event × Coins)) (w : CWaitSH) (acts : List Action) : Prop where
  cfg_eq : ∃ l, w.cfg = { cfg with suites := l }
  clear : sealedWith none acts = under none (sent acts)
  types : ∀ m ∈ sent acts, m.msgType = 1
  noIn : lastIn acts = none
  last : (sent acts).getLast? = some w.clientHello
  flag : w.params.clientSendingEarlyData = ((cfg.psks cfg.serverName).isSome && cfg.allowEarlyData && es.isEmpty)
  keys : sendKeys none acts =
    if w.params.clientSendingEarlyData then clientEarlyKeys E.P x.datagram cfg w.clientHello else none
  any : w.params.clientSendingEarlyData = true → (sendKeys none acts).isSome = true

/-- The parameters and secrets of a client between the ServerHello and Finished; the flag tells whether EncryptedExtensions
is in. -/
def CState.hsView : CState → Option (Params × HsSecrets × ConnParams × Bool)
  | .waitEE s => some (s.sec.cp, s.sec.hs, s.params, false)
  | .waitCertCR s => some (s.sec.cp, s.sec.hs, s.params, true)
  | .waitCert s => some (s.sec.cp, s.sec.hs, s.params, true)
  | .waitCV s => some (s.sec.cp, s.sec.hs, s.params, true)
  | .waitFinished s => some (s.sec.cp, s.sec.hs, s.params, true)
  | _ => none

/-- What is known of the keys after it. -/
structure KeysHs (E : Env) (x : Ctx) (cfg : Config) (acts : List Action) (p : Params) (hs : HsSecrets) (par : ConnParams)
    (ee : Bool) : Prop where
  suite : ∃ n, suiteParams n = some p
  clear : sealedWith none acts = under none (sent acts)
  types : ∀ m ∈ sent acts, m.msgType = 1
  reads : lastIn acts = some (trafficKeysOf E.P p hs.serverHs)
  keys : ∃ hello, (sent acts).getLast? = some hello ∧ sendKeys none acts =
    if par.clientSendingEarlyData && (!ee || par.usingEarlyData) then clientEarlyKeys E.P x.datagram cfg hello
    else some (trafficKeysOf E.P p hs.clientHs)
  any : (sendKeys none acts).isSome = true

theorem clientKeys {E : Env} (hP : E.P.Sized) {x : Ctx} {cfg : Config} {c : Coins} {es : List (Event × Coins)} {s : CState}
    {acts : List Action} {x' : Ctx} (h : clientRun E x cfg c es = .ok (s, acts, x')) :
    (∀ w, s = .waitSH w → KeysSH E x cfg es w acts) ∧
    (∀ p hs par ee, s.hsView = some (p, hs, par, ee) → KeysHs E x cfg acts p hs par ee) := by
  have := clientRun_induct (cfg := cfg) (c := c) (fun es s acts x' => x'.datagram = x.datagram ∧
    (∀ w, s = .waitSH w → KeysSH E x cfg es w acts) ∧
    (∀ p hs par ee, s.hsView = some (p, hs, par, ee) → KeysHs E x cfg acts p hs par ee)) ?_ ?_ h
  · exact this.2
  · intro w a x1 h
    obtain ⟨h1, h2, h3, h4, h4'⟩ := CStart.next_keys hP h
    obtain ⟨h5, h6, _, _⟩ := CStart.next_sent h
    refine ⟨CStart.next_datagram h, ?_, by intro _ _ _ _ h; cases h⟩
    rintro _ ⟨⟩
    exact ⟨⟨cfg.suites, h6⟩, by rw [h1, h5]; rfl, by rw [h5]; simpa using CStart.hello_type h, h2, by rw [h5]; rfl, by simpa using h3, h4, h4'⟩
  · rintro es s acts x1 e ce s' acts' x2 ⟨hx, ihS, ihH⟩ hst
    refine ⟨?_, ?_⟩
    · exact (CStep.datagram hst).trans hx
    cases hst with
    | retry w m hrr st w' acts2 _ check random handle start =>
      refine ⟨?_, by intro _ _ _ _ h; cases h⟩
      rintro _ ⟨⟩
      have hI := ihS w rfl
      obtain ⟨l, hl⟩ := hI.cfg_eq
      obtain ⟨ck, p, hck, hlen, hp, rfl⟩ := handleRetry_ok handle
      obtain ⟨h1, h2, h3, h4, _⟩ := CStart.next_keys hP start
      obtain ⟨h5, h6, _, _⟩ := CStart.next_sent start
      rw [hl] at h3 h4
      refine ⟨⟨_, h6.trans (by rw [hl])⟩, ?_, ?_, ?_, ?_, ?_, ?_, ?_⟩
      · rw [sealedWith_append, sent_append, sent_append, under_append, hI.clear, h5]
        simp [sealedWith, h1, under, sent]
      · rw [sent_append, sent_append, h5]
        intro m' hm'
        rcases List.mem_append.1 hm' with hm' | hm'
        · exact hI.types m' hm'
        · have : m' = w'.clientHello := by simpa [sent] using hm'
          rw [this]; exact CStart.hello_type start
      · rw [lastIn_append, lastIn_append, hI.noIn, h2]; rfl
      · rw [sent_append, sent_append, h5]; simp
      · have : (es ++ [(Event.msg m, ce)]).isEmpty = false := by simp
        rw [this]; simpa using h3
      · have hf : w'.params.clientSendingEarlyData = false := by simpa using h3
        rw [sendKeys_append, hf]
        rw [hf] at h4
        simpa [sendKeys] using h4
      · have hf : w'.params.clientSendingEarlyData = false := by simpa using h3
        rw [hf]; intro h; cases h
    | hello w m sh e _ _ check random handle =>
      refine ⟨(by rintro _ ⟨⟩), ?_⟩
      have hI := ihS w rfl
      obtain ⟨found, usingDH, dhs, p, hs, sk, ck, _, _, hp, _, hsk, hck, rfl, rfl, _⟩ := handleHello_ok handle
      rintro _ _ _ _ ⟨⟩
      have hsz := suiteParams_size hp
      have hsent : sent (acts ++ (.rekeyIn epochHandshake sk ::
          if !w.params.clientSendingEarlyData then [.rekeyOut epochHandshake ck] else [])) = sent acts := by
        rw [sent_append]; split <;> simp [sent]
      refine ⟨⟨_, hp⟩, ?_, by rw [hsent]; exact hI.types, ?_, ⟨w.clientHello, ?_, ?_⟩, ?_⟩
      · rw [hsent, sealedWith_append, hI.clear]
        split <;> simp [sealedWith]
      · rw [lastIn_append, ← makeKeys hP hsz hsk]
        split <;> simp [lastIn]
      · rw [hsent]; exact hI.last
      · rw [sendKeys_append, hI.keys, ← makeKeys hP hsz hck]
        cases w.params.clientSendingEarlyData <;> simp [sendKeys]
      · rw [sendKeys_append]
        have := hI.any
        cases hb : w.params.clientSendingEarlyData
        · simp [sendKeys]
        · simpa [sendKeys] using this hb
    | ee s m _ _ _ next =>
      obtain ⟨_, exts, found, keys, _, _, hk, rfl, rfl, hcase⟩ := CWaitEE.next_ok next
      have hI := ihH _ _ _ _ rfl
      obtain ⟨⟨n, hp⟩, hclear, htypes, hreads, ⟨hello, hlast, hkeys⟩, hany⟩ := hI
      have hsz := suiteParams_size hp
      have key : KeysHs E x cfg (acts ++ if s.params.clientSendingEarlyData && !findEarlyData found then
          [.rekeyOut epochHandshake keys] else []) s.sec.cp s.sec.hs (eeParams s.params found) true := by
        have hsent : ∀ b : Bool, sent (acts ++ if b then [.rekeyOut epochHandshake keys] else []) = sent acts := fun b => sent_ee
        refine ⟨⟨n, hp⟩, ?_, by rw [hsent]; exact htypes, ?_, ⟨hello, ?_, ?_⟩, ?_⟩
        · rw [hsent, sealedWith_append, hclear]
          split <;> simp [sealedWith]
        · rw [lastIn_append, hreads]
          split <;> simp [lastIn]
        · rw [hsent]; exact hlast
        · rw [sendKeys_append, hkeys, ← makeKeys hP hsz hk]
          show sendKeys _ _ = if s.params.clientSendingEarlyData && (!true || findEarlyData found) then _ else _
          cases s.params.clientSendingEarlyData <;> cases findEarlyData found <;> simp [sendKeys]
        · rw [sendKeys_append]
          split
          · simp [sendKeys]
          · simpa [sendKeys] using hany
      rcases hcase with ⟨_, rfl⟩ | ⟨_, rfl⟩
      · refine ⟨(by rintro _ ⟨⟩), ?_⟩
        rintro _ _ _ _ ⟨⟩
        exact key
      · refine ⟨(by rintro _ ⟨⟩), ?_⟩
        rintro _ _ _ _ ⟨⟩
        exact key
    | certCR s m _ _ _ next =>
      have hI := ihH _ _ _ _ rfl
      obtain ⟨rfl, rfl, ⟨_, _, _, rfl⟩ | ⟨_, _, _, _, rfl⟩⟩ := CWaitEE.nextCertCR_ok next
      all_goals
        refine ⟨(by rintro _ ⟨⟩), ?_⟩
        rintro _ _ _ _ ⟨⟩
        rw [List.append_nil]
        exact ⟨hI.suite, hI.clear, hI.types, hI.reads, hI.keys, hI.any⟩
    | cert s m _ _ _ next =>
      have hI := ihH _ _ _ _ rfl
      obtain ⟨_, rfl, rfl, _, _, rfl⟩ := CWaitCert.next_ok next
      refine ⟨(by rintro _ ⟨⟩), ?_⟩
      rintro _ _ _ _ ⟨⟩
      rw [List.append_nil]
      exact ⟨hI.suite, hI.clear, hI.types, hI.reads, hI.keys, hI.any⟩
    | cv s m _ _ _ next =>
      have hI := ihH _ _ _ _ rfl
      obtain ⟨_, rfl, rfl, _, _, _, _, _, _, _, rfl⟩ := CWaitCV.next_ok next
      refine ⟨(by rintro _ ⟨⟩), ?_⟩
      rintro _ _ _ _ ⟨⟩
      rw [List.append_nil]
      exact ⟨hI.suite, hI.clear, hI.types, hI.reads, hI.keys, hI.any⟩
    | finished s m _ _ _ next =>
      obtain ⟨_, _, _, _, _, _, _, _, _, _, _, _, _, _, _, _, _, _, _, _, _, _, _, _, _, _, rfl, _⟩ := CWaitFinished.next_ok next
      exact ⟨(by rintro _ ⟨⟩), by intro _ _ _ _ h; cases h⟩
    | post => exact ⟨(by rintro _ ⟨⟩), by intro _ _ _ _ h; cases h⟩
    | data => exact ⟨(by rintro _ ⟨⟩), by intro _ _ _ _ h; cases h⟩

/-! ### After the handshake -/

/-- What a connected end sends is a key update, under the keys it replaces. -/
theorem process_sealed {E : Env} (hP : E.P.Sized) {x x' : Ctx} {s s' : Connected} (hs : 0 < s.cp.hash.size) {now : Int}
    {m : Msg} {acts : List Action} (h : s.process E x now m = .ok (s', acts, x')) (k : Keys) :
    let label := if s.isClient then ascii "c ap traffic" else ascii "s ap traffic"
    let secret := fun s : Connected => if s.isClient then s.clientAp else s.serverAp
    s'.isClient = s.isClient ∧ s'.cp = s.cp ∧
    ((sent acts = [] ∧ sealedWith (some k) acts = [] ∧ sendKeys (some k) acts = some k ∧ secret s' = secret s) ∨
     (∃ mu, sent acts = [mu] ∧ sealedWith (some k) acts = [(some k, mu)] ∧
      secret s' = expandLabel E.P s.cp.hash (secret s) label [] s.cp.hash.size ∧
      sendKeys (some k) acts = some (trafficKeysOf E.P s.cp (secret s')))) := by
  intro label secret
  rcases Connected.process_ok h with ⟨r, t, s1, keys, hm, _, ht, hs1, _, hr⟩ | ⟨_, _, hm, _, hc, _, rfl, rfl, rfl⟩
  · have h1 : s1.isClient = s.isClient ∧ s1.cp = s.cp ∧ secret s1 = secret s := by
      subst hs1
      cases hc : s.isClient <;> simp [secret, hc]
    rcases hr with ⟨rfl, acts', hk, rfl⟩ | ⟨_, rfl, rfl, rfl⟩
    · obtain ⟨t', keys', mu, ht', hs', hk', _, rfl⟩ := Connected.keyUpdate_ok hk
      rw [h1.1, h1.2.1] at ht'
      rw [h1.1] at hs'
      rw [h1.2.1] at hk'
      have hkk := makeKeys hP hs hk'
      have e1 : s'.isClient = s.isClient ∧ s'.cp = s.cp ∧ secret s' = t' := by
        subst hs'
        cases hc : s.isClient <;> simp [secret, h1.1, h1.2.1, hc]
      refine ⟨e1.1, e1.2.1, Or.inr ⟨mu, by simp [sent], by simp [sealedWith], ?_, ?_⟩⟩
      · rw [e1.2.2, ← h1.2.2]
        cases hc : s.isClient
        · simp only [hc, Bool.false_eq_true, if_false] at ht'
          have := expand_next hP hs ht'
          rw [label_serverAp] at this
          simp only [label, secret, h1.1, hc, Bool.false_eq_true, if_false]
          exact this
        · simp only [hc, if_true] at ht'
          have := expand_next hP hs ht'
          rw [label_clientAp] at this
          simp only [label, secret, h1.1, hc, if_true]
          exact this
      · rw [e1.2.2, ← hkk]; simp [sendKeys]
    · exact ⟨h1.1, h1.2.1, Or.inl ⟨by simp [sent], by simp [sealedWith], by simp [sendKeys], h1.2.2⟩⟩
  · exact ⟨rfl, rfl, Or.inl ⟨by simp [sent], by simp [sealedWith], by simp [sendKeys], rfl⟩⟩

theorem client_post_sealed {E : Env} (hP : E.P.Sized) : ∀ {es : List (Event × Coins)} {x x' : Ctx} {s : Connected} {s' : CState}
    {acts : List Action}, 0 < s.cp.hash.size → s.isClient = true →
    (CState.connected s).run E x es = .ok (s', acts, x') →
    sealedWith (some (trafficKeysOf E.P s.cp s.clientAp)) acts = underUpdates E.P s.cp (ascii "c ap traffic") s.clientAp (sent acts)
  | [], x, x', s, s', acts, _, _, h => by
    simp only [CState.run, Res.ok.injEq, Prod.mk.injEq] at h
    obtain ⟨rfl, rfl, rfl⟩ := h
    rfl
  | (e, c) :: es, x, x', s, s', acts, hs, hc, h => by
    simp only [CState.run, Res.bind_eq_ok, Res.ok.injEq, Prod.mk.injEq] at h
    obtain ⟨⟨s1, a1, x1⟩, h1, ⟨s2, a2, x2⟩, h2, rfl, rfl, rfl⟩ := h
    cases e with
    | msg m =>
      simp only [CState.step, Res.bind_eq_ok, Res.ok.injEq, Prod.mk.injEq] at h1
      obtain ⟨⟨s3, a3, x3⟩, h3, rfl, rfl, rfl⟩ := h1
      obtain ⟨hc3, hcp3, h4⟩ := process_sealed hP hs h3 (trafficKeysOf E.P s.cp s.clientAp)
      have ih := client_post_sealed hP (s := s3) (by rw [hcp3]; exact hs) (by rw [hc3]; exact hc) h2
      rw [hcp3] at ih
      simp only [hc3, hc, if_true] at h4
      rw [sealedWith_append, sent_append]
      rcases h4 with ⟨e1, e2, e3, e4⟩ | ⟨mu, e1, e2, e3, e4⟩
      · rw [e2, e3, e1, List.nil_append, List.nil_append, ← e4]; exact ih
      · rw [e2, e4, e1, ih, e3]; rfl
    | appData d =>
      simp only [CState.step, Res.ok.injEq, Prod.mk.injEq] at h1
      obtain ⟨rfl, rfl, rfl⟩ := h1
      exact client_post_sealed hP hs hc h2
    | bad => simp [CState.step, alert] at h1

/-! ### Order of states -/

/-- How far a client is: waiting for a ServerHello, waiting for what follows up to Finished, connected. -/
def CState.stage : CState → Nat
  | .start _ => 0
  | .waitSH _ => 0
  | .connected _ => 2
  | _ => 1

theorem CStep.stage {E : Env} {x x' : Ctx} {c : Coins} {s s' : CState} {e : Event} {acts : List Action}
    (h : CStep E x c s e s' acts x') : s.stage ≤ s'.stage := by
  cases h with
  | retry => exact Nat.le_refl _
  | hello => exact Nat.zero_le _
  | ee _ _ _ _ _ next => obtain ⟨_, _, _, _, _, _, _, _, _, ⟨_, rfl⟩ | ⟨_, rfl⟩⟩ := CWaitEE.next_ok next <;> exact Nat.le_refl _
  | certCR _ _ _ _ _ next =>
    obtain ⟨_, _, ⟨_, _, _, rfl⟩ | ⟨_, _, _, _, rfl⟩⟩ := CWaitEE.nextCertCR_ok next <;> exact Nat.le_refl _
  | cert _ _ _ _ _ next => obtain ⟨_, _, _, _, _, rfl⟩ := CWaitCert.next_ok next; exact Nat.le_refl _
  | cv _ _ _ _ _ next => obtain ⟨_, _, _, _, _, _, _, _, _, _, rfl⟩ := CWaitCV.next_ok next; exact Nat.le_refl _
  | finished _ _ _ _ _ next =>
    obtain ⟨_, _, _, _, _, _, _, _, _, _, _, _, _, _, _, _, _, _, _, _, _, _, _, _, _, _, rfl, _⟩ := CWaitFinished.next_ok next
    exact Nat.le_succ 1
  | post => exact Nat.le_refl _
  | data => exact Nat.le_refl _

theorem CState.run_stage {E : Env} : ∀ {es : List (Event × Coins)} {x x' : Ctx} {s s' : CState} {acts : List Action},
    s.run E x es = .ok (s', acts, x') → s.stage ≤ s'.stage
  | [], x, x', s, s', acts, h => by
    simp only [CState.run, Res.ok.injEq, Prod.mk.injEq] at h
    rw [h.1]; exact Nat.le_refl _
  | (e, c) :: es, x, x', s, s', acts, h => by
    simp only [CState.run, Res.bind_eq_ok, Res.ok.injEq, Prod.mk.injEq] at h
    obtain ⟨⟨s1, a1, x1⟩, h1, ⟨s2, a2, x2⟩, h2, rfl, rfl, rfl⟩ := h
    exact Nat.le_trans (CState.step_ok h1).stage (CState.run_stage h2)

/-- A run goes through the states of its beginnings. -/
theorem clientRun_prefix {E : Env} {x : Ctx} {cfg : Config} {c : Coins} {es1 es2 : List (Event × Coins)} {s : CState}
    {acts : List Action} {x' : Ctx} (h : clientRun E x cfg c (es1 ++ es2) = .ok (s, acts, x')) :
    ∃ s1 a1 x1 a2, clientRun E x cfg c es1 = .ok (s1, a1, x1) ∧ s1.run E x1 es2 = .ok (s, a2, x') ∧ acts = a1 ++ a2 := by
  simp only [clientRun, Res.bind_eq_ok, Res.ok.injEq, Prod.mk.injEq, CState.run_append] at h ⊢
  obtain ⟨⟨w, a0, x0⟩, h0, ⟨_, _, _⟩, ⟨⟨s2, a2, x2⟩, h2, ⟨s3, a3, x3⟩, h3, rfl, rfl, rfl⟩, rfl, rfl, rfl⟩ := h
  exact ⟨s2, a0 ++ a2, x2, a3, ⟨_, h0, _, h2, rfl, rfl, rfl⟩, h3, by simp⟩

/-! ### The client -/

theorem CState.hsView_stage {s : CState} (h : s.stage = 1) : ∃ v, s.hsView = some v := by
  cases s <;> simp_all [CState.stage, CState.hsView]

/-- The flag of a client that sends early data tells what the last hello says. -/
theorem early_flag {E : Env} (hP : E.P.Sized) {x : Ctx} {cfg : Config} {c : Coins} {es : List (Event × Coins)} {s : Connected}
    {acts : List Action} {x' : Ctx} (a : AtConnected E x cfg c es s acts x') (V : ClientView E x.datagram cfg es acts s)
    (hV : ClientViewOf a V) : a.wf.params.clientSendingEarlyData = hasExt 42 V.ch.exts := by
  have h1 : a.wf.params.clientSendingEarlyData = a.at0.at0.w.params.clientSendingEarlyData := by
    rw [a.at0.params]
    exact congrArg (fun e : CWaitEE => e.params.clientSendingEarlyData) a.at0.at0.e_eq
  have h2 := ((clientKeys hP a.at0.at0.run0).1 _ rfl).flag
  have h3 : a.at0.at0.es0 = [] ↔ V.retries = [] := by
    rw [hV.retries]
    constructor
    · intro h; rw [h]; rfl
    · intro h
      cases hes : a.at0.at0.es0 with
      | nil => rfl
      | cons e l =>
        obtain ⟨m, hm, _⟩ := a.at0.at0.atSH.all e (by rw [hes]; simp)
        rw [hes] at h
        simp [received, hm] at h
  rw [h1, h2]
  have hoff := V.offer
  generalize hr : V.retries = rs at hoff
  generalize V.suites = sts at hoff
  cases hoff with
  | first _ _ ho =>
    rw [ho.early, h3.2 hr]; rfl
  | retry rs hrr suite c _ _ _ _ ho =>
    have : a.at0.at0.es0 ≠ [] := fun h => by rw [h3.1 h] at hr; simp at hr
    rw [ho.early]
    cases hes : a.at0.at0.es0 with
    | nil => exact absurd hes this
    | cons e l => simp

/-- How a client protects what it sends in a handshake and after. -/
theorem client_sealed {E : Env} (hP : E.P.Sized) {x : Ctx} {cfg : Config} {c : Coins} {es : List (Event × Coins)} {s : Connected}
    {acts : List Action} {x' : Ctx} (a : AtConnected E x cfg c es s acts x') (V : ClientView E x.datagram cfg es acts s)
    (hV : ClientViewOf a V) :
    sealedWith none acts = under none V.hellos ++
      under (if hasExt 42 V.ch.exts then clientEarlyKeys E.P x.datagram cfg V.hello
        else some (trafficKeysOf E.P V.p (V.F.clientHs E.P x.datagram))) V.eoed ++
      under (some (trafficKeysOf E.P V.p (V.F.clientHs E.P x.datagram))) (V.cauth ++ [V.cfin]) ++
      underUpdates E.P V.p (ascii "c ap traffic") (V.F.clientAp E.P x.datagram) V.postOut := by
  obtain ⟨⟨n, hp⟩, hclear, -, -, ⟨hello, hlast, hkeys⟩, -⟩ := (clientKeys hP a.run0).2 _ _ _ _ rfl
  have hsent : sent a.a0 = V.hellos := by rw [a.at0.sent_eq, a.at0.at0.sent_eq, hV.hellos]
  have hh : hello = V.hello := by
    have := V.lastHello
    rw [← hsent, hlast] at this
    exact Option.some.inj this
  have hsz := suiteParams_size hp
  obtain ⟨h1, h2, h3, h4⟩ := hV.s0
  have hpost := client_post_sealed hP (s := a.s0) (by rw [h2, ← hV.cp]; exact hsz) h1 a.rest
  rw [h2, h3, ← hV.postOut] at hpost
  rw [congrArg (sealedWith none) a.acts_eq, List.append_assoc, sealedWith_append, hclear, hsent, hkeys, hV.last, hh,
    early_flag hP a V hV, hV.early, hV.cp, hV.hs]
  have heo := V.eoedOk
  rcases heo with ⟨e1, e2⟩ | ⟨e1, m, e2, _, _⟩
  · simp only [e1, e2, sealedWith_append, sendKeys_append, sealedWith_queue, sendKeys_queue, sealedWith, sendKeys]
    simpa [under, sealedWith, sendKeys] using hpost
  · simp only [e1, e2, sealedWith_append, sendKeys_append, sealedWith_queue, sendKeys_queue, sealedWith, sendKeys]
    simpa [under, sealedWith, sendKeys] using hpost

theorem sealed_some : ∀ {l : List Action}, (∀ act ∈ l, ∀ n, act ≠ .resetOut n) → ∀ (k : Keys) (m : Msg),
    (none, m) ∉ sealedWith (some k) l
  | [], _, _, _ => by simp [sealedWith]
  | .resetOut n :: l, h, _, _ => absurd rfl (h (.resetOut n) (by simp) n)
  | .queue m' :: l, h, k, m => by
    simpa [sealedWith] using sealed_some (l := l) (fun act ha => h act (by simp [ha])) k m
  | .rekeyOut _ k' :: l, h, k, m => sealed_some (l := l) (fun act ha => h act (by simp [ha])) k' m
  | .rekeyIn _ _ :: l, h, k, m => sealed_some (l := l) (fun act ha => h act (by simp [ha])) k m
  | .sendQueued :: l, h, k, m => sealed_some (l := l) (fun act ha => h act (by simp [ha])) k m
  | .storePsk _ :: l, h, k, m => sealed_some (l := l) (fun act ha => h act (by simp [ha])) k m

theorem process_noReset {E : Env} {x x' : Ctx} {s s' : Connected} {now : Int} {m : Msg} {acts : List Action}
    (h : s.process E x now m = .ok (s', acts, x')) : ∀ act ∈ acts, ∀ n, act ≠ .resetOut n := by
  rcases Connected.process_ok h with ⟨r, t, s1, keys, hm, _, ht, hs1, _, hr⟩ | ⟨_, _, hm, _, hc, _, rfl, rfl, rfl⟩
  · rcases hr with ⟨rfl, acts', hk, rfl⟩ | ⟨_, rfl, rfl, rfl⟩
    · obtain ⟨t', keys', mu, ht', hs', hk', _, rfl⟩ := Connected.keyUpdate_ok hk
      simp
    · simp
  · simp

theorem client_post_noReset {E : Env} : ∀ {es : List (Event × Coins)} {x x' : Ctx} {s : Connected} {s' : CState}
    {acts : List Action}, (CState.connected s).run E x es = .ok (s', acts, x') → ∀ act ∈ acts, ∀ n, act ≠ .resetOut n
  | [], x, x', s, s', acts, h => by
    simp only [CState.run, Res.ok.injEq, Prod.mk.injEq] at h
    obtain ⟨rfl, rfl, rfl⟩ := h
    simp
  | (e, c) :: es, x, x', s, s', acts, h => by
    simp only [CState.run, Res.bind_eq_ok, Res.ok.injEq, Prod.mk.injEq] at h
    obtain ⟨⟨s1, a1, x1⟩, h1, ⟨s2, a2, x2⟩, h2, rfl, rfl, rfl⟩ := h
    cases e with
    | msg m =>
      simp only [CState.step, Res.bind_eq_ok, Res.ok.injEq, Prod.mk.injEq] at h1
      obtain ⟨⟨s3, a3, x3⟩, h3, rfl, rfl, rfl⟩ := h1
      intro act hact
      rcases List.mem_append.1 hact with hact | hact
      · exact process_noReset h3 act hact
      · exact client_post_noReset h2 act hact
    | appData d =>
      simp only [CState.step, Res.ok.injEq, Prod.mk.injEq] at h1
      obtain ⟨rfl, rfl, rfl⟩ := h1
      exact client_post_noReset h2
    | bad => simp [CState.step, alert] at h1

theorem clientRun_started {E : Env} {x : Ctx} {cfg : Config} {c : Coins} {es : List (Event × Coins)} {s0 : CStart}
    {acts : List Action} {x' : Ctx} : clientRun E x cfg c es ≠ .ok (.start s0, acts, x') := by
  intro h
  rcases clientRun_cases h with ⟨_, w, h, _⟩ | ⟨es0, ev, ce, s1, a0, x0, a1, rfl, h0, hst, rfl⟩
  · cases h
  · cases hst with
    | ee _ _ _ _ _ next =>
      obtain ⟨_, _, _, _, _, _, _, _, _, ⟨_, h⟩ | ⟨_, h⟩⟩ := CWaitEE.next_ok next <;> cases h
    | certCR _ _ _ _ _ next =>
      obtain ⟨_, _, ⟨_, _, _, h⟩ | ⟨_, _, _, _, h⟩⟩ := CWaitEE.nextCertCR_ok next <;> cases h
    | cert _ _ _ _ _ next => obtain ⟨_, _, _, _, _, h⟩ := CWaitCert.next_ok next; cases h
    | cv _ _ _ _ _ next => obtain ⟨_, _, _, _, _, _, _, _, _, _, h⟩ := CWaitCV.next_ok next; cases h
    | finished _ _ _ _ _ next =>
      obtain ⟨_, _, _, _, _, _, _, _, _, _, _, _, _, _, _, _, _, _, _, _, _, _, _, _, _, _, h, _⟩ := CWaitFinished.next_ok next
      cases h

/-- Nothing but hellos goes out in the clear. -/
theorem client_clear {E : Env} (hP : E.P.Sized) {x : Ctx} {cfg : Config} {c : Coins} {es : List (Event × Coins)} {s : CState}
    {acts : List Action} {x' : Ctx} (h : clientRun E x cfg c es = .ok (s, acts, x')) (m : Msg)
    (hm : (none, m) ∈ sealedWith none acts) : m.msgType = 1 := by
  have low : ∀ {acts' : List Action}, sealedWith none acts' = under none (sent acts') → (∀ m ∈ sent acts', m.msgType = 1) →
      (none, m) ∈ sealedWith none acts' → m.msgType = 1 := by
    intro acts' h1 h2 h3
    rw [h1] at h3
    simp only [under, List.mem_map, Prod.mk.injEq, true_and] at h3
    obtain ⟨m', h4, rfl⟩ := h3
    exact h2 _ h4
  cases hs : s with
  | start s0 => rw [hs] at h; exact absurd h clientRun_started
  | waitSH w =>
    have := (clientKeys hP h).1 w hs
    exact low this.clear this.types hm
  | connected s0 =>
    rw [hs] at h
    obtain ⟨a, V, hV⟩ := clientViewAt hP h
    have hI := (clientKeys hP a.run0).2 _ _ _ _ rfl
    rw [congrArg (sealedWith none) a.acts_eq, List.append_assoc, sealedWith_append] at hm
    rcases List.mem_append.1 hm with hm | hm
    · exact low hI.clear hI.types hm
    · obtain ⟨k, hk⟩ := Option.isSome_iff_exists.1 hI.any
      have : ∀ act ∈ a.a1 ++ a.a2, ∀ n, act ≠ .resetOut n := by
        intro act hact n
        rcases List.mem_append.1 hact with hact | hact
        · rw [hV.last] at hact
          rintro rfl
          simp only [List.mem_append, List.mem_map, reduceCtorEq, and_false, exists_false, false_or, or_false] at hact
          split at hact <;> simp at hact
        · exact client_post_noReset a.rest act hact n
      rw [hk] at hm
      exact absurd hm (sealed_some this k m)
  | _ =>
    have := (clientKeys hP h).2 _ _ _ _ (by rw [hs]; rfl)
    exact low this.clear this.types hm

theorem received_all {l : List (Event × Coins)} (h : ∀ e ∈ l, ∃ m, e.1 = .msg m) : (received l).length = l.length := by
  induction l with
  | nil => rfl
  | cons e l ih =>
    obtain ⟨m, hm⟩ := h e (by simp)
    have := ih fun e he => h e (by simp [he])
    simp only [received, List.filterMap_cons, hm] at this ⊢
    simp [this]

/-- The handshake secrets stay. -/
theorem CState.run_secrets {E : Env} : ∀ {es : List (Event × Coins)} {x x' : Ctx} {s s' : CState} {acts : List Action}
    {p : Params} {hs : HsSecrets} {par : ConnParams} {b : Bool}, s.run E x es = .ok (s', acts, x') →
    s.hsView = some (p, hs, par, b) → s'.stage ≤ 1 → ∃ par' b', s'.hsView = some (p, hs, par', b')
  | [], x, x', s, s', acts, _, _, _, _, h, hv, _ => by
    simp only [CState.run, Res.ok.injEq, Prod.mk.injEq] at h
    rw [← h.1]; exact ⟨_, _, hv⟩
  | (e, c) :: es, x, x', s, s', acts, p, hs, par, b, h, hv, hst => by
    simp only [CState.run, Res.bind_eq_ok, Res.ok.injEq, Prod.mk.injEq] at h
    obtain ⟨⟨s1, a1, x1⟩, h1, ⟨s2, a2, x2⟩, h2, rfl, rfl, rfl⟩ := h
    have h3 : s1.stage ≤ 1 := Nat.le_trans (CState.run_stage h2) hst
    have : ∃ par' b', s1.hsView = some (p, hs, par', b') := by
      cases CState.step_ok h1 with
      | retry => cases hv
      | hello => cases hv
      | ee _ _ _ _ _ next =>
        obtain ⟨_, _, _, _, _, _, _, _, _, ⟨_, rfl⟩ | ⟨_, rfl⟩⟩ := CWaitEE.next_ok next <;> cases hv <;> exact ⟨_, _, rfl⟩
      | certCR _ _ _ _ _ next =>
        obtain ⟨_, _, ⟨_, _, _, rfl⟩ | ⟨_, _, _, _, rfl⟩⟩ := CWaitEE.nextCertCR_ok next <;> cases hv <;> exact ⟨_, _, rfl⟩
      | cert _ _ _ _ _ next =>
        obtain ⟨_, _, _, _, _, rfl⟩ := CWaitCert.next_ok next
        cases hv; exact ⟨_, _, rfl⟩
      | cv _ _ _ _ _ next =>
        obtain ⟨_, _, _, _, _, _, _, _, _, _, rfl⟩ := CWaitCV.next_ok next
        cases hv; exact ⟨_, _, rfl⟩
      | finished _ _ _ _ _ next =>
        obtain ⟨_, _, _, _, _, _, _, _, _, _, _, _, _, _, _, _, _, _, _, _, _, _, _, _, _, _, rfl, _⟩ := CWaitFinished.next_ok next
        exact absurd h3 (by simp [CState.stage])
      | post => cases hv
      | data => cases hv
    obtain ⟨par', b', hv'⟩ := this
    exact CState.run_secrets h2 hv' hst

theorem append_split {α : Type} {a b l r : List α} (h : a ++ b = l ++ r) (hlen : a.length ≤ l.length) : ∃ t, l = a ++ t := by
  rcases List.append_eq_append_iff.1 h with ⟨t, h1, _⟩ | ⟨t, h1, _⟩
  · exact ⟨t, h1⟩
  · have : t = [] := by
      have := congrArg List.length h1
      simp at this
      exact List.eq_nil_of_length_eq_zero (by omega)
    exact ⟨[], by rw [h1, this]; simp⟩

/-- With which keys a client reads at each moment. -/
theorem client_reads {E : Env} (hP : E.P.Sized) {x : Ctx} {cfg : Config} {c : Coins} {es es1 es2 : List (Event × Coins)}
    {s : Connected} {acts : List Action} {x' : Ctx} (h : clientRun E x cfg c es = .ok (.connected s, acts, x'))
    (a : AtConnected E x cfg c es s acts x') (V : ClientView E x.datagram cfg es acts s)
    (hV : ClientViewOf a V) (hes : es = es1 ++ es2) :
    ∃ s1 acts1 x1 acts2, clientRun E x cfg c es1 = .ok (s1, acts1, x1) ∧ acts = acts1 ++ acts2 ∧
      lastIn acts1 = V.readsByRfc (received es1) := by
  obtain ⟨s1, a1, x1, a2, hr1, hr2, hacts⟩ := clientRun_prefix (hes ▸ h)
  refine ⟨s1, a1, x1, a2, hr1, hacts, ?_⟩
  have hes0 := a.at0.at0.es_eq
  have hes1 := a.at0.es_eq
  have hes2 := hes.symm.trans a.es_eq
  have all0 : ∀ e ∈ a.at0.at0.es0, ∃ m, e.1 = .msg m := fun e he => by
    obtain ⟨m, h1, _⟩ := a.at0.at0.atSH.all e he; exact ⟨m, h1⟩
  have len0 : V.retries.length = a.at0.at0.es0.length := by rw [hV.retries]; exact received_all all0
  have lenA : V.F.auth.length = a.at0.auth.length := by rw [hV.auth]; simp
  have hF0 : a.es0 = a.at0.at0.es0 ++ ([(.msg a.at0.at0.m, a.at0.at0.ce)] ++ ([(.msg a.at0.m, a.at0.ce)] ++
      (a.at0.auth.map fun r => (Event.msg r.1, r.2)))) := by
    refine hes1.trans ?_
    rw [List.append_assoc]
    refine (congrArg (· ++ _) hes0).trans ?_
    simp
  have allF : ∀ e ∈ a.es0 ++ [(.msg a.m, a.ce)], ∃ m, e.1 = .msg m := by
    intro e he
    rcases List.mem_append.1 he with he | he
    · have he' : e ∈ a.at0.at0.es0 ++ ([(.msg a.at0.at0.m, a.at0.at0.ce)] ++ ([(.msg a.at0.m, a.at0.ce)] ++
        (a.at0.auth.map fun r => (Event.msg r.1, r.2)))) := hF0 ▸ he
      simp only [List.mem_append, List.mem_singleton, List.mem_map] at he'
      rcases he' with he | rfl | rfl | ⟨r, _, rfl⟩
      · exact all0 e he
      all_goals exact ⟨_, rfl⟩
    · rw [List.mem_singleton] at he
      exact ⟨_, by rw [he]⟩
  have lenF : a.es0.length = V.retries.length + 2 + V.F.auth.length := by
    refine (congrArg List.length hF0).trans ?_
    rw [len0, lenA]; simp; omega
  have hsplit : es1 ++ es2 = a.at0.at0.es0 ++ ([(.msg a.at0.at0.m, a.at0.at0.ce)] ++ ([(.msg a.at0.m, a.at0.ce)] ++
      (a.at0.auth.map fun r => (Event.msg r.1, r.2)) ++ [(.msg a.m, a.ce)] ++ a.post)) := by
    refine hes2.trans ?_
    rw [List.append_assoc]
    refine (congrArg (· ++ _) hF0).trans ?_
    simp
  have hwf := (clientKeys hP a.run0).2 _ _ _ _ rfl
  obtain ⟨n, hp⟩ := hwf.suite
  have hsz := suiteParams_size hp
  by_cases hF : es1.length ≤ a.es0.length
  · obtain ⟨t, ht⟩ := append_split (hes2.trans (List.append_assoc _ _ _)) hF
    have hall : (received es1).length = es1.length := received_all fun e he => allF e (by
      rw [List.mem_append]; refine Or.inl ?_
      have : e ∈ es1 ++ t := by simp [he]
      exact ht ▸ this)
    obtain ⟨a2', hrun⟩ : ∃ a2', s1.run E x1 t = .ok (.waitFinished a.wf, a2', a.x0) := by
      have h1 := a.run0
      generalize a.es0 = es0 at h1 ht
      subst ht
      obtain ⟨s1', a1', x1', a2', hr, hrun, _⟩ := clientRun_prefix h1
      rw [hr1] at hr
      cases hr
      exact ⟨a2', hrun⟩
    have hle2 : s1.stage ≤ 1 := CState.run_stage hrun
    by_cases h0 : es1.length ≤ a.at0.at0.es0.length
    · obtain ⟨t0, ht0⟩ := append_split hsplit h0
      have hle0 : s1.stage ≤ 0 := by
        have h1 := a.at0.at0.run0
        rw [ht0] at h1
        obtain ⟨s1', a1', x1', a2', hr, hrun, _⟩ := clientRun_prefix h1
        rw [hr1] at hr
        cases hr
        exact CState.run_stage hrun
      have hread : V.readsByRfc (received es1) = none := by
        rw [ClientView.readsByRfc, if_pos (by rw [hall, len0]; exact h0)]
      rw [hread]
      cases s1 with
      | waitSH w => exact ((clientKeys hP hr1).1 w rfl).noIn
      | start s0 => exact absurd hr1 clientRun_started
      | _ => simp [CState.stage] at hle0
    · have hmem : (Event.msg a.at0.at0.m, a.at0.at0.ce) ∈ es1 := by
        obtain ⟨t0, ht0⟩ := append_split (a := a.at0.at0.es0 ++ [(.msg a.at0.at0.m, a.at0.at0.ce)])
          (l := es1) (r := es2) (by rw [hsplit, List.append_assoc]) (by simp; omega)
        rw [ht0]; simp
      have hne : s1.stage ≠ 0 := by
        intro h1
        cases s1 with
        | waitSH w =>
          obtain ⟨m, hm, hl⟩ := (atSH hr1).all _ hmem
          cases hm
          obtain ⟨n, hd⟩ := a.at0.at0.decodes
          have ht := a.at0.at0.type
          rw [letterOf] at hl
          simp [show a.at0.at0.m.msgType = 2 from ht, hd, a.at0.at0.notRetry] at hl
        | start s0 => exact absurd hr1 clientRun_started
        | _ => simp [CState.stage] at h1
      obtain ⟨⟨p1, hs1, par1, b1⟩, hv1⟩ := CState.hsView_stage (s := s1) (by omega)
      obtain ⟨par', b', hv'⟩ := CState.run_secrets hrun hv1 (Nat.le_refl _)
      cases hv'
      rw [((clientKeys hP hr1).2 _ _ _ _ hv1).reads, hV.cp, hV.hs, ClientView.readsByRfc, if_neg (by rw [hall, len0]; exact h0),
        if_pos (by rw [hall, ← lenF]; exact hF)]
  · obtain ⟨post1, hp1⟩ := append_split (a := a.es0 ++ [(.msg a.m, a.ce)]) (l := es1) (r := es2) hes2.symm
      (by simp; omega)
    have hrest : a.post = post1 ++ es2 := by
      rw [hp1, List.append_assoc] at hes2
      exact (List.append_cancel_left hes2).symm
    obtain ⟨c1, a3, x3, hs1, hrun⟩ : ∃ c1 a3 x3, s1 = .connected c1 ∧
        (CState.connected a.s0).run E a.x1 post1 = .ok (.connected c1, a3, x3) := by
      rw [hp1, List.append_assoc] at hr1
      obtain ⟨s1', a1', x1', a2', hr, hrun, _⟩ := clientRun_prefix hr1
      rw [a.run0] at hr
      cases hr
      simp only [List.singleton_append, CState.run, CState.step, a.next, Res.bind_eq_ok, Res.ok.injEq, Prod.mk.injEq] at hrun
      obtain ⟨_, rfl, ⟨s4, a4, x4⟩, h4, rfl, _, _⟩ := hrun
      have := CState.run_stage h4
      cases s4 with
      | connected c1 => exact ⟨c1, _, _, rfl, h4⟩
      | _ => exact absurd this (by simp [CState.stage])
    subst hs1
    obtain ⟨h1, h2, h3, h4⟩ := hV.s0
    have hz : 0 < a.s0.cp.hash.size := by rw [h2, ← hV.cp]; exact hsz
    have hpost := client_post hP (s := a.s0) hz h1 hrun
    obtain ⟨ck, sk, _, hsk, hin⟩ := client_installed hr1
    have hc1 : c1.isClient = true := by rw [hpost]; exact h1
    have hcp1 : c1.cp = V.p := by rw [hpost]; exact h2
    have hap1 : c1.serverAp = updates E.P V.F.h (ascii "s ap traffic") (keyUpdates (received post1)) (V.F.serverAp E.P x.datagram) := by
      rw [hpost, V.hash, ← h2, ← h4]
    rw [hc1, if_pos rfl] at hin
    rw [hin.2, makeKeys hP (by rw [hcp1, ← hV.cp]; exact hsz) hsk, hcp1, hap1]
    have hrec : received es1 = received (a.es0 ++ [(.msg a.m, a.ce)]) ++ received post1 := by rw [hp1, received_append]
    have hrl : (received (a.es0 ++ [(.msg a.m, a.ce)])).length = V.retries.length + 3 + V.F.auth.length := by
      rw [received_all allF]; simp; omega
    rw [ClientView.readsByRfc, if_neg (by rw [hrec, List.length_append, hrl]; omega),
      if_neg (by rw [hrec, List.length_append, hrl]; omega), hrec, List.drop_left' hrl]

end Verif.Machine

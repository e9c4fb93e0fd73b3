import Verif.Machine.EarlyData
import Verif.Machine.Toy

/-
C46: early data. What a server has in its buffer for early data may be read by the application before the handshake is
complete (conn.go:414-434), so the statements are about every run, not only about runs that end connected.
-/

namespace Verif.Toy

open Verif Verif.Crypto Verif.Messages Verif.Negotiation Verif.Handshake Verif.Machine Verif.Spec

/-- A hello with other extensions. -/
def withExts (m : Msg) (f : ClientHello → Res (List Ext)) : Msg :=
  match ClientHello.unmarshal 0x0303 m.body with
  | .ok (ch, _) =>
    match f ch with
    | .ok es => message (.clientHello { ch with exts := es })
    | _ => ⟨0, 0, [], 0, 0⟩
  | _ => ⟨0, 0, [], 0, 0⟩

/-- The extensions of a hello that offers the given identities, the last one with the right binder; `base` comes before
the hello in the transcript. -/
def rebind (base : Bytes) (ch : ClientHello) (first : List Ext) (ids : List PskIdentity) (fill : List BinderEntry) : Res (List Ext) :=
  (addExt (first ++ ch.exts) (.preSharedKey 1 ids (fill ++ [(List.replicate 32 0, ())]) 0)).bind fun es =>
  ({ ch with exts := es }).truncated.bind fun trunc =>
  addExt (first ++ ch.exts) (.preSharedKey 1 ids (fill ++ [(binder prims .sha256 false psk.key (base ++ trunc), ())]) 0)

/-- A hello whose first identity is unknown to the server. -/
def secondIdentity : Msg := withExts (lastHello tls pskClient []) fun ch =>
  rebind [] ch [] [([7], 0, ()), (psk.identity, 1000, ())] [(List.replicate 32 0, ())]

def retryServer : Config := { pskServer with requireCookie := true }

/-- The cookie in the server's HelloRetryRequest. -/
def retryCookie : Bytes :=
  match (sent (actsOf (serverRun env tls retryServer [arrive tls 6 (lastHello tls pskClient [])]))).head? with
  | some m =>
    match ServerHello.unmarshal m.body with
    | .ok (sh, _) => match dataOf 44 sh.exts with | d :: _ => d.drop 2 | [] => []
    | _ => []
  | none => []

/-- A second hello that still has the early_data extension. -/
def earlyAfterRetry : Msg := withExts (lastHello tls pskClient []) fun ch =>
  (makeRetry tls 0 [] retryCookie).bind fun (hrr, _) =>
  rebind (hashMsgBytes (some (prims.hash .sha256 (tls.bytes (lastHello tls pskClient [])))) ++ tls.bytes hrr) ch
    [(44, beBytes 2 retryCookie.length ++ retryCookie, ())] [(psk.identity, 1000, ())] []

/-- Both ends prefer another protocol than that of the PSK. -/
def otherProtoServer : Config := { pskServer with nextProtos := [[104, 51]] }
def otherProtoClient : Config := { pskClient with nextProtos := [[104, 51]] }

/-- A server that refuses early data. -/
def refusingServer : Config := { pskServer with allowEarlyData := false }

/-- Whether a server has the early data, and what it sent has a property. -/
def earlySent (d : Bytes) (f : List Msg → Bool) : Res (SState × List Action × Ctx) → Bool
  | .ok (_, acts, x) => x.earlyData == d && f (sent acts)
  | _ => false

theorem earlySent_ok {d : Bytes} {f : List Msg → Bool} {r : Res (SState × List Action × Ctx)} (h : earlySent d f r = true) :
    ∃ s acts x, r = .ok (s, acts, x) ∧ x.earlyData = d ∧ f (sent acts) = true := by
  unfold earlySent at h
  split at h
  · simp only [Bool.and_eq_true, beq_iff_eq] at h
    exact ⟨_, _, _, rfl, h.1, h.2⟩
  · cases h

/-- The server did not come to an end. -/
def diverges : Res (SState × List Action × Ctx) → Bool
  | .diverge => true
  | _ => false

theorem diverges_ok {r : Res (SState × List Action × Ctx)} (h : diverges r = true) : r = .diverge := by
  unfold diverges at h
  split at h
  · rfl
  · cases h

/-- The data of an extension in a ServerHello. -/
def shData (t : UInt16) (m : Msg) : List Bytes :=
  match ServerHello.unmarshal m.body with
  | .ok (sh, _) => if m.msgType = 2 then dataOf t sh.exts else []
  | _ => []

/-- EncryptedExtensions that name no protocol. -/
def noProtocol (m : Msg) : Bool :=
  match unmarshalEE m.body with
  | .ok (ee, _) => m.msgType == 8 && (dataOf 16 ee).isEmpty
  | _ => false

theorem shData_ok {t : UInt16} {m : Msg} {d : Bytes} (h : d ∈ shData t m) :
    m.msgType = 2 ∧ ∃ sh n, ServerHello.unmarshal m.body = .ok (sh, n) ∧ d ∈ dataOf t sh.exts := by
  unfold shData at h
  split at h
  · rename_i sh n he
    split at h
    · rename_i ht; exact ⟨ht, sh, n, he, h⟩
    · cases h
  · cases h

theorem noProtocol_ok {m : Msg} (h : noProtocol m = true) :
    m.msgType = 8 ∧ ∃ ee n, unmarshalEE m.body = .ok (ee, n) ∧ dataOf 16 ee = [] := by
  unfold noProtocol at h
  split at h
  · rename_i ee n he
    simp only [Bool.and_eq_true, beq_iff_eq, List.isEmpty_iff] at h
    exact ⟨h.1, ee, n, he, h.2⟩
  · cases h

/-- The server's run on the hello of a client and its Finished, with one record between that does not decrypt. -/
def refusedRun (hello fin : Msg) : Res (SState × List Action × Ctx) :=
  serverRun env tls refusingServer [(.msg hello, coins 6), (.bad, coins 6), (.msg fin, coins 6)]

/-- What was checked of a client that sent a hello and a Finished. -/
def refusedCheck (got ms : List Msg) : Bool :=
  match ms with
  | [hello, fin] =>
    diverges (refusedRun hello fin) &&
    (match serverRun env tls refusingServer [(.msg hello, coins 6)] with
      | .ok (.readPast, acts, _) => (sent acts).map (fun m => { m with seq := 0 }) == got
      | _ => false)
  | _ => false

theorem refusedCheck_ok {got ms : List Msg} (h : refusedCheck got ms = true) : ∃ hello fin, ms = [hello, fin] ∧
    refusedRun hello fin = .diverge ∧ ∃ acts x, serverRun env tls refusingServer [(.msg hello, coins 6)] = .ok (.readPast, acts, x) ∧
      (sent acts).map (fun m => { m with seq := 0 }) = got := by
  unfold refusedCheck at h
  split at h
  · rename_i hello fin
    simp only [Bool.and_eq_true] at h
    refine ⟨hello, fin, rfl, diverges_ok h.1, ?_⟩
    have h2 := h.2
    split at h2
    · rename_i acts x hr
      exact ⟨acts, x, hr, by simpa using h2⟩
    · cases h2
  · cases h

end Verif.Toy

namespace Verif.Props

open Verif Verif.Crypto Verif.Messages Verif.Negotiation Verif.Handshake Verif.Machine Verif.Spec

/-! ### What the code does not do -/

/-- Early data is taken though the server selected the second PSK (RFC 8446, 4.2.10: it must be the first). -/
theorem C46_first_psk_fails : ∃ (E : Env) (x : Ctx) (cfg : Config) (hello : Msg) (d : Bytes) (c : Coins) (s : SState)
    (acts : List Action) (x' : Ctx), E.P.Sized ∧ x.earlyData = [] ∧
    serverRun E x cfg [(.msg hello, c), (.appData d, c)] = .ok (s, acts, x') ∧ d ≠ [] ∧ x'.earlyData = d ∧
    ∃ m ∈ sent acts, m.msgType = 2 ∧ ∃ sh n, ServerHello.unmarshal m.body = .ok (sh, n) ∧ [0, 1] ∈ dataOf 41 sh.exts := by
  obtain ⟨s, acts, x', h, hd, hf⟩ := Toy.earlySent_ok (d := [1, 2]) (f := fun l => l.any fun m => (Toy.shData 41 m).contains [0, 1])
    (r := serverRun Toy.env Toy.tls Toy.pskServer [(.msg Toy.secondIdentity, Toy.coins 6), (.appData [1, 2], Toy.coins 6)])
    (by decide +kernel)
  simp only [List.any_eq_true] at hf
  obtain ⟨m, hm, hf⟩ := hf
  exact ⟨Toy.env, Toy.tls, Toy.pskServer, _, _, _, s, acts, x', Toy.prims_sized, rfl, h, by simp, hd, m, hm,
    Toy.shData_ok (by simpa using hf)⟩

/-- Early data is taken though the protocol of the PSK is not negotiated: every PSK of the server is for "h2", and
EncryptedExtensions names no protocol (RFC 8446, 4.2.10: it must be that of the PSK). -/
theorem C46_same_protocol_fails : ∃ (E : Env) (x : Ctx) (cfg : Config) (hello : Msg) (d : Bytes) (c : Coins) (s : SState)
    (acts : List Action) (x' : Ctx), E.P.Sized ∧ x.earlyData = [] ∧
    serverRun E x cfg [(.msg hello, c), (.appData d, c)] = .ok (s, acts, x') ∧ d ≠ [] ∧ x'.earlyData = d ∧
    (∀ n k, cfg.psks n = some k → k.nextProto = ascii "h2") ∧
    ∃ m ∈ sent acts, m.msgType = 8 ∧ ∃ ee n, unmarshalEE m.body = .ok (ee, n) ∧ dataOf 16 ee = [] := by
  obtain ⟨s, acts, x', h, hd, hf⟩ := Toy.earlySent_ok (d := [1, 2])
    (f := fun l => l.any fun m => Toy.noProtocol m)
    (r := serverRun Toy.env Toy.tls Toy.otherProtoServer
      [(.msg (Toy.lastHello Toy.tls Toy.otherProtoClient []), Toy.coins 6), (.appData [1, 2], Toy.coins 6)]) (by decide +kernel)
  simp only [List.any_eq_true] at hf
  obtain ⟨m, hm, hf⟩ := hf
  refine ⟨Toy.env, Toy.tls, Toy.otherProtoServer, _, _, _, s, acts, x', Toy.prims_sized, rfl, h, by simp, hd, ?_, m, hm,
    Toy.noProtocol_ok hf⟩
  intro n k hk
  simp only [Toy.otherProtoServer, Toy.pskServer] at hk
  split at hk
  · cases hk; decide
  · cases hk

/-- Early data is taken after a HelloRetryRequest (RFC 8446, 4.2.10: it must not be). -/
theorem C46_no_retry_fails : ∃ (E : Env) (x : Ctx) (cfg : Config) (hello1 hello2 : Msg) (d : Bytes) (c : Coins) (s : SState)
    (acts : List Action) (x' : Ctx), E.P.Sized ∧ x.earlyData = [] ∧
    serverRun E x cfg [(.msg hello1, c), (.msg hello2, c), (.appData d, c)] = .ok (s, acts, x') ∧ d ≠ [] ∧ x'.earlyData = d ∧
    ∃ m ∈ sent acts, letterOf m = .helloRetryRequest := by
  obtain ⟨s, acts, x', h, hd, hf⟩ := Toy.earlySent_ok (d := [1, 2]) (f := fun l => l.any fun m => decide (letterOf m = .helloRetryRequest))
    (r := serverRun Toy.env Toy.tls Toy.retryServer [(.msg (Toy.lastHello Toy.tls Toy.pskClient []), Toy.coins 6),
      (.msg Toy.earlyAfterRetry, Toy.coins 6), (.appData [1, 2], Toy.coins 6)]) (by decide +kernel)
  simp only [List.any_eq_true, decide_eq_true_eq] at hf
  exact ⟨Toy.env, Toy.tls, Toy.retryServer, _, _, _, _, s, acts, x', Toy.prims_sized, rfl, h, by simp, hd, hf⟩

/-- A server that refuses early data does not complete the handshake. The client has read the answer of the server to its
hello, has completed, and has sent its Finished. The server reads the hello, one record that does not decrypt (the early
data), and then the Finished: it comes to no end. (Over TLS messages have no sequence number: it is 0 in those read.) -/
theorem C46_refused_completes_fails : ∃ (E : Env) (x : Ctx) (cfg ccfg : Config) (c cs : Coins) (es : List (Event × Coins))
    (s : Connected) (acts : List Action) (x' : Ctx) (hello fin : Msg) (acts' : List Action) (x'' : Ctx), E.P.Sized ∧
    clientRun E x ccfg c es = .ok (.connected s, acts, x') ∧ sent acts = [hello, fin] ∧
    serverRun E x cfg [(.msg hello, cs)] = .ok (.readPast, acts', x'') ∧
    received es = (sent acts').map (fun m => { m with seq := 0 }) ∧
    serverRun E x cfg [(.msg hello, cs), (.bad, cs), (.msg fin, cs)] = .diverge := by
  obtain ⟨s, acts, x', h, hf⟩ := Toy.clientSent_ok
    (f := fun _ ms => Toy.refusedCheck (received (Toy.exchange Toy.tls Toy.pskClient Toy.refusingServer 2).1) ms)
    (r := clientRun Toy.env Toy.tls Toy.pskClient (Toy.coins 2) (Toy.exchange Toy.tls Toy.pskClient Toy.refusingServer 2).1)
    (by decide +kernel)
  obtain ⟨hello, fin, h1, h2, acts', x'', h3, h4⟩ := Toy.refusedCheck_ok hf
  exact ⟨Toy.env, Toy.tls, Toy.refusingServer, Toy.pskClient, Toy.coins 2, Toy.coins 6, _, s, acts, x', hello, fin, acts', x'',
    Toy.prims_sized, h, h1, h3, h4.symm, h2⟩

/-- In general: a server that completes the handshake has accepted the early data announced in the last hello, if any. -/
theorem C46_refused_never_completes (E : Env) (hP : E.P.Sized) (x : Ctx) (cfg : Config) (es : List (Event × Coins))
    (s : Connected) (acts : List Action) (x' : Ctx) (h : serverRun E x cfg es = .ok (.connected s, acts, x')) :
    ∃ (pre before post : List Msg) (hello cfin : Msg) (ch : ClientHello),
      received es = pre ++ [hello] ++ before ++ [cfin] ++ post ∧
      (∀ m ∈ pre, m.msgType = 1) ∧ hello.msgType = 1 ∧ (∀ m ∈ before, m.msgType ≠ 1) ∧ cfin.msgType = 20 ∧
      ClientHello.unmarshal (if x.datagram then 0xfefd else 0x0303) hello.body = .ok (ch, hello.body.length) ∧
      (hasExt 42 ch.exts = true → cfg.allowEarlyData = true ∧ s.params.usingPSK = true ∧ s.params.usingEarlyData = true) := by
  obtain ⟨v⟩ := serverView hP h
  refine ⟨v.pre, v.eoed ++ v.cauth, v.post, v.hello, v.cfin, v.ch, by rw [v.got, v.rest_eq]; simp, v.preTypes, v.helloType, ?_,
    v.cfinType, v.helloBody, ?_⟩
  · intro m hm
    rcases List.mem_append.1 hm with hm | hm
    · rcases v.eoedOk with ⟨_, h1⟩ | ⟨_, m', h1, h2, _⟩
      · rw [h1] at hm; cases hm
      · rw [h1, List.mem_singleton] at hm
        rw [hm, h2]; decide
    · cases v.cauthOk with
      | none _ h1 _ => rw [h1] at hm; cases hm
      | empty _ mc h1 h2 =>
        rw [h1, List.mem_singleton] at hm
        rw [hm, h2]; decide
      | cert _ mc mv h1 h2 _ _ _ h3 =>
        rw [h1] at hm
        simp only [List.mem_cons, List.not_mem_nil, or_false] at hm
        rcases hm with rfl | rfl
        · rw [h2]; decide
        · rw [h3]; decide
  · intro he
    have h1 := v.noEarlyRefused he
    have h2 := v.acceptsEarly
    rw [h1] at h2
    simp only [Bool.true_eq, Bool.and_eq_true] at h2
    exact ⟨h2.2, by rw [v.repPsk]; exact h2.1.1, by rw [v.repEarly]; exact h1⟩

/-! ### What it does -/

/-- Early data comes only from a connection in which the server selected a PSK that it has, with the right binder in the
hello, the hello announced early data, the configuration allows it and EncryptedExtensions accepts it. It is the
application data read after the hello and before EndOfEarlyData, in order, while the keys for reading are those of the early
traffic secret of the PSK and that hello. The protocol named is that of the PSK, or none; none only if the PSK is not from a
ticket or the client names no protocol. Missing from C46: the PSK may be any of those offered, there may be no protocol, and
the hello may follow a HelloRetryRequest. -/
theorem C46_accepted_partial (E : Env) (hP : E.P.Sized) (x : Ctx) (cfg : Config) (es : List (Event × Coins))
    (s : SState) (acts : List Action) (x' : Ctx) (h : serverRun E x cfg es = .ok (s, acts, x')) (hd : x'.earlyData ≠ x.earlyData) :
    ∃ (before mid after : List (Event × Coins)) (hello mee : Msg) (c : Coins) (ch : ClientHello) (suite : UInt16) (p : Params)
      (exts ee : List Ext) (k : Psk) (base : List Msg) (out : List Msg) (msh : Msg) (sh : ServerHello),
      es = before ++ [(.msg hello, c)] ++ mid ++ after ∧
      (∀ e ∈ before, ∃ m, e.1 = .msg m ∧ m.msgType = 1) ∧
      (∀ e ∈ mid, ∃ d, e.1 = .appData d) ∧ x'.earlyData = x.earlyData ++ dataRead mid ∧
      (after = [] ∨ ∃ m c' r, after = (.msg m, c') :: r ∧ m.msgType = 5) ∧
      ClientHello.unmarshal (if x.datagram then 0xfefd else 0x0303) hello.body = .ok (ch, hello.body.length) ∧
      hasExt 42 ch.exts = true ∧ cfg.allowEarlyData = true ∧
      sent acts = base ++ [msh, mee] ++ out ∧ base.length = before.length ∧
      ServerHello.unmarshal msh.body = .ok (sh, msh.body.length) ∧ sh.suite = suite ∧ sh.exts = exts ∧
      ServerPsk E.P cfg ch suite exts (some k) ∧ suiteParams suite.toNat = some p ∧
      unmarshalEE mee.body = .ok (ee, mee.body.length) ∧ hasExt 42 ee = true ∧
      (∃ proto, NamesProtocol ee proto ∧ (proto = k.nextProto ∨
        (proto = [] ∧ (k.isResumption = true → ∀ ps, Carries .alpn ch.exts (.alpn ps) → ps = [])))) ∧
      Action.rekeyIn 1 (trafficKeys E.P p.hash p.keyLen p.ivLen
        (clientEarlyTraffic E.P p.hash (earlySecret E.P p.hash (some k.key)) (wire x.datagram [hello]))) ∈ acts := by
  have key : ∃ a : AfterHello E x cfg es acts, a.n.params.usingEarlyData = true ∧ EarlyKeys E a acts ∧ ∃ mid after,
      a.rest = mid ++ after ∧ (∀ e ∈ mid, ∃ d, e.1 = .appData d) ∧ x'.earlyData = x.earlyData ++ dataRead mid ∧
      (after = [] ∨ ∃ m c' r, after = (.msg m, c') :: r ∧ m.msgType = 5) := by
    have h1 := earlyAt h
    have later : (x'.earlyData = x.earlyData ∨ ∃ a : AfterHello E x cfg es acts, a.n.params.usingEarlyData = true ∧ EarlyKeys E a acts ∧
        ∃ mid m c r, a.rest = mid ++ (.msg m, c) :: r ∧ m.msgType = 5 ∧ (∀ e ∈ mid, ∃ d, e.1 = .appData d) ∧
          x'.earlyData = x.earlyData ++ dataRead mid) →
        ∃ a : AfterHello E x cfg es acts, a.n.params.usingEarlyData = true ∧ EarlyKeys E a acts ∧ ∃ mid after,
          a.rest = mid ++ after ∧ (∀ e ∈ mid, ∃ d, e.1 = .appData d) ∧ x'.earlyData = x.earlyData ++ dataRead mid ∧
          (after = [] ∨ ∃ m c' r, after = (.msg m, c') :: r ∧ m.msgType = 5) := by
      rintro (h2 | ⟨a, h2, h3, mid, m, c, r, h4, h5, h6, h7⟩)
      · exact absurd h2 hd
      · exact ⟨a, h2, h3, mid, _, h4, h6, h7, .inr ⟨m, c, r, rfl, h5⟩⟩
    cases s with
    | start => exact absurd h1 hd
    | negotiated => exact absurd h1 hd
    | readPast => exact absurd h1 hd
    | waitFlight2 => exact absurd h1 hd
    | waitEOED w =>
      obtain ⟨a, h2, h3, h4, h5⟩ := h1
      exact ⟨a, h2, h3, a.rest, [], by simp, h4, h5, .inl rfl⟩
    | waitCert => exact later h1
    | waitCV => exact later h1
    | waitFinished => exact later h1
    | connected => exact later h1
  obtain ⟨a, hu, ⟨keys, hk, hkm⟩, mid, after, hrest, hmid, hdata, hafter⟩ := key
  obtain ⟨v, hv⟩ := a.flight hP
  have hee : hasExt 42 v.ee = true := by rw [← hv.usingEarlyData]; exact hu
  have hacc := v.acceptsEarly
  rw [hee] at hacc
  simp only [Bool.true_eq, Bool.and_eq_true] at hacc
  have hhello : v.hello = a.m := hv.hello
  cases hpsk : v.psk with
  | none => rw [hpsk] at hacc; simp at hacc
  | some k =>
    refine ⟨a.es0, mid, after, v.hello, v.F.ee, a.ce, v.ch, v.sh.suite, v.p, v.sh.exts, v.ee, k, v.retries,
      v.F.auth ++ [v.F.fin] ++ v.out, v.F.sh, v.sh, ?_, a.hellos, hmid, hdata, hafter, v.helloBody, hacc.1.2, hacc.2, ?_, ?_,
      v.shBody, rfl, rfl, by rw [← hpsk]; exact v.pskOk, v.suite, v.eeBody, hee,
      ⟨_, hv.proto, hv.protoPsk k hpsk⟩, ?_⟩
    · rw [hhello, List.append_assoc _ mid, ← hrest]; exact a.es_eq
    · rw [v.out_eq]; simp
    · rw [hv.retries]; exact a.retries.1
    · have hp : v.p = a.f.p := hv.p
      have hz : 0 < a.f.p.hash.size := suiteParams_size a.f.suiteOk
      have he := v.early
      rw [hpsk, v.hash, hp, hv.F] at he
      rw [makeTrafficKeys_eq E.P hP _ hz, a.early_traffic hP hu, he] at hk
      simp only [Res.ok.injEq, Option.map_some] at hk
      rw [hp, hhello, hk]
      exact hkm

/-- Records that do not decrypt are skipped while early data is being refused. -/
theorem C46_refused_skipped_partial (E : Env) (x x' : Ctx) (cfg : Config) (es : List (Event × Coins)) (acts : List Action)
    (h : serverRun E x cfg es = .ok (.readPast, acts, x')) (bad : List Coins) :
    serverRun E x cfg (es ++ bad.map fun c => (.bad, c)) = .ok (.readPast, acts, x') ∧ x'.earlyData = x.earlyData := by
  refine ⟨?_, earlyAt h⟩
  have again : ∀ (bad : List Coins) (y : Ctx), SState.run E y .readPast (bad.map fun c => (.bad, c)) = .ok (.readPast, [], y) := by
    intro bad
    induction bad with
    | nil => intro y; rfl
    | cons c bad ih => intro y; simp [SState.run, SState.step, ih]
  unfold serverRun at h ⊢
  rw [SState.run_append, h]
  simp [again]

/-- Early data is taken, and a server that refuses gets to the state in which it is skipped. -/
example : ∃ s acts x', serverRun Toy.env Toy.tls Toy.pskServer [(.msg (Toy.lastHello Toy.tls Toy.pskClient []), Toy.coins 6),
    (.appData [1, 2], Toy.coins 6)] = .ok (s, acts, x') ∧ x'.earlyData ≠ Toy.tls.earlyData := by
  obtain ⟨s, acts, x', h, hd, _⟩ := Toy.earlySent_ok (d := [1, 2]) (f := fun _ => true)
    (r := serverRun Toy.env Toy.tls Toy.pskServer [(.msg (Toy.lastHello Toy.tls Toy.pskClient []), Toy.coins 6),
      (.appData [1, 2], Toy.coins 6)]) (by decide +kernel)
  exact ⟨s, acts, x', h, by rw [hd]; decide⟩
example : ∃ acts x', serverRun Toy.env Toy.tls Toy.refusingServer [(.msg (Toy.lastHello Toy.tls Toy.pskClient []), Toy.coins 6)] =
    .ok (.readPast, acts, x') := by
  have h : (match serverRun Toy.env Toy.tls Toy.refusingServer [(.msg (Toy.lastHello Toy.tls Toy.pskClient []), Toy.coins 6)] with
    | .ok (.readPast, _, _) => true | _ => false) = true := by decide +kernel
  split at h
  · rename_i acts x' hr; exact ⟨acts, x', hr⟩
  · cases h

/-- A handshake with early data completes. -/
example : ∃ s acts x', serverRun Toy.env Toy.tls Toy.pskServer (Toy.exchange Toy.tls Toy.pskClient Toy.pskServer 2).2 =
    .ok (.connected s, acts, x') ∧ s.params.usingEarlyData = true :=
  Toy.serverHas_ok (f := fun s => s.params.usingEarlyData) (by decide +kernel)

end Verif.Props

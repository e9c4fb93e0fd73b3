import Verif.Machine.Order
import Verif.Machine.Added

/-
The order of messages a server accepts.
-/

namespace Verif.Machine

open Verif Verif.Crypto Verif.Messages Verif.Negotiation Verif.Handshake Verif.Spec

theorem asks_append (a b : List Msg) : asksCertificate (a ++ b) = (asksCertificate a || asksCertificate b) := by
  simp [asksCertificate]

theorem accepts_append (a b : List Msg) : acceptsEarlyData (a ++ b) = (acceptsEarlyData a || acceptsEarlyData b) := by
  simp [acceptsEarlyData]

theorem asks_types {ms : List Msg} (h : ∀ m ∈ ms, m.msgType ≠ 13) : asksCertificate ms = false := by
  simpa [asksCertificate] using h

theorem accepts_types {ms : List Msg} (h : ∀ m ∈ ms, m.msgType ≠ 8) : acceptsEarlyData ms = false := by
  simp only [acceptsEarlyData, List.any_eq_false]
  intro m hm
  simp [h m hm]

/-- Whether a certificate is asked for in the server's flight. -/
theorem NegFacts.asks {E : Env} {x : Ctx} {c : Coins} {s : SNegotiated} (f : NegFacts E x c s) :
    asksCertificate (Spec.sent f.sent) = (!s.params.usingPSK && s.cfg.requireClientAuth) := by
  have h1 := mkMsg_type f.shOk
  have h2 := mkMsg_type f.eeOk
  have h3 := mkMsg_type f.finOk
  have : asksCertificate (Spec.sent f.acts) = (!s.params.usingPSK && s.cfg.requireClientAuth) := by
    rcases serverAuth_ok f.authOk with ⟨hp, ha, _⟩ | ⟨hp, acts1, t1, x1, cert, m, x2, cv, mv, hr, _, hm, _, hmv, ha, _⟩
    · simp [ha, hp, Spec.sent, asksCertificate]
    · have h4 := mkMsg_type hm
      have h5 := mkMsg_type hmv
      rcases serverRequest_ok hr with ⟨hq, ha1, _⟩ | ⟨hq, exts, mr, _, hmr, ha1, _⟩
      · simp [ha, ha1, hp, hq, Spec.sent, asksCertificate, h4, h5, Body.type, certBody, typeCertificate,
          typeCertificateVerify]
      · have h6 := mkMsg_type hmr
        simp [ha, ha1, hp, hq, Spec.sent, asksCertificate, h6, Body.type, typeCertificateRequest]
  rw [NegFacts.sent, sent_append, sent_append, asks_append, asks_append, this]
  simp [Spec.sent, asksCertificate, h1, h2, h3, Body.type, typeServerHello, typeEncryptedExtensions, typeFinished]

/-- Whether early data is accepted in the server's flight. -/
theorem NegFacts.accepts {E : Env} {x : Ctx} {c : Coins} {s : SNegotiated} (f : NegFacts E x c s) :
    acceptsEarlyData (Spec.sent f.sent) = s.params.usingEarlyData := by
  have h1 := mkMsg_type f.shOk
  have h3 := mkMsg_type f.finOk
  have hacts : acceptsEarlyData (Spec.sent f.acts) = false := by
    rcases serverAuth_ok f.authOk with ⟨hp, ha, _⟩ | ⟨hp, acts1, t1, x1, cert, m, x2, cv, mv, hr, _, hm, _, hmv, ha, _⟩
    · simp [ha, Spec.sent, acceptsEarlyData]
    · have h4 := mkMsg_type hm
      have h5 := mkMsg_type hmv
      rcases serverRequest_ok hr with ⟨hq, ha1, _⟩ | ⟨hq, exts, mr, _, hmr, ha1, _⟩
      · simp [ha, ha1, Spec.sent, acceptsEarlyData, h4, h5, Body.type, certBody, typeCertificate, typeCertificateVerify]
      · have h6 := mkMsg_type hmr
        simp [ha, ha1, Spec.sent, acceptsEarlyData, h4, h5, h6, Body.type, certBody, typeCertificate, typeCertificateVerify,
          typeCertificateRequest]
  have hee : acceptsEarlyData [f.ee] = s.params.usingEarlyData := by
    obtain ⟨ht, hu⟩ := unmarshalEE_made f.eeOk
    have hexts := (addAll_made f.eeExtsOk (by
      simp only [encryptedExts]; split <;> split <;> simp [ExtBody.kind, ExtKind.type])).2
    simp only [acceptsEarlyData, List.any_cons, List.any_nil, ht, hu, hexts, Bool.or_false]
    simp only [encryptedExts]
    split <;> split <;> simp_all [bodyExt, ExtBody.kind, ExtKind.type]
  rw [NegFacts.sent, sent_append, sent_append, accepts_append, accepts_append, hacts]
  have : Spec.sent [.queue f.sh, .rekeyOut epochHandshake f.serverKeys, .queue f.ee] = [f.sh] ++ [f.ee] := rfl
  rw [this, accepts_append, hee]
  simp [Spec.sent, acceptsEarlyData, h1, h3, Body.type, typeServerHello, typeFinished]

theorem makeRetry_type {x x' : Ctx} {suite : UInt16} {sid ck : Bytes} {m : Msg} (h : makeRetry x suite sid ck = .ok (m, x')) :
    m.msgType = typeServerHello := by
  simp only [makeRetry, Res.bind_eq_ok] at h
  obtain ⟨_, _, h⟩ := h
  exact mkMsg_type h

theorem chooseRetry_type {E : Env} {x x' : Ctx} {cfg : Config} {c : Coins} {m : Msg} {ch : ClientHello} {o : Offer}
    {suite : UInt16} {r : Msg} {b : Bool} (h : chooseRetry E x cfg c m ch o suite = .ok (some r, b, x')) :
    r.msgType = typeServerHello := by
  simp only [chooseRetry] at h
  split at h
  · split at h
    · simp only [Res.bind_eq_ok, orAlert_ok, Res.ok.injEq, Prod.mk.injEq] at h
      obtain ⟨⟨m1, x1⟩, h1, h2, _⟩ := h
      cases h2
      exact makeRetry_type h1
    · simp only [Res.bind_eq_ok] at h
      obtain ⟨⟨send, app⟩, _, h⟩ := h
      dsimp only at h
      split at h
      · split at h
        · cases h
        · simp only [Res.bind_eq_ok, orAlert_ok] at h
          obtain ⟨plain, _, h⟩ := h
          split at h
          · cases h
          · simp only [Res.bind_eq_ok, orAlert_ok, Res.ok.injEq, Prod.mk.injEq] at h
            obtain ⟨tok, _, ⟨m1, x1⟩, h1, h2, _⟩ := h
            cases h2
            exact makeRetry_type h1
      · simp at h
  · simp at h

theorem SStart.retry_type {E : Env} {x x' : Ctx} {c : Coins} {s : SStart} {m hrr : Msg}
    (h : s.next E x c m = .ok (.retry hrr, x')) : hrr.msgType = typeServerHello ∧ m.msgType = typeClientHello := by
  obtain ⟨f, _, ⟨_, r, hr, h1⟩ | ⟨_, n, h1, _⟩⟩ := SStart.next_ok h
  · cases h1
    have := f.retryOk
    rw [hr] at this
    exact ⟨chooseRetry_type this, (readHello_ok f.hello).1⟩
  · cases h1

theorem SStart.hello_type {E : Env} {x x' : Ctx} {c : Coins} {s : SStart} {m : Msg} {n : SNegotiated}
    (h : s.next E x c m = .ok (.negotiated n, x')) : m.msgType = typeClientHello := by
  obtain ⟨f, _, _⟩ := SStart.next_ok h
  exact (readHello_ok f.hello).1

/-- A connected machine sends key updates only. -/
theorem Connected.process_sent {E : Env} {x x' : Ctx} {s s' : Connected} {now : Int} {m : Msg} {acts : List Action}
    (h : s.process E x now m = .ok (s', acts, x')) : ∀ r ∈ Spec.sent acts, r.msgType = typeKeyUpdate := by
  rcases Connected.process_ok h with ⟨r, t, s1, keys, _, _, _, _, _, ⟨_, acts', h1, rfl⟩ | ⟨_, _, rfl, _⟩⟩ |
    ⟨_, _, _, _, _, _, _, rfl, _⟩
  · obtain ⟨_, _, m', _, _, _, h2, rfl⟩ := Connected.keyUpdate_ok h1
    simp [Spec.sent, mkMsg_type h2, Body.type]
  · simp [Spec.sent]
  · simp [Spec.sent]

theorem Connected.process_isClient {E : Env} {x x' : Ctx} {s s' : Connected} {now : Int} {m : Msg} {acts : List Action}
    (h : s.process E x now m = .ok (s', acts, x')) : s'.isClient = s.isClient := by
  rcases Connected.process_ok h with ⟨r, t, s1, keys, _, _, _, hs1, _, ⟨_, acts', h1, _⟩ | ⟨_, rfl, _⟩⟩ |
    ⟨_, _, _, _, _, _, rfl, _⟩
  · obtain ⟨_, _, _, _, rfl, _⟩ := Connected.keyUpdate_ok h1
    rw [hs1]; cases hc : s.isClient <;> simp
  · rw [hs1]; split <;> rfl
  · rfl

/-- What a server has read and sent in each state. -/
def ServerAt (w : List Letter) (ms : List Msg) : SState → Prop
  | .start _ => (∀ m ∈ ms, m.msgType = typeServerHello) ∧ ∃ r, w = List.replicate r .clientHello
  | .negotiated _ => False
  | .waitEOED s => asksCertificate ms = s.params.usingClientAuth ∧ acceptsEarlyData ms = true ∧
      ∃ r n, w = List.replicate r .clientHello ++ [.clientHello] ++ List.replicate n .applicationData
  | .readPast => acceptsEarlyData ms = false ∧
      ∃ r n, w = List.replicate r .clientHello ++ [.clientHello] ++ List.replicate n .garbage
  | .waitFlight2 _ => False
  | .waitCert _ => asksCertificate ms = true ∧
      ∃ r early, EarlyWord (acceptsEarlyData ms) early ∧ w = List.replicate r .clientHello ++ [.clientHello] ++ early
  | .waitCV _ => asksCertificate ms = true ∧
      ∃ r early, EarlyWord (acceptsEarlyData ms) early ∧
        w = List.replicate r .clientHello ++ [.clientHello] ++ early ++ [.certificate false]
  | .waitFinished _ => ∃ r early auth, EarlyWord (acceptsEarlyData ms) early ∧ ClientAuthWord (asksCertificate ms) auth ∧
        w = List.replicate r .clientHello ++ [.clientHello] ++ early ++ auth
  | .connected s => s.isClient = false ∧ ∃ n, ServerWord n (acceptsEarlyData ms) (asksCertificate ms) w

theorem serverAt_settle {w : List Letter} {ms : List Msg} {s : SWait} {r : Nat} {early : List Letter}
    (ha : asksCertificate ms = s.params.usingClientAuth) (he : EarlyWord (acceptsEarlyData ms) early)
    (hw : w = List.replicate r .clientHello ++ [.clientHello] ++ early) : ServerAt w ms (SState.waitFlight2 s).settle := by
  simp only [SState.settle, SWait.nextFlight2]
  cases hu : s.params.usingClientAuth with
  | true => exact ⟨ha.trans hu, r, early, he, hw⟩
  | false => exact ⟨r, early, [], he, Or.inl ⟨ha.trans hu, rfl⟩, by rw [hw]; simp⟩

theorem serverAt {E : Env} {x : Ctx} {cfg : Config} {es : List (Event × Coins)} {s : SState}
    {acts : List Action} {x' : Ctx} (h : serverRun E x cfg es = .ok (s, acts, x')) : ServerAt (word es) (Spec.sent acts) s := by
  refine serverRun_induct (fun es s acts _ => ServerAt (word es) (Spec.sent acts) s) ?_ ?_ h
  · exact ⟨fun m hm => (nomatch hm), 0, rfl⟩
  · intro es s acts x1 e ce s' acts' x2 ih hst
    rw [word_snoc, sent_append]
    cases hst with
    | skip =>
      obtain ⟨h1, r, n, hw⟩ := ih
      refine ⟨by simpa [accepts_append, Spec.sent, acceptsEarlyData] using h1, r, n + 1, ?_⟩
      rw [hw, List.replicate_succ' (n := n)]; simp [Event.letter]
    | early s d =>
      obtain ⟨h1, h2, r, n, hw⟩ := ih
      refine ⟨by simpa [Spec.sent] using h1, by simpa [Spec.sent] using h2, r, n + 1, ?_⟩
      rw [hw, List.replicate_succ' (n := n)]; simp [Event.letter]
    | retry s m hrr x' next =>
      obtain ⟨h1, r, hw⟩ := ih
      obtain ⟨hr, hm⟩ := SStart.retry_type next
      have hs : Spec.sent [.queue hrr, .sendQueued] = [hrr] := rfl
      refine ⟨?_, r + 1, ?_⟩
      · intro m' hm'
        rw [hs] at hm'
        rcases List.mem_append.1 hm' with hm' | hm'
        · exact h1 m' hm'
        · rw [List.mem_singleton] at hm'; rw [hm']; exact hr
      · rw [hw, letter_msg, letter_ch hm, List.replicate_succ']
    | hello s m n x1 s' acts2 x2 next neg =>
      obtain ⟨h0, r, hw⟩ := ih
      have h1 : asksCertificate (Spec.sent acts) = false := asks_types fun m hm => by rw [h0 m hm]; decide
      have h2 : acceptsEarlyData (Spec.sent acts) = false := accepts_types fun m hm => by rw [h0 m hm]; decide
      have hm := SStart.hello_type next
      obtain ⟨f, _, hf⟩ := SNegotiated.next_ok neg
      have hsent : ∀ k : Nat × Keys, Spec.sent (f.sent ++ [.rekeyIn k.1 k.2]) = Spec.sent f.sent := by
        intro k; rw [sent_append]; simp [Spec.sent]
      have hasks : ∀ k : Nat × Keys, asksCertificate (Spec.sent acts ++ Spec.sent (f.sent ++ [.rekeyIn k.1 k.2])) =
          f.wait.params.usingClientAuth := by
        intro k; rw [hsent, asks_append, h1, f.asks]; simp [NegFacts.wait]
      have hacc : ∀ k : Nat × Keys, acceptsEarlyData (Spec.sent acts ++ Spec.sent (f.sent ++ [.rekeyIn k.1 k.2])) =
          n.params.usingEarlyData := by
        intro k; rw [hsent, accepts_append, h2, f.accepts]; simp
      rw [hw, letter_msg, letter_ch hm]
      rcases hf with ⟨hu, keys, _, rfl, rfl⟩ | ⟨hu, hrej, rfl, rfl⟩ | ⟨hu, hrej, rfl, rfl⟩
      · exact ⟨hasks (_, _), (hacc (_, _)).trans hu, r, 0, by simp⟩
      · exact ⟨(hacc (_, _)).trans hu, r, 0, by simp⟩
      · exact serverAt_settle (r := r) (hasks (_, _)) (early := []) (Or.inr ⟨(hacc (_, _)).trans hu, 0, rfl⟩) (by simp)
    | eoed s m s' acts2 x' next =>
      obtain ⟨h1, h2, r, n, hw⟩ := ih
      obtain ⟨ht, _, _, keys, _, rfl, rfl⟩ := SWait.nextEOED_ok next
      have hs : Spec.sent [.rekeyIn epochHandshake keys] = [] := rfl
      rw [hs, List.append_nil]
      exact serverAt_settle (r := r) h1 (early := List.replicate n .applicationData ++ [.endOfEarlyData]) (Or.inl ⟨h2, n, rfl⟩)
        (by rw [hw, letter_msg, letter_eoed ht]; simp)
    | cert s m s' acts2 x' next =>
      obtain ⟨h1, r, early, he, hw⟩ := ih
      obtain ⟨ht, rfl, _, cm, hd, ⟨hl, rfl⟩ | ⟨hl, rfl⟩⟩ := SWait.nextCert_ok next
      · have hle := certificate_letter ht hd
        rw [hl] at hle
        refine ⟨r, early, [.certificate true], by simpa [Spec.sent] using he,
          Or.inr ⟨by simpa [Spec.sent] using h1, Or.inl rfl⟩, by rw [hw, letter_msg, hle]; rfl⟩
      · have hle := certificate_letter ht hd
        rw [List.isEmpty_eq_false_iff.2 hl] at hle
        exact ⟨by simpa [Spec.sent] using h1, r, early, by simpa [Spec.sent] using he, by rw [hw, letter_msg, hle]⟩
    | cv s m s' acts2 x' next =>
      obtain ⟨h1, r, early, he, hw⟩ := ih
      obtain ⟨ht, rfl, _, cv, pub, hd, _, _, _, rfl⟩ := SWaitCV.next_ok next
      exact ⟨r, early, [.certificate false, .certificateVerify], by simpa [Spec.sent] using he,
        Or.inr ⟨by simpa [Spec.sent] using h1, Or.inr rfl⟩, by rw [hw, letter_msg, letter_cv ht]; simp⟩
    | finished s m s' acts2 x' next =>
      obtain ⟨r, early, auth, he, ha, hw⟩ := ih
      obtain ⟨ht, _, _, _, _, _, _, _, _, _, _, rfl, rfl⟩ := SWaitFinished.next_ok next
      exact ⟨rfl, r, r, early, auth, [], Nat.le_refl _, by simpa [Spec.sent] using he, by simpa [Spec.sent] using ha,
        by simp, by rw [hw, letter_msg, letter_finished ht]; simp⟩
    | post s m s' acts2 x' next =>
      obtain ⟨hc, n, r, early, auth, post, hn, he, ha, hp, hw⟩ := ih
      have hk := Connected.process_sent next
      have h1 : asksCertificate (Spec.sent acts ++ Spec.sent acts') = asksCertificate (Spec.sent acts) := by
        rw [asks_append, asks_types (ms := Spec.sent acts') (fun m hm => by rw [hk m hm]; decide)]; simp
      have h2 : acceptsEarlyData (Spec.sent acts ++ Spec.sent acts') = acceptsEarlyData (Spec.sent acts) := by
        rw [accepts_append, accepts_types (ms := Spec.sent acts') (fun m hm => by rw [hk m hm]; decide)]; simp
      refine ⟨(Connected.process_isClient next).trans hc, n, r, early, auth, post ++ [letterOf m], hn, by rwa [h2], by rwa [h1],
        ?_, by rw [hw, letter_msg]; simp⟩
      have hm : ServerPost (letterOf m) := by
        rcases Connected.process_ok next with ⟨_, _, _, _, ht, _⟩ | ⟨_, _, ht, _, hc', _⟩
        · exact Or.inl (letter_update ht)
        · rw [hc] at hc'; cases hc'
      intro l hl
      rcases List.mem_append.1 hl with hl | hl
      · exact hp l hl
      · rw [List.mem_singleton] at hl; rw [hl]; exact hm
    | data s d =>
      obtain ⟨hc, n, r, early, auth, post, hn, he, ha, hp, hw⟩ := ih
      refine ⟨hc, n, r, early, auth, post ++ [.applicationData], hn, by simpa [Spec.sent] using he, by simpa [Spec.sent] using ha,
        ?_, by rw [hw]; simp [Event.letter]⟩
      intro l hl
      rcases List.mem_append.1 hl with hl | hl
      · exact hp l hl
      · rw [List.mem_singleton] at hl; rw [hl]; exact Or.inr rfl

/-- What a server may read next in each state. -/
def ServerExpects : SState → Letter → Prop
  | .start _, l => l = .clientHello
  | .negotiated _, _ => False
  | .waitEOED _, l => l = .applicationData ∨ l = .endOfEarlyData
  | .readPast, l => l = .garbage
  | .waitFlight2 _, _ => False
  | .waitCert _, l => ∃ e, l = .certificate e
  | .waitCV _, l => l = .certificateVerify
  | .waitFinished _, l => l = .finished
  | .connected _, l => ServerPost l

theorem clientAuth_exists (b : Bool) : ∃ auth, ClientAuthWord b auth := by
  cases b
  · exact ⟨[], Or.inl ⟨rfl, rfl⟩⟩
  · exact ⟨_, Or.inr ⟨rfl, Or.inl rfl⟩⟩

theorem serverStarts_of {ms : List Msg} {n r : Nat} {early auth v w : List Letter} (hr : r ≤ n)
    (he : EarlyWord (acceptsEarlyData ms) early) (ha : ClientAuthWord (asksCertificate ms) auth)
    (hw : w ++ v = List.replicate r .clientHello ++ [.clientHello] ++ early ++ auth ++ [.finished]) : ServerStarts ms w :=
  ⟨n, _, _, fun _ => ⟨rfl, rfl⟩, v, r, early, auth, [], hr, he, ha, by simp, by rw [hw]; simp⟩

theorem serverExpects_starts {w : List Letter} {ms : List Msg} {s : SState} {l : Letter} (h : ServerAt w ms s)
    (hl : ServerExpects s l) : ServerStarts ms (w ++ [l]) := by
  obtain ⟨auth, ha⟩ := clientAuth_exists (asksCertificate ms)
  cases s with
  | start s =>
    cases hl
    obtain ⟨h0, r, rfl⟩ := h
    refine ⟨r, false, false, ?_, [.finished], r, [], [], [], Nat.le_refl r, Or.inr ⟨rfl, 0, rfl⟩, Or.inl ⟨rfl, rfl⟩, by simp, by simp⟩
    intro hany
    rw [List.any_eq_true] at hany
    obtain ⟨m, hm, ht⟩ := hany
    rw [h0 m hm] at ht
    simp [typeServerHello] at ht
  | negotiated s => cases hl
  | waitEOED s =>
    obtain ⟨h1, h2, r, n, rfl⟩ := h
    rcases hl with rfl | rfl
    · exact serverStarts_of (Nat.le_refl r) (Or.inl ⟨h2, n + 1, rfl⟩) ha (v := [.endOfEarlyData] ++ auth ++ [.finished])
        (by simp [List.replicate_succ' (n := n)])
    · exact serverStarts_of (Nat.le_refl r) (Or.inl ⟨h2, n, rfl⟩) ha (v := auth ++ [.finished]) (by simp)
  | readPast =>
    obtain ⟨h2, r, n, rfl⟩ := h
    cases hl
    exact serverStarts_of (Nat.le_refl r) (Or.inr ⟨h2, n + 1, rfl⟩) ha (v := auth ++ [.finished])
      (by simp [List.replicate_succ' (n := n)])
  | waitFlight2 s => cases hl
  | waitCert s =>
    obtain ⟨h1, r, early, he, rfl⟩ := h
    obtain ⟨e, rfl⟩ := hl
    cases e with
    | true => exact serverStarts_of (Nat.le_refl r) he (Or.inr ⟨h1, Or.inl rfl⟩) (v := [.finished]) (by simp)
    | false =>
      exact serverStarts_of (Nat.le_refl r) he (Or.inr ⟨h1, Or.inr rfl⟩) (v := [.certificateVerify, .finished]) (by simp)
  | waitCV s =>
    obtain ⟨h1, r, early, he, rfl⟩ := h
    cases hl
    exact serverStarts_of (Nat.le_refl r) he (Or.inr ⟨h1, Or.inr rfl⟩) (v := [.finished]) (by simp)
  | waitFinished s =>
    obtain ⟨r, early, auth', he, ha', rfl⟩ := h
    cases hl
    exact serverStarts_of (Nat.le_refl r) he ha' (v := []) (by simp)
  | connected s =>
    obtain ⟨hc, n, r, early, auth', post, hn, he, ha', hp, rfl⟩ := h
    refine ⟨n, _, _, fun _ => ⟨rfl, rfl⟩, [], r, early, auth', post ++ [l], hn, he, ha', ?_, by simp⟩
    intro l' hl'
    rcases List.mem_append.1 hl' with h' | h'
    · exact hp l' h'
    · rw [List.mem_singleton] at h'; rw [h']; exact hl

theorem serverAt_starts {w : List Letter} {ms : List Msg} {s : SState} (h : ServerAt w ms s) : ServerStarts ms w := by
  have hmono : ∀ {l}, ServerStarts ms (w ++ [l]) → ServerStarts ms w := by
    rintro l ⟨n, b1, b2, hb, v, hv⟩
    exact ⟨n, b1, b2, hb, l :: v, by simpa using hv⟩
  cases s with
  | start s => exact hmono (serverExpects_starts h (l := .clientHello) rfl)
  | negotiated s => cases h
  | waitEOED s => exact hmono (serverExpects_starts h (l := .endOfEarlyData) (Or.inr rfl))
  | readPast => exact hmono (serverExpects_starts h (l := .garbage) rfl)
  | waitFlight2 s => cases h
  | waitCert s => exact hmono (serverExpects_starts h (l := .certificate false) ⟨_, rfl⟩)
  | waitCV s => exact hmono (serverExpects_starts h (l := .certificateVerify) rfl)
  | waitFinished s => exact hmono (serverExpects_starts h (l := .finished) rfl)
  | connected s => exact hmono (serverExpects_starts h (l := .keyUpdate) (Or.inl rfl))

theorem server_unexpected {E : Env} {x : Ctx} {c : Coins} {w : List Letter} {ms : List Msg} {s : SState} {e : Event}
    (hat : ServerAt w ms s) (hp : s ≠ .readPast) (h : ¬ ServerExpects s (Event.letter e)) :
    ∃ a, s.step E x c e = .err (.alert a) := by
  cases e with
  | bad =>
    cases s with
    | readPast => exact absurd rfl hp
    | _ => exact ⟨_, rfl⟩
  | appData d =>
    cases s with
    | connected s => exact absurd (Or.inr rfl) h
    | waitEOED s => exact absurd (Or.inl rfl) h
    | readPast => exact absurd rfl hp
    | _ => exact ⟨_, rfl⟩
  | msg m =>
    rw [letter_msg] at h
    cases s with
    | start s =>
      simp only [SState.step, SStart.next, readHello]
      rw [if_pos (fun ht => h (letter_ch ht))]
      exact ⟨_, rfl⟩
    | negotiated s => cases hat
    | waitFlight2 s => cases hat
    | readPast => exact absurd rfl hp
    | waitEOED s =>
      simp only [SState.step, SWait.nextEOED]
      rw [if_pos (fun ht => h (Or.inr (letter_eoed ht)))]
      exact ⟨_, rfl⟩
    | waitCert s =>
      simp only [SState.step, SWait.nextCert]
      rw [if_pos (fun ht => h (letter_cert ht))]
      exact ⟨_, rfl⟩
    | waitCV s =>
      simp only [SState.step, SWaitCV.next]
      rw [if_pos (fun ht => h (letter_cv ht))]
      exact ⟨_, rfl⟩
    | waitFinished s =>
      simp only [SState.step, SWaitFinished.next]
      rw [if_pos (fun ht => h (letter_finished ht))]
      exact ⟨_, rfl⟩
    | connected s =>
      simp only [SState.step, Connected.process]
      rw [Res.bind_assoc]
      refine orAlert_safe (C32_body_safe _ _ _) _ fun b hb => ?_
      have ht := toBody_type hb
      cases b with
      | keyUpdate r => exact absurd (Or.inl (letter_update ht.symm)) h
      | newSessionTicket t => exact ⟨Alert.unexpectedMessage, by simp [hat.1, alert]⟩
      | _ => exact ⟨_, rfl⟩

end Verif.Machine

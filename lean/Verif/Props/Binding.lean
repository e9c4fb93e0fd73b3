import Verif.Spec.Binding
import Verif.Machine.Agree
import Verif.Machine.ServerView
import Verif.Props.Crypto
import Verif.Props.Agreement

/-
C85: the secrets of a connection are its own.
-/

namespace Verif.Toy

open Verif Verif.Crypto Verif.Messages Verif.Negotiation Verif.Handshake Verif.Machine Verif.Spec

/-- Both ends complete the handshake in `n` rounds, every message is framed, and they have the same hash function and exporter
secret. -/
def meetsEqual (ccfg scfg : Config) (n : Nat) : Bool :=
  match clientRun env tls ccfg (coins 2) (exchange tls ccfg scfg n).1, serverRun env tls scfg (exchange tls ccfg scfg n).2 with
  | .ok (.connected s, acts, _), .ok (.connected t, acts', _) =>
    decide (∀ m ∈ received (exchange tls ccfg scfg n).1 ++ sent acts ++ received (exchange tls ccfg scfg n).2 ++ sent acts', Framed m) &&
    decide (s.cp.hash = t.cp.hash) && decide (s.exporter = t.exporter) && decide (s.exporter.length = 32)
  | _, _ => false

end Verif.Toy

namespace Verif.Props

open Verif Verif.Crypto Verif.Messages Verif.Negotiation Verif.Handshake Verif.Machine Verif.Spec

theorem updates_succ (P : Prims) (h : HashId) (l : Bytes) : ∀ (n : Nat) (s : Bytes),
    updates P h l (n + 1) s = expandLabel P h (updates P h l n s) l [] h.size
  | 0, _ => rfl
  | n + 1, s => by
    rw [updates, updates_succ P h l n]
    rfl

theorem held_label_short (k : Held) : k.label.length < 250 := by cases k <;> decide

theorem held_label_inj {k k' : Held} (h : k.label = k'.label) : k = k' := by
  cases k <;> cases k' <;> first | rfl | (revert h; decide)

theorem labelInput_parts {h : HashId} {l l' c c' : Bytes} (hl : l.length < 250) (hl' : l'.length < 250)
    (he : labelInput h l c = labelInput h l' c') : l = l' ∧ c = c' := by
  unfold labelInput at he
  have hs : h.size < 65536 := by cases h <;> decide
  exact (hkdfLabel_parts hl hl' hs hs (List.append_cancel_right he)).2

theorem macInputs_mono (P : Prims) (h : HashId) (l b t : Bytes) (n : Nat) {p : Bytes × Bytes} (hp : p ∈ macInputs P h l b t n) :
    p ∈ macInputs P h l b t (n + 1) := by
  unfold macInputs at hp ⊢
  rw [List.range_succ, List.map_append]
  simp only [List.mem_cons, List.mem_append] at hp ⊢
  tauto

theorem macInputs_last (P : Prims) (h : HashId) (l b t : Bytes) (n : Nat) :
    (updates P h l n (derive P h b l t), labelInput h l []) ∈ macInputs P h l b t (n + 1) := by
  unfold macInputs
  rw [List.range_succ, List.map_append]
  simp

/-- Equal secrets come from the same inputs, or something is broken. -/
theorem secret_eq {P : Prims} (hP : P.Sized) {h : HashId} (hz : 0 < h.size) {l l' b b' t t' : Bytes} (hl : l.length < 250)
    (hl' : l'.length < 250) : ∀ {n n' : Nat},
    updates P h l n (derive P h b l t) = updates P h l' n' (derive P h b' l' t') →
    (l = l' ∧ n = n' ∧ b = b' ∧ t = t') ∨ SecretBroken P h t t' (macInputs P h l b t n) (macInputs P h l' b' t' n')
  | 0, 0, he => by
    simp only [updates, derive, expandLabel_one P hP hz] at he
    by_cases hne : (b, labelInput h l (P.hash h t)) = (b', labelInput h l' (P.hash h t'))
    · rw [Prod.mk.injEq] at hne
      obtain ⟨h1, h2⟩ := labelInput_parts hl hl' hne.2
      by_cases ht : t = t'
      · exact .inl ⟨h1, rfl, hne.1, ht⟩
      · exact .inr (.transcript ⟨ht, h2⟩)
    · exact .inr (.mac _ _ (List.mem_cons_self ..) (List.mem_cons_self ..) ⟨hne, he⟩)
  | 0, n' + 1, he => by
    rw [updates_succ, expandLabel_one P hP hz] at he
    simp only [updates] at he
    rw [derive, expandLabel_one P hP hz] at he
    refine .inr (.mac _ _ (List.mem_cons_self ..) (macInputs_last P h l' b' t' n') ⟨fun hne => ?_, he⟩)
    rw [Prod.mk.injEq] at hne
    have h2 := congrArg List.length (labelInput_parts hl hl' hne.2).2
    rw [hP.hash] at h2
    simp at h2
    omega
  | n + 1, 0, he => by
    rw [updates_succ, expandLabel_one P hP hz] at he
    simp only [updates] at he
    rw [derive, derive, ← derive, expandLabel_one P hP hz (b')] at he
    refine .inr (.mac _ _ (macInputs_last P h l b t n) (List.mem_cons_self ..) ⟨fun hne => ?_, he⟩)
    rw [Prod.mk.injEq] at hne
    have h2 := congrArg List.length (labelInput_parts hl hl' hne.2).2
    rw [hP.hash] at h2
    simp at h2
    omega
  | n + 1, n' + 1, he => by
    rw [updates_succ, updates_succ, expandLabel_one P hP hz, expandLabel_one P hP hz] at he
    by_cases hne : (updates P h l n (derive P h b l t), labelInput h l []) = (updates P h l' n' (derive P h b' l' t'), labelInput h l' [])
    · rw [Prod.mk.injEq] at hne
      rcases secret_eq hP hz hl hl' hne.1 with ⟨h1, h2, h3, h4⟩ | hb
      · exact .inl ⟨h1, by rw [h2], h3, h4⟩
      · refine .inr ?_
        cases hb with
        | transcript hc => exact .transcript hc
        | mac p q hp hq hc => exact .mac p q (macInputs_mono P h l b t n hp) (macInputs_mono P h l' b' t' n' hq) hc
    · exact .inr (.mac _ _ (macInputs_last P h l b t n) (macInputs_last P h l' b' t' n') ⟨hne, he⟩)

/-! ### Transcripts and messages -/

/-- The transcripts before a ServerHello that occur, with their last ClientHello. -/
inductive HelloForm (d : Bool) (n : Nat) (hello : Msg) : Bytes → Prop where
  | plain : HelloForm d n hello (wire d [hello])
  | hashed (hash : Bytes) (rs : List Msg) : hash.length = n →
      (rs = [] ∨ ∃ hrr, rs = [hrr] ∧ hrr.msgType = 2 ∧ Framed hrr) →
      HelloForm d n hello (helloHash hash ++ wire d (rs ++ [hello]))

theorem helloForm_inj {d : Bool} {n : Nat} {hello hello' : Msg} {t t' : Bytes} {ms ms' : List Msg} (hf : HelloForm d n hello t)
    (hf' : HelloForm d n hello' t') (ht : hello.msgType = 1) (ht' : hello'.msgType = 1)
    (f : ∀ m ∈ hello :: ms, Framed m) (f' : ∀ m ∈ hello' :: ms', Framed m) (he : t ++ wire d ms = t' ++ wire d ms') :
    said (hello :: ms) = said (hello' :: ms') := by
  cases hf with
  | plain =>
    cases hf' with
    | plain =>
      rw [← wire_append, ← wire_append] at he
      exact wire_inj f f' he
    | hashed hash rs =>
      obtain ⟨r, hr⟩ := wire_head d hello []
      rw [hr, ht] at he
      simp [helloHash] at he
  | hashed hash rs hn hrs =>
    cases hf' with
    | plain =>
      obtain ⟨r, hr⟩ := wire_head d hello' []
      rw [hr, ht'] at he
      simp [helloHash] at he
    | hashed hash' rs' hn' hrs' =>
      simp only [helloHash, List.append_assoc] at he
      have h1 := List.append_cancel_left he
      obtain ⟨h2, h3⟩ := List.append_inj h1 (by rw [hn, hn'])
      rw [← wire_append, ← wire_append, List.append_assoc, List.append_assoc] at h3
      rcases hrs with rfl | ⟨r, rfl, hr, fr⟩ <;> rcases hrs' with rfl | ⟨r', rfl, hr', fr'⟩
      · exact wire_inj f f' h3
      · obtain ⟨_, e1⟩ := wire_head d hello ms
        obtain ⟨_, e2⟩ := wire_head d r' (hello' :: ms')
        rw [show ([] : List Msg) ++ ([hello] ++ ms) = hello :: ms from rfl, e1,
          show [r'] ++ ([hello'] ++ ms') = r' :: hello' :: ms' from rfl, e2, ht, hr'] at h3
        simp at h3
      · obtain ⟨_, e1⟩ := wire_head d hello' ms'
        obtain ⟨_, e2⟩ := wire_head d r (hello :: ms)
        rw [show ([] : List Msg) ++ ([hello'] ++ ms') = hello' :: ms' from rfl, e1,
          show [r] ++ ([hello] ++ ms) = r :: hello :: ms from rfl, e2, ht', hr] at h3
        simp at h3
      · have h4 := wire_inj (d := d) (ms := r :: hello :: ms) (ms' := r' :: hello' :: ms')
          (fun m hm => (List.mem_cons.1 hm).elim (fun h => h ▸ fr) (f m))
          (fun m hm => (List.mem_cons.1 hm).elim (fun h => h ▸ fr') (f' m)) h3
        rw [said_cons, said_cons r'] at h4
        exact (List.cons.inj h4).2

variable {E : Env} {d : Bool} {s t : Connected}

theorem serverFlight_form {cfg : Config} {es : List (Event × Coins)} {acts : List Action} (v : ServerFlight E d cfg es acts)
    (sound : SoundCookies cfg) : HelloForm d v.F.h.size v.hello v.F.hellos := by
  have h1 := v.transcript
  have h2 := v.suite
  have h3 := v.hash
  revert h1 h2 h3
  generalize v.F.hellos = tr, v.sh.suite = su, v.F.h = fh
  intro h1 h2 h3
  cases h1 with
  | plain => exact .plain
  | cookie c plain hash app prot rs _ _ hprot hdec hcook _ hrs =>
    obtain ⟨q, hq, hql⟩ := sound prot c plain su hash app hprot hdec hcook
    rw [h2, Option.some.injEq] at hq
    subst hq
    refine .hashed hash rs (by rw [hql, h3]) ?_
    rcases hrs with ⟨_, rfl⟩ | ⟨_, hrr, rfl, h4, h5⟩
    · exact .inl rfl
    · exact .inr ⟨hrr, rfl, retry_type h4, h5⟩

theorem endView_form (hP : E.P.Sized) (v : EndView E d s) (sound : v.Sound) (f : ∀ m ∈ v.messages, Framed m) :
    HelloForm d v.F.h.size v.hello v.F.hellos ∧ v.hello.msgType = 1 ∧ (∃ n p, suiteParams n = some p ∧ v.F.h = p.hash) ∧
    (∀ m ∈ v.hello :: v.F.sh :: v.F.ee :: v.F.auth ++ [v.F.fin] ++ v.last, Framed m) := by
  cases v with
  | client cfg es acts v =>
    have f : ∀ m ∈ received es ++ sent acts, Framed m := f
    obtain ⟨g1, g2, g3, g4, g5, g6⟩ := clientView_framed v (fun m hm => f m (by simp [hm])) (fun m hm => f m (by simp [hm]))
    have hm : v.hello ∈ v.hellos := List.mem_of_getLast? v.lastHello
    refine ⟨?_, v.helloTypes _ hm, ⟨_, _, v.suite, v.hash⟩, ?_⟩
    · show HelloForm d v.F.h.size v.hello v.F.hellos
      have h1 := v.transcript
      have h2 := v.lastHello
      have h3 := v.retryTypes
      revert h1 h2 h3 g2
      generalize v.hellos = hs, v.retries = rs, v.F.hellos = tr, v.hello = he
      intro g2 h1 h2 h3
      cases h1 with
      | plain ch =>
        simp only [List.getLast?_singleton, Option.some.injEq] at h2
        subst h2
        exact .plain
      | retry chs rs ch1 hrr ch2 _ =>
        have hch2 : ch2 = he := by simpa [List.getLast?_append] using h2
        subst hch2
        exact .hashed _ [hrr] (by rw [hP.hash]) (.inr ⟨hrr, rfl, retry_type (h3 hrr (by simp)), g2 hrr (by simp)⟩)
    · intro m hm'
      simp only [EndView.hello, EndView.F, EndView.last, List.cons_append, List.mem_cons, List.mem_append, List.not_mem_nil, or_false] at hm'
      rcases hm' with rfl | rfl | rfl | (h | rfl) | (h | h) | rfl
      · exact g1 _ hm
      · exact g3
      · exact g4 _ (by simp)
      · exact g4 _ (by simp [h])
      · exact g4 _ (by simp)
      · exact g5 _ (by simp [h])
      · exact g5 _ (by simp [h])
      · exact g6
  | server cfg es acts v =>
    have f : ∀ m ∈ received es ++ sent acts, Framed m := f
    have fr : ∀ m ∈ received es, Framed m := fun m hm => f m (by simp [hm])
    obtain ⟨g1, g2, g3⟩ := serverFlight_framed v.toServerFlight fr (fun m hm => f m (by simp [hm]))
    refine ⟨serverFlight_form v.toServerFlight sound, v.helloType, ⟨_, _, v.suite, v.hash⟩, ?_⟩
    · intro m hm'
      rw [v.got, v.rest_eq] at fr
      simp only [EndView.hello, EndView.F, EndView.last, List.cons_append, List.mem_cons, List.mem_append, List.not_mem_nil, or_false] at hm'
      rcases hm' with rfl | rfl | rfl | (h | rfl) | (h | h) | rfl
      · exact g1
      · exact g2
      · exact g3 _ (by simp)
      · exact g3 _ (by simp [h])
      · exact g3 _ (by simp)
      · exact fr _ (by simp [h])
      · exact fr _ (by simp [h])
      · exact fr _ (by simp)

theorem endView_secret (v : EndView E d s) (k : Held) :
    k.of s = updates E.P v.F.h k.label (v.updated k) (derive E.P v.F.h (v.F.master E.P) k.label (v.transcript k)) := by
  cases v with
  | client cfg es acts v =>
    obtain ⟨h1, h2, h3, h4⟩ := v.secrets
    cases k
    · exact h3
    · exact h4
    · exact h1
    · exact h2
  | server cfg es acts v =>
    obtain ⟨h1, h2, h3, h4⟩ := v.secrets
    cases k
    · exact h3
    · exact h4
    · exact h1
    · exact h2

theorem endView_transcript (v : EndView E d s) (k : Held) : ∃ ms, v.covers k = v.hello :: ms ∧ v.transcript k = v.F.hellos ++ wire d ms := by
  have h1 : v.F.toFinished d = v.F.hellos ++ wire d (v.F.sh :: v.F.ee :: v.F.auth ++ [v.F.fin]) := by
    rw [Flight.toFinished, Flight.toServerAuth, Flight.toServerHello,
      show v.F.sh :: v.F.ee :: v.F.auth ++ [v.F.fin] = [v.F.sh] ++ (v.F.ee :: v.F.auth) ++ [v.F.fin] from rfl, wire_append, wire_append,
      List.append_assoc, List.append_assoc, List.append_assoc]
  cases k
  case resumption =>
    refine ⟨v.F.sh :: v.F.ee :: v.F.auth ++ [v.F.fin] ++ v.last, rfl, ?_⟩
    show v.F.toFinished d ++ wire d v.last = _
    rw [wire_append, h1, List.append_assoc]
  all_goals exact ⟨_, rfl, h1⟩

/-- C85. Two connections, each a client's or a server's, whatever happened in between: if a secret one holds is a secret the other
holds, then they are secrets for the same purpose, updated equally often; the master secrets are the same; and so are the messages
of the two handshakes, from the ClientHello to the server's Finished, and to the client's if the secret is that for resumption. Or
a collision is found among the transcripts and the inputs of HMAC. -/
theorem C85_secrets (hP : E.P.Sized) (v : EndView E d s) (w : EndView E d t) (vs : v.Sound) (ws : w.Sound)
    (vf : ∀ m ∈ v.messages, Framed m) (wf : ∀ m ∈ w.messages, Framed m) (k k' : Held) (he : k.of s = k'.of t) :
    (k = k' ∧ v.updated k = w.updated k' ∧ v.F.h = w.F.h ∧ v.F.master E.P = w.F.master E.P ∧
      said (v.covers k) = said (w.covers k')) ∨
    SecretBroken E.P v.F.h (v.transcript k) (w.transcript k')
      (macInputs E.P v.F.h k.label (v.F.master E.P) (v.transcript k) (v.updated k))
      (macInputs E.P v.F.h k'.label (w.F.master E.P) (w.transcript k') (w.updated k')) := by
  obtain ⟨v1, v2, ⟨n, p, v3, v4⟩, v5⟩ := endView_form hP v vs vf
  obtain ⟨w1, w2, ⟨n', p', w3, w4⟩, w5⟩ := endView_form hP w ws wf
  rw [endView_secret v k, endView_secret w k'] at he
  have hz : 0 < v.F.h.size := by rw [v4]; exact suiteParams_size v3
  have hz' : 0 < w.F.h.size := by rw [w4]; exact suiteParams_size w3
  have hlen : ∀ (h : HashId) (hz : 0 < h.size) (l b tr : Bytes) (m : Nat), (updates E.P h l m (derive E.P h b l tr)).length = h.size := by
    intro h hz l b tr m
    cases m with
    | zero => rw [updates, derive, expandLabel_one E.P hP hz, hP.hmac]
    | succ m => rw [updates_succ, expandLabel_one E.P hP hz, hP.hmac]
  have hh : v.F.h = w.F.h := by
    have := congrArg List.length he
    rw [hlen _ hz, hlen _ hz', v4, w4] at this
    rw [v4, w4]
    exact hash_of_size v3 w3 this
  rw [← hh] at he
  rcases secret_eq hP hz (held_label_short k) (held_label_short k') he with ⟨h1, h2, h3, h4⟩ | hb
  · have hk := held_label_inj h1
    refine .inl ⟨hk, h2, hh, h3, ?_⟩
    subst hk
    obtain ⟨ms, e1, e2⟩ := endView_transcript v k
    obtain ⟨ms', e1', e2'⟩ := endView_transcript w k
    have sub : ∀ {x : Connected} (u : EndView E d x), (∀ m ∈ u.hello :: u.F.sh :: u.F.ee :: u.F.auth ++ [u.F.fin] ++ u.last, Framed m) →
        ∀ m ∈ u.covers k, Framed m := by
      intro x u hu m hm
      refine hu m ?_
      cases k
      case resumption => exact hm
      all_goals exact List.mem_append_left _ hm
    rw [e1, e1']
    rw [e2, e2'] at h4
    rw [← hh] at w1
    exact helloForm_inj v1 w1 v2 w2 (e1 ▸ sub v v5) (e1' ▸ sub w w5) h4
  · exact .inr hb

/-- Every completed run, of a client or of a server, has such a view of the messages it read and wrote. -/
theorem C85_views (hP : E.P.Sized) (x x' : Ctx) (cfg : Config) (c : Coins) (es : List (Event × Coins)) (acts : List Action) :
    (clientRun E x cfg c es = .ok (.connected s, acts, x') →
      ∃ v : EndView E x.datagram s, v.messages = received es ++ sent acts ∧ v.Sound) ∧
    (serverRun E x cfg es = .ok (.connected s, acts, x') → SoundCookies cfg →
      ∃ v : EndView E x.datagram s, v.messages = received es ++ sent acts ∧ v.Sound) := by
  refine ⟨fun h => ?_, fun h hs => ?_⟩
  · obtain ⟨v⟩ := clientView hP h
    exact ⟨.client cfg es acts v, rfl, trivial⟩
  · obtain ⟨v⟩ := serverView hP h
    exact ⟨.server cfg es acts v, rfl, hs⟩

/-- C85. The secrets that one connection holds are pairwise different, or a collision of HMAC or of the hash function is found. -/
theorem C85_purposes (hP : E.P.Sized) (v : EndView E d s) (vs : v.Sound) (vf : ∀ m ∈ v.messages, Framed m) (k k' : Held) (hk : k ≠ k') :
    k.of s ≠ k'.of s ∨
    SecretBroken E.P v.F.h (v.transcript k) (v.transcript k')
      (macInputs E.P v.F.h k.label (v.F.master E.P) (v.transcript k) (v.updated k))
      (macInputs E.P v.F.h k'.label (v.F.master E.P) (v.transcript k') (v.updated k')) := by
  by_cases he : k.of s = k'.of s
  · rcases C85_secrets hP v v vs vs vf vf k k' he with h | h
    · exact absurd h.1 hk
    · exact .inr h
  · exact .inl he

theorem expand_first {P : Prims} (hP : P.Sized) {h : HashId} (hz : 0 < h.size) (prk info : Bytes) {L : Nat} (hL : h.size ≤ L) :
    (expand P h prk info L).take h.size = P.hmac h prk (info ++ [1]) := by
  have h1 : blocks P h prk info 1 = P.hmac h prk (info ++ [1]) := by
    simp [blocks, block]
  have h2 : 1 ≤ (L + h.size - 1) / h.size := by
    rw [Nat.le_div_iff_mul_le hz]; omega
  show ((blocks P h prk info ((L + h.size - 1) / h.size)).take L).take h.size = _
  rw [List.take_take, Nat.min_eq_left hL, take_blocks_eq P hP h prk info h.size 1 _ (by omega) h2, h1]
  exact List.take_of_length_le (by rw [hP.hmac]; exact Nat.le_refl _)

theorem endView_hash (v : EndView E d s) : v.F.h = s.cp.hash ∧ 0 < v.F.h.size := by
  cases v with
  | client cfg es acts v =>
    exact ⟨by rw [v.cp]; exact v.hash, by rw [show (EndView.client cfg es acts v).F.h = v.p.hash from v.hash]; exact suiteParams_size v.suite⟩
  | server cfg es acts v =>
    exact ⟨by rw [v.cp]; exact v.hash, by rw [show (EndView.server cfg es acts v).F.h = v.p.hash from v.hash]; exact suiteParams_size v.suite⟩

/-- C85. What ComputeExporter returns identifies the connection: if two connections, with the same hash function, export the same
bytes, at least as many as the hash function has, then label and context are the same, and the messages of the two handshakes are
the same. Or a collision is found. -/
theorem C85_exported (hP : E.P.Sized) (v : EndView E d s) (w : EndView E d t) (vs : v.Sound) (ws : w.Sound)
    (vf : ∀ m ∈ v.messages, Framed m) (wf : ∀ m ∈ w.messages, Framed m) (hash : s.cp.hash = t.cp.hash)
    (label label' context context' out : Bytes) (L : Nat) (hL : s.cp.hash.size ≤ L)
    (hv : computeExporter E.P true (some s.exporter) s.cp.hash label context L = .ok out)
    (hw : computeExporter E.P true (some t.exporter) t.cp.hash label' context' L = .ok out) :
    (label = label' ∧ context = context' ∧ said (v.covers .exporter) = said (w.covers .exporter)) ∨
    SecretBroken E.P v.F.h (v.F.toFinished d) (w.F.toFinished d) (exportInputs v label context L) (exportInputs w label' context' L) := by
  obtain ⟨v1, hz⟩ := endView_hash v
  obtain ⟨w1, _⟩ := endView_hash w
  have hh : w.F.h = v.F.h := by rw [v1, w1, hash]
  rw [← v1] at hv hL
  rw [← w1, hh] at hw
  obtain ⟨o1, e1, -, e2⟩ := C35_value_partial E.P hP v.F.h hz s.exporter label context L
  obtain ⟨o2, e3, -, e4⟩ := C35_value_partial E.P hP v.F.h hz t.exporter label' context' L
  rw [hv, Res.ok.injEq] at e1
  rw [hw, Res.ok.injEq] at e3
  have he := congrArg (List.take v.F.h.size) (e2.symm.trans (e1.symm.trans (e3.trans e4)))
  simp only [expandLabel, expand_first hP hz _ _ hL] at he
  by_cases hp : (derive E.P v.F.h s.exporter label [], hkdfLabel L (ascii "exporter") (context ++ E.P.hash v.F.h []) ++ [1]) =
      (derive E.P v.F.h t.exporter label' [], hkdfLabel L (ascii "exporter") (context' ++ E.P.hash v.F.h []) ++ [1])
  · rw [Prod.mk.injEq] at hp
    have hctx : context = context' := by
      have := List.append_cancel_right hp.2
      rw [← hkdfEncodeLabel_eq, ← hkdfEncodeLabel_eq, ascii_exporter] at this
      exact (C35_inputs_separate E.P v.F.h [] [] context context' L).2 this
    have hd := hp.1
    rw [derive, derive, expandLabel_one E.P hP hz, expandLabel_one E.P hP hz] at hd
    by_cases hq : (s.exporter, labelInput v.F.h label (E.P.hash v.F.h [])) = (t.exporter, labelInput v.F.h label' (E.P.hash v.F.h []))
    · rw [Prod.mk.injEq] at hq
      have hlab : label = label' := by
        have := List.append_cancel_right hq.2
        rw [← hkdfEncodeLabel_eq, ← hkdfEncodeLabel_eq] at this
        exact (C35_inputs_separate E.P v.F.h label label' [] [] L).1 this
      rcases C85_secrets hP v w vs ws vf wf .exporter .exporter hq.1 with h | h
      · exact .inl ⟨hlab, hctx, h.2.2.2.2⟩
      · refine .inr ?_
        have zero : ∀ {x : Connected} (u : EndView E d x), u.updated .exporter = 0 := fun u => by cases u <;> rfl
        cases h with
        | transcript hc => exact .transcript hc
        | mac p q hp hq hc =>
          refine .mac p q (List.mem_append_left _ ?_) (List.mem_append_left _ ?_) hc
          · rw [zero v] at hp; exact hp
          · rw [zero w] at hq; rw [hh]; exact hq
    · refine .inr (.mac _ _ (List.mem_append_right _ (List.mem_cons_self ..)) (List.mem_append_right _ (List.mem_cons_self ..)) ⟨?_, ?_⟩)
      · rw [hh]; exact hq
      · rw [hh]; exact hd
  · refine .inr (.mac _ _ (List.mem_append_right _ (List.mem_cons_of_mem _ (List.mem_cons_self ..)))
      (List.mem_append_right _ (List.mem_cons_of_mem _ (List.mem_cons_self ..))) ⟨?_, ?_⟩)
    · rw [hh]; exact hp
    · rw [hh]; exact he

/-- The two ends of a handshake with a HelloRetryRequest, whose exporter secrets are the same: all hypotheses are met. -/
example : ∃ (s t : Connected) (v : EndView Toy.env false s) (w : EndView Toy.env false t), v.Sound ∧ w.Sound ∧
    (∀ m ∈ v.messages, Framed m) ∧ (∀ m ∈ w.messages, Framed m) ∧ s.cp.hash = t.cp.hash ∧
    Held.exporter.of s = Held.exporter.of t ∧ s.exporter.length = 32 := by
  have h : Toy.meetsEqual Toy.clientCfg Toy.cookieCfg 3 = true := by decide +kernel
  unfold Toy.meetsEqual at h
  split at h
  · rename_i s acts x' t acts' y' h1 h2
    simp only [Bool.and_eq_true, decide_eq_true_eq] at h
    obtain ⟨v, v1, v2⟩ := (C85_views Toy.prims_sized _ _ _ _ _ _).1 h1
    obtain ⟨w, w1, w2⟩ := (C85_views Toy.prims_sized _ _ _ (Toy.coins 2) _ _).2 h2 Toy.cookieCfg_sound
    exact ⟨s, t, v, w, v2, w2, fun m hm => h.1.1.1 m (by have hm := v1 ▸ hm; simp at hm ⊢; tauto),
      fun m hm => h.1.1.1 m (by have hm := w1 ▸ hm; simp at hm ⊢; tauto), h.1.1.2, h.1.2, h.2⟩
  · cases h

end Verif.Props

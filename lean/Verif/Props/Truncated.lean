import Verif.Props.Messages

/-
C33: the bytes that PSK binders are computed over.
-/

namespace Verif.Messages

open Verif Verif.Syntax Verif.Spec

/-- A ClientHello is far shorter than the limit of the three-byte length field. -/
theorem ClientHello.marshal_length {ch : ClientHello} {bs : Bytes} (h : ch.marshal = .ok bs) : bs.length < 2 ^ 24 := by
  unfold ClientHello.marshal at h
  split at h
  · exact Nat.lt_of_le_of_lt (plain_length plain_chTls h) (by decide)
  · exact Nat.lt_of_le_of_lt (plain_length plain_chDtls h) (by decide)

/-- Truncated, computed: the message without the DTLS fields, up to the binder list. -/
theorem truncated_eq {ch : ClientHello} {bs : Bytes} (hm : ch.marshal = .ok bs) {pre : List Ext} {data : Bytes}
    {ids : List PskIdentity} {binders : List BinderEntry} (he : ch.exts = pre ++ [(41, data, ())])
    (hp : safeUnmarshal (ExtKind.preSharedKey typeClientHello).unmarshal data =
      .ok (.preSharedKey typeClientHello ids binders 0)) :
    ∃ t, ch.truncated = .ok t ∧ handshakeMessage typeClientHello bs = t ++ binderList (binders.map (·.1)) := by
  have hlen := ClientHello.marshal_length hm
  -- the data of the extension ends in the binder list
  rw [safeUnmarshal_ok] at hp
  have hp' := hp
  simp only [ExtKind.unmarshal, if_true, Res.bind_eq_ok] at hp
  obtain ⟨⟨⟨ids', binders', u⟩, n⟩, h1, h2⟩ := hp
  dsimp only at h2
  split at h2
  · simp at h2
  simp only [Res.ok.injEq, Prod.mk.injEq, ExtBody.preSharedKey.injEq, true_and, and_true] at h2
  obtain ⟨⟨rfl, rfl⟩, rfl⟩ := h2
  have h3 := (plain_canonical plain_pskClient h1).1
  rw [List.take_length] at h3
  obtain ⟨a, b, -, hb, hdata⟩ := pskClient_split.1 h3
  have hbl := (bindersField.1 hb).2.2.2
  -- the message ends in the data of the extension
  obtain ⟨v, r, sid, cs, exts⟩ := ch
  simp only at he
  subst he
  obtain ⟨hd, hsplit⟩ := ClientHello.marshal_split v r sid cs
  obtain ⟨hh, E, -, hE, -, hbs⟩ := (hsplit _ _).1 hm
  obtain ⟨A, B, -, hB, rfl⟩ := encodeAll_append.1 hE
  simp only [encodeAll, Res.bind_eq_ok, Res.ok.injEq] at hB
  obtain ⟨x, hx, y, rfl, rfl⟩ := hB
  obtain ⟨-, rfl⟩ := extTy_encode.1 hx
  have hmod : bs.length % 2 ^ 32 = bs.length := Nat.mod_eq_of_lt (by omega)
  have hsuf : ∃ p, handshakeMessage typeClientHello bs = p ++ b := by
    rw [hdata] at hbs
    generalize beBytes 2 (List.length (A ++ _)) = L1 at hbs
    generalize beBytes 2 (List.length (a ++ b)) = L2 at hbs
    refine ⟨typeClientHello :: beBytes 3 bs.length ++ (hh ++ (L1 ++ (A ++ (beBytes 2 (UInt16.toNat 41) ++ (L2 ++ a))))), ?_⟩
    unfold handshakeMessage
    generalize beBytes 3 bs.length = L3
    rw [hbs]
    simp only [List.append_assoc, List.append_nil, List.cons_append]
  obtain ⟨p, hp2⟩ := hsuf
  refine ⟨p, ?_, by rw [hp2, hbl]⟩
  have hmb : marshal bindersTy (binders', ()) = .ok b := binders_marshal.2 hb
  have hmsg : Handshake.Msg.marshal false ⟨typeClientHello, 0, bs, 0, bs.length % 2 ^ 32⟩ = p ++ b := by
    rw [← hp2, hmod]; rfl
  unfold ClientHello.truncated
  simp only [List.getLast?_append, List.getLast?_singleton, Option.some_or]
  rw [if_neg (by decide), hm]
  simp only [Res.bind_ok, hp', hmsg, hmb]
  rw [if_neg (by simp)]
  simp

/-- The bytes over which a server computes the binders of a ClientHello it received are the bytes of that message, in the
form of RFC 8446 (type, length, body; without the DTLS message sequence and fragment fields), with exactly the binder
list cut off. `bs` is the body of the message; `data` the contents of its last extension. Missing: ClientHellos with a
session ID. -/
theorem C33_truncated_partial (version : UInt16) (bs : Bytes) (ch : ClientHello)
    (hv : version = 0x0303 ∨ version = 0xfefd)
    (h : safeUnmarshal (ClientHello.unmarshal version) bs = .ok ch) (hver : ch.version = version)
    (hs : ch.sessionId = []) (pre : List Ext) (data : Bytes) (he : ch.exts = pre ++ [(41, data, ())])
    (ids : List PskIdentity) (binders : List BinderEntry)
    (hp : safeUnmarshal (ExtKind.preSharedKey typeClientHello).unmarshal data =
      .ok (.preSharedKey typeClientHello ids binders 0)) :
    ∃ t, ch.truncated = .ok t ∧ handshakeMessage 1 bs = t ++ binderList (binders.map (·.1)) := by
  have hm : ch.marshal = .ok bs := by
    refine ClientHello.canonical h ?_ hs
    rw [hver]
    rcases hv with rfl | rfl <;> decide
  exact truncated_eq hm he hp

/-- Truncation happens only if pre_shared_key is the last extension. -/
theorem C33_last_extension (ch : ClientHello) (t : Bytes) (h : ch.truncated = .ok t) :
    ∃ pre data, ch.exts = pre ++ [(41, data, ())] := by
  unfold ClientHello.truncated at h
  split at h
  · simp at h
  · rename_i e he
    split at h
    · simp at h
    · rename_i ht
      simp only [ne_eq, Decidable.not_not] at ht
      obtain ⟨pre, hpre⟩ := List.getLast?_eq_some_iff.1 he
      obtain ⟨ty, data, u⟩ := e
      exact ⟨pre, data, by rw [hpre]; simp only at ht; rw [ht]; rfl⟩

/-- Truncated returns for every ClientHello. -/
theorem C32_truncated_safe (ch : ClientHello) : ch.truncated.Safe := by
  unfold ClientHello.truncated
  split
  · trivial
  · rename_i e he
    split
    · trivial
    · rename_i ht
      refine Res.safe_bind ?_ fun bs hbs => Res.safe_bind (ExtKind.unmarshal_safe _ _) ?_
      · unfold ClientHello.marshal; split <;> exact C06_marshal_safe _ _
      · rintro ⟨psk, n⟩ hpsk
        dsimp only
        split
        · rename_i hs ids binders sel
          rw [if_neg]
          · trivial
          · intro hlt
            simp only [ne_eq, Decidable.not_not] at ht
            obtain ⟨pre, hpre⟩ := List.getLast?_eq_some_iff.1 he
            obtain ⟨ty, data, ⟨⟩⟩ := e
            obtain ⟨v, r, sid, cs, exts⟩ := ch
            simp only at hpre
            subst hpre
            obtain ⟨hd, hsplit⟩ := ClientHello.marshal_split v r sid cs
            obtain ⟨hh, E, -, hE, -, rfl⟩ := (hsplit _ _).1 hbs
            obtain ⟨A, B, -, hB, rfl⟩ := encodeAll_append.1 hE
            simp only [encodeAll, Res.bind_eq_ok, Res.ok.injEq] at hB
            obtain ⟨x, hx, y, rfl, rfl⟩ := hB
            obtain ⟨-, rfl⟩ := extTy_encode.1 hx
            simp only [ExtKind.unmarshal, if_true, Res.bind_eq_ok] at hpsk
            obtain ⟨⟨⟨ids', binders', u⟩, n'⟩, h1, h2⟩ := hpsk
            dsimp only at h2
            split at h2
            · simp at h2
            simp only [Res.ok.injEq, Prod.mk.injEq, ExtBody.preSharedKey.injEq] at h2
            obtain ⟨⟨-, rfl, rfl, -⟩, rfl⟩ := h2
            obtain ⟨h3, h3'⟩ := plain_canonical plain_pskClient h1
            obtain ⟨a, b, -, hb, hdata⟩ := pskClient_split.1 h3
            rw [binders_marshal.2 hb] at hlt
            have hl := congrArg List.length hdata
            simp only [List.length_take, List.length_append] at hl
            have hge : ∀ m : Handshake.Msg, m.body.length ≤ (Handshake.Msg.marshal false m).length := by
              intro m; simp [Handshake.Msg.marshal]; omega
            have := Nat.lt_of_le_of_lt (hge ⟨_, _, _, _, _⟩) hlt
            simp only [List.length_append] at this
            omega
        · trivial

theorem encExts_length_congr {pre : List Ext} {d d' : Bytes} {E E' : Bytes} (hl : d.length = d'.length)
    (h : encExts (pre ++ [(41, d, ())]) = .ok E) (h' : encExts (pre ++ [(41, d', ())]) = .ok E') :
    ∃ A, E = A ++ d ∧ E' = A ++ d' := by
  obtain ⟨A, B, hA, hB, rfl⟩ := encodeAll_append.1 h
  obtain ⟨A', B', hA', hB', rfl⟩ := encodeAll_append.1 h'
  rw [hA] at hA'
  simp only [Res.ok.injEq] at hA'
  subst hA'
  simp only [encodeAll, Res.bind_eq_ok, Res.ok.injEq] at hB hB'
  obtain ⟨x, hx, y, rfl, rfl⟩ := hB
  obtain ⟨x', hx', y', rfl, rfl⟩ := hB'
  obtain ⟨-, rfl⟩ := extTy_encode.1 hx
  obtain ⟨-, rfl⟩ := extTy_encode.1 hx'
  exact ⟨A ++ (beBytes 2 (41 : UInt16).toNat ++ beBytes 2 d.length), by simp, by simp [hl]⟩

theorem binderList_length_congr {bl bl' : List Bytes} (h : bl.map List.length = bl'.map List.length) :
    (binderList bl).length = (binderList bl').length := by
  have : ∀ l : List Bytes, ((l.map fun b => beBytes 1 b.length ++ b).flatten).length = ((l.map List.length).map (1 + ·)).sum := by
    intro l
    induction l with
    | nil => rfl
    | cons b l ih => simp [ih, Nat.add_assoc]
  simp only [binderList, List.length_append, beBytes_length, this, h]

/-- The truncated ClientHello does not depend on the binders, only on their lengths: a client that fills in binders after
computing them over a ClientHello with placeholders of the same lengths has computed them over what the server will
compute them over. -/
theorem C33_binders_do_not_matter (ch ch' : ClientHello) (bs bs' t t' : Bytes) (pre : List Ext)
    (ids : List PskIdentity) (bl bl' : List BinderEntry) (d d' : Bytes)
    (hlen : bl.map (fun b => b.1.length) = bl'.map (fun b => b.1.length)) (hids : ids.length = bl.length)
    (he : ch.exts = pre ++ [(41, d, ())]) (he' : ch' = { ch with exts := pre ++ [(41, d', ())] })
    (hd : (ExtBody.preSharedKey typeClientHello ids bl 0).marshal = .ok d)
    (hd' : (ExtBody.preSharedKey typeClientHello ids bl' 0).marshal = .ok d')
    (hm : ch.marshal = .ok bs) (hm' : ch'.marshal = .ok bs')
    (ht : ch.truncated = .ok t) (ht' : ch'.truncated = .ok t') : t = t' := by
  have hids' : ids.length = bl'.length := by
    have := congrArg List.length hlen
    simp only [List.length_map] at this
    omega
  have hpd := C31_extension_roundtrip_partial (.preSharedKey typeClientHello ids bl 0) d (fun _ => hids) hd
  have hpd' := C31_extension_roundtrip_partial (.preSharedKey typeClientHello ids bl' 0) d' (fun _ => hids') hd'
  have ec : ∀ l, contents (.preSharedKey typeClientHello ids l 0) = .preSharedKey typeClientHello ids l 0 := fun _ => rfl
  rw [ec] at hpd hpd'
  subst he'
  obtain ⟨t1, h1, h2⟩ := truncated_eq hm he hpd
  obtain ⟨t2, h3, h4⟩ := truncated_eq hm' rfl hpd'
  rw [ht] at h1
  rw [ht'] at h3
  simp only [Res.ok.injEq] at h1 h3
  subst h1 h3
  -- the encodings differ only in the binder lists
  simp only [ExtBody.marshal, if_true] at hd hd'
  obtain ⟨a, b, ha, hb, rfl⟩ := pskClient_split.1 hd
  obtain ⟨a', b', ha', hb', rfl⟩ := pskClient_split.1 hd'
  rw [ha] at ha'
  simp only [Res.ok.injEq] at ha'
  subst ha'
  have hbl := (bindersField.1 hb).2.2.2
  have hbl' := (bindersField.1 hb').2.2.2
  have hbb : b.length = b'.length := by
    rw [hbl, hbl']
    exact binderList_length_congr (by simpa [Function.comp_def] using hlen)
  obtain ⟨v, r, sid, cs, exts⟩ := ch
  simp only at he
  subst he
  obtain ⟨hdr, hsplit⟩ := ClientHello.marshal_split v r sid cs
  obtain ⟨h, E, hh, hE, -, hbs⟩ := (hsplit _ _).1 hm
  obtain ⟨h', E', hh', hE', -, hbs'⟩ := (hsplit _ _).1 hm'
  rw [hh] at hh'
  simp only [Res.ok.injEq] at hh'
  subst hh'
  obtain ⟨A, rfl, rfl⟩ := encExts_length_congr (by simp [hbb]) hE hE'
  have hl : bs.length = bs'.length := by rw [hbs, hbs']; simp [hbb]
  rw [← hbl] at h2
  rw [← hbl'] at h4
  have e1 : handshakeMessage typeClientHello bs =
      (typeClientHello :: beBytes 3 bs.length ++ h ++ beBytes 2 (A ++ (a ++ b)).length ++ A ++ a) ++ b := by
    unfold handshakeMessage
    conv => lhs; rw [hbs]
    rw [hbs]; simp only [List.append_assoc, List.cons_append]
  have e2 : handshakeMessage typeClientHello bs' =
      (typeClientHello :: beBytes 3 bs.length ++ h ++ beBytes 2 (A ++ (a ++ b)).length ++ A ++ a) ++ b' := by
    unfold handshakeMessage
    rw [← hl]
    conv => lhs; rw [hbs']
    have : (A ++ (a ++ b)).length = (A ++ (a ++ b')).length := by simp [hbb]
    rw [this]; simp only [List.append_assoc, List.cons_append]
  rw [e1] at h2
  rw [e2] at h4
  rw [← List.append_cancel_right h2, ← List.append_cancel_right h4]

/-- A ClientHello that resumes: one identity, one binder of 32 bytes. -/
def resumingHello (sid : Bytes) : ClientHello :=
  ⟨0x0303, zeroRandom, sid, [0x1301], [(41, [0, 7, 0, 1, 9, 0, 0, 0, 0, 0, 33, 32] ++ List.replicate 32 5, ())]⟩

def resumingBody (sid : Bytes) : Bytes :=
  [3, 3] ++ List.replicate 32 0 ++ (UInt8.ofNat sid.length :: sid) ++ [0, 2, 0x13, 1, 1, 0, 0, 48, 0, 41, 0, 44] ++
    ([0, 7, 0, 1, 9, 0, 0, 0, 0, 0, 33, 32] ++ List.replicate 32 5)

/-- The hypotheses of `C33_truncated_partial` are met by an ordinary resumption attempt. -/
example : (match safeUnmarshal (ClientHello.unmarshal 0x0303) (resumingBody []) with
      | .ok ch => ch == resumingHello []
      | _ => false) = true ∧
    (match safeUnmarshal (ExtKind.preSharedKey typeClientHello).unmarshal ([0, 7, 0, 1, 9, 0, 0, 0, 0, 0, 33, 32] ++ List.replicate 32 5) with
      | .ok b => b == .preSharedKey typeClientHello [([9], 0, ())] [(List.replicate 32 5, ())] 0
      | _ => false) = true := by
  constructor <;> decide +kernel

/-- What is missing from C33: if the ClientHello has a session ID (as clients in middlebox compatibility mode send), the
truncated ClientHello is not a prefix of the message received, so that the server's binder is computed over bytes
the client never sent. -/
theorem C33_session_id_fails : ∃ (ch : ClientHello) (bs t : Bytes),
    safeUnmarshal (ClientHello.unmarshal 0x0303) bs = .ok ch ∧ ch.version = 0x0303 ∧
    (∃ pre data, ch.exts = pre ++ [(41, data, ())]) ∧ ch.truncated = .ok t ∧ ¬ t <+: handshakeMessage 1 bs := by
  have h1 : (match safeUnmarshal (ClientHello.unmarshal 0x0303) (resumingBody [1]) with
      | .ok ch => ch == resumingHello [1]
      | _ => false) = true := by decide +kernel
  split at h1
  · rename_i ch hch
    have h2 : ch = resumingHello [1] := by simpa using h1
    subst h2
    have h3 : (match (resumingHello [1]).truncated with
        | .ok t => !(t.isPrefixOf (handshakeMessage 1 (resumingBody [1])))
        | _ => false) = true := by decide +kernel
    split at h3
    · rename_i t ht
      refine ⟨resumingHello [1], resumingBody [1], t, hch, rfl, ⟨[], _, rfl⟩, ht, ?_⟩
      intro hpre
      rw [← List.isPrefixOf_iff_prefix] at hpre
      simp [hpre] at h3
    · simp at h3
  · simp at h1

end Verif.Messages

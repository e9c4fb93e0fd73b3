import Verif.Machine.Found
import Verif.Props.Messages

/-
The list of extensions built by adding extensions one after the other.
-/

namespace Verif.Machine

open Verif Verif.Crypto Verif.Messages Verif.Negotiation Verif.Handshake Verif.Spec

/-- The encoding of an extension, if there is one. -/
def bodyData (b : ExtBody) : Bytes := match b.marshal with | .ok d => d | _ => []

def bodyExt (b : ExtBody) : Ext := (b.kind.type, bodyData b, ())

theorem setExt_new (ty : UInt16) (d : Bytes) : ∀ el : List Ext, ty ∉ types el → setExt ty d el = el ++ [(ty, d, ())]
  | [], _ => rfl
  | e :: el, h => by
    simp only [types, List.map_cons, List.mem_cons, not_or] at h
    simp only [setExt, if_neg (Ne.symm h.1), setExt_new ty d el h.2, List.cons_append]

theorem addExt_new {el r : List Ext} {b : ExtBody} (h : addExt el b = .ok r) (hn : b.kind.type ∉ types el) :
    b.marshal = .ok (bodyData b) ∧ r = el ++ [bodyExt b] := by
  simp only [addExt, Res.bind_eq_ok, Res.ok.injEq] at h
  obtain ⟨d, h1, rfl⟩ := h
  have hd : bodyData b = d := by simp [bodyData, h1]
  exact ⟨by rw [hd, h1], by rw [setExt_new _ _ _ hn, bodyExt, hd]⟩

theorem addAll_new : ∀ {bs : List ExtBody} {el r : List Ext}, addAll el bs = .ok r →
    (types el ++ bs.map fun b => b.kind.type).Nodup →
    (∀ b ∈ bs, b.marshal = .ok (bodyData b)) ∧ r = el ++ bs.map bodyExt
  | [], el, r, h, _ => by
    simp only [addAll, Res.ok.injEq] at h
    exact ⟨by simp, by simp [h]⟩
  | b :: bs, el, r, h, hn => by
    simp only [addAll, Res.bind_eq_ok] at h
    obtain ⟨el', h1, h2⟩ := h
    have hb : b.kind.type ∉ types el := by
      intro hm
      rw [List.nodup_append] at hn
      exact hn.2.2 _ hm b.kind.type (by simp) rfl
    obtain ⟨hm, rfl⟩ := addExt_new h1 hb
    obtain ⟨hall, rfl⟩ := addAll_new h2 (by simpa [types, bodyExt] using hn)
    refine ⟨?_, by simp⟩
    intro b' hb'
    rcases List.mem_cons.1 hb' with rfl | hb'
    · exact hm
    · exact hall _ hb'

theorem addAll_made {bs : List ExtBody} {r : List Ext} (h : addAll [] bs = .ok r) (hn : (bs.map fun b => b.kind.type).Nodup) :
    (∀ b ∈ bs, b.marshal = .ok (bodyData b)) ∧ r = bs.map bodyExt := by
  simpa using addAll_new h (by simpa [types] using hn)

theorem unmarshalEE_made {x x' : Ctx} {exts : List Ext} {m : Msg} (h : mkMsg x (.encryptedExtensions exts) = .ok (m, x')) :
    m.msgType = 8 ∧ unmarshalEE m.body = .ok (exts, m.body.length) := by
  obtain ⟨d, h1, rfl, _⟩ := mkMsg_ok h
  have := plain_self plain_ee h1
  exact ⟨rfl, by simp [unmarshalEE, this]⟩

end Verif.Machine

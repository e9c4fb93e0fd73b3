import Verif.Machine.Common
import Verif.Crypto.Exporter
import Verif.Spec.KeySchedule
import Verif.Props.Crypto

/-
Property C34: the labels that secrets and keys are derived with.
-/

namespace Verif.Props

open Verif Verif.Crypto Verif.Negotiation Verif.Machine Verif.Spec

/-- The labels of the key schedule, RFC 8446, section 7.1 to 7.5, in the order of `labelsUsed`. "traffic upd" is not among
them, since the code does not use it (`C66_update_fails`). -/
def rfcLabels : List String :=
  ["ext binder", "res binder", "c e traffic", "c hs traffic", "s hs traffic", "c ap traffic", "s ap traffic", "exp master",
   "res master", "derived", "resumption", "finished", "key", "iv", "exporter"]

/-- The labels that the code passes to HkdfExpandLabel and deriveSecret: crypto.go:525-539,
record-layer.go:15-16 and conn.go:889. The label of the early exporter, "e exp master", is defined there too (crypto.go:529)
and used nowhere. -/
def labelsUsed : List Bytes :=
  [labelExternalBinder, labelResumptionBinder, labelEarlyTraffic, labelClientHs, labelServerHs, labelClientAp, labelServerAp,
   labelExporterSecret, labelResumptionSecret, labelDerived, labelResumption, labelFinished, labelForKey, labelForIV, labelExporter]

/-- C34. The labels in use are those of RFC 8446, and each is short enough for `C34_labels_separate_partial`; so two secrets
derived from one secret under two of them, with whatever contexts and lengths of less than 2^16 bytes, are derived from
different inputs. -/
theorem C34_labels_used :
    labelsUsed = rfcLabels.map ascii ∧
    ∀ l ∈ labelsUsed, ∀ l' ∈ labelsUsed, l ≠ l' → ∀ (c c' : Bytes) (L L' : Nat), L < 65536 → L' < 65536 →
      hkdfEncodeLabel l c L ≠ hkdfEncodeLabel l' c' L' := by
  refine ⟨by decide +kernel, fun l hl l' hl' hne c c' L L' hL hL' h => ?_⟩
  have hshort : ∀ l ∈ labelsUsed, l.length < 250 := by decide +kernel
  exact hne (C34_labels_separate_partial l l' c c' L L' (hshort l hl) (hshort l' hl') hL hL' h).1

/-- No two of the fifteen are the same. -/
theorem C34_labels_used_distinct : labelsUsed.Nodup := by decide +kernel

/-- Not vacuous: the keys of the two directions. -/
example : labelClientAp ∈ labelsUsed ∧ labelServerAp ∈ labelsUsed ∧ labelClientAp ≠ labelServerAp := by decide +kernel

end Verif.Props

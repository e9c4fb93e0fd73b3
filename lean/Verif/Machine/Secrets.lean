import Verif.Machine.Common
import Verif.Crypto.Lemmas
import Verif.Spec.Schedule

/-
The key schedule of the state machines is that of the specification.
-/

namespace Verif.Machine

open Verif Verif.Crypto Verif.Spec

theorem label_derived : labelDerived = ascii "derived" := by decide
theorem label_clientHs : labelClientHs = ascii "c hs traffic" := by decide
theorem label_serverHs : labelServerHs = ascii "s hs traffic" := by decide
theorem label_clientAp : labelClientAp = ascii "c ap traffic" := by decide
theorem label_serverAp : labelServerAp = ascii "s ap traffic" := by decide
theorem label_exporter : labelExporterSecret = ascii "exp master" := by decide
theorem label_resumptionSecret : labelResumptionSecret = ascii "res master" := by decide
theorem label_resumption : labelResumption = ascii "resumption" := by decide
theorem label_early : labelEarlyTraffic = ascii "c e traffic" := by decide

theorem zeros_eq (h : HashId) : zeros h = noInput h := rfl

theorem hkdfExtract_some (P : Prims) (h : HashId) (salt ikm : Bytes) : hkdfExtract P h (some salt) ikm = extract P h salt ikm := rfl

theorem hsSecrets_eq (P : Prims) (hP : P.Sized) (h : HashId) (hs : 0 < h.size) (early : Bytes) (dh : Option Bytes)
    (t : Bytes) : hsSecrets P h early dh t = .ok
      ⟨clientHsTraffic P h (handshakeSecret P h early dh) t, serverHsTraffic P h (handshakeSecret P h early dh) t,
        masterSecret P h (handshakeSecret P h early dh)⟩ := by
  simp only [hsSecrets, deriveSecret_eq P hP h hs, Res.bind_ok, hkdfExtract_some, label_derived, label_clientHs, label_serverHs,
    zeros_eq]
  rfl

theorem apSecrets_eq (P : Prims) (hP : P.Sized) (h : HashId) (hs : 0 < h.size) (master t : Bytes) :
    apSecrets P h master t =
      .ok ⟨clientApTraffic P h master t, serverApTraffic P h master t, exporterMaster P h master t⟩ := by
  simp only [apSecrets, deriveSecret_eq P hP h hs, Res.bind_ok, label_clientAp, label_serverAp, label_exporter]
  rfl

theorem earlyTraffic_eq (P : Prims) (hP : P.Sized) (h : HashId) (hs : 0 < h.size) (early ch : Bytes) :
    earlyTraffic P h early ch = .ok (clientEarlyTraffic P h early ch) := by
  simp only [earlyTraffic, deriveSecret_eq P hP h hs, label_early]; rfl

theorem makeTrafficKeys_eq (P : Prims) (hP : P.Sized) (p : Params) (hs : 0 < p.hash.size) (secret : Bytes) :
    makeTrafficKeys P p secret = .ok (trafficKeys P p.hash p.keyLen p.ivLen secret) := by
  simp only [makeTrafficKeys, hkdfExpandLabel_eq P hP _ hs, Res.bind_ok]
  rfl

end Verif.Machine

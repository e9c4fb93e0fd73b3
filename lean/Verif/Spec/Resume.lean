import Verif.Spec.Compatible

/-
What it means that a session can be resumed.
-/

namespace Verif.Spec

open Verif Verif.Negotiation Verif.Machine

/-- A configuration once a PSK has been stored under a name. -/
def storing (cfg : Config) (name : Bytes) (k : Psk) : Config :=
  { cfg with psks := fun n => if n = name then some k else cfg.psks n }

/-- The client may use the PSK of a ticket: it lists modes, one of them does not need key agreement or there is a common
group, and it does not send early data to a server that does not accept it. -/
structure MayResume (ccfg scfg : Config) : Prop where
  modes : ccfg.pskModes ≠ []
  exchange : (∃ m ∈ ccfg.pskModes, m ≠ 1) ∨ ∃ g ∈ ccfg.groups, g ∈ scfg.groups
  early : ccfg.allowEarlyData = true → scfg.allowEarlyData = true

/-- Times, in nanoseconds, at which a ticket made at `t0` by the clock of the server and read at `t1` by the clock of the client
can be used: it is not older than 2^32 milliseconds by either clock, and the two ages differ by less than five seconds. -/
def InTime (t0 t1 : Int) (now : Int → Prop) : Prop :=
  ∀ t t', now t → now t' → 0 ≤ t - t1 ∧ t - t1 < 4294967296000000 ∧ 0 ≤ t' - t0 ∧ t' - t0 < 4294967296000000 ∧
    t - t1 ≤ t' - t0 + 5000000000 ∧ t' - t0 ≤ t - t1 + 5000000000

/-- The second connection goes on from the first: the PSK is in use, and suite and protocol are those of the first. -/
structure Resumes (first second : Connected) : Prop where
  psk : second.params.usingPSK = true
  suite : second.params.suite = first.params.suite
  protocol : second.params.nextProto = first.params.nextProto

end Verif.Spec

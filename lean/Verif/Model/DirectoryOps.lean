import Verif.Model.Directory
/-
Histories of calls on a directory.
-/
namespace Coniks

/-- One call on a `ConiksDirectory` (protocol/directory/directory.go): the five request handlers, `Update`, `SetPolicies`.
`rnd` is the randomness `Register` draws when it stores the binding. -/
inductive DirOp where
  | register (rnd : Option Bytes) (req : RegistrationRequest)
  | keyLookup (req : KeyLookupRequest)
  | keyLookupInEpoch (req : KeyLookupInEpochRequest)
  | monitor (req : MonitoringRequest)
  | getSTRHistory (req : STRHistoryRequest)
  | update
  | setPolicies (epDeadline : UInt64)
deriving DecidableEq

/-- directory.go:70-345: the call and its answer (`none` inside = no answer, outer `none` = panic). -/
def Directory.step (C : Crypto) (d : Directory) : DirOp → Go (Directory × Option Response)
  | .register rnd req => (d.register C rnd req).map fun x => (x.1, some x.2)
  | .keyLookup req => (d.keyLookup C req).map fun r => (d, some r)
  | .keyLookupInEpoch req => (d.keyLookupInEpoch C req).map fun r => (d, some r)
  | .monitor req => (d.monitor C req).map fun r => (d, some r)
  | .getSTRHistory req => (d.getSTRHistory req).map fun r => (d, some r)
  | .update => some (d.update C, none)
  | .setPolicies t => some (d.setPolicies t, none)

/-- The STR an operation issues. -/
def DirOp.issued : DirOp → Directory → List STR
  | .update, d => [d.pad.latest]
  | _, _ => []

/-- Run a history; `log` collects the STRs issued. -/
def Directory.runLog (C : Crypto) (d : Directory) (log : List STR) : List DirOp → Go (Directory × List STR)
  | [] => some (d, log)
  | op :: ops => (d.step C op).bind fun x => x.1.runLog C (log ++ op.issued x.1) ops

/-- A directory made by `New` (directory.go:42-65) with deadline `t0`, keys `sk` (signing) and `vk` (VRF), cache length `size`
and TBs on, and then used; with the log of its STRs. -/
def dirAfter (C : Crypto) (t0 : UInt64) (sk vk : Bytes) (size : Nat) (r₁ r₂ : Bytes) (ops : List DirOp) :
    Go (Directory × List STR) :=
  (newDirectory C t0 vk sk size true (some r₁) (some r₂)).bind fun d => d.runLog C [d.pad.latest] ops

end Coniks

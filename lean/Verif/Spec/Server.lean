import Verif.Model.Lock
/-
What the key server should do with a request (C31, C45 - C47), independent of its dispatch code. Request types on the wire:
0 registration, 1 key lookup, 2 key lookup in epoch, 3 monitoring.
-/
namespace Coniks.Spec
open Coniks

/-- The operation a request asks for: the type and the kind of the payload must agree. -/
def operation (rnd : Option Bytes) (req : Request) : Option DirOp :=
  match req.payload with
  | .registration r => if req.type = 0 then some (.register rnd r) else none
  | .keyLookup r => if req.type = 1 then some (.keyLookup r) else none
  | .keyLookupInEpoch r => if req.type = 2 then some (.keyLookupInEpoch r) else none
  | .monitoring r => if req.type = 3 then some (.monitor r) else none
  | _ => none

/-- The payload is not a nil pointer (what `UnmarshalRequest` returns never is). -/
def NonNil (req : Request) : Prop :=
  req.payload ≠ .nilRegistration ∧ req.payload ≠ .nilKeyLookup ∧ req.payload ≠ .nilKeyLookupInEpoch ∧ req.payload ≠ .nilMonitoring

/-- The directory operations (none or one) a critical section of the server amounts to. -/
def Job.ops : Job → List DirOp
  | .request rnd req => (operation rnd req).toList
  | .epochUpdate => [.update]
  | .reload file => match loadConfig file with
    | some (some t) => [.setPolicies t]
    | _ => []

/-- The section cannot crash by itself: requests come from the decoder, configuration files have their two tables. -/
def Job.Sane : Job → Prop
  | .request _ req => NonNil req
  | .epochUpdate => True
  | .reload file => ∀ conf, file = some conf → conf.policies.isSome ∧ conf.logger = true

/-- `p`, run without interruption, does what `f` says: same memory and answer; if `f` panics so does `p`. -/
def Implements {σ ρ : Type} (p : Prog σ (Go ρ)) (f : σ → Go (σ × ρ)) : Prop :=
  ∀ s, (f s = none → (p.run s).2 = none) ∧ ∀ s' r, f s = some (s', r) → p.run s = (s', some r)

end Coniks.Spec

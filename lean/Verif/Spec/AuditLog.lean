import Verif.Model.AuditLog
import Verif.Spec.Chain
/-
Histories of calls on an audit log.
-/
namespace Coniks.Spec
open Coniks

/-- One call on an audit log: initialise a directory, or audit a response for a known directory. -/
inductive LogOp where
  | init (addr signKey : Bytes) (snaps : List (Option DirSTR))
  | audit (id : Arr32) (msg : Response)

/-- The call, with the error it returns (`none` = nil). -/
def logStep (C : Crypto) (l : AuditLog) : LogOp → Go (AuditLog × Option ErrorCode)
  | .init addr signKey snaps => l.initHistory C addr signKey snaps
  | .audit id msg => l.audit C id msg

/-- The log after a history of calls, if none of them panics. -/
def logAfter (C : Crypto) (l : AuditLog) : List LogOp → Go AuditLog
  | [] => some l
  | op :: ops => (logStep C l op).bind fun x => logAfter C x.1 ops

/-- How many STRs the audits of directory `id` bring. -/
def strsFor (id : Arr32) : List LogOp → Nat
  | [] => 0
  | .audit id' msg :: ops =>
    (match msg.resp with | .history strs => if id' = id then strs.length else 0 | _ => 0) + strsFor id ops
  | .init .. :: ops => strsFor id ops

/-- The identity under which a directory with initial STR `s` is kept: the hash of its signature. -/
def dirId (C : Crypto) (s : DirSTR) : Arr32 := ⟨C.hash s.core.signature, C.hash_length _⟩

/-- The directory a call is about. -/
def LogOp.about (C : Crypto) : LogOp → Option Arr32
  | .init _ _ (some s :: _) => some (dirId C s)
  | .init .. => none
  | .audit id _ => some id

/-- The log reports exactly the STRs `H` for directory `id`: a range within `0 .. length-1` gives that part of `H`, any other range
ErrMalformedMessage. -/
def ReportsExactly (l : AuditLog) (id : Arr32) (H : List DirSTR) : Prop :=
  ∀ s t : UInt64,
    (s.toNat ≤ t.toNat ∧ t.toNat < H.length →
      l.getObservedSTRs ⟨id, s, t⟩ = ⟨ReqSuccess, .history (((H.drop s.toNat).take (t.toNat + 1 - s.toNat)).map some)⟩) ∧
    (¬ (s.toNat ≤ t.toNat ∧ t.toNat < H.length) → l.getObservedSTRs ⟨id, s, t⟩ = ⟨ErrMalformedMessage, .none⟩)

end Coniks.Spec

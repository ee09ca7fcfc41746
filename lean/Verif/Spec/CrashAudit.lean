import Verif.Spec.AuditLog
import Verif.Spec.CrashClient
/-
Which ranges, responses and calls crash an auditor, in terms of their parts.
-/
namespace Coniks.Spec
open Coniks

/-- The ranges on which `AuditDirectory` crashes, for an auditor that holds the STR `held` and the key `pk` of the directory. -/
def CrashesAudit (C : Crypto) (pk : Bytes) (held : DirSTR) (strs : List (Option DirSTR)) : Prop :=
  -- a nil STR at the beginning
  (∃ rest, strs = none :: rest) ∨
  -- an STR of the next epoch without policies at the beginning (nobody has to sign it)
  (∃ s rest, strs = some s :: rest ∧ s.core.epoch = held.core.epoch + 1 ∧ s.policies = none) ∨
  -- a valid continuation of what is held, followed by an STR without policies
  ∃ (c : List DirSTR) (s : DirSTR) (rest : List (Option DirSTR)), strs = c.map some ++ some s :: rest ∧ Continues C pk held c ∧ s.policies = none

/-- The responses on which the audit of a directory crashes. -/
def CrashesLog (C : Crypto) (pk : Bytes) (held : DirSTR) (msg : Response) : Prop :=
  ¬ Fatal msg.error ∧
  (-- a nil payload, or one of another type
   msg.resp = .nilProof ∨ msg.resp = .nilHistory ∨ msg.resp = .other ∨
   -- a proof with at least one path and one STR: the answer to another kind of request
   (∃ df, msg.resp = .proof df ∧ df.ap ≠ [] ∧ df.str ≠ []) ∨
   ∃ strs, msg.resp = .history strs ∧ CrashesAudit C pk held strs)

/-- The calls that crash an audit log `l`. -/
def CrashesAuditor (C : Crypto) (l : AuditLog) : LogOp → Prop
  | .init _ _ snaps =>
    -- a nil STR at the beginning, or later if the first one is the initial STR of a directory that is not known yet
    (∃ rest, snaps = none :: rest) ∨
    ∃ s rest, snaps = some s :: rest ∧ s.core.epoch = 0 ∧ l (dirId C s) = none ∧ none ∈ rest
  | .audit id msg => ∃ h, l id = some h ∧ CrashesLog C h.aud.signKey h.aud.verified msg

end Coniks.Spec

import Verif.Spec.SessionExact
import Verif.Spec.AuditLog
import Verif.Model.Client
/-
An honest directory, an auditor that follows it, and a user who asks both: any interleaving of their calls (C85).
-/
namespace Coniks.Spec
open Coniks

/-- One event. -/
inductive TrioOp where
  /-- a call at the directory, by somebody else or by our user, who handles the answer -/
  | ses (op : SesOp)
  /-- the auditor asks the directory for its STRs of the epochs `s .. e` (`GetSTRHistory`) and audits the answer (`Audit`) -/
  | audit (s e : UInt64)
  /-- our user asks the auditor for the STRs `s .. e` it observed (`GetObservedSTRs`) and checks the answer (`CheckEquivocation`) -/
  | check (s e : UInt64)
  /-- our user begins anew: a new client (`New`) with the newest STR of the directory and its public key -/
  | join

/-- The call made at the directory. -/
def TrioOp.dirOps : TrioOp → List DirOp
  | .ses op => [op.dirOp]
  | .audit s e => [.getSTRHistory ⟨s, e⟩]
  | .check .. => []
  | .join => []

/-- The directory, the auditor's log, the user. -/
structure Trio where
  dir : Directory
  log : AuditLog
  user : Client

/-- One event: what the calls of the auditor and of our user return (none = nil), and the state afterwards. `id` is the identity of the
directory in the auditor's log. -/
def Trio.step (C : Crypto) (id : Arr32) (T : Trio) : TrioOp → Go (List (Option ErrorCode) × Trio)
  | .ses op => (runSession C T.dir T.user [op]).map fun x => (x.2.2, { T with dir := x.1, user := x.2.1 })
  | .audit s e =>
    (T.dir.getSTRHistory ⟨s, e⟩).bind fun msg => (T.log.audit C id msg).map fun x => ([x.2], { T with log := x.1 })
  | .check s e => (T.user.checkEquivocation C (T.log.getObservedSTRs ⟨id, s, e⟩)).map fun x => ([x], T)
  | .join => (newClient T.dir.latestSTR true (C.signPub T.dir.pad.signKey)).map fun x => ([], { T with user := x })

/-- Everything that is returned, in order, and the state at the end. -/
def Trio.run (C : Crypto) (id : Arr32) : Trio → List TrioOp → Go (List (Option ErrorCode) × Trio)
  | T, [] => some ([], T)
  | T, op :: ops => (T.step C id op).bind fun x => (Trio.run C id x.2 ops).map fun y => (x.1 ++ y.1, y.2)

/-- How many of the latest epochs a directory with cache length `size ≥ 2` keeps after `n` updates. -/
def cacheKept (size : Nat) : Nat → Nat
  | 0 => 1
  | n + 1 => (if cacheKept size n = size then size - size / 2 else cacheKept size n) + 1

/-- What matters: the directory and what the user knows of it, the latest epoch, and the latest epoch the auditor knows. -/
structure Table where
  meet : Meeting
  now : Nat
  seen : Nat

/-- The epoch of the STR that the user holds. -/
def Table.user (T : Table) : Nat := T.now - T.meet.lag

/-- The directory no longer keeps epoch `s`. -/
def Table.gone (size : Nat) (T : Table) (s : Nat) : Prop := s + cacheKept size T.now < T.now + 1

/-- The call asks the directory for STRs from an epoch on that it no longer keeps. -/
def Table.asksGone (size : Nat) (T : Table) (op : DirOp) : Prop :=
  ∃ r, op = .getSTRHistory r ∧ r.startEpoch.toNat ≤ r.endEpoch.toNat ∧ T.gone size r.startEpoch.toNat

/-- What the auditor says about the range `s .. e` it asked for, and the latest epoch it then knows; none = the directory crashes. -/
def auditSays (now kept seen s e : Nat) : Option (Option ErrorCode × Nat) :=
  if now < s ∨ e < s then some (some ErrMalformedMessage, seen)
  else if s + kept < now + 1 then none
  else if s = seen ∨ s = seen + 1 then some (none, min e now)
  else some (some CheckBadSTR, seen)

/-- What a user at epoch `u` says about the range `s .. e` that it asked of an auditor that knows the epochs `0 .. seen`. -/
def checkSays (seen u s e : Nat) : Option ErrorCode :=
  if seen < e ∨ e < s then some ErrMalformedMessage
  else if e = u ∨ e = u + 1 then none
  else some CheckBadSTR

noncomputable section
open Classical

/-- What a call at the directory by others does: none = the directory crashes. -/
def Table.dirStep (idx hash : Bytes → Bytes) (size : Nat) (T : Table) (op : DirOp) : Option Table :=
  if T.asksGone size op then none
  else some ⟨⟨T.meet.dir.step idx hash op, if op = .update then T.meet.lag + 1 else T.meet.lag, T.meet.held⟩,
    if op = .update then T.now + 1 else T.now, T.seen⟩

def Table.step (idx hash : Bytes → Bytes) (vrfOk : Bytes → Bool) (size : Nat) (T : Table) :
    TrioOp → Option (List (Option ErrorCode) × Table)
  | .ses (.dir op) => (T.dirStep idx hash size op).map fun T' => ([], T')
  | .ses (.lookup n key) => (T.meet.hear hash vrfOk T.meet.dir true n key (T.meet.dir.lookupAnswer idx n)).map fun x =>
      ([x.1], { T with meet := x.2 })
  | .ses (.register rnd n k) =>
    (T.meet.hear hash vrfOk (T.meet.dir.step idx hash (.register rnd ⟨n, k⟩)) false n (some k) (T.meet.dir.registerAnswer idx rnd n k)).map
      fun x => ([x.1], { T with meet := x.2 })
  | .audit s e => (auditSays T.now (cacheKept size T.now) T.seen s.toNat e.toNat).map fun x => ([x.1], { T with seen := x.2 })
  | .check s e => some ([checkSays T.seen T.user s.toNat e.toNat], T)
  | .join => some ([], { T with meet := ⟨T.meet.dir, 0, fun _ => none⟩ })

def Table.run (idx hash : Bytes → Bytes) (vrfOk : Bytes → Bool) (size : Nat) :
    Table → List TrioOp → Option (List (Option ErrorCode) × Table)
  | T, [] => some ([], T)
  | T, op :: ops => (T.step idx hash vrfOk size op).bind fun x => (Table.run idx hash vrfOk size x.2 ops).map fun y => (x.1 ++ y.1, y.2)

end
end Coniks.Spec

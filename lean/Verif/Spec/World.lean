import Verif.Spec.Trio
import Verif.Spec.CrashAudit
/-
Many directories, one auditor that follows all of them, and many users, each at one of the directories: any interleaving of their calls (C93).
-/
namespace Coniks.Spec
open Coniks

/-- One event in a world with `n` directories. -/
inductive WorldOp (n : Nat) where
  /-- a call at directory `k` by somebody who is none of our users -/
  | dir (k : Fin n) (op : DirOp)
  /-- user `u` calls her directory and handles the answer -/
  | call (u : Nat) (op : SesOp)
  /-- the auditor asks directory `k` for its STRs of the epochs `s .. e` (`GetSTRHistory`) and audits the answer (`Audit`) -/
  | audit (k : Fin n) (s e : UInt64)
  /-- user `u` asks the auditor for the STRs `s .. e` of her directory (`GetObservedSTRs`) and checks the answer (`CheckEquivocation`) -/
  | check (u : Nat) (s e : UInt64)
  /-- user `u` begins (again): a new client (`New`) with the newest STR and the public key of her directory -/
  | join (u : Nat)
  /-- anything else that is done with the auditor's log, on the word of anybody -/
  | other (op : LogOp)

/-- The directories, the auditor's log, the users. -/
structure World (n : Nat) where
  dirs : Fin n → Directory
  log : AuditLog
  users : Nat → Client

/-- Who belongs to whom: the identity under which the auditor keeps each directory, and the directory of each user. -/
structure Places (n : Nat) where
  id : Fin n → Arr32
  home : Nat → Fin n

/-- a function changed at one place -/
def putAt {α β : Type} [DecidableEq α] (f : α → β) (a : α) (b : β) : α → β := fun x => if x = a then b else f x

/-- One event: what the calls of the auditor and of our users return (none = nil), and the world afterwards. -/
def World.step {n : Nat} (C : Crypto) (P : Places n) (W : World n) : WorldOp n → Go (List (Option ErrorCode) × World n)
  | .dir k op => ((W.dirs k).step C op).map fun x => ([], { W with dirs := putAt W.dirs k x.1 })
  | .call u op => (runSession C (W.dirs (P.home u)) (W.users u) [op]).map fun x =>
      (x.2.2, { W with dirs := putAt W.dirs (P.home u) x.1, users := putAt W.users u x.2.1 })
  | .audit k s e => ((W.dirs k).getSTRHistory ⟨s, e⟩).bind fun msg => (W.log.audit C (P.id k) msg).map fun x => ([x.2], { W with log := x.1 })
  | .check u s e => ((W.users u).checkEquivocation C (W.log.getObservedSTRs ⟨P.id (P.home u), s, e⟩)).map fun x => ([x], W)
  | .join u => (newClient (W.dirs (P.home u)).latestSTR true (C.signPub (W.dirs (P.home u)).pad.signKey)).map fun x => ([], { W with users := putAt W.users u x })
  | .other op => (logStep C W.log op).map fun x => ([x.2], { W with log := x.1 })

/-- Everything that is returned, event by event, and the world at the end. -/
def World.run {n : Nat} (C : Crypto) (P : Places n) : World n → List (WorldOp n) → Go (List (List (Option ErrorCode)) × World n)
  | W, [] => some ([], W)
  | W, op :: ops => (W.step C P op).bind fun x => (World.run C P x.2 ops).map fun y => (x.1 :: y.1, y.2)

/-- User `u`, her directory, and the auditor. -/
def World.trio {n : Nat} (P : Places n) (W : World n) (u : Nat) : Trio := ⟨W.dirs (P.home u), W.log, W.users u⟩

/-- What an event is for user `u`, her directory, and the auditor's business with this directory. The calls of other users of the directory are
calls by somebody; everything else does not concern them. -/
def WorldOp.forUser {n : Nat} (P : Places n) (u : Nat) : WorldOp n → Option TrioOp
  | .dir k op => if k = P.home u then some (.ses (.dir op)) else none
  | .call v op => if v = u then some (.ses op) else if P.home v = P.home u then some (.ses (.dir op.dirOp)) else none
  | .audit k s e => if k = P.home u then some (.audit s e) else none
  | .check v s e => if v = u then some (.check s e) else none
  | .join v => if v = u then some .join else none
  | .other _ => none

/-- The results of an event concern user `u` or what the auditor learns of her directory. -/
def WorldOp.heardBy {n : Nat} (P : Places n) (u : Nat) : WorldOp n → Bool
  | .dir .. => false
  | .call v _ => v == u
  | .audit k _ _ => k == P.home u
  | .check v _ _ => v == u
  | .join v => v == u
  | .other _ => false

/-- What user `u`, and the auditor about her directory, hear in the course of a run. -/
def heardIn {n : Nat} (P : Places n) (u : Nat) : List (WorldOp n) → List (List (Option ErrorCode)) → List (Option ErrorCode)
  | op :: ops, r :: res => (if op.heardBy P u then r else []) ++ heardIn P u ops res
  | _, _ => []

/-- An honest directory: its start, its keys, its history before, and the number of the newest STR that the auditor is given. -/
structure HonestDir where
  t0 : UInt64
  sk : Bytes
  vk : Bytes
  size : Nat
  r₁ : Bytes
  r₂ : Bytes
  pre : List DirOp
  known : Nat

/-- The calls made at the directory of user `u` in the course of a run. -/
def callsAt {n : Nat} (P : Places n) (u : Nat) (evs : List (WorldOp n)) : List DirOp := (evs.filterMap (WorldOp.forUser P u)).flatMap TrioOp.dirOps

end Coniks.Spec

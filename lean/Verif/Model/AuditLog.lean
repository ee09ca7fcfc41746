import Verif.Model.Auditor
import Verif.Model.Directory
/-
Model of `protocol/auditlog/auditlog.go`.
-/
namespace Coniks

/-- protocol/auditlog/auditlog.go:15-19 `directoryHistory`; the map is a function. -/
structure DirHistory where
  aud : AudState
  addr : Bytes
  snapshots : UInt64 → Option DirSTR

/-- protocol/auditlog/auditlog.go:29 `ConiksAuditLog`; the map is a function. -/
abbrev AuditLog := Arr32 → Option DirHistory

/-- protocol/auditlog/auditlog.go:47-50 `updateVerifiedSTR`. -/
def DirHistory.updateVerifiedSTR (h : DirHistory) (s : DirSTR) : DirHistory :=
  { h with aud := h.aud.update s, snapshots := fun e => if e = s.core.epoch then some s else h.snapshots e }

/-- protocol/auditlog/auditlog.go:32-43 `newDirectoryHistory`. -/
def newDirectoryHistory (addr signKey : Bytes) (initSTR : DirSTR) : DirHistory :=
  DirHistory.updateVerifiedSTR { aud := newAudState signKey initSTR, addr := addr, snapshots := fun _ => none } initSTR

/-- protocol/auditlog/auditlog.go:55-59 `insertRange`; panics on a nil element. -/
def DirHistory.insertRange (h : DirHistory) : List (Option DirSTR) → Go DirHistory
  | [] => some h
  | none :: _ => none
  | some s :: rest => (h.updateVerifiedSTR s).insertRange rest

/-- protocol/auditlog/auditlog.go:70-91 `Audit`; the type assertion panics on a `DirectoryProof`. -/
def DirHistory.audit (C : Crypto) (h : DirHistory) (msg : Response) : Go (DirHistory × Option ErrorCode) :=
  match msg.validate with
  | none => none
  | some (some e) => some (h, some e)
  | some none =>
    match msg.resp with
    | .history strs =>
      match h.aud.auditDirectory C strs with
      | none => none
      | some (some e) => some (h, some e)
      | some none => (h.insertRange strs).map fun h' => (h', none)
    | _ => none

/-- protocol/auditlog/auditlog.go:96-98 `New`. -/
def newAuditLog : AuditLog := fun _ => none

/-- protocol/auditlog/auditlog.go:102-105 `set`. -/
def AuditLog.set (l : AuditLog) (id : Arr32) (h : DirHistory) : AuditLog := fun x => if x = id then some h else l x

/-- protocol/auditlog/auditlog.go:126-155 `InitHistory`; panics when `snaps[0]` or a later element is nil. -/
def AuditLog.initHistory (C : Crypto) (l : AuditLog) (addr signKey : Bytes) (snaps : List (Option DirSTR)) :
    Go (AuditLog × Option ErrorCode) :=
  match snaps with
  | [] => some (l, some ErrMalformedMessage)
  | none :: _ => none
  | some s :: rest =>
    if s.core.epoch ≠ 0 then some (l, some ErrMalformedMessage)
    else
      match computeDirectoryIdentity C s with
      | none => none
      | some id =>
        match l id with
        | some _ => some (l, some ErrAuditLog)
        | none =>
          match (newDirectoryHistory addr signKey s).insertRange rest with
          | none => none
          | some h => some (l.set id h, none)

/-- The auditor's use of a history: protocol/auditlog/auditlog.go:111-114 `get`, then 70-91 `Audit` on the history found (which is
shared by pointer, so the log sees the update). An unknown directory is left alone. -/
def AuditLog.audit (C : Crypto) (l : AuditLog) (id : Arr32) (msg : Response) : Go (AuditLog × Option ErrorCode) :=
  match l id with
  | none => some (l, some ReqUnknownDirectory)
  | some h => (h.audit C msg).map fun x => (l.set id x.1, x.2)

/-- protocol/auditlog/auditlog.go:174-193 `GetObservedSTRs`; the loop is `epochRange`. -/
def AuditLog.getObservedSTRs (l : AuditLog) (req : AuditingRequest) : Response :=
  match l req.dirInitSTRHash with
  | none => newErrorResponse ReqUnknownDirectory
  | some h =>
    if req.endEpoch > h.aud.verified.core.epoch ∨ req.startEpoch > req.endEpoch then newErrorResponse ErrMalformedMessage
    else newSTRHistoryRange ((epochRange req.startEpoch req.endEpoch).map h.snapshots)

end Coniks

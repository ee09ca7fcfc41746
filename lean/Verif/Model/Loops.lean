import Verif.Model.AuditLog
/-
The loops over epochs of `protocol/directory/directory.go` and `protocol/auditlog/auditlog.go`, round by round with Go's 64-bit counter, so that a loop that does
not end has no outcome. Model/Directory.lean and Model/AuditLog.lean use the list `epochRange` instead.
-/
namespace Coniks

/-- `for ep := s; ep <= e; ep++ { … }` (protocol/directory/directory.go:251, 297, 339; protocol/auditlog/auditlog.go:187). One round of `body` panics
(`none`), returns from the function (`.inr`), or goes on with new local variables (`.inl`). `EpochLoop body e ep s n out`: with the counter at `ep` and
the variables `s` the loop ends after `n` rounds with `out`. A loop that goes on for ever has no such `n` and `out`. The counter wraps. -/
inductive EpochLoop {σ ρ : Type} (body : UInt64 → σ → Go (σ ⊕ ρ)) (e : UInt64) : UInt64 → σ → Nat → Go (σ ⊕ ρ) → Prop where
  | done {ep s} : ¬ ep ≤ e → EpochLoop body e ep s 0 (some (.inl s))
  | crash {ep s} : ep ≤ e → body ep s = none → EpochLoop body e ep s 1 none
  | ret {ep s r} : ep ≤ e → body ep s = some (.inr r) → EpochLoop body e ep s 1 (some (.inr r))
  | next {ep s s' n out} : ep ≤ e → body ep s = some (.inl s') → EpochLoop body e (ep + 1) s' n out → EpochLoop body e ep s (n + 1) out

/-- protocol/directory/directory.go:252-253, 340-341: one round of collecting STRs; it never returns. -/
def collectRound (d : Directory) (ep : UInt64) (strs : List DirSTR) : Go (List DirSTR ⊕ Response) :=
  (newDirSTR (d.pad.getSTR ep)).map fun s => .inl (strs ++ [s])

/-- protocol/directory/directory.go:298-304: one round of `Monitor`. -/
def monitorRound (C : Crypto) (d : Directory) (username : Bytes) (ep : UInt64) (acc : List AuthPath × List DirSTR) :
    Go ((List AuthPath × List DirSTR) ⊕ Response) :=
  (d.pad.lookupInEpoch C username ep).bind fun x =>
    match x with
    | none => some (.inr (newErrorResponse ErrDirectory))
    | some ap => (newDirSTR (d.pad.getSTR ep)).map fun s => .inl (acc.1 ++ [ap], acc.2 ++ [s])

/-- protocol/auditlog/auditlog.go:188-189: one round of `GetObservedSTRs`; an epoch without an STR yields a nil pointer. -/
def observedRound (h : DirHistory) (ep : UInt64) (strs : List (Option DirSTR)) : Go (List (Option DirSTR) ⊕ Response) :=
  some (.inl (strs ++ [h.snapshots ep]))

/-- What the function makes of the end of its loop. -/
def afterLoop {σ : Type} (finish : σ → Go Response) : Go (σ ⊕ Response) → Go Response
  | none => none
  | some (.inr r) => some r
  | some (.inl s) => finish s

/-- protocol/directory/directory.go:326-345 `GetSTRHistory` with its loop: it ends with `out` after `n` rounds. -/
def Directory.HistoryRuns (d : Directory) (req : STRHistoryRequest) (n : Nat) (out : Go Response) : Prop :=
  if req.startEpoch > d.latestSTR.core.epoch ∨ req.endEpoch < req.startEpoch then n = 0 ∧ out = some (newErrorResponse ErrMalformedMessage)
  else ∃ r, EpochLoop (collectRound d) (if req.endEpoch > d.latestSTR.core.epoch then d.latestSTR.core.epoch else req.endEpoch) req.startEpoch [] n r ∧
    out = afterLoop (fun ss => some (newSTRHistoryRange (ss.map some))) r

/-- protocol/directory/directory.go:281-308 `Monitor` with its loop. -/
def Directory.MonitorRuns (C : Crypto) (d : Directory) (req : MonitoringRequest) (n : Nat) (out : Go Response) : Prop :=
  if req.username.length = 0 ∨ req.startEpoch > d.latestSTR.core.epoch ∨ req.startEpoch > req.endEpoch then n = 0 ∧ out = some (newErrorResponse ErrMalformedMessage)
  else ∃ r, EpochLoop (monitorRound C d req.username) (if req.endEpoch > d.latestSTR.core.epoch then d.latestSTR.core.epoch else req.endEpoch)
      req.startEpoch ([], []) n r ∧
    out = afterLoop (fun x => some (newMonitoringProof x.1 x.2)) r

/-- protocol/directory/directory.go:236-261 `KeyLookupInEpoch` with its loop. -/
def Directory.LookupInEpochRuns (C : Crypto) (d : Directory) (req : KeyLookupInEpochRequest) (n : Nat) (out : Go Response) : Prop :=
  if req.username.length = 0 ∨ req.epoch > d.latestSTR.core.epoch then n = 0 ∧ out = some (newErrorResponse ErrMalformedMessage)
  else
    match d.pad.lookupInEpoch C req.username req.epoch with
    | none => n = 0 ∧ out = none
    | some none => n = 0 ∧ out = some (newErrorResponse ErrDirectory)
    | some (some ap) => ∃ r, EpochLoop (collectRound d) d.latestSTR.core.epoch req.epoch [] n r ∧
        out = afterLoop (fun strs => ap.found.map fun b => newKeyLookupInEpochProof ap strs (if b then ReqSuccess else ReqNameNotFound)) r

/-- protocol/auditlog/auditlog.go:174-193 `GetObservedSTRs` with its loop. -/
def AuditLog.ObservedRuns (l : AuditLog) (req : AuditingRequest) (n : Nat) (out : Go Response) : Prop :=
  match l req.dirInitSTRHash with
  | none => n = 0 ∧ out = some (newErrorResponse ReqUnknownDirectory)
  | some h =>
    if req.endEpoch > h.aud.verified.core.epoch ∨ req.startEpoch > req.endEpoch then n = 0 ∧ out = some (newErrorResponse ErrMalformedMessage)
    else ∃ r, EpochLoop (observedRound h) req.endEpoch req.startEpoch [] n r ∧ out = afterLoop (fun strs => some (newSTRHistoryRange strs)) r

end Coniks

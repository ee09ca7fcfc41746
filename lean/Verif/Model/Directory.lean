import Verif.Model.Pad
import Verif.Model.Message
/-
Model of `protocol/directory/directory.go`.
-/
namespace Coniks

/-- protocol/directory/directory.go:26-32 `ConiksDirectory`; the map `tbs` is a function. -/
structure Directory where
  pad : PAD
  useTBs : Bool
  tbs : Bytes → Option TB
  policies : Policies

/-- protocol/directory/directory.go:42-65 `New`; panics (`none`) without TBs or randomness. Simplification: deriving the VRF
public key never fails. -/
def newDirectory (C : Crypto) (epDeadline : UInt64) (vrfKey signKey : Bytes) (dirSize : Nat) (useTBs : Bool)
    (rnd₁ rnd₂ : Option Bytes) : Go Directory :=
  if useTBs then
    let policies := newPolicies epDeadline (C.vrfPub vrfKey)
    match newPAD C policies signKey vrfKey dirSize rnd₁ rnd₂ with
    | some (some pad) => some { pad := pad, useTBs := useTBs, tbs := fun _ => none, policies := policies }
    | _ => none
  else none

/-- protocol/directory/directory.go:70-76 `Update`. -/
def Directory.update (C : Crypto) (d : Directory) : Directory :=
  { d with pad := d.pad.update C (some d.policies), tbs := fun _ => none }

/-- protocol/directory/directory.go:80-82 `SetPolicies`. -/
def Directory.setPolicies (d : Directory) (epDeadline : UInt64) : Directory :=
  { d with policies := newPolicies epDeadline d.policies.vrfPublicKey }

/-- protocol/directory/directory.go:86-88 `EpochDeadline`. -/
def Directory.epochDeadline (d : Directory) : UInt64 := d.pad.latest.ad.epochDeadline

/-- protocol/directory/directory.go:91-93 `LatestSTR`. -/
def Directory.latestSTR (d : Directory) : DirSTR := { core := d.pad.latest.core, policies := some d.pad.latest.ad }

/-- protocol/directory/directory.go:98-105 `NewTB`. -/
def Directory.newTB (C : Crypto) (d : Directory) (name key : Bytes) : TB :=
  let index := d.pad.index C name
  { index := index, value := key, signature := d.pad.sign C [d.latestSTR.core.signature, index, key] }

/-- protocol/directory/directory.go:140, 200, 257: `bytes.Equal(ap.LookupIndex, ap.Leaf.Index)`; panics on a nil leaf. -/
def AuthPath.found (ap : AuthPath) : Go Bool := ap.leaf.map fun l => ap.lookupIndex == l.index

/-- protocol/directory/directory.go:129-164 `Register`; `rnd` is the randomness drawn by `Set`. -/
def Directory.register (C : Crypto) (d : Directory) (rnd : Option Bytes) (req : RegistrationRequest) :
    Go (Directory × Response) :=
  if req.username.length = 0 ∨ req.key.length = 0 then some (d, newErrorResponse ErrMalformedMessage)
  else
    match d.pad.lookup C req.username with
    | none => none
    | some none => some (d, newErrorResponse ErrDirectory)
    | some (some ap) =>
      match ap.found with
      | none => none
      | some true => some (d, newSingleProof ap d.latestSTR none ReqNameExisted)
      | some false =>
        match (if d.useTBs then d.tbs req.username else none) with
        | some tb => some (d, newSingleProof ap d.latestSTR (some tb) ReqNameExisted)
        | none =>
          let tb : Option TB := if d.useTBs then some (d.newTB C req.username req.key) else none
          match d.pad.set C rnd req.username req.key with
          | none => none
          | some (pad', false) => some ({ d with pad := pad' }, newErrorResponse ErrDirectory)
          | some (pad', true) =>
            let tbs' : Bytes → Option TB := match tb with
              | some t => fun n => if n = req.username then some t else d.tbs n
              | none => d.tbs
            let d' : Directory := { d with pad := pad', tbs := tbs' }
            some (d', newSingleProof ap d'.latestSTR tb ReqSuccess)

/-- protocol/directory/directory.go:187-209 `KeyLookup`. -/
def Directory.keyLookup (C : Crypto) (d : Directory) (req : KeyLookupRequest) : Go Response :=
  if req.username.length = 0 then some (newErrorResponse ErrMalformedMessage)
  else
    match d.pad.lookup C req.username with
    | none => none
    | some none => some (newErrorResponse ErrDirectory)
    | some (some ap) =>
      match ap.found with
      | none => none
      | some true => some (newSingleProof ap d.latestSTR none ReqSuccess)
      | some false =>
        match (if d.useTBs then d.tbs req.username else none) with
        | some tb => some (newSingleProof ap d.latestSTR (some tb) ReqSuccess)
        | none => some (newSingleProof ap d.latestSTR none ReqNameNotFound)

/-- The values of `ep` in `for ep := s; ep <= e; ep++`. Simplification: for `e = 2^64-1` the Go loop does not end; `Model/Loops.lean` has the loop round by round, and
C92 says when the two agree. -/
def epochRange (s e : UInt64) : List UInt64 :=
  (List.range (e.toNat + 1 - s.toNat)).map fun k => UInt64.ofNat (s.toNat + k)

/-- protocol/directory/directory.go:251-254, 340-343: the loop collecting STRs; panics on an evicted epoch. -/
def Directory.collectSTRs (d : Directory) : List UInt64 → Go (List DirSTR)
  | [] => some []
  | ep :: eps =>
    match newDirSTR (d.pad.getSTR ep) with
    | none => none
    | some s => (d.collectSTRs eps).map fun ss => s :: ss

/-- protocol/directory/directory.go:236-261 `KeyLookupInEpoch`. -/
def Directory.keyLookupInEpoch (C : Crypto) (d : Directory) (req : KeyLookupInEpochRequest) : Go Response :=
  if req.username.length = 0 ∨ req.epoch > d.latestSTR.core.epoch then some (newErrorResponse ErrMalformedMessage)
  else
    match d.pad.lookupInEpoch C req.username req.epoch with
    | none => none
    | some none => some (newErrorResponse ErrDirectory)
    | some (some ap) =>
      match d.collectSTRs (epochRange req.epoch d.latestSTR.core.epoch) with
      | none => none
      | some strs =>
        match ap.found with
        | none => none
        | some true => some (newKeyLookupInEpochProof ap strs ReqSuccess)
        | some false => some (newKeyLookupInEpochProof ap strs ReqNameNotFound)

/-- protocol/directory/directory.go:297-305: the loop of `Monitor`; `some none` = return with ErrDirectory. -/
def Directory.monitorLoop (C : Crypto) (d : Directory) (username : Bytes) : List UInt64 → Go (Option (List AuthPath × List DirSTR))
  | [] => some (some ([], []))
  | ep :: eps =>
    match d.pad.lookupInEpoch C username ep with
    | none => none
    | some none => some none
    | some (some ap) =>
      match newDirSTR (d.pad.getSTR ep) with
      | none => none
      | some s =>
        match d.monitorLoop C username eps with
        | none => none
        | some none => some none
        | some (some (aps, ss)) => some (some (ap :: aps, s :: ss))

/-- protocol/directory/directory.go:281-308 `Monitor`. -/
def Directory.monitor (C : Crypto) (d : Directory) (req : MonitoringRequest) : Go Response :=
  if req.username.length = 0 ∨ req.startEpoch > d.latestSTR.core.epoch ∨ req.startEpoch > req.endEpoch then
    some (newErrorResponse ErrMalformedMessage)
  else
    let endEp := if req.endEpoch > d.latestSTR.core.epoch then d.latestSTR.core.epoch else req.endEpoch
    match d.monitorLoop C req.username (epochRange req.startEpoch endEp) with
    | none => none
    | some none => some (newErrorResponse ErrDirectory)
    | some (some (aps, ss)) => some (newMonitoringProof aps ss)

/-- protocol/directory/directory.go:326-345 `GetSTRHistory`. -/
def Directory.getSTRHistory (d : Directory) (req : STRHistoryRequest) : Go Response :=
  if req.startEpoch > d.latestSTR.core.epoch ∨ req.endEpoch < req.startEpoch then
    some (newErrorResponse ErrMalformedMessage)
  else
    let endEp := if req.endEpoch > d.latestSTR.core.epoch then d.latestSTR.core.epoch else req.endEpoch
    (d.collectSTRs (epochRange req.startEpoch endEp)).map fun ss => newSTRHistoryRange (ss.map some)

end Coniks

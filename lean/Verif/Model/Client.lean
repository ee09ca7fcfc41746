import Verif.Model.Auditor
/-
Model of `protocol/client/consistencychecks.go`.
-/
namespace Coniks

/-- protocol/client/consistencychecks.go:28-37 `ConsistencyChecks`. The maps are functions. `bindings n = some none` is an entry
holding a nil slice. No nil TB is ever stored (300-308 rejects it). -/
structure Client where
  aud : AudState
  bindings : Bytes → Option (Option Bytes)
  useTBs : Bool
  tbs : Bytes → Option TB

/-- protocol/client/consistencychecks.go:42-58 `New`; panics without TBs. -/
def newClient (savedSTR : DirSTR) (useTBs : Bool) (signKey : Bytes) : Go Client :=
  if useTBs then
    some { aud := newAudState signKey savedSTR, bindings := fun _ => none, useTBs := useTBs, tbs := fun _ => none }
  else none

/-- protocol/client/consistencychecks.go:68-87 `CheckEquivocation`; the type assertion panics on a `DirectoryProof`. -/
def Client.checkEquivocation (C : Crypto) (cc : Client) (msg : Response) : Go (Option ErrorCode) :=
  match msg.validate with
  | none => none
  | some (some e) => some (some e)
  | some none =>
    match msg.resp with
    | .history (s :: rest) =>
      match (if rest.length > 0 then cc.aud.verifySTRRange C s rest else some none) with
      | none => none
      | some (some e) => some (some e)
      | some none => cc.aud.checkSTRAgainstVerified C ((s :: rest).getLast (by simp))
    | _ => none

/-- protocol/client/consistencychecks.go:129-149 `updateSTR`; panics for request types other than registration and lookup. -/
def Client.updateSTR (C : Crypto) (cc : Client) (requestType : Int) (df : DirectoryProof) : Go (Client × Option ErrorCode) :=
  if requestType = RegistrationType ∨ requestType = KeyLookupType then
    match df.str with
    | [] => none
    | str :: _ =>
      match cc.aud.auditDirectory C [str] with
      | none => none
      | some (some e) => some (cc, some e)
      | some none =>
        match str with
        | none => none
        | some s => some ({ cc with aud := cc.aud.update s }, none)
  else none

/-- protocol/client/consistencychecks.go:213-217: the key to verify; a nil `key` is replaced by the one in the leaf. -/
def expectedKey (key : Option Bytes) (ap : AuthPath) : Go Bytes :=
  match key with
  | some k => some k
  | none => ap.leaf.map fun l => l.value.getD []

/-- protocol/client/consistencychecks.go:206-233 `verifyAuthPath`; a nil `key` is `none` (trust on first use). -/
def verifyAuthPath (C : Crypto) (uname : Bytes) (key : Option Bytes) (ap : AuthPath) (str : DirSTR) : Go (Option ErrorCode) :=
  match str.policies with
  | none => none
  | some pol =>
    if C.vrfVerify pol.vrfPublicKey uname ap.lookupIndex ap.vrfProof then
      match expectedKey key ap with
      | none => none
      | some k =>
        match ap.verify C uname k str.core.treeHash with
        | none => none
        | some (.error .bindingsDiffer) => some (some CheckBindingsDiffer)
        | some (.error .unverifiableCommitment) => some (some CheckBadCommitment)
        | some (.error .indicesMismatch) => some (some CheckBadLookupIndex)
        | some (.error .unequalTreeHashes) => some (some CheckBadAuthPath)
        | some (.ok _) => some none
    else some (some CheckBadVRFProof)

/-- The first elements of `df.AP` and `df.STR` (protocol/client/consistencychecks.go:170-171, 190-191, 251-252, 302-303), both
non-nil; every use of them below dereferences both. -/
def DirectoryProof.first (df : DirectoryProof) : Go (AuthPath × DirSTR) :=
  match df.ap, df.str with
  | some ap :: _, some str :: _ => some (ap, str)
  | _, _ => none

/-- protocol/client/consistencychecks.go:165-183 `verifyRegistration`. -/
def Client.verifyRegistration (C : Crypto) (cc : Client) (code : ErrorCode) (df : DirectoryProof) (uname : Bytes)
    (key : Option Bytes) : Go (Option ErrorCode) :=
  match df.first with
  | none => none
  | some (ap, str) =>
    match ap.proofType with
    | none => none
    | some t =>
      if (code = ReqNameExisted ∧ t = .inclusion) ∨ (code = ReqNameExisted ∧ t = .absence ∧ cc.useTBs = true) ∨
          (code = ReqSuccess ∧ t = .absence) then
        verifyAuthPath C uname key ap str
      else some (some ErrMalformedMessage)

/-- protocol/client/consistencychecks.go:185-204 `verifyKeyLookup`. -/
def Client.verifyKeyLookup (C : Crypto) (cc : Client) (code : ErrorCode) (df : DirectoryProof) (uname : Bytes)
    (key : Option Bytes) : Go (Option ErrorCode) :=
  match df.first with
  | none => none
  | some (ap, str) =>
    match ap.proofType with
    | none => none
    | some t =>
      if (code = ReqNameNotFound ∧ t = .absence) ∨ (code = ReqSuccess ∧ t = .inclusion) ∨
          (code = ReqSuccess ∧ t = .absence ∧ cc.useTBs = true) then
        verifyAuthPath C uname key ap str
      else some (some ErrMalformedMessage)

/-- protocol/client/consistencychecks.go:151-163 `checkConsistency`. -/
def Client.checkConsistency (C : Crypto) (cc : Client) (requestType : Int) (code : ErrorCode) (df : DirectoryProof) (uname : Bytes)
    (key : Option Bytes) : Go (Option ErrorCode) :=
  if requestType = RegistrationType then cc.verifyRegistration C code df uname key
  else if requestType = KeyLookupType then cc.verifyKeyLookup C code df uname key
  else none

/-- protocol/client/consistencychecks.go:278-288 `verifyFulfilledPromise`; panics on a nil leaf when there is a promise and the
index is the promised one. -/
def Client.verifyFulfilledPromise (cc : Client) (uname : Bytes) (ap : AuthPath) : Go (Option ErrorCode) :=
  match cc.tbs uname with
  | none => some none
  | some tb =>
    if ap.lookupIndex ≠ tb.index then some (some CheckBrokenPromise)
    else
      match ap.leaf with
      | none => none
      | some l => if l.value.getD [] ≠ tb.value then some (some CheckBrokenPromise) else some none

/-- protocol/client/consistencychecks.go:300-325 `verifyReturnedPromise`; returns the promise with a nil error. -/
def Client.verifyReturnedPromise (C : Crypto) (cc : Client) (ap : AuthPath) (str : DirSTR) (tb : Option TB) (key : Option Bytes) :
    Except ErrorCode TB :=
  match tb with
  | none => .error CheckBadPromise
  | some tb =>
    if cc.aud.verify C (tb.serialize str.core.signature) tb.signature then
      if tb.index = ap.lookupIndex then
        match key with
        | some k => if tb.value = k then .ok tb else .error CheckBindingsDiffer
        | none => .ok tb
      else .error CheckBadPromise
    else .error CheckBadSignature

/-- protocol/client/consistencychecks.go:244-247 and 262-265: check the returned promise and keep it. -/
def Client.takePromise (C : Crypto) (cc : Client) (ap : AuthPath) (str : DirSTR) (tb : Option TB) (uname : Bytes) (key : Option Bytes) :
    Client × Option ErrorCode :=
  match cc.verifyReturnedPromise C ap str tb key with
  | .error e => (cc, some e)
  | .ok tb => ({ cc with tbs := fun n => if n = uname then some tb else cc.tbs n }, none)

/-- protocol/client/consistencychecks.go:235-274 `updateTBs`. -/
def Client.updateTBs (C : Crypto) (cc : Client) (requestType : Int) (code : ErrorCode) (df : DirectoryProof) (uname : Bytes)
    (key : Option Bytes) : Go (Client × Option ErrorCode) :=
  if cc.useTBs = false then some (cc, none)
  else
    match df.first with
    | none => none
    | some (ap, str) =>
      match ap.proofType with
      | none => none
      | some t =>
        if requestType = RegistrationType then
          if t = .absence then some (cc.takePromise C ap str df.tb uname key) else some (cc, none)
        else if requestType = KeyLookupType then
          if code = ReqSuccess ∧ t = .inclusion then
            match cc.verifyFulfilledPromise uname ap with
            | none => none
            | some (some e) => some (cc, some e)
            | some none => some ({ cc with tbs := fun n => if n = uname then none else cc.tbs n }, none)
          else if code = ReqSuccess ∧ t = .absence then some (cc.takePromise C ap str df.tb uname key)
          else some (cc, none)
        else none

/-- protocol/client/consistencychecks.go:102-127 `HandleResponse`: the client afterwards and the error (inner `none` = nil);
outer `none` = panic. -/
def Client.handleResponse (C : Crypto) (cc : Client) (requestType : Int) (msg : Response) (uname : Bytes) (key : Option Bytes) :
    Go (Client × Option ErrorCode) :=
  match msg.validate with
  | none => none
  | some (some e) => some (cc, some e)
  | some none =>
    if requestType = RegistrationType ∨ requestType = KeyLookupType ∨ requestType = KeyLookupInEpochType ∨
        requestType = MonitoringType then
      match msg.resp with
      | .proof df =>
        match cc.updateSTR C requestType df with
        | none => none
        | some (cc, some e) => some (cc, some e)
        | some (cc, none) =>
          match cc.checkConsistency C requestType msg.error df uname key with
          | none => none
          | some (some e) => some (cc, some e)
          | some none =>
            match cc.updateTBs C requestType msg.error df uname key with
            | none => none
            | some (cc, some e) => some (cc, some e)
            | some (cc, none) => some ({ cc with bindings := fun n => if n = uname then some msg.getKey else cc.bindings n }, none)
      | _ => some (cc, some ErrMalformedMessage)
    else none

end Coniks

import Verif.Model.Message
/-
Model of `protocol/auditor/auditor.go` and `protocol/auditor/common.go`.

Error results are `Option ErrorCode` (`none` = nil error), inside `Go` (outer `none` = panic).
-/
namespace Coniks

/-- protocol/auditor/auditor.go:21-24 `AudState`. Simplifications: `verifiedSTR` is never nil ("The initial STR is pinned"), and the
signing key has the length ed25519 expects. -/
structure AudState where
  signKey : Bytes
  verified : DirSTR
deriving DecidableEq, Inhabited

/-- protocol/auditor/auditor.go:29-35 `New`. -/
def newAudState (signKey : Bytes) (verified : DirSTR) : AudState := { signKey := signKey, verified := verified }

/-- protocol/auditor/auditor.go:39-41 `Verify`. -/
def AudState.verify (C : Crypto) (a : AudState) (message sig : Bytes) : Bool := C.verify a.signKey message sig

/-- protocol/auditor/auditor.go:49-51 `Update`. -/
def AudState.update (a : AudState) (s : DirSTR) : AudState := { a with verified := s }

/-- protocol/auditor/auditor.go:55-60 `compareWithVerified`. `reflect.DeepEqual` is equality of the fields on the wire; simplification:
the unexported `tree` and `Ad` (nil in every decoded STR) are not compared, and a nil slice equals an empty one. -/
def AudState.compareWithVerified (a : AudState) (str : DirSTR) : Option ErrorCode :=
  if a.verified = str then none else some CheckBadSTR

/-- protocol/auditor/auditor.go:67-78 `verifySTRConsistency`; panics on nil policies, and on a nil `prevSTR` once the signature is
verified. -/
def AudState.verifySTRConsistency (C : Crypto) (a : AudState) (prev : Option DirSTR) (str : DirSTR) : Go (Option ErrorCode) :=
  match str.serialize with
  | none => none
  | some m =>
    if a.verify C m str.core.signature then
      match prev with
      | none => none
      | some p => if str.verifyHashChain C p then some none else some (some CheckBadSTR)
    else some (some CheckBadSignature)

/-- protocol/auditor/auditor.go:89-110 `CheckSTRAgainstVerified`; panics on nil. -/
def AudState.checkSTRAgainstVerified (C : Crypto) (a : AudState) : Option DirSTR → Go (Option ErrorCode)
  | none => none
  | some str =>
    if str.core.epoch = a.verified.core.epoch then some (a.compareWithVerified str)
    else if str.core.epoch = a.verified.core.epoch + 1 then a.verifySTRConsistency C (some a.verified) str
    else some (some CheckBadSTR)

/-- protocol/auditor/auditor.go:116-133 `VerifySTRRange`. -/
def AudState.verifySTRRange (C : Crypto) (a : AudState) : Option DirSTR → List (Option DirSTR) → Go (Option ErrorCode)
  | _, [] => some none
  | _, none :: _ => some (some ErrMalformedMessage)
  | prev, some str :: rest =>
    match a.verifySTRConsistency C prev str with
    | none => none
    | some (some e) => some (some e)
    | some none => a.verifySTRRange C (some str) rest

/-- protocol/auditor/auditor.go:141-160 `AuditDirectory`. -/
def AudState.auditDirectory (C : Crypto) (a : AudState) : List (Option DirSTR) → Go (Option ErrorCode)
  | [] => some (some ErrMalformedMessage)
  | s :: rest =>
    match a.checkSTRAgainstVerified C s with
    | none => none
    | some (some e) => some (some e)
    | some none => if rest.length > 0 then a.verifySTRRange C s rest else some none

/-- protocol/auditor/common.go:13-21 `ComputeDirectoryIdentity`; panics unless the epoch is 0. -/
def computeDirectoryIdentity (C : Crypto) (str : DirSTR) : Go Arr32 :=
  if str.core.epoch ≠ 0 then none
  else some ⟨C.digest [str.core.signature], C.hash_length _⟩

end Coniks

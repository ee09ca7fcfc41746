import Verif.Model.Str
/-
Model of `protocol/error.go` and `protocol/message.go`.
-/
namespace Coniks

/-- protocol/error.go:9 `ErrorCode`. -/
abbrev ErrorCode := Int

/-- protocol/error.go:16-26 -/
def ReqSuccess : ErrorCode := 100
/-- protocol/error.go:18 -/
def ReqNameExisted : ErrorCode := 101
/-- protocol/error.go:19 -/
def ReqNameNotFound : ErrorCode := 102
/-- protocol/error.go:21 -/
def ReqUnknownDirectory : ErrorCode := 103
/-- protocol/error.go:23 -/
def ErrDirectory : ErrorCode := 104
/-- protocol/error.go:24 -/
def ErrAuditLog : ErrorCode := 105
/-- protocol/error.go:25 -/
def ErrMalformedMessage : ErrorCode := 106
/-- protocol/error.go:31-41 -/
def CheckBadSignature : ErrorCode := 200
/-- protocol/error.go:33 -/
def CheckBadVRFProof : ErrorCode := 201
/-- protocol/error.go:34 -/
def CheckBindingsDiffer : ErrorCode := 202
/-- protocol/error.go:35 -/
def CheckBadCommitment : ErrorCode := 203
/-- protocol/error.go:36 -/
def CheckBadLookupIndex : ErrorCode := 204
/-- protocol/error.go:37 -/
def CheckBadAuthPath : ErrorCode := 205
/-- protocol/error.go:38 -/
def CheckBadSTR : ErrorCode := 206
/-- protocol/error.go:39 -/
def CheckBadPromise : ErrorCode := 207
/-- protocol/error.go:40 -/
def CheckBrokenPromise : ErrorCode := 208

/-- protocol/error.go:48-52 `errors`. -/
def errorsSet (e : ErrorCode) : Bool := e == ErrMalformedMessage || e == ErrDirectory || e == ErrAuditLog

/-- protocol/message.go:13-20, the request types. -/
def RegistrationType : Int := 0
/-- protocol/message.go:15 -/
def KeyLookupType : Int := 1
/-- protocol/message.go:16 -/
def KeyLookupInEpochType : Int := 2
/-- protocol/message.go:17 -/
def MonitoringType : Int := 3
/-- protocol/message.go:18 -/
def AuditType : Int := 4
/-- protocol/message.go:19 -/
def STRType : Int := 5

/-- protocol/message.go:142-146 `DirectoryProof`; `none` elements are nil pointers. -/
structure DirectoryProof where
  ap : List (Option AuthPath)
  str : List (Option DirSTR)
  tb : Option TB
deriving DecidableEq, Inhabited

/-- protocol/message.go:136, 142-156: the dynamic type and value of `Response.DirectoryResponse`: nil interface, nil
pointer of a known type, the two structs, anything else. -/
inductive DirectoryResponse where
  | none
  | nilProof
  | nilHistory
  | proof (p : DirectoryProof)
  | history (strs : List (Option DirSTR))
  | other
deriving DecidableEq, Inhabited

/-- protocol/message.go:128-131 `Response`. -/
structure Response where
  error : ErrorCode
  resp : DirectoryResponse
deriving DecidableEq, Inhabited

/-- protocol/message.go:161-163 `NewErrorResponse`. -/
def newErrorResponse (e : ErrorCode) : Response := { error := e, resp := .none }

/-- protocol/message.go:178-188 `NewRegistrationProof` and 200-210 `NewKeyLookupProof` (same body). -/
def newSingleProof (ap : AuthPath) (str : DirSTR) (tb : Option TB) (e : ErrorCode) : Response :=
  { error := e, resp := .proof { ap := [some ap], str := [some str], tb := tb } }

/-- protocol/message.go:221-231 `NewKeyLookupInEpochProof`. -/
def newKeyLookupInEpochProof (ap : AuthPath) (strs : List DirSTR) (e : ErrorCode) : Response :=
  { error := e, resp := .proof { ap := [some ap], str := strs.map some, tb := none } }

/-- protocol/message.go:241-250 `NewMonitoringProof`. -/
def newMonitoringProof (aps : List AuthPath) (strs : List DirSTR) : Response :=
  { error := ReqSuccess, resp := .proof { ap := aps.map some, str := strs.map some, tb := none } }

/-- protocol/message.go:260-267 `NewSTRHistoryRange`. -/
def newSTRHistoryRange (strs : List (Option DirSTR)) : Response :=
  { error := ReqSuccess, resp := .history strs }

/-- protocol/message.go:271-293 `Validate`: `none` = panic, `some none` = nil error. -/
def Response.validate (msg : Response) : Go (Option ErrorCode) :=
  if errorsSet msg.error then some (some msg.error)
  else
    match msg.resp with
    | .none => some (some ErrMalformedMessage)
    | .nilProof => none
    | .nilHistory => none
    | .proof p => if p.str.length = 0 ∨ p.ap.length = 0 then some (some ErrMalformedMessage) else some none
    | .history strs => if strs.length = 0 then some (some ErrMalformedMessage) else some none
    | .other => none

/-- protocol/message.go:306-308 `GetKey`: always (nil, nil). -/
def Response.getKey (_ : Response) : Option Bytes := none

/-- protocol/message.go:38-43 `RegistrationRequest` (without the two unused flags). -/
structure RegistrationRequest where
  username : Bytes
  key : Bytes
deriving DecidableEq, Inhabited

/-- protocol/message.go:54-56 `KeyLookupRequest`. -/
structure KeyLookupRequest where
  username : Bytes
deriving DecidableEq, Inhabited

/-- protocol/message.go:68-71 `KeyLookupInEpochRequest`. -/
structure KeyLookupInEpochRequest where
  username : Bytes
  epoch : UInt64
deriving DecidableEq, Inhabited

/-- protocol/message.go:92-96 `MonitoringRequest`. -/
structure MonitoringRequest where
  username : Bytes
  startEpoch : UInt64
  endEpoch : UInt64
deriving DecidableEq, Inhabited

/-- protocol/message.go:106-110 `AuditingRequest`. -/
structure AuditingRequest where
  dirInitSTRHash : Arr32
  startEpoch : UInt64
  endEpoch : UInt64
deriving DecidableEq

/-- protocol/message.go:120-123 `STRHistoryRequest`. -/
structure STRHistoryRequest where
  startEpoch : UInt64
  endEpoch : UInt64
deriving DecidableEq, Inhabited

end Coniks

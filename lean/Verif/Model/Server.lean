import Verif.Model.DirectoryOps
/-
Model of `application/server/server.go`, `application/serverbase.go` (permissions, one connection, the read-write lock) and the
request half of `application/encoding.go`.
-/
namespace Coniks

/-- protocol/message.go:24-27: the dynamic type and value of `Request.Request`: a pointer to one of the four request structs, a
nil pointer of one of these types, or anything else. -/
inductive Payload where
  | registration (r : RegistrationRequest)
  | keyLookup (r : KeyLookupRequest)
  | keyLookupInEpoch (r : KeyLookupInEpochRequest)
  | monitoring (r : MonitoringRequest)
  | nilRegistration
  | nilKeyLookup
  | nilKeyLookupInEpoch
  | nilMonitoring
  | other
deriving DecidableEq, Inhabited

/-- protocol/message.go:24-27 `Request`. -/
structure Request where
  type : Int
  payload : Payload
deriving DecidableEq, Inhabited

/-- application/server/server.go:80-101 `HandleRequests`; `rnd` is the randomness available to a registration. A nil pointer of
the matching type passes the type assertion and is dereferenced by the handler. -/
def Directory.handleRequests (C : Crypto) (rnd : Option Bytes) (d : Directory) (req : Request) : Go (Directory × Response) :=
  if req.type = RegistrationType then
    match req.payload with
    | .registration msg => d.register C rnd msg
    | .nilRegistration => none
    | _ => some (d, newErrorResponse ErrMalformedMessage)
  else if req.type = KeyLookupType then
    match req.payload with
    | .keyLookup msg => (d.keyLookup C msg).map fun r => (d, r)
    | .nilKeyLookup => none
    | _ => some (d, newErrorResponse ErrMalformedMessage)
  else if req.type = KeyLookupInEpochType then
    match req.payload with
    | .keyLookupInEpoch msg => (d.keyLookupInEpoch C msg).map fun r => (d, r)
    | .nilKeyLookupInEpoch => none
    | _ => some (d, newErrorResponse ErrMalformedMessage)
  else if req.type = MonitoringType then
    match req.payload with
    | .monitoring msg => (d.monitor C msg).map fun r => (d, r)
    | .nilMonitoring => none
    | _ => some (d, newErrorResponse ErrMalformedMessage)
  else some (d, newErrorResponse ErrMalformedMessage)

/-- The library `encoding/json` as `UnmarshalRequest` uses it (application/encoding.go:24-48): decoding the outer object into the
type and the raw content (empty if the member is missing or null), and decoding the content into a request struct, or, for
`any`, into an empty interface. `none` is a decoding error. The theorems about the server hold for every such decoder; the one of the
Go library is `goJson` (Model/Json/Codec.lean). -/
structure Json where
  Content : Type
  envelope : Bytes → Option (Int × Content)
  registration : Content → Option RegistrationRequest
  keyLookup : Content → Option KeyLookupRequest
  keyLookupInEpoch : Content → Option KeyLookupInEpochRequest
  monitoring : Content → Option MonitoringRequest
  any : Content → Option Unit

/-- application/encoding.go:24-48 `UnmarshalRequest`. -/
def unmarshalRequest (J : Json) (msg : Bytes) : Option Request :=
  (J.envelope msg).bind fun x =>
    if x.1 = RegistrationType then (J.registration x.2).map fun r => ⟨x.1, .registration r⟩
    else if x.1 = KeyLookupType then (J.keyLookup x.2).map fun r => ⟨x.1, .keyLookup r⟩
    else if x.1 = KeyLookupInEpochType then (J.keyLookupInEpoch x.2).map fun r => ⟨x.1, .keyLookupInEpoch r⟩
    else if x.1 = MonitoringType then (J.monitoring x.2).map fun r => ⟨x.1, .monitoring r⟩
    else (J.any x.2).map fun _ => ⟨x.1, .other⟩

/-- application/server/server.go:21-25 `Address`: `ptr` is the identity of the embedded `*ServerAddress` pointer. -/
structure Address where
  ptr : Nat
  allowRegistration : Bool
deriving DecidableEq, Inhabited

/-- application/server/server.go:46-50: the map of one address. -/
def permsOf (a : Address) (t : Int) : Bool :=
  if t = KeyLookupType then true
  else if t = KeyLookupInEpochType then true
  else if t = MonitoringType then true
  else if t = RegistrationType then a.allowRegistration
  else false

/-- application/server/server.go:42-51: the permission map; a later address with the same pointer replaces the map of an earlier
one, and the missing keys of a Go map read as false. -/
def permsMap : List Address → Nat → Int → Bool
  | [] => fun _ _ => false
  | a :: as => fun p t => if as.any (fun b => b.ptr == p) then permsMap as p t else if a.ptr = p then permsOf a t else false

/-- application/serverbase.go:185-193 `checkRequestType`. -/
def checkRequestType (perms : Nat → Int → Bool) (addr : Nat) (t : Int) : Option ErrorCode :=
  if !perms addr t then some ErrMalformedMessage else none

/-- application/encoding.go:110-116 `malformedClientMsg`: whatever the error, the answer is `ErrMalformedMessage`. -/
def malformedClientMsg (_ : Option ErrorCode) : Response := newErrorResponse ErrMalformedMessage

/-- What a connection delivers: the bytes sent, and whether reading ends with an error other than EOF (the 5 second deadline). -/
structure Conn where
  sent : Bytes
  readErr : Bool
deriving DecidableEq, Inhabited

/-- application/serverbase.go:201-206: `io.CopyN(&buf, conn, 8192)`: at most 8192 bytes; an error other than EOF ends the
connection without an answer. -/
def Conn.read (c : Conn) : Option Bytes :=
  if 8192 ≤ c.sent.length then some (c.sent.take 8192) else if c.readErr then none else some c.sent

/-- application/serverbase.go:208-216: what happens before the lock is taken: the request that is passed to the handler, or the
answer (`none` = the connection is closed without one). -/
def screen (J : Json) (perms : Nat → Int → Bool) (addr : Nat) (c : Conn) : Request ⊕ Option Response :=
  match c.read with
  | none => .inr none
  | some buf =>
    match unmarshalRequest J buf with
    | none => .inr (some (malformedClientMsg none))
    | some req =>
      match checkRequestType perms addr req.type with
      | some e => .inr (some (malformedClientMsg (some e)))
      | none => .inl req

/-- application/serverbase.go:195-249 `acceptClient` run on its own: the directory afterwards and the answer that is written to
the connection (as a value; its bytes are `replyBytes`, Model/Wire.lean; `MarshalResponse` cannot fail on a `Response`). -/
def acceptClient (C : Crypto) (J : Json) (perms : Nat → Int → Bool) (rnd : Option Bytes) (d : Directory) (addr : Nat)
    (c : Conn) : Go (Directory × Option Response) :=
  match screen J perms addr c with
  | .inr r => some (d, r)
  | .inl req => (d.handleRequests C rnd req).map fun x => (x.1, some x.2)

/-- `sync.RWMutex` lock modes. -/
inductive LockMode where
  | read
  | write
deriving DecidableEq, Inhabited

/-- application/serverbase.go:218-223: which lock `acceptClient` takes. -/
def lockMode (t : Int) : LockMode :=
  if t = KeyLookupType ∨ t = KeyLookupInEpochType ∨ t = MonitoringType then .read else .write

/-- application/serverbase.go:227-232: which lock `acceptClient` gives back. -/
def unlockMode (t : Int) : LockMode :=
  if t = KeyLookupType ∨ t = KeyLookupInEpochType ∨ t = MonitoringType then .read else .write

end Coniks

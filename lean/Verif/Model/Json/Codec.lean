import Verif.Model.Json.Value
import Verif.Model.Json.Base64
import Verif.Model.Server
/-
The wire format: application/encoding.go and application/client/encoding.go on top of the JSON text of `Value.lean`.

Decoding follows `json.Unmarshal`: a decoder takes the value that is there already and the JSON value (a member that occurs
twice is decoded twice into the same variable), `null` makes a pointer, slice or interface nil and changes nothing else, members
are found by exact name or else by a name that differs only in case, unknown members are ignored. A type mismatch anywhere makes
`json.Unmarshal` return an error; both callers then throw away what was decoded, so here it is `none` for the whole value.

Simplifications: a member that occurs three times with arrays of different lengths may in Go show elements of the first
occurrence again (the capacity of the slice is not modelled); a `json.RawMessage` is kept as the value it parses to.
-/
namespace Coniks.Json

/-! ### Numbers -/

/-- decimal digits; the first argument is a bound on their number -/
def decAux : Nat → Nat → Bytes
  | 0, _ => []
  | f + 1, n => if n < 10 then [UInt8.ofNat (0x30 + n)] else decAux f (n / 10) ++ [UInt8.ofNat (0x30 + n % 10)]

/-- Go `strconv.AppendUint(n, 10)` -/
def decNat (n : Nat) : Bytes := decAux (n + 1) n

/-- Go `strconv.AppendInt(n, 10)` -/
def decInt (n : Int) : Bytes := if n < 0 then 0x2D :: decNat n.natAbs else decNat n.natAbs

/-- the value of decimal digits, none if there is another character or no digit -/
def natOf (s : Bytes) : Option Nat :=
  if s ≠ [] ∧ s.all isDigit then some (s.foldl (fun n b => n * 10 + (b.toNat - 0x30)) 0) else none

/-- Go `strconv.ParseUint` with a range check, on the number literals of JSON -/
def parseUint (bound : Nat) (s : Bytes) : Option Nat := (natOf s).bind fun n => if n < bound then some n else none

/-- Go `strconv.ParseInt(s, 10, 64)`, on the number literals of JSON -/
def parseInt (s : Bytes) : Option Int :=
  match s with
  | 0x2D :: t => (natOf t).bind fun n => if n ≤ 2 ^ 63 then some (-(n : Int)) else none
  | _ => (natOf s).bind fun n => if n < 2 ^ 63 then some (n : Int) else none

/-! ### Field names -/

/-- ASCII text as bytes -/
def ascii (s : String) : Bytes := s.toList.map fun c => UInt8.ofNat c.toNat

/-- Two names that Go's `json` package takes for each other: ASCII letters of either case, U+017F for s, U+212A for k. -/
def foldName : Bytes → Bytes
  | [] => []
  | [a] => [if 0x41 ≤ a ∧ a ≤ 0x5A then a + 0x20 else a]
  | a :: b :: t =>
    if a = 0xC5 ∧ b = 0xBF then 0x73 :: foldName t
    else if a = 0xE2 ∧ b = 0x84 ∧ t.head? = some 0xAA then
      match t with
      | _ :: t => 0x6B :: foldName t
      | [] => []
    else (if 0x41 ≤ a ∧ a ≤ 0x5A then a + 0x20 else a) :: foldName (b :: t)

/-- The field a member belongs to: the exact name, or else the first that differs only in case. -/
def field (names : List Bytes) (key : Bytes) : Option Nat :=
  (names.findIdx? fun n => n == key).or (names.findIdx? fun n => foldName n == foldName key)

/-- one member of an object that is decoded into a struct; unknown members are skipped -/
def memberStep {σ : Type} (names : List Bytes) (f : Nat → σ → JVal → Option σ) (s : σ) (m : Bytes × JVal) : Option σ :=
  match field names m.1 with
  | some i => f i s m.2
  | none => some s

/-- one struct: `null` changes nothing, the members of an object are decoded in order -/
def decStruct {σ : Type} (names : List Bytes) (f : Nat → σ → JVal → Option σ) (s : σ) : JVal → Option σ
  | .null => some s
  | .obj ms => ms.foldlM (memberStep names f) s
  | _ => none

/-- a pointer: `null` makes it nil, otherwise what it points to (a new zero value if it was nil) is decoded -/
def decPtr {α : Type} (zero : α) (dec : α → JVal → Option α) (old : Option α) : JVal → Option (Option α)
  | .null => some none
  | v => (dec (old.getD zero) v).map some

/-- the elements of a slice, decoded into the elements that are there. Simplification: if a field of an object occurs twice, first as a longer and then
as a shorter array and then again as a longer one, Go's decoder reuses the backing array and may find elements of the first array where this model
finds zero values. -/
def decElems {α : Type} (zero : α) (dec : α → JVal → Option α) : List α → List JVal → Option (List α)
  | _, [] => some []
  | old, v :: vs => (dec (old.headD zero) v).bind fun x => (decElems zero dec old.tail vs).map (x :: ·)

/-- a slice (nil and empty are the same list) -/
def decSlice {α : Type} (zero : α) (dec : α → JVal → Option α) (old : List α) : JVal → Option (List α)
  | .null => some []
  | .arr vs => decElems zero dec old vs
  | _ => none

/-- `uint8` -/
def decU8 (old : UInt8) : JVal → Option UInt8
  | .null => some old
  | .num lit => (parseUint 256 lit).map UInt8.ofNat
  | _ => none

/-- `uint32` -/
def decU32 (old : UInt32) : JVal → Option UInt32
  | .null => some old
  | .num lit => (parseUint (2 ^ 32) lit).map UInt32.ofNat
  | _ => none

/-- `uint64` -/
def decU64 (old : UInt64) : JVal → Option UInt64
  | .null => some old
  | .num lit => (parseUint (2 ^ 64) lit).map UInt64.ofNat
  | _ => none

/-- `int` (64 bits) -/
def decInt64 (old : Int) : JVal → Option Int
  | .null => some old
  | .num lit => parseInt lit
  | _ => none

/-- `bool` -/
def decBool (old : Bool) : JVal → Option Bool
  | .null => some old
  | .bool b => some b
  | _ => none

/-- `string` -/
def decStr (old : Bytes) : JVal → Option Bytes
  | .null => some old
  | .str s => some s
  | _ => none

/-- `[]byte`: base64 text, or an array of numbers -/
def decBytes (old : Bytes) : JVal → Option Bytes
  | .null => some []
  | .str s => b64Dec s
  | .arr vs => decElems 0 decU8 old vs
  | _ => none

/-- `[]byte` where nil and empty are told apart -/
def decOptBytes (old : Option Bytes) : JVal → Option (Option Bytes)
  | .null => some none
  | v => (decBytes (old.getD []) v).map some

/-- `[32]byte`: an array of numbers; further elements are ignored, missing ones are 0 -/
def decArr32 (old : Arr32) : JVal → Option Arr32
  | .null => some old
  | .arr vs => (decElems 0 decU8 old.1 (vs.take 32)).map fun xs => ⟨(xs ++ List.replicate 32 0).take 32, by simp⟩
  | _ => none

/-! ### Encoders of the basic types -/

/-- `[]byte`; simplification: Go writes a nil slice as `null`, which decodes to the same -/
def encBytes (b : Bytes) : JVal := .str (b64Enc b)
/-- `[]byte` where nil and empty are told apart -/
def encOptBytes : Option Bytes → JVal
  | none => .null
  | some b => encBytes b
/-- unsigned integers -/
def encNat (n : Nat) : JVal := .num (decNat n)
/-- `int` -/
def encInt (n : Int) : JVal := .num (decInt n)
/-- `[32]byte` -/
def encArr32 (a : Arr32) : JVal := .arr (a.1.map fun b => encNat b.toNat)
/-- pointers -/
def encPtr {α : Type} (enc : α → JVal) : Option α → JVal
  | none => .null
  | some x => enc x
/-- slices; the empty lists the code builds are nil -/
def encSlice {α : Type} (enc : α → JVal) : List α → JVal
  | [] => .null
  | xs => .arr (xs.map enc)

/-! ### The structs -/

/-- crypto/util.go:49-55 `Commit` -/
def encCommit (c : Commit) : JVal := .obj [(ascii "Salt", encBytes c.salt), (ascii "Value", encBytes c.value)]
/-- crypto/util.go:49-55 `Commit` -/
def decCommit : Commit → JVal → Option Commit :=
  decStruct [ascii "Salt", ascii "Value"] fun i c v =>
    if i = 0 then (decBytes c.salt v).map fun x => { c with salt := x }
    else (decBytes c.value v).map fun x => { c with value := x }

/-- merkletree/proof.go:31-37 `ProofNode` -/
def encProofNode (n : ProofNode) : JVal :=
  .obj [(ascii "Level", encNat n.level.toNat), (ascii "Index", encBytes n.index), (ascii "Value", encOptBytes n.value),
    (ascii "IsEmpty", .bool n.isEmpty), (ascii "Commitment", encPtr encCommit n.commitment)]
/-- merkletree/proof.go:31-37 `ProofNode` -/
def decProofNode : ProofNode → JVal → Option ProofNode :=
  decStruct [ascii "Level", ascii "Index", ascii "Value", ascii "IsEmpty", ascii "Commitment"] fun i n v =>
    if i = 0 then (decU32 n.level v).map fun x => { n with level := x }
    else if i = 1 then (decBytes n.index v).map fun x => { n with index := x }
    else if i = 2 then (decOptBytes n.value v).map fun x => { n with value := x }
    else if i = 3 then (decBool n.isEmpty v).map fun x => { n with isEmpty := x }
    else (decPtr ⟨[], []⟩ decCommit n.commitment v).map fun x => { n with commitment := x }

/-- the zero `[32]byte` -/
def zero32 : Arr32 := ⟨List.replicate 32 0, by simp⟩

/-- merkletree/proof.go:76-83 `AuthenticationPath` (the unexported `proofType` is not written) -/
def encAuthPath (a : AuthPath) : JVal :=
  .obj [(ascii "TreeNonce", encBytes a.treeNonce), (ascii "PrunedTree", encSlice encArr32 a.prunedTree),
    (ascii "LookupIndex", encBytes a.lookupIndex), (ascii "VrfProof", encBytes a.vrfProof), (ascii "Leaf", encPtr encProofNode a.leaf)]
/-- merkletree/proof.go:76-83 `AuthenticationPath` -/
def decAuthPath : AuthPath → JVal → Option AuthPath :=
  decStruct [ascii "TreeNonce", ascii "PrunedTree", ascii "LookupIndex", ascii "VrfProof", ascii "Leaf"] fun i a v =>
    if i = 0 then (decBytes a.treeNonce v).map fun x => { a with treeNonce := x }
    else if i = 1 then (decSlice zero32 decArr32 a.prunedTree v).map fun x => { a with prunedTree := x }
    else if i = 2 then (decBytes a.lookupIndex v).map fun x => { a with lookupIndex := x }
    else if i = 3 then (decBytes a.vrfProof v).map fun x => { a with vrfProof := x }
    else (decPtr ⟨0, [], none, false, none⟩ decProofNode a.leaf v).map fun x => { a with leaf := x }

/-- protocol/policy.go:17-22 `Policies` -/
def encPolicies (p : Policies) : JVal :=
  .obj [(ascii "Version", .str p.version), (ascii "HashID", .str p.hashID), (ascii "VrfPublicKey", encBytes p.vrfPublicKey),
    (ascii "EpochDeadline", encNat p.epochDeadline.toNat)]
/-- protocol/policy.go:17-22 `Policies` -/
def decPolicies : Policies → JVal → Option Policies :=
  decStruct [ascii "Version", ascii "HashID", ascii "VrfPublicKey", ascii "EpochDeadline"] fun i p v =>
    if i = 0 then (decStr p.version v).map fun x => { p with version := x }
    else if i = 1 then (decStr p.hashID v).map fun x => { p with hashID := x }
    else if i = 2 then (decBytes p.vrfPublicKey v).map fun x => { p with vrfPublicKey := x }
    else (decU64 p.epochDeadline v).map fun x => { p with epochDeadline := x }

/-- protocol/str.go:7-10 `DirSTR` as it comes from the wire: the embedded `*SignedTreeRoot` is nil if none of its fields occurred. -/
structure WireSTR where
  root : Option STRCore
  policies : Option Policies
deriving DecidableEq, Inhabited

/-- protocol/str.go:7-10 `DirSTR`; merkletree/str.go:23-31: `tree` is unexported and `Ad` has the tag `json:"-"` -/
def encSTR (s : DirSTR) : JVal :=
  .obj [(ascii "TreeHash", encBytes s.core.treeHash), (ascii "Epoch", encNat s.core.epoch.toNat),
    (ascii "PreviousEpoch", encNat s.core.previousEpoch.toNat), (ascii "PreviousSTRHash", encBytes s.core.previousSTRHash),
    (ascii "Signature", encBytes s.core.signature), (ascii "Policies", encPtr encPolicies s.policies)]
/-- one field of the embedded `*SignedTreeRoot`, which is allocated if it is nil (merkletree/str.go:23-31) -/
def decRoot (i : Nat) (r : STRCore) (v : JVal) : Option STRCore :=
  if i = 0 then (decBytes r.treeHash v).map fun x => { r with treeHash := x }
  else if i = 1 then (decU64 r.epoch v).map fun x => { r with epoch := x }
  else if i = 2 then (decU64 r.previousEpoch v).map fun x => { r with previousEpoch := x }
  else if i = 3 then (decBytes r.previousSTRHash v).map fun x => { r with previousSTRHash := x }
  else (decBytes r.signature v).map fun x => { r with signature := x }
/-- protocol/str.go:7-10 `DirSTR` -/
def decSTR : WireSTR → JVal → Option WireSTR :=
  decStruct [ascii "TreeHash", ascii "Epoch", ascii "PreviousEpoch", ascii "PreviousSTRHash", ascii "Signature", ascii "Policies"]
    fun i s v =>
      if i < 5 then (decRoot i (s.root.getD ⟨[], 0, 0, [], []⟩) v).map fun x => { s with root := some x }
      else (decPtr ⟨[], [], [], 0⟩ decPolicies s.policies v).map fun x => { s with policies := x }

/-- protocol/tb.go:17-21 `TemporaryBinding` -/
def encTB (t : TB) : JVal :=
  .obj [(ascii "Index", encBytes t.index), (ascii "Value", encBytes t.value), (ascii "Signature", encBytes t.signature)]
/-- protocol/tb.go:17-21 `TemporaryBinding` -/
def decTB : TB → JVal → Option TB :=
  decStruct [ascii "Index", ascii "Value", ascii "Signature"] fun i t v =>
    if i = 0 then (decBytes t.index v).map fun x => { t with index := x }
    else if i = 1 then (decBytes t.value v).map fun x => { t with value := x }
    else (decBytes t.signature v).map fun x => { t with signature := x }

/-- protocol/message.go:142-146 `DirectoryProof` as it comes from the wire -/
structure WireProof where
  ap : List (Option AuthPath)
  str : List (Option WireSTR)
  tb : Option TB
deriving DecidableEq, Inhabited

/-- protocol/message.go:142-146 `DirectoryProof`; the TB has the tag `omitempty` -/
def encProof (p : DirectoryProof) : JVal :=
  .obj ([(ascii "AP", encSlice (encPtr encAuthPath) p.ap), (ascii "STR", encSlice (encPtr encSTR) p.str)] ++
    match p.tb with
    | none => []
    | some t => [(ascii "TB", encTB t)])
/-- protocol/message.go:142-146 `DirectoryProof` -/
def decProof : WireProof → JVal → Option WireProof :=
  decStruct [ascii "AP", ascii "STR", ascii "TB"] fun i p v =>
    if i = 0 then (decSlice none (decPtr ⟨[], [], [], [], none⟩ decAuthPath) p.ap v).map fun x => { p with ap := x }
    else if i = 1 then (decSlice none (decPtr ⟨none, none⟩ decSTR) p.str v).map fun x => { p with str := x }
    else (decPtr ⟨[], [], []⟩ decTB p.tb v).map fun x => { p with tb := x }

/-- protocol/message.go:154-156 `STRHistoryRange` -/
def encHistory (strs : List (Option DirSTR)) : JVal := .obj [(ascii "STR", encSlice (encPtr encSTR) strs)]
/-- protocol/message.go:154-156 `STRHistoryRange` -/
def decHistory : List (Option WireSTR) → JVal → Option (List (Option WireSTR)) :=
  decStruct [ascii "STR"] fun _ l v => decSlice none (decPtr ⟨none, none⟩ decSTR) l v

/-! ### Responses -/

/-- application/encoding.go:51-53 `MarshalResponse`; protocol/message.go:128-131: a nil interface is omitted, a nil pointer is
written as `null`. (`other` stands for values no code of this repository builds.) -/
def encResponse (r : Response) : JVal :=
  .obj ((ascii "Error", encInt r.error) ::
    match r.resp with
    | .none => []
    | .nilProof => [(ascii "DirectoryResponse", .null)]
    | .nilHistory => [(ascii "DirectoryResponse", .null)]
    | .proof p => [(ascii "DirectoryResponse", encProof p)]
    | .history l => [(ascii "DirectoryResponse", encHistory l)]
    | .other => [(ascii "DirectoryResponse", .null)])

/-- application/encoding.go:51-53 `MarshalResponse` -/
def marshalResponse (r : Response) : Bytes := (encResponse r).print

/-- What `UnmarshalResponse` puts into `Response.DirectoryResponse` (application/encoding.go:58-108). -/
inductive WireBody where
  | none
  | nilProof
  | nilHistory
  | proof (p : WireProof)
  | history (l : List (Option WireSTR))
deriving DecidableEq, Inhabited

/-- protocol/message.go:128-131 `Response` as it comes from the wire -/
structure WireResponse where
  error : ErrorCode
  body : WireBody
deriving DecidableEq, Inhabited

/-- application/encoding.go:59-62: the local struct `Response`: the error code and the raw body (`none` = nil `RawMessage`, that is
no such member) -/
def decEnvelope : Int × Option JVal → JVal → Option (Int × Option JVal) :=
  decStruct [ascii "Error", ascii "DirectoryResponse"] fun i e v =>
    if i = 0 then (decInt64 e.1 v).map fun x => (x, e.2) else some (e.1, some v)

/-- application/encoding.go:58-108 `UnmarshalResponse`; `none` = the explicit panic on an unknown request type. -/
def unmarshalResponse (t : Int) (msg : Bytes) : Go WireResponse :=
  match (parse msg).bind (decEnvelope (0, none)) with
  | none => some ⟨ErrMalformedMessage, .none⟩
  | some (e, none) => some ⟨if errorsSet e then e else ErrMalformedMessage, .none⟩
  | some (e, some v) =>
    if t = RegistrationType ∨ t = KeyLookupType ∨ t = KeyLookupInEpochType ∨ t = MonitoringType then
      match decPtr ⟨[], [], none⟩ decProof (some ⟨[], [], none⟩) v with
      | none => some ⟨ErrMalformedMessage, .none⟩
      | some none => some ⟨e, .nilProof⟩
      | some (some p) => some ⟨e, .proof p⟩
    else if t = STRType then
      match decPtr [] decHistory (some []) v with
      | none => some ⟨ErrMalformedMessage, .none⟩
      | some none => some ⟨e, .nilHistory⟩
      | some (some l) => some ⟨e, .history l⟩
    else none

/-- protocol/str.go:7-10: a `DirSTR` whose embedded pointer is not nil -/
def WireSTR.toDir (s : WireSTR) : Option DirSTR := s.root.map fun r => ⟨r, s.policies⟩

/-- The response as `Client.handleResponse` (Model/Client.lean) takes it. A `DirSTR` without embedded `*SignedTreeRoot` becomes a nil
pointer: `HandleResponse` (protocol/client/consistencychecks.go:102-127) panics on both at the first access to `STR[0]`, and looks
at no other STR. This conversion is used for `HandleResponse` only. -/
def WireResponse.toResponse (w : WireResponse) : Response :=
  { error := w.error
    resp :=
      match w.body with
      | .none => .none
      | .nilProof => .nilProof
      | .nilHistory => .nilHistory
      | .proof p => .proof ⟨p.ap, p.str.map fun s => s.bind WireSTR.toDir, p.tb⟩
      | .history l => .history (l.map fun s => s.bind WireSTR.toDir) }

/-! ### Requests -/

/-- application/encoding.go:14-20 `MarshalRequest`, protocol/message.go:24-27 -/
def encRequest (t : Int) (content : JVal) : JVal := .obj [(ascii "Type", encInt t), (ascii "Request", content)]

/-- protocol/message.go:38-43 `RegistrationRequest`; the two flags have the tag `omitempty` and the clients leave them false -/
def encRegistration (name : Bytes) (key : Option Bytes) : JVal := .obj [(ascii "Username", .str name), (ascii "Key", encOptBytes key)]

/-- application/client/encoding.go:10-16 `CreateRegistrationMsg` -/
def createRegistrationMsg (name : Bytes) (key : Option Bytes) : Bytes :=
  (encRequest RegistrationType (encRegistration name key)).print

/-- application/client/encoding.go:20-25 `CreateKeyLookupMsg` (it marshals a `RegistrationRequest` without a key) -/
def createKeyLookupMsg (name : Bytes) : Bytes := (encRequest KeyLookupType (encRegistration name none)).print

/-- protocol/message.go:68-71 `KeyLookupInEpochRequest` passed to `MarshalRequest` (application/encoding.go:14-20) -/
def keyLookupInEpochMsg (r : KeyLookupInEpochRequest) : Bytes :=
  (encRequest KeyLookupInEpochType (.obj [(ascii "Username", .str r.username), (ascii "Epoch", encNat r.epoch.toNat)])).print

/-- protocol/message.go:92-96 `MonitoringRequest` passed to `MarshalRequest` (application/encoding.go:14-20) -/
def monitoringMsg (r : MonitoringRequest) : Bytes :=
  (encRequest MonitoringType (.obj [(ascii "Username", .str r.username), (ascii "StartEpoch", encNat r.startEpoch.toNat),
    (ascii "EndEpoch", encNat r.endEpoch.toNat)])).print

/-- protocol/message.go:38-43 `RegistrationRequest`: the flags are decoded but never used -/
def decRegistration : RegistrationRequest → JVal → Option RegistrationRequest :=
  decStruct [ascii "Username", ascii "Key", ascii "AllowUnsignedKeychange", ascii "AllowPublicLookup"] fun i r v =>
    if i = 0 then (decStr r.username v).map fun x => { r with username := x }
    else if i = 1 then (decBytes r.key v).map fun x => { r with key := x }
    else (decBool false v).map fun _ => r
/-- protocol/message.go:54-56 `KeyLookupRequest` -/
def decKeyLookup : KeyLookupRequest → JVal → Option KeyLookupRequest :=
  decStruct [ascii "Username"] fun _ r v => (decStr r.username v).map fun x => { r with username := x }
/-- protocol/message.go:68-71 `KeyLookupInEpochRequest` -/
def decKeyLookupInEpoch : KeyLookupInEpochRequest → JVal → Option KeyLookupInEpochRequest :=
  decStruct [ascii "Username", ascii "Epoch"] fun i r v =>
    if i = 0 then (decStr r.username v).map fun x => { r with username := x }
    else (decU64 r.epoch v).map fun x => { r with epoch := x }
/-- protocol/message.go:92-96 `MonitoringRequest` -/
def decMonitoring : MonitoringRequest → JVal → Option MonitoringRequest :=
  decStruct [ascii "Username", ascii "StartEpoch", ascii "EndEpoch"] fun i r v =>
    if i = 0 then (decStr r.username v).map fun x => { r with username := x }
    else if i = 1 then (decU64 r.startEpoch v).map fun x => { r with startEpoch := x }
    else (decU64 r.endEpoch v).map fun x => { r with endEpoch := x }

/-- application/encoding.go:25-31: the variable `req` while it is decoded: the type, the content, and whether the interface still
holds the pointer to `content` (a `null` replaces it by nil for good) -/
structure ReqState where
  type : Int
  content : Option JVal
  linked : Bool

/-- application/encoding.go:25-31 -/
def decReqState : ReqState → JVal → Option ReqState :=
  decStruct [ascii "Type", ascii "Request"] fun i r v =>
    if i = 0 then (decInt64 r.type v).map fun x => { r with type := x }
    else
      match v with
      | .null => some { r with linked := false }
      | v => some (if r.linked then { r with content := some v } else r)

/-- `encoding/json` as `UnmarshalRequest` (application/encoding.go:24-48) uses it. Unmarshalling the empty content is an error. A
nil pointer in the interface cannot arise: the content is not `null`. Simplification: decoding into an empty interface
(a second `Request` member after a `null`, or an unknown type) is taken to succeed; in Go a number above the range of float64 makes
it fail, and the server's answer is `ErrMalformedMessage` in both cases. -/
def goJson : Coniks.Json where
  Content := Option JVal
  envelope msg := ((parse msg).bind (decReqState ⟨0, none, true⟩)).map fun r => (r.type, r.content)
  registration c := c.bind (decRegistration ⟨[], []⟩)
  keyLookup c := c.bind (decKeyLookup ⟨[]⟩)
  keyLookupInEpoch c := c.bind (decKeyLookupInEpoch ⟨[], 0⟩)
  monitoring c := c.bind (decMonitoring ⟨[], 0, 0⟩)
  any c := c.map fun _ => ()

end Coniks.Json

import Verif.Model.DirectoryOps
import Verif.Spec.Bits
/-
The abstract directory: a committed and a pending name-to-key map, and the committed map of every past epoch.
-/
namespace Coniks.Spec
open Coniks

structure AbsDir where
  /-- what the latest snapshot holds -/
  committed : Bytes → Option Bytes
  /-- registered since the latest snapshot -/
  pending : Bytes → Option Bytes
  /-- the committed map of epoch 0, 1, ..., latest -/
  past : List (Bytes → Option Bytes)

/-- committed or pending -/
def AbsDir.merged (A : AbsDir) (n : Bytes) : Option Bytes :=
  match A.pending n with
  | some v => some v
  | none => A.committed n

def AbsDir.init : AbsDir := { committed := fun _ => none, pending := fun _ => none, past := [fun _ => none] }

/-- A new name is pending with its key. -/
def AbsDir.add (A : AbsDir) (n k : Bytes) : AbsDir :=
  { A with pending := fun x => if x = n then some k else A.pending x }

/-- A new epoch: what was pending is committed. -/
def AbsDir.nextEpoch (A : AbsDir) : AbsDir :=
  { committed := A.merged, pending := fun _ => none, past := A.past ++ [A.merged] }

/-- Effect of a call: a registration adds a name iff it is well-formed, the name is new and randomness is available. -/
def AbsDir.step (A : AbsDir) : DirOp → AbsDir
  | .register rnd req =>
    if req.username ≠ [] ∧ req.key ≠ [] ∧ A.merged req.username = none ∧ rnd.isSome = true then
      A.add req.username req.key
    else A
  | .update => A.nextEpoch
  | _ => A

def absAfter (ops : List DirOp) : AbsDir := ops.foldl AbsDir.step AbsDir.init

/-- Status code, key shown by the tree, key promised, for a registration. -/
def AbsDir.registerAnswer (A : AbsDir) (rnd : Option Bytes) (n k : Bytes) : ErrorCode × Option Bytes × Option Bytes :=
  if n = [] ∨ k = [] then (ErrMalformedMessage, none, none)
  else match A.committed n with
    | some v => (ReqNameExisted, some v, none)
    | none => match A.pending n with
      | some v => (ReqNameExisted, none, some v)
      | none => if rnd.isSome then (ReqSuccess, none, some k) else (ErrDirectory, none, none)

/-- Status code, key shown by the tree, key promised, for a lookup. -/
def AbsDir.lookupAnswer (A : AbsDir) (n : Bytes) : ErrorCode × Option Bytes × Option Bytes :=
  if n = [] then (ErrMalformedMessage, none, none)
  else match A.committed n with
    | some v => (ReqSuccess, some v, none)
    | none => match A.pending n with
      | some v => (ReqSuccess, none, some v)
      | none => (ReqNameNotFound, none, none)

/-- The names in the registration requests of a history. -/
def regNames : List DirOp → List Bytes
  | [] => []
  | .register _ req :: ops => req.username :: regNames ops
  | _ :: ops => regNames ops

/-- Number of `Update` calls. -/
def dirUpdates : List DirOp → Nat
  | [] => 0
  | .update :: ops => dirUpdates ops + 1
  | _ :: ops => dirUpdates ops

/-- Different names of the list have different indices. -/
def IndexInj (idx : Bytes → Bytes) (names : List Bytes) : Prop :=
  ∀ a ∈ names, ∀ b ∈ names, idx a = idx b → a = b

/-- Different names of the list have indices that differ in their first 248 bits. -/
def IndexSpread (idx : Bytes → Bytes) (names : List Bytes) : Prop :=
  ∀ a ∈ names, ∀ b ∈ names, a ≠ b → (bitsOf (idx a)).take 248 ≠ (bitsOf (idx b)).take 248

instance (idx : Bytes → Bytes) (names : List Bytes) : Decidable (IndexInj idx names) := by unfold IndexInj; infer_instance
instance (idx : Bytes → Bytes) (names : List Bytes) : Decidable (IndexSpread idx names) := by
  unfold IndexSpread; infer_instance

/-- The proof shows, under the tree hash `th`, that `name` is bound to `key` (or to nothing when `key = none`). -/
structure ProofShows (C : Crypto) (vk name th : Bytes) (ap : AuthPath) (key : Option Bytes) : Prop where
  index : ap.lookupIndex = (C.vrfProve vk name).1
  vrf : ap.vrfProof = (C.vrfProve vk name).2
  type : ap.proofType = some (if key.isSome then .inclusion else .absence)
  value : ∃ l, ap.leaf = some l ∧ l.value = key
  verifies : ∀ v, (key = some v ∨ key = none) → ap.verify C name v th = some (.ok ())

/-- A promise of the directory with signing key `sk` for `name` and `key`, tied to an STR by its signature. -/
def promise (C : Crypto) (sk vk strSig name key : Bytes) : TB :=
  { index := (C.vrfProve vk name).1, value := key,
    signature := C.sign sk (strSig ++ (C.vrfProve vk name).1 ++ key) }

/-- The answer carries one proof for `name`, the STR `str`, status `code`; the proof shows `inTree`, the promise is `promised`. -/
def Shows (C : Crypto) (sk vk name : Bytes) (str : DirSTR) (resp : Response)
    (a : ErrorCode × Option Bytes × Option Bytes) : Prop :=
  ∃ ap, resp = ⟨a.1, .proof ⟨[some ap], [some str], a.2.2.map (promise C sk vk str.core.signature name)⟩⟩ ∧
    ProofShows C vk name str.core.treeHash ap a.2.1

/-- The answer is the bare status for errors, else as in `Shows`. -/
def Answers (C : Crypto) (sk vk name : Bytes) (str : DirSTR) (resp : Response)
    (a : ErrorCode × Option Bytes × Option Bytes) : Prop :=
  if a.1 = ErrMalformedMessage ∨ a.1 = ErrDirectory then resp = { error := a.1, resp := .none }
  else Shows C sk vk name str resp a

/-- The keys an answer shows: the values in the leaves of its proofs and the value of its promise. -/
def keysShown (r : Response) : List Bytes :=
  match r.resp with
  | .proof p => (((p.ap.filterMap id).filterMap fun ap => ap.leaf).filterMap fun l => l.value) ++ p.tb.toList.map fun tb => tb.value
  | _ => []

/-- The name a request is about. -/
def reqName : DirOp → Option Bytes
  | .register _ req => some req.username
  | .keyLookup req => some req.username
  | .keyLookupInEpoch req => some req.username
  | .monitor req => some req.username
  | _ => none

/-- The deadline of the last `SetPolicies` of a history, or the initial one. -/
def lastDeadline (t0 : UInt64) : List DirOp → UInt64
  | [] => t0
  | .setPolicies t :: ops => lastDeadline t ops
  | _ :: ops => lastDeadline t0 ops

end Coniks.Spec

import Verif.Model.Refs
import Verif.Spec.Server
import Verif.Spec.Linear
/-
What an answer held by pointers should be: the answer a directory without shared memory gave at the time of the call.
-/
namespace Coniks.Spec
open Coniks

/-- The memory before anything was allocated. -/
def emptyMem : Mem := ⟨[], [], [], []⟩

/-- The calls of a history with the contents the key slices had at the time of the call; `bufs` are the slices made so far. -/
def plainCalls : List Bytes → List ROp → List DirOp
  | _, [] => []
  | bufs, .buffer b :: ops => plainCalls (bufs ++ [b]) ops
  | bufs, .write a b :: ops => plainCalls (bufs.set a b) ops
  | bufs, .register rnd n k :: ops => .register rnd ⟨n, (bufs[k]?).getD []⟩ :: plainCalls bufs ops
  | bufs, .keyLookup r :: ops => .keyLookup r :: plainCalls bufs ops
  | bufs, .keyLookupInEpoch r :: ops => .keyLookupInEpoch r :: plainCalls bufs ops
  | bufs, .monitor r :: ops => .monitor r :: plainCalls bufs ops
  | bufs, .getSTRHistory r :: ops => .getSTRHistory r :: plainCalls bufs ops
  | bufs, .update :: ops => .update :: plainCalls bufs ops
  | bufs, .setPolicies t :: ops => .setPolicies t :: plainCalls bufs ops

/-- The answers of a directory whose data are values, in order (`none`: a call panicked). -/
def valueAnswers (C : Crypto) : Directory → List DirOp → Go (List Response)
  | _, [] => some []
  | d, op :: ops => (d.step C op).bind fun x => (valueAnswers C x.1 ops).map fun rs => x.2.toList ++ rs

/-- Every registration is given a slice that exists; `n` slices have been made so far. -/
def KeysExist : Nat → List ROp → Prop
  | _, [] => True
  | n, .buffer _ :: ops => KeysExist (n + 1) ops
  | n, .register _ _ k :: ops => k < n ∧ KeysExist n ops
  | n, _ :: ops => KeysExist n ops

/-- Nobody writes to a slice after it was made. -/
def NoWrites (ops : List ROp) : Prop := ∀ op ∈ ops, ∀ a b, op ≠ .write a b

/-- Read all the answers in the memory `m`. -/
def readAll (m : Mem) : List RResponse → Go (List Response)
  | [] => some []
  | r :: rs =>
    match r.read m, readAll m rs with
    | some v, some vs => some (v :: vs)
    | _, _ => none

/-- An answer with the temporary binding changed by `f`. -/
def mapTB (f : TB → TB) (r : Response) : Response :=
  match r.resp with
  | .proof p => { r with resp := .proof { p with tb := p.tb.map f } }
  | _ => r

/-- An answer without the key in its temporary binding. -/
def hideKey : Response → Response := mapTB fun t => { t with value := [] }

/-- `m'` is `m` with more cells allocated. -/
def Grew (m m' : Mem) : Prop := m.pols <+: m'.pols ∧ m.strs <+: m'.strs ∧ m.tbs <+: m'.tbs ∧ m.bufs <+: m'.bufs

/-- Every step of the code leaves the cells that exist as they are. -/
def AllocatesOnly {ρ : Type} : Prog RDir ρ → Prop
  | .ret _ => True
  | .act w n => (∀ d, Grew d.mem (w d).mem) ∧ ∀ d, AllocatesOnly (n d)

/-- Reading the result of a section. -/
def readResult (m : Mem) : Option RResponse → Go (Option Response)
  | none => some none
  | some r => (r.read m).map some

end Coniks.Spec

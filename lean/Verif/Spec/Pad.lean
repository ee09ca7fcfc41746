import Verif.Model.PadOps
import Verif.Model.TreeOps
/-
Vocabulary for histories of a PAD.
-/
namespace Coniks.Spec
open Coniks

/-- Number of `Update` calls in a history. -/
def numUpdates : List PadOp → Nat
  | [] => 0
  | .update _ :: ops => numUpdates ops + 1
  | .set .. :: ops => numUpdates ops

/-- What a history does to the tree when name `k` is stored under index `idx k`. -/
def treeOpsOf (idx : Bytes → Bytes) : List PadOp → List TreeOp
  | [] => []
  | .set r k v :: ops => .set r (idx k) k v :: treeOpsOf idx ops
  | .update _ :: ops => .recompute :: treeOpsOf idx ops

/-- The value of the last successful `Set` of a name. -/
def lastValue (k : Bytes) : List PadOp → Option Bytes
  | [] => none
  | op :: ops =>
    match lastValue k ops with
    | some v => some v
    | none =>
      match op with
      | .set (some _) k' v => if k' = k then some v else none
      | _ => none

/-- The names of successful `Set`s. -/
def IsNamed (k : Bytes) (ops : List PadOp) : Prop := ∃ r v, PadOp.set (some r) k v ∈ ops

end Coniks.Spec

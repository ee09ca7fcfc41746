import Verif.Model.Heap
/-
Trees as values: what a sequence of calls would do if trees shared no memory.
-/
namespace Coniks.Spec
open Coniks

/-- The effect of a call on a list of trees that are independent values. -/
def valueStep (C : Crypto) (ts : List MerkleTree) : WOp → Go (List MerkleTree)
  | .new rnd =>
    match newMerkleTree C rnd with
    | none => some ts
    | some t => some (ts ++ [t])
  | .set i rnd index key value =>
    match ts[i]? with
    | none => none
    | some t => (t.set C rnd index key value).map fun p => ts.set i p.1
  | .recompute i => (ts[i]?).map fun t => ts.set i (t.recomputeHash C)
  | .clone i => (ts[i]?).map fun t => ts ++ [t.clone]

/-- A sequence of calls on values. -/
def valueRun (C : Crypto) (ts : List MerkleTree) : List WOp → Go (List MerkleTree)
  | [] => some ts
  | op :: ops => (valueStep C ts op).bind fun ts' => valueRun C ts' ops

/-- The call changes tree `i`. -/
def Touches (i : Nat) : WOp → Prop
  | .new _ => False
  | .set j .. => j = i
  | .recompute j => j = i
  | .clone _ => False

/-- The memory with no trees. -/
def emptyWorld : HWorld := ⟨[], []⟩

end Coniks.Spec

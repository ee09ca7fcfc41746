import Verif.Model.Proof
import Verif.Spec.Tree
/-
Histories of operations on one tree.
-/
namespace Coniks

/-- One call on a tree: `Set` (merkletree.go:130-143) with the randomness it draws, or
`recomputeHash` (merkletree.go:242-244). -/
inductive TreeOp where
  | set (rnd : Option Bytes) (index key value : Bytes)
  | recompute
deriving DecidableEq

/-- The effect of one call (`none`: panic). A failed `Set` leaves the tree as it is. -/
def MerkleTree.step (C : Crypto) (m : MerkleTree) : TreeOp → Go MerkleTree
  | .set rnd index key value => (m.set C rnd index key value).map Prod.fst
  | .recompute => some (m.recomputeHash C)

/-- A sequence of calls. -/
def MerkleTree.run (C : Crypto) (m : MerkleTree) : List TreeOp → Go MerkleTree
  | [] => some m
  | op :: ops => (m.step C op).bind fun m' => m'.run C ops

/-- The tree reached by a history that starts with a new tree (merkletree.go:39-50) whose nonce is drawn from `rnd`. -/
def treeAfter (C : Crypto) (rnd : Bytes) (ops : List TreeOp) : Go MerkleTree :=
  (newMerkleTree C (some rnd)).bind fun m => m.run C ops

end Coniks

namespace Coniks.Spec

/-- Effect of an operation on the abstract set of bindings: a `Set` whose randomness was available puts a
binding with salt `hash rnd` and commitment `hash (salt ‖ key ‖ value)`. -/
def bindStep (hash : Bytes → Bytes) (bs : List Binding) : TreeOp → List Binding
  | .set (some r) i k v => put ⟨i, k, v, hash r, hash (hash r ++ k ++ v)⟩ bs
  | .set none _ _ _ => bs
  | .recompute => bs

/-- The set of bindings after a history, starting with the empty tree. -/
def bindRun (hash : Bytes → Bytes) (ops : List TreeOp) : List Binding := ops.foldl (bindStep hash) []

/-- Randomness, key and value of the last successful `Set` of index `i` in a history. -/
def lastSet (i : Bytes) : List TreeOp → Option (Bytes × Bytes × Bytes)
  | [] => none
  | op :: ops =>
    match lastSet i ops with
    | some x => some x
    | none =>
      match op with
      | .set (some r) j k v => if j = i then some (r, k, v) else none
      | _ => none

/-- All indices set in the history have `n` bytes. -/
def IndexLen (n : Nat) (ops : List TreeOp) : Prop :=
  ∀ op ∈ ops, ∀ r i k v, op = .set r i k v → i.length = n

/-- The index of some successful `Set`. -/
def IsSet (i : Bytes) (ops : List TreeOp) : Prop := ∃ r k v, TreeOp.set (some r) i k v ∈ ops

/-- Distinct indices set in the history differ somewhere in their first `d` bits. -/
def Spread (d : Nat) (ops : List TreeOp) : Prop :=
  ∀ i j, IsSet i ops → IsSet j ops → i ≠ j → (bitsOf i).take d ≠ (bitsOf j).take d

end Coniks.Spec

import Verif.Model.Proof
import Verif.Spec.Bits
/-
Vocabulary for soundness statements: which byte strings are hashed when a proof is checked, what it means that the hash has no
collision among listed inputs, and what a well-shaped proof is.
-/
namespace Coniks.Spec
open Coniks

/-- The hash has no collision among the listed inputs. -/
def NoCollision (hash : Bytes → Bytes) (inputs : List Bytes) : Prop :=
  ∀ a ∈ inputs, ∀ b ∈ inputs, hash a = hash b → a = b

instance (hash : Bytes → Bytes) (inputs : List Bytes) : Decidable (NoCollision hash inputs) := by
  unfold NoCollision; infer_instance

/-- The bytes hashed for the leaf of a proof: tag, nonce, index, level, and (user leaf) the commitment. -/
def leafInput (nonce : Bytes) (l : ProofNode) : Bytes :=
  if l.isEmpty then [0x45] ++ nonce ++ l.index ++ uint32ToBytes l.level
  else [0x4C] ++ nonce ++ l.index ++ uint32ToBytes l.level ++ (l.commitment.map Commit.value).getD []

/-- The bytes hashed at the levels above: the running hash `h` joined with its sibling at each depth, deepest first. -/
def stepInputs (hash : Bytes → Bytes) (bits : List Bool) (siblings : List Bytes) : Nat → Bytes → List Bytes
  | 0, _ => []
  | d + 1, h =>
    let x := if bits.getD d false then siblings.getD d [] ++ h else h ++ siblings.getD d []
    x :: stepInputs hash bits siblings d (hash x)

/-- Everything hashed while the tree hash of a proof is recomputed. -/
def hashInputs (hash : Bytes → Bytes) (ap : AuthPath) : List Bytes :=
  match ap.leaf with
  | none => []
  | some l =>
    leafInput ap.treeNonce l ::
      stepInputs hash (bitsOf l.index) (ap.prunedTree.map Subtype.val) l.level.toNat (hash (leafInput ap.treeNonce l))

/-- The bytes hashed to open the commitment of a proof for (key, value). -/
def openInput (ap : AuthPath) (key value : Bytes) : Bytes :=
  ((ap.leaf.bind ProofNode.commitment).map Commit.salt).getD [] ++ key ++ value

/-- The lengths and flags every proof made by the tree code has, none of which `Verify` checks:
32-byte nonce, 32-byte leaf index and commitment, an empty branch is never the leaf of a proof of inclusion and its index has
just enough bytes for its level, the salt of an opened commitment has 32 bytes. -/
structure WellShaped (ap : AuthPath) : Prop where
  nonce : ap.treeNonce.length = 32
  user : ∀ l, ap.leaf = some l → l.isEmpty = false → l.index.length = 32 ∧ ∀ c, l.commitment = some c → c.value.length = 32
  empty : ∀ l, ap.leaf = some l → l.isEmpty = true → l.index.length = (l.level.toNat + 7) / 8 ∧ l.index ≠ ap.lookupIndex
  salt : ∀ l, ap.leaf = some l → l.index = ap.lookupIndex → ∀ c, l.commitment = some c → c.salt.length = 32

/-- The leaf is not an empty branch at a level where its hash input has 64 bytes like that of an interior node. -/
def NotConfusable (ap : AuthPath) : Prop :=
  ∀ l, ap.leaf = some l → l.isEmpty = true → ¬ (209 ≤ l.level.toNat ∧ l.level.toNat ≤ 216)

end Coniks.Spec

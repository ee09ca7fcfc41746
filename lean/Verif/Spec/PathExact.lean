import Verif.Spec.Paths
/-
When a path is accepted, in terms of another path accepted under the same tree hash.
-/
namespace Coniks.Spec
open Coniks

/-- Both byte strings have at least `n` bits and their first `n` bits are the same. -/
def SharePrefix (n : Nat) (a b : Bytes) : Prop :=
  ∀ j, j < n → ∃ x, (bitsOf a)[j]? = some x ∧ (bitsOf b)[j]? = some x

/-- What can be said about a path with leaf `l` without knowing the tree: a leaf not flagged empty has a commitment; if the leaf
is at the looked-up index, it holds the value and its commitment opens to (key, value); if it is at another index, it shows no
value and shares with the looked-up index as many bits as its level says. -/
def OwnChecks (hash : Bytes → Bytes) (ap : AuthPath) (l : ProofNode) (key value : Bytes) : Prop :=
  (l.isEmpty = false → l.commitment ≠ none) ∧
  ((l.index = ap.lookupIndex ∧ l.value.getD [] = value ∧
      ∃ c, l.commitment = some c ∧ c.value = hash (c.salt ++ key ++ value)) ∨
   (l.index ≠ ap.lookupIndex ∧ l.value = none ∧ SharePrefix l.level.toNat l.index ap.lookupIndex))

/-- The path `ap` with leaf `l` is the upper part of the path `ap'` with leaf `l'`: what it hashes for its leaf is what `ap'`
hashes at that level, and it has the same siblings above that. (`hashInputs` of a path lists what is hashed from the leaf up, so
the entry for level `n` is the entry number `l'.level - n`.) -/
def UpperPart (hash : Bytes → Bytes) (ap : AuthPath) (l : ProofNode) (ap' : AuthPath) (l' : ProofNode) : Prop :=
  l.level.toNat ≤ l'.level.toNat ∧
  (hashInputs hash ap')[l'.level.toNat - l.level.toNat]? = some (leafInput ap.treeNonce l) ∧
  ∀ j, j < l.level.toNat → ap.prunedTree[j]? = ap'.prunedTree[j]?

/-- The path has a sibling and the leaf index has a bit for every level. -/
def LongEnough (ap : AuthPath) (l : ProofNode) : Prop :=
  l.level.toNat ≤ ap.prunedTree.length ∧ l.level.toNat ≤ 8 * l.index.length

end Coniks.Spec

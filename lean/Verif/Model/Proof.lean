import Verif.Model.Tree
/-
Model of `merkletree/proof.go`.
-/
namespace Coniks

/-- merkletree/proof.go:11-23: the four errors of `Verify`. -/
inductive VerifyErr where
  | bindingsDiffer
  | unverifiableCommitment
  | indicesMismatch
  | unequalTreeHashes
deriving DecidableEq, Repr

deriving instance DecidableEq for Except

/-- merkletree/proof.go:39-58 `ProofNode.hash`; panics on a user leaf with a nil commitment. -/
def ProofNode.hash (C : Crypto) (n : ProofNode) (nonce : Bytes) : Go Bytes :=
  if n.isEmpty then
    some (emptyHash C nonce n.index n.level)
  else
    match n.commitment with
    | none => none
    | some c => some (leafHash C nonce n.index n.level c.value)

/-- merkletree/proof.go:89-96: the loop of `authPathHash`; argument = Go's `depth`. -/
def authPathLoop (C : Crypto) (bits : List Bool) (pruned : List Arr32) : Nat → Bytes → Go Bytes
  | 0, hash => some hash
  | depth + 1, hash =>
    match bits[depth]?, pruned[depth]? with
    | some true, some p => authPathLoop C bits pruned depth (C.digest [p.val, hash])
    | some false, some p => authPathLoop C bits pruned depth (C.digest [hash, p.val])
    | _, _ => none

/-- merkletree/proof.go:85-98 `authPathHash`. -/
def AuthPath.authPathHash (C : Crypto) (ap : AuthPath) : Go Bytes :=
  match ap.leaf with
  | none => none
  | some leaf =>
    match leaf.hash C ap.treeNonce with
    | none => none
    | some h => authPathLoop C (toBits leaf.index) ap.prunedTree leaf.level.toNat h

/-- merkletree/proof.go:62-68, 145-154 `ProofType` (the undetermined value is internal). -/
inductive ProofType where
  | absence
  | inclusion
deriving DecidableEq, Repr

/-- merkletree/proof.go:145-154 `ProofType`; panics on a nil `Leaf`. -/
def AuthPath.proofType (ap : AuthPath) : Go ProofType :=
  ap.leaf.map fun leaf => if ap.lookupIndex = leaf.index then .inclusion else .absence

/-- merkletree/proof.go:115-119: the loop comparing the first `n` bits, from position `i`;
`some true` = no mismatch. Panics when a position is out of range. -/
def prefixLoop (a b : List Bool) (i : Nat) : Nat → Go Bool
  | 0 => some true
  | n + 1 =>
    match a[i]?, b[i]? with
    | some x, some y => if x = y then prefixLoop a b (i + 1) n else some false
    | _, _ => none

/-- merkletree/proof.go:110-139 `Verify`. `none` = panic, `some (.ok ())` = nil error. -/
def AuthPath.verify (C : Crypto) (ap : AuthPath) (key value treeHash : Bytes) : Go (Except VerifyErr Unit) :=
  match ap.leaf with
  | none => none
  | some leaf =>
    let hashCheck : Go (Except VerifyErr Unit) :=
      match ap.authPathHash C with
      | none => none
      | some h => if treeHash = h then some (.ok ()) else some (.error .unequalTreeHashes)
    if ap.lookupIndex = leaf.index then
      if leaf.value.getD [] = value then
        match leaf.commitment with
        | none => none
        | some c => if C.commitVerify c [key, value] then hashCheck else some (.error .unverifiableCommitment)
      else some (.error .bindingsDiffer)
    else
      match prefixLoop (toBits leaf.index) (toBits ap.lookupIndex) 0 leaf.level.toNat with
      | none => none
      | some false => some (.error .indicesMismatch)
      | some true => if leaf.value.isSome then some (.error .bindingsDiffer) else hashCheck

end Coniks

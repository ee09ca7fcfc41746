import Verif.Model.Crypto
/-
Model of `merkletree/node.go` and `merkletree/merkletree.go`.

Simplifications: nodes are values, not heap objects, so the `parent` pointers and the pointer
comparison merkletree.go:181 disappear (`Verif.Model.Heap` treats them); node levels are `Nat` (Go:
`uint32`; a level is at most the number of bits of an index).
-/
namespace Coniks

/-- merkletree/node.go:21-27 `userLeafNode` (without `parent`). -/
structure Leaf where
  level : Nat
  key : Bytes
  value : Bytes
  index : Bytes
  commit : Commit
deriving DecidableEq, Inhabited

/-- merkletree/node.go:13-32. Cached hashes are `none` for Go `nil`. -/
inductive Node where
  | empty (level : Nat) (index : Bytes)
  | leaf (l : Leaf)
  | interior (level : Nat) (leftHash rightHash : Option Bytes) (left right : Node)
deriving DecidableEq, Inhabited

/-- merkletree/node.go:148-158 `isEmpty`. -/
def Node.isEmpty : Node → Bool
  | .empty .. => true
  | .leaf _ => false
  | .interior .. => false

/-- merkletree/node.go:34-66 `newInteriorNode`. -/
def newInterior (level : Nat) (prefixBits : List Bool) : Node :=
  .interior level none none
    (.empty (level + 1) (toBytes (prefixBits ++ [false])))
    (.empty (level + 1) (toBytes (prefixBits ++ [true])))

/-- merkletree.go:20,24: domain separation prefixes 'E' and 'L'. -/
def emptyTag : UInt8 := 0x45
/-- merkletree.go:24 -/
def leafTag : UInt8 := 0x4C

/-- merkletree/node.go:98-105 `emptyNode.hash`; also the empty case of proof.go:40-47. -/
def emptyHash (C : Crypto) (nonce index : Bytes) (level : UInt32) : Bytes :=
  C.digest [[emptyTag], nonce, index, uint32ToBytes level]

/-- merkletree/node.go:88-96 `userLeafNode.hash`; also proof.go:50-56. -/
def leafHash (C : Crypto) (nonce index : Bytes) (level : UInt32) (commitValue : Bytes) : Bytes :=
  C.digest [[leafTag], nonce, index, uint32ToBytes level, commitValue]

/-- merkletree/node.go:78-105 `hash`: returns the hash and the node with its caches filled in
(only hashes that were nil are computed; a subtree under a cached hash is not visited). -/
def Node.hashNode (C : Crypto) (nonce : Bytes) : Node → Bytes × Node
  | .empty level index => (emptyHash C nonce index (UInt32.ofNat level), .empty level index)
  | .leaf l => (leafHash C nonce l.index (UInt32.ofNat l.level) l.commit.value, .leaf l)
  | .interior level lh rh l r =>
    let (lh', l') := match lh with
      | some h => (h, l)
      | none => l.hashNode C nonce
    let (rh', r') := match rh with
      | some h => (h, r)
      | none => r.hashNode C nonce
    (C.digest [lh', rh'], .interior level (some lh') (some rh') l' r')

/-- merkletree/node.go:107-146 `clone`. `append([]byte{}, nil...)` is an empty non-nil slice, so a
missing cached hash becomes an (invalid) present one. -/
def Node.clone : Node → Node
  | .empty level index => .empty level index
  | .leaf l => .leaf l
  | .interior level lh rh l r => .interior level (some (lh.getD [])) (some (rh.getD [])) l.clone r.clone

/-- merkletree.go:30-34 `MerkleTree`; `root` is an interior node in every reachable tree
(Go: `*interiorNode`). -/
structure MerkleTree where
  nonce : Bytes
  root : Node
  hash : Bytes
deriving DecidableEq, Inhabited

/-- merkletree.go:39-50 `NewMerkleTree`; `none` is the error return of `MakeRand`. -/
def newMerkleTree (C : Crypto) (rnd : Option Bytes) : Option MerkleTree :=
  (C.makeRand rnd).map fun nonce => { nonce := nonce, root := newInterior 0 [], hash := [] }

/-- used for the termination of `insertAt` -/
def Node.isLeafNat : Node → Nat
  | .leaf _ => 1
  | _ => 0

/-- merkletree.go:174-178: the new interior node takes over the old leaf on the side of the leaf's bit. -/
def pushDown (depth : Nat) (prefixBits : List Bool) (direction : Bool) (cur : Leaf) : Node :=
  let moved : Node := .leaf { cur with level := depth + 1 }
  if direction then
    .interior depth none none (.empty (depth + 1) (toBytes (prefixBits ++ [false]))) moved
  else
    .interior depth none none moved (.empty (depth + 1) (toBytes (prefixBits ++ [true])))

/-- merkletree.go:145-216, the loop of `insertNode`, started at node `n` with the given depth.
Returns the node that replaces `n` in its parent. Panics (`none`) as the code does: on an empty node
(line 213; not reached from a non-empty one), when `indexBits[depth]` (line 189) or `GetNthBit` (line
173) or `indexBits[:depth]` (line 171) is out of range. -/
def insertAt (bits : List Bool) (toAdd : Leaf) (depth : Nat) (n : Node) : Go Node :=
  match n with
  | .empty .. => none
  | .leaf cur =>
    if cur.index = toAdd.index then
      some (.leaf { toAdd with level := cur.level })
    else if depth ≤ bits.length then
      match getNthBit cur.index depth with
      | none => none
      | some direction => insertAt bits toAdd depth (pushDown depth (bits.take depth) direction cur)
    else none
  | .interior level lh rh l r =>
    match h : bits[depth]? with
    | none => none
    | some true =>
      if r.isEmpty then
        some (.interior level lh none l (.leaf { toAdd with level := depth + 1 }))
      else
        (insertAt bits toAdd (depth + 1) r).map fun r' => .interior level lh none l r'
    | some false =>
      if l.isEmpty then
        some (.interior level none rh (.leaf { toAdd with level := depth + 1 }) r)
      else
        (insertAt bits toAdd (depth + 1) l).map fun l' => .interior level none rh l' r
termination_by (bits.length - depth, n.isLeafNat)
decreasing_by
  · right
    unfold pushDown
    split <;> exact Nat.zero_lt_one
  · left
    have := (List.getElem?_eq_some_iff.mp h).1
    omega
  · left
    have := (List.getElem?_eq_some_iff.mp h).1
    omega

/-- merkletree.go:145-216 `insertNode`. -/
def MerkleTree.insertNode (m : MerkleTree) (index : Bytes) (toAdd : Leaf) : Go MerkleTree :=
  (insertAt (toBits index) toAdd 0 m.root).map fun root => { m with root := root }

/-- merkletree.go:130-143 `Set`. Outer `none`: panic. `some (m, false)`: the error return
(no entropy), tree unchanged; `some (m', true)`: success. -/
def MerkleTree.set (C : Crypto) (m : MerkleTree) (rnd : Option Bytes) (index key value : Bytes) :
    Go (MerkleTree × Bool) :=
  match C.newCommit rnd [key, value] with
  | none => some (m, false)
  | some c =>
    (m.insertNode index { level := 0, key := key, value := value, index := index, commit := c }).map
      fun m' => (m', true)

/-- merkletree.go:220-240 `visitLeafNodes`: the leaves in the order they are visited. -/
def Node.leaves : Node → List Leaf
  | .empty .. => []
  | .leaf l => [l]
  | .interior _ _ _ l r => l.leaves ++ r.leaves

/-- merkletree.go:242-244 `recomputeHash`. -/
def MerkleTree.recomputeHash (C : Crypto) (m : MerkleTree) : MerkleTree :=
  let (h, root) := m.root.hashNode C m.nonce
  { m with root := root, hash := h }

/-- merkletree.go:249-255 `Clone`. -/
def MerkleTree.clone (m : MerkleTree) : MerkleTree :=
  { nonce := m.nonce, root := m.root.clone, hash := m.hash }

/-- merkletree.go:75-80: `var hashArr [32]byte; copy(hashArr[:], h)`. -/
def toArr32 (h : Option Bytes) : Arr32 :=
  ⟨((h.getD []) ++ List.replicate 32 0).take 32, by simp⟩

/-- merkletree/proof.go:31-37 `ProofNode`. `value = none` is Go `nil`. -/
structure ProofNode where
  level : UInt32
  index : Bytes
  value : Option Bytes
  isEmpty : Bool
  commitment : Option Commit
deriving DecidableEq, Inhabited

/-- merkletree/proof.go:76-83 `AuthenticationPath` (the memo field `proofType` is recomputed instead:
`LookupIndex` and `Leaf` are never assigned after the first call of `ProofType`). `leaf = none` is a nil pointer. -/
structure AuthPath where
  treeNonce : Bytes
  prunedTree : List Arr32
  lookupIndex : Bytes
  vrfProof : Bytes
  leaf : Option ProofNode
deriving DecidableEq, Inhabited

/-- merkletree.go:65-85, the descending loop of `Get`; returns the pruned-tree entries and the node reached.
Panics if the lookup index is too short for the tree (line 74). -/
def descend (bits : List Bool) (depth : Nat) : Node → Go (List Arr32 × Node)
  | .empty level index => some ([], .empty level index)
  | .leaf l => some ([], .leaf l)
  | .interior _ lh rh l r =>
    match bits[depth]? with
    | none => none
    | some true => (descend bits (depth + 1) r).map fun (ps, n) => (toArr32 lh :: ps, n)
    | some false => (descend bits (depth + 1) l).map fun (ps, n) => (toArr32 rh :: ps, n)

/-- merkletree.go:90-121: the proof node for the node reached. -/
def proofNodeOf (lookupIndex : Bytes) : Node → Go ProofNode
  | .leaf l =>
    if l.index = lookupIndex then
      some { level := UInt32.ofNat l.level, index := l.index, value := some l.value, isEmpty := false,
             commitment := some { salt := l.commit.salt, value := l.commit.value } }
    else
      some { level := UInt32.ofNat l.level, index := l.index, value := none, isEmpty := false,
             commitment := some { salt := [], value := l.commit.value } }
  | .empty level index =>
    some { level := UInt32.ofNat level, index := index, value := none, isEmpty := true, commitment := none }
  | .interior .. => none

/-- merkletree.go:54-123 `Get`. -/
def MerkleTree.get (m : MerkleTree) (lookupIndex : Bytes) : Go AuthPath :=
  match descend (toBits lookupIndex) 0 m.root with
  | none => none
  | some (ps, n) =>
    (proofNodeOf lookupIndex n).map fun pn =>
      { treeNonce := m.nonce, prunedTree := ps, lookupIndex := lookupIndex, vrfProof := [], leaf := some pn }

end Coniks

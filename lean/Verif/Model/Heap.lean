import Verif.Model.TreeOps
/-
The pointer structure of `merkletree/merkletree.go` and `merkletree/node.go`: nodes are cells of a heap, with `parent` and child
pointers; trees and their clones live in the same heap. Byte slices are values: the package writes to no element of a slice once it is
stored in a node. Loops and recursions over pointers take fuel; running out of it is a panic (`none`), and `Proofs/Heap.lean` shows it
does not happen.
-/
namespace Coniks

/-- merkletree/node.go:8-32: a node in memory. Pointers are addresses, `none` is nil. -/
inductive Cell where
  | empty (parent : Option Nat) (level : Nat) (index : Bytes)
  | leaf (parent : Option Nat) (l : Leaf)
  | interior (parent : Option Nat) (level : Nat) (leftHash rightHash : Option Bytes) (left right : Option Nat)
deriving DecidableEq, Inhabited

/-- The memory: the cell at address `a` is the `a`-th; allocation appends a cell. -/
abbrev Heap := List Cell

/-- merkletree/node.go:34-66 `newInteriorNode`: allocates two empty nodes and the interior node; returns the address of the latter. -/
def Heap.newInterior (h : Heap) (parent : Option Nat) (level : Nat) (prefixBits : List Bool) : Heap × Nat :=
  let a := h.length + 2
  (h ++ [.empty (some a) (level + 1) (toBytes (prefixBits ++ [false])),
         .empty (some a) (level + 1) (toBytes (prefixBits ++ [true])),
         .interior parent level none none (some h.length) (some (h.length + 1))], a)

/-- merkletree/node.go:148-158 `isEmpty`, called through a pointer (nil panics) -/
def Heap.isEmpty (h : Heap) (p : Option Nat) : Go Bool :=
  match p with
  | none => none
  | some a =>
    match h[a]? with
    | none => none
    | some (.empty ..) => some true
    | some _ => some false

/-- merkletree.go:151-215: the loop of `insertNode`, at `nodePointer = ptr`; `toAdd` is the address of the new leaf. -/
def Heap.insertLoop (bits : List Bool) (toAdd : Nat) : Nat → Heap → Nat → Nat → Go Heap
  | 0, _, _, _ => none
  | fuel + 1, h, depth, ptr =>
    match h[toAdd]? with
    | some (.leaf _ add) =>
      match h[ptr]? with
      | some (.leaf parent cur) =>
        match parent with
        | none => none                                              -- lines 158-160
        | some par =>
          if cur.index = add.index then                             -- lines 162-168
            let h := h.set toAdd (.leaf parent { add with level := cur.level })
            some (h.set ptr (.leaf parent { add with level := cur.level }))
          else if depth ≤ bits.length then
            let (h, new) := h.newInterior parent depth (bits.take depth)   -- line 170
            match getNthBit cur.index depth with                    -- line 172
            | none => none
            | some direction =>
              let h := h.set new (if direction then .interior parent depth none none (some (new - 2)) (some ptr)
                                  else .interior parent depth none none (some ptr) (some (new - 1)))
              let h := h.set ptr (.leaf (some new) { cur with level := depth + 1 })    -- lines 178-179
              match h[par]? with                                    -- lines 180-184
              | some (.interior pp pl plh prh pleft pright) =>
                let h := h.set par (if pleft = some ptr then .interior pp pl plh prh (some new) pright
                                    else .interior pp pl plh prh pleft (some new))
                Heap.insertLoop bits toAdd fuel h depth new
              | _ => none
          else none
      | some (.interior pp level lh rh left right) =>
        match bits[depth]? with                                     -- line 188
        | none => none
        | some true =>
          match h.isEmpty right with                                -- lines 190-199
          | none => none
          | some true =>
            let h := h.set ptr (.interior pp level lh none left (some toAdd))
            some (h.set toAdd (.leaf (some ptr) { add with level := depth + 1 }))
          | some false =>
            match right with
            | none => none
            | some r => Heap.insertLoop bits toAdd fuel (h.set ptr (.interior pp level lh none left right)) (depth + 1) r
        | some false =>
          match h.isEmpty left with                                 -- lines 200-209
          | none => none
          | some true =>
            let h := h.set ptr (.interior pp level none rh (some toAdd) right)
            some (h.set toAdd (.leaf (some ptr) { add with level := depth + 1 }))
          | some false =>
            match left with
            | none => none
            | some l => Heap.insertLoop bits toAdd fuel (h.set ptr (.interior pp level none rh left right)) (depth + 1) l
      | _ => none                                                   -- line 213
    | _ => none

/-- merkletree/node.go:78-105 `hash`: the digest, and the memory with the caches filled in. -/
def Heap.hashNode (C : Crypto) (nonce : Bytes) : Nat → Heap → Nat → Go (Bytes × Heap)
  | 0, _, _ => none
  | fuel + 1, h, a =>
    match h[a]? with
    | none => none
    | some (.empty _ level index) => some (emptyHash C nonce index (UInt32.ofNat level), h)
    | some (.leaf _ l) => some (leafHash C nonce l.index (UInt32.ofNat l.level) l.commit.value, h)
    | some (.interior par level lh rh left right) => do
      let (lh', h) ← match lh with
        | some x => some (x, h)
        | none => do
          let l ← left
          let (x, h) ← Heap.hashNode C nonce fuel h l
          some (x, h.set a (.interior par level (some x) rh left right))
      let (rh', h) ← match rh with
        | some x => some (x, h)
        | none => do
          let r ← right
          let (x, h) ← Heap.hashNode C nonce fuel h r
          some (x, h.set a (.interior par level (some lh') (some x) left right))
      some (C.digest [lh', rh'], h)

/-- merkletree/node.go:107-146 `clone`: allocates the copy of the node, then the copies of its children. -/
def Heap.clone : Nat → Heap → Option Nat → Nat → Go (Nat × Heap)
  | 0, _, _, _ => none
  | fuel + 1, h, parent, a =>
    match h[a]? with
    | none => none
    | some (.empty _ level index) => some (h.length, h ++ [.empty parent level index])
    | some (.leaf _ l) => some (h.length, h ++ [.leaf parent l])
    | some (.interior _ level lh rh left right) => do
      let new := h.length
      let h := h ++ [.interior parent level (some (lh.getD [])) (some (rh.getD [])) none none]
      let l ← left
      let r ← right
      let (l', h) ← Heap.clone fuel h (some new) l
      let h := h.set new (.interior parent level (some (lh.getD [])) (some (rh.getD [])) (some l') none)
      let (r', h) ← Heap.clone fuel h (some new) r
      some (new, h.set new (.interior parent level (some (lh.getD [])) (some (rh.getD [])) (some l') (some r')))

/-- merkletree.go:65-85: the descending loop of `Get`; returns the pruned-tree entries and the leaf or empty node reached. -/
def Heap.descend (h : Heap) : List Bool → Option Nat → Go (List Arr32 × Node)
  | bits, p =>
    match p with
    | none => none
    | some a =>
      match h[a]? with
      | none => none
      | some (.empty _ level index) => some ([], .empty level index)
      | some (.leaf _ l) => some ([], .leaf l)
      | some (.interior _ _ lh rh left right) =>
        match bits with
        | [] => none
        | true :: bs => (Heap.descend h bs right).map fun (ps, n) => (toArr32 lh :: ps, n)
        | false :: bs => (Heap.descend h bs left).map fun (ps, n) => (toArr32 rh :: ps, n)

/-- merkletree.go:30-34 `MerkleTree`, with the root as an address. -/
structure HTree where
  nonce : Bytes
  root : Nat
  hash : Bytes
deriving DecidableEq, Inhabited

/-- A memory and the trees in it, in the order of their creation. -/
structure HWorld where
  heap : Heap
  trees : List HTree
deriving DecidableEq, Inhabited

/-- Calls on the trees of a world, `i` and `j` being their number: merkletree.go:39 `NewMerkleTree`, :130 `Set`, :242 `recomputeHash`,
:249 `Clone`. -/
inductive WOp where
  | new (rnd : Option Bytes)
  | set (i : Nat) (rnd : Option Bytes) (index key value : Bytes)
  | recompute (i : Nat)
  | clone (i : Nat)
deriving DecidableEq

/-- fuel for recursions over the nodes of a tree: the size of the memory -/
def Heap.fuel (h : Heap) : Nat := h.length + 1

/-- The effect of a call; `none` is a panic (also: there is no tree `i`). A failed `NewMerkleTree` or `Set` has no effect. -/
def HWorld.step (C : Crypto) (w : HWorld) : WOp → Go HWorld
  | .new rnd =>
    match C.makeRand rnd with
    | none => some w
    | some nonce =>
      let (h, root) := w.heap.newInterior none 0 []
      some { heap := h, trees := w.trees ++ [{ nonce := nonce, root := root, hash := [] }] }
  | .set i rnd index key value => do
    let t ← w.trees[i]?
    match C.newCommit rnd [key, value] with
    | none => some w
    | some c =>
      let toAdd := w.heap.length
      let h := w.heap ++ [.leaf none { level := 0, key := key, value := value, index := index, commit := c }]
      let h ← Heap.insertLoop (toBits index) toAdd (2 * (toBits index).length + 2) h 0 t.root
      some { w with heap := h }
  | .recompute i => do
    let t ← w.trees[i]?
    let (x, h) ← Heap.hashNode C t.nonce w.heap.fuel w.heap t.root
    some { heap := h, trees := w.trees.set i { t with hash := x } }
  | .clone i => do
    let t ← w.trees[i]?
    let (root, h) ← Heap.clone w.heap.fuel w.heap none t.root
    some { heap := h, trees := w.trees ++ [{ nonce := t.nonce, root := root, hash := t.hash }] }

/-- A sequence of calls. -/
def HWorld.run (C : Crypto) (w : HWorld) : List WOp → Go HWorld
  | [] => some w
  | op :: ops => (w.step C op).bind fun w' => w'.run C ops

/-- merkletree.go:54-123 `Get` on tree `i`. -/
def HWorld.get (w : HWorld) (i : Nat) (lookupIndex : Bytes) : Go AuthPath := do
  let t ← w.trees[i]?
  let (ps, n) ← w.heap.descend (toBits lookupIndex) (some t.root)
  (proofNodeOf lookupIndex n).map fun pn =>
    { treeNonce := t.nonce, prunedTree := ps, lookupIndex := lookupIndex, vrfProof := [], leaf := some pn }

/-- The `hash` field of tree `i` (read by pad.go:83). -/
def HWorld.hash (w : HWorld) (i : Nat) : Option Bytes := (w.trees[i]?).map HTree.hash

end Coniks

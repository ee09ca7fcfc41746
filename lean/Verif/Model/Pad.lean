import Verif.Model.Str
/-
Model of `merkletree/pad.go`.
-/
namespace Coniks

/-- merkletree/pad.go:23-31 `PAD`. The map `snapshots` is a function; `cap` is `cap(loadedEpochs)`;
`latest` is non-nil after `NewPAD`. -/
structure PAD where
  signKey : Bytes
  vrfKey : Bytes
  tree : MerkleTree
  snapshots : UInt64 → Option STR
  loadedEpochs : List UInt64
  cap : Nat
  latest : STR
  ad : Policies

/-- Capacity of a slice after `append` of one element (Go's growslice; only reached here with capacity 0 or 1, where the
result is exact). -/
def appendCap (len cap : Nat) : Nat := if len + 1 ≤ cap then cap else max (len + 1) (2 * cap)

/-- merkletree/pad.go:73-82 `updateInternal` after `signTreeRoot` (lines 55-71) was given `prevHash`: recompute, clone, sign, store. -/
def PAD.updateInternal (C : Crypto) (p : PAD) (ad : Option Policies) (epoch : UInt64) (prevHash : Bytes) : PAD :=
  let tree := p.tree.recomputeHash C
  let str := newSTR C p.signKey p.ad tree.clone epoch prevHash
  { p with
    tree := tree
    latest := str
    snapshots := fun e => if e = epoch then some str else p.snapshots e
    loadedEpochs := p.loadedEpochs ++ [epoch]
    cap := appendCap p.loadedEpochs.length p.cap
    ad := ad.getD p.ad }

/-- merkletree/pad.go:36-53 `NewPAD` (the associated data is never nil here). `rnd₁`, `rnd₂`: randomness for the tree nonce
and for the first previous-STR hash. Result `none` = panic (no randomness at line 61), `some none` = error return. -/
def newPAD (C : Crypto) (ad : Policies) (signKey vrfKey : Bytes) (len : Nat) (rnd₁ rnd₂ : Option Bytes) : Go (Option PAD) :=
  match newMerkleTree C rnd₁ with
  | none => some none
  | some tree =>
    match C.makeRand rnd₂ with
    | none => none
    | some prevHash =>
      some (some (PAD.updateInternal C
        { signKey := signKey, vrfKey := vrfKey, tree := tree, snapshots := fun _ => none, loadedEpochs := [], cap := len,
          latest := default, ad := ad } none 0 prevHash))

/-- merkletree/pad.go:92-98: eviction of the older half when the cache is full. -/
def PAD.evict (p : PAD) : PAD :=
  if p.loadedEpochs.length = p.cap then
    let n := p.cap / 2
    { p with
      snapshots := fun e => if e ∈ p.loadedEpochs.take n then none else p.snapshots e
      loadedEpochs := p.loadedEpochs.drop n }
  else p

/-- merkletree/pad.go:90-100 `Update`; the previous-STR hash is lines 64-65. -/
def PAD.update (C : Crypto) (p : PAD) (ad : Option Policies) : PAD :=
  p.evict.updateInternal C ad (p.latest.core.epoch + 1) (C.digest [p.latest.core.signature])

/-- merkletree/pad.go:157-160 `Index`. -/
def PAD.index (C : Crypto) (p : PAD) (key : Bytes) : Bytes := (C.vrfProve p.vrfKey key).1

/-- merkletree/pad.go:106-108 `Set`: outer `none` = panic, `false` = error return. -/
def PAD.set (C : Crypto) (p : PAD) (rnd : Option Bytes) (key value : Bytes) : Go (PAD × Bool) :=
  (p.tree.set C rnd (p.index C key) key value).map fun (t, ok) => ({ p with tree := t }, ok)

/-- merkletree/pad.go:138-143 `GetSTR`. -/
def PAD.getSTR (p : PAD) (epoch : UInt64) : Option STR :=
  if epoch ≥ p.latest.core.epoch then some p.latest else p.snapshots epoch

/-- merkletree/pad.go:122-133 `LookupInEpoch`; outer `none` = panic, `some none` = ErrSTRNotFound. -/
def PAD.lookupInEpoch (C : Crypto) (p : PAD) (key : Bytes) (epoch : UInt64) : Go (Option AuthPath) :=
  match p.getSTR epoch with
  | none => some none
  | some str =>
    let (index, proof) := C.vrfProve p.vrfKey key
    (str.tree.get index).map fun ap => some { ap with vrfProof := proof }

/-- merkletree/pad.go:113-115 `Lookup`. -/
def PAD.lookup (C : Crypto) (p : PAD) (key : Bytes) : Go (Option AuthPath) := p.lookupInEpoch C key p.latest.core.epoch

/-- merkletree/pad.go:151-153 `Sign`. -/
def PAD.sign (C : Crypto) (p : PAD) (msg : List Bytes) : Bytes := C.sign p.signKey msg.flatten

/-- merkletree/pad.go:170-174: the visitor of `reshuffle`, applied to the leaves in order; panics when `Set` fails. -/
def reshuffleLoop (C : Crypto) (vrfKey : Bytes) : List (Leaf × Option Bytes) → MerkleTree → Go MerkleTree
  | [], t => some t
  | (l, rnd) :: ls, t =>
    match t.set C rnd (C.vrfProve vrfKey l.key).1 l.key l.value with
    | some (t', true) => reshuffleLoop C vrfKey ls t'
    | _ => none

/-- merkletree/pad.go:166-177 `reshuffle`; `rnds i` is the randomness drawn for the `i`-th leaf in visiting order. -/
def PAD.reshuffle (C : Crypto) (p : PAD) (rnd : Option Bytes) (rnds : Nat → Option Bytes) : Go PAD :=
  match newMerkleTree C rnd with
  | none => none
  | some t => (reshuffleLoop C p.vrfKey (p.tree.root.leaves.zipIdx.map fun x => (x.1, rnds x.2)) t).map fun t' => { p with tree := t' }

end Coniks

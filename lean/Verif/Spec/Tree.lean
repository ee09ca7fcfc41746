import Verif.Spec.Bits
/-
Independent specification of the Merkle prefix tree: what a set of bindings is, and the hash of a
set of bindings, defined from the set alone (no nodes, no caches, no insertion).
-/
namespace Coniks.Spec

/-- What is stored under one index. -/
structure Binding where
  index : Bytes
  key : Bytes
  value : Bytes
  salt : Bytes
  commit : Bytes
deriving DecidableEq, Inhabited

/-- A set of bindings as a list; setting an index replaces what was stored under it. -/
def put (b : Binding) (bs : List Binding) : List Binding :=
  b :: bs.filter (fun x => x.index != b.index)

/-- The binding stored under an index. -/
def find (i : Bytes) (bs : List Binding) : Option Binding := bs.find? (fun x => x.index == i)

/-- Number with the given bits, most significant first, of a group of 8 bits padded with zeros. -/
def byteOf (bits : List Bool) : UInt8 :=
  UInt8.ofNat (((List.range 8).map fun i => if bits.getD i false then 2 ^ (7 - i) else 0).sum)

/-- Bits packed into bytes, most significant bit first, the last byte padded with zeros. -/
def pack : List Bool → Bytes
  | [] => []
  | b :: bs => byteOf ((b :: bs).take 8) :: pack ((b :: bs).drop 8)
termination_by l => l.length
decreasing_by simp; omega

/-- Four little-endian base-256 digits. -/
def le32 (n : Nat) : Bytes := [0, 1, 2, 3].map fun k => UInt8.ofNat (digit256 n k)

/-- Bit at position `d` of an index. -/
def dirBit (i : Bytes) (d : Nat) : Bool := (bitsOf i).getD d false

/-- Hash of the subtree for prefix `p` that holds exactly `bs` (all with prefix `p`);
the first argument bounds the depth still available. -/
def subtreeHash (hash : Bytes → Bytes) (nonce : Bytes) : Nat → List Bool → List Binding → Bytes
  | _, p, [] => hash ([0x45] ++ nonce ++ pack p ++ le32 p.length)
  | _, p, [b] => hash ([0x4C] ++ nonce ++ b.index ++ le32 p.length ++ b.commit)
  | 0, _, _ => []
  | n + 1, p, bs =>
    hash (subtreeHash hash nonce n (p ++ [false]) (bs.filter fun b => !dirBit b.index p.length) ++
          subtreeHash hash nonce n (p ++ [true]) (bs.filter fun b => dirBit b.index p.length))

/-- Hash of the tree holding exactly `bs` with indices of `bits` bits: the root is always split. -/
def treeHash (hash : Bytes → Bytes) (nonce : Bytes) (bits : Nat) (bs : List Binding) : Bytes :=
  hash (subtreeHash hash nonce bits [false] (bs.filter fun b => !dirBit b.index 0) ++
        subtreeHash hash nonce bits [true] (bs.filter fun b => dirBit b.index 0))

end Coniks.Spec

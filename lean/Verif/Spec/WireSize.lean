import Verif.Spec.Wire
/-
When messages are short enough for one read (C83).
-/
namespace Coniks.Spec
open Coniks

/-- Any two of the names have the same index or indices that differ within the first `D` bits. -/
def PartWithin (D : Nat) (idx : Bytes → Bytes) (ns : List Bytes) : Prop :=
  ∀ a ∈ ns, ∀ b ∈ ns, idx a ≠ idx b → (bitsOf (idx a)).take D ≠ (bitsOf (idx b)).take D

/-- The names of the registration requests. -/
def requestedNames (ops : List DirOp) : List Bytes :=
  ops.filterMap fun op => match op with
    | .register _ req => some req.username
    | _ => none

/-- No registration request has a key of more than `K` bytes. -/
def KeysWithin (K : Nat) (ops : List DirOp) : Prop := ∀ rnd req, .register rnd req ∈ ops → req.key.length ≤ K

/-- The names our client asks about have at most `N` bytes. -/
def NamesWithin (N : Nat) (ops : List SesOp) : Prop := ∀ op ∈ ops, match op with
  | .dir _ => True
  | .lookup n _ => n.length ≤ N
  | .register _ n _ => n.length ≤ N

/-- The VRF has keys of 32 bytes and proofs of 96 bytes (crypto/vrf/vrf.go:34-38), or shorter ones. -/
def VrfSizes (C : Crypto) (vk : Bytes) : Prop := (C.vrfPub vk).length ≤ 32 ∧ ∀ n, (C.vrfProve vk n).2.length ≤ 96

end Coniks.Spec

import Verif.Model.DirectoryOps
/-
What the answers to some users may depend on, and on what they may not.
-/
namespace Coniks.Spec
open Coniks

/-- The users `U` get to see the answer to this call: it is about one of their names, or about no name at all. -/
def seenBy (U : List Bytes) : DirOp → Bool
  | .register _ req => decide (req.username ∈ U)
  | .keyLookup req => decide (req.username ∈ U)
  | .keyLookupInEpoch req => decide (req.username ∈ U)
  | .monitor req => decide (req.username ∈ U)
  | _ => true

/-- Everything that the users `U` are told in a history of a directory (`none`: the server crashed). -/
def toldTo (C : Crypto) (U : List Bytes) (d : Directory) : List DirOp → Go (List (Option Response))
  | [] => some []
  | op :: ops =>
    (d.step C op).bind fun x => (toldTo C U x.1 ops).map fun rs => if seenBy U op then x.2 :: rs else rs

/-- Two calls that are the same, or that register a name of somebody else with different keys and different randomness. What
the two registrations have in common is the published commitment, `H(H(randomness) ‖ name ‖ key)`, and whether the key is
empty. The name is at another place in the tree than the names in `U`. -/
inductive AlikeFor (C : Crypto) (vk : Bytes) (U : List Bytes) : DirOp → DirOp → Prop
  | same (op : DirOp) : AlikeFor C vk U op op
  | other (name k₁ k₂ r₁ r₂ : Bytes)
      (notOurs : ∀ u ∈ U, (C.vrfProve vk u).1 ≠ (C.vrfProve vk name).1)
      (empty : k₁ = [] ↔ k₂ = [])
      (commitment : C.hash (C.hash r₁ ++ name ++ k₁) = C.hash (C.hash r₂ ++ name ++ k₂)) :
      AlikeFor C vk U (.register (some r₁) ⟨name, k₁⟩) (.register (some r₂) ⟨name, k₂⟩)

/-- Two histories of the same length whose calls are alike one by one. -/
inductive AlikeHistories (C : Crypto) (vk : Bytes) (U : List Bytes) : List DirOp → List DirOp → Prop
  | nil : AlikeHistories C vk U [] []
  | cons {o₁ o₂ : DirOp} {l₁ l₂ : List DirOp} (first : AlikeFor C vk U o₁ o₂) (rest : AlikeHistories C vk U l₁ l₂) :
      AlikeHistories C vk U (o₁ :: l₁) (o₂ :: l₂)

end Coniks.Spec

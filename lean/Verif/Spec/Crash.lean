import Verif.Model.Proof
import Verif.Spec.Bits
/-
Which authentication paths crash the verifier, in terms of the parts of the path.
-/
namespace Coniks.Spec

/-- No mismatch among the first `n` bits that both indices have. -/
def AgreeUpTo (n : Nat) (a b : Bytes) : Prop :=
  ∀ j, j < n → ∀ x y, (bitsOf a)[j]? = some x → (bitsOf b)[j]? = some y → x = y

/-- The paths on which checking `(key, value)` crashes. -/
def CrashesVerifier (hash : Bytes → Bytes) (ap : AuthPath) (key value : Bytes) : Prop :=
  ap.leaf = none ∨
  ∃ l, ap.leaf = some l ∧
    ((l.index = ap.lookupIndex ∧ l.value.getD [] = value ∧
        (l.commitment = none ∨
         ∃ c, l.commitment = some c ∧ c.value = hash (c.salt ++ key ++ value) ∧
           (8 * l.index.length < l.level.toNat ∨ ap.prunedTree.length < l.level.toNat))) ∨
     (l.index ≠ ap.lookupIndex ∧ AgreeUpTo l.level.toNat l.index ap.lookupIndex ∧
        (8 * l.index.length < l.level.toNat ∨ 8 * ap.lookupIndex.length < l.level.toNat ∨
         (l.value = none ∧ ((l.isEmpty = false ∧ l.commitment = none) ∨ ap.prunedTree.length < l.level.toNat)))))

end Coniks.Spec

import Verif.Model.TreeOps
/-
When an index that was never set lies in an empty branch whose zero-padded prefix is the index itself.
-/
namespace Coniks.Spec

/-- Two different indices that were set agree with `i` on its first `L - 1` bits, none agrees with it on `L` bits, the bits
of `i` from position `L` on are zero, and `L` reaches into the last of the `n` bytes. -/
def DeepEmpty (n : Nat) (ops : List TreeOp) (i : Bytes) : Prop :=
  ∃ L, 8 * (n - 1) < L ∧ L ≤ 8 * n ∧
    (∃ j k, IsSet j ops ∧ IsSet k ops ∧ j ≠ k ∧
      (bitsOf j).take (L - 1) = (bitsOf i).take (L - 1) ∧ (bitsOf k).take (L - 1) = (bitsOf i).take (L - 1)) ∧
    (∀ j, IsSet j ops → (bitsOf j).take L ≠ (bitsOf i).take L) ∧
    (bitsOf i).drop L = List.replicate (8 * n - L) false

end Coniks.Spec

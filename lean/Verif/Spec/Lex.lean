import Verif.Model.Basic
/-
Lexicographic order on byte strings, by first difference, and half-open ranges.
-/
namespace Coniks.Spec

/-- `a` is before `b`: either `a` is a proper prefix of `b`, or at the first position where they
differ `a` has the smaller byte. -/
def LexLt (a b : Bytes) : Prop :=
  (∃ y t, b = a ++ y :: t) ∨
  (∃ p x y s t, a = p ++ x :: s ∧ b = p ++ y :: t ∧ x < y)

def LexLe (a b : Bytes) : Prop := LexLt a b ∨ a = b

/-- Key `k` is in the half-open range `[start, limit)`, where no limit means unbounded. -/
def InRange (start : Bytes) (limit : Option Bytes) (k : Bytes) : Prop :=
  LexLe start k ∧ ∀ l, limit = some l → LexLt k l

end Coniks.Spec

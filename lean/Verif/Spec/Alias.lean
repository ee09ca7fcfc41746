import Verif.Model.Ed25519.Alias
/-
What a call through pointers may change (C77). Objects with numbers below `n` are those in use when the call is made.
-/
namespace Coniks.Ed

/-- of the objects in use, only the field element at `d` may differ -/
def OnlyPlace (n : Nat) (d : Ptr) (m m' : FeMem) : Prop := ∀ o f, o < n → (o, f) ≠ d → m' (o, f) = m (o, f)

/-- of the objects in use, only the object `r` may differ -/
def OnlyObject (n r : Nat) (m m' : FeMem) : Prop := ∀ o f, o < n → o ≠ r → m' (o, f) = m (o, f)

end Coniks.Ed

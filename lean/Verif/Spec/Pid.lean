import Verif.Model.Pid
import Verif.Spec.Base64
/-
What a PID file says.
-/
namespace Coniks.Spec

/-- The file consists of decimal digits that stand for `n` (what `kill $(cat coniks.pid)` takes it for). -/
def Names (file : Option Bytes) (n : Nat) : Prop := ∃ s, file = some s ∧ Digits s ∧ decimal s = n

/-- `a` is written with at most as many digits as `b` (two numbers other than 0). -/
def NoLonger (a b : Nat) : Prop := ∀ k, b < 10 ^ k → a < 10 ^ k

/-- The event does not write the PID file of the directory. -/
def Silent : BoxEv → Prop
  | .run flag _ _ _ => flag = false
  | .other _ => True

end Coniks.Spec

import Verif.Model.Str
import Verif.Spec.Paths
/-
Chains of signed tree roots.
-/
namespace Coniks.Spec
open Coniks

/-- The STR carries a signature of its serialization by the key `pk`. -/
def Signed (C : Crypto) (pk : Bytes) (s : DirSTR) : Prop :=
  ∃ m, s.serialize = some m ∧ C.verify pk m s.core.signature = true

/-- `s` is one epoch after `prev` and names it: epoch number and hash of its signature. -/
structure Linked (C : Crypto) (prev s : DirSTR) : Prop where
  epoch : s.core.epoch = prev.core.epoch + 1
  previousEpoch : s.core.previousEpoch = prev.core.epoch
  hash : s.core.previousSTRHash = C.hash prev.core.signature

/-- `s` is a validly signed, hash-linked successor of `prev`. -/
def Successor (C : Crypto) (pk : Bytes) (prev s : DirSTR) : Prop := Signed C pk s ∧ Linked C prev s

/-- Every STR of the list but the first is the successor of the one before. -/
def Chain (C : Crypto) (pk : Bytes) (l : List DirSTR) : Prop :=
  ∀ j a b, l[j]? = some a → l[j + 1]? = some b → Successor C pk a b

/-- The range starts with the held STR or its successor, and goes on as a chain. -/
def Continues (C : Crypto) (pk : Bytes) (held : DirSTR) (l : List DirSTR) : Prop :=
  (∃ s, l[0]? = some s ∧ (s = held ∨ Successor C pk held s)) ∧ Chain C pk l

end Coniks.Spec

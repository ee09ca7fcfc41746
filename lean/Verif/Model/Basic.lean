/-
Conventions shared by the whole model.
-/
namespace Coniks

/-- Go `[]byte` and `string` (`string` is an immutable byte sequence in Go).
`nil` and the empty slice are the same value here; where the code tells them
apart the model uses `Option Bytes`. -/
abbrev Bytes := List UInt8

/-- The result of a Go call that may panic: `none` means a run-time panic
(index out of range, nil dereference, failed type assertion or an explicit `panic`). -/
abbrev Go (α : Type) := Option α

/-- "the call panics" -/
def Panics {α : Type} (x : Go α) : Prop := x = none

/-- Go array type `[32]byte` (`[crypto.HashSizeByte]byte`). -/
abbrev Arr32 := { b : Bytes // b.length = 32 }

end Coniks

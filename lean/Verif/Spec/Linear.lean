import Verif.Model.Lock
/-
Sequential executions, for stating linearizability (C45).
-/
namespace Coniks.Spec
open Coniks

/-- Run the critical sections `is` one after the other, each without interruption: the final memory and the results in order. -/
def seqRun {σ ρ : Type} (T : Nat → Task σ ρ) : σ → List Nat → σ × List ρ
  | m, [] => (m, [])
  | m, i :: is => let x := (T i).body.run m; let y := seqRun T x.1 is; (y.1, x.2 :: y.2)

/-- The goroutines that have finished, in the order in which they gave back the lock. -/
def finished : List LockEv → List Nat
  | [] => []
  | .unlock i :: es => i :: finished es
  | _ :: es => finished es

end Coniks.Spec

import Verif.Model.Waiting
/-
Infinite executions and fairness, for C78.
-/
namespace Coniks.Spec
open Coniks

variable {σ ρ : Type}

/-- The goroutine whose step it is. -/
def WaitEv.who : WaitEv → Nat
  | .call i => i
  | .claim i => i
  | .enter i => i
  | .wake i => i
  | .step i => i
  | .leave i => i

/-- The step can happen now. -/
def Enabled (T : Nat → Task σ ρ) (s : WSys σ ρ) (e : WaitEv) : Prop := ∃ s', s.exec T e = .ok s'

/-- An endless execution: at time `n` the state is `st n` and `ev n` happens (`none`: nothing, time passes). -/
structure Endless (T : Nat → Task σ ρ) (m0 : σ) (st : Nat → WSys σ ρ) (ev : Nat → Option WaitEv) : Prop where
  start : st 0 = WSys.initial m0
  next : ∀ n, match ev n with
    | none => st (n + 1) = st n
    | some e => (st n).exec T e = .ok (st (n + 1))

/-- The scheduler of Go runs every goroutine that can run: it does not happen that goroutine `i` can make a step of its section
(not counting the two below) at all times from some time on, and never makes one. No promise is made about `call`: clients, timers and
signals may never come. -/
def RunsAll (T : Nat → Task σ ρ) (st : Nat → WSys σ ρ) (ev : Nat → Option WaitEv) : Prop :=
  ∀ (i n : Nat), ∃ m, n ≤ m ∧ ((∃ e, ev m = some e ∧ WaitEv.who e = i) ∨
    (¬ Enabled T (st m) (.enter i) ∧ ¬ Enabled T (st m) (.wake i) ∧ ¬ Enabled T (st m) (.step i) ∧ ¬ Enabled T (st m) (.leave i)))

/-- Writers are not kept waiting by other writers for ever: who could become the next writer again and again becomes it (the
mutex `w` inside `sync.RWMutex` is handed over, at the latest after a millisecond, to the goroutine that has waited longest). -/
def WritersTakeTurns (T : Nat → Task σ ρ) (st : Nat → WSys σ ρ) (ev : Nat → Option WaitEv) : Prop :=
  ∀ (i n : Nat), (∀ k, ∃ m, k ≤ m ∧ Enabled T (st m) (.claim i)) → ∃ m, n ≤ m ∧ ev m = some (.claim i)

/-- The goroutines that have finished, in the order in which they gave back the lock. -/
def left : List WaitEv → List Nat
  | [] => []
  | .leave i :: es => i :: left es
  | _ :: es => left es

/-- The first `n` steps of an endless execution. -/
def history (ev : Nat → Option WaitEv) : Nat → List WaitEv
  | 0 => []
  | n + 1 => history ev n ++ (ev n).toList

end Coniks.Spec

import Verif.Model.Lock
/-
Small-step model of the goroutines of a server and of `Shutdown`: application/serverbase.go:93-102 (ListenAndHandle), 142-181
(acceptRequests), 255-261 (RunInBackground), 265-291 (the two background loops), 304-308 (Shutdown).
What a connection or a background round does to the directory is modelled in `Lock`; here only whether it is still going on.
-/
namespace Coniks

/-- A listener goroutine (serverbase.go:155-180): not started; about to look at `stop`; in `Accept`; waiting in
`waitCloseConn.Wait()`; released by the last `Done` but not yet returned from `Wait`; gone. -/
inductive LPhase where
  | off | check | accept | blocked | woken | exited
deriving DecidableEq

/-- A connection goroutine (serverbase.go:175-179): not there, in `acceptClient`, finished. -/
inductive CPhase where
  | off | open | closed
deriving DecidableEq

/-- A background loop (serverbase.go:255-291): not started, in `select`, in a round, gone. -/
inductive BPhase where
  | off | idle | busy | exited
deriving DecidableEq

/-- The goroutine that called `Run` and later calls `Shutdown`: before, inside `waitStop.Wait()`, after. -/
inductive MPhase where
  | running | waiting | returned
deriving DecidableEq

/-- serverbase.go:56-70: the channel `stop` (closed?), the counters of the two wait groups, the goroutines. -/
structure Proc where
  stop : Bool
  waitStop : Nat
  waitConn : Nat
  main : MPhase
  lst : Nat → LPhase
  conn : Nat → CPhase
  bg : Nat → BPhase

/-- Steps of the goroutines. -/
inductive ProcEv where
  | startListener (i : Nat)
  | startLoop (i : Nat)
  | checkStop (i : Nat)
  | acceptError (i : Nat)
  | acceptConn (i c : Nat)
  | closeConn (c : Nat)
  | resume (i : Nat)
  | fire (i : Nat)
  | finish (i : Nat)
  | leave (i : Nat)
  | shutdown
  | return_
deriving DecidableEq

/-- Change one entry of a function. -/
def upd {α : Type} (f : Nat → α) (i : Nat) (a : α) : Nat → α := fun j => if j = i then a else f j

/-- One step; `fatal` is the panic of Go's `sync.WaitGroup` when it is reused before a `Wait` has returned. Listeners and loops are
started by `Run`, before `Shutdown` is called (cli/coniksserver/internal/cmd/run.go:38-49). A loop in `select` may still start a round
when `stop` is closed, as Go chooses at random among the ready cases. -/
def Proc.exec (p : Proc) : ProcEv → Outcome Proc
  | .startListener i =>
    if p.main = .running ∧ p.lst i = .off then .ok { p with waitStop := p.waitStop + 1, lst := upd p.lst i .check } else .blocked
  | .startLoop i =>
    if p.main = .running ∧ p.bg i = .off then .ok { p with waitStop := p.waitStop + 1, bg := upd p.bg i .idle } else .blocked
  | .checkStop i =>
    if p.lst i = .check then
      if p.stop then
        if p.waitConn = 0 then .ok { p with lst := upd p.lst i .exited, waitStop := p.waitStop - 1 }
        else .ok { p with lst := upd p.lst i .blocked }
      else .ok { p with lst := upd p.lst i .accept }
    else .blocked
  | .acceptError i => if p.lst i = .accept then .ok { p with lst := upd p.lst i .check } else .blocked
  | .acceptConn i c =>
    if p.lst i = .accept ∧ p.conn c = .off then
      .ok { p with lst := upd p.lst i .check, conn := upd p.conn c .open, waitConn := p.waitConn + 1 }
    else .blocked
  | .closeConn c =>
    if p.conn c = .open then
      .ok { p with
        conn := upd p.conn c .closed
        waitConn := p.waitConn - 1
        lst := if p.waitConn = 1 then fun i => if p.lst i = .blocked then .woken else p.lst i else p.lst }
    else .blocked
  | .resume i =>
    if p.lst i = .woken then
      if p.waitConn = 0 then .ok { p with lst := upd p.lst i .exited, waitStop := p.waitStop - 1 } else .fatal
    else .blocked
  | .fire i => if p.bg i = .idle then .ok { p with bg := upd p.bg i .busy } else .blocked
  | .finish i => if p.bg i = .busy then .ok { p with bg := upd p.bg i .idle } else .blocked
  | .leave i =>
    if p.bg i = .idle ∧ p.stop = true then .ok { p with bg := upd p.bg i .exited, waitStop := p.waitStop - 1 } else .blocked
  | .shutdown => if p.main = .running then .ok { p with stop := true, main := .waiting } else .blocked
  | .return_ => if p.main = .waiting ∧ p.waitStop = 0 then .ok { p with main := .returned } else .blocked

/-- A whole schedule. -/
def Proc.execAll (p : Proc) : List ProcEv → Outcome Proc
  | [] => .ok p
  | e :: es =>
    match p.exec e with
    | .ok p' => p'.execAll es
    | .blocked => .blocked
    | .fatal => .fatal

/-- serverbase.go:73-86 `NewServerBase`: nothing runs yet. -/
def Proc.initial : Proc :=
  { stop := false, waitStop := 0, waitConn := 0, main := .running, lst := fun _ => .off, conn := fun _ => .off, bg := fun _ => .off }

end Coniks

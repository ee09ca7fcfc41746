import Verif.Model.Lock
/-
Waiting for the lock of the server: a finer model of the `sync.RWMutex` embedded in `ServerBase` (application/serverbase.go:56-57), with
goroutines that have asked for the lock and do not have it yet. `Model/Lock.lean` only says who may be inside; here it is also said
who is let in next, as the documentation of `sync.RWMutex` promises: a blocked `Lock` excludes new readers, and `Unlock` lets in
all the readers that are waiting at that moment before the next writer.
-/
namespace Coniks

/-- Where a goroutine is (serverbase.go:195-249, 265-291). -/
inductive WPhase (σ ρ : Type) where
  /-- has not asked for the lock: waiting for bytes from the client, for the timer or for a signal (serverbase.go:201, 270, 285) -/
  | away
  /-- has called `Lock` while another writer is waiting or inside -/
  | queued
  /-- has called `Lock`, no other writer is there, waits until the readers inside have left -/
  | pending
  /-- has called `RLock` while a writer was waiting or inside -/
  | parked
  | running (p : Prog σ ρ)
  /-- has given back the lock; writing the answer to the client comes after that (serverbase.go:241-248) -/
  | done (r : ρ)

/-- serverbase.go:56-57: memory, lock and goroutines. `inside`: the readers that have the lock, among them those that were
let in by an `Unlock` and have not yet noticed; `parked`: readers waiting for the writer; `writer`: the writer that waits for the readers to
leave or is inside. -/
structure WSys (σ ρ : Type) where
  mem : σ
  inside : List Nat
  parked : List Nat
  writer : Option Nat
  phase : Nat → WPhase σ ρ

/-- Steps of goroutine `i`. -/
inductive WaitEv where
  /-- calls `RLock` or `Lock` (serverbase.go:218-223, 271, 286) -/
  | call (i : Nat)
  /-- becomes the writer that is waited for -/
  | claim (i : Nat)
  /-- enters as a writer: `Lock` returns -/
  | enter (i : Nat)
  /-- `RLock` returns after having waited -/
  | wake (i : Nat)
  /-- one memory step of the section -/
  | step (i : Nat)
  /-- calls `RUnlock` or `Unlock` (serverbase.go:227-232, 274, 288) -/
  | leave (i : Nat)
deriving DecidableEq

/-- Change the phase of goroutine `i`. -/
def setWPhase {σ ρ : Type} (f : Nat → WPhase σ ρ) (i : Nat) (p : WPhase σ ρ) : Nat → WPhase σ ρ := fun j => if j = i then p else f j

/-- serverbase.go:217-232, 271-274, 286-288: one step. Giving back a lock that is not held is fatal. -/
def WSys.exec {σ ρ : Type} (T : Nat → Task σ ρ) (s : WSys σ ρ) : WaitEv → Outcome (WSys σ ρ)
  | .call i =>
    match s.phase i with
    | .away =>
      match (T i).acquire with
      | .read =>
        match s.writer with
        | none => .ok { s with inside := i :: s.inside, phase := setWPhase s.phase i (.running (T i).body) }
        | some _ => .ok { s with parked := i :: s.parked, phase := setWPhase s.phase i .parked }
      | .write => .ok { s with phase := setWPhase s.phase i .queued }
    | _ => .blocked
  | .claim i =>
    match s.phase i with
    | .queued =>
      match s.writer with
      | none => .ok { s with writer := some i, phase := setWPhase s.phase i .pending }
      | some _ => .blocked
    | _ => .blocked
  | .enter i =>
    match s.phase i with
    | .pending => if s.inside = [] then .ok { s with phase := setWPhase s.phase i (.running (T i).body) } else .blocked
    | _ => .blocked
  | .wake i =>
    match s.phase i with
    | .parked => if i ∈ s.inside then .ok { s with phase := setWPhase s.phase i (.running (T i).body) } else .blocked
    | _ => .blocked
  | .step i =>
    match s.phase i with
    | .running (.act w n) => .ok { s with mem := w s.mem, phase := setWPhase s.phase i (.running (n s.mem)) }
    | _ => .blocked
  | .leave i =>
    match s.phase i with
    | .running (.ret r) =>
      match (T i).release with
      | .read =>
        if i ∈ s.inside then .ok { s with inside := s.inside.erase i, phase := setWPhase s.phase i (.done r) } else .fatal
      | .write =>
        if s.writer = some i then
          .ok { s with inside := s.parked ++ s.inside, parked := [], writer := none, phase := setWPhase s.phase i (.done r) }
        else .fatal
    | _ => .blocked

/-- A whole schedule. -/
def WSys.execAll {σ ρ : Type} (T : Nat → Task σ ρ) (s : WSys σ ρ) : List WaitEv → Outcome (WSys σ ρ)
  | [] => .ok s
  | e :: es =>
    match s.exec T e with
    | .ok s' => s'.execAll T es
    | .blocked => .blocked
    | .fatal => .fatal

/-- serverbase.go:73-86 `NewServerBase`: the lock is free and nobody waits. -/
def WSys.initial {σ ρ : Type} (m : σ) : WSys σ ρ := { mem := m, inside := [], parked := [], writer := none, phase := fun _ => .away }

end Coniks

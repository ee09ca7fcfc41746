import Verif.Model.Server
/-
Small-step model of goroutines that run pieces of code under one `sync.RWMutex` (application/serverbase.go:217-232, 265-277,
280-291).
-/
namespace Coniks

/-- A piece of code run while the lock is held: atomic memory steps (each may read and write the shared memory `σ`), then a
result. Any decomposition into steps is allowed, so a schedule may interrupt the code anywhere. -/
inductive Prog (σ ρ : Type) where
  | ret (r : ρ)
  | act (write : σ → σ) (next : σ → Prog σ ρ)

/-- The code run without interruption. -/
def Prog.run {σ ρ : Type} : Prog σ ρ → σ → σ × ρ
  | .ret r, s => (s, r)
  | .act w n, s => (n s).run (w s)

/-- The code never writes the shared memory. -/
def Prog.ReadOnly {σ ρ : Type} : Prog σ ρ → Prop
  | .ret _ => True
  | .act w n => (∀ s, w s = s) ∧ ∀ s, (n s).ReadOnly

/-- A goroutine's critical section: which lock it takes, the code, which lock it gives back (serverbase.go:218-232). -/
structure Task (σ ρ : Type) where
  acquire : LockMode
  body : Prog σ ρ
  release : LockMode

/-- Where a goroutine is: before the lock, inside with code left to run, after the unlock. -/
inductive Phase (σ ρ : Type) where
  | idle
  | running (p : Prog σ ρ)
  | done (r : ρ)

/-- State of a `sync.RWMutex`. -/
structure RWLock where
  readers : Nat
  writer : Bool
deriving DecidableEq, Inhabited

/-- Shared memory, lock and goroutines. -/
structure Sys (σ ρ : Type) where
  mem : σ
  lock : RWLock
  phase : Nat → Phase σ ρ

/-- One step of goroutine `i`: take the lock, run one memory step, give the lock back. -/
inductive LockEv where
  | lock (i : Nat)
  | step (i : Nat)
  | unlock (i : Nat)
deriving DecidableEq

/-- Outcome of a step: it cannot happen now, it kills the process, or it happens. -/
inductive Outcome (α : Type) where
  | blocked
  | fatal
  | ok (a : α)

/-- `RLock` waits for the writer, `Lock` waits for everyone (who is let in next is in `Model/Waiting.lean`; it only removes schedules). -/
def RWLock.take (l : RWLock) : LockMode → Outcome RWLock
  | .read => if l.writer then .blocked else .ok { l with readers := l.readers + 1 }
  | .write => if l.writer || l.readers != 0 then .blocked else .ok { l with writer := true }

/-- `RUnlock` and `Unlock`; giving back a lock that is not held is a fatal error of the Go runtime. -/
def RWLock.give (l : RWLock) : LockMode → Outcome RWLock
  | .read => if l.readers = 0 then .fatal else .ok { l with readers := l.readers - 1 }
  | .write => if l.writer then .ok { l with writer := false } else .fatal

/-- Change the phase of goroutine `i`. -/
def setPhase {σ ρ : Type} (f : Nat → Phase σ ρ) (i : Nat) (p : Phase σ ρ) : Nat → Phase σ ρ := fun j => if j = i then p else f j

/-- serverbase.go:217-232: one step of the system. -/
def Sys.exec {σ ρ : Type} (T : Nat → Task σ ρ) (s : Sys σ ρ) : LockEv → Outcome (Sys σ ρ)
  | .lock i =>
    match s.phase i with
    | .idle =>
      match s.lock.take (T i).acquire with
      | .ok l => .ok { s with lock := l, phase := setPhase s.phase i (.running (T i).body) }
      | .blocked => .blocked
      | .fatal => .fatal
    | _ => .blocked
  | .step i =>
    match s.phase i with
    | .running (.act w n) => .ok { s with mem := w s.mem, phase := setPhase s.phase i (.running (n s.mem)) }
    | _ => .blocked
  | .unlock i =>
    match s.phase i with
    | .running (.ret r) =>
      match s.lock.give (T i).release with
      | .ok l => .ok { s with lock := l, phase := setPhase s.phase i (.done r) }
      | .blocked => .blocked
      | .fatal => .fatal
    | _ => .blocked

/-- A whole schedule. -/
def Sys.execAll {σ ρ : Type} (T : Nat → Task σ ρ) (s : Sys σ ρ) : List LockEv → Outcome (Sys σ ρ)
  | [] => .ok s
  | e :: es =>
    match s.exec T e with
    | .ok s' => s'.execAll T es
    | .blocked => .blocked
    | .fatal => .fatal

/-- Before anything runs: the lock is free. -/
def Sys.initial {σ ρ : Type} (m : σ) : Sys σ ρ := { mem := m, lock := { readers := 0, writer := false }, phase := fun _ => .idle }

/-! ### The jobs of the key server -/

/-- What `conf.Load` finds when the configuration is reloaded (application/server/config.go:56-93): the decoded file (`none`: not
readable or not decodable), with the `[policies]` table if there is one, the two key files, and whether everything that is
dereferenced after the keys is there: the `[logger]` table (line 90), and in each of the `[[addresses]]` the embedded `*ServerAddress`
(lines 85-88; the TOML library leaves it nil if the table has none of the keys `address`, `cert` and `key`). -/
structure LoadedPolicies where
  epochDeadline : UInt64
  signKey : Option Bytes
  vrfKey : Option Bytes
deriving DecidableEq, Inhabited

/-- See `LoadedPolicies`. -/
structure LoadedConf where
  policies : Option LoadedPolicies
  logger : Bool
deriving DecidableEq, Inhabited

/-- application/server/config.go:56-93 `Load`: outer `none` = panic (`conf.Policies`, `conf.Logger` or an embedded `*ServerAddress` nil), inner `none` = an
error, otherwise the deadline of the policies. The TLS paths and the logger path it also sets are not modelled. -/
def loadConfig (file : Option LoadedConf) : Go (Option UInt64) :=
  match file with
  | none => some none
  | some conf =>
    match conf.policies with
    | none => none
    | some p =>
      match p.signKey with
      | none => some none
      | some sk =>
        if sk.length ≠ 64 then some none
        else
          match p.vrfKey with
          | none => some none
          | some vk =>
            if vk.length ≠ 64 then some none
            else if conf.logger then some (some p.epochDeadline) else none

/-- application/server/server.go:130-143 `updatePolicies`. -/
def Directory.updatePolicies (d : Directory) (file : Option LoadedConf) : Go Directory :=
  (loadConfig file).map fun
    | none => d
    | some t => d.setPolicies t

/-- The critical sections of the key server: a request past screening (serverbase.go:217-232), an epoch update
(serverbase.go:271-274), a policy reload (serverbase.go:286-288). -/
inductive Job where
  | request (rnd : Option Bytes) (req : Request)
  | epochUpdate
  | reload (file : Option LoadedConf)
deriving DecidableEq

/-- What the section does to the directory, and the answer of a request. -/
def Job.apply (C : Crypto) (d : Directory) : Job → Go (Directory × Option Response)
  | .request rnd req => (d.handleRequests C rnd req).map fun x => (x.1, some x.2)
  | .epochUpdate => some (d.update C, none)
  | .reload file => (d.updatePolicies file).map fun d' => (d', none)

/-- Which lock the section takes: serverbase.go:218-223, 271, 286. -/
def Job.acquire : Job → LockMode
  | .request _ req => lockMode req.type
  | .epochUpdate => .write
  | .reload _ => .write

/-- Which lock it gives back: serverbase.go:227-232, 274, 288. -/
def Job.release : Job → LockMode
  | .request _ req => unlockMode req.type
  | .epochUpdate => .write
  | .reload _ => .write


/-! ### The code of the sections, in steps -/

/-- protocol/directory/directory.go:70-76 `Update` in two steps: the PAD, then the map of TBs. -/
def updateBody (C : Crypto) : Prog Directory (Go (Option Response)) :=
  .act (fun d => { d with pad := d.pad.update C (some d.policies) }) fun _ =>
  .act (fun d => { d with tbs := fun _ => none }) fun _ => .ret (some none)

/-- protocol/directory/directory.go:129-164 `Register` in three steps: everything up to the TB only reads; then `pad.Set`; then
the TB is stored. -/
def registerBody (C : Crypto) (rnd : Option Bytes) (req : RegistrationRequest) : Prog Directory (Go (Option Response)) :=
  .act id fun d =>
    if req.username.length = 0 ∨ req.key.length = 0 then .ret (some (some (newErrorResponse ErrMalformedMessage)))
    else
      match d.pad.lookup C req.username with
      | none => .ret none
      | some none => .ret (some (some (newErrorResponse ErrDirectory)))
      | some (some ap) =>
        match ap.found with
        | none => .ret none
        | some true => .ret (some (some (newSingleProof ap d.latestSTR none ReqNameExisted)))
        | some false =>
          match (if d.useTBs then d.tbs req.username else none) with
          | some tb => .ret (some (some (newSingleProof ap d.latestSTR (some tb) ReqNameExisted)))
          | none =>
            let tb : Option TB := if d.useTBs then some (d.newTB C req.username req.key) else none
            .act (fun d => match d.pad.set C rnd req.username req.key with
              | some (pad', _) => { d with pad := pad' }
              | none => d) fun d =>
            match d.pad.set C rnd req.username req.key with
            | none => .ret none
            | some (_, false) => .ret (some (some (newErrorResponse ErrDirectory)))
            | some (_, true) =>
              .act (fun d => match tb with
                | some t => { d with tbs := fun n => if n = req.username then some t else d.tbs n }
                | none => d) fun d => .ret (some (some (newSingleProof ap d.latestSTR tb ReqSuccess)))

/-- The code of the sections: registration and update in steps; lookups read once; the others in one step. -/
def Job.code (C : Crypto) : Job → Prog Directory (Go (Option Response))
  | .request rnd ⟨t, p⟩ =>
    if t = RegistrationType then
      match p with
      | .registration req => registerBody C rnd req
      | p => .act id fun d => .ret ((d.handleRequests C rnd ⟨t, p⟩).map fun x => some x.2)
    else .act id fun d => .ret ((d.handleRequests C rnd ⟨t, p⟩).map fun x => some x.2)
  | .epochUpdate => updateBody C
  | .reload file => .act (fun d => (d.updatePolicies file).getD d) fun d => .ret ((d.updatePolicies file).map fun _ => none)

/-- The goroutines of the server: goroutine `i` runs the code `bodies i` for the section `jobs i` (serverbase.go:195-250, 265-291;
each round of the two background loops is a goroutine of its own here). -/
def serverTask (jobs : Nat → Job) (bodies : Nat → Prog Directory (Go (Option Response))) (i : Nat) :
    Task Directory (Go (Option Response)) := { acquire := (jobs i).acquire, body := bodies i, release := (jobs i).release }

end Coniks

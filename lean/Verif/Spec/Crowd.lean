import Verif.Spec.Users
import Verif.Spec.Server
import Verif.Spec.Linear
import Verif.Model.Json.Codec
/-
Many users at a server that serves them at the same time (C87): the goroutines and the lock of the server, the clients, and what travels
between them.
-/
namespace Coniks.Spec
open Coniks

/-- What a goroutine of the server works on: something none of our users asked for (an epoch update, a reload, a request of somebody else), or
a call of user `u`: a lookup of a name, for which he expects `key` (none = no expectation), or a registration (`rnd`: what the server's random
source gives; none = it fails). -/
inductive Call where
  | other (j : Job)
  | lookup (u : Nat) (n : Bytes) (key : Option Bytes)
  | register (u : Nat) (rnd : Option Bytes) (n k : Bytes)

/-- Whose call it is. -/
def Call.user : Call → Option Nat
  | .other _ => none
  | .lookup u _ _ => some u
  | .register u _ _ _ => some u

/-- The critical section it becomes at the server. -/
def Call.job : Call → Job
  | .other j => j
  | .lookup _ n _ => .request none ⟨1, .keyLookup ⟨n⟩⟩
  | .register _ rnd n k => .request rnd ⟨0, .registration ⟨n, k⟩⟩

/-- The user handles the answer `resp`: his client afterwards and what he heard (outer none: a crash). -/
def Call.handle (C : Crypto) (c : Client) (resp : Response) : Call → Go (Client × Heard)
  | .other _ => none
  | .lookup u n key => (c.handleResponse C KeyLookupType resp n key).map fun y => (y.1, ⟨u, n, key, resp, y.2⟩)
  | .register u _ n k => (c.handleResponse C RegistrationType resp n (some k)).map fun y => (y.1, ⟨u, n, some k, resp, y.2⟩)

/-- The server, the clients, which calls have been sent, the call each user is waiting for, and what has been heard so far (with the number of
the call). -/
structure Crowd where
  sys : Sys Directory (Go (Option Response))
  users : Nat → Client
  sent : Nat → Bool
  waiting : Nat → Option Nat
  heard : List (Nat × Heard)

/-- What can happen: a user sends call `i`; a goroutine of the server makes a step; the answer to call `i` reaches the user, who handles it; user
`u` gives up waiting (the connection is lost before or after the server has worked on the call, or the answer is). -/
inductive CrowdEv where
  | send (i : Nat)
  | server (e : LockEv)
  | hear (i : Nat)
  | giveUp (u : Nat)
deriving DecidableEq

/-- The server does not work on a user's call before it was sent. -/
def Crowd.mayStep (calls : Nat → Call) (s : Crowd) : LockEv → Bool
  | .lock i => (calls i).user.isNone || s.sent i
  | _ => true

/-- The goroutines of the server. -/
def crowdTask (C : Crypto) (calls : Nat → Call) : Nat → Task Directory (Go (Option Response)) :=
  serverTask (fun i => (calls i).job) fun i => (calls i).job.code C

/-- One event. A user waits for one call at a time (his client is one process, which does one command after the other). An answer of more than
8192 bytes does not arrive: the client reads no more, and cannot decode what it has read (testutil.go:159-164, C63); he can only give up. -/
def Crowd.exec (C : Crypto) (calls : Nat → Call) (s : Crowd) : CrowdEv → Outcome Crowd
  | .send i =>
    match (calls i).user with
    | none => .blocked
    | some u =>
      if s.sent i = true ∨ s.waiting u ≠ none then .blocked
      else .ok { s with sent := fun j => if j = i then true else s.sent j, waiting := fun w => if w = u then some i else s.waiting w }
  | .server e =>
    if s.mayStep calls e = true then
      match s.sys.exec (crowdTask C calls) e with
      | .ok x => .ok { s with sys := x }
      | .blocked => .blocked
      | .fatal => .fatal
    else .blocked
  | .hear i =>
    match (calls i).user with
    | none => .blocked
    | some u =>
      if s.waiting u = some i then
        match s.sys.phase i with
        | .done (some (some resp)) =>
          if 8192 < (Json.marshalResponse resp).length then .blocked
          else
            match (calls i).handle C (s.users u) resp with
            | none => .fatal
            | some y => .ok { s with
                users := setUser s.users u y.1
                waiting := fun w => if w = u then none else s.waiting w
                heard := s.heard ++ [(i, y.2)] }
        | _ => .blocked
      else .blocked
  | .giveUp u => .ok { s with waiting := fun w => if w = u then none else s.waiting w }

/-- A whole schedule. -/
def Crowd.execAll (C : Crypto) (calls : Nat → Call) (s : Crowd) : List CrowdEv → Outcome Crowd
  | [] => .ok s
  | e :: es =>
    match s.exec C calls e with
    | .ok s' => s'.execAll C calls es
    | .blocked => .blocked
    | .fatal => .fatal

/-- Before anything happens. -/
def Crowd.initial (d : Directory) (us : Nat → Client) : Crowd := ⟨Sys.initial d, us, fun _ => false, fun _ => none, []⟩

/-- The calls the server has worked on, in the order in which it finished them. -/
def served : List CrowdEv → List Nat
  | [] => []
  | .server (.unlock i) :: es => i :: served es
  | _ :: es => served es

/-- The call was heard. -/
def Crowd.Heard (s : Crowd) (i : Nat) : Bool := (s.heard.map Prod.fst).contains i

/-- A call as an event of the sequential world of C84: a call of a user who handles the answer at once, if he heard it (`h`); otherwise just a
call at the directory. -/
def Call.asOp (h : Bool) : Call → List UserOp
  | .other j => (Job.ops j).map .dir
  | .lookup u n key => [if h then .lookup u n key else .dir (.keyLookup ⟨n⟩)]
  | .register u rnd n k => [if h then .register u rnd n k else .dir (.register rnd ⟨n, k⟩)]

/-- The sequential history: the calls one by one in the order in which the server finished them. -/
def oneByOne (calls : Nat → Call) (s : Crowd) (es : List CrowdEv) : List UserOp :=
  (served es).flatMap fun i => (calls i).asOp (s.Heard i)

/-- The part of it that is the directory's: without the verdict of the client. -/
def Outline.answer (o : Outline) : Outline := { o with verdict := none }

/-- The answer shows the key `v` and no other, with success or `ReqNameExisted`; the directory refuses nothing but an empty name or key. -/
def ShowsKey (v : Bytes) (o : Outline) : Prop :=
  (o.status = ErrMalformedMessage ∧ (o.name = [] ∨ o.key = some [])) ∨ (o.shown = [v] ∧ (o.status = ReqSuccess ∨ o.status = ReqNameExisted))

end Coniks.Spec

import Verif.Spec.Session
import Verif.Spec.Mitm
/-
Several users of one honest directory, whose calls interleave in any order.
-/
namespace Coniks.Spec
open Coniks

/-- One event: a call at the directory that involves none of our users (an epoch ends, the policies change, somebody else asks something);
user `i` gets a new client, created (`New`) with the directory's public key and its current STR; user `i` looks a name up, expecting `key`
(none = no expectation), or registers a name, and handles the answer. -/
inductive UserOp where
  | dir (op : DirOp)
  | join (i : Nat)
  | lookup (i : Nat) (n : Bytes) (key : Option Bytes)
  | register (i : Nat) (rnd : Option Bytes) (n k : Bytes)

/-- The call made at the directory, if any. -/
def UserOp.dirOps : UserOp → List DirOp
  | .dir op => [op]
  | .join _ => []
  | .lookup _ n _ => [.keyLookup ⟨n⟩]
  | .register _ rnd n k => [.register rnd ⟨n, k⟩]

/-- What a user hears: the answer to his call about `name`, for which he expects `key` (none = no expectation), and the error that his
`HandleResponse` returns (none = nil). -/
structure Heard where
  user : Nat
  name : Bytes
  key : Option Bytes
  resp : Response
  verdict : Option ErrorCode

/-- User `i` has the client `c` from now on. -/
def setUser (us : Nat → Client) (i : Nat) (c : Client) : Nat → Client := fun j => if j = i then c else us j

/-- The directory and all clients after a history, and everything the users heard, in order. `pk`: the public key the users know. -/
def runUsers (C : Crypto) (pk : Bytes) : Directory → (Nat → Client) → List UserOp → Go (Directory × (Nat → Client) × List Heard)
  | d, us, [] => some (d, us, [])
  | d, us, .dir op :: ops => (d.step C op).bind fun x => runUsers C pk x.1 us ops
  | d, us, .join i :: ops => (newClient d.latestSTR true pk).bind fun c => runUsers C pk d (setUser us i c) ops
  | d, us, .lookup i n key :: ops =>
    (d.keyLookup C ⟨n⟩).bind fun resp => ((us i).handleResponse C KeyLookupType resp n key).bind fun y =>
      (runUsers C pk d (setUser us i y.1) ops).map fun z => (z.1, z.2.1, ⟨i, n, key, resp, y.2⟩ :: z.2.2)
  | d, us, .register i rnd n k :: ops =>
    (d.register C rnd ⟨n, k⟩).bind fun x => ((us i).handleResponse C RegistrationType x.2 n (some k)).bind fun y =>
      (runUsers C pk x.1 (setUser us i y.1) ops).map fun z => (z.1, z.2.1, ⟨i, n, some k, x.2, y.2⟩ :: z.2.2)

/-- The history as one user sees it: the calls of the others are just calls at the directory. -/
def UserOp.seenBy (i : Nat) : UserOp → List SesOp
  | .dir op => [.dir op]
  | .join _ => []
  | .lookup j n key => [if j = i then .lookup n key else .dir (.keyLookup ⟨n⟩)]
  | .register j rnd n k => [if j = i then .register rnd n k else .dir (.register rnd ⟨n, k⟩)]

/-- What can be told of an answer without cryptography: who asked, about which name, expecting which key, what his client said, the status
code, the keys shown. -/
structure Outline where
  user : Nat
  name : Bytes
  key : Option Bytes
  verdict : Option ErrorCode
  status : ErrorCode
  shown : List Bytes
deriving DecidableEq

def Heard.outline (x : Heard) : Outline := ⟨x.user, x.name, x.key, x.verdict, x.resp.error, keysShown x.resp⟩

/-- The same from the answer of the abstract directory (status, key in the tree, key promised) to a user who expects `key`. -/
def outline (i : Nat) (n : Bytes) (key : Option Bytes) (a : ErrorCode × Option Bytes × Option Bytes) : Outline :=
  ⟨i, n, key, verdict key a, a.1, a.2.1.toList ++ a.2.2.toList⟩

/-- How a user is told about a name whose key is `v`: the directory refuses nothing but an empty name or key, he is shown `v` and no
other key, and his client returns nil unless he expects another key. -/
def SaysKey (v : Bytes) (o : Outline) : Prop :=
  (o.status = ErrMalformedMessage ∧ (o.name = [] ∨ o.key = some [])) ∨
  (o.shown = [v] ∧ (o.status = ReqSuccess ∨ o.status = ReqNameExisted) ∧
    o.verdict = if o.key = none ∨ o.key = some v then none else some CheckBindingsDiffer)

/-- What the users should hear, computed from the abstract directory alone. -/
def usersHear : AbsDir → List UserOp → List Outline
  | _, [] => []
  | A, .dir op :: ops => usersHear (A.step op) ops
  | A, .join _ :: ops => usersHear A ops
  | A, .lookup i n key :: ops => outline i n key (A.lookupAnswer n) :: usersHear A ops
  | A, .register i rnd n k :: ops =>
    outline i n (some k) (A.registerAnswer rnd n k) :: usersHear (A.step (.register rnd ⟨n, k⟩)) ops

/-- Every user keeps up: whenever he makes a call that is answered, at most one epoch passed since his last answered call (or since he joined).
`lag i` counts the epochs for user `i`. -/
def AllKeepUp : (Nat → Nat) → AbsDir → List UserOp → Prop
  | _, _, [] => True
  | lag, A, .dir op :: ops => AllKeepUp (fun i => if op = .update then lag i + 1 else lag i) (A.step op) ops
  | lag, A, .join i :: ops => AllKeepUp (fun j => if j = i then 0 else lag j) A ops
  | lag, A, .lookup i n _ :: ops =>
    if answered (A.lookupAnswer n) then lag i ≤ 1 ∧ AllKeepUp (fun j => if j = i then 0 else lag j) A ops else AllKeepUp lag A ops
  | lag, A, .register i rnd n k :: ops =>
    if answered (A.registerAnswer rnd n k) then
      lag i ≤ 1 ∧ AllKeepUp (fun j => if j = i then 0 else lag j) (A.step (.register rnd ⟨n, k⟩)) ops
    else AllKeepUp lag (A.step (.register rnd ⟨n, k⟩)) ops

instance : ∀ lag A ops, Decidable (AllKeepUp lag A ops)
  | _, _, [] => isTrue trivial
  | lag, A, .dir op :: ops => instDecidableAllKeepUp (fun i => if op = .update then lag i + 1 else lag i) (A.step op) ops
  | lag, A, .join i :: ops => instDecidableAllKeepUp (fun j => if j = i then 0 else lag j) A ops
  | lag, A, .lookup i n _ :: ops =>
    have := instDecidableAllKeepUp (fun j => if j = i then 0 else lag j) A ops
    have := instDecidableAllKeepUp lag A ops
    inferInstanceAs (Decidable (if answered (A.lookupAnswer n) then lag i ≤ 1 ∧ AllKeepUp (fun j => if j = i then 0 else lag j) A ops
      else AllKeepUp lag A ops))
  | lag, A, .register i rnd n k :: ops =>
    have := instDecidableAllKeepUp (fun j => if j = i then 0 else lag j) (A.step (.register rnd ⟨n, k⟩)) ops
    have := instDecidableAllKeepUp lag (A.step (.register rnd ⟨n, k⟩)) ops
    inferInstanceAs (Decidable (if answered (A.registerAnswer rnd n k) then
      lag i ≤ 1 ∧ AllKeepUp (fun j => if j = i then 0 else lag j) (A.step (.register rnd ⟨n, k⟩)) ops
      else AllKeepUp lag (A.step (.register rnd ⟨n, k⟩)) ops))

/-- The names our users ask about or register. -/
def userNames : List UserOp → List Bytes
  | [] => []
  | .lookup _ n _ :: ops => n :: userNames ops
  | .register _ _ n _ :: ops => n :: userNames ops
  | _ :: ops => userNames ops

/-- What is needed for a client in the hands of an adversary who can do anything but forge (see C66): it starts from an STR of the directory
whose history is `ops`, handles `calls`, and then accepts `msg` about the name `n`. -/
structure Besieged (C : Crypto) (t0 : UInt64) (sk vk : Bytes) (size : Nat) (r₁ r₂ : Bytes) (ops : List DirOp) (log : List STR) (n : Bytes)
    (msg : Response) : Prop where
  accepted : ∃ (cc₀ cc cc' : Client) (t₀ : STR) (calls : List ClientCall) (ty : Int) (key : Option Bytes), t₀ ∈ log ∧
    cc₀.aud = ⟨C.signPub sk, ⟨t₀.core, some t₀.ad⟩⟩ ∧ cc₀.useTBs = true ∧ clientAfter C cc₀ calls = some cc ∧
    cc.handleResponse C ty msg n key = some (cc', none) ∧
    ∀ x ∈ calls, Unforged C (C.signPub sk) (WasSigned C t0 sk vk size r₁ r₂ ops log) x.msg
  unforged : Unforged C (C.signPub sk) (WasSigned C t0 sk vk size r₁ r₂ ops log) msg
  vrf : VrfHonest C vk n msg
  noCollision : ∀ t ∈ log, ∀ ap, t.tree.get (C.vrfProve vk n).1 = some ap →
    NoWindow C.hash ap ∧ NoCollision C.hash (bothInputs C msg ap n)

/-- The keys the client believes after it accepted `msg`: the one in the tree, with a salt of 32 bytes, or the one promised. -/
def believes (msg : Response) (v : Bytes) : Prop :=
  (treeSays msg = some (some v) ∧ (receivedSalt msg).length = 32) ∨
  (treeSays msg = some none ∧ msg.error ≠ ReqNameNotFound ∧ ∃ p, promised msg = some p ∧ p.value = v)

end Coniks.Spec

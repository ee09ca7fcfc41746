import Verif.Spec.Client
import Verif.Spec.Directory
/-
A client that talks to an honest directory, together with everything else that happens at the directory.
-/
namespace Coniks.Spec
open Coniks

/-- One event: a call at the directory that does not involve our client (requests of others, epoch updates, policy changes), or our client
looks a name up or registers one, and handles the answer. `key` is the key the client expects (none = no expectation); when it registers, it
expects its own key (cli/coniksclient/internal/cmd/run.go:140, 194, 196). -/
inductive SesOp where
  | dir (op : DirOp)
  | lookup (n : Bytes) (key : Option Bytes)
  | register (rnd : Option Bytes) (n k : Bytes)

/-- The call made at the directory. -/
def SesOp.dirOp : SesOp → DirOp
  | .dir op => op
  | .lookup n _ => .keyLookup ⟨n⟩
  | .register rnd n k => .register rnd ⟨n, k⟩

/-- The directory and the client after a session, and the errors `HandleResponse` returned to the client (none = nil), in order. -/
def runSession (C : Crypto) : Directory → Client → List SesOp → Go (Directory × Client × List (Option ErrorCode))
  | d, cc, [] => some (d, cc, [])
  | d, cc, .dir op :: ops => (d.step C op).bind fun x => runSession C x.1 cc ops
  | d, cc, .lookup n key :: ops =>
    (d.keyLookup C ⟨n⟩).bind fun resp => (cc.handleResponse C KeyLookupType resp n key).bind fun y =>
      (runSession C d y.1 ops).map fun z => (z.1, z.2.1, y.2 :: z.2.2)
  | d, cc, .register rnd n k :: ops =>
    (d.register C rnd ⟨n, k⟩).bind fun x => (cc.handleResponse C RegistrationType x.2 n (some k)).bind fun y =>
      (runSession C x.1 y.1 ops).map fun z => (z.1, z.2.1, y.2 :: z.2.2)

/-- What the client should say to an answer (status, key in the tree, key promised): the status if it is an error; `CheckBindingsDiffer`
if it expects a key and is shown or promised another; else nil. -/
def verdict (key : Option Bytes) (a : ErrorCode × Option Bytes × Option Bytes) : Option ErrorCode :=
  if a.1 = ErrMalformedMessage ∨ a.1 = ErrDirectory then some a.1
  else match key, a.2.1.or a.2.2 with
    | some k, some v => if v = k then none else some CheckBindingsDiffer
    | _, _ => none

/-- The verdicts the client should give, computed from the abstract directory alone. -/
def verdicts : AbsDir → List SesOp → List (Option ErrorCode)
  | _, [] => []
  | A, .dir op :: ops => verdicts (A.step op) ops
  | A, .lookup n key :: ops => verdict key (A.lookupAnswer n) :: verdicts A ops
  | A, .register rnd n k :: ops =>
    verdict (some k) (A.registerAnswer rnd n k) :: verdicts (A.step (.register rnd ⟨n, k⟩)) ops

/-- The answer carries an STR. -/
def answered (a : ErrorCode × Option Bytes × Option Bytes) : Bool := !(a.1 == ErrMalformedMessage || a.1 == ErrDirectory)

/-- Whenever our client makes a call that is answered, at most one epoch passed since its last answered call. `lag` counts the epochs. -/
def KeepsUp : Nat → AbsDir → List SesOp → Prop
  | _, _, [] => True
  | lag, A, .dir op :: ops => KeepsUp (if op = .update then lag + 1 else lag) (A.step op) ops
  | lag, A, .lookup n _ :: ops =>
    if answered (A.lookupAnswer n) then lag ≤ 1 ∧ KeepsUp 0 A ops else KeepsUp lag A ops
  | lag, A, .register rnd n k :: ops =>
    if answered (A.registerAnswer rnd n k) then lag ≤ 1 ∧ KeepsUp 0 (A.step (.register rnd ⟨n, k⟩)) ops
    else KeepsUp lag (A.step (.register rnd ⟨n, k⟩)) ops

instance : ∀ lag A ops, Decidable (KeepsUp lag A ops)
  | _, _, [] => isTrue trivial
  | lag, A, .dir op :: ops => instDecidableKeepsUp (if op = .update then lag + 1 else lag) (A.step op) ops
  | lag, A, .lookup n _ :: ops =>
    have := instDecidableKeepsUp 0 A ops
    have := instDecidableKeepsUp lag A ops
    inferInstanceAs (Decidable (if answered (A.lookupAnswer n) then lag ≤ 1 ∧ KeepsUp 0 A ops else KeepsUp lag A ops))
  | lag, A, .register rnd n k :: ops =>
    have := instDecidableKeepsUp 0 (A.step (.register rnd ⟨n, k⟩)) ops
    have := instDecidableKeepsUp lag (A.step (.register rnd ⟨n, k⟩)) ops
    inferInstanceAs (Decidable (if answered (A.registerAnswer rnd n k) then lag ≤ 1 ∧ KeepsUp 0 (A.step (.register rnd ⟨n, k⟩)) ops
      else KeepsUp lag (A.step (.register rnd ⟨n, k⟩)) ops))

/-- All the calls of the client that are answered are refused with `CheckBadSTR`; the others return the directory's error. -/
def refusals : AbsDir → List SesOp → List (Option ErrorCode)
  | _, [] => []
  | A, .dir op :: ops => refusals (A.step op) ops
  | A, .lookup n _ :: ops =>
    some (if answered (A.lookupAnswer n) then CheckBadSTR else (A.lookupAnswer n).1) :: refusals A ops
  | A, .register rnd n k :: ops =>
    some (if answered (A.registerAnswer rnd n k) then CheckBadSTR else (A.registerAnswer rnd n k).1) ::
      refusals (A.step (.register rnd ⟨n, k⟩)) ops

/-- The names that occur in registrations and in our client's lookups. -/
def sesNames : List SesOp → List Bytes
  | [] => []
  | .lookup n _ :: ops => n :: sesNames ops
  | op :: ops => regNames [op.dirOp] ++ sesNames ops

/-- The names our client itself asks about. -/
def ownNames : List SesOp → List Bytes
  | [] => []
  | .lookup n _ :: ops => n :: ownNames ops
  | .register _ n _ :: ops => n :: ownNames ops
  | .dir _ :: ops => ownNames ops

end Coniks.Spec

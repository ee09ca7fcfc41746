import Verif.Spec.DirExact
import Verif.Spec.Session
/-
What a client says to the answers of an honest directory, exactly, for every VRF (C33): computed from the index-keyed directory
`ExactDir`, the number of epochs the client is behind, and the keys it was promised.
-/
namespace Coniks.Spec
open Coniks

/-- Whether the proof that a directory with the VRF key `vk` makes for a name passes the VRF check. -/
def vrfOk (C : Crypto) (vk n : Bytes) : Bool := C.vrfVerify (C.vrfPub vk) n (C.vrfProve vk n).1 (C.vrfProve vk n).2

noncomputable section
open Classical

/-- What the client says about the name `n`, for which it expects `key` (none = no expectation) and was promised `held`, when it is
shown the finding `f` and given the promise `prom` by the directory under an STR it accepts, and the promise it holds afterwards.
Outer `none`: it crashes. -/
def clientSays (hash : Bytes → Bytes) (vrfOk : Bytes → Bool) (isLookup : Bool) (held : Option Bytes) (n : Bytes) (key : Option Bytes)
    (f : Finding) (prom : Option Bytes) : Option (Option ErrorCode × Option Bytes) :=
  if vrfOk n = false then some (some CheckBadVRFProof, held)
  else match f with
    | .ghost => if key = none ∨ key = some [] then none else some (some CheckBindingsDiffer, held)
    | .entry e =>
      if key ≠ none ∧ key ≠ some e.key then some (some CheckBindingsDiffer, held)
      else if hash (e.salt ++ n ++ e.key) ≠ hash (e.salt ++ e.name ++ e.key) then some (some CheckBadCommitment, held)
      else if isLookup then
        if held ≠ none ∧ held ≠ some e.key then some (some CheckBrokenPromise, held) else some (none, none)
      else some (none, held)
    | .absent =>
      match prom with
      | none => some (none, held)
      | some v => if key ≠ none ∧ key ≠ some v then some (some CheckBindingsDiffer, held) else some (none, some v)

/-- The directory, how many epochs ago the client last accepted an STR, the keys it was promised. -/
structure Meeting where
  dir : ExactDir
  lag : Nat
  held : Bytes → Option Bytes

/-- The client handles an answer: what it says, and how things stand afterwards, with the directory in the state `E'`. -/
def Meeting.hear (hash : Bytes → Bytes) (vrfOk : Bytes → Bool) (M : Meeting) (E' : ExactDir) (isLookup : Bool) (n : Bytes)
    (key : Option Bytes) : ErrorCode × Option (Finding × Option Bytes) → Option (Option ErrorCode × Meeting)
  | (code, none) => some (some code, { M with dir := E' })
  | (_, some (f, prom)) =>
    if 2 ≤ M.lag then some (some CheckBadSTR, { M with dir := E' })
    else (clientSays hash vrfOk isLookup (M.held n) n key f prom).map fun x =>
      (x.1, ⟨E', 0, fun m => if m = n then x.2 else M.held m⟩)

/-- Everything the client says in a session; none if it crashes. -/
def exactVerdicts (idx hash : Bytes → Bytes) (vrfOk : Bytes → Bool) : Meeting → List SesOp → Option (List (Option ErrorCode))
  | _, [] => some []
  | M, .dir op :: ops =>
    exactVerdicts idx hash vrfOk ⟨M.dir.step idx hash op, if op = .update then M.lag + 1 else M.lag, M.held⟩ ops
  | M, .lookup n key :: ops =>
    (M.hear hash vrfOk M.dir true n key (M.dir.lookupAnswer idx n)).bind fun x =>
      (exactVerdicts idx hash vrfOk x.2 ops).map (x.1 :: ·)
  | M, .register rnd n k :: ops =>
    (M.hear hash vrfOk (M.dir.step idx hash (.register rnd ⟨n, k⟩)) false n (some k) (M.dir.registerAnswer idx rnd n k)).bind
      fun x => (exactVerdicts idx hash vrfOk x.2 ops).map (x.1 :: ·)

end
end Coniks.Spec

import Verif.Spec.Cli
import Verif.Spec.SessionExact
/-
Everything the command-line client prints in a session with an honest directory, exactly, for every VRF and however far the client is
behind (C64).
-/
namespace Coniks.Spec
open Coniks Json

/-- Why a command failed. -/
def reasonText (e : ErrorCode) : Bytes :=
  if e = ErrMalformedMessage then ascii "Error: [coniks] Malformed message"
  else if e = ErrDirectory then ascii "Error: [coniks] Directory error"
  else if e = CheckBadVRFProof then ascii "Error: [coniks] Returned index is not valid for the given name"
  else if e = CheckBadCommitment then ascii "Error: [coniks] The name-to-key binding commitment is not verifiable"
  else if e = CheckBrokenPromise then ascii "Error: [coniks] The directory broke the registration promise"
  else ascii "Error: [coniks] The hash chain is inconsistent. Maybe the client missed an epoch in between two commands, monitoring isn't supported yet."

/-- The line after a registration, by what the client found (`none`: all is well) and the status of the answer. -/
def registerWords (v : Option ErrorCode) (code : ErrorCode) (n : Bytes) : Bytes :=
  match v with
  | none => if code = ReqSuccess then ascii "Succesfully registered name: " ++ n else ascii "Name is already registered."
  | some e =>
    if e = CheckBindingsDiffer then ascii "Are you trying to update your binding? Unfortunately, KeyChange isn't supported yet."
    else reasonText e

/-- The line after a lookup. -/
def lookupWords (v : Option ErrorCode) (code : ErrorCode) : Bytes :=
  match v with
  | none => if code = ReqSuccess then ascii "Found! Key bound to name is: []" else ascii "Name isn't registered."
  | some e => reasonText e

noncomputable section

/-- Everything that is printed; none if the client crashes. -/
def exactLines (idx hash : Bytes → Bytes) (vrfOk : Bytes → Bool) : Meeting → Bool → List ReplEvent → Option (List (Bool × Bytes))
  | _, _, [] => some []
  | M, ts, .dir op :: evs =>
    exactLines idx hash vrfOk ⟨M.dir.step idx hash op, if op = .update then M.lag + 1 else M.lag, M.held⟩ ts evs
  | M, ts, .line rnd l :: evs =>
    match command (fields l) with
    | .register n k =>
      (M.hear hash vrfOk (M.dir.step idx hash (.register rnd ⟨n, k⟩)) false n (some k) (M.dir.registerAnswer idx rnd n k)).bind fun x =>
        (exactLines idx hash vrfOk x.2 ts evs).map
          ((ts, ascii "[+] " ++ registerWords x.1 (M.dir.registerAnswer idx rnd n k).1 n) :: ·)
    | .lookup n =>
      (M.hear hash vrfOk M.dir true n none (M.dir.lookupAnswer idx n)).bind fun x =>
        (exactLines idx hash vrfOk x.2 ts evs).map ((ts, ascii "[+] " ++ lookupWords x.1 (M.dir.lookupAnswer idx n).1) :: ·)
    | .exit => some [(ts, ascii "[+] See ya.")]
    | c => (exactLines idx hash vrfOk M (localCommand ts (utf8 l) c).1 evs).map ((localCommand ts (utf8 l) c).2.toList ++ ·)

end
end Coniks.Spec

import Verif.Spec.Desk
import Verif.Spec.Chain
import Verif.Proofs.DirReads
/-
A client program that will never be served again (C90): its server was replaced, or it has missed an epoch.
-/
namespace Coniks.Spec
open Coniks Json

/-- What a user does at a terminal: types a line, or ends the input. -/
inductive Typed where
  | line (l : List Char)
  | ended (err : Bytes)

/-- What the user of a session does in it. -/
def typed : List NetEvent → List Typed
  | [] => []
  | .dir _ :: evs => typed evs
  | .line _ l _ :: evs => .line l :: typed evs
  | .ended err :: evs => .ended err :: typed evs

/-- What is done at terminal `u` in a history of a machine. -/
def typedAt (u : Nat) : List DeskEv → List Typed
  | [] => []
  | .line v _ l _ _ :: evs => if v = u then .line l :: typedAt u evs else typedAt u evs
  | .ended v err :: evs => if v = u then .ended err :: typedAt u evs else typedAt u evs
  | _ :: evs => typedAt u evs

/-- `OnlyErrors ts is out`: for the input `is` the program printed `out`, and every command for the server was answered by a line that begins with "[+] Error".
`ts`: whether timestamps are on. -/
inductive OnlyErrors : Bool → List Typed → List (Bool × Bytes) → Prop where
  | nil {ts} : OnlyErrors ts [] []
  | ended {ts err is} : OnlyErrors ts (.ended err :: is) [(ts, err)]
  | exit {ts l is} : command (fields l) = .exit → OnlyErrors ts (.line l :: is) [(ts, ascii "[+] See ya.")]
  | refused {ts l is out text} : ((∃ n k, command (fields l) = .register n k) ∨ ∃ n, command (fields l) = .lookup n) → OnlyErrors ts is out →
      OnlyErrors ts (.line l :: is) ((ts, ascii "[+] Error" ++ text) :: out)
  /-- a line that needs no server -/
  | local {ts l is out p ts'} : (∀ n k, command (fields l) ≠ .register n k) → (∀ n, command (fields l) ≠ .lookup n) →
      (ts', p) = ((localCommand ts (utf8 l) (command (fields l))).1, (localCommand ts (utf8 l) (command (fields l))).2.toList) →
      OnlyErrors ts' is out → OnlyErrors ts (.line l :: is) (p ++ out)

/-- None of these STRs is the one the client holds, or a signed successor of it. -/
def NoWayOn (C : Crypto) (a : AudState) (l : List STR) : Prop := ∀ s ∈ l, s.toDir ≠ a.verified ∧ ¬ Successor C a.signKey a.verified s.toDir

end Coniks.Spec

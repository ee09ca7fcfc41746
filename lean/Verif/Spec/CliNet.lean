import Verif.Spec.Cli
import Verif.Model.CliNet
/-
A session over a network that may fail, compared with a session over a network that does not (C82).
-/
namespace Coniks.Spec
open Coniks Json

/-- The network does its work: the whole request arrives and the reading ends properly, the client may read everything it wants. -/
def Transfer.Perfect : Transfer → Prop
  | .noDial _ => False
  | .carried n bad m err => 8192 ≤ n ∧ bad = false ∧ 8192 ≤ m ∧ err = none

/-- The event without its transfer, for a session over a perfect network; the end of the input is not such an event. -/
def NetEvent.plain : NetEvent → Option ReplEvent
  | .dir op => some (.dir op)
  | .line rnd l _ => some (.line rnd l)
  | .ended _ => none

/-- Every transfer in the session is perfect, and the input does not end. -/
def NoFault (evs : List NetEvent) : Prop := ∀ e ∈ evs, match e with
  | .dir _ => True
  | .line _ _ T => Transfer.Perfect T
  | .ended _ => False

/-- `Faulty ts evs out evs' out'`: a session with the events `evs` that printed `out`, and a session over a perfect network with the events
`evs'` that printed `out'`, differ only in that some commands failed. A command that failed printed one line that begins with "[+] Error",
and in the perfect session it is not there at all (`lost`), or its place is taken by a registration of the same name and key by somebody
else, whose answer our client does not see (`unheard`). `ts`: whether timestamps are on. -/
inductive Faulty : Bool → List NetEvent → List (Bool × Bytes) → List ReplEvent → List (Bool × Bytes) → Prop where
  | nil {ts} : Faulty ts [] [] [] []
  | dir {ts op evs out evs' out'} : Faulty ts evs out evs' out' → Faulty ts (.dir op :: evs) out (.dir op :: evs') out'
  /-- the input ends: its error is printed and the session is over -/
  | ended {ts err evs} : Faulty ts (.ended err :: evs) [(ts, err)] [] []
  /-- the user leaves -/
  | exit {ts rnd l T evs p} : command (fields l) = .exit → Faulty ts (.line rnd l T :: evs) p [.line rnd l] p
  /-- a command for the server works: the same line is printed -/
  | worked {ts rnd l T evs out evs' out' x} : ((∃ n k, command (fields l) = .register n k) ∨ ∃ n, command (fields l) = .lookup n) →
      Faulty ts evs out evs' out' → Faulty ts (.line rnd l T :: evs) (x :: out) (.line rnd l :: evs') (x :: out')
  /-- a line that needs no server -/
  | local {ts rnd l T evs out evs' out' p ts'} : (∀ n k, command (fields l) ≠ .register n k) → (∀ n, command (fields l) ≠ .lookup n) →
      (ts', p) = ((localCommand ts (utf8 l) (command (fields l))).1, (localCommand ts (utf8 l) (command (fields l))).2.toList) →
      Faulty ts' evs out evs' out' → Faulty ts (.line rnd l T :: evs) (p ++ out) (.line rnd l :: evs') (p ++ out')
  /-- a command fails and leaves no trace -/
  | lost {ts rnd l T evs out evs' out' text} : ¬ Transfer.Perfect T →
      ((∃ n k, command (fields l) = .register n k) ∨ ∃ n, command (fields l) = .lookup n) →
      Faulty ts evs out evs' out' → Faulty ts (.line rnd l T :: evs) ((ts, ascii "[+] Error" ++ text) :: out) evs' out'
  /-- a registration takes effect and its answer is lost -/
  | unheard {ts rnd l T evs out evs' out' text n k} : ¬ Transfer.Perfect T → command (fields l) = .register n k →
      Faulty ts evs out evs' out' →
      Faulty ts (.line rnd l T :: evs) ((ts, ascii "[+] Error" ++ text) :: out) (.dir (.register rnd ⟨n, k⟩) :: evs') out'

/-- The number of epochs that begin during the session. -/
def netUpdates : List NetEvent → Nat
  | [] => 0
  | .dir .update :: evs => netUpdates evs + 1
  | _ :: evs => netUpdates evs

end Coniks.Spec

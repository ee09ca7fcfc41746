import Verif.Model.BotRun
import Verif.Spec.Bot
import Verif.Spec.Listen
/-
Histories of a machine with key servers and a bot.
-/
namespace Coniks.Spec
open Coniks

/-- The event does not end (or start) the process. -/
def SparesProc (pid : Nat) : HostEv → Prop
  | .run q _ _ _ => q ≠ pid
  | .interrupt q => q ≠ pid
  | .kill q => q ≠ pid
  | _ => True

/-- The direct messages of a history. -/
def directMessages : List HostEv → List DM
  | [] => []
  | .dm m _ _ _ :: es => m :: directMessages es
  | _ :: es => directMessages es

/-- The number of new epochs in a history, of all processes together. -/
def hostEpochs : List HostEv → Nat
  | [] => 0
  | .epoch _ :: es => hostEpochs es + 1
  | _ :: es => hostEpochs es

/-- A machine that has just booted, without servers. -/
def freshHost (files : Place → Bool) : Host := ⟨booted files, fun _ => none⟩

end Coniks.Spec

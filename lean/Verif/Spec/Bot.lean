import Verif.Model.TwitterBot
import Verif.Spec.JsonRead
import Verif.Spec.Directory
/-
What the Twitter bot is for.
-/
namespace Coniks.Spec
open Coniks Json

/-- The text of a direct message from `sender` asks for the registration of `name` with `key`, as the bot should accept it: the prefix, then a
JSON object which says this registration; and the name is the sender's, up to letter case. -/
def Asks (X : Text) (sender text name key : Bytes) : Prop :=
  X.equalFold (X.toLower sender ++ atTwitter) name = true ∧
  ∃ msg ms, text = messagePrefix ++ msg ∧ parse msg = some (.obj ms) ∧ Says ms ⟨0, .registration ⟨name, key⟩⟩

/-- The bot has to answer a direct message: it begins with the prefix and is not its own. -/
def due (X : Text) (conf : BotConf) (m : DM) : Bool := !X.equalFold m.sender conf.handle && messagePrefix.isPrefixOf m.text

/-- The messages of a history, with the ID of the answer if Twitter took it. -/
def messages : List BotEv → List (DM × Option Nat)
  | [] => []
  | .dm m _ _ sent :: es => (m, sent) :: messages es
  | _ :: es => messages es

/-- The number of new epochs in a history. -/
def botUpdates : List BotEv → Nat
  | [] => 0
  | .update :: es => botUpdates es + 1
  | _ :: es => botUpdates es

/-- What the bot does with a message that it answers with `body`: it sends prefix and body to the sender (if Twitter takes it), and later
destroys both messages. -/
def repliedWith (m : DM) (sent : Option Nat) (body : Bytes) : BotOut :=
  ⟨if sent.isSome then [(m.sender, messagePrefix ++ body)] else [], m.id :: sent.toList⟩

end Coniks.Spec

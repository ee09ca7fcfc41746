import Verif.Model.Bot
import Verif.Model.Wire
/-
The Twitter bot at work: application/bots/twitterbot.go and application/bots/bot.go, together with the key server it talks to. The Twitter
API (package go-twitter) is an environment whose answers are part of the events.
-/
namespace Coniks
open Json

/-- A direct message as Twitter delivers it (package go-twitter, `DirectMessage`): its ID, the screen name of its sender and its text. -/
structure DM where
  id : Nat
  sender : Bytes
  text : Bytes
deriving DecidableEq

/-- What can happen to one call of `SendRequestToCONIKS` (application/bots/bot.go:31-54): everything works; dialling or writing fails before
the key server has the message (lines 35-43); the key server has it, but writing the rest or reading the answer fails (lines 40-50). -/
inductive Link where
  | works
  | notSent
  | noAnswer
deriving DecidableEq

/-- application/bots/bot.go:31-54 `SendRequestToCONIKS`: like the clients it reads at most 8192 bytes of the answer. -/
def sendRequestToCONIKS (C : Crypto) (perms : Nat → Int → Bool) (rnd : Option Bytes) (d : Directory) (addr : Nat) (link : Link) (msg : Bytes) :
    Go (Directory × Option Bytes) :=
  match link with
  | .works => (exchange C perms rnd d addr msg).map fun x => (x.1, some x.2)
  | .notSent => some (d, none)
  | .noAnswer => (exchange C perms rnd d addr msg).map fun x => (x.1, none)

/-- application/bots/twitterbot.go:137-173: the string `HandleRegistration` returns. -/
def BotReply.bytes : BotReply → Bytes
  | .error e => marshalResponse (newErrorResponse e)
  | .relayed res => res

/-- application/bots/twitterbot.go:27-32: the bot's own handle and the (Unix socket) address of the key server. -/
structure BotConf where
  handle : Bytes
  addr : Nat

/-- application/bots/twitterbot.go:137-173 `HandleRegistration` with the key server behind it: the directory afterwards and the answer. -/
def handleWith (C : Crypto) (X : Text) (perms : Nat → Int → Bool) (conf : BotConf) (rnd : Option Bytes) (link : Link) (d : Directory)
    (username msg : Bytes) : Go (Directory × Bytes) :=
  match (handleRegistration goJson X username msg fun _ => none).1 with
  | none => some (d, (handleRegistration goJson X username msg fun _ => none).2.bytes)
  | some m => (sendRequestToCONIKS C perms rnd d conf.addr link m).map fun x =>
      (x.1, (handleRegistration goJson X username msg fun _ => x.2).2.bytes)

/-- What one direct message makes the bot do: direct messages it sends (receiver, text), and the IDs of the ones it will destroy after five
minutes. -/
structure BotOut where
  replies : List (Bytes × Bytes)
  doomed : List Nat
deriving DecidableEq

/-- application/bots/twitterbot.go:84-104, the handler in `Run`, 177-181 `sendDM` and 209-228 `deleteRequestDMs`. `sent` is the ID of the
answer, or none if Twitter refuses it. Simplifications: the two sleeps are not modelled (Go's timers fire), nor is an attempt to destroy a
message that was not sent. -/
def onDirectMessage (C : Crypto) (X : Text) (perms : Nat → Int → Bool) (conf : BotConf) (rnd : Option Bytes) (link : Link) (sent : Option Nat)
    (d : Directory) (dm : DM) : Go (Directory × BotOut) :=
  if X.equalFold dm.sender conf.handle then some (d, ⟨[], []⟩)
  else if messagePrefix.isPrefixOf dm.text then
    (handleWith C X perms conf rnd link d dm.sender (dm.text.drop messagePrefix.length)).map fun x =>
      (x.1, ⟨if sent.isSome then [(dm.sender, messagePrefix ++ x.2)] else [], dm.id :: sent.toList⟩)
  else some (d, ⟨[], [dm.id]⟩)

/-- What happens around the bot and its key server: a direct message to the bot, a connection of anybody else to the key server, the epoch timer
and the reload of the policies (application/server/server.go). -/
inductive BotEv where
  | dm (m : DM) (rnd : Option Bytes) (link : Link) (sent : Option Nat)
  | conn (addr : Nat) (rnd : Option Bytes) (c : Conn)
  | update
  | setPolicies (t : UInt64)

/-- the directory, and what the bot has done so far -/
structure BotWorld where
  dir : Directory
  replies : List (Bytes × Bytes)
  doomed : List Nat

/-- application/bots/twitterbot.go:84-104 with application/serverbase.go:195-249 and protocol/directory/directory.go:70-109. The bot handles one
message after the other (`HandleChan`). -/
def BotWorld.step (C : Crypto) (X : Text) (perms : Nat → Int → Bool) (conf : BotConf) (w : BotWorld) : BotEv → Go BotWorld
  | .dm m rnd link sent => (onDirectMessage C X perms conf rnd link sent w.dir m).map fun x =>
      { dir := x.1, replies := w.replies ++ x.2.replies, doomed := w.doomed ++ x.2.doomed }
  | .conn addr rnd c => (acceptClient C goJson perms rnd w.dir addr c).map fun x => { w with dir := x.1 }
  | .update => some { w with dir := w.dir.update C }
  | .setPolicies t => some { w with dir := w.dir.setPolicies t }

/-- application/bots/twitterbot.go:112-118: messages are handled until the stream ends. -/
def BotWorld.run (C : Crypto) (X : Text) (perms : Nat → Int → Bool) (conf : BotConf) (w : BotWorld) : List BotEv → Go BotWorld
  | [] => some w
  | e :: es => (w.step C X perms conf e).bind fun w' => w'.run C X perms conf es

/-! ### Before the bot runs -/

/-- Twitter during one round of `deleteOldDMs`: whether it lists the messages, and which ones it lets the bot destroy. -/
structure TwRound where
  lists : Bool
  destroys : Nat → Bool

/-- application/bots/twitterbot.go:184-206 `deleteOldDMs`: at most `fuel` rounds on the messages `box` (most recent first) the bot has received;
none = still running. A failing `Get` is only logged, and its empty list ends the loop (lines 191-198). -/
def deleteOldDMs : Nat → (Nat → TwRound) → List Nat → Option (List Nat)
  | 0, _, _ => none
  | fuel + 1, tw, box =>
    let dms := if (tw 0).lists then box.take 200 else []
    if dms = [] then some box
    else deleteOldDMs fuel (fun k => tw (k + 1)) (box.filter fun id => !(dms.contains id && (tw 0).destroys id))

end Coniks

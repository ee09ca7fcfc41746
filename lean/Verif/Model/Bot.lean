import Verif.Model.Server
/-
Model of application/bots/twitterbot.go `HandleRegistration` and of the message filter in `Run`.
-/
namespace Coniks

/-- The two functions of Go's package strings the bot uses on (UTF-8) text: `ToLower` and `EqualFold`. Their Unicode tables are not
modelled. -/
structure Text where
  toLower : Bytes → Bytes
  equalFold : Bytes → Bytes → Bool

/-- application/bots/twitterbot.go:147 `"@twitter"`. -/
def atTwitter : Bytes := [0x40, 0x74, 0x77, 0x69, 0x74, 0x74, 0x65, 0x72]

/-- What `HandleRegistration` returns: an encoded error response, or the bytes it got from the key server. -/
inductive BotReply where
  | error (e : ErrorCode)
  | relayed (res : Bytes)
deriving DecidableEq

/-- application/bots/twitterbot.go:137-173 `HandleRegistration`: what is sent to the key server (if anything) and the reply;
`send` is `SendRequestToCONIKS` (application/bots/bot.go:31-54), `none` = error. The dereference of `request` is guarded by the
type assertion (a nil pointer of that type would panic; the decoder never returns one). -/
def handleRegistration (J : Json) (X : Text) (username msg : Bytes) (send : Bytes → Option Bytes) : Option Bytes × BotReply :=
  let invalid : Bool := match unmarshalRequest J msg with
    | none => true
    | some req =>
      match req.payload with
      | .registration request => req.type != RegistrationType || !X.equalFold (X.toLower username ++ atTwitter) request.username
      | _ => true
  if invalid then (none, .error ErrMalformedMessage)
  else
    match send msg with
    | none => (some msg, .error ErrDirectory)
    | some res => (some msg, .relayed res)

/-- application/bots/bot.go:15 `messagePrefix` "?CONIKS?". -/
def messagePrefix : Bytes := [0x3f, 0x43, 0x4f, 0x4e, 0x49, 0x4b, 0x53, 0x3f]

/-- application/bots/twitterbot.go:84-104, the handler in `Run`: what it sends to the key server for a direct message. Messages from
the bot's own handle and messages without the prefix are ignored. -/
def onDM (J : Json) (X : Text) (botHandle sender text : Bytes) (send : Bytes → Option Bytes) : Option Bytes × Option BotReply :=
  if X.equalFold sender botHandle then (none, none)
  else if messagePrefix.isPrefixOf text then
    let r := handleRegistration J X sender (text.drop messagePrefix.length) send
    (r.1, some r.2)
  else (none, none)

end Coniks

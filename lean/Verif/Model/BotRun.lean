import Verif.Model.Listen
import Verif.Model.TwitterBot
/-
The programs `coniksbot init` and `coniksbot run`: application/bots/config.go, application/bots/twitterbot.go:36-118 and
cli/coniksbot/internal/cmd/init.go, run.go; and the bot on a machine with key servers (Model/Listen).
The TOML library is a parameter as in Model/Load. Twitter is an environment.
-/
namespace Coniks
open Spec Json

/-- application/bots/config.go:26-31 `TwitterOAuth`. -/
structure OAuth where
  consumerKey : Bytes
  consumerSecret : Bytes
  accessToken : Bytes
  accessSecret : Bytes
deriving DecidableEq

/-- The keys of a bot's file (application/bots/config.go:12-17, application/config.go:28-33). A key that is not there leaves an empty string. -/
structure BotToml where
  path : Option Bytes
  coniksAddress : Bytes
  oauth : OAuth
  handle : Bytes
deriving DecidableEq

/-- application/bots/config.go:12-17 `TwitterConfig` after `Load`. -/
structure TwitterConfig where
  path : Bytes
  coniksAddress : Bytes
  oauth : OAuth
  handle : Bytes
deriving DecidableEq

/-- application/bots/config.go:49-52 `Load` with application/config_encoding.go:51-56; `none` = an error. Unlike the other programs, the bot
does not resolve the path in its configuration. -/
def loadBot (toml : Bytes → Option BotToml) (D : Disk) (cwd : Place) (file : Bytes) : Option TwitterConfig :=
  ((D.read cwd file).bind toml).map fun t => ⟨t.path.getD file, t.coniksAddress, t.oauth, t.handle⟩

/-- cli/coniksbot/internal/cmd/init.go:21-36: what `coniksbot init` saves; `NewTwitterConfig` (application/bots/config.go:36-46) has set `Path`. -/
def defaultBot (file : Bytes) : BotToml :=
  { path := some file
    coniksAddress := defaultBotAddress
    oauth := ⟨ascii "secret", ascii "secret", ascii "secret", ascii "secret"⟩
    handle := ascii "ConiksTorMess" }

/-- cli/coniksbot/internal/cmd/init.go:20-36 `coniksbot init --dir dir`, application/config_encoding.go:36-47 `Encode`; `enc` is the TOML encoder.
An error is only logged. -/
def initBot (enc : BotToml → Bytes) (D : Disk) (cwd : Place) (dir : Bytes) : Disk :=
  let file := pathJoin dir (ascii "botconfig.toml")
  (D.write cwd file (enc (defaultBot file))).1

/-- Twitter when the bot starts: the screen name of the account that the four values authenticate (`none`: an error), the messages in the bot's
account, how it answers each round of `deleteOldDMs`, and whether it opens the stream (application/bots/twitterbot.go:56-60, 111-114, 184-206). -/
structure TwitterSide where
  account : OAuth → Option Bytes
  box : List Nat
  round : Nat → TwRound
  stream : Bool

/-- How far the program got: it printed an error and ended (cli/coniksbot/internal/cmd/run.go:30-34); it panicked because the server is down or
because Twitter did not authenticate it (lines 36-39); it is still destroying old messages (application/bots/twitterbot.go:71); it ended because there was
no stream (line 113); it runs. -/
inductive BotState where
  | noConfig
  | serverDown
  | notAuthenticated
  | destroying
  | noStream
  | runs (c : TwitterConfig)
deriving DecidableEq

/-- `os.Stat` says that there is nothing at the path (application/bots/twitterbot.go:45). `hides`: the paths at which it fails with another
error, which `os.IsNotExist` does not count (no permission, or a file in the middle of the path). -/
def Os.saysNotExist (M : Machine) (o : Os) (hides : Place → Bool) (path : Bytes) : Bool :=
  !(o.botSeesServer M path) && !(path ≠ [] && hides (locate M.cwd path))

/-- cli/coniksbot/internal/cmd/run.go:27-41 with application/bots/twitterbot.go:43-74 `NewTwitterBot` and 109-115: the state after at most `fuel` rounds of
`deleteOldDMs`, and the messages that are left in the account then. `M.cwd` is where the program was started. -/
def startBot (toml : Bytes → Option BotToml) (D : Disk) (M : Machine) (o : Os) (hides : Place → Bool) (T : TwitterSide) (fuel : Nat) (file : Bytes) :
    BotState × Option (List Nat) :=
  match loadBot toml D M.cwd file with
  | none => (.noConfig, some T.box)
  | some c =>
    if o.saysNotExist M hides c.coniksAddress then (.serverDown, some T.box)
    else
      match T.account c.oauth with
      | none => (.notAuthenticated, some T.box)
      | some name =>
        if name ≠ c.handle then (.notAuthenticated, some T.box)
        else
          match deleteOldDMs fuel T.round T.box with
          | none => (.destroying, none)
          | some rest => (if T.stream then .runs c else .noStream, some rest)

/-- A key server process: its directory and the entries of its configuration (application/server/server.go:28-36). -/
structure Running where
  dir : Directory
  addrs : List AddressToml

/-- A machine with key servers: the operating system, and the server of each process (cli/coniksserver/internal/cmd/run.go:41-44). -/
structure Host where
  os : Os
  server : Nat → Option Running

/-- application/bots/twitterbot.go:84-104 when the key server cannot be dialled (application/bots/bot.go:35-38). -/
def botAlone (X : Text) (c : TwitterConfig) (sent : Option Nat) (dm : DM) : BotOut :=
  if X.equalFold dm.sender c.handle then ⟨[], []⟩
  else if messagePrefix.isPrefixOf dm.text then
    ⟨if sent.isSome then
        [(dm.sender, messagePrefix ++ (handleRegistration goJson X dm.sender (dm.text.drop messagePrefix.length) fun _ => none).2.bytes)] else [],
      dm.id :: sent.toList⟩
  else ⟨[], [dm.id]⟩

/-- The directory of one process changes (application/serverbase.go:195-249 runs inside that process). -/
def Host.set (h : Host) (pid : Nat) (r : Option Running) : Host := { h with server := fun p => if p = pid then r else h.server p }

/-- application/bots/twitterbot.go:84-104 on a machine: the message is handed to the process that listens at the bot's path, if there is one
(application/bots/bot.go:31-43); then `link` says whether the connection holds. `cwd` is where the bot was started. -/
def Host.onDM (C : Crypto) (X : Text) (M : Machine) (cwd : Place) (c : TwitterConfig) (rnd : Option Bytes) (link : Link) (sent : Option Nat) (h : Host)
    (dm : DM) : Go (Host × BotOut) :=
  match h.os.dialUnix { M with cwd := cwd } c.coniksAddress with
  | none => some (h, botAlone X c sent dm)
  | some s =>
    match h.server s.pid with
    | none => some (h, botAlone X c sent dm)
    | some r =>
      (onDirectMessage C X (permsMap (r.addrs.map fun a => ⟨a.ptr, a.allowRegistration⟩)) ⟨c.handle, s.ptr⟩ rnd link sent r.dir dm).map fun x =>
        (h.set s.pid (some { r with dir := x.1 }), x.2)

/-- What happens on the machine: `coniksserver run` with a configuration that could be loaded and logged with (Model/Load says which), the end of
a process, files removed or made by others, the epoch timer and the reload of policies of a process, a connection to some address, and a direct
message to the bot. -/
inductive HostEv where
  | run (pid : Nat) (k : ServerConf) (r₁ r₂ : Option Bytes)
  | interrupt (pid : Nat)
  | kill (pid : Nat)
  | remove (p : Place)
  | create (p : Place)
  | epoch (pid : Nat)
  | policies (pid : Nat) (t : UInt64)
  | conn (address : Bytes) (rnd : Option Bytes) (c : Conn)
  | dm (m : DM) (rnd : Option Bytes) (link : Link) (sent : Option Nat)

/-- One event: cli/coniksserver/internal/cmd/run.go:38-48, application/server/server.go:40-75, 103-143, application/serverbase.go:195-249,
application/bots/twitterbot.go:84-104. A process whose server cannot be made ends before it listens (application/server/server.go:48-55). -/
def Host.step (C : Crypto) (X : Text) (M : Machine) (cwd : Place) (c : TwitterConfig) (h : Host) : HostEv → Go Host
  | .run pid k r₁ r₂ =>
    if h.os.socks.any fun x => x.1.pid = pid then some h
    else match newServer C k.core r₁ r₂ with
      | none => some h
      | some s => some (({ h with os := h.os.step M (.start pid k.addresses) } : Host).set pid
          (if (h.os.start M pid k.addresses).2 then some ⟨s.dir, k.addresses⟩ else none))
  | .interrupt pid => some (({ h with os := h.os.step M (.interrupt pid) } : Host).set pid none)
  | .kill pid => some (({ h with os := h.os.step M (.kill pid) } : Host).set pid none)
  | .remove p => some { h with os := h.os.step M (.remove p) }
  | .create p => some { h with os := h.os.step M (.create p) }
  | .epoch pid => some (h.set pid ((h.server pid).map fun r => { r with dir := r.dir.update C }))
  | .policies pid t => some (h.set pid ((h.server pid).map fun r => { r with dir := r.dir.setPolicies t }))
  | .conn address rnd c =>
    match h.os.dial M address with
    | none => some h
    | some s =>
      match h.server s.pid with
      | none => some h
      | some r =>
        (acceptClient C goJson (permsMap (r.addrs.map fun a => ⟨a.ptr, a.allowRegistration⟩)) rnd r.dir s.ptr c).map fun x =>
          h.set s.pid (some { r with dir := x.1 })
  | .dm m rnd link sent => (h.onDM C X M cwd c rnd link sent m).map Prod.fst

/-- A history of the machine (application/bots/twitterbot.go:112-118, application/serverbase.go:155-180). -/
def Host.runAll (C : Crypto) (X : Text) (M : Machine) (cwd : Place) (c : TwitterConfig) (h : Host) : List HostEv → Go Host
  | [] => some h
  | e :: es => (h.step C X M cwd c e).bind fun h' => h'.runAll C X M cwd c es

end Coniks

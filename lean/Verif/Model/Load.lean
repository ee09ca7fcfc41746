import Verif.Model.Path
import Verif.Model.Files
import Verif.Model.Client
import Verif.Model.Json.Codec
import Verif.Spec.Path
/-
Model of the loading of configurations: application/config.go, application/client/config.go, application/server/config.go, and of the
commands that write and use them: cli/coniksserver/internal/cmd/init.go and run.go, cli/coniksclient/internal/cmd/init.go and common.go.

The TOML library is a parameter: a function from the text of a file to the struct it fills in. What matters about it is that the embedded
`*CommonConfig` is filled in too (that is how `[logger]` gets there): a key `Path` in the file replaces the `Path` that
`NewCommonConfig` has set.
-/
namespace Coniks
open Json Spec

/-- The files of one machine by place; directories and permissions are not modelled, and there are no symbolic links. -/
abbrev Disk := Place → Option Bytes

/-- Go `ioutil.ReadFile` in a process that works in `cwd`; `none` = an error (application/config.go:59, 75). -/
def Disk.read (D : Disk) (cwd : Place) (path : Bytes) : Option Bytes := D (locate cwd path)

/-- utils/utils.go:44-55 `WriteFile`, without failures of the operating system (those are in Files.lean); `true` = nil error. -/
def Disk.write (D : Disk) (cwd : Place) (path buf : Bytes) : Disk × Bool :=
  if (D (locate cwd path)).isSome then (D, false) else (fun p => if p = locate cwd path then some buf else D p, true)

/-- application/config.go:57-67 `LoadSigningPubKey`; `none` = an error. -/
def loadSigningPubKey (D : Disk) (cwd : Place) (path file : Bytes) : Option Bytes :=
  match D.read cwd (resolvePath path file) with
  | none => none
  | some k => if k.length ≠ 32 then none else some k

/-- application/config.go:79-86: the text of an initial STR. Outer `none` = panic (a nil `*DirSTR` or a nil embedded
`*SignedTreeRoot`), inner `none` = an error. -/
def initSTROf (text : Bytes) : Go (Option DirSTR) :=
  match (parse text).bind (decPtr ⟨none, none⟩ decSTR (some ⟨none, none⟩)) with
  | none => some none
  | some none => none
  | some (some w) =>
    match w.root with
    | none => none
    | some r => if r.epoch ≠ 0 then some none else some (some ⟨r, w.policies⟩)

/-- application/config.go:73-87 `LoadInitSTR`. -/
def loadInitSTR (D : Disk) (cwd : Place) (path file : Bytes) : Go (Option DirSTR) :=
  match D.read cwd (resolvePath path file) with
  | none => some none
  | some text => initSTROf text

/-- application/config.go:90-101 `SaveSTR`; `true` = nil error. -/
def saveSTR (D : Disk) (cwd : Place) (file : Bytes) (s : DirSTR) : Disk × Bool := D.write cwd file (encSTR s).print

/-- The keys of a client's file (application/client/config.go:17-28, application/config.go:28-33). -/
structure ClientToml where
  path : Option Bytes
  signPubkeyPath : Bytes
  initSTRPath : Bytes
  regAddress : Bytes
  address : Bytes
deriving DecidableEq

/-- application/client/config.go:17-28 `Config` after `Load`. -/
structure ClientConf where
  path : Bytes
  signingPubKey : Bytes
  initSTR : DirSTR
  regAddress : Bytes
  address : Bytes
deriving DecidableEq

/-- application/client/config.go:52-73 `Load`: outer `none` = panic, inner `none` = an error. -/
def loadClient (toml : Bytes → Option ClientToml) (D : Disk) (cwd : Place) (file : Bytes) : Go (Option ClientConf) :=
  match (D.read cwd file).bind toml with
  | none => some none
  | some t =>
    match loadSigningPubKey D cwd t.signPubkeyPath file with
    | none => some none
    | some pk =>
      (loadInitSTR D cwd t.initSTRPath file).map fun
        | none => none
        | some s => some ⟨t.path.getD file, pk, s, t.regAddress, t.address⟩

/-- cli/coniksclient/internal/cmd/run.go:42-48 and cli/coniksclient/internal/cmd/common.go:30-39: the client of the command line; inner `none`: the program prints an error and ends. -/
def startClient (toml : Bytes → Option ClientToml) (D : Disk) (cwd : Place) (file : Bytes) : Go (Option Client) :=
  (loadClient toml D cwd file).bind fun
    | none => some none
    | some c => (newClient c.initSTR true c.signingPubKey).map some

/-- The table `[policies]` (application/server/policies.go:12-18). -/
structure PoliciesToml where
  epochDeadline : UInt64
  vrfKeyPath : Bytes
  signKeyPath : Bytes
deriving DecidableEq

/-- An entry of `[[addresses]]` (application/server/server.go:21-25, application/serverbase.go:40-49); `ptr` stands for the pointer. -/
structure AddressToml where
  ptr : Nat
  allowRegistration : Bool
  cert : Bytes
  key : Bytes
  address : Bytes
deriving DecidableEq

/-- The table `[logger]` (application/logger.go:19-23). -/
structure LoggerToml where
  environment : Bytes
  path : Bytes
deriving DecidableEq

/-- The keys of a server's file (application/server/config.go:17-31, application/config.go:28-33). `bareAddress`: one of the `[[addresses]]` has none
of the keys of the embedded `*ServerAddress` (application/serverbase.go:40-49), which the TOML library then leaves nil. -/
structure ServerToml where
  path : Option Bytes
  logger : Option LoggerToml
  historyLength : Nat
  policies : Option PoliciesToml
  initSTRPath : Bytes
  addresses : List AddressToml
  epochDeadline : UInt64
  bareAddress : Bool := false
deriving DecidableEq

/-- application/server/config.go:17-31 `Config` after `Load`. -/
structure ServerConf where
  path : Bytes
  logger : LoggerToml
  historyLength : Nat
  policiesDeadline : UInt64
  signKey : Bytes
  vrfKey : Bytes
  initSTRPath : Bytes
  addresses : List AddressToml
  epochDeadline : UInt64
deriving DecidableEq

/-- application/server/config.go:56-93 `Load`: outer `none` = panic (no table `[policies]` or `[logger]`, or an address
that sets nothing), inner `none` = an error. -/
def loadServer (toml : Bytes → Option ServerToml) (D : Disk) (cwd : Place) (file : Bytes) : Go (Option ServerConf) :=
  match (D.read cwd file).bind toml with
  | none => some none
  | some t =>
    match t.policies with
    | none => none
    | some p =>
      match D.read cwd (resolvePath p.signKeyPath file) with
      | none => some none
      | some sk =>
        if sk.length ≠ 64 then some none
        else
          match D.read cwd (resolvePath p.vrfKeyPath file) with
          | none => some none
          | some vk =>
            if vk.length ≠ 64 then some none
            else if t.bareAddress then none
            else
              match t.logger with
              | none => none
              | some l =>
                some (some {
                  path := t.path.getD file
                  logger := { l with path := resolvePath l.path file }
                  historyLength := t.historyLength
                  policiesDeadline := p.epochDeadline
                  signKey := sk
                  vrfKey := vk
                  initSTRPath := t.initSTRPath
                  addresses := t.addresses.map fun a => { a with cert := resolvePath a.cert file, key := resolvePath a.key file }
                  epochDeadline := t.epochDeadline })

/-- application/logger.go:31-71 `NewLogger`: panics unless the environment is one of the two (`fold` is `strings.EqualFold`), or if the
log file cannot be opened (`opens`). -/
def newLogger (fold : Bytes → Bytes → Bool) (opens : Place → Bool) (cwd : Place) (l : LoggerToml) : Go Unit :=
  if fold (ascii "development") l.environment || fold (ascii "production") l.environment then
    if l.path ≠ [] then if opens (locate cwd l.path) then some () else none else some ()
  else none

/-- The part of the configuration that `newServer` (Config.lean) takes: application/server/server.go:40-67. -/
def ServerConf.core (c : ServerConf) : ServerConfig :=
  { historyLength := c.historyLength, policiesDeadline := c.policiesDeadline, signKey := c.signKey, vrfKey := c.vrfKey,
    addresses := c.addresses.map fun a => ⟨a.ptr, a.allowRegistration⟩, epochDeadline := c.epochDeadline }

/-- cli/coniksserver/internal/cmd/run.go:38-42 with application/server/server.go:40-75 `NewConiksServer`: the server, the configuration
file it will reload (application/serverbase.go:81, 299-301), and the disk with the initial STR. Inner `none`: the program prints
an error and ends. -/
def startServer (C : Crypto) (toml : Bytes → Option ServerToml) (fold : Bytes → Bytes → Bool) (opens : Place → Bool) (D : Disk) (cwd : Place)
    (file : Bytes) (rnd₁ rnd₂ : Option Bytes) : Go (Option (Server × Bytes × Disk)) :=
  (loadServer toml D cwd file).bind fun
    | none => some none
    | some c =>
      (newLogger fold opens cwd c.logger).bind fun _ =>
        (newServer C c.core rnd₁ rnd₂).map fun s =>
          some (s, c.path, (saveSTR D cwd (resolvePath c.initSTRPath c.path) s.dir.latestSTR).1)

/-- application/server/server.go:131-143 `updatePolicies` of a server whose configuration file is `file`. -/
def Directory.reloadFrom (toml : Bytes → Option ServerToml) (D : Disk) (cwd : Place) (file : Bytes) (d : Directory) : Go Directory :=
  (loadServer toml D cwd file).map fun
    | none => d
    | some c => d.setPolicies c.policiesDeadline

/-- cli/coniksserver/internal/cmd/init.go:39-75 `mkConfig`: what `Save` writes for the configuration it builds. `NewConfig` has set `Path`. -/
def defaultServer (file : Bytes) : ServerToml :=
  { path := some file
    logger := some ⟨ascii "development", ascii "coniksserver.log"⟩
    historyLength := 1000000
    policies := some ⟨60, ascii "vrf.priv", ascii "sign.priv"⟩
    initSTRPath := ascii "init.str"
    addresses := [⟨0, true, [], [], ascii "unix:///tmp/coniks.sock"⟩,
      ⟨1, false, ascii "server.pem", ascii "server.key", ascii "tcp://0.0.0.0:3000"⟩]
    epochDeadline := 0 }

/-- cli/coniksserver/internal/cmd/init.go:77-109 `mkSigningKey`, `mkVrfKey`: the public key is written only if the private one was. -/
def initKey (D : Disk) (cwd : Place) (dir priv pub : Bytes) (sk pk : Bytes) : Disk :=
  match D.write cwd (pathJoin dir priv) sk with
  | (D', false) => D'
  | (D', true) => (D'.write cwd (pathJoin dir pub) pk).1

/-- cli/coniksserver/internal/cmd/init.go:27-37 `coniksserver init --dir dir` (without `--cert`); `enc` is the TOML encoder, the two pairs are
the keys it generates. -/
def initServer (enc : ServerToml → Bytes) (D : Disk) (cwd : Place) (dir : Bytes) (sign vrf : Bytes × Bytes) : Disk :=
  let file := pathJoin dir (ascii "config.toml")
  let D₁ := (D.write cwd file (enc (defaultServer file))).1
  let D₂ := initKey D₁ cwd dir (ascii "sign.priv") (ascii "sign.pub") sign.1 sign.2
  initKey D₂ cwd dir (ascii "vrf.priv") (ascii "vrf.pub") vrf.1 vrf.2

/-- cli/coniksclient/internal/cmd/init.go:21-33 `mkConfigOrExit`: what `coniksclient init` writes. -/
def defaultClient (file : Bytes) : ClientToml :=
  { path := some file
    signPubkeyPath := ascii "../coniksserver/sign.pub"
    initSTRPath := ascii "../../keyserver/coniksserver/init.str"
    regAddress := ascii "tcp://127.0.0.1:3000"
    address := ascii "tcp://127.0.0.1:3000" }

/-- cli/coniksclient/internal/cmd/init.go:21-33 `coniksclient init --dir dir`; `true` = it did not exit with an error. -/
def initClient (enc : ClientToml → Bytes) (D : Disk) (cwd : Place) (dir : Bytes) : Disk × Bool :=
  let file := pathJoin dir (ascii "config.toml")
  D.write cwd file (enc (defaultClient file))

end Coniks

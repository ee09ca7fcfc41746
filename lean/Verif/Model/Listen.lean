import Verif.Model.Load
import Verif.Model.Url
import Verif.Model.Cli
/-
The listening sockets of key servers on one machine: application/serverbase.go:93-181, application/server/server.go:103-128,
cli/coniksserver/internal/cmd/run.go:41-48, and who dials them: cli/coniksclient/internal/cmd/run.go:123-137, 175-190,
application/testutil/testutil.go:125-197, application/bots/bot.go:31-54.

The operating system (Linux) enters with what its manual says about `bind`: binding a Unix socket to a path creates a file there and fails if
there is one already, whoever made it and whether or not anybody still listens; a TCP address cannot be bound twice, a wildcard address
overlapping every address with its port. When a process ends, its sockets are closed, but the files of its Unix sockets stay; Go's
`UnixListener.Close` removes the file by its path.
-/
namespace Coniks
open Spec Json

/-- What `net.ResolveTCPAddr` returns (application/serverbase.go:120): `ip = none` is the wildcard address. Port 0 asks for any free port. -/
structure Endpoint where
  ip : Option Bytes
  port : Nat
deriving DecidableEq

/-- The parts of the machine that listening depends on and that stay as they are: the working directory, which pairs of certificate and key
can be loaded (application/serverbase.go:115), how names are resolved (line 120), which local addresses can be bound at all (line 124:
they belong to the machine, the process may use the port), and at which paths a socket can be made (line 134: the directory exists and may be
written, the path has at most 107 bytes). `loopback` is where a connection to the wildcard address goes
(application/testutil/testutil.go:130). -/
structure Machine where
  cwd : Place
  pair : Bytes → Bytes → Bool
  resolve : Bytes → Option Endpoint
  tcpOk : Endpoint → Bool
  pathOk : Bytes → Bool
  loopback : Bytes

/-- A listening socket: its identity in the kernel, the process, and the entry of its configuration (the pointer that the permissions are looked
up with, application/serverbase.go:186-193). -/
structure Sock where
  id : Nat
  pid : Nat
  ptr : Nat
deriving DecidableEq

/-- What a listening socket is bound to (application/serverbase.go:105-140): a TCP address, a path, or an abstract name chosen by the kernel,
which is what an empty path gives. -/
inductive Bound where
  | tcp (e : Endpoint)
  | unix (p : Place)
  | hidden
deriving DecidableEq

/-- What is at a place of the file system: some file or directory, or the file of a Unix socket with the identity of
the socket (application/serverbase.go:134). -/
inductive FsNode where
  | other
  | sock (id : Nat)
deriving DecidableEq

/-- The machine's state: its files, and the sockets that processes are listening on, and the identity the next socket
gets (application/serverbase.go:97-103). -/
structure Os where
  node : Place → Option FsNode
  socks : List (Sock × Bound)
  next : Nat

/-- Two TCP addresses that cannot both be listened on (application/serverbase.go:124). -/
def Endpoint.clash (a b : Endpoint) : Bool :=
  a.port = b.port && a.port ≠ 0 && (a.ip = none || b.ip = none || a.ip = b.ip)

/-- A TCP address is free (application/serverbase.go:124). -/
def Os.tcpFree (o : Os) (e : Endpoint) : Bool :=
  o.socks.all fun x => match x.2 with
    | .tcp e' => !e.clash e'
    | _ => true

/-- The state with one more listening socket (application/serverbase.go:124, 134). -/
def Os.add (o : Os) (pid ptr : Nat) (b : Bound) : Os :=
  { node := fun p => if b = .unix p then some (.sock o.next) else o.node p
    socks := (⟨o.next, pid, ptr⟩, b) :: o.socks
    next := o.next + 1 }

/-- application/serverbase.go:105-140 `resolveAndListen`; `none` = panic. -/
def Os.listen (M : Machine) (o : Os) (pid : Nat) (a : AddressToml) : Option Os :=
  match parseUrl a.address with
  | none => none
  | some u =>
    if u.scheme = ascii "tcp" then
      if M.pair a.cert a.key then
        match M.resolve u.host with
        | none => none
        | some e => if M.tcpOk e && o.tcpFree e then some (o.add pid a.ptr (.tcp e)) else none
      else none
    else if u.scheme = ascii "unix" then
      if u.path = [] then some (o.add pid a.ptr .hidden)
      else if M.pathOk u.path && (o.node (locate M.cwd u.path)).isNone then some (o.add pid a.ptr (.unix (locate M.cwd u.path)))
      else none
    else none

/-- The process ends without `Shutdown` (a panic, SIGKILL, SIGTERM, power): cli/coniksserver/internal/cmd/run.go:45-48 only catches an
interrupt. Its sockets are closed, the files of its Unix sockets stay. -/
def Os.kill (o : Os) (pid : Nat) : Os := { o with socks := o.socks.filter fun x => x.1.pid ≠ pid }

/-- application/server/server.go:108-117, the loop of `Run`: the addresses are listened on one after the other; the first that fails ends the
process (a panic in the main goroutine). `true`: it runs. -/
def Os.start (M : Machine) (o : Os) (pid : Nat) : List AddressToml → Os × Bool
  | [] => (o, true)
  | a :: as =>
    match o.listen M pid a with
    | none => (o.kill pid, false)
    | some o' => o'.start M pid as

/-- cli/coniksserver/internal/cmd/run.go:45-48 with application/serverbase.go:304-308 `Shutdown` and 145 `defer ln.Close()`: every listener of the
process is closed, which removes the files at the paths of its Unix sockets. (That `Shutdown` gets that far is C52.) -/
def Os.interrupt (o : Os) (pid : Nat) : Os :=
  { o with
    node := fun p => if o.socks.any fun x => x.1.pid = pid && x.2 = .unix p then none else o.node p
    socks := o.socks.filter fun x => x.1.pid ≠ pid }

/-- What happens on the machine. -/
inductive OsEv where
  | start (pid : Nat) (addrs : List AddressToml)
  | interrupt (pid : Nat)
  | kill (pid : Nat)
  | remove (p : Place)
  | create (p : Place)

/-- One event. The kernel gives every process a number of its own: starting a process whose number is in use is not an event that happens, and
changes nothing. Somebody else removes or makes a file: any program, or the operator with `rm`. Models application/server/server.go:103-128 and
cli/coniksserver/internal/cmd/run.go:41-48. -/
def Os.step (M : Machine) (o : Os) : OsEv → Os
  | .start pid addrs => if o.socks.any fun x => x.1.pid = pid then o else (o.start M pid addrs).1
  | .interrupt pid => o.interrupt pid
  | .kill pid => o.kill pid
  | .remove p => { o with node := fun q => if q = p then none else o.node q }
  | .create p => { o with node := fun q => if q = p ∧ o.node q = none then some .other else o.node q }

/-- A history of the machine (cli/coniksserver/internal/cmd/run.go:29-49). -/
def Os.run (M : Machine) (o : Os) (evs : List OsEv) : Os := evs.foldl (Os.step M) o

/-- `net.DialUnix` (application/bots/bot.go:35, application/testutil/testutil.go:171): the socket that a connection to the path reaches. An empty
path is an error (package net, `errMissingAddress`). -/
def Os.dialUnix (M : Machine) (o : Os) (path : Bytes) : Option Sock :=
  if path = [] then none
  else match o.node (locate M.cwd path) with
    | some (.sock id) => (o.socks.find? fun x => x.1.id = id).map Prod.fst
    | _ => none

/-- A connection to `e` reaches a socket bound to `b` (application/testutil/testutil.go:130). -/
def Endpoint.reaches (M : Machine) (e b : Endpoint) : Bool :=
  e.port = b.port && e.port ≠ 0 && (b.ip = none || b.ip = some (e.ip.getD M.loopback))

/-- `net.Dial("tcp", _)` (application/testutil/testutil.go:130) for an address of this machine. -/
def Os.dialTcp (M : Machine) (o : Os) (e : Endpoint) : Option Sock :=
  (o.socks.find? fun x => match x.2 with
    | .tcp b => e.reaches M b
    | _ => false).map Prod.fst

/-- application/testutil/testutil.go:125-197 `NewTCPClient`, `NewUnixClient` as cli/coniksclient/internal/cmd/run.go:123-137, 175-190 calls them: the
socket that a client with this address reaches; `none` also if the address is not one it can use. -/
def Os.dial (M : Machine) (o : Os) (address : Bytes) : Option Sock :=
  match parseUrl address with
  | none => none
  | some u =>
    if u.scheme = ascii "tcp" then (M.resolve u.host).bind (o.dialTcp M)
    else if u.scheme = ascii "unix" then o.dialUnix M u.path
    else none

/-- application/bots/twitterbot.go:44-46: `NewTwitterBot` gives up if there is nothing at the path (`os.Stat`; an empty path does not exist). -/
def Os.botSeesServer (M : Machine) (o : Os) (path : Bytes) : Bool := path ≠ [] && (o.node (locate M.cwd path)).isSome

/-- What the client of the command line sees of this machine (Model/Cli.lean): cli/coniksclient/internal/cmd/run.go:123-137, 175-190. An address
nobody answers at is given a pointer that no entry has. -/
def Os.net (M : Machine) (o : Os) (nobody : Nat) : Net :=
  { scheme := fun a => (parseUrl a).map Url.scheme
    listener := fun a => match o.dial M a with
      | some s => s.ptr
      | none => nobody }

/-- cli/coniksbot/internal/cmd/init.go:21-36: the address that `coniksbot init` writes. -/
def defaultBotAddress : Bytes := ascii "/tmp/coniks.sock"

end Coniks

import Verif.Model.Cli
/-
The command-line client over a network that may fail: application/testutil/testutil.go:136-198, application/serverbase.go:195-249 and
cli/coniksclient/internal/cmd/run.go:43-217. The server is the directory with its own listener; everything between the two ends is chosen
by `Transfer`.
-/
namespace Coniks
open Json

/-- What the network does with one exchange. `noDial e`: no connection (application/testutil/testutil.go:139-142, 180-183). `carried`: the
server's read delivers the first `n` bytes of the request and then ends, with an error other than EOF if `bad` (a deadline, a reset;
application/serverbase.go:203-207); the client's read delivers the first `m` bytes of what the server writes and then ends with EOF
(`err = none`), or the client's write or read fails with the text `err` (application/testutil/testutil.go:147-150, 159-161, 185-188, 192-194).
Simplification: the network loses and cuts, it does not change bytes (C63, C66 and C37 are about bytes that are not the server's). -/
inductive Transfer where
  | noDial (err : Bytes)
  | carried (n : Nat) (bad : Bool) (m : Nat) (err : Option Bytes)
deriving DecidableEq

/-- application/testutil/testutil.go:136-164, 177-198 `NewTCPClient`, `NewUnixClient` with application/serverbase.go:195-249 `acceptClient` at
the other end: the directory afterwards, and what the client has got: an error text, or the bytes that arrived. -/
def exchangeOver (C : Crypto) (perms : Nat → Int → Bool) (rnd : Option Bytes) (d : Directory) (addr : Nat) (msg : Bytes) :
    Transfer → Go (Directory × Except Bytes Bytes)
  | .noDial e => some (d, .error e)
  | .carried n bad m err =>
    (acceptClient C goJson perms rnd d addr ⟨msg.take n, bad⟩).map fun x =>
      (x.1, match err with
        | some e => .error e
        | none => .ok (clientRead ((replyBytes x.2).take m)))

/-- cli/coniksclient/internal/cmd/run.go:111-167 `register`. -/
def Client.cliRegisterOver (C : Crypto) (N : Net) (conf : CliConf) (perms : Nat → Int → Bool) (rnd : Option Bytes) (T : Transfer)
    (d : Directory) (cc : Client) (name key : Bytes) : Go (Directory × Client × Bytes) :=
  (N.usable conf.reg).bind fun ok =>
    if ok then
      (exchangeOver C perms rnd d (N.listener conf.reg) (createRegistrationMsg name (some key)) T).bind fun x =>
        (cc.afterRegister C x.2 name key).map fun y => (x.1, y.1, y.2)
    else some (d, cc, ascii "Invalid config!")

/-- cli/coniksclient/internal/cmd/run.go:169-217 `keyLookup`. -/
def Client.cliLookupOver (C : Crypto) (N : Net) (conf : CliConf) (perms : Nat → Int → Bool) (T : Transfer) (d : Directory) (cc : Client)
    (name : Bytes) : Go (Directory × Client × Bytes) :=
  (N.usable conf.address).bind fun ok =>
    if ok then
      (exchangeOver C perms none d (N.listener conf.address) (createKeyLookupMsg name) T).bind fun x =>
        (cc.afterLookup C x.2 name).map fun y => (x.1, y.1, y.2)
    else some (d, cc, ascii "Invalid config!")

/-- What happens while the REPL runs: calls at the directory that are not ours; a line typed by the user, with what the network does if the
line is a command for the server; the end of the input (`ReadLine` returns an error with this text: end of file, the terminal is gone). -/
inductive NetEvent where
  | dir (op : DirOp)
  | line (rnd : Option Bytes) (l : List Char) (T : Transfer)
  | ended (err : Bytes)

/-- cli/coniksclient/internal/cmd/run.go:58-108, the loop of `run`, as `repl` (Model/Cli.lean) but with a network and a terminal that may
fail: lines 59-62 print the error of `ReadLine` and return. -/
def replOver (C : Crypto) (N : Net) (conf : CliConf) (perms : Nat → Int → Bool) :
    Directory → Client → Bool → List NetEvent → Go (Directory × Client × List (Bool × Bytes))
  | d, cc, _, [] => some (d, cc, [])
  | d, cc, ts, .dir op :: evs => (d.step C op).bind fun x => replOver C N conf perms x.1 cc ts evs
  | d, cc, ts, .ended err :: _ => some (d, cc, [(ts, err)])
  | d, cc, ts, .line rnd l T :: evs =>
    match command (fields l) with
    | .register n k => (cc.cliRegisterOver C N conf perms rnd T d n k).bind fun y =>
        (replOver C N conf perms y.1 y.2.1 ts evs).map fun z => (z.1, z.2.1, (ts, ascii "[+] " ++ y.2.2) :: z.2.2)
    | .lookup n => (cc.cliLookupOver C N conf perms T d n).bind fun y =>
        (replOver C N conf perms y.1 y.2.1 ts evs).map fun z => (z.1, z.2.1, (ts, ascii "[+] " ++ y.2.2) :: z.2.2)
    | .exit => some (d, cc, [(ts, ascii "[+] See ya.")])
    | c =>
      (replOver C N conf perms d cc (localCommand ts (utf8 l) c).1 evs).map fun z =>
        (z.1, z.2.1, (localCommand ts (utf8 l) c).2.toList ++ z.2.2)

end Coniks

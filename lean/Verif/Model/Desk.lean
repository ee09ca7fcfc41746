import Verif.Model.BotRun
import Verif.Model.CliNet
/-
A machine with key servers, a bot, and any number of client programs (`coniksclient run`) at their terminals: cli/coniksclient/internal/cmd/run.go:43-217
on top of Model/BotRun.lean. A command goes to whichever process listens at the client's address at that moment.
-/
namespace Coniks
open Spec Json

/-- cli/coniksclient/internal/cmd/run.go:43-63: a client program: its configuration, its protocol client, whether timestamps are on, whether it has
ended, and what it has printed. -/
structure Terminal where
  conf : CliConf
  client : Client
  ts : Bool
  over : Bool
  printed : List (Bool × Bytes)

/-- The machine of Model/BotRun.lean (cli/coniksserver/internal/cmd/run.go:38-48) with client programs (cli/coniksclient/internal/cmd/run.go:43-63). -/
structure Desk where
  host : Host
  terms : Nat → Terminal

/-- One terminal changes (cli/coniksclient/internal/cmd/run.go:43-108: the programs share nothing but the machine). -/
def Desk.put (D : Desk) (u : Nat) (t : Terminal) : Desk := { D with terms := fun v => if v = u then t else D.terms v }

/-- application/testutil/testutil.go:125-197: the socket a connection to this address reaches, with the server behind it. -/
def Host.answering (M : Machine) (h : Host) (address : Bytes) : Option (Sock × Running) :=
  (h.os.dial M address).bind fun s => (h.server s.pid).map fun r => (s, r)

/-- What happens: an event of the machine, a line typed at a terminal (with what the network does if a server is reached, and the text of the
operating system's error if none is), the end of a terminal's input, the start of a client program with a configuration that could be loaded
(Model/Load says which). -/
inductive DeskEv where
  | host (e : HostEv)
  | opened (u : Nat) (k : ClientConf) (debug : Bool)
  | line (u : Nat) (rnd : Option Bytes) (l : List Char) (T : Transfer) (refused : Bytes)
  | ended (u : Nat) (err : Bytes)

/-- cli/coniksclient/internal/cmd/run.go:123-147, 175-200 when nobody listens at the address: the error of the dial, or the complaint about the scheme. -/
def refusal (N : Net) (address refused : Bytes) : Go Bytes :=
  (N.usable address).map fun ok => if ok then ascii "Error while receiving response: " ++ refused else ascii "Invalid config!"

/-- cli/coniksclient/internal/cmd/run.go:58-108: one line typed at a terminal. -/
def Desk.type (C : Crypto) (M : Machine) (D : Desk) (u : Nat) (rnd : Option Bytes) (l : List Char) (T : Transfer) (refused : Bytes) : Go Desk :=
  let t := D.terms u
  if t.over then some D
  else match command (fields l) with
    | .register n k =>
      match D.host.answering M t.conf.reg with
      | some (s, r) =>
        (t.client.cliRegisterOver C (D.host.os.net M s.ptr) t.conf (permsMap (r.addrs.map fun a => ⟨a.ptr, a.allowRegistration⟩)) rnd T r.dir n k).map
          fun y => Desk.put { D with host := D.host.set s.pid (some { r with dir := y.1 }) } u
            { t with client := y.2.1, printed := t.printed ++ [(t.ts, ascii "[+] " ++ y.2.2)] }
      | none => (refusal (D.host.os.net M 0) t.conf.reg refused).map fun x => D.put u { t with printed := t.printed ++ [(t.ts, ascii "[+] " ++ x)] }
    | .lookup n =>
      match D.host.answering M t.conf.address with
      | some (s, r) =>
        (t.client.cliLookupOver C (D.host.os.net M s.ptr) t.conf (permsMap (r.addrs.map fun a => ⟨a.ptr, a.allowRegistration⟩)) T r.dir n).map
          fun y => Desk.put { D with host := D.host.set s.pid (some { r with dir := y.1 }) } u
            { t with client := y.2.1, printed := t.printed ++ [(t.ts, ascii "[+] " ++ y.2.2)] }
      | none => (refusal (D.host.os.net M 0) t.conf.address refused).map fun x => D.put u { t with printed := t.printed ++ [(t.ts, ascii "[+] " ++ x)] }
    | .exit => some (D.put u { t with over := true, printed := t.printed ++ [(t.ts, ascii "[+] See ya.")] })
    | c => some (D.put u { t with ts := (localCommand t.ts (utf8 l) c).1, printed := t.printed ++ (localCommand t.ts (utf8 l) c).2.toList })

/-- cli/coniksclient/internal/cmd/run.go:43-49: a client program starts at the terminal; whatever ran there before is gone. -/
def Desk.open (D : Desk) (u : Nat) (k : ClientConf) (debug : Bool) : Go Desk :=
  (newClient k.initSTR true k.signingPubKey).map fun cc => D.put u ⟨⟨k.regAddress, k.address⟩, cc, debug, false, []⟩

/-- One event (cli/coniksclient/internal/cmd/run.go:43-108; lines 59-62 for the end of the input). -/
def Desk.step (C : Crypto) (X : Text) (M : Machine) (cwd : Place) (c : TwitterConfig) (D : Desk) : DeskEv → Go Desk
  | .host e => (D.host.step C X M cwd c e).map fun h => { D with host := h }
  | .opened u k debug => D.open u k debug
  | .line u rnd l T refused => D.type C M u rnd l T refused
  | .ended u err =>
    let t := D.terms u
    some (if t.over then D else D.put u { t with over := true, printed := t.printed ++ [(t.ts, err)] })

/-- A history (cli/coniksclient/internal/cmd/run.go:43-108). -/
def Desk.run (C : Crypto) (X : Text) (M : Machine) (cwd : Place) (c : TwitterConfig) (D : Desk) : List DeskEv → Go Desk
  | [] => some D
  | e :: es => (D.step C X M cwd c e).bind fun D' => D'.run C X M cwd c es

end Coniks

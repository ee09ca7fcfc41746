import Verif.Model.Wire
/-
The command-line client: cli/coniksclient/internal/cmd/run.go.
-/
namespace Coniks
open Json

/-- protocol/error.go:54-79 `ErrorCode.Error`: the text of a code, empty for codes that are not in the map (`ReqUnknownDirectory`, numbers
that are not codes at all). -/
def errorText (e : ErrorCode) : Bytes :=
  if e = ReqSuccess then ascii "[coniks] Successful client request"
  else if e = ReqNameExisted then ascii "[coniks] Registering identity is already registered"
  else if e = ReqNameNotFound then ascii "[coniks] Searched name not found in directory"
  else if e = ErrMalformedMessage then ascii "[coniks] Malformed message"
  else if e = ErrDirectory then ascii "[coniks] Directory error"
  else if e = ErrAuditLog then ascii "[coniks] Audit log error"
  else if e = CheckBadSignature then ascii "[coniks] Directory's signature on STR or TB is invalid"
  else if e = CheckBadVRFProof then ascii "[coniks] Returned index is not valid for the given name"
  else if e = CheckBindingsDiffer then ascii "[coniks] The key in the binding is inconsistent with our expectation"
  else if e = CheckBadCommitment then ascii "[coniks] The name-to-key binding commitment is not verifiable"
  else if e = CheckBadLookupIndex then ascii "[coniks] The lookup index is inconsistent with the index of the proof node"
  else if e = CheckBadAuthPath then ascii "[coniks] Returned binding is inconsistent with the tree root hash"
  else if e = CheckBadSTR then ascii "[coniks] The hash chain is inconsistent"
  else if e = CheckBadPromise then ascii "[coniks] The directory returned an invalid registration promise"
  else if e = CheckBrokenPromise then ascii "[coniks] The directory broke the registration promise"
  else []

/-- cli/coniksclient/internal/cmd/run.go:141-144, 198-201: the line for `CheckBadSTR`. -/
def badSTRText : Bytes :=
  ascii "Error: " ++ errorText CheckBadSTR ++
    ascii ". Maybe the client missed an epoch in between two commands, monitoring isn't supported yet."

/-- cli/coniksclient/internal/cmd/run.go:141-166: the line printed after a registration: `err` is the result of `HandleResponse`, `code` is
`response.Error`, `recv` the result of `response.GetKey()` (protocol/message.go:306-308 returns no error). -/
def registerText (err : Option ErrorCode) (code : ErrorCode) (recv : Option Bytes) (name key : Bytes) : Bytes :=
  match err with
  | none =>
    if code = ReqSuccess then ascii "Succesfully registered name: " ++ name
    else if code = ReqNameExisted then ascii "Name is already registered."
    else []
  | some e =>
    if e = CheckBadSTR then badSTRText
    else if e = CheckBindingsDiffer then
      if code = ReqNameExisted then ascii "Are you trying to update your binding? Unfortunately, KeyChange isn't supported yet."
      else if code = ReqSuccess then
        ascii "Oops! The server snuck in some other key. [" ++ recv.getD [] ++ ascii "] was registered instead of [" ++ key ++ ascii "]"
      else []
    else ascii "Error: " ++ errorText e

/-- cli/coniksclient/internal/cmd/run.go:198-216: the line printed after a lookup. -/
def lookupText (err : Option ErrorCode) (code : ErrorCode) (recv : Option Bytes) : Bytes :=
  match err with
  | none =>
    if code = ReqSuccess then ascii "Found! Key bound to name is: [" ++ recv.getD [] ++ ascii "]"
    else if code = ReqNameNotFound then ascii "Name isn't registered."
    else []
  | some e => if e = CheckBadSTR then badSTRText else ascii "Error: " ++ errorText e

/-- cli/coniksclient/internal/cmd/run.go:139-166: what `register` does with the result of the transport: an error text, or the bytes
received. -/
def Client.afterRegister (C : Crypto) (cc : Client) (reply : Except Bytes Bytes) (name key : Bytes) : Go (Client × Bytes) :=
  match reply with
  | .error e => some (cc, ascii "Error while receiving response: " ++ e)
  | .ok bytes =>
    (unmarshalResponse RegistrationType bytes).bind fun w =>
      (cc.handleResponse C RegistrationType w.toResponse name (some key)).map fun y =>
        (y.1, registerText y.2 w.error w.toResponse.getKey name key)

/-- cli/coniksclient/internal/cmd/run.go:192-216: what `keyLookup` does with the result of the transport. The expected key is
`cc.Bindings[name]`, nil if there is no entry or the entry is nil. -/
def Client.afterLookup (C : Crypto) (cc : Client) (reply : Except Bytes Bytes) (name : Bytes) : Go (Client × Bytes) :=
  match reply with
  | .error e => some (cc, ascii "Error while receiving response: " ++ e)
  | .ok bytes =>
    (unmarshalResponse KeyLookupType bytes).bind fun w =>
      (cc.handleResponse C KeyLookupType w.toResponse name (cc.bindings name).join).map fun y =>
        (y.1, lookupText y.2 w.error w.toResponse.getKey)

/-- application/client/config.go:19-30: the addresses of the configuration. -/
structure CliConf where
  regAddress : Bytes
  address : Bytes

/-- The part of `net/url` and of the network that the client uses: `scheme a` is `url.Parse(a).Scheme`, `none` if `url.Parse` returns nil
(the code ignores the error and then dereferences the nil pointer); `listener a` is the server address that a connection to `a` reaches. -/
structure Net where
  scheme : Bytes → Option Bytes
  listener : Bytes → Nat

/-- cli/coniksclient/internal/cmd/run.go:118-122: the fallback. -/
def CliConf.reg (conf : CliConf) : Bytes := if conf.regAddress = [] then conf.address else conf.regAddress

/-- cli/coniksclient/internal/cmd/run.go:123-137, 175-190: the address can be used. -/
def Net.usable (N : Net) (a : Bytes) : Go Bool :=
  (N.scheme a).map fun s => s = ascii "tcp" || s = ascii "unix"

/-- cli/coniksclient/internal/cmd/run.go:111-167 `register`, over a network that does not fail (`exchange`). -/
def Client.cliRegister (C : Crypto) (N : Net) (conf : CliConf) (perms : Nat → Int → Bool) (rnd : Option Bytes) (d : Directory) (cc : Client)
    (name key : Bytes) : Go (Directory × Client × Bytes) :=
  (N.usable conf.reg).bind fun ok =>
    if ok then
      (exchange C perms rnd d (N.listener conf.reg) (createRegistrationMsg name (some key))).bind fun x =>
        (cc.afterRegister C (.ok x.2) name key).map fun y => (x.1, y.1, y.2)
    else some (d, cc, ascii "Invalid config!")

/-- cli/coniksclient/internal/cmd/run.go:169-217 `keyLookup`, over a network that does not fail. -/
def Client.cliLookup (C : Crypto) (N : Net) (conf : CliConf) (perms : Nat → Int → Bool) (d : Directory) (cc : Client)
    (name : Bytes) : Go (Directory × Client × Bytes) :=
  (N.usable conf.address).bind fun ok =>
    if ok then
      (exchange C perms none d (N.listener conf.address) (createKeyLookupMsg name)).bind fun x =>
        (cc.afterLookup C (.ok x.2) name).map fun y => (x.1, y.1, y.2)
    else some (d, cc, ascii "Invalid config!")

/-- `unicode.IsSpace` of the Go library, used by `strings.Fields` (cli/coniksclient/internal/cmd/run.go:65). -/
def isSpace (c : Char) : Bool :=
  c = '\t' || c = '\n' || c.toNat = 0x0b || c.toNat = 0x0c || c = '\r' || c = ' ' || c.toNat = 0x85 || c.toNat = 0xa0 || c.toNat = 0x1680 ||
    (0x2000 ≤ c.toNat && c.toNat ≤ 0x200a) || c.toNat = 0x2028 || c.toNat = 0x2029 || c.toNat = 0x202f || c.toNat = 0x205f ||
    c.toNat = 0x3000

/-- The loop of `strings.Fields`: `w` is the field being read, reversed. -/
def fieldsAux : List Char → List Char → List (List Char)
  | w, [] => if w = [] then [] else [w.reverse]
  | w, c :: cs => if isSpace c then (if w = [] then fieldsAux [] cs else w.reverse :: fieldsAux [] cs) else fieldsAux (c :: w) cs

/-- `strings.Fields` (cli/coniksclient/internal/cmd/run.go:65). A line read from the terminal is a list of characters
(`terminal.ReadLine` converts runes to a string). -/
def fields (line : List Char) : List (List Char) := fieldsAux [] line

/-- The bytes of a Go string made of these characters. -/
def utf8 (s : List Char) : Bytes := s.flatMap String.utf8EncodeChar

/-- A command of the REPL. -/
inductive Command where
  | empty | exit | help | unrecognizedLine
  | timestamp (on : Bool)
  | register (name key : Bytes)
  | registerArgs
  | lookup (name : Bytes)
  | lookupArgs
  | unrecognized (cmd : Bytes)
deriving DecidableEq

/-- cli/coniksclient/internal/cmd/run.go:65-107: the dispatch on the fields of a line. -/
def command (args : List (List Char)) : Command :=
  match args with
  | [] => .empty
  | cmd :: rest =>
    if cmd = "exit".toList ∨ cmd = "q".toList then .exit
    else if cmd = "help".toList then .help
    else if cmd = "enable".toList ∨ cmd = "disable".toList then
      match rest with
      | [a] => if a = "timestamp".toList then .timestamp (cmd = "enable".toList) else .unrecognizedLine
      | _ => .unrecognizedLine
    else if cmd = "register".toList then
      match rest with
      | [n, k] => .register (utf8 n) (utf8 k)
      | _ => .registerArgs
    else if cmd = "lookup".toList then
      match rest with
      | [n] => .lookup (utf8 n)
      | _ => .lookupArgs
    else .unrecognized (utf8 cmd)

/-- cli/coniksclient/internal/cmd/run.go:20-31 `help`. -/
def helpText : Bytes :=
  ascii ("- register [name] [key]:\r\n\tRegister a new name-to-key binding on the CONIKS-server.\r\n- lookup [name]:\r\n" ++
    "\tLookup the key of some known contact or your own bindings.\r\n- enable timestamp:\r\n" ++
    "\tPrint timestamp of format <15:04:05.999999999> along with the result.\r\n- disable timestamp:\r\n\tDisable timestamp printing.\r\n" ++
    "- help:\r\n\tDisplay this message.\r\n- exit, q:\r\n\tClose the REPL and exit the client.")

/-- The commands that do not talk to the server: whether timestamps are on afterwards and the line printed, with or without a timestamp
(cli/coniksclient/internal/cmd/run.go:66-107). `line` is the whole line. -/
def localCommand (ts : Bool) (line : Bytes) : Command → Bool × Option (Bool × Bytes)
  | .empty => (ts, some (ts, ascii "[!] Type \"help\" for more information."))
  | .exit => (ts, some (ts, ascii "[+] See ya."))
  | .help => (ts, some (false, helpText))
  | .unrecognizedLine => (ts, some (ts, ascii "[!] Unrecognized command: " ++ line))
  | .timestamp on => (on, none)
  | .registerArgs => (ts, some (ts, ascii "[!] Incorrect number of args to register."))
  | .lookupArgs => (ts, some (ts, ascii "[!] Incorrect number of args to lookup."))
  | .unrecognized c => (ts, some (ts, ascii "[!] Unrecognized command: " ++ c))
  | .register .. => (ts, none)
  | .lookup .. => (ts, none)

/-- What happens while the REPL runs: calls at the directory that are not ours, and lines typed by the user (`rnd` is the randomness the
directory draws if the line is a registration). -/
inductive ReplEvent where
  | dir (op : DirOp)
  | line (rnd : Option Bytes) (l : List Char)

/-- cli/coniksclient/internal/cmd/run.go:58-108, the loop of `run`: the directory and the client after the events, and what was printed, each
line with a flag whether it carries a timestamp. After `exit` the client prints nothing any more. -/
def repl (C : Crypto) (N : Net) (conf : CliConf) (perms : Nat → Int → Bool) :
    Directory → Client → Bool → List ReplEvent → Go (Directory × Client × List (Bool × Bytes))
  | d, cc, _, [] => some (d, cc, [])
  | d, cc, ts, .dir op :: evs => (d.step C op).bind fun x => repl C N conf perms x.1 cc ts evs
  | d, cc, ts, .line rnd l :: evs =>
    match command (fields l) with
    | .register n k => (cc.cliRegister C N conf perms rnd d n k).bind fun y =>
        (repl C N conf perms y.1 y.2.1 ts evs).map fun z => (z.1, z.2.1, (ts, ascii "[+] " ++ y.2.2) :: z.2.2)
    | .lookup n => (cc.cliLookup C N conf perms d n).bind fun y =>
        (repl C N conf perms y.1 y.2.1 ts evs).map fun z => (z.1, z.2.1, (ts, ascii "[+] " ++ y.2.2) :: z.2.2)
    | .exit => some (d, cc, [(ts, ascii "[+] See ya.")])
    | c =>
      (repl C N conf perms d cc (localCommand ts (utf8 l) c).1 evs).map fun z =>
        (z.1, z.2.1, (localCommand ts (utf8 l) c).2.toList ++ z.2.2)

end Coniks

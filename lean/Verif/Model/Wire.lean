import Verif.Model.Json.Codec
import Verif.Model.Client
/-
One exchange between a client and the server as bytes: application/testutil/testutil.go, application/serverbase.go and the body of the
client commands in cli/coniksclient/internal/cmd/run.go.
-/
namespace Coniks
open Json

/-- application/testutil/testutil.go:159-164, 190-195: `io.CopyN(&buf, conn, 8192)`: the client keeps at most 8192 bytes of the reply. -/
def clientRead (reply : Bytes) : Bytes := reply.take 8192

/-- application/serverbase.go:239-244: the bytes written to the connection (none if it is closed without an answer). -/
def replyBytes : Option Response → Bytes
  | none => []
  | some r => marshalResponse r

/-- application/testutil/testutil.go:136-198 `NewTCPClient`, `NewUnixClient` and application/serverbase.go:195-249
`acceptClient`: the client sends `msg`, closes its side and reads the reply. Simplification: the transport (TCP, TLS, Unix socket) loses
nothing and does not fail, also when the server closes a connection that it has not read to the end. -/
def exchange (C : Crypto) (perms : Nat → Int → Bool) (rnd : Option Bytes) (d : Directory) (addr : Nat) (msg : Bytes) :
    Go (Directory × Bytes) :=
  (acceptClient C goJson perms rnd d addr ⟨msg, false⟩).map fun x => (x.1, clientRead (replyBytes x.2))

/-- cli/coniksclient/internal/cmd/run.go:139-140, 192-197: decode the reply and check it; the directory has become `d`. -/
def Client.receive (C : Crypto) (cc : Client) (t : Int) (d : Directory) (reply : Bytes) (name : Bytes) (key : Option Bytes) :
    Go (Directory × Client × Option ErrorCode) :=
  (unmarshalResponse t reply).bind fun w => (cc.handleResponse C t w.toResponse name key).map fun y => (d, y.1, y.2)

/-- cli/coniksclient/internal/cmd/run.go:111-140 `register` up to the call of `HandleResponse`. -/
def Client.wireRegister (C : Crypto) (perms : Nat → Int → Bool) (rnd : Option Bytes) (d : Directory) (addr : Nat) (cc : Client)
    (name key : Bytes) : Go (Directory × Client × Option ErrorCode) :=
  (exchange C perms rnd d addr (createRegistrationMsg name (some key))).bind fun x =>
    cc.receive C RegistrationType x.1 x.2 name (some key)

/-- cli/coniksclient/internal/cmd/run.go:169-197 `keyLookup` up to the call of `HandleResponse`; `key` is the key it passes there. -/
def Client.wireLookup (C : Crypto) (perms : Nat → Int → Bool) (d : Directory) (addr : Nat) (cc : Client) (name : Bytes)
    (key : Option Bytes) : Go (Directory × Client × Option ErrorCode) :=
  (exchange C perms none d addr (createKeyLookupMsg name)).bind fun x => cc.receive C KeyLookupType x.1 x.2 name key

end Coniks

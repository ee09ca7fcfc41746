import Verif.Spec.Session
import Verif.Model.Wire
/-
What should happen to messages on their way between client and server (C61 - C63), independent of the codec.
-/
namespace Coniks.Spec
open Coniks

/-- A string is valid UTF-8: the encoding of a list of characters (Lean's `Char` are the Unicode scalar values, `String.utf8EncodeChar`
is the standard encoding). -/
def Utf8 (s : Bytes) : Prop := ∃ cs : List Char, s = cs.flatMap String.utf8EncodeChar

/-- The strings of the policies of an STR are valid UTF-8. -/
def Utf8STR (s : DirSTR) : Prop := ∀ p, s.policies = some p → Utf8 p.version ∧ Utf8 p.hashID

/-- The STRs a response carries. -/
def Response.strs (r : Response) : List (Option DirSTR) :=
  match r.resp with
  | .proof p => p.str
  | .history l => l
  | _ => []

/-- The body has the form that belongs to the request type (0 - 3: a proof, 5: a range of STRs), or there is none and the
code says why (104, 105, 106). -/
def Response.Fits (t : Int) (r : Response) : Prop :=
  match r.resp with
  | .proof _ => 0 ≤ t ∧ t ≤ 3
  | .history _ => t = 5
  | .none => r.error = 104 ∨ r.error = 105 ∨ r.error = 106
  | _ => False

/-- The request type of a call, if it is one that is answered. -/
def wireType : DirOp → Int
  | .register .. => 0
  | .keyLookup _ => 1
  | .keyLookupInEpoch _ => 2
  | .monitor _ => 3
  | _ => 5

/-- The directory and the client after a session over the network, in which our client talks to the server's address `addr` (see `runSession`
for the same session without a network). -/
def runWireSession (C : Crypto) (perms : Nat → Int → Bool) (addr : Nat) :
    Directory → Client → List SesOp → Go (Directory × Client × List (Option ErrorCode))
  | d, cc, [] => some (d, cc, [])
  | d, cc, .dir op :: ops => (d.step C op).bind fun x => runWireSession C perms addr x.1 cc ops
  | d, cc, .lookup n key :: ops =>
    (cc.wireLookup C perms d addr n key).bind fun y =>
      (runWireSession C perms addr y.1 y.2.1 ops).map fun z => (z.1, z.2.1, y.2.2 :: z.2.2)
  | d, cc, .register rnd n k :: ops =>
    (cc.wireRegister C perms rnd d addr n k).bind fun y =>
      (runWireSession C perms addr y.1 y.2.1 ops).map fun z => (z.1, z.2.1, y.2.2 :: z.2.2)

/-- The messages of our client have at most 8192 bytes. -/
def requestFits : SesOp → Bool
  | .dir _ => true
  | .lookup n _ => (Json.createKeyLookupMsg n).length ≤ 8192
  | .register _ n k => (Json.createRegistrationMsg n (some k)).length ≤ 8192

/-- The answer to our client has at most 8192 bytes. -/
def answerFits : SesOp → Option Response → Bool
  | .dir _, _ => true
  | _, none => true
  | _, some r => (Json.marshalResponse r).length ≤ 8192

/-- All messages between our client and the server have at most 8192 bytes. -/
def AllFit (C : Crypto) : Directory → List SesOp → Bool
  | _, [] => true
  | d, op :: ops => requestFits op &&
    match d.step C op.dirOp with
    | none => true
    | some (d', r) => answerFits op r && AllFit C d' ops

end Coniks.Spec

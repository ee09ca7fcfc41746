import Verif.Spec.Wire
import Verif.Model.Cli
/-
What the command-line client should print (C64), independent of the client: from the abstract directory alone.
-/
namespace Coniks.Spec
open Coniks Json

/-- The code points that Unicode calls white space. -/
def blanks : List Nat :=
  [0x09, 0x0A, 0x0B, 0x0C, 0x0D, 0x20, 0x85, 0xA0, 0x1680, 0x2000, 0x2001, 0x2002, 0x2003, 0x2004, 0x2005, 0x2006, 0x2007, 0x2008, 0x2009, 0x200A,
    0x2028, 0x2029, 0x202F, 0x205F, 0x3000]

def blank (c : Char) : Bool := blanks.contains c.toNat

/-- `ws` are the words of a line: the maximal runs of characters that are not spaces, in order. -/
inductive Words : List Char → List (List Char) → Prop where
  | nil {s} : (∀ c ∈ s, blank c = true) → Words s []
  | cons {s w rest ws} : (∀ c ∈ s, blank c = true) → w ≠ [] → (∀ c ∈ w, blank c = false) →
      (∀ c ∈ rest.head?, blank c = true) → Words rest ws → Words (s ++ w ++ rest) (w :: ws)

/-- The line after a registration of `k` for `n`. -/
def registerLine (A : AbsDir) (rnd : Option Bytes) (n k : Bytes) : Bytes :=
  if n = [] ∨ k = [] then ascii "Error: [coniks] Malformed message"
  else match A.merged n with
    | some v => if v = k then ascii "Name is already registered."
        else ascii "Are you trying to update your binding? Unfortunately, KeyChange isn't supported yet."
    | none => if rnd.isSome then ascii "Succesfully registered name: " ++ n else ascii "Error: [coniks] Directory error"

/-- The line after a lookup. The key that is printed is always empty (C64_lookup_prints_no_key). -/
def lookupLine (A : AbsDir) (n : Bytes) : Bytes :=
  if n = [] then ascii "Error: [coniks] Malformed message"
  else match A.merged n with
    | some _ => ascii "Found! Key bound to name is: []"
    | none => ascii "Name isn't registered."

/-- Everything the client prints during a session, if it works as it should. -/
def lines : AbsDir → Bool → List ReplEvent → List (Bool × Bytes)
  | _, _, [] => []
  | A, ts, .dir op :: evs => lines (A.step op) ts evs
  | A, ts, .line rnd l :: evs =>
    match command (fields l) with
    | .register n k => (ts, ascii "[+] " ++ registerLine A rnd n k) :: lines (A.step (.register rnd ⟨n, k⟩)) ts evs
    | .lookup n => (ts, ascii "[+] " ++ lookupLine A n) :: lines A ts evs
    | .exit => [(ts, ascii "[+] See ya.")]
    | c => (localCommand ts (utf8 l) c).2.toList ++ lines A (localCommand ts (utf8 l) c).1 evs

/-- What the client prints if it is too far behind: every registration and lookup that the directory answers ends in the same complaint. -/
def lostLines : AbsDir → Bool → List ReplEvent → List (Bool × Bytes)
  | _, _, [] => []
  | A, ts, .dir op :: evs => lostLines (A.step op) ts evs
  | A, ts, .line rnd l :: evs =>
    match command (fields l) with
    | .register n k =>
      (ts, ascii "[+] " ++ (if answered (A.registerAnswer rnd n k) then badSTRText else registerLine A rnd n k)) ::
        lostLines (A.step (.register rnd ⟨n, k⟩)) ts evs
    | .lookup n => (ts, ascii "[+] " ++ (if answered (A.lookupAnswer n) then badSTRText else lookupLine A n)) :: lostLines A ts evs
    | .exit => [(ts, ascii "[+] See ya.")]
    | c => (localCommand ts (utf8 l) c).2.toList ++ lostLines A (localCommand ts (utf8 l) c).1 evs

/-- The calls at the directory and of our client in a session of the REPL. Our client never expects a key in a lookup. -/
def sesOps : List ReplEvent → List SesOp
  | [] => []
  | .dir op :: evs => .dir op :: sesOps evs
  | .line rnd l :: evs =>
    match command (fields l) with
    | .register n k => .register rnd n k :: sesOps evs
    | .lookup n => .lookup n none :: sesOps evs
    | .exit => []
    | _ => sesOps evs

/-- The session without network and without texts: as `runSession`, with the status code of each answer. -/
def runTalk (C : Crypto) : Directory → Client → List SesOp → Go (Directory × Client × List (Option ErrorCode × ErrorCode))
  | d, cc, [] => some (d, cc, [])
  | d, cc, .dir op :: ops => (d.step C op).bind fun x => runTalk C x.1 cc ops
  | d, cc, .lookup n key :: ops =>
    (d.keyLookup C ⟨n⟩).bind fun resp => (cc.handleResponse C KeyLookupType resp n key).bind fun y =>
      (runTalk C d y.1 ops).map fun z => (z.1, z.2.1, (y.2, resp.error) :: z.2.2)
  | d, cc, .register rnd n k :: ops =>
    (d.register C rnd ⟨n, k⟩).bind fun x => (cc.handleResponse C RegistrationType x.2 n (some k)).bind fun y =>
      (runTalk C x.1 y.1 ops).map fun z => (z.1, z.2.1, (y.2, x.2.error) :: z.2.2)

/-- The verdicts the client should give, with the status codes. -/
def talks : AbsDir → List SesOp → List (Option ErrorCode × ErrorCode)
  | _, [] => []
  | A, .dir op :: ops => talks (A.step op) ops
  | A, .lookup n key :: ops => (verdict key (A.lookupAnswer n), (A.lookupAnswer n).1) :: talks A ops
  | A, .register rnd n k :: ops =>
    (verdict (some k) (A.registerAnswer rnd n k), (A.registerAnswer rnd n k).1) :: talks (A.step (.register rnd ⟨n, k⟩)) ops

end Coniks.Spec

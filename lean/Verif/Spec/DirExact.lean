import Verif.Spec.Directory
/-
The directory exactly as it is, for every VRF: content is filed under the 32-byte index of a name, not under the name, and an
index at which nothing is filed can still be reported as filed (a ghost).
-/
namespace Coniks.Spec
open Coniks

/-- An entry: a name, its key, and the salt of the commitment to both. -/
structure Filed where
  name : Bytes
  key : Bytes
  salt : Bytes

/-- What is filed under an index. -/
abbrev Content := Bytes → Option Filed

/-- Two different indices with `P` agree with `i` on its first `L - 1` bits, none agrees with it on `L` bits, the bits of `i`
from position `L` on are zero, and `L` reaches into the last of the `n` bytes. -/
def DeepIn (n : Nat) (P : Bytes → Prop) (i : Bytes) : Prop :=
  ∃ L, 8 * (n - 1) < L ∧ L ≤ 8 * n ∧
    (∃ j k, P j ∧ P k ∧ j ≠ k ∧
      (bitsOf j).take (L - 1) = (bitsOf i).take (L - 1) ∧ (bitsOf k).take (L - 1) = (bitsOf i).take (L - 1)) ∧
    (∀ j, P j → (bitsOf j).take L ≠ (bitsOf i).take L) ∧
    (bitsOf i).drop L = List.replicate (8 * n - L) false

/-- What a search at an index finds. -/
inductive Finding where
  /-- filed -/
  | entry (e : Filed)
  /-- nothing is filed, but the empty place looks like an entry without a key -/
  | ghost
  /-- nothing is filed -/
  | absent

open Classical in
noncomputable def search (M : Content) (i : Bytes) : Finding :=
  match M i with
  | some e => .entry e
  | none => if DeepIn 32 (fun j => M j ≠ none) i then .ghost else .absent

structure ExactDir where
  /-- what the latest snapshot holds -/
  committed : Content
  /-- what the next snapshot will hold -/
  tree : Content
  /-- the promises given since the latest snapshot, by name -/
  promised : Bytes → Option Bytes
  /-- what the snapshot of epoch 0, 1, ..., latest holds -/
  past : List Content

noncomputable section

def ExactDir.init : ExactDir :=
  { committed := fun _ => none, tree := fun _ => none, promised := fun _ => none, past := [fun _ => none] }

/-- File the name under its index, in place of what was there, and promise it. -/
def ExactDir.file (E : ExactDir) (idx : Bytes → Bytes) (n k salt : Bytes) : ExactDir :=
  { E with tree := fun i => if i = idx n then some ⟨n, k, salt⟩ else E.tree i
           promised := fun x => if x = n then some k else E.promised x }

def ExactDir.nextEpoch (E : ExactDir) : ExactDir :=
  { committed := E.tree, tree := E.tree, promised := fun _ => none, past := E.past ++ [E.tree] }

open Classical in
/-- `idx` gives the index of a name; the salt is the hash of the random bytes of the registration. -/
def ExactDir.step (idx hash : Bytes → Bytes) (E : ExactDir) : DirOp → ExactDir
  | .register (some r) req =>
    if req.username ≠ [] ∧ req.key ≠ [] ∧ search E.committed (idx req.username) = .absent ∧ E.promised req.username = none
    then E.file idx req.username req.key (hash r)
    else E
  | .update => E.nextEpoch
  | _ => E

def exactAfter (idx hash : Bytes → Bytes) (ops : List DirOp) : ExactDir := ops.foldl (ExactDir.step idx hash) ExactDir.init

/-- Status, what the proof shows, the key promised, for a registration; no proof with a bare status. -/
def ExactDir.registerAnswer (idx : Bytes → Bytes) (E : ExactDir) (rnd : Option Bytes) (n k : Bytes) :
    ErrorCode × Option (Finding × Option Bytes) :=
  if n = [] ∨ k = [] then (ErrMalformedMessage, none)
  else match search E.committed (idx n), E.promised n with
    | .absent, none => if rnd.isSome then (ReqSuccess, some (.absent, some k)) else (ErrDirectory, none)
    | .absent, some v => (ReqNameExisted, some (.absent, some v))
    | f, _ => (ReqNameExisted, some (f, none))

/-- The same for a lookup. -/
def ExactDir.lookupAnswer (idx : Bytes → Bytes) (E : ExactDir) (n : Bytes) : ErrorCode × Option (Finding × Option Bytes) :=
  if n = [] then (ErrMalformedMessage, none)
  else match search E.committed (idx n), E.promised n with
    | .absent, none => (ReqNameNotFound, some (.absent, none))
    | .absent, some v => (ReqSuccess, some (.absent, some v))
    | f, _ => (ReqSuccess, some (f, none))

end

/-- What a proof shows under the tree hash `th`, to whoever verifies it with any name and any key. -/
def Exhibits (C : Crypto) (th : Bytes) (ap : AuthPath) : Finding → Prop
  | .entry e => ap.proofType = some .inclusion ∧
      ∃ l, ap.leaf = some l ∧ l.value = some e.key ∧ l.commitment = some ⟨e.salt, C.hash (e.salt ++ e.name ++ e.key)⟩ ∧
        ∀ x w, ap.verify C x w th =
          if w ≠ e.key then some (.error .bindingsDiffer)
          else if C.hash (e.salt ++ x ++ e.key) = C.hash (e.salt ++ e.name ++ e.key) then some (.ok ())
          else some (.error .unverifiableCommitment)
  | .ghost => ap.proofType = some .inclusion ∧ (∃ l, ap.leaf = some l ∧ l.value = none) ∧
      ∀ x w, ap.verify C x w th = if w = [] then none else some (.error .bindingsDiffer)
  | .absent => ap.proofType = some .absence ∧ (∃ l, ap.leaf = some l ∧ l.value = none) ∧
      ∀ x w, ap.verify C x w th = some (.ok ())

/-- The proof is for `name` and shows `f`. -/
structure ProofOf (C : Crypto) (vk name th : Bytes) (ap : AuthPath) (f : Finding) : Prop where
  index : ap.lookupIndex = (C.vrfProve vk name).1
  vrf : ap.vrfProof = (C.vrfProve vk name).2
  shows : Exhibits C th ap f

/-- The answer is the bare status, or one proof for `name`, the STR `str` and the promise. -/
def ExactAnswer (C : Crypto) (sk vk name : Bytes) (str : DirSTR) (resp : Response) :
    ErrorCode × Option (Finding × Option Bytes) → Prop
  | (code, none) => resp = ⟨code, .none⟩
  | (code, some (f, promised)) => ∃ ap,
      resp = ⟨code, .proof ⟨[some ap], [some str], promised.map (promise C sk vk str.core.signature name)⟩⟩ ∧
      ProofOf C vk name str.core.treeHash ap f

/-- The status of an answer about a past epoch. -/
def Finding.code : Finding → ErrorCode
  | .absent => ReqNameNotFound
  | _ => ReqSuccess

end Coniks.Spec

import Verif.Spec.JsonRead
import Verif.Spec.JsonGrammar
/-
What a JSON value does to a variable it is read into, type by type, independent of the decoder: `Into… old v new` says that `v` can be read into a
variable that holds `old`, which then holds `new`. A field of a struct is affected only by the members with its name, one after the other (`Steps`).
-/
namespace Coniks.Spec
open Coniks Json

/-- Several values one after the other. -/
inductive Steps {α : Type} (R : α → JVal → α → Prop) : List JVal → α → α → Prop
  | none {a} : Steps R [] a a
  | more {v vs a b c} : R a v b → Steps R vs b c → Steps R (v :: vs) a c

/-- The values of the field `name` of an object, one after the other. -/
def Field {α : Type} (R : α → JVal → α → Prop) (ms : List (Bytes × JVal)) (name : String) (old new : α) : Prop := Steps R (vals name ms) old new

/-- `null` changes nothing. -/
def Unless {α : Type} (P : JVal → α → Prop) (old : α) (v : JVal) (new : α) : Prop := (v = .null ∧ new = old) ∨ P v new

/-! ### The basic types -/

def IntoInt : Int → JVal → Int → Prop := Unless fun v n => ∃ lit, v = .num lit ∧ IntText lit n
def IntoU8 : UInt8 → JVal → UInt8 → Prop := Unless fun v n => ∃ lit, v = .num lit ∧ NatText (2 ^ 8) lit n.toNat
def IntoU32 : UInt32 → JVal → UInt32 → Prop := Unless fun v n => ∃ lit, v = .num lit ∧ NatText (2 ^ 32) lit n.toNat
def IntoU64 : UInt64 → JVal → UInt64 → Prop := Unless fun v n => ∃ lit, v = .num lit ∧ NatText (2 ^ 64) lit n.toNat
def IntoBool : Bool → JVal → Bool → Prop := Unless fun v b => v = .bool b
def IntoString : Bytes → JVal → Bytes → Prop := Unless fun v s => v = .str s

/-- A list, element by element into the ones that are there. -/
def IntoElems {α : Type} (R : α → JVal → α → Prop) (zero : α) (old : List α) (vs : List JVal) (new : List α) : Prop :=
  new.length = vs.length ∧ ∀ (i : Nat) (v : JVal) (x : α), vs[i]? = some v → new[i]? = some x → R (old.getD i zero) v x

/-- A slice; `null` empties it. -/
def IntoSlice {α : Type} (R : α → JVal → α → Prop) (zero : α) (old : List α) (v : JVal) (new : List α) : Prop :=
  (v = .null ∧ new = []) ∨ ∃ vs, v = .arr vs ∧ IntoElems R zero old vs new

/-- Bytes: a slice, or base64 text. -/
def IntoBytes (old : Bytes) (v : JVal) (new : Bytes) : Prop := IntoSlice IntoU8 0 old v new ∨ ∃ s, v = .str s ∧ Base64 s new

/-- A pointer: `null` makes it nil, anything else is read into what it points to (a zero value if it was nil). -/
def IntoPtr {α : Type} (R : α → JVal → α → Prop) (zero : α) (old : Option α) (v : JVal) (new : Option α) : Prop :=
  (v = .null ∧ new = none) ∨ (v ≠ .null ∧ ∃ x, R (old.getD zero) v x ∧ new = some x)

/-- An array of 32 bytes: further elements are ignored, missing ones are 0. -/
def IntoArr32 (old : Arr32) (v : JVal) (new : Arr32) : Prop :=
  (v = .null ∧ new = old) ∨ ∃ vs, v = .arr vs ∧ ∀ i, i < 32 →
    match vs[i]? with
    | some x => IntoU8 (old.1.getD i 0) x (new.1.getD i 0)
    | none => new.1.getD i 0 = 0

/-- A struct: an object. -/
def IntoStruct {σ : Type} (P : List (Bytes × JVal) → σ → σ → Prop) (old : σ) (v : JVal) (new : σ) : Prop :=
  (v = .null ∧ new = old) ∨ ∃ ms, v = .obj ms ∧ P ms old new

/-! ### The structs of an answer -/

def IntoCommit : Commit → JVal → Commit → Prop := IntoStruct fun ms c c' =>
  Field IntoBytes ms "Salt" c.salt c'.salt ∧ Field IntoBytes ms "Value" c.value c'.value

def IntoProofNode : ProofNode → JVal → ProofNode → Prop := IntoStruct fun ms n n' =>
  Field IntoU32 ms "Level" n.level n'.level ∧ Field IntoBytes ms "Index" n.index n'.index ∧
  Field (IntoPtr IntoBytes []) ms "Value" n.value n'.value ∧ Field IntoBool ms "IsEmpty" n.isEmpty n'.isEmpty ∧
  Field (IntoPtr IntoCommit ⟨[], []⟩) ms "Commitment" n.commitment n'.commitment

def IntoAuthPath : AuthPath → JVal → AuthPath → Prop := IntoStruct fun ms a a' =>
  Field IntoBytes ms "TreeNonce" a.treeNonce a'.treeNonce ∧
  Field (IntoSlice IntoArr32 ⟨List.replicate 32 0, by simp⟩) ms "PrunedTree" a.prunedTree a'.prunedTree ∧
  Field IntoBytes ms "LookupIndex" a.lookupIndex a'.lookupIndex ∧ Field IntoBytes ms "VrfProof" a.vrfProof a'.vrfProof ∧
  Field (IntoPtr IntoProofNode ⟨0, [], none, false, none⟩) ms "Leaf" a.leaf a'.leaf

def IntoPolicies : Policies → JVal → Policies → Prop := IntoStruct fun ms p p' =>
  Field IntoString ms "Version" p.version p'.version ∧ Field IntoString ms "HashID" p.hashID p'.hashID ∧
  Field IntoBytes ms "VrfPublicKey" p.vrfPublicKey p'.vrfPublicKey ∧ Field IntoU64 ms "EpochDeadline" p.epochDeadline p'.epochDeadline

/-- The five fields of the tree root. -/
def IntoRoot (ms : List (Bytes × JVal)) (r r' : STRCore) : Prop :=
  Field IntoBytes ms "TreeHash" r.treeHash r'.treeHash ∧ Field IntoU64 ms "Epoch" r.epoch r'.epoch ∧
  Field IntoU64 ms "PreviousEpoch" r.previousEpoch r'.previousEpoch ∧
  Field IntoBytes ms "PreviousSTRHash" r.previousSTRHash r'.previousSTRHash ∧ Field IntoBytes ms "Signature" r.signature r'.signature

/-- A signed tree root with policies; the root is allocated by the first of its members. -/
def IntoSTR : WireSTR → JVal → WireSTR → Prop := IntoStruct fun ms s s' =>
  Field (IntoPtr IntoPolicies ⟨[], [], [], 0⟩) ms "Policies" s.policies s'.policies ∧
  if s.root = none ∧ ∀ name ∈ ["TreeHash", "Epoch", "PreviousEpoch", "PreviousSTRHash", "Signature"], vals name ms = [] then s'.root = none
  else ∃ r', s'.root = some r' ∧ IntoRoot ms (s.root.getD ⟨[], 0, 0, [], []⟩) r'

def IntoTB : TB → JVal → TB → Prop := IntoStruct fun ms t t' =>
  Field IntoBytes ms "Index" t.index t'.index ∧ Field IntoBytes ms "Value" t.value t'.value ∧ Field IntoBytes ms "Signature" t.signature t'.signature

def IntoProof : WireProof → JVal → WireProof → Prop := IntoStruct fun ms p p' =>
  Field (IntoSlice (IntoPtr IntoAuthPath ⟨[], [], [], [], none⟩) none) ms "AP" p.ap p'.ap ∧
  Field (IntoSlice (IntoPtr IntoSTR ⟨none, none⟩) none) ms "STR" p.str p'.str ∧
  Field (IntoPtr IntoTB ⟨[], [], []⟩) ms "TB" p.tb p'.tb

def IntoHistory : List (Option WireSTR) → JVal → List (Option WireSTR) → Prop := IntoStruct fun ms l l' =>
  Field (IntoSlice (IntoPtr IntoSTR ⟨none, none⟩) none) ms "STR" l l'

/-! ### The answer -/

/-- The code and the body (the last member of that name, `null` or not) of an answer. -/
def Envelope (msg : Bytes) (e : Int) (body : Option JVal) : Prop :=
  ∃ v, JsonText msg v ∧ ((v = .null ∧ e = 0 ∧ body = none) ∨
    ∃ ms, v = .obj ms ∧ Field IntoInt ms "Error" 0 e ∧ body = (vals "DirectoryResponse" ms).getLast?)

/-- The codes that come without a body. -/
def bodiless (e : Int) : Prop := e = ErrMalformedMessage ∨ e = ErrDirectory ∨ e = ErrAuditLog

/-- The bytes `msg`, as the answer to a request of the types 0 to 3, say `w`. -/
def SaysProof (msg : Bytes) (w : WireResponse) : Prop :=
  ∃ e body, Envelope msg e body ∧
    match body with
    | none => w = ⟨e, .none⟩ ∧ bodiless e
    | some v => (v = .null ∧ w = ⟨e, .nilProof⟩) ∨ (v ≠ .null ∧ ∃ p, IntoProof ⟨[], [], none⟩ v p ∧ w = ⟨e, .proof p⟩)

/-- The bytes `msg`, as the answer to a request for STRs, say `w`. -/
def SaysHistory (msg : Bytes) (w : WireResponse) : Prop :=
  ∃ e body, Envelope msg e body ∧
    match body with
    | none => w = ⟨e, .none⟩ ∧ bodiless e
    | some v => (v = .null ∧ w = ⟨e, .nilHistory⟩) ∨ (v ≠ .null ∧ ∃ l, IntoHistory [] v l ∧ w = ⟨e, .history l⟩)

end Coniks.Spec

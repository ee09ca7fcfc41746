import Verif.Spec.Split
import Verif.Spec.Directory
/-
A client and an honest directory with everything between them in the hands of an adversary: what the directory signed, and what it means that
the adversary forged nothing.
-/
namespace Coniks.Spec
open Coniks

/-- In the history `ops` of the directory, somebody registered `n` with success while the STR with signature `strSig` was the latest, and
the answer carried the promise `tb`. -/
def PromiseMade (C : Crypto) (t0 : UInt64) (sk vk : Bytes) (size : Nat) (r₁ r₂ : Bytes) (ops : List DirOp) (strSig n : Bytes) (tb : TB) :
    Prop :=
  ∃ a rnd k b d log d' ap, ops = a ++ .register rnd ⟨n, k⟩ :: b ∧ dirAfter C t0 sk vk size r₁ r₂ a = some (d, log) ∧
    d.register C rnd ⟨n, k⟩ = some (d', ⟨ReqSuccess, .proof ⟨[some ap], [some d.latestSTR], some tb⟩⟩) ∧
    strSig = d.latestSTR.core.signature

/-- `m` with signature `sig` is something the directory signed and published: an STR of its log or a promise. -/
def WasSigned (C : Crypto) (t0 : UInt64) (sk vk : Bytes) (size : Nat) (r₁ r₂ : Bytes) (ops : List DirOp) (log : List STR) (m sig : Bytes) :
    Prop :=
  (∃ t ∈ log, m = t.serialize ∧ sig = t.core.signature) ∨
  (∃ strSig n tb, PromiseMade C t0 sk vk size r₁ r₂ ops strSig n tb ∧ m = strSig ++ tb.index ++ tb.value ∧ sig = tb.signature)

/-- Every signature in the response that verifies under `pk` was made by the owner of the key (`signed`). -/
def Unforged (C : Crypto) (pk : Bytes) (signed : Bytes → Bytes → Prop) (msg : Response) : Prop :=
  ∀ df s rest, msg.resp = .proof df → df.str = some s :: rest →
    (∀ m, s.serialize = some m → C.verify pk m s.core.signature = true → signed m s.core.signature) ∧
    (∀ t, df.tb = some t → C.verify pk (s.core.signature ++ t.index ++ t.value) t.signature = true →
      signed (s.core.signature ++ t.index ++ t.value) t.signature)

/-- No signature of an STR begins with the eight bytes of an epoch number up to the next one. -/
def EpochFree (log : List STR) : Prop :=
  ∀ t ∈ log, ∀ k, k ≤ log.length → t.core.signature.take 8 ≠ ulongToBytes (UInt64.ofNat k)

/-- Names of the list have indices that differ in their first `b` bits. -/
def IndexSpreadAt (b : Nat) (idx : Bytes → Bytes) (names : List Bytes) : Prop :=
  ∀ x ∈ names, ∀ y ∈ names, x ≠ y → (bitsOf (idx x)).take b ≠ (bitsOf (idx y)).take b

/-- What the directory hashes for the nodes on the way to `ap.lookupIndex`, apart from a user's leaf. -/
def nodeBytes (hash : Bytes → Bytes) (ap : AuthPath) : List Bytes :=
  match ap.leaf with
  | none => []
  | some l => (if l.isEmpty then [leafInput ap.treeNonce l] else []) ++
      stepInputs hash (bitsOf l.index) (ap.prunedTree.map Subtype.val) l.level.toNat (hash (leafInput ap.treeNonce l))

/-- The index does not occur as 32 consecutive bytes in what is hashed for those nodes. -/
def NoWindow (hash : Bytes → Bytes) (ap : AuthPath) : Prop := ∀ x ∈ nodeBytes hash ap, ¬ ap.lookupIndex <:+: x

/-- All that is hashed when the honest proof and a received one are checked for a name. -/
def bothInputs (C : Crypto) (msg : Response) (ap : AuthPath) (name : Bytes) : List Bytes :=
  proofInputs C msg name ++ (openInput ap name ((ap.leaf.bind ProofNode.value).getD []) :: hashInputs C.hash ap)

/-- The VRF values in the response that verify are those of the directory. -/
def VrfHonest (C : Crypto) (vk name : Bytes) (msg : Response) : Prop :=
  ∀ ap str tb, Carries msg ap str tb → C.vrfVerify (C.vrfPub vk) name ap.lookupIndex ap.vrfProof = true →
    ap.lookupIndex = (C.vrfProve vk name).1

/-- The salt in the response, with which the client opens the commitment. -/
def receivedSalt (msg : Response) : Bytes :=
  match msg.resp with
  | .proof ⟨some ap :: _, _, _⟩ => ((ap.leaf.bind ProofNode.commitment).map Commit.salt).getD []
  | _ => []

/-- VRF public keys have 32 bytes (crypto/vrf/vrf.go:177 refuses others). -/
structure VrfKeys32 (C : Crypto) : Prop where
  pub : ∀ vk, (C.vrfPub vk).length = 32
  verify : ∀ pk m i p, C.vrfVerify pk m i p = true → pk.length = 32

instance (log : List STR) : Decidable (EpochFree log) := by unfold EpochFree; infer_instance
instance (b : Nat) (idx : Bytes → Bytes) (names : List Bytes) : Decidable (IndexSpreadAt b idx names) := by
  unfold IndexSpreadAt; infer_instance

end Coniks.Spec

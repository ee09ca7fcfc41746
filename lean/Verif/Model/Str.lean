import Verif.Model.Proof
/-
Model of `merkletree/str.go`, `protocol/str.go`, `protocol/policy.go` and `protocol/tb.go`.
-/
namespace Coniks

/-- protocol/policy.go:15-22 `Policies`. -/
structure Policies where
  version : Bytes
  hashID : Bytes
  vrfPublicKey : Bytes
  epochDeadline : UInt64
deriving DecidableEq, Inhabited

/-- protocol/version.go:5 `Version` = "0.3". -/
def versionString : Bytes := [0x30, 0x2E, 0x33]
/-- crypto/util.go:14 `HashID` = "SHAKE128". -/
def hashIDString : Bytes := [0x53, 0x48, 0x41, 0x4B, 0x45, 0x31, 0x32, 0x38]

/-- protocol/policy.go:29-36 `NewPolicies`. -/
def newPolicies (deadline : UInt64) (vrfPublicKey : Bytes) : Policies :=
  { version := versionString, hashID := hashIDString, vrfPublicKey := vrfPublicKey, epochDeadline := deadline }

/-- protocol/policy.go:43-50 `Policies.Serialize`. -/
def Policies.serialize (p : Policies) : Bytes :=
  p.version ++ p.hashID ++ p.vrfPublicKey ++ ulongToBytes p.epochDeadline

/-- merkletree/str.go:23-31 `SignedTreeRoot`, the exported fields (those on the wire). -/
structure STRCore where
  treeHash : Bytes
  epoch : UInt64
  previousEpoch : UInt64
  previousSTRHash : Bytes
  signature : Bytes
deriving DecidableEq, Inhabited

/-- merkletree/str.go:66-75 `SerializeInternal`. -/
def STRCore.serializeInternal (s : STRCore) : Bytes :=
  ulongToBytes s.epoch ++ (if s.epoch > 0 then ulongToBytes s.previousEpoch else []) ++ s.treeHash ++ s.previousSTRHash

/-- merkletree/str.go:81-86 `VerifyHashChain` (`Epoch+1` wraps around at 2^64, as in Go). -/
def STRCore.verifyHashChain (C : Crypto) (s saved : STRCore) : Bool :=
  s.previousEpoch == saved.epoch && s.epoch == saved.epoch + 1 && C.digest [saved.signature] == s.previousSTRHash

/-- merkletree/str.go:23-31 `SignedTreeRoot` on the server, with its snapshot of the tree and the associated data, which in
this code base is always a `*Policies`. -/
structure STR where
  core : STRCore
  tree : MerkleTree
  ad : Policies
deriving DecidableEq, Inhabited

/-- merkletree/str.go:60-62 `Serialize`. -/
def STR.serialize (s : STR) : Bytes := s.core.serializeInternal ++ s.ad.serialize

/-- merkletree/str.go:36-52 `NewSTR`. -/
def newSTR (C : Crypto) (key : Bytes) (ad : Policies) (m : MerkleTree) (epoch : UInt64) (prevHash : Bytes) : STR :=
  let unsigned : STR :=
    { core := { treeHash := m.hash, epoch := epoch, previousEpoch := if epoch = 0 then 0 else epoch - 1,
                previousSTRHash := prevHash, signature := [] }
      tree := m, ad := ad }
  { unsigned with core := { unsigned.core with signature := C.sign key unsigned.serialize } }

/-- protocol/str.go:7-10 `DirSTR`, as sent. `policies = none` is a nil pointer. Simplification: the embedded
`*SignedTreeRoot` is taken to be non-nil. -/
structure DirSTR where
  core : STRCore
  policies : Option Policies
deriving DecidableEq, Inhabited

/-- protocol/str.go:13-18 `NewDirSTR`; panics on a nil STR. -/
def newDirSTR : Option STR → Go DirSTR
  | none => none
  | some s => some { core := s.core, policies := some s.ad }

/-- protocol/str.go:21-23 `Serialize`; panics on nil policies. -/
def DirSTR.serialize (s : DirSTR) : Go Bytes :=
  s.policies.map fun p => s.core.serializeInternal ++ p.serialize

/-- protocol/str.go:26-28 `VerifyHashChain`. -/
def DirSTR.verifyHashChain (C : Crypto) (s saved : DirSTR) : Bool := s.core.verifyHashChain C saved.core

/-- protocol/tb.go:17-21 `TemporaryBinding`. -/
structure TB where
  index : Bytes
  value : Bytes
  signature : Bytes
deriving DecidableEq, Inhabited

/-- protocol/tb.go:25-31 `Serialize`. -/
def TB.serialize (tb : TB) (strSig : Bytes) : Bytes := strSig ++ tb.index ++ tb.value

end Coniks

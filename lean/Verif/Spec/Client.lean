import Verif.Model.Client
import Verif.Spec.Chain
/-
What a client should check before it accepts a response.
-/
namespace Coniks.Spec
open Coniks

/-- The combinations of request type, status code and kind of proof that make sense when TBs are in use. -/
def StatusFits (ty : Int) (code : ErrorCode) (t : ProofType) : Prop :=
  (ty = RegistrationType ∧ (code = ReqNameExisted ∨ code = ReqSuccess ∧ t = .absence)) ∨
  (ty = KeyLookupType ∧ (code = ReqNameNotFound ∧ t = .absence ∨ code = ReqSuccess))

/-- The combinations in which the key is only promised: not in the tree, yet the directory does not say "not found". -/
def Promised (ty : Int) (code : ErrorCode) (t : ProofType) : Prop :=
  t = .absence ∧ (ty = RegistrationType ∨ code = ReqSuccess)

/-- A valid promise for index `i` and (if known) key `k`, tied to the STR with signature `sig`. -/
structure GoodPromise (C : Crypto) (pk sig i : Bytes) (key : Option Bytes) (tb : TB) : Prop where
  signed : C.verify pk (sig ++ tb.index ++ tb.value) tb.signature = true
  index : tb.index = i
  value : ∀ k, key = some k → tb.value = k

/-- The response carries the proof `ap` and the STR `str` (as first elements), and all checks pass for user `uname` and expected key `key`
(`none` = no expectation). -/
structure Checks (C : Crypto) (cc : Client) (ty : Int) (msg : Response) (uname : Bytes) (key : Option Bytes) (ap : AuthPath) (str : DirSTR)
    (leaf : ProofNode) (t : ProofType) (pol : Policies) : Prop where
  /-- the STR is the held one or its signed, linked successor -/
  chain : str = cc.aud.verified ∨ Successor C cc.aud.signKey cc.aud.verified str
  leaf_eq : ap.leaf = some leaf
  type_eq : t = if ap.lookupIndex = leaf.index then .inclusion else .absence
  status : StatusFits ty msg.error t
  pol_eq : str.policies = some pol
  /-- the lookup index is the VRF value of the name -/
  vrf : C.vrfVerify pol.vrfPublicKey uname ap.lookupIndex ap.vrfProof = true
  /-- the proof verifies under the STR, for the expected key or, without expectation, the one in the leaf -/
  path : ap.verify C uname (match key with | some k => k | none => leaf.value.getD []) str.core.treeHash = some (.ok ())

/-- The proof, STR and promise the client looks at. -/
def Carries (msg : Response) (ap : AuthPath) (str : DirSTR) (tb : Option TB) : Prop :=
  ∃ aps strs, msg.resp = .proof ⟨some ap :: aps, some str :: strs, tb⟩

/-- A call of `HandleResponse`: request type, response, name, expected key. -/
structure ClientCall where
  ty : Int
  msg : Response
  uname : Bytes
  key : Option Bytes

/-- The client after a sequence of calls (accepted or not), if none panics. -/
def clientAfter (C : Crypto) (cc : Client) : List ClientCall → Go Client
  | [] => some cc
  | c :: cs => (cc.handleResponse C c.ty c.msg c.uname c.key).bind fun x => clientAfter C x.1 cs

end Coniks.Spec

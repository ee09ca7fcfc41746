import Verif.Spec.Client
import Verif.Spec.Chain
/-
Two clients of one directory.
-/
namespace Coniks.Spec
open Coniks

/-- What the proof of a response says about the tree: `some (some v)` a key, `some none` absence, `none` no proof. -/
def treeSays (msg : Response) : Option (Option Bytes) :=
  match msg.resp with
  | .proof ⟨some ap :: _, some _ :: _, _⟩ => ap.leaf.map fun l => if ap.lookupIndex = l.index then some (l.value.getD []) else none
  | _ => none

/-- The promise a response carries. -/
def promised (msg : Response) : Option TB :=
  match msg.resp with
  | .proof df => df.tb
  | _ => none

/-- The proof of the response has the shape that proofs of the tree code have; `Verify` does not check it. -/
def ShapedProof (msg : Response) : Prop := ∀ ap str tb, Carries msg ap str tb → WellShaped ap ∧ NotConfusable ap

/-- All that is hashed when the proof of the response is checked for a name. -/
def proofInputs (C : Crypto) (msg : Response) (name : Bytes) : List Bytes :=
  match msg.resp with
  | .proof ⟨some ap :: _, _, _⟩ => openInput ap name ((ap.leaf.bind ProofNode.value).getD []) :: hashInputs C.hash ap
  | _ => []

/-- The two responses do not carry two different VRF values for the name with proofs that are both valid. -/
def VrfAgree (C : Crypto) (pk name : Bytes) (m₁ m₂ : Response) : Prop :=
  ∀ ap₁ ap₂ s₁ s₂ tb₁ tb₂, Carries m₁ ap₁ s₁ tb₁ → Carries m₂ ap₂ s₂ tb₂ → C.vrfVerify pk name ap₁.lookupIndex ap₁.vrfProof = true →
    C.vrfVerify pk name ap₂.lookupIndex ap₂.vrfProof = true → ap₁.lookupIndex = ap₂.lookupIndex

/-- The STRs a client holds, before and after each of the calls. -/
def heldSTRs (C : Crypto) (cc : Client) : List ClientCall → List DirSTR
  | [] => [cc.aud.verified]
  | c :: cs => cc.aud.verified :: match cc.handleResponse C c.ty c.msg c.uname c.key with
    | some x => heldSTRs C x.1 cs
    | none => []

end Coniks.Spec

import Verif.Spec.CrashClient
/-
The reason a client should give for refusing a response (C74): each step lists the checks in the order of their importance, with the code of the
first one that fails; `none` = nothing to complain about. Only the parts of the response, the hash, the signature check and the VRF check occur.
-/
namespace Coniks.Spec
open Coniks
open Classical

/-- The hash recomputed from the leaf of a proof upwards: at each depth the running hash `h` is joined with its sibling, on the side that the bit
tells. -/
def climbFrom (hash : Bytes → Bytes) (bits : List Bool) (siblings : List Bytes) : Nat → Bytes → Bytes
  | 0, h => h
  | d + 1, h => climbFrom hash bits siblings d (hash (if bits.getD d false then siblings.getD d [] ++ h else h ++ siblings.getD d []))

/-- The tree hash that a proof with the leaf `l` leads to. -/
def rootOf (hash : Bytes → Bytes) (ap : AuthPath) (l : ProofNode) : Bytes :=
  climbFrom hash (bitsOf l.index) (ap.prunedTree.map Subtype.val) l.level.toNat (hash (leafInput ap.treeNonce l))

/-- The two strings differ in one of the first `n` bits. -/
def DifferEarly (a b : Bytes) (n : Nat) : Prop :=
  ∃ (j : Nat) (x y : Bool), j < n ∧ (bitsOf a)[j]? = some x ∧ (bitsOf b)[j]? = some y ∧ x ≠ y

/-- What is wrong with the STR `s` for a client that holds `held`. -/
noncomputable def strReason (C : Crypto) (pk : Bytes) (held s : DirSTR) : Option ErrorCode :=
  if s = held then none
  else if s.core.epoch ≠ held.core.epoch + 1 then some CheckBadSTR
  else if ¬ Signed C pk s then some CheckBadSignature
  else if ¬ Linked C held s then some CheckBadSTR
  else none

/-- What is wrong with the STRs that follow `prev`: the first that is nil, not signed, or not linked to the one before it. -/
noncomputable def rangeReason (C : Crypto) (pk : Bytes) : Option DirSTR → List (Option DirSTR) → Option ErrorCode
  | _, [] => none
  | _, none :: _ => some ErrMalformedMessage
  | prev, some s :: rest =>
    if ¬ Signed C pk s then some CheckBadSignature
    else if ¬ ∃ p, prev = some p ∧ Linked C p s then some CheckBadSTR
    else rangeReason C pk (some s) rest

/-- What is wrong with a range of STRs for an auditor that holds `held`: its first STR must be `held` or the successor. -/
noncomputable def auditReason (C : Crypto) (pk : Bytes) (held : DirSTR) : List (Option DirSTR) → Option ErrorCode
  | some s :: rest => (strReason C pk held s).or (rangeReason C pk (some s) rest)
  | _ => some ErrMalformedMessage

/-- What is wrong with a range of STRs from an auditor for a client that holds `held`: its last STR must be `held` or the successor. -/
noncomputable def equivReason (C : Crypto) (cc : Client) (msg : Response) : Option ErrorCode :=
  if Fatal msg.error then some msg.error
  else
    match msg.resp with
    | .history (s :: rest) =>
      (rangeReason C cc.aud.signKey s rest).or
        (match (s :: rest).getLast? with
        | some (some last) => strReason C cc.aud.signKey cc.aud.verified last
        | _ => none)
    | _ => some ErrMalformedMessage

/-- What is wrong with the proof `ap`, whose leaf is `l`, for the name `n` and the key `k`, under the tree hash `th`. -/
noncomputable def pathReason (hash : Bytes → Bytes) (ap : AuthPath) (l : ProofNode) (n k th : Bytes) : Option ErrorCode :=
  if ap.lookupIndex = l.index then
    -- the name is in the tree
    if l.value.getD [] ≠ k then some CheckBindingsDiffer
    else if ∀ c, l.commitment = some c → c.value ≠ hash (c.salt ++ n ++ k) then some CheckBadCommitment
    else if rootOf hash ap l ≠ th then some CheckBadAuthPath
    else none
  else
    -- another leaf is where the name would be
    if DifferEarly l.index ap.lookupIndex l.level.toNat then some CheckBadLookupIndex
    else if l.value ≠ none then some CheckBindingsDiffer
    else if rootOf hash ap l ≠ th then some CheckBadAuthPath
    else none

/-- What is wrong with a promise for the index `i` and the key, under the STR with signature `sig`. -/
noncomputable def promiseReason (C : Crypto) (pk sig i : Bytes) (key : Option Bytes) : Option TB → Option ErrorCode
  | none => some CheckBadPromise
  | some tb =>
    if C.verify pk (sig ++ tb.index ++ tb.value) tb.signature = false then some CheckBadSignature
    else if tb.index ≠ i then some CheckBadPromise
    else if ∃ k, key = some k ∧ tb.value ≠ k then some CheckBindingsDiffer
    else none

/-- Whether the promise that is held for the name is broken by a key in the tree. -/
noncomputable def keptReason (held : Option TB) (i v : Bytes) : Option ErrorCode :=
  if ∃ p, held = some p ∧ (i ≠ p.index ∨ v ≠ p.value) then some CheckBrokenPromise else none

/-- The kind of proof. -/
def kindOf (ap : AuthPath) (l : ProofNode) : ProofType := if ap.lookupIndex = l.index then .inclusion else .absence

/-- What is wrong with a response to a registration or lookup of the name `n` with the (expected) key. A response without proof, path or STR is
malformed; for nil parts see `CrashesClient`. -/
noncomputable def reason (C : Crypto) (cc : Client) (ty : Int) (msg : Response) (n : Bytes) (key : Option Bytes) : Option ErrorCode :=
  if Fatal msg.error then some msg.error
  else
    match msg.resp with
    | .proof ⟨some ap :: _, some str :: _, tb⟩ =>
      (strReason C cc.aud.signKey cc.aud.verified str).or
        (match ap.leaf, str.policies with
        | some l, some pol =>
          if ¬ StatusFits ty msg.error (kindOf ap l) then some ErrMalformedMessage
          else if C.vrfVerify pol.vrfPublicKey n ap.lookupIndex ap.vrfProof = false then some CheckBadVRFProof
          else
            (pathReason C.hash ap l n (key.getD (l.value.getD [])) str.core.treeHash).or
              (if Promised ty msg.error (kindOf ap l) then promiseReason C cc.aud.signKey str.core.signature ap.lookupIndex key tb
               else if ty = KeyLookupType ∧ kindOf ap l = .inclusion then keptReason (cc.tbs n) ap.lookupIndex (l.value.getD [])
               else none)
        | _, _ => some ErrMalformedMessage)
    | .proof ⟨none :: _, some str :: _, _⟩ => strReason C cc.aud.signKey cc.aud.verified str
    | _ => some ErrMalformedMessage

end Coniks.Spec

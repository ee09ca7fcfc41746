import Verif.Spec.Client
import Verif.Spec.Crash
/-
Which responses crash a client, in terms of the parts of the response.
-/
namespace Coniks.Spec
open Coniks

/-- the codes that end the handling of a response at once (protocol/error.go:48-52) -/
def Fatal (e : ErrorCode) : Prop := e = ErrMalformedMessage ∨ e = ErrDirectory ∨ e = ErrAuditLog

/-- The parts of a proof for a registration or lookup that crash the client: its first STR and its first authentication path. -/
def CrashingParts (C : Crypto) (cc : Client) (ty : Int) (code : ErrorCode) (uname : Bytes) (key : Option Bytes) (ap : Option AuthPath)
    (str : Option DirSTR) : Prop :=
  -- no STR
  str = none ∨
  ∃ s, str = some s ∧
    (-- an STR of the next epoch without policies
     s.core.epoch = cc.aud.verified.core.epoch + 1 ∧ s.policies = none ∨
     -- or an STR that the client takes, with
     (s = cc.aud.verified ∨ Successor C cc.aud.signKey cc.aud.verified s) ∧
      (-- no path
       ap = none ∨
       ∃ a, ap = some a ∧
        (-- a path without leaf
         a.leaf = none ∨
         ∃ l, a.leaf = some l ∧ StatusFits ty code (if a.lookupIndex = l.index then .inclusion else .absence) ∧
          (-- no policies
           s.policies = none ∨
           -- a path that crashes the verifier, with a good VRF proof
           ∃ pol, s.policies = some pol ∧ C.vrfVerify pol.vrfPublicKey uname a.lookupIndex a.vrfProof = true ∧
             CrashesVerifier C.hash a uname (key.getD (l.value.getD []))))))

/-- The responses on which `HandleResponse` crashes. -/
def CrashesClient (C : Crypto) (cc : Client) (ty : Int) (msg : Response) (uname : Bytes) (key : Option Bytes) : Prop :=
  ¬ Fatal msg.error ∧
  (-- a nil payload, or one of another type
   msg.resp = .nilProof ∨ msg.resp = .nilHistory ∨ msg.resp = .other ∨
   -- a history with STRs, for a request of an unknown type
   (∃ l, msg.resp = .history l ∧ l ≠ [] ∧ ty ∉ [RegistrationType, KeyLookupType, KeyLookupInEpochType, MonitoringType]) ∨
   -- a proof with at least one path and one STR: for any request but a registration or lookup, or with crashing parts
   ∃ ap aps str strs tb, msg.resp = .proof ⟨ap :: aps, str :: strs, tb⟩ ∧
     (ty ∉ [RegistrationType, KeyLookupType] ∨ CrashingParts C cc ty msg.error uname key ap str))

/-- The responses on which `CheckEquivocation` crashes. -/
def CrashesEquivocation (C : Crypto) (cc : Client) (msg : Response) : Prop :=
  ¬ Fatal msg.error ∧
  (-- a nil payload, or one of another type
   msg.resp = .nilProof ∨ msg.resp = .nilHistory ∨ msg.resp = .other ∨
   -- a proof with at least one path and one STR
   (∃ df, msg.resp = .proof df ∧ df.ap ≠ [] ∧ df.str ≠ []) ∨
   -- a single nil STR
   msg.resp = .history [none] ∨
   -- a single STR of the next epoch without policies
   (∃ s, msg.resp = .history [some s] ∧ s.core.epoch = cc.aud.verified.core.epoch + 1 ∧ s.policies = none) ∨
   -- a nil STR, followed by one with a good signature or without policies
   (∃ s rest, msg.resp = .history (none :: some s :: rest) ∧ (s.policies = none ∨ Signed C cc.aud.signKey s)) ∨
   -- a chain, followed by an STR without policies
   ∃ (c : List DirSTR) (s : DirSTR) (rest : List (Option DirSTR)), c ≠ [] ∧ msg.resp = .history (c.map some ++ some s :: rest) ∧
     Chain C cc.aud.signKey c ∧ s.policies = none)

end Coniks.Spec

import Verif.Proofs.Disclosure
import Verif.Proofs.EvalDir
/-
C94: what a directory tells some users about the others.
-/
namespace Coniks.Props
open Coniks Coniks.Spec

/-- C94. A directory is made and used twice. The two histories are the same, except that other users register other keys, with
other randomness, whose published commitments are the same. Then everything that the users `U` are told, in answer to any of
their own requests and to requests for STRs, is the same in both (and the server crashes in both or in neither). No key, no salt
and no promise of anybody else has an influence on it: what they can learn about the key of another user is what the published
commitment tells. For all cryptography, keys, cache lengths and histories. -/
theorem C94_told_the_same (C : Crypto) (U : List Bytes) (t0 : UInt64) (sk vk : Bytes) (size : Nat) (useTBs : Bool)
    (rnd₁ rnd₂ : Option Bytes) (ops₁ ops₂ : List DirOp) (alike : AlikeHistories C vk U ops₁ ops₂) :
    ((newDirectory C t0 vk sk size useTBs rnd₁ rnd₂).bind fun d => toldTo C U d ops₁) =
      (newDirectory C t0 vk sk size useTBs rnd₁ rnd₂).bind fun d => toldTo C U d ops₂ := by
  cases h : newDirectory C t0 vk sk size useTBs rnd₁ rnd₂ with
  | none => rfl
  | some d =>
    have hv : d.pad.vrfKey = vk := by
      unfold newDirectory at h
      split at h
      · simp only at h
        split at h
        · next pad hp =>
          cases h
          unfold newPAD at hp
          split at hp
          · cases hp
          · split at hp
            · cases hp
            · cases hp; rfl
        · cases h
      · cases h
    exact toldTo_same C vk U ops₁ ops₂ alike d d hv hv rfl

/-- A cryptography with a hash whose collisions are easy to find: the sum of the bytes. -/
def sumCrypto : Crypto :=
  { Crypto.toy with
    hash := fun m => natTo32 ((m.map UInt8.toNat).sum)
    hash_length := fun m => by simp [natTo32] }

/-- In one history Bob registers the key 2 with the randomness 1, in the other one the key 1 with the randomness 2. -/
def bobTwo : List DirOp :=
  [.register (some [7]) ⟨[65], [9]⟩, .register (some [1]) ⟨[66], [2]⟩, .keyLookup ⟨[65]⟩, .update, .keyLookup ⟨[65]⟩,
   .keyLookup ⟨[66]⟩, .monitor ⟨[65], 0, 1⟩, .getSTRHistory ⟨0, 1⟩]

def bobOne : List DirOp :=
  [.register (some [7]) ⟨[65], [9]⟩, .register (some [2]) ⟨[66], [1]⟩, .keyLookup ⟨[65]⟩, .update, .keyLookup ⟨[65]⟩,
   .keyLookup ⟨[66]⟩, .monitor ⟨[65], 0, 1⟩, .getSTRHistory ⟨0, 1⟩]

/-- The hypotheses hold for them and for Alice. -/
theorem bobs_alike : AlikeHistories sumCrypto [2] [[65]] bobTwo bobOne := by
  refine .cons (.same _) (.cons (.other [66] [2] [1] [1] [2] ?_ (by decide) (by decide +kernel)) ?_)
  · intro u hu
    rw [List.mem_singleton.mp hu]
    decide +kernel
  · exact .cons (.same _) (.cons (.same _) (.cons (.same _) (.cons (.same _) (.cons (.same _) (.cons (.same _) .nil)))))

def toldToE (C : Crypto) (U : List Bytes) (d : Directory) : List DirOp → Go (List (Option Response))
  | [] => some []
  | op :: ops =>
    (d.stepE C op).bind fun x => (toldToE C U x.1 ops).map fun rs => if seenBy U op then x.2 :: rs else rs

theorem toldToE_eq (C : Crypto) (U : List Bytes) (ops : List DirOp) : ∀ d, toldTo C U d ops = toldToE C U d ops := by
  induction ops with
  | nil => intro d; rfl
  | cons op ops ih => intro d; simp only [toldTo, toldToE, stepE_eq, ih]

/-- Alice is told six things (the new epoch counts as one, without an answer); Bob himself is told different keys in the two
histories, so the theorem says something. -/
example :
    (((newDirectory sumCrypto 5 [2] [1] 10 true (some [3]) (some [4])).bind fun d => toldTo sumCrypto [[65]] d bobTwo).map List.length)
        = some 6 ∧
    ((newDirectory sumCrypto 5 [2] [1] 10 true (some [3]) (some [4])).bind fun d => toldTo sumCrypto [[66]] d bobTwo) ≠
      (newDirectory sumCrypto 5 [2] [1] 10 true (some [3]) (some [4])).bind fun d => toldTo sumCrypto [[66]] d bobOne := by
  simp only [toldToE_eq]
  decide +kernel

/-- The hypothesis on the commitments is needed: under a cryptography where Bob's two registrations have different commitments,
Alice is told different things (the root hash depends on them). -/
theorem C94_commitments_counterexample :
    ((newDirectory Crypto.toy 5 [2] [1] 10 true (some [3]) (some [4])).bind fun d => toldTo Crypto.toy [[65]] d bobTwo) ≠
      (newDirectory Crypto.toy 5 [2] [1] 10 true (some [3]) (some [4])).bind fun d => toldTo Crypto.toy [[65]] d bobOne := by
  simp only [toldToE_eq]
  decide +kernel

end Coniks.Props

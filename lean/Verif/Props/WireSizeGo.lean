import Verif.Props.System
import Verif.Props.WireSize
/-
C83 for the VRF of the Go code: its keys and proofs have the sizes that C83 asks for.
-/
namespace Coniks.Props
open Coniks Spec Coniks.Ed Json

/-- C07: a proof has 96 bytes, whatever the message is. -/
theorem C07_proof_length {E : EdOps} {G : Type} [AddCommGroup G] (L : EdLaws E G) (X : Xof) (sk m v p : Bytes) (hsk : 32 ≤ sk.length)
    (hpr : vrfProveGo E X sk m = some (v, p)) : p.length = 96 ∧ v.length = 32 := by
  obtain ⟨x, rr, hskx, hxl, _⟩ := expand_ok X sk hsk
  obtain ⟨h, hh, vh, oh⟩ := hashToCurve_ok L X m
  obtain ⟨vi, ei⟩ := L.scalarMult x h hxl vh
  simp only [vrfProveGo, hskx, hh, Option.bind_eq_bind, Option.bind_some, Option.some.injEq, Prod.mk.injEq] at hpr
  obtain ⟨hv, hp⟩ := hpr
  rw [L.toBytes _ vi, ei] at hv hp
  refine ⟨?_, by rw [← hv]; exact X.length _ _⟩
  rw [← hp]
  generalize hr : E.scReduce (X.out (rr ++ sk.drop 32 ++ m) 64) = r
  have rl : r.length = 32 := by rw [← hr]; exact L.scReduce_length _ (X.length _ _)
  have sl := fun b => L.scReduce_length (X.out b 64) (X.length _ _)
  rw [List.length_append, List.length_append, sl, L.scMulAdd_length _ _ _ hxl (L.scNeg_length _ (sl _)) rl, L.enc_length]

/-- C83. The VRF of the Go code has keys of 32 bytes and proofs of 96. -/
theorem C83_go_sizes (E : External) (vk : Bytes) : VrfSizes (goCrypto E) vk := by
  refine ⟨Nat.le_of_eq ((C66_go_keys E).1 vk), fun n => ?_⟩
  have h := goVrfProve_spec E.xof vk n
  exact Nat.le_of_eq (C07_proof_length goLaws E.xof _ n _ _ (by rw [(goVrfKey_spec E.xof vk).2]; omega) h).1

/-- C83 for the Go code: only SHAKE and the signatures are abstract. -/
theorem C83_go_all_fit (E : External) (t0 : UInt64) (sk vk : Bytes) (size : Nat) (r₁ r₂ : Bytes) (pre : List DirOp) (ops : List SesOp)
    (hlt : dirUpdates (pre ++ ops.map SesOp.dirOp) < 2 ^ 64)
    (d₀ : Directory) (log₀ : List STR) (h₀ : dirAfter (goCrypto E) t0 sk vk size r₁ r₂ pre = some (d₀, log₀))
    (hK : KeysWithin 1024 (pre ++ ops.map SesOp.dirOp)) (hN : NamesWithin 1024 ops)
    (hp : PartWithin 42 (fun n => (goVrfProve E.xof vk n).1) (requestedNames (pre ++ ops.map SesOp.dirOp))) :
    AllFit (goCrypto E) d₀ ops = true :=
  C83_all_fit (goCrypto E) t0 sk vk size r₁ r₂ pre ops hlt d₀ log₀ h₀ (C83_go_sizes E vk) hK hN hp

/-- one registration is always apart from the rest -/
example (E : External) (d₀ : Directory) (log₀ : List STR) (h₀ : dirAfter (goCrypto E) 5 [1] [2] 10 [3] [4] [.update] = some (d₀, log₀)) :
    AllFit (goCrypto E) d₀ wireOps = true :=
  C83_go_all_fit E 5 [1] [2] 10 [3] [4] _ wireOps (by simp [wireOps, SesOp.dirOp, dirUpdates]) d₀ log₀ h₀
    (by
      intro rnd req hm
      simp only [wireOps, List.map_cons, List.map_nil, SesOp.dirOp, List.cons_append, List.nil_append, List.mem_cons, List.not_mem_nil,
        DirOp.register.injEq, reduceCtorEq, or_false, false_or] at hm
      rw [hm.2]; decide)
    (by
      intro op hm
      simp only [wireOps, List.mem_cons, List.not_mem_nil, or_false] at hm
      rcases hm with rfl | rfl | rfl | rfl <;> simp)
    (by
      have hns : requestedNames ([.update] ++ wireOps.map SesOp.dirOp) = [[0x61]] := by
        simp [requestedNames, wireOps, SesOp.dirOp]
      rw [hns]
      intro a ha b hb hne
      rw [List.mem_singleton] at ha hb
      rw [ha, hb] at hne
      exact absurd rfl hne)

end Coniks.Props

import Verif.Props.Vrf
import Verif.Props.Ed25519
/-
C07 and C08 for the Go code: crypto/vrf/vrf.go over crypto/internal/ed25519, with no assumption on the curve operations. Only SHAKE256 is
abstract.
-/
namespace Coniks.Props
open Coniks Coniks.Spec Coniks.Ed

/-- The low 255 bits of the hash of a message that is mapped to the neutral element: the numbers below 2^255 that stand for 0, ±r and ±1/(2r),
where 2 r^2 = -486663 modulo p. -/
def smallReps : List Nat := [0, p25519, rN, p25519 - rN, rN', p25519 - rN']

/-- the numbers are what the comment says -/
theorem smallReps_spec : (2 * (rN : F) ^ 2 = -486663) ∧ 2 * (rN : F) * (rN' : F) = 1 ∧ ∀ n ∈ smallReps, n < 2 ^ 255 := by
  refine ⟨?_, rr', by decide +kernel⟩
  have h : ((2 * (rN * rN) + 486663 : Nat) : F) = ((0 : Nat) : F) := natF_eq (by decide +kernel)
  push_cast at h
  linear_combination h

theorem go_hashToCurve (X : Xof) (m : Bytes) : ∃ h, vrfHashToCurve goOps X m = some h ∧
    (goLaws.val h = 0 ↔ leNat (X.out m 32) % 2 ^ 255 ∈ smallReps) := by
  obtain ⟨p, g, h1, h2, _⟩ := hashToEdwards_ok (X.length m 32)
  have hs := C57_small_order (X.length m 32) h1 h2
  have h8 : ExtOk (geDouble (geDouble (geDouble p))) (8 • g) := by
    have := h2.geDouble.geDouble.geDouble
    rwa [show g + g + (g + g) + (g + g + (g + g)) = 8 • g by abel] at this
  refine ⟨geDouble (geDouble (geDouble p)), ?_, ?_⟩
  · unfold vrfHashToCurve
    have : goOps.hashToEdwards (X.out m 32) = some p := h1
    rw [this]; rfl
  · have e : goLaws.val (geDouble (geDouble (geDouble p)) : Ext) = 8 • g := extVal_eq h8
    rw [e]; exact hs

attribute [local irreducible] geDouble

/-- C07: no call panics, for any key of at least 32 bytes and any message, and `Prove` returns the value `Compute` returns. -/
theorem C07_go_prove_compute (X : Xof) (sk m : Bytes) (hsk : 32 ≤ sk.length) :
    ∃ v p, vrfProveGo goOps X sk m = some (v, p) ∧ vrfCompute goOps X sk m = some v := C07_prove_compute goLaws X sk m hsk

/-- C07: `Verify` accepts the value and proof that `Prove` returns, under the public key of the key pair, unless the low 255 bits of the first
32 bytes of SHAKE256 of the message are one of six numbers; in those cases it rejects them. -/
theorem C07_go_complete (X : Xof) (rnd sk m v p : Bytes) (hrnd : rnd.length = 32)
    (hgen : vrfGenerateKey goOps X rnd = some sk) (hpr : vrfProveGo goOps X sk m = some (v, p)) :
    vrfVerifyGo goOps X (vrfPublic sk) m v p = some (decide (leNat (X.out m 32) % 2 ^ 255 ∉ smallReps)) := by
  obtain ⟨h, hh, hz⟩ := go_hashToCurve X m
  by_cases hc : leNat (X.out m 32) % 2 ^ 255 ∈ smallReps
  · rw [C07_neutral_rejected goLaws X rnd sk m v p hrnd hgen hpr h hh (hz.mpr hc)]
    rw [decide_eq_false (fun h => h hc)]
  · rw [C07_complete goLaws X rnd sk m v p hrnd hgen hpr]
    · rw [decide_eq_true hc]
    · intro h' hh'
      rw [hh] at hh'
      cases hh'
      exact fun e => hc (hz.mp e)

/-- C07: `GenerateKey` returns 64 bytes whose second half is the encoding of a point of order ℓ. -/
theorem C07_go_generateKey (X : Xof) (rnd : Bytes) (hrnd : rnd.length = 32) :
    ∃ sk, vrfGenerateKey goOps X rnd = some sk ∧ sk.length = 64 ∧ ∃ g : Pt25519, vrfPublic sk = encodePoint g ∧ addOrderOf g = ell := by
  obtain ⟨x, rr, hx, hxl, k, hk, hk1, hk2⟩ := expand_ok X rnd (by omega)
  have hb := (geScalarMultBase_ok hxl (by omega)).toBytes
  have hg : vrfGenerateKey goOps X rnd = some (rnd ++ encodePoint (leNat x • basePt)) := by
    simp only [vrfGenerateKey, hx, Option.bind_eq_bind, Option.bind_some]
    rw [← hb]; rfl
  refine ⟨_, hg, by rw [List.length_append, hrnd, encodePoint_length], leNat x • basePt, List.drop_left' hrnd, ?_⟩
  have : _root_.Fact ell.Prime := ⟨prime_ell⟩
  have hc := clamped_coprime prime_ell hk hk1 hk2
  refine addOrderOf_eq_prime ?_ (smul_ne_zero_of_coprime base_order base_ne _ hc)
  rw [nsmul_left_comm, base_order, smul_zero]

/-- C08: exactly when `Verify` accepts, in terms of points of the curve. The response is read as a number `digits t`, which is the number of its
bytes if that is below 2^255. -/
theorem C08_go_accepts_iff (X : Xof) (pk m v p : Bytes) :
    vrfVerifyGo goOps X pk m v p = some true ↔
    p.length = 96 ∧ v.length = 32 ∧ X.out (p.drop 64 ++ m) 32 = v ∧
    ∃ P I g : Pt25519, pk = encodePoint P ∧ addOrderOf P = ell ∧ p.drop 64 = encodePoint I ∧ addOrderOf I = ell ∧
      g.y = edwardsY (elligatorX ((leNat (X.out m 32) % 2 ^ 255 : Nat) : F)) ∧ (g.x = 0 ∨ g.x.val % 2 = leNat (X.out m 32) / 2 ^ 255) ∧
      leNat (p.take 32) = leNat (X.out (encodePoint basePt ++ encodePoint (8 • g) ++ pk ++ p.drop 64 ++
        encodePoint (leNat (p.take 32) • P + slideInt ((p.drop 32).take 32) • basePt) ++
        encodePoint (slideInt ((p.drop 32).take 32) • (8 • g) + leNat (p.take 32) • I) ++ m) 64) % ell := by
  have : _root_.Fact ell.Prime := ⟨prime_ell⟩
  obtain ⟨q, g, hq, hqg, hgy, hgx⟩ := hashToEdwards_ok (X.length m 32)
  have h8 : ExtOk (geDouble (geDouble (geDouble q))) (8 • g) := by
    have := hqg.geDouble.geDouble.geDouble
    rwa [show g + g + (g + g) + (g + g + (g + g)) = 8 • g by abel] at this
  have hh : vrfHashToCurve goOps X m = some (geDouble (geDouble (geDouble q)) : Ext) := by
    unfold vrfHashToCurve
    have : goOps.hashToEdwards (X.out m 32) = some q := hq
    rw [this]; rfl
  have vh : goLaws.Valid (geDouble (geDouble (geDouble q)) : Ext) := ⟨_, h8⟩
  have eh : goLaws.val (geDouble (geDouble (geDouble q)) : Ext) = 8 • g := extVal_eq h8
  have ellt : ell < 2 ^ 255 := by unfold ell; omega
  have hcomm : ∀ (P I : Ext) (gP gI : Pt25519), ExtOk P gP → ExtOk I gI → p.length = 96 → leNat (p.take 32) < ell →
      vrfCommitments goOps P I (geDouble (geDouble (geDouble q)) : Ext) (p.take 32) ((p.drop 32).take 32) =
      (encodePoint (leNat (p.take 32) • gP + slideInt ((p.drop 32).take 32) • basePt),
        encodePoint (slideInt ((p.drop 32).take 32) • (8 • g) + leNat (p.take 32) • gI)) := by
    intro P I gP gI hP hI hl hs
    have sl : (p.take 32).length = 32 := by simp [hl]
    have := commitments_eq goLaws P I (geDouble (geDouble (geDouble q)) : Ext) (p.take 32) ((p.drop 32).take 32) sl (by simp [hl])
      ⟨gP, hP⟩ ⟨gI, hI⟩ vh
    rw [this, eh, goLaws.digits_eq _ sl (by omega), natCast_zsmul, natCast_zsmul]
    have e1 : goLaws.val P = gP := extVal_eq hP
    have e2 : goLaws.val I = gI := extVal_eq hI
    rw [e1, e2]
    rfl
  rw [C08_accepts_iff goLaws]
  constructor
  · rintro ⟨l1, l2, l3, hv, P, I, h, hP, hI, hh', hs⟩
    rw [hh] at hh'
    cases hh'
    obtain ⟨gP, oP, eP, nP, zP⟩ := fromBytesBaseGroup_valid l3 hP
    obtain ⟨gI, oI, eI, nI, zI⟩ := fromBytesBaseGroup_valid (by rw [List.length_drop, l1]) hI
    refine ⟨l1, l2, hv, gP, gI, g, eP.symm, addOrderOf_eq_prime nP zP, eI.symm, addOrderOf_eq_prime nI zI, hgy, hgx, ?_⟩
    have hlt : leNat (p.take 32) < ell := by
      rw [← hs, goLaws.scReduce _ (X.length _ _)]; exact Nat.mod_lt _ ell_pos
    rw [hcomm P I gP gI oP oI l1 hlt, eh] at hs
    have hs := congrArg leNat hs
    rw [goLaws.scReduce _ (X.length _ _)] at hs
    exact hs.symm
  · rintro ⟨l1, l2, hv, gP, gI, g', eP, oP, eI, oI, hy, hx, hs⟩
    have hgg : g' = g := by
      refine pt_ext0 (hy.trans hgy.symm) ?_
      rcases hx with hx | hx
      · exact Or.inl hx
      · rcases hgx with hgx | hgx
        · left
          rw [← pt_ext0 (hgy.trans hy.symm) (Or.inl hgx)]; exact hgx
        · exact Or.inr (hx.trans hgx.symm)
    subst hgg
    have dec : ∀ g : Pt25519, addOrderOf g = ell → ∃ p, fromBytesBaseGroup (encodePoint g) = some p ∧ ExtOk p g := by
      intro g ho
      refine fromBytesBaseGroup_some (by rw [← ho]; exact addOrderOf_nsmul_eq_zero g) ?_
      rintro rfl
      rw [addOrderOf_zero] at ho
      exact absurd ho (by decide +kernel)
    obtain ⟨P, hP, vP⟩ := dec gP oP
    obtain ⟨I, hI, vI⟩ := dec gI oI
    refine ⟨l1, l2, by rw [eP]; exact encodePoint_length _, hv, P, I, _, by rw [eP]; exact hP, by rw [eI]; exact hI, hh, ?_⟩
    have hlt : leNat (p.take 32) < ell := by rw [hs]; exact Nat.mod_lt _ ell_pos
    rw [hcomm P I gP gI vP vI l1 hlt, eh]
    refine leNat_inj _ _ ?_ ?_
    · rw [goLaws.scReduce_length _ (X.length _ _)]; simp [l1]
    · rw [goLaws.scReduce _ (X.length _ _)]; exact hs.symm

/-- C08, special soundness, for the Go code: two accepted proofs with the same point and the same commitments but different challenges force the
value that `Compute` returns. -/
theorem C08_go_special_soundness (X X' : Xof) (rnd sk m v v' p p' : Bytes)
    (hrnd : rnd.length = 32) (hgen : vrfGenerateKey goOps X rnd = some sk) (hmap : X'.out m 32 = X.out m 32)
    (acc : vrfVerifyGo goOps X (vrfPublic sk) m v p = some true) (acc' : vrfVerifyGo goOps X' (vrfPublic sk) m v' p' = some true)
    (hpt : p'.drop 64 = p.drop 64)
    (hcom : ∀ P I h, fromBytesBaseGroup (vrfPublic sk) = some P → fromBytesBaseGroup (p.drop 64) = some I → vrfHashToCurve goOps X m = some h →
      vrfCommitments goOps P I h (p.take 32) ((p.drop 32).take 32) = vrfCommitments goOps P I h (p'.take 32) ((p'.drop 32).take 32))
    (hch : p.take 32 ≠ p'.take 32) : vrfCompute goOps X sk m = some v :=
  C08_special_soundness goLaws X X' rnd sk m v v' p p' hrnd hgen hmap acc acc' hpt hcom hch

/-- the hypotheses are met: a key is generated, a proof made and accepted -/
example : ∃ sk v p, vrfGenerateKey goOps ToyEd.xof toyRnd = some sk ∧ vrfProveGo goOps ToyEd.xof sk [1, 2] = some (v, p) ∧
    vrfVerifyGo goOps ToyEd.xof (vrfPublic sk) [1, 2] v p = some true := by
  obtain ⟨sk, hg, hl, _⟩ := C07_go_generateKey ToyEd.xof toyRnd (by decide)
  obtain ⟨v, p, hp, _⟩ := C07_go_prove_compute ToyEd.xof sk [1, 2] (by omega)
  refine ⟨sk, v, p, hg, hp, ?_⟩
  rw [C07_go_complete ToyEd.xof toyRnd sk [1, 2] v p (by decide) hg hp]
  have e : leNat (ToyEd.xof.out [1, 2] 32) = 520 := by decide +kernel
  rw [e]
  have : decide (520 % 2 ^ 255 ∉ smallReps) = true := by decide +kernel
  rw [this]

end Coniks.Props

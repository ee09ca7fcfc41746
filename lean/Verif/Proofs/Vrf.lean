import Verif.Spec.Ed
import Mathlib.Algebra.Group.Basic
import Mathlib.GroupTheory.OrderOfElement
import Mathlib.Tactic.Ring
/-
Lemmas about the VRF over a group that satisfies `EdLaws`.
-/
namespace Coniks
open Spec

theorem leNat_append (a b : Bytes) : leNat (a ++ b) = leNat a + 256 ^ a.length * leNat b := by
  induction a with
  | nil => simp [leNat]
  | cons x a ih => simp only [List.cons_append, leNat, ih, List.length_cons, Nat.pow_succ]; ring

theorem leNat_lt (a : Bytes) : leNat a < 256 ^ a.length := by
  induction a with
  | nil => simp [leNat]
  | cons x a ih =>
    have := x.toNat_lt
    simp only [leNat, List.length_cons, Nat.pow_succ]; omega

theorem leNat_replicate_zero (n : Nat) : leNat (List.replicate n 0) = 0 := by
  induction n with
  | zero => rfl
  | succ n ih => simp [List.replicate_succ, leNat, ih]

theorem leNat_inj (a b : Bytes) (hl : a.length = b.length) (h : leNat a = leNat b) : a = b := by
  induction a generalizing b with
  | nil => cases b with
    | nil => rfl
    | cons y b => cases hl
  | cons x a ih =>
    cases b with
    | nil => cases hl
    | cons y b =>
      simp only [leNat] at h
      have := x.toNat_lt
      have := y.toNat_lt
      have e : x.toNat = y.toNat := by omega
      rw [UInt8.toNat_inj.mp e, ih b (by simpa using hl) (by omega)]

theorem and248 (b : UInt8) : (b &&& 248).toNat % 8 = 0 := by
  have : ∀ n : Fin 256, ((UInt8.ofNat n.val) &&& 248).toNat % 8 = 0 := by decide +kernel
  have h := this ⟨b.toNat, b.toNat_lt⟩
  simpa using h

theorem top127 (b : UInt8) : 64 ≤ ((b &&& 127) ||| 64).toNat ∧ ((b &&& 127) ||| 64).toNat < 128 := by
  have : ∀ n : Fin 256, 64 ≤ ((UInt8.ofNat n.val &&& 127) ||| 64).toNat ∧ ((UInt8.ofNat n.val &&& 127) ||| 64).toNat < 128 := by decide +kernel
  have h := this ⟨b.toNat, b.toNat_lt⟩
  simpa using h

/-- a clamped scalar is 8 k with 2^251 ≤ k < 2^252 -/
theorem leNat_clamp (x : Bytes) (hx : x.length = 32) :
    (clamp x).length = 32 ∧ ∃ k, leNat (clamp x) = 8 * k ∧ 2 ^ 251 ≤ k ∧ k < 2 ^ 252 := by
  obtain ⟨a, x, rfl⟩ : ∃ a y, x = a :: y := by cases x with
    | nil => simp at hx
    | cons a y => exact ⟨a, y, rfl⟩
  have hx' : x.length = 31 := by simpa using hx
  obtain ⟨y, z, rfl⟩ : ∃ y z, x = y ++ [z] := by
    rcases List.eq_nil_or_concat x with h | ⟨y, z, h⟩
    · rw [h] at hx'; simp at hx'
    · exact ⟨y, z, by simpa using h⟩
  have hy : y.length = 30 := by simpa using hx'
  have hc : clamp (a :: (y ++ [z])) = (a &&& 248) :: (y ++ [(z &&& 127) ||| 64]) := by
    unfold clamp
    simp only [List.modify_zero_cons, List.modify_succ_cons]
    have hm : ∀ (y : Bytes) (z : UInt8) (f : UInt8 → UInt8), (y ++ [z]).modify y.length f = y ++ [f z] := by
      intro y z f
      induction y with
      | nil => rfl
      | cons a y ih => simp only [List.cons_append, List.length_cons, List.modify_succ_cons, ih]
    rw [show (30 : Nat) = y.length from by omega, hm]
  refine ⟨by rw [hc]; simp [hy], ?_⟩
  have h1 := and248 a
  obtain ⟨h2, h3⟩ := top127 z
  have h4 := leNat_lt y
  rw [hy] at h4
  rw [hc]
  simp only [leNat, leNat_append, hy]
  have h5 := (a &&& 248).toNat_lt
  refine ⟨(a &&& 248).toNat / 8 + 32 * (leNat y + 256 ^ 30 * (((z &&& 127) ||| 64).toNat)), ?_, ?_, ?_⟩ <;> omega

section
variable {E : EdOps} {G : Type} [AddCommGroup G] (L : EdLaws E G) (X : Xof)

theorem smul_mod_ell {g : G} (hg : ell • g = 0) (n : Nat) : (n % ell) • g = n • g := by
  conv => rhs; rw [← Nat.mod_add_div n ell]
  rw [add_nsmul, mul_comm, mul_nsmul', hg]
  simp

theorem ell_pos : 0 < ell := by unfold ell; omega

theorem smul_congr {g : G} (hg : ell • g = 0) {m n : Nat} (h : m % ell = n % ell) : m • g = n • g := by
  rw [← smul_mod_ell hg m, h, smul_mod_ell hg n]

/-- a multiple by a number prime to ℓ of a point of order ℓ is not zero -/
theorem smul_ne_zero_of_coprime {g : G} (hg : ell • g = 0) (hne : g ≠ 0) (n : Nat) (hc : Nat.Coprime n ell) : n • g ≠ 0 := by
  intro h
  have := Nat.Coprime.symm hc
  have h1 : addOrderOf g ∣ ell := addOrderOf_dvd_of_nsmul_eq_zero hg
  have h2 : addOrderOf g ∣ n := addOrderOf_dvd_of_nsmul_eq_zero h
  have h3 : addOrderOf g ∣ 1 := by rw [← hc]; exact Nat.dvd_gcd h2 h1
  exact hne (AddMonoid.addOrderOf_eq_one_iff.mp (Nat.dvd_one.mp h3))

/-- the point `hashToCurve` returns: eight times some point -/
theorem hashToCurve_ok (m : Bytes) : ∃ h, vrfHashToCurve E X m = some h ∧ L.Valid h ∧ ell • L.val h = 0 := by
  obtain ⟨p, hp, hv⟩ := L.hashToEdwards (X.out m 32) (X.length _ _)
  refine ⟨_, by simp only [vrfHashToCurve, hp, Option.map_some]; rfl, ?_⟩
  obtain ⟨v1, e1⟩ := L.double p hv
  obtain ⟨v2, e2⟩ := L.double _ v1
  obtain ⟨v3, e3⟩ := L.double _ v2
  refine ⟨v3, ?_⟩
  rw [e3, e2, e1]
  have := L.cofactor (L.val p)
  rw [mul_comm, mul_nsmul'] at this
  rw [← this]
  congr 1
  rw [show (8 : Nat) = 2 * 2 * 2 from rfl, mul_nsmul, mul_nsmul, two_nsmul, two_nsmul, two_nsmul]

theorem expand_ok (sk : Bytes) (h : 32 ≤ sk.length) : ∃ x r, vrfExpand X sk = some (x, r) ∧ x.length = 32 ∧
    ∃ k, leNat x = 8 * k ∧ 2 ^ 251 ≤ k ∧ k < 2 ^ 252 := by
  have hl : ((X.out (sk.take 32) 64).take 32).length = 32 := by rw [List.length_take, X.length]; decide
  obtain ⟨h1, h2⟩ := leNat_clamp _ hl
  exact ⟨clamp _, _, by simp only [vrfExpand, if_neg (show ¬ sk.length < 32 by omega)]; rfl, h1, h2⟩

theorem expand_append (a b : Bytes) (h : a.length = 32) : vrfExpand X (a ++ b) = vrfExpand X a := by
  unfold vrfExpand
  have e1 : (a ++ b).take 32 = a := by rw [← h, List.take_left]
  have e2 : a.take 32 = a := by rw [← h, List.take_length]
  rw [e1, e2]
  simp [h]

theorem clamped_coprime (hp : Nat.Prime ell) {n k : Nat} (h : n = 8 * k) (h1 : 2 ^ 251 ≤ k) (h2 : k < 2 ^ 252) : Nat.Coprime n ell := by
  rw [Nat.coprime_comm, Nat.Prime.coprime_iff_not_dvd hp, h]
  intro hd
  have hk : ell ∣ k := by
    rcases (Nat.Prime.dvd_mul hp).mp hd with g | g
    · exact absurd (Nat.le_of_dvd (by decide) g) (by unfold ell; omega)
    · exact g
  exact absurd (Nat.le_of_dvd (by omega) hk) (by unfold ell; omega)

/-- what `vrfCommitments` computes -/
theorem commitments_eq (P ii h : E.Pt) (s t : Bytes) (hs : s.length = 32) (ht : t.length = 32) (vP : L.Valid P) (vi : L.Valid ii)
    (vh : L.Valid h) : vrfCommitments E P ii h s t =
      (L.enc (L.digits s • L.val P + L.digits t • L.base), L.enc (L.digits t • L.val h + L.digits s • L.val ii)) := by
  have z : L.digits (List.replicate 32 0) = 0 := by
    rw [L.digits_eq _ (by simp) (by rw [leNat_replicate_zero]; decide), leNat_replicate_zero]; rfl
  obtain ⟨a1, a2⟩ := L.doubleScalarMult s P t hs ht vP
  obtain ⟨b1, b2⟩ := L.doubleScalarMult t h (List.replicate 32 0) ht (by simp) vh
  obtain ⟨c1, c2⟩ := L.doubleScalarMult s ii (List.replicate 32 0) hs (by simp) vi
  obtain ⟨d1, d2⟩ := L.pjToExtended _ b1
  obtain ⟨e1, e2⟩ := L.pjToExtended _ c1
  obtain ⟨f1, f2⟩ := L.add _ _ d1 e1
  simp only [vrfCommitments]
  rw [L.pjToBytes _ a1, L.toBytes _ f1, a2, f2, d2, e2, b2, c2, z]
  simp

end
end Coniks

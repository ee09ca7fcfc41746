import Verif.Ed25519.Curve25519
/-
Arithmetic on numbers modulo p that the kernel evaluates, the order of the base point and the number of points.
-/
namespace Coniks.Ed
open Coniks.Spec

/-- a - b modulo p -/
def nsub (a b : Nat) : Nat := (a + (p25519 - b % p25519)) % p25519
def nadd (a b : Nat) : Nat := (a + b) % p25519
def nmul (a b : Nat) : Nat := a * b % p25519

theorem nadd_cast (a b : Nat) : ((nadd a b : Nat) : F) = a + b := by unfold nadd; rw [ZMod.natCast_mod]; push_cast; rfl
theorem nmul_cast (a b : Nat) : ((nmul a b : Nat) : F) = a * b := by unfold nmul; rw [ZMod.natCast_mod]; push_cast; rfl
theorem nsub_cast (a b : Nat) : ((nsub a b : Nat) : F) = a - b := by
  unfold nsub
  rw [ZMod.natCast_mod, Nat.cast_add, Nat.cast_sub (Nat.mod_lt _ (by decide +kernel)).le, ZMod.natCast_mod, ZMod.natCast_self]
  ring

/-- extended coordinates as numbers -/
structure NPt where
  X : Nat
  Y : Nat
  Z : Nat
  T : Nat

def NPt.Rep (n : NPt) (p : Pt25519) : Prop := ExtRep (n.X : F) (n.Y : F) (n.Z : F) (n.T : F) p

/-- from completed coordinates -/
def NPt.ofCmp (X Y Z T : Nat) : NPt := ⟨nmul X T, nmul Y Z, nmul Z T, nmul X Y⟩

def NPt.add (p q : NPt) : NPt :=
  let a := nmul (nadd p.Y p.X) (nadd q.Y q.X)
  let s := nmul (nsub p.Y p.X) (nsub q.Y q.X)
  let c := nmul (nmul q.T (2 * dN)) p.T
  let z := nmul p.Z q.Z
  NPt.ofCmp (nsub a s) (nadd a s) (nadd (nadd z z) c) (nsub (nadd z z) c)

theorem NPt.ofCmp_rep {X Y Z T : Nat} {p : Pt25519} (h : CmpRep (X : F) (Y : F) (Z : F) (T : F) p) : (NPt.ofCmp X Y Z T).Rep p := by
  unfold NPt.Rep NPt.ofCmp
  simp only [nmul_cast]
  exact h.ext

theorem NPt.add_rep {m n : NPt} {p q : Pt25519} (hm : m.Rep p) (hn : n.Rep q) : (m.add n).Rep (p + q) := by
  apply NPt.ofCmp_rep
  have h := ExtRep.add hm (ExtRep.cch hn)
  simp only [nadd_cast, nsub_cast, nmul_cast, Nat.cast_mul, Nat.cast_ofNat, ← d_eq]
  exact h

def NPt.zero : NPt := ⟨0, 1, 1, 0⟩

theorem NPt.zero_rep : NPt.zero.Rep 0 := by
  unfold NPt.Rep NPt.zero
  simp only [Nat.cast_zero, Nat.cast_one]
  exact ExtRep.zero

/-- k times, with fuel -/
def NPt.smul : Nat → Nat → NPt → NPt
  | 0, _, _ => NPt.zero
  | f + 1, k, p => if k % 2 = 1 then p.add (NPt.smul f (k / 2) (p.add p)) else NPt.smul f (k / 2) (p.add p)

theorem NPt.smul_rep : ∀ (f k : Nat) {n : NPt} {p : Pt25519}, n.Rep p → k < 2 ^ f → (NPt.smul f k n).Rep (k • p)
  | 0, k, n, p, h, hk => by
    have : k = 0 := by simpa using hk
    subst this
    rw [zero_nsmul]; exact NPt.zero_rep
  | f + 1, k, n, p, h, hk => by
    have h2 : k / 2 < 2 ^ f := by rw [Nat.pow_succ] at hk; omega
    have h3 := NPt.smul_rep f (k / 2) (NPt.add_rep h h) h2
    rw [← two_nsmul, ← mul_nsmul] at h3
    unfold NPt.smul
    split
    · rename_i ho
      have h4 := NPt.add_rep h h3
      have : k • p = p + (2 * (k / 2)) • p := by
        rw [← succ_nsmul']; congr 1; omega
      rw [this]; exact h4
    · rename_i ho
      have : 2 * (k / 2) = k := by omega
      rw [this] at h3; exact h3

/-- the numbers stand for the neutral element -/
def NPt.isZero (n : NPt) : Bool := n.X % p25519 == 0 && n.Y % p25519 == n.Z % p25519

theorem NPt.isZero_iff {n : NPt} {p : Pt25519} (h : n.Rep p) : n.isZero = true ↔ p = 0 := by
  unfold NPt.isZero
  rw [Bool.and_eq_true, beq_iff_eq, beq_iff_eq]
  constructor
  · rintro ⟨hx, hy⟩
    have hx : (n.X : F) = 0 := by
      have := natF_eq (a := n.X) (b := 0) (by rw [Nat.zero_mod]; exact hx)
      rwa [Nat.cast_zero] at this
    have hy := natF_eq hy
    apply EdPoint.ext
    · have := h.x
      rw [hx] at this
      exact (mul_eq_zero.mp this.symm).resolve_right h.ne
    · have := h.y
      rw [hy] at this
      exact (mul_right_cancel₀ h.ne ((one_mul _).trans this)).symm
  · rintro rfl
    have hx := h.x
    have hy := h.y
    rw [ed_zero_x, zero_mul] at hx
    rw [ed_zero_y, one_mul] at hy
    refine ⟨?_, (ZMod.natCast_eq_natCast_iff' _ _ _).mp hy⟩
    rw [← Nat.cast_zero] at hx
    have := (ZMod.natCast_eq_natCast_iff' _ _ _).mp hx
    rwa [Nat.zero_mod] at this

/-- coordinates of a point satisfy the equation -/
def onCurveN (x y : Nat) : Bool := (y * y) % p25519 == (1 + x * x + dN * (x * x) * (y * y)) % p25519

theorem onCurveN_eq {x y : Nat} (h : onCurveN x y = true) : -(x : F) ^ 2 + (y : F) ^ 2 = 1 + d25519 * (x : F) ^ 2 * (y : F) ^ 2 := by
  have := natF_eq (beq_iff_eq.mp h)
  push_cast at this
  rw [d_eq]
  linear_combination this

def ptN (x y : Nat) (h : onCurveN x y = true) : Pt25519 := ⟨(x : F), (y : F), onCurveN_eq h⟩

theorem ptN_rep (x y : Nat) (h : onCurveN x y = true) : NPt.Rep ⟨x, y, 1, nmul x y⟩ (ptN x y h) := by
  unfold NPt.Rep ptN
  simp only [Nat.cast_one, nmul_cast]
  exact ⟨one_ne_zero, by ring, by ring, by ring⟩

/-! ### the base point -/

def bxN : Nat := 15112221349535400772501151409588531511454012693041857206046113283949847762202
def byN : Nat := 46316835694926478169428394003475163141307993866256225615783033603165251855960

/-- the base point -/
def basePt : Pt25519 := ptN bxN byN (by decide +kernel)
def baseN : NPt := ⟨bxN, byN, 1, nmul bxN byN⟩

theorem baseN_rep : baseN.Rep basePt := ptN_rep _ _ _

theorem base_order : Spec.ell • basePt = 0 := by
  have h := NPt.smul_rep 253 Spec.ell baseN_rep (by decide +kernel)
  exact (NPt.isZero_iff h).mp (by decide +kernel)

theorem base_ne : basePt ≠ 0 := by
  intro h
  have := (NPt.isZero_iff baseN_rep).mpr h
  exact absurd this (by decide +kernel)

/-- a point of order 8 -/
def tx8 : Nat := 14399317868200118260347934320527232580618823971194345261214217575416788799818
def ty8 : Nat := 55188659117513257062467267217118295137698188065244968500265048394206261417927
def tors8 : Pt25519 := ptN tx8 ty8 (by decide +kernel)

theorem tors8_order : addOrderOf tors8 = 2 ^ 3 := by
  apply addOrderOf_eq_prime_pow
  · intro h
    have h2 := NPt.smul_rep 3 (2 ^ 2) (ptN_rep tx8 ty8 (by decide +kernel)) (by decide)
    have := (NPt.isZero_iff h2).mpr h
    exact absurd this (by decide +kernel)
  · have h2 := NPt.smul_rep 4 (2 ^ 3) (ptN_rep tx8 ty8 (by decide +kernel)) (by decide)
    exact (NPt.isZero_iff h2).mp (by decide +kernel)

theorem base_addOrder : addOrderOf basePt = Spec.ell := by
  have : _root_.Fact Spec.ell.Prime := ⟨prime_ell⟩
  exact addOrderOf_eq_prime base_order base_ne

/-- there are exactly 8 ℓ points -/
theorem card_pt : Fintype.card Pt25519 = 8 * Spec.ell := by
  have h1 : Spec.ell ∣ Fintype.card Pt25519 := by rw [← base_addOrder]; exact addOrderOf_dvd_card
  have h2 : 8 ∣ Fintype.card Pt25519 := by
    have : addOrderOf tors8 ∣ Fintype.card Pt25519 := addOrderOf_dvd_card
    rwa [tors8_order] at this
  have h3 : 8 * Spec.ell ∣ Fintype.card Pt25519 := Nat.Coprime.mul_dvd_of_dvd_of_dvd (by decide +kernel) h2 h1
  obtain ⟨k, hk⟩ := h3
  have hpos : 0 < Fintype.card Pt25519 := Fintype.card_pos_iff.mpr ⟨0⟩
  have hle := card_le
  have h4 : 2 * p25519 < 8 * Spec.ell * 2 := by decide +kernel
  have hk1 : k = 1 := by
    rcases k with _ | _ | k
    · rw [Nat.mul_zero] at hk; omega
    · rfl
    · exfalso
      have : 8 * Spec.ell * 2 ≤ 8 * Spec.ell * (k + 1 + 1) := Nat.mul_le_mul_left _ (by omega)
      omega
  rw [hk, hk1, mul_one]

theorem cofactor_pt (g : Pt25519) : (8 * Spec.ell) • g = 0 := by rw [← card_pt]; exact card_nsmul_eq_zero

end Coniks.Ed

import Verif.Model.Ed25519.Group
import Verif.Ed25519.Order
/-
The group operations on limbs compute in the group of points.
-/
namespace Coniks.Ed
open Coniks.Spec

theorem Fe.Bd.rep {n : Int} {f : Fe} (h : f.Bd n) : Rep n f f.el := ⟨h, rfl⟩

structure CmpOk (p : Cmp) (P : Pt25519) : Prop where
  bX : p.X.Bd 3
  bY : p.Y.Bd 3
  bZ : p.Z.Bd 3
  bT : p.T.Bd 3
  rep : CmpRep p.X.el p.Y.el p.Z.el p.T.el P

structure CchOk (p : Cch) (P : Pt25519) : Prop where
  bA : p.yPlusX.Bd 3
  bS : p.yMinusX.Bd 3
  bZ : p.Z.Bd 1
  bT : p.T2d.Bd 1
  rep : CchRep p.yPlusX.el p.yMinusX.el p.Z.el p.T2d.el P

structure PreOk (p : Pre) (P : Pt25519) : Prop where
  bA : p.yPlusX.Bd 1
  bS : p.yMinusX.Bd 1
  bT : p.xy2d.Bd 1
  rep : PreRep p.yPlusX.el p.yMinusX.el p.xy2d.el P

theorem Prj.zero_ok : PrjOk Prj.zero 0 :=
  ⟨Rep.zero.bd.mono (by decide), Rep.one.bd, Rep.one.bd, by
    unfold Prj.zero; simp only [Rep.zero.el, Rep.one.el]; exact PrjRep.zero⟩

theorem Ext.zero_ok : ExtOk Ext.zero 0 :=
  ⟨Rep.zero.bd.mono (by decide), Rep.one.bd, Rep.one.bd, Rep.zero.bd, by
    unfold Ext.zero; simp only [Rep.zero.el, Rep.one.el]; exact ExtRep.zero⟩

theorem Pre.zero_ok : PreOk Pre.zero 0 :=
  ⟨Rep.one.bd, Rep.one.bd, Rep.zero.bd, by
    unfold Pre.zero; simp only [Rep.zero.el, Rep.one.el]; exact PreRep.zero⟩

theorem ExtOk.toProjective {p : Ext} {P : Pt25519} (h : ExtOk p P) : PrjOk p.toProjective P := ⟨h.bX, h.bY, h.bZ, h.rep.prj⟩

theorem CmpOk.toProjective {p : Cmp} {P : Pt25519} (h : CmpOk p P) : PrjOk p.toProjective P := by
  have rX := h.bX.rep.mul h.bT.rep
  have rY := h.bY.rep.mul h.bZ.rep
  have rZ := h.bZ.rep.mul h.bT.rep
  refine ⟨rX.bd.mono (by decide), rY.bd, rZ.bd, ?_⟩
  unfold Cmp.toProjective
  simp only [rX.el, rY.el, rZ.el]
  exact h.rep.prj

theorem CmpOk.toExtended {p : Cmp} {P : Pt25519} (h : CmpOk p P) : ExtOk p.toExtended P := by
  have rX := h.bX.rep.mul h.bT.rep
  have rY := h.bY.rep.mul h.bZ.rep
  have rZ := h.bZ.rep.mul h.bT.rep
  have rT := h.bX.rep.mul h.bY.rep
  refine ⟨rX.bd.mono (by decide), rY.bd, rZ.bd, rT.bd, ?_⟩
  unfold Cmp.toExtended
  simp only [rX.el, rY.el, rZ.el, rT.el]
  exact h.rep.ext

/-! ### constants -/

/-- the number of an element, for evaluation -/
theorem el_nat (f : Fe) : f.el = (((f.val % P).toNat : Nat) : F) := by
  rw [val_emod, Int.toNat_natCast, ZMod.natCast_zmod_val]

def Fe.bdB (n : Int) (f : Fe) : Bool :=
  decide (-(n * 36909875) ≤ f.x0 ∧ f.x0 ≤ n * 36909875) && decide (-(n * 18454937) ≤ f.x1 ∧ f.x1 ≤ n * 18454937) &&
  decide (-(n * 36909875) ≤ f.x2 ∧ f.x2 ≤ n * 36909875) && decide (-(n * 18454937) ≤ f.x3 ∧ f.x3 ≤ n * 18454937) &&
  decide (-(n * 36909875) ≤ f.x4 ∧ f.x4 ≤ n * 36909875) && decide (-(n * 18454937) ≤ f.x5 ∧ f.x5 ≤ n * 18454937) &&
  decide (-(n * 36909875) ≤ f.x6 ∧ f.x6 ≤ n * 36909875) && decide (-(n * 18454937) ≤ f.x7 ∧ f.x7 ≤ n * 18454937) &&
  decide (-(n * 36909875) ≤ f.x8 ∧ f.x8 ≤ n * 36909875) && decide (-(n * 18454937) ≤ f.x9 ∧ f.x9 ≤ n * 18454937)

theorem Fe.bd_of {n : Int} {f : Fe} (h : f.bdB n = true) : f.Bd n := by
  unfold Fe.bdB at h
  simp only [Bool.and_eq_true, decide_eq_true_eq] at h
  obtain ⟨⟨⟨⟨⟨⟨⟨⟨⟨a0, a1⟩, a2⟩, a3⟩, a4⟩, a5⟩, a6⟩, a7⟩, a8⟩, a9⟩ := h
  exact ⟨a0, a1, a2, a3, a4, a5, a6, a7, a8, a9⟩

theorem feD_rep : Rep 1 feD d25519 := by
  refine ⟨Fe.bd_of (by decide +kernel), ?_⟩
  rw [el_nat, d_eq]
  exact natF_eq (by decide +kernel)

theorem feD2_rep : Rep 1 feD2 (2 * d25519) := by
  refine ⟨Fe.bd_of (by decide +kernel), ?_⟩
  rw [el_nat, d_eq]
  have : (2 : F) * (dN : F) = ((2 * dN : Nat) : F) := by push_cast; rfl
  rw [this]
  exact natF_eq (by decide +kernel)

theorem feSqrtM1_rep : Rep 1 feSqrtM1 (iN : F) := by
  refine ⟨Fe.bd_of (by decide +kernel), ?_⟩
  rw [el_nat]
  exact natF_eq (by decide +kernel)

theorem feA_rep : Rep 1 feA ((486662 : Nat) : F) := by
  refine ⟨Fe.bd_of (by decide +kernel), ?_⟩
  rw [el_nat]
  exact natF_eq (by decide +kernel)

/-! ### group operations -/

theorem ExtOk.toCached {p : Ext} {P : Pt25519} (h : ExtOk p P) : CchOk p.toCached P := by
  have rA := h.bY.rep.add h.bX.rep
  have rS := h.bY.rep.sub h.bX.rep
  have rT := h.bT.rep.mul feD2_rep
  refine ⟨rA.bd, rS.bd, h.bZ, rT.bd, ?_⟩
  unfold Ext.toCached
  simp only [rA.el, rS.el, rT.el]
  exact h.rep.cch

theorem PrjOk.double {p : Prj} {P : Pt25519} (h : PrjOk p P) : CmpOk p.double (P + P) := by
  have rX := h.bX.rep.square
  have rZ := h.bY.rep.square
  have rT := h.bZ.rep.square2
  have rY := h.bX.rep.add h.bY.rep
  have t0 := rY.square
  have rY := rZ.add rX
  have rZ := rZ.sub rX
  have rX := t0.sub rY
  have rT := rT.sub rZ
  refine ⟨rX.bd, rY.bd.mono (by decide), rZ.bd.mono (by decide), rT.bd, ?_⟩
  unfold Prj.double
  simp only [rX.el, rY.el, rZ.el, rT.el]
  exact h.rep.double

theorem ExtOk.double {p : Ext} {P : Pt25519} (h : ExtOk p P) : CmpOk p.double (P + P) := h.toProjective.double

theorem ExtOk.geDouble {p : Ext} {P : Pt25519} (h : ExtOk p P) : ExtOk (geDouble p) (P + P) := h.toProjective.double.toExtended

theorem ExtOk.addC {p : Ext} {q : Cch} {P Q : Pt25519} (h : ExtOk p P) (hq : CchOk q Q) : CmpOk (geAddC p q) (P + Q) := by
  have rX := h.bY.rep.add h.bX.rep
  have rY := h.bY.rep.sub h.bX.rep
  have rZ := rX.mul hq.bA.rep
  have rY := rY.mul hq.bS.rep
  have rT := hq.bT.rep.mul h.bT.rep
  have rX := h.bZ.rep.mul hq.bZ.rep
  have t0 := rX.add rX
  have rX := rZ.sub rY
  have rY := rZ.add rY
  have rZ := t0.add rT
  have rT := t0.sub rT
  refine ⟨rX.bd.mono (by decide), rY.bd.mono (by decide), rZ.bd.mono (by decide), rT.bd.mono (by decide), ?_⟩
  unfold geAddC
  simp only [rX.el, rY.el, rZ.el, rT.el]
  exact h.rep.add hq.rep

theorem ExtOk.subC {p : Ext} {q : Cch} {P Q : Pt25519} (h : ExtOk p P) (hq : CchOk q Q) : CmpOk (geSubC p q) (P - Q) := by
  have rX := h.bY.rep.add h.bX.rep
  have rY := h.bY.rep.sub h.bX.rep
  have rZ := rX.mul hq.bS.rep
  have rY := rY.mul hq.bA.rep
  have rT := hq.bT.rep.mul h.bT.rep
  have rX := h.bZ.rep.mul hq.bZ.rep
  have t0 := rX.add rX
  have rX := rZ.sub rY
  have rY := rZ.add rY
  have rZ := t0.sub rT
  have rT := t0.add rT
  refine ⟨rX.bd.mono (by decide), rY.bd.mono (by decide), rZ.bd.mono (by decide), rT.bd.mono (by decide), ?_⟩
  unfold geSubC
  simp only [rX.el, rY.el, rZ.el, rT.el]
  rw [sub_eq_add_neg P Q]
  have e := h.rep.add hq.rep.neg
  simp only [neg_mul, sub_neg_eq_add, ← sub_eq_add_neg] at e
  exact e

theorem ExtOk.mixedAdd {p : Ext} {q : Pre} {P Q : Pt25519} (h : ExtOk p P) (hq : PreOk q Q) : CmpOk (geMixedAdd p q) (P + Q) := by
  have rX := h.bY.rep.add h.bX.rep
  have rY := h.bY.rep.sub h.bX.rep
  have rZ := rX.mul hq.bA.rep
  have rY := rY.mul hq.bS.rep
  have rT := hq.bT.rep.mul h.bT.rep
  have t0 := h.bZ.rep.add h.bZ.rep
  have rX := rZ.sub rY
  have rY := rZ.add rY
  have rZ := t0.add rT
  have rT := t0.sub rT
  refine ⟨rX.bd.mono (by decide), rY.bd.mono (by decide), rZ.bd.mono (by decide), rT.bd.mono (by decide), ?_⟩
  unfold Coniks.Ed.geMixedAdd
  simp only [rX.el, rY.el, rZ.el, rT.el]
  have e := h.rep.add hq.rep.cch
  simp only [mul_one] at e
  exact e

theorem ExtOk.mixedSub {p : Ext} {q : Pre} {P Q : Pt25519} (h : ExtOk p P) (hq : PreOk q Q) : CmpOk (geMixedSub p q) (P - Q) := by
  have rX := h.bY.rep.add h.bX.rep
  have rY := h.bY.rep.sub h.bX.rep
  have rZ := rX.mul hq.bS.rep
  have rY := rY.mul hq.bA.rep
  have rT := hq.bT.rep.mul h.bT.rep
  have t0 := h.bZ.rep.add h.bZ.rep
  have rX := rZ.sub rY
  have rY := rZ.add rY
  have rZ := t0.sub rT
  have rT := t0.add rT
  refine ⟨rX.bd.mono (by decide), rY.bd.mono (by decide), rZ.bd.mono (by decide), rT.bd.mono (by decide), ?_⟩
  unfold Coniks.Ed.geMixedSub
  simp only [rX.el, rY.el, rZ.el, rT.el]
  rw [sub_eq_add_neg P Q]
  have e := h.rep.add hq.rep.cch.neg
  simp only [mul_one, neg_mul, sub_neg_eq_add, ← sub_eq_add_neg] at e
  exact e

theorem ExtOk.geAdd {p q : Ext} {P Q : Pt25519} (h : ExtOk p P) (hq : ExtOk q Q) : ExtOk (geAdd p q) (P + Q) :=
  (h.addC hq.toCached).toExtended

/-! ### GeScalarMult -/

theorem extCMove_zero {p q : Ext} {P Q : Pt25519} (h : ExtOk p P) (hq : ExtOk q Q) : extCMove p q 0 = p := by
  unfold extCMove
  rw [h.bX.rep.cmove0 hq.bX.rep, h.bY.rep.cmove0 hq.bY.rep, h.bZ.rep.cmove0 hq.bZ.rep, h.bT.rep.cmove0 hq.bT.rep]

theorem extCMove_one {p q : Ext} {P Q : Pt25519} (h : ExtOk p P) (hq : ExtOk q Q) : extCMove p q 1 = q := by
  unfold extCMove
  rw [h.bX.rep.cmove1 hq.bX.rep, h.bY.rep.cmove1 hq.bY.rep, h.bZ.rep.cmove1 hq.bZ.rep, h.bT.rep.cmove1 hq.bT.rep]

/-- the number of `n` bits from `i` on -/
def bitsFrom (a : Bytes) : Nat → Nat → Nat
  | 0, _ => 0
  | n + 1, i => (byteAt a (i / 8) >>> (i % 8)) % 2 + 2 * bitsFrom a n (i + 1)

theorem geScalarMultLoop_ok (a : Bytes) : ∀ (n i : Nat) {p q : Ext} {P Q : Pt25519}, ExtOk p P → ExtOk q Q →
    ExtOk (geScalarMultLoop a n i p q) (Q + bitsFrom a n i • P)
  | 0, i, p, q, P, Q, hp, hq => by
    unfold bitsFrom geScalarMultLoop
    rw [zero_nsmul, add_zero]; exact hq
  | n + 1, i, p, q, P, Q, hp, hq => by
    unfold bitsFrom geScalarMultLoop
    have hs := hq.geAdd hp
    have h2 := hp.geDouble
    rcases Nat.mod_two_eq_zero_or_one (byteAt a (i / 8) >>> (i % 8)) with h | h
    · have hb : bitAt a i = 0 := by unfold bitAt; rw [h]; rfl
      rw [hb, h, extCMove_zero hq hs, zero_add, mul_nsmul, two_nsmul]
      exact geScalarMultLoop_ok a n (i + 1) h2 hq
    · have hb : bitAt a i = 1 := by unfold bitAt; rw [h]; rfl
      rw [hb, h, extCMove_one hq hs, add_nsmul, one_nsmul, ← add_assoc, mul_nsmul, two_nsmul]
      exact geScalarMultLoop_ok a n (i + 1) h2 hs

theorem bits_byte (n : Nat) (h : n < 256) : n % 2 + 2 * (n >>> 1 % 2 + 2 * (n >>> 2 % 2 + 2 * (n >>> 3 % 2 + 2 * (n >>> 4 % 2 +
    2 * (n >>> 5 % 2 + 2 * (n >>> 6 % 2 + 2 * (n >>> 7 % 2))))))) = n := by
  simp only [Nat.shiftRight_eq_div_pow]
  omega

theorem bitsFrom_byte (a : Bytes) (n j : Nat) : bitsFrom a (n + 8) (8 * j) = byteAt a j + 256 * bitsFrom a n (8 * (j + 1)) := by
  have h := bits_byte (byteAt a j) (byteAt_lt a j)
  have d0 : 8 * j / 8 = j := by omega
  have d1 : (8 * j + 1) / 8 = j := by omega
  have d2 : (8 * j + 1 + 1) / 8 = j := by omega
  have d3 : (8 * j + 1 + 1 + 1) / 8 = j := by omega
  have d4 : (8 * j + 1 + 1 + 1 + 1) / 8 = j := by omega
  have d5 : (8 * j + 1 + 1 + 1 + 1 + 1) / 8 = j := by omega
  have d6 : (8 * j + 1 + 1 + 1 + 1 + 1 + 1) / 8 = j := by omega
  have d7 : (8 * j + 1 + 1 + 1 + 1 + 1 + 1 + 1) / 8 = j := by omega
  have m0 : 8 * j % 8 = 0 := by omega
  have m1 : (8 * j + 1) % 8 = 1 := by omega
  have m2 : (8 * j + 1 + 1) % 8 = 2 := by omega
  have m3 : (8 * j + 1 + 1 + 1) % 8 = 3 := by omega
  have m4 : (8 * j + 1 + 1 + 1 + 1) % 8 = 4 := by omega
  have m5 : (8 * j + 1 + 1 + 1 + 1 + 1) % 8 = 5 := by omega
  have m6 : (8 * j + 1 + 1 + 1 + 1 + 1 + 1) % 8 = 6 := by omega
  have m7 : (8 * j + 1 + 1 + 1 + 1 + 1 + 1 + 1) % 8 = 7 := by omega
  have e : 8 * j + 1 + 1 + 1 + 1 + 1 + 1 + 1 + 1 = 8 * (j + 1) := by omega
  simp only [bitsFrom, d0, d1, d2, d3, d4, d5, d6, d7, m0, m1, m2, m3, m4, m5, m6, m7, e, Nat.shiftRight_zero]
  generalize bitsFrom a n (8 * (j + 1)) = R
  generalize byteAt a j % 2 = b0 at *
  generalize byteAt a j >>> 1 % 2 = b1 at *
  generalize byteAt a j >>> 2 % 2 = b2 at *
  generalize byteAt a j >>> 3 % 2 = b3 at *
  generalize byteAt a j >>> 4 % 2 = b4 at *
  generalize byteAt a j >>> 5 % 2 = b5 at *
  generalize byteAt a j >>> 6 % 2 = b6 at *
  generalize byteAt a j >>> 7 % 2 = b7 at *
  rw [← h]
  ring

theorem bitsFrom_sum (a : Bytes) : ∀ n j, bitsFrom a (8 * n) (8 * j) = bytesSum a j n
  | 0, j => rfl
  | n + 1, j => by
    have : 8 * (n + 1) = 8 * n + 8 := by omega
    rw [this, bitsFrom_byte, bitsFrom_sum a n (j + 1)]
    rfl

theorem bitsFrom_eq {a : Bytes} (ha : a.length = 32) : bitsFrom a 256 0 = leNat a := by
  have := bitsFrom_sum a 32 0
  rw [leNat_eq_sum ha]
  exact this

theorem ExtOk.geScalarMult {p : Ext} {P : Pt25519} (hp : ExtOk p P) {a : Bytes} (ha : a.length = 32) : ExtOk (geScalarMult a p) (leNat a • P) := by
  have := geScalarMultLoop_ok a 256 0 hp Ext.zero_ok
  rw [zero_add, bitsFrom_eq ha] at this
  exact this

end Coniks.Ed

import Verif.Ed25519.Encoding
import Verif.Spec.Elligator
import Verif.Model.Ed25519.Elligator
/-
Hashing to the curve.
-/
namespace Coniks.Ed
open Coniks Coniks.Spec

theorem Rep.chi {m : Int} {f : Fe} {a : F} (hf : Rep m f a) (hm : m ≤ 3 := by decide) : Rep 1 (chi f) (a ^ (p25519 / 2)) := by
  have z : Pw a f 1 := by unfold Pw; rw [pow_one]; exact hf.mono hm
  have t0 := z.sq (2) (by norm_num)
  have t1 := t0.mul z (3) (by norm_num)
  have t0 := t1.sq (6) (by norm_num)
  have t2 := t0.sqN 2 (24) (by norm_num)
  have t2 := t2.mul t0 (30) (by norm_num)
  have t1 := t2.mul z (31) (by norm_num)
  have t2 := t1.sqN 5 (992) (by norm_num)
  have t1 := t2.mul t1 (1023) (by norm_num)
  have t2 := t1.sqN 10 (1047552) (by norm_num)
  have t2 := t2.mul t1 (1048575) (by norm_num)
  have t3 := t2.sqN 20 (1099510579200) (by norm_num)
  have t2 := t3.mul t2 (1099511627775) (by norm_num)
  have t2 := t2.sqN 10 (1125899906841600) (by norm_num)
  have t1 := t2.mul t1 (1125899906842623) (by norm_num)
  have t2 := t1.sqN 50 (1267650600228228275596796362752) (by norm_num)
  have t2 := t2.mul t1 (1267650600228229401496703205375) (by norm_num)
  have t3 := t2.sqN 100 (1606938044258990275541962092339894951921974764381296132096000) (by norm_num)
  have t2 := t3.mul t2 (1606938044258990275541962092341162602522202993782792835301375) (by norm_num)
  have t2 := t2.sqN 50 (1809251394333065553493296640760748560207343510400633813116523624223735808000) (by norm_num)
  have t1 := t2.mul t1 (1809251394333065553493296640760748560207343510400633813116524750123642650623) (by norm_num)
  have t1 := t1.sqN 4 (28948022309329048855892746252171976963317496166410141009864396001978282409968) (by norm_num)
  have r := t1.mul1 t0 (28948022309329048855892746252171976963317496166410141009864396001978282409974) (by norm_num)
  have e : p25519 / 2 = 28948022309329048855892746252171976963317496166410141009864396001978282409974 := by rw [p25519_eq]
  rw [e]
  unfold Ed.chi
  exact r

/-! ### squares -/

theorem two_not_sq : ¬ IsSquare (2 : F) := by
  have := not_square (n := 2) (by decide +kernel) (by decide +kernel)
  exact_mod_cast this

theorem A_not_sq : ¬ IsSquare (486662 : F) := by
  have := not_square (n := 486662) (by decide +kernel) (by decide +kernel)
  exact_mod_cast this

theorem A_ne : (486662 : F) ≠ 0 := fun h => A_not_sq (by rw [h]; exact IsSquare.zero)

theorem neg1_sq : IsSquare (-1 : F) := ⟨(iN : F), by rw [← i_sq]; ring⟩

/-- a square root of -486664 -/
def sN : Nat := 6853475219497561581579357271197624642482790079785650197046958215289687604742

theorem s_sq : (sN : F) ^ 2 = -486664 := by
  have h : ((sN * sN + 486664 : Nat) : F) = ((0 : Nat) : F) := natF_eq (by decide +kernel)
  push_cast at h
  linear_combination h

theorem A2_ne : (486664 : F) ≠ 0 := by
  have := natF_ne0 (a := 486664) (by decide +kernel)
  exact_mod_cast this

/-- d = -(A - 2) / (A + 2) -/
theorem d_mont : d25519 * 486664 = -486660 := by
  have h2 : (121666 : F) ≠ 0 := by
    have := natF_ne0 (a := 121666) (by decide +kernel)
    exact_mod_cast this
  unfold d25519
  field_simp
  norm_num

theorem Am2_not_sq : ¬ IsSquare (486660 : F) := by
  rintro ⟨w, hw⟩
  apply EdComplete.nonsquare (d := d25519)
  have hs : (sN : F) ≠ 0 := by
    intro h
    have := s_sq
    rw [h] at this
    exact A2_ne (by linear_combination this)
  refine ⟨w / (sN : F), ?_⟩
  have h1 := d_mont
  have h2 := s_sq
  field_simp
  linear_combination d25519 * h2 - h1 + hw

theorem mul_sq_of_not {a b : F} (ha : ¬ IsSquare a) (hb : ¬ IsSquare b) : IsSquare (a * b) := by
  have ha0 : a ≠ 0 := by rintro rfl; exact ha IsSquare.zero
  have hb0 : b ≠ 0 := by rintro rfl; exact hb IsSquare.zero
  rw [ZMod.euler_criterion p25519 (mul_ne_zero ha0 hb0), mul_pow]
  rw [ZMod.euler_criterion p25519 ha0] at ha
  rw [ZMod.euler_criterion p25519 hb0] at hb
  rw [(ZMod.pow_div_two_eq_neg_one_or_one p25519 ha0).resolve_left ha, (ZMod.pow_div_two_eq_neg_one_or_one p25519 hb0).resolve_left hb]
  ring

theorem not_sq_mul {a b : F} (ha : a ≠ 0) (hs : IsSquare a) (hb : ¬ IsSquare b) : ¬ IsSquare (a * b) := by
  intro h
  apply hb
  have : b = a * b / a := by field_simp
  rw [this]
  exact h.div hs

/-- 1 + 2 r^2 is not zero -/
theorem den_r (r : F) : 1 + 2 * r ^ 2 ≠ 0 := by
  intro h
  apply two_not_sq
  have hr : r ≠ 0 := by rintro rfl; simp at h
  refine ⟨(iN : F) / r, ?_⟩
  have := i_sq
  field_simp
  linear_combination h - this

theorem elligatorV_ne (r : F) : elligatorV r ≠ 0 := by
  unfold elligatorV
  exact div_ne_zero (neg_ne_zero.mpr A_ne) (den_r r)

/-- v + A = -2 r^2 v -/
theorem elligatorV_neg (r : F) : -elligatorV r - 486662 = 2 * r ^ 2 * elligatorV r := by
  unfold elligatorV
  have := den_r r
  field_simp
  ring

theorem quad_ne (x : F) : x ^ 2 + 486662 * x + 1 ≠ 0 := by
  intro h
  -- (2x + A)^2 = A^2 - 4 = (A - 2)(A + 2)
  apply Am2_not_sq
  have hs : (sN : F) ≠ 0 := by
    intro h
    have := s_sq
    rw [h] at this
    exact A2_ne (by linear_combination this)
  refine ⟨(iN : F) * (2 * x + 486662) / (sN : F), ?_⟩
  have h1 := s_sq
  have h2 := i_sq
  field_simp
  rw [h1, h2]
  linear_combination 4 * h

theorem montRhs_ne {x : F} (hx : x ≠ 0) : montRhs x ≠ 0 := by
  have : montRhs x = x * (x ^ 2 + 486662 * x + 1) := by unfold montRhs; ring
  rw [this]
  exact mul_ne_zero hx (quad_ne x)

/-- the right-hand side at the second candidate -/
theorem montRhs_second (r : F) : montRhs (-elligatorV r - 486662) = 2 * r ^ 2 * montRhs (elligatorV r) := by
  have h := elligatorV_neg r
  unfold montRhs
  linear_combination (elligatorV r ^ 2 + 486662 * elligatorV r + 1) * h

theorem elligatorX_sq (r : F) : IsSquare (montRhs (elligatorX r)) := by
  unfold elligatorX
  split
  · assumption
  · rename_i h
    rw [montRhs_second, mul_assoc, mul_comm (r ^ 2), ← mul_assoc]
    exact (mul_sq_of_not two_not_sq h).mul ⟨r, by ring⟩

/-- the y-coordinate belongs to a point -/
theorem edwardsY_on {x : F} (h : IsSquare (montRhs x)) (h1 : x + 1 ≠ 0) : ∃ g : Pt25519, g.y = edwardsY x := by
  obtain ⟨w, hw⟩ := h
  by_cases hx : x = 0
  · refine ⟨⟨0, edwardsY x, ?_⟩, rfl⟩
    unfold edwardsY
    rw [hx]
    norm_num
  · have hw0 : w ≠ 0 := by
      rintro rfl
      exact montRhs_ne hx (by rw [hw]; ring)
    have hs := s_sq
    have hd := d_mont
    have hq := quad_ne x
    have hX : ((sN : F) * x / w) ^ 2 * (x ^ 2 + 486662 * x + 1) = -486664 * x := by
      have hw2 : w ^ 2 = x * (x ^ 2 + 486662 * x + 1) := by
        unfold montRhs at hw; linear_combination -hw
      rw [div_pow, mul_pow, hs, hw2]
      generalize x ^ 2 + 486662 * x + 1 = q at *
      field_simp
    have hy : edwardsY x ^ 2 * (x + 1) ^ 2 = (x - 1) ^ 2 := by
      unfold edwardsY
      rw [div_pow, div_mul_cancel₀]
      exact pow_ne_zero _ h1
    refine ⟨⟨(sN : F) * x / w, edwardsY x, ?_⟩, rfl⟩
    generalize (sN : F) * x / w = X at *
    generalize edwardsY x = y at *
    have hne : (x ^ 2 + 486662 * x + 1) * (x + 1) ^ 2 ≠ 0 := mul_ne_zero hq (pow_ne_zero _ h1)
    refine mul_right_cancel₀ hne ?_
    linear_combination (-(x + 1) ^ 2 - d25519 * y ^ 2 * (x + 1) ^ 2) * hX + (x ^ 2 + 486662 * x + 1 + 486664 * d25519 * x) * hy +
      x * (x - 1) ^ 2 * hd

/-- x = -1 is no x-coordinate -/
theorem elligatorX_ne (r : F) : elligatorX r + 1 ≠ 0 := by
  intro h
  have hx : elligatorX r = -1 := eq_neg_of_add_eq_zero_left h
  have := elligatorX_sq r
  rw [hx] at this
  apply Am2_not_sq
  have e : montRhs (-1 : F) = 486660 := by unfold montRhs; norm_num
  rwa [e] at this

/-! ### the code -/

private theorem w32 {z : Int} (h1 : -2147483648 ≤ z) (h2 : z < 2147483648) : wrap 32 z = z := wrap_id (by decide) h1 h2

theorem feInc_rep {f : Fe} {a : F} (hf : Rep 1 f a) : Rep 2 (feInc f) (a + 1) := by
  have h := hf.add Rep.one
  have e : feInc f = feAdd f feOne := by
    obtain ⟨h0, h1, h2, h3, h4, h5, h6, h7, h8, h9⟩ := hf.bd
    unfold feInc feAdd feOne
    simp only [Int.add_zero]
    rw [w32 (z := f.x1) (by omega) (by omega), w32 (z := f.x2) (by omega) (by omega), w32 (z := f.x3) (by omega) (by omega),
      w32 (z := f.x4) (by omega) (by omega), w32 (z := f.x5) (by omega) (by omega), w32 (z := f.x6) (by omega) (by omega),
      w32 (z := f.x7) (by omega) (by omega), w32 (z := f.x8) (by omega) (by omega), w32 (z := f.x9) (by omega) (by omega)]
  rw [e]; exact h

/-- byte 1 of 1 and of -1 -/
theorem chi_bit {s : Bytes} (hs : s.length = 32) {e : F} (h : leNat s = e.val) (he : e = 1 ∨ e = -1) :
    (s.getD 1 0 &&& 1).toNat = if e = 1 then 0 else 1 := by
  rcases he with he | he
  · subst he
    rw [val_one] at h
    rw [leNat_inj s (1 :: List.replicate 31 0) (by rw [hs]; rfl) (by rw [h, leNat_one]), if_pos rfl]
    rfl
  · have hv : e.val = p25519 - 1 := by
      have e1 : e = ((p25519 - 1 : Nat) : F) := by
        rw [he, Nat.cast_sub (by decide +kernel), ZMod.natCast_self]; simp
      rw [e1, ZMod.val_natCast]
      decide +kernel
    rw [hv] at h
    have hne : e ≠ 1 := by
      intro hc
      rw [hc, val_one] at hv
      revert hv
      decide +kernel
    rw [if_neg hne, leNat_inj s (0xec :: (List.replicate 30 0xff ++ [0x7f])) (by rw [hs]; rfl) (by rw [h]; decide +kernel)]
    rfl

theorem representativeToMontgomeryX_ok {f : Fe} {r : F} (hf : Rep 1 f r) : Rep 2 (representativeToMontgomeryX f) (elligatorX r) := by
  have hrr := hf.square2
  have hrr := feInc_rep hrr
  have hrr := hrr.invert
  have hv := feA_rep.mul hrr
  have hv := hv.neg
  have ev : -(((486662 : Nat) : F) * (2 * r ^ 2 + 1)⁻¹) = elligatorV r := by
    unfold elligatorV
    rw [div_eq_mul_inv, add_comm (1 : F)]
    push_cast
    ring
  rw [ev] at hv
  have hv2 := hv.square
  have hv3 := hv.mul hv2
  have he := hv3.add hv
  have hv2 := hv2.mul feA_rep
  have he := hv2.add he
  have ee : elligatorV r ^ 2 * ((486662 : Nat) : F) + (elligatorV r * elligatorV r ^ 2 + elligatorV r) = montRhs (elligatorV r) := by
    unfold montRhs; push_cast; ring
  rw [ee] at he
  have he := he.chi
  have hne := montRhs_ne (elligatorV_ne r)
  have hcase := ZMod.pow_div_two_eq_neg_one_or_one p25519 hne
  have hsq := ZMod.euler_criterion p25519 hne
  have hbit := chi_bit he.toBytes.1 he.toBytes.2.1 hcase
  unfold representativeToMontgomeryX
  simp only
  rw [hbit]
  clear hbit he
  have hn := hv.neg
  unfold elligatorX
  generalize feNeg (feMul feA _) = vf at *
  by_cases h1 : montRhs (elligatorV r) ^ (p25519 / 2) = 1
  · rw [if_pos h1, if_pos (hsq.mpr h1)]
    rw [Int.natCast_zero, hv.cmove0 hn, Rep.zero.cmove0 feA_rep]
    have := hv.sub Rep.zero
    rw [sub_zero] at this
    exact this
  · rw [if_neg h1, if_neg (fun hc => h1 (hsq.mp hc))]
    rw [Int.natCast_one, hv.cmove1 hn, Rep.zero.cmove1 feA_rep]
    have := hn.sub feA_rep
    push_cast at this
    exact this

theorem montgomeryXToEdwardsY_ok {f : Fe} {x : F} (hf : Rep 2 f x) : Rep 1 (montgomeryXToEdwardsY f) (edwardsY x) := by
  have h1 := (hf.add Rep.one).invert
  have h2 := hf.sub Rep.one
  have h := h1.mul h2
  have e : (x + 1)⁻¹ * (x - 1) = edwardsY x := by unfold edwardsY; rw [div_eq_mul_inv, mul_comm]
  rw [e] at h
  exact h

theorem okOrPanic_true {r : Bool × Ext} (h : r.1 = true) : okOrPanic r = some r.2 := by unfold okOrPanic; rw [h]; rfl

theorem and127 : ∀ n : Fin 256, (UInt8.ofNat n.val &&& 127).toNat = n.val % 128 := by decide +kernel

/-- `HashToEdwards` never panics, and what it computes -/
theorem hashToEdwards_ok {b : Bytes} (hb : b.length = 32) :
    ∃ p g, hashToEdwards b = some p ∧ ExtOk p g ∧ g.y = edwardsY (elligatorX ((leNat b % 2 ^ 255 : Nat) : F)) ∧
      (g.x = 0 ∨ g.x.val % 2 = leNat b / 2 ^ 255) := by
  have hbl : (b.modify 31 (· &&& 127)).length = 32 := by simp [hb]
  have hf := Rep.fromBytes hbl
  have e : leNat (b.modify 31 (· &&& 127)) % 2 ^ 255 = leNat b % 2 ^ 255 := by
    obtain ⟨y, z, rfl, hy⟩ := split31 hb
    have hm := modify_last y z (· &&& 127)
    rw [hy] at hm
    rw [hm, leNat_snoc, leNat_snoc, hy]
    have ha := and127 ⟨z.toNat, z.toNat_lt⟩
    simp only [UInt8.ofNat_toNat] at ha
    rw [ha]
    have e1 : 2 ^ 255 = 256 ^ 31 * 128 := by norm_num
    rw [e1]
    have hl := Coniks.leNat_lt y
    rw [hy] at hl
    rw [Nat.mod_mul, Nat.mod_mul, Nat.add_mul_mod_self_left, Nat.add_mul_mod_self_left, Nat.add_mul_div_left _ _ (by positivity),
      Nat.add_mul_div_left _ _ (by positivity), Nat.div_eq_of_lt hl]
    simp
  rw [e] at hf
  have hX := representativeToMontgomeryX_ok hf
  have hY := montgomeryXToEdwardsY_ok hX
  have htop := leNat_top hb
  have hl := Coniks.leNat_lt b
  rw [hb] at hl
  have hbit : (b.getD 31 0 >>> 7).toNat < 2 := by
    rw [htop]
    have e : 256 ^ 32 = 2 ^ 255 * 2 := by norm_num
    rw [e] at hl
    exact Nat.div_lt_of_lt_mul hl
  unfold hashToEdwards
  simp only
  have hpy := fun p => fromParityAndY_ok p hbit hY
  rw [htop] at hpy
  have hpy := hpy ⟨representativeToMontgomeryX (feFromBytes (b.modify 31 (· &&& 127))),
    montgomeryXToEdwardsY (representativeToMontgomeryX (feFromBytes (b.modify 31 (· &&& 127)))), feZero, feZero⟩
  generalize fromParityAndY _ _ _ = r at *
  have ht := hpy.iff.mpr (edwardsY_on (elligatorX_sq _) (elligatorX_ne _))
  obtain ⟨g, h1, h2, h3⟩ := hpy.ok ht
  exact ⟨r.2, g, okOrPanic_true ht, h1, h2, h3⟩

/-! ### collisions -/

theorem elligatorX_eq_zero (r : F) : elligatorX r = 0 ↔ r = 0 := by
  constructor
  · intro h
    unfold elligatorX at h
    split at h
    · exact absurd h (elligatorV_ne r)
    · rw [elligatorV_neg] at h
      have h1 := (mul_eq_zero.mp h).resolve_right (elligatorV_ne r)
      exact (pow_eq_zero_iff (by decide)).mp ((mul_eq_zero.mp h1).resolve_left two_ne)
  · rintro rfl
    have hv : elligatorV 0 = -486662 := by unfold elligatorV; norm_num
    unfold elligatorX
    rw [hv, if_neg]
    · ring
    · intro h
      apply A_not_sq
      have e : montRhs (-486662 : F) = -1 * 486662 := by unfold montRhs; ring
      rw [e] at h
      have := h.mul neg1_sq
      rwa [show (-1 * 486662 * -1 : F) = 486662 by ring] at this

theorem elligatorV_inj {r r' : F} (h : elligatorV r = elligatorV r') : r = r' ∨ r = -r' := by
  unfold elligatorV at h
  rw [div_eq_div_iff (den_r r) (den_r r')] at h
  have h1 : (486662 : F) * (2 * (r ^ 2 - r' ^ 2)) = 0 := by linear_combination h
  have h2 := (mul_eq_zero.mp ((mul_eq_zero.mp h1).resolve_left A_ne)).resolve_left two_ne
  exact sq_eq_sq_iff_eq_or_eq_neg.mp (sub_eq_zero.mp h2)

theorem elligatorV_swap {r r' : F} (h : 2 * r * r' = 1 ∨ 2 * r * r' = -1) : elligatorV r' = -elligatorV r - 486662 := by
  have h2 : 4 * r ^ 2 * r' ^ 2 = 1 := by
    rcases h with h | h
    · linear_combination (2 * r * r' + 1) * h
    · linear_combination (2 * r * r' - 1) * h
  have h1 := den_r r
  have h1' := den_r r'
  unfold elligatorV
  rw [div_eq_iff h1']
  field_simp
  linear_combination (486662 : F) * h2

theorem elligatorV_swap' {r r' : F} (h : elligatorV r' = -elligatorV r - 486662) : 2 * r * r' = 1 ∨ 2 * r * r' = -1 := by
  have h1 := den_r r
  have h1' := den_r r'
  unfold elligatorV at h
  rw [div_eq_iff h1'] at h
  field_simp at h
  have hA := A_ne
  have h2 : (486662 : F) * (4 * r ^ 2 * r' ^ 2 - 1) = 0 := by linear_combination h
  have h3 := (mul_eq_zero.mp h2).resolve_left hA
  have h4 : (2 * r * r') ^ 2 = 1 ^ 2 := by linear_combination h3
  exact sq_eq_sq_iff_eq_or_eq_neg.mp h4

theorem montRhs_swap {r : F} (hr : r ≠ 0) : IsSquare (montRhs (-elligatorV r - 486662)) ↔ ¬ IsSquare (montRhs (elligatorV r)) := by
  rw [montRhs_second]
  constructor
  · intro h hc
    have h2 : ¬ IsSquare (r ^ 2 * montRhs (elligatorV r) * 2) :=
      not_sq_mul (mul_ne_zero (pow_ne_zero _ hr) (montRhs_ne (elligatorV_ne r))) (IsSquare.mul (show IsSquare (r ^ 2) from ⟨r, by ring⟩) hc) two_not_sq
    apply h2
    rwa [show r ^ 2 * montRhs (elligatorV r) * 2 = 2 * r ^ 2 * montRhs (elligatorV r) by ring]
  · intro h
    rw [mul_assoc, mul_comm (r ^ 2), ← mul_assoc]
    exact (mul_sq_of_not two_not_sq h).mul ⟨r, by ring⟩

/-- exactly which numbers are sent to the same x-coordinate -/
theorem elligatorX_eq (r r' : F) : elligatorX r = elligatorX r' ↔ r = r' ∨ r = -r' ∨ 2 * r * r' = 1 ∨ 2 * r * r' = -1 := by
  constructor
  · intro h
    unfold elligatorX at h
    split at h <;> split at h
    · rcases elligatorV_inj h with h | h
      · exact Or.inl h
      · exact Or.inr (Or.inl h)
    · have := elligatorV_swap' h
      rcases this with h | h
      · exact Or.inr (Or.inr (Or.inl (by linear_combination h)))
      · exact Or.inr (Or.inr (Or.inr (by linear_combination h)))
    · exact Or.inr (Or.inr (elligatorV_swap' h.symm))
    · have h : elligatorV r = elligatorV r' := by linear_combination -h
      rcases elligatorV_inj h with h | h
      · exact Or.inl h
      · exact Or.inr (Or.inl h)
  · intro h
    rcases h with h | h | h
    · rw [h]
    · have : elligatorV r = elligatorV r' := by unfold elligatorV; rw [h, neg_sq]
      unfold elligatorX
      rw [this]
    · have hv := elligatorV_swap h
      have hr : r ≠ 0 := by
        rintro rfl
        rcases h with h | h
        · simp at h
        · rw [mul_zero, zero_mul] at h
          exact one_ne_zero (by linear_combination h : (1 : F) = 0)
      have hs := montRhs_swap hr
      unfold elligatorX
      rw [hv]
      by_cases h1 : IsSquare (montRhs (elligatorV r))
      · rw [if_pos h1, if_neg (fun hc => hs.mp hc h1)]
        ring
      · rw [if_neg h1, if_pos (hs.mpr h1)]

theorem edwardsY_inj {x x' : F} (hx : x + 1 ≠ 0) (hx' : x' + 1 ≠ 0) (h : edwardsY x = edwardsY x') : x = x' := by
  unfold edwardsY at h
  rw [div_eq_div_iff hx hx'] at h
  have : 2 * (x - x') = 0 := by linear_combination h
  exact sub_eq_zero.mp ((mul_eq_zero.mp this).resolve_left two_ne)

theorem x_zero_iff (g : Pt25519) {x : F} (hx : x + 1 ≠ 0) (h : g.y = edwardsY x) : g.x = 0 ↔ x = 0 := by
  have h1 := x_sq g
  have hy : g.y * (x + 1) = x - 1 := by rw [h]; unfold edwardsY; exact div_mul_cancel₀ _ hx
  constructor
  · intro h0
    rw [h0] at h1
    have h2 : g.y ^ 2 * (x + 1) ^ 2 = (x + 1) ^ 2 := by linear_combination -(x + 1) ^ 2 * h1
    have h3 : (2 * 2) * x = 0 := by linear_combination (g.y * (x + 1) + (x - 1)) * hy - h2
    exact (mul_eq_zero.mp h3).resolve_left (mul_ne_zero two_ne two_ne)
  · rintro rfl
    have : g.y = -1 := by linear_combination hy
    rw [this] at h1
    have h2 : g.x ^ 2 * (1 + d25519 * (-1) ^ 2) = 0 := by rw [h1]; ring
    exact (pow_eq_zero_iff (by decide)).mp ((mul_eq_zero.mp h2).resolve_right (den_y _))

end Coniks.Ed

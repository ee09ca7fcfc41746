import Verif.Ed25519.Montgomery
import Verif.Ed25519.SmallOrder
import Verif.Model.Ed25519.Convert
import Verif.Proofs.Vrf
/-
Key conversion and representatives (extra25519.go).
-/
namespace Coniks.Ed
open Coniks Coniks.Spec

/-- a^((p - 5) / 8) -/
theorem Rep.q58 {m : Int} {f : Fe} {a : F} (hf : Rep m f a) (hm : m ≤ 3 := by decide) : Rep 1 (q58 f) (a ^ (7237005577332262213973186563042994240829374041602535252466099000494570602493)) := by
  have z : Pw a f 1 := by unfold Pw; rw [pow_one]; exact hf.mono hm
  have t1 := z.sq (2) (by norm_num)
  have t1 := t1.mul z (3) (by norm_num)
  have t1 := t1.sq (6) (by norm_num)
  have t2 := t1.sqN 2 (24) (by norm_num)
  have t2 := t2.mul t1 (30) (by norm_num)
  have t1 := t2.mul z (31) (by norm_num)
  have t2 := t1.sqN 5 (992) (by norm_num)
  have t1 := t2.mul t1 (1023) (by norm_num)
  have t2 := t1.sqN 10 (1047552) (by norm_num)
  have t2 := t2.mul t1 (1048575) (by norm_num)
  have t3 := t2.sqN 20 (1099510579200) (by norm_num)
  have t2 := t3.mul t2 (1099511627775) (by norm_num)
  have t2 := t2.sqN 10 (1125899906841600) (by norm_num)
  have t1 := t2.mul t1 (1125899906842623) (by norm_num)
  have t2 := t1.sqN 50 (1267650600228228275596796362752) (by norm_num)
  have t2 := t2.mul t1 (1267650600228229401496703205375) (by norm_num)
  have t3 := t2.sqN 100 (1606938044258990275541962092339894951921974764381296132096000) (by norm_num)
  have t2 := t3.mul t2 (1606938044258990275541962092341162602522202993782792835301375) (by norm_num)
  have t2 := t2.sqN 50 (1809251394333065553493296640760748560207343510400633813116523624223735808000) (by norm_num)
  have t1 := t2.mul t1 (1809251394333065553493296640760748560207343510400633813116524750123642650623) (by norm_num)
  have t1 := t1.sqN 2 (7237005577332262213973186563042994240829374041602535252466099000494570602492) (by norm_num)
  have r := t1.mul1 z (7237005577332262213973186563042994240829374041602535252466099000494570602493) (by norm_num)
  unfold Coniks.Ed.q58
  exact r

/-! ### constants -/

/-- -s as a number -/
def cN' : Nat := p25519 - sN

theorem cM_nat : cM = (cN' : F) := by
  unfold cM cN'
  rw [Nat.cast_sub (by decide +kernel), ZMod.natCast_self, zero_sub]

theorem feSqrtMinusA_rep : Rep 1 feSqrtMinusA cM := by
  refine ⟨Fe.bd_of (by decide +kernel), ?_⟩
  rw [el_nat, cM_nat]
  exact natF_eq (by decide +kernel)

/-- the number of `sqrtMinusHalf` -/
def hN : Nat := (feSqrtMinusHalf.val % P).toNat

theorem feSqrtMinusHalf_rep : Rep 1 feSqrtMinusHalf (hN : F) := by
  refine ⟨Fe.bd_of (by decide +kernel), ?_⟩
  rw [el_nat]
  rfl

theorem h_sq : 2 * (hN : F) ^ 2 = -(iN : F) := by
  have h : ((2 * (hN * hN) + iN : Nat) : F) = ((0 : Nat) : F) := natF_eq (by decide +kernel)
  push_cast at h
  linear_combination h

/-! ### comparison of byte strings -/

/-- the state after the higher bytes -/
def leEnc (a b : Nat) : BitVec 32 × BitVec 32 :=
  (if a = b then BitVec.allOnes 32 else 0#32, if a < b then BitVec.allOnes 32 else 0#32)

theorem sub_sign (x y : UInt8) : (BitVec.ofNat 32 x.toNat - BitVec.ofNat 32 y.toNat).sshiftRight 31 =
    if x.toNat < y.toNat then BitVec.allOnes 32 else 0#32 := by
  have hx := x.toNat_lt
  have hy := y.toNat_lt
  generalize x.toNat = a at *
  generalize y.toNat = b at *
  apply BitVec.eq_of_toInt_eq
  rw [BitVec.toInt_sshiftRight, BitVec.toInt_sub]
  have ea : (BitVec.ofNat 32 a).toInt = a := by
    rw [BitVec.toInt_ofNat']; apply Int.bmod_eq_of_le <;> omega
  have eb : (BitVec.ofNat 32 b).toInt = b := by
    rw [BitVec.toInt_ofNat']; apply Int.bmod_eq_of_le <;> omega
  rw [ea, eb, Int.bmod_eq_of_le (by omega) (by omega), Int.shiftRight_eq_div_pow]
  split
  · have : (BitVec.allOnes 32).toInt = -1 := by decide
    rw [this]; omega
  · have : (0#32).toInt = 0 := by decide
    rw [this]; omega

theorem xor_sign (x y : UInt8) : ((BitVec.ofNat 32 x.toNat ^^^ BitVec.ofNat 32 y.toNat) - 1#32).sshiftRight 31 =
    if x.toNat = y.toNat then BitVec.allOnes 32 else 0#32 := by
  have hx := x.toNat_lt
  have hy := y.toNat_lt
  generalize x.toNat = a at *
  generalize y.toNat = b at *
  split
  · rename_i h
    subst h
    rw [BitVec.xor_self]
    decide
  · rename_i h
    have hn : (BitVec.ofNat 32 a ^^^ BitVec.ofNat 32 b).toNat = a ^^^ b := by
      rw [BitVec.toNat_xor, BitVec.toNat_ofNat, BitVec.toNat_ofNat, Nat.mod_eq_of_lt (by omega), Nat.mod_eq_of_lt (by omega)]
    have hlt : a ^^^ b < 2 ^ 8 := Nat.xor_lt_two_pow hx hy
    have hne : a ^^^ b ≠ 0 := by
      intro h0
      apply h
      have : a ^^^ b ^^^ b = b := by rw [h0, Nat.zero_xor]
      rwa [Nat.xor_assoc, Nat.xor_self, Nat.xor_zero] at this
    generalize BitVec.ofNat 32 a ^^^ BitVec.ofNat 32 b = z at *
    apply BitVec.eq_of_toInt_eq
    rw [BitVec.toInt_sshiftRight, BitVec.toInt_sub]
    have ez : z.toInt = (a ^^^ b : Nat) := by
      rw [BitVec.toInt_eq_toNat_of_lt (by omega), hn]
    have e1 : (1#32).toInt = 1 := by decide
    have e0 : (0#32).toInt = 0 := by decide
    rw [ez, e1, e0, Int.bmod_eq_of_le (by omega) (by omega), Int.shiftRight_eq_div_pow]
    omega

theorem leStep_enc {x y : UInt8} {a b : Nat} : leStep (leEnc a b) (x, y) = leEnc (x.toNat + 256 * a) (y.toNat + 256 * b) := by
  have hx := x.toNat_lt
  have hy := y.toNat_lt
  have ho : ~~~(BitVec.allOnes 32) = 0#32 := by decide
  have hz : ~~~(0#32) = BitVec.allOnes 32 := by decide
  unfold leStep
  simp only [sub_sign, xor_sign]
  unfold leEnc
  simp only
  by_cases h : a = b
  · subst h
    simp only [if_true, ho, BitVec.zero_and, BitVec.zero_or, BitVec.allOnes_and]
    congr 1
    · by_cases h2 : x.toNat = y.toNat
      · rw [if_pos h2, if_pos (by omega)]
      · rw [if_neg h2, if_neg (by omega)]
    · by_cases h2 : x.toNat < y.toNat
      · rw [if_pos h2, if_pos (by omega)]
      · rw [if_neg h2, if_neg (by omega)]
  · simp only [if_neg h, hz, BitVec.zero_and, BitVec.or_zero, BitVec.allOnes_and]
    congr 1
    · rw [if_neg (by omega)]
    · by_cases h2 : a < b
      · rw [if_pos h2, if_pos (by omega)]
      · rw [if_neg h2, if_neg (by omega)]

theorem le_fold : ∀ (a b : Bytes), a.length = b.length →
    (a.zip b).reverse.foldl leStep (BitVec.ofInt 32 (-1), 0#32) = leEnc (leNat a) (leNat b)
  | [], [], _ => by decide
  | x :: a, y :: b, h => by
    have ih := le_fold a b (by simpa using h)
    rw [List.zip_cons_cons, List.reverse_cons, List.foldl_append, ih]
    exact leStep_enc

/-- what `feBytesLE` compares -/
theorem feBytesLE_eq {a b : Bytes} (h : a.length = b.length) : feBytesLE a b = if leNat a < leNat b then 1 else 0 := by
  unfold feBytesLE
  simp only [le_fold a b h]
  unfold leEnc
  by_cases h1 : leNat a = leNat b
  · simp only [if_pos h1, if_neg (show ¬ leNat a < leNat b by omega)]; decide
  · by_cases h2 : leNat a < leNat b
    · simp only [if_neg h1, if_pos h2]; decide
    · simp only [if_neg h1, if_neg h2]; decide

/-! ### conversion of a public key -/

theorem edwardsToMontgomeryX_ok {f : Fe} {y : F} (hf : Rep 1 f y) : Rep 1 (edwardsToMontgomeryX f) ((1 + y) / (1 - y)) := by
  have h1 := (Rep.one.sub hf).invert
  have h2 := Rep.one.add hf
  have h := h2.mul h1
  rw [div_eq_mul_inv]
  exact h

/-! ### the numbers of `ScalarBaseMult` -/

/-- what happens to a point other than those with x = 0 -/
theorem montgomeryOf_ok {p : Ext} {g : Pt25519} (h : ExtOk p g) (hx : g.x ≠ 0) :
    Rep 1 (montgomeryOf p).1 (montU g) ∧ Rep 1 (montgomeryOf p).2 (cM * montU g / g.x) := by
  have i1 := h.bZ.rep.sub h.bY.rep
  have i1 := i1.mul h.bX.rep
  have i1 := i1.invert
  have u := i1.mul h.bX.rep
  have t0 := h.bY.rep.add h.bZ.rep
  have u := u.mul t0
  have v := t0.mul i1
  have v := v.mul h.bZ.rep
  have v := v.mul feSqrtMinusA_rep
  have hz := h.rep.ne
  have hX := h.rep.x
  have hY := h.rep.y
  have hy : 1 - g.y ≠ 0 := by
    intro h0
    have hy1 : g.y = 1 := by linear_combination -h0
    have ho := x_sq g
    rw [hy1] at ho
    have : g.x ^ 2 * (1 + d25519 * 1 ^ 2) = 0 := by rw [ho]; ring
    have h3 := (mul_eq_zero.mp this).resolve_right (den_y 1)
    exact hx (pow_eq_zero_iff (by decide) |>.mp h3)
  refine ⟨?_, ?_⟩
  · have e : (((p.Z.el - p.Y.el) * p.X.el)⁻¹ * p.X.el * (p.Y.el + p.Z.el)) = montU g := by
      unfold montU
      rw [hX, hY]
      generalize p.Z.el = z at *
      rw [eq_div_iff hy]
      have e1 : (z - g.y * z) * (g.x * z) = z ^ 2 * g.x * (1 - g.y) := by ring
      have hne : z ^ 2 * g.x * (1 - g.y) ≠ 0 := mul_ne_zero (mul_ne_zero (pow_ne_zero _ hz) hx) hy
      rw [e1]
      refine mul_left_cancel₀ hne ?_
      have e2 := mul_inv_cancel₀ hne
      generalize (z ^ 2 * g.x * (1 - g.y))⁻¹ = w at *
      linear_combination (g.x * z * (g.y * z + z) * (1 - g.y)) * e2
    rw [← e]
    exact u
  · have e : ((p.Y.el + p.Z.el) * ((p.Z.el - p.Y.el) * p.X.el)⁻¹ * p.Z.el * cM) = cM * montU g / g.x := by
      unfold montU
      rw [hX, hY]
      generalize p.Z.el = z at *
      rw [eq_div_iff hx, mul_div_assoc', eq_div_iff hy]
      have e1 : (z - g.y * z) * (g.x * z) = z ^ 2 * g.x * (1 - g.y) := by ring
      have hne : z ^ 2 * g.x * (1 - g.y) ≠ 0 := mul_ne_zero (mul_ne_zero (pow_ne_zero _ hz) hx) hy
      rw [e1]
      refine mul_left_cancel₀ hne ?_
      have e2 := mul_inv_cancel₀ hne
      generalize (z ^ 2 * g.x * (1 - g.y))⁻¹ = w at *
      linear_combination ((g.y * z + z) * z * cM * g.x * (1 - g.y)) * e2
    rw [← e]
    exact v

/-- the exponent (p - 5) / 8 -/
abbrev e8 : Nat := 7237005577332262213973186563042994240829374041602535252466099000494570602493

theorem repPowers_ok {u : Fe} {U : F} (hu : Rep 1 u U) :
    Rep 2 (repPowers u).1 (U + 486662) ∧ Rep 1 (repPowers u).2.1 ((U + 486662) ^ 3) ∧ Rep 1 (repPowers u).2.2.1 ((U + 486662) ^ 8) ∧
      Rep 1 (repPowers u).2.2.2 (((U + 486662) ^ 7 * U) ^ e8) := by
  have b := hu.add feA_rep
  push_cast at b
  have b3 := b.square.mul b
  have c6 := b3.square
  have c7 := c6.mul b
  have b8 := c7.mul b
  have cu := c7.mul hu
  have c := cu.q58
  generalize U + 486662 = B at *
  have e3 : B ^ 2 * B = B ^ 3 := by ring
  have e8' : (B ^ 2 * B) ^ 2 * B * B = B ^ 8 := by ring
  have e7 : (B ^ 2 * B) ^ 2 * B * U = B ^ 7 * U := by ring
  rw [e8'] at b8
  rw [e7] at c
  rw [e3] at b3
  exact ⟨b, b3, b8, c⟩

theorem repChi_ok {u b c : Fe} {U B C : F} (hu : Rep 1 u U) (hb : Rep 2 b B) (hc : Rep 1 c C) :
    Rep 1 (repChi u b c) (-(C ^ 4 * (B ^ 7 * U) ^ 2)) := by
  have x := hc.square
  have x := x.square
  have t := hu.square
  have x := x.mul t
  have t := hb.square
  have t := t.mul hb
  have t := t.square
  have t := t.mul hb
  have t := t.square
  have x := x.mul t
  have x := x.neg
  have e : -((C ^ 2) ^ 2 * U ^ 2 * ((B ^ 2 * B) ^ 2 * B) ^ 2) = -(C ^ 4 * (B ^ 7 * U) ^ 2) := by ring
  rw [e] at x
  exact x

theorem repFix_ok {r t0 : Fe} {R T : F} (hr : Rep 1 r R) (ht : Rep 4 t0 T) : Rep 1 (repFix r t0) (if T = 0 then R else R * (iN : F)) := by
  have hn := ht.isNonZero.1
  unfold repFix
  simp only [hn]
  by_cases h : T = 0
  · simp only [if_pos h]
    rw [Rep.one.cmove0 feSqrtM1_rep]
    have := hr.mul Rep.one
    rwa [mul_one] at this
  · simp only [if_neg h]
    rw [Rep.one.cmove1 feSqrtM1_rep]
    exact hr.mul feSqrtM1_rep

theorem repFirst_ok {u b b3 c : Fe} {U B C : F} (hu : Rep 1 u U) (hb : Rep 2 b B) (hb3 : Rep 1 b3 (B ^ 3)) (hc : Rep 1 c C)
    (hj : (C ^ 2 * (B ^ 7 * U)) ^ 2 = -1) : ∃ R, Rep 1 (repFirst u b b3 c) R ∧ 2 * B * R ^ 2 = -U := by
  have r := hc.mul hu
  have r := r.mul hb3
  have r := r.mul feSqrtMinusHalf_rep
  have t := r.square
  have t := t.mul hb
  have t := t.add t
  have t := t.add hu
  have f := repFix_ok r (t.mono (by decide))
  refine ⟨_, f, ?_⟩
  have hh := h_sq
  have hi := i_sq
  generalize (hN : F) = h at *
  generalize (iN : F) = i at *
  have hk : (C ^ 2 * (B ^ 7 * U) - i) * (C ^ 2 * (B ^ 7 * U) + i) = 0 := by linear_combination hj - hi
  split
  · rename_i h0
    linear_combination h0
  · rename_i h0
    have hne : C ^ 2 * (B ^ 7 * U) + i ≠ 0 := by
      intro h1
      apply h0
      linear_combination (C ^ 2 * (B ^ 7 * U) * U) * hh + (-i * U) * h1 + U * hi
    have h1 := (mul_eq_zero.mp hk).resolve_right hne
    linear_combination (i ^ 2 * C ^ 2 * (B ^ 7 * U) * U) * hh - (i ^ 3 * U) * h1 - U * (i ^ 2 - 1) * hi

theorem repSecond_ok {u b b8 c : Fe} {U B C : F} (hu : Rep 1 u U) (hb : Rep 2 b B) (hb8 : Rep 1 b8 (B ^ 8)) (hc : Rep 1 c C)
    (hj : (C ^ 2 * (B ^ 7 * U)) ^ 2 = -1) : ∃ R, Rep 1 (repSecond u b b8 c) R ∧ 2 * U * R ^ 2 = -B := by
  have t := hc.square
  have t := t.mul hc
  have t := t.square
  have r := t.mul hc
  have t := hu.square
  have t := t.mul hu
  have r := r.mul t
  have t := hb8.square
  have t := t.mul hb8
  have t := t.mul hb
  have r := r.mul t
  have r := r.mul feSqrtMinusHalf_rep
  have t := r.square
  have t := t.mul hu
  have t := t.add t
  have t := t.add hb
  have f := repFix_ok r (t.mono (by decide))
  refine ⟨_, f, ?_⟩
  have hh := h_sq
  have hi := i_sq
  generalize (hN : F) = h at *
  generalize (iN : F) = i at *
  have key : ((C ^ 2 * C) ^ 2 * C * (U ^ 2 * U) * ((B ^ 8) ^ 2 * B ^ 8 * B) * h) ^ 2 * U = (C ^ 2 * (B ^ 7 * U)) ^ 7 * h ^ 2 * B := by ring
  generalize (C ^ 2 * C) ^ 2 * C * (U ^ 2 * U) * ((B ^ 8) ^ 2 * B ^ 8 * B) * h = R at *
  generalize C ^ 2 * (B ^ 7 * U) = j at *
  have hj7 : j ^ 7 = -j := by
    have : j ^ 7 = (j ^ 2) ^ 3 * j := by ring
    rw [this, hj]; ring
  rw [hj7] at key
  have hk : (j - i) * (j + i) = 0 := by linear_combination hj - hi
  split
  · rename_i h0
    linear_combination h0
  · rename_i h0
    have hne : j - i ≠ 0 := by
      intro h1
      apply h0
      linear_combination 2 * key + (-j * B) * hh + (i * B) * h1 + B * hi
    have h1 := (mul_eq_zero.mp hk).resolve_left hne
    linear_combination 2 * i ^ 2 * key + (-j * B * i ^ 2) * hh + (i ^ 3 * B) * h1 - B * (i ^ 2 - 1) * hi

/-! ### representatives -/

/-- a number with 2 u r^2 = -(u + A) is a representative of u -/
theorem rep_second {u r : F} (hs : IsSquare (montRhs u)) (h : 2 * u * r ^ 2 = -(u + 486662)) : elligatorX r = u := by
  have hv : elligatorV r = u := by
    unfold elligatorV
    rw [div_eq_iff (den_r r)]
    linear_combination -h
  unfold elligatorX
  rw [hv, if_pos hs]

/-- so is one with 2 (u + A) r^2 = -u -/
theorem rep_first {u r : F} (hs : IsSquare (montRhs u)) (hu : u ≠ 0) (h : 2 * (u + 486662) * r ^ 2 = -u) : elligatorX r = u := by
  have hv : elligatorV r = -(u + 486662) := by
    unfold elligatorV
    rw [div_eq_iff (den_r r)]
    linear_combination h
  have hr : r ≠ 0 := by
    rintro rfl
    apply hu
    linear_combination h
  have h2 := montRhs_swap hr
  have e : -elligatorV r - 486662 = u := by rw [hv]; ring
  rw [e] at h2
  unfold elligatorX
  rw [if_neg (h2.mp hs), e]

theorem u_A_ne {u : F} (hs : IsSquare (montRhs u)) : u + 486662 ≠ 0 := by
  intro h
  have hu : u = -486662 := eq_neg_of_add_eq_zero_left h
  rw [hu] at hs
  apply A_not_sq
  have e : montRhs (-486662 : F) = -1 * 486662 := by unfold montRhs; ring
  rw [e] at hs
  have := hs.mul neg1_sq
  rwa [show (-1 * 486662 * -1 : F) = 486662 by ring] at this

/-- a coordinate has a representative exactly if u (u + A) is no square -/
theorem rep_not_sq {u r : F} (hs : IsSquare (montRhs u)) (hu : u ≠ 0) (h : elligatorX r = u) : ¬ IsSquare (u * (u + 486662)) := by
  have hi := elligatorX_image r
  rw [h] at hi
  intro hc
  have hne : u * (u + 486662) ≠ 0 := mul_ne_zero hu (u_A_ne hs)
  have h2 : ¬ IsSquare (u * (u + 486662) * 2) := not_sq_mul hne hc two_not_sq
  apply h2
  have := neg1_sq.mul hi
  rwa [show -1 * (-2 * u * (u + 486662)) = u * (u + 486662) * 2 by ring] at this

theorem w_sq {u : F} (hb : u + 486662 ≠ 0) : IsSquare ((u + 486662) ^ 7 * u) ↔ IsSquare (u * (u + 486662)) := by
  have e : (u + 486662) ^ 7 * u = ((u + 486662) ^ 3) ^ 2 * (u * (u + 486662)) := by ring
  rw [e]
  constructor
  · intro h
    by_contra hc
    exact not_sq_mul (pow_ne_zero _ (pow_ne_zero _ hb)) ⟨(u + 486662) ^ 3, by ring⟩ hc h
  · intro h
    exact IsSquare.mul ⟨(u + 486662) ^ 3, by ring⟩ h

/-- byte 1 of 1 and of -1 -/
theorem chi_byte {s : Bytes} (hs : s.length = 32) {e : F} (h : leNat s = e.val) (he : e = 1 ∨ e = -1) : s.getD 1 0 = 0xff ↔ e = -1 := by
  have hne : (1 : F) ≠ -1 := by
    intro h
    apply two_ne
    linear_combination h
  rcases he with he | he
  · subst he
    rw [val_one] at h
    rw [leNat_inj s (1 :: List.replicate 31 0) (by rw [hs]; rfl) (by rw [h, leNat_one])]
    constructor
    · intro h; revert h; decide +kernel
    · intro h; exact absurd h hne
  · have hv : e.val = p25519 - 1 := by
      have e1 : e = ((p25519 - 1 : Nat) : F) := by
        rw [he, Nat.cast_sub (by decide +kernel), ZMod.natCast_self]; simp
      rw [e1, ZMod.val_natCast]
      decide +kernel
    rw [hv] at h
    rw [leNat_inj s (0xec :: (List.replicate 30 0xff ++ [0x7f])) (by rw [hs]; rfl) (by rw [h]; decide +kernel)]
    exact ⟨fun _ => he, fun _ => by decide +kernel⟩

theorem leBytes_val {s : Bytes} (hs : s.length = 32) {n : Nat} (h : leNat s = n) : s = leBytes 32 n := by
  refine leNat_inj _ _ (by rw [hs, leBytes_length]) ?_
  rw [leNat_leBytes, h, Nat.mod_eq_of_lt]
  rw [← h, ← hs]
  exact Coniks.leNat_lt s

theorem half_nat : leNat halfQMinus1Bytes = p25519 / 2 := by decide +kernel

/-! ### the scalar -/

theorem and248' (b : UInt8) : (b &&& 248).toNat = 8 * (b.toNat / 8) := by
  have : ∀ n : Fin 256, ((UInt8.ofNat n.val) &&& 248).toNat = 8 * (n.val / 8) := by decide +kernel
  have h := this ⟨b.toNat, b.toNat_lt⟩
  simpa using h

theorem top127' (b : UInt8) : ((b &&& 127) ||| 64).toNat = 64 + b.toNat % 64 := by
  have : ∀ n : Fin 256, ((UInt8.ofNat n.val &&& 127) ||| 64).toNat = 64 + n.val % 64 := by decide +kernel
  have h := this ⟨b.toNat, b.toNat_lt⟩
  simpa using h

theorem clamp_nat {x : Bytes} (hx : x.length = 32) : leNat (clamp x) = clampNat (leNat x) := by
  obtain ⟨a, x, rfl⟩ : ∃ a y, x = a :: y := by cases x with
    | nil => simp at hx
    | cons a y => exact ⟨a, y, rfl⟩
  have hx' : x.length = 31 := by simpa using hx
  obtain ⟨y, z, rfl⟩ : ∃ y z, x = y ++ [z] := by
    rcases List.eq_nil_or_concat x with h | ⟨y, z, h⟩
    · rw [h] at hx'; simp at hx'
    · exact ⟨y, z, by simpa using h⟩
  have hy : y.length = 30 := by simpa using hx'
  have hc : clamp (a :: (y ++ [z])) = (a &&& 248) :: (y ++ [(z &&& 127) ||| 64]) := by
    unfold clamp
    simp only [List.modify_zero_cons, List.modify_succ_cons]
    rw [show (30 : Nat) = y.length from by omega, modify_last]
  have h4 := Coniks.leNat_lt y
  rw [hy] at h4
  rw [hc]
  simp only [leNat, leNat_append, hy, and248', top127']
  unfold clampNat
  have h5 := a.toNat_lt
  have h6 := z.toNat_lt
  norm_num at h4 ⊢
  omega

theorem clampNat_idem (n : Nat) : clampNat (clampNat n) = clampNat n := by
  unfold clampNat
  norm_num
  omega

theorem clampNat_shape (n : Nat) : ∃ k, clampNat n = 8 * k ∧ 2 ^ 251 ≤ k ∧ k < 2 ^ 252 := by
  refine ⟨2 ^ 251 + n / 8 % 2 ^ 251, by unfold clampNat; norm_num; omega, by omega, by omega⟩

theorem clampNat_lt (n : Nat) : clampNat n < 2 ^ 255 := by unfold clampNat; norm_num; omega

/-- the multiple of the base point is not of order one or two -/
theorem clamp_x_ne (n : Nat) : (clampNat n • basePt).x ≠ 0 := by
  obtain ⟨k, h, h1, h2⟩ := clampNat_shape n
  have hc := clamped_coprime prime_ell h h1 h2
  have hne : clampNat n • basePt ≠ 0 := smul_ne_zero_of_coprime base_order base_ne _ hc
  intro hx
  have ho : Spec.ell • (clampNat n • basePt) = 0 := by rw [smul_comm, base_order, smul_zero]
  have h2 : 2 • (clampNat n • basePt) = 0 := by
    generalize clampNat n • basePt = g at *
    have hg := x_sq g
    rw [hx] at hg
    have hy : g.y ^ 2 = 1 := by linear_combination -hg
    rw [two_smul]
    have hneg : -g = g := by
      apply EdPoint.ext
      · rw [ed_neg_x, hx, neg_zero]
      · rw [ed_neg_y]
    nth_rw 1 [← hneg]
    exact neg_add_cancel g
  apply hne
  have hodd : Spec.ell = 2 * (Spec.ell / 2) + 1 := by decide +kernel
  rw [hodd, add_smul, mul_comm, mul_smul, h2, smul_zero, zero_add, one_smul] at ho
  exact ho

/-! ### the whole of `ScalarBaseMult` -/

theorem scalarBaseMult_ok {sk : Bytes} (hs : sk.length = 32) :
    let P := clampNat (leNat sk) • curveBase
    (scalarBaseMult sk = none ∧ ¬ ∃ r, elligatorX r = uCoord P) ∨
    ∃ r, scalarBaseMult sk = some (leBytes 32 (uCoord P).val, leBytes 32 r.val) ∧ elligatorX r = uCoord P ∧
      (if (vCoord P).val < p25519 / 2 then 2 * (uCoord P + 486662) * r ^ 2 = -uCoord P else 2 * uCoord P * r ^ 2 = -(uCoord P + 486662)) := by
  intro P
  have hcl := (leNat_clamp sk hs).1
  have hn := clamp_nat hs
  have hg := geScalarMultBase_ok hcl (by rw [hn]; exact clampNat_lt _)
  rw [hn] at hg
  have hx := clamp_x_ne (leNat sk)
  have hP : toEd P = clampNat (leNat sk) • basePt := by rw [toEd_smul, toEd_base]
  have hU : montU (clampNat (leNat sk) • basePt) = uCoord P := by rw [montU_toEd, hP]
  have hV : cM * montU (clampNat (leNat sk) • basePt) / (clampNat (leNat sk) • basePt).x = vCoord P := by
    rw [vCoord_toEd (by rw [hP]; exact hx), hP]
  have hP0 : P ≠ 0 := by
    intro h
    rw [h] at hP
    rw [← hP] at hx
    exact hx ed_zero_x
  have hx' : (toEd P).x ≠ 0 := by rw [hP]; exact hx
  have hsq := uCoord_sq P hP0
  obtain ⟨ru, rv⟩ := montgomeryOf_ok hg hx
  rw [hU] at ru
  rw [hV] at rv
  have hu0 : uCoord P ≠ 0 := by
    intro h
    have h1 := vCoord_toEd hx'
    rw [← montU_toEd, h, mul_zero, zero_div] at h1
    rcases hPe : P with _ | ⟨u, v, hp⟩
    · exact hP0 hPe
    · rw [hPe] at hx' h h1
      have : v = 0 := h1
      apply hx'
      show cM * u / v = 0
      rw [this, div_zero]
  have hS : IsSquare (montRhs (uCoord P)) := ⟨vCoord P, by rw [← hsq]; ring⟩
  unfold scalarBaseMult
  generalize montgomeryOf _ = m at *
  obtain ⟨uf, vf⟩ := m
  simp only at ru rv ⊢
  obtain ⟨rb, rb3, rb8, rc⟩ := repPowers_ok ru
  generalize repPowers uf = q at *
  obtain ⟨bf, b3f, b8f, cf⟩ := q
  simp only at rb rb3 rb8 rc ⊢
  generalize uCoord P = U at *
  generalize vCoord P = V at *
  have hB0 : U + 486662 ≠ 0 := u_A_ne hS
  have hw := w_sq (u := U) hB0
  have hw0 : (U + 486662) ^ 7 * U ≠ 0 := mul_ne_zero (pow_ne_zero _ hB0) hu0
  have rchi := repChi_ok ru rb rc
  have hpow : (((U + 486662) ^ 7 * U) ^ e8) ^ 4 * ((U + 486662) ^ 7 * U) ^ 2 = ((U + 486662) ^ 7 * U) ^ (p25519 / 2) := by
    have e : p25519 / 2 = e8 * 4 + 2 := by decide +kernel
    rw [e, pow_add, pow_mul]
  rw [hpow] at rchi
  have heu := ZMod.euler_criterion p25519 hw0
  have hpm := ZMod.pow_div_two_eq_neg_one_or_one p25519 hw0
  have hb := chi_byte rchi.toBytes.1 rchi.toBytes.2.1 (by
    rcases hpm with h | h
    · right; rw [h]
    · left; rw [h]; ring)
  by_cases h1 : ((U + 486662) ^ 7 * U) ^ (p25519 / 2) = 1
  · left
    refine ⟨?_, ?_⟩
    · rw [if_pos (hb.mpr (by rw [h1]))]
    · rintro ⟨r, hr⟩
      exact rep_not_sq hS hu0 hr (hw.mp (heu.mpr h1))
  · right
    have hm1 := hpm.resolve_left h1
    have hj : ((((U + 486662) ^ 7 * U) ^ e8) ^ 2 * ((U + 486662) ^ 7 * U)) ^ 2 = -1 := by
      rw [← hm1, ← hpow]
      generalize (U + 486662) ^ 7 * U = w
      generalize w ^ e8 = C
      ring
    obtain ⟨R1, hR1, hR1'⟩ := repFirst_ok ru rb rb3 rc hj
    obtain ⟨R, hR, hR'⟩ := repSecond_ok ru rb rb8 rc hj
    have hne : ¬ (feToBytes (repChi uf bf cf)).1.getD 1 0 = 0xff := by
      intro hc
      have := hb.mp hc
      apply h1
      linear_combination -this
    have hle : feBytesLE (feToBytes vf).1 halfQMinus1Bytes = if V.val < p25519 / 2 then 1 else 0 := by
      rw [feBytesLE_eq (by rw [rv.toBytes.1]; rfl), rv.toBytes.2.1, half_nat]
    rw [if_neg hne, hle]
    have hpub := leBytes_val ru.toBytes.1 ru.toBytes.2.1
    by_cases hv : V.val < p25519 / 2
    · refine ⟨R1, ?_, rep_first hS hu0 hR1', ?_⟩
      · rw [if_pos hv, hR.cmove1 hR1, ← hpub, ← leBytes_val hR1.toBytes.1 hR1.toBytes.2.1]
      · rw [if_pos hv]; exact hR1'
    · refine ⟨R, ?_, rep_second hS hR', ?_⟩
      · rw [if_neg hv, hR.cmove0 hR1, ← hpub, ← leBytes_val hR.toBytes.1 hR.toBytes.2.1]
      · rw [if_neg hv]; exact hR'

theorem representativeToPublicKey_ok {b : Bytes} (hb : b.length = 32) :
    representativeToPublicKey b = leBytes 32 (elligatorX ((leNat b % 2 ^ 255 : Nat) : F)).val := by
  have h := representativeToMontgomeryX_ok (Rep.fromBytes hb)
  exact leBytes_val h.toBytes.1 h.toBytes.2.1

theorem fromParityAndY_Y (p : Ext) (bit : UInt8) (y : Fe) : (fromParityAndY p bit y).2.Y = y := by
  unfold fromParityAndY
  simp only
  generalize feIsNonZero _ = n1
  generalize feIsNonZero _ = n2
  split <;> rfl

theorem publicKeyToCurve25519_ok {b : Bytes} (hb : b.length = 32) :
    (publicKeyToCurve25519 b = none ∧ ¬ ∃ g : Pt25519, g.y = ((leNat b % 2 ^ 255 : Nat) : F)) ∨
    ∃ g : Pt25519, g.y = ((leNat b % 2 ^ 255 : Nat) : F) ∧ publicKeyToCurve25519 b = some (leBytes 32 (montU g).val) := by
  have h := fromBytes_ok Ext.blank hb
  have hY : (fromBytes Ext.blank b).2.Y = feFromBytes b := fromParityAndY_Y _ _ _
  unfold publicKeyToCurve25519
  generalize fromBytes Ext.blank b = r at *
  by_cases h1 : r.1 = true
  · right
    obtain ⟨g, h2, h3, -⟩ := h.ok h1
    refine ⟨g, h3, ?_⟩
    simp only [h1, if_true]
    have hf := edwardsToMontgomeryX_ok (Rep.fromBytes hb)
    rw [hY, montU, h3]
    exact congrArg some (leBytes_val hf.toBytes.1 hf.toBytes.2.1)
  · left
    refine ⟨by simp only [h1]; rfl, fun hc => h1 (h.iff.mpr hc)⟩

end Coniks.Ed

import Verif.Ed25519.BaseMult
import Verif.Spec.Encoding
import Verif.Proofs.Vrf
/-
Encoding and decoding of points.
-/
namespace Coniks.Ed
open Coniks.Spec

theorem leBytes_length : ∀ n k, (leBytes n k).length = n
  | 0, _ => rfl
  | n + 1, k => by simp [leBytes, leBytes_length n]

theorem leNat_leBytes : ∀ n k, leNat (leBytes n k) = k % 256 ^ n
  | 0, k => by simp [leBytes, leNat, Nat.mod_one]
  | n + 1, k => by
    simp only [leBytes, leNat, leNat_leBytes n]
    rw [Nat.pow_succ, Nat.mul_comm (256 ^ n), Nat.mod_mul]
    simp

/-- y + 2^255 parity(x) -/
def encNum (g : Pt25519) : Nat := g.y.val + 2 ^ 255 * (g.x.val % 2)

theorem y_lt (g : Pt25519) : g.y.val < 2 ^ 255 := by
  have h := ZMod.val_lt g.y
  have : p25519 ≤ 2 ^ 255 := by decide +kernel
  omega

theorem encNum_lt (g : Pt25519) : encNum g < 256 ^ 32 := by
  have h := y_lt g
  unfold encNum
  have e : 256 ^ 32 = 2 ^ 255 * 2 := by norm_num
  have : 2 ^ 255 * (g.x.val % 2) ≤ 2 ^ 255 * 1 := Nat.mul_le_mul_left _ (by omega)
  omega

theorem leNat_encode (g : Pt25519) : leNat (encodePoint g) = encNum g := by
  unfold encodePoint
  rw [leNat_leBytes]
  exact Nat.mod_eq_of_lt (encNum_lt g)

theorem encodePoint_length (g : Pt25519) : (encodePoint g).length = 32 := leBytes_length _ _

theorem encodePoint_eq {b : Bytes} (hb : b.length = 32) {g : Pt25519} (h : leNat b = encNum g) : b = encodePoint g :=
  leNat_inj _ _ (by rw [hb, encodePoint_length]) (by rw [h, leNat_encode])

theorem encNum_mod (g : Pt25519) : encNum g % 2 ^ 255 = g.y.val := by
  unfold encNum
  rw [Nat.add_mul_mod_self_left]
  exact Nat.mod_eq_of_lt (y_lt g)

theorem encNum_div (g : Pt25519) : encNum g / 2 ^ 255 = g.x.val % 2 := by
  unfold encNum
  rw [Nat.add_mul_div_left _ _ (by positivity), Nat.div_eq_of_lt (y_lt g), Nat.zero_add]

theorem encodePoint_inj {g g' : Pt25519} (h : encodePoint g = encodePoint g') : g = g' := by
  have h := congrArg leNat h
  rw [leNat_encode, leNat_encode] at h
  have hy : g.y = g'.y := ZMod.val_injective _ (by rw [← encNum_mod g, ← encNum_mod g', h])
  exact pt_ext hy (by rw [← encNum_div g, ← encNum_div g', h])

/-! ### ToBytes -/

theorem split31 {s : Bytes} (hs : s.length = 32) : ∃ y z, s = y ++ [z] ∧ y.length = 31 := by
  rcases List.eq_nil_or_concat s with h | ⟨y, z, h⟩
  · rw [h] at hs; simp at hs
  · refine ⟨y, z, by simpa using h, ?_⟩
    rw [h] at hs; simpa using hs

theorem modify_last (y : Bytes) (z : UInt8) (f : UInt8 → UInt8) : (y ++ [z]).modify y.length f = y ++ [f z] := by
  induction y with
  | nil => rfl
  | cons a y ih => simp only [List.cons_append, List.length_cons, List.modify_succ_cons, ih]

theorem xor_top : ∀ (n : Fin 128) (b : Fin 2), (UInt8.ofNat n.val ^^^ (UInt8.ofNat b.val <<< 7)).toNat = n.val + 128 * b.val := by decide +kernel

theorem leNat_snoc (y : Bytes) (z : UInt8) : leNat (y ++ [z]) = leNat y + 256 ^ y.length * z.toNat := by
  rw [leNat_append]; simp [leNat]

theorem leNat_xor_top {s : Bytes} (hs : s.length = 32) (h : leNat s < 2 ^ 255) {b : UInt8} (hb : b.toNat < 2) :
    (s.modify 31 (· ^^^ (b <<< 7))).length = 32 ∧ leNat (s.modify 31 (· ^^^ (b <<< 7))) = leNat s + 2 ^ 255 * b.toNat := by
  obtain ⟨y, z, rfl, hy⟩ := split31 hs
  have hm := modify_last y z (· ^^^ (b <<< 7))
  rw [hy] at hm
  rw [leNat_snoc, hy] at h
  have hz : z.toNat < 128 := by
    by_contra hc
    have : 256 ^ 31 * 128 ≤ 256 ^ 31 * z.toNat := Nat.mul_le_mul_left _ (by omega)
    norm_num at this h
    omega
  have hx := xor_top ⟨z.toNat, hz⟩ ⟨b.toNat, hb⟩
  simp only [UInt8.ofNat_toNat] at hx
  rw [hm]
  refine ⟨by rw [List.length_append, hy]; rfl, ?_⟩
  rw [leNat_snoc, leNat_snoc, hx, hy]
  ring

theorem geEncode_ok {X Y Z : Fe} {P : Pt25519} (bX : X.Bd 2) (bY : Y.Bd 1) (bZ : Z.Bd 1) (h : PrjRep X.el Y.el Z.el P) :
    geEncode X Y Z = encodePoint P := by
  have hr := bZ.rep.invert
  have hx := bX.rep.mul hr
  have hy := bY.rep.mul hr
  have ex : X.el * Z.el⁻¹ = P.x := by rw [h.x]; exact mul_inv_cancel_right₀ h.ne _
  have ey : Y.el * Z.el⁻¹ = P.y := by rw [h.y]; exact mul_inv_cancel_right₀ h.ne _
  rw [ex] at hx
  rw [ey] at hy
  obtain ⟨t1, t2, _⟩ := hy.toBytes
  obtain ⟨n1, _⟩ := hx.isNegative
  unfold geEncode
  simp only
  obtain ⟨l1, l2⟩ := leNat_xor_top t1 (by rw [t2]; exact y_lt P) (b := (feIsNegative (feMul X (feInvert Z))).1) (by rw [n1]; omega)
  apply encodePoint_eq l1
  rw [l2, t2, n1]
  rfl

theorem ExtOk.toBytes {p : Ext} {P : Pt25519} (h : ExtOk p P) : p.toBytes = encodePoint P := geEncode_ok h.bX h.bY h.bZ h.rep.prj
theorem PrjOk.toBytes {p : Prj} {P : Pt25519} (h : PrjOk p P) : p.toBytes = encodePoint P := geEncode_ok h.bX h.bY h.bZ h.rep

/-! ### FromParityAndY -/

/-- The exponentiation gives a root of u/v up to a fourth root of unity. -/
theorem root_pow (u v : F) :
    (((v ^ 2 * v) ^ 2 * v * u) ^ 7237005577332262213973186563042994240829374041602535252466099000494570602493 * (v ^ 2 * v) * u) ^ 2 * v =
      u * (u * v ^ 7) ^ (p25519 / 4) := by
  have e : p25519 / 4 = 2 * 7237005577332262213973186563042994240829374041602535252466099000494570602493 + 1 := by decide +kernel
  have hX' : (v ^ 2 * v) ^ 2 * v * u = u * v ^ 7 := by ring
  rw [hX', e, pow_add, pow_mul', pow_one]
  ring

/-- u/v has a root exactly if X or i X is one. -/
theorem root_iff {u v X : F} (hv : v ≠ 0) (hX : X ^ 2 * v = u * (u * v ^ 7) ^ (p25519 / 4)) :
    (X ^ 2 * v = u ∨ X ^ 2 * v = -u) ↔ ∃ x, x ^ 2 * v = u := by
  constructor
  · rintro (h | h)
    · exact ⟨X, h⟩
    · refine ⟨X * (iN : F), ?_⟩
      rw [mul_pow, i_sq]
      linear_combination -h
  · rintro ⟨x, hx⟩
    by_cases hu : u = 0
    · left; rw [hX, hu, zero_mul]
    · have hxne : x ≠ 0 := by rintro rfl; apply hu; rw [← hx]; ring
      have hy : x * v ^ 4 ≠ 0 := mul_ne_zero hxne (pow_ne_zero _ hv)
      have hsq : u * v ^ 7 = (x * v ^ 4) ^ 2 := by rw [← hx]; ring
      have hc : (u * v ^ 7) ^ (p25519 / 4) = (x * v ^ 4) ^ (p25519 / 2) := by
        rw [hsq, ← pow_mul]; congr 1
      rw [hX, hc]
      rcases ZMod.pow_div_two_eq_neg_one_or_one p25519 hy with h | h
      · left; rw [h, mul_one]
      · right; rw [h]; ring

/-- the facts about `fromParityAndY` -/
structure PyOk (Y : F) (bit : Nat) (r : Bool × Ext) : Prop where
  iff : r.1 = true ↔ ∃ g : Pt25519, g.y = Y
  ok : r.1 = true → ∃ g : Pt25519, ExtOk r.2 g ∧ g.y = Y ∧ (g.x = 0 ∨ g.x.val % 2 = bit)

theorem on_of_root {x Y : F} (h : x ^ 2 * (Y ^ 2 * d25519 + 1) = Y ^ 2 - 1) : -x ^ 2 + Y ^ 2 = 1 + d25519 * x ^ 2 * Y ^ 2 := by
  linear_combination -h

/-- the final steps: the sign -/
theorem py_sign {bit : UInt8} (hbit : bit.toNat < 2) {y : Fe} {Y : F} (hy : Rep 1 y Y) {f : Fe} {x : F} (hf : Rep 2 f x)
    (h : x ^ 2 * (Y ^ 2 * d25519 + 1) = Y ^ 2 - 1) :
    ∃ g : Pt25519, ExtOk ⟨if ((feIsNegative f).1 != bit) = true then feNeg (feIsNegative f).2 else (feIsNegative f).2, y, feOne,
      feMul (if ((feIsNegative f).1 != bit) = true then feNeg (feIsNegative f).2 else (feIsNegative f).2) y⟩ g ∧ g.y = Y ∧
      (g.x = 0 ∨ g.x.val % 2 = bit.toNat) := by
  obtain ⟨n1, n2⟩ := hf.isNegative
  have key : ∃ z : F, Rep 2 (if ((feIsNegative f).1 != bit) = true then feNeg (feIsNegative f).2 else (feIsNegative f).2) z ∧ z ^ 2 = x ^ 2 ∧
      (z = 0 ∨ z.val % 2 = bit.toNat) := by
    split
    · rename_i hne
      refine ⟨-x, n2.neg, by ring, ?_⟩
      by_cases hx : x = 0
      · left; rw [hx, neg_zero]
      · right
        have := neg_val_parity hx
        have hne : (feIsNegative f).1 ≠ bit := by simpa using hne
        have : (feIsNegative f).1.toNat ≠ bit.toNat := fun hc => hne (UInt8.toNat_inj.mp hc)
        rw [n1] at this
        omega
    · rename_i he
      refine ⟨x, n2, rfl, Or.inr ?_⟩
      have he : (feIsNegative f).1 = bit := by simpa using he
      rw [← n1, he]
  generalize (if ((feIsNegative f).1 != bit) = true then feNeg (feIsNegative f).2 else (feIsNegative f).2) = X at *
  obtain ⟨z, hz, hzx, hz2⟩ := key
  rw [← hzx] at h
  have ht := hz.mul hy
  refine ⟨⟨z, Y, on_of_root h⟩, ⟨hz.bd, hy.bd, Rep.one.bd, ht.bd, ?_⟩, rfl, hz2⟩
  simp only [hz.el, hy.el, Rep.one.el, ht.el]
  exact ⟨one_ne_zero, by ring, by ring, by ring⟩

theorem fromParityAndY_ok (p : Ext) {bit : UInt8} (hbit : bit.toNat < 2) {y : Fe} {Y : F} (hy : Rep 1 y Y) :
    PyOk Y bit.toNat (fromParityAndY p bit y) := by
  have hu := hy.square
  have hv := hu.mul feD_rep
  have hu := hu.sub Rep.one
  have hv := hv.add Rep.one
  have hv3 := hv.square
  have hv3 := hv3.mul hv
  have hX := hv3.square
  have hX := hX.mul hv
  have hX := hX.mul hu
  have hX := hX.pow22523
  have hX := hX.mul hv3
  have hX := hX.mul hu
  have hvne : Y ^ 2 * d25519 + 1 ≠ 0 := by
    have := den_y Y
    intro h; apply this; linear_combination h
  have hiff := root_iff hvne (root_pow (Y ^ 2 - 1) (Y ^ 2 * d25519 + 1))
  have hvxx := hX.square
  have hvxx := hvxx.mul hv
  have hroot := (hX.mul feSqrtM1_rep).toBytes.2.2
  have hc1 := (hvxx.sub hu).isNonZero.1
  have hc2 := (hvxx.add hu).isNonZero.1
  have hex : (∃ x, x ^ 2 * (Y ^ 2 * d25519 + 1) = Y ^ 2 - 1) ↔ ∃ g : Pt25519, g.y = Y := by
    constructor
    · rintro ⟨x, hx⟩; exact ⟨⟨x, Y, on_of_root hx⟩, rfl⟩
    · rintro ⟨g, rfl⟩; exact ⟨g.x, by have := x_sq g; linear_combination this⟩
  rw [hex] at hiff
  unfold fromParityAndY
  simp only
  rw [hc1, hc2]
  clear hc1 hc2 hvxx
  generalize feMul (feMul (fePow22523 _) _) _ = Xf at *
  generalize (((Y ^ 2 * d25519 + 1) ^ 2 * (Y ^ 2 * d25519 + 1)) ^ 2 * (Y ^ 2 * d25519 + 1) * (Y ^ 2 - 1)) ^
            7237005577332262213973186563042994240829374041602535252466099000494570602493 *
          ((Y ^ 2 * d25519 + 1) ^ 2 * (Y ^ 2 * d25519 + 1)) *
        (Y ^ 2 - 1) = x at *
  by_cases h1 : x ^ 2 * (Y ^ 2 * d25519 + 1) = Y ^ 2 - 1
  · have e1 : x ^ 2 * (Y ^ 2 * d25519 + 1) - (Y ^ 2 - 1) = 0 := by rw [h1]; ring
    simp only [e1, if_true]
    refine ⟨⟨fun _ => hiff.mp (Or.inl h1), fun _ => rfl⟩, fun _ => ?_⟩
    exact py_sign hbit hy (hX.mono (by decide)) h1
  · have e1 : x ^ 2 * (Y ^ 2 * d25519 + 1) - (Y ^ 2 - 1) ≠ 0 := fun hc => h1 (sub_eq_zero.mp hc)
    by_cases h2 : x ^ 2 * (Y ^ 2 * d25519 + 1) = -(Y ^ 2 - 1)
    · have e2 : x ^ 2 * (Y ^ 2 * d25519 + 1) + (Y ^ 2 - 1) = 0 := by rw [h2]; ring
      simp only [e1, e2, if_true, if_false]
      refine ⟨⟨fun _ => hiff.mp (Or.inr h2), fun _ => rfl⟩, fun _ => ?_⟩
      refine py_sign hbit hy hroot ?_
      rw [mul_pow, i_sq]
      linear_combination -h2
    · have e2 : x ^ 2 * (Y ^ 2 * d25519 + 1) + (Y ^ 2 - 1) ≠ 0 := fun hc => h2 (eq_neg_of_add_eq_zero_left hc)
      simp only [e1, e2, if_false]
      refine ⟨⟨fun h => absurd (show false = true from h) (by decide), fun h => ?_⟩, fun h => absurd (show false = true from h) (by decide)⟩
      rcases hiff.mpr h with h | h
      · exact absurd h h1
      · exact absurd h h2

theorem top_bit : ∀ n : Fin 256, (UInt8.ofNat n.val >>> 7).toNat = n.val / 128 := by decide +kernel

theorem leNat_top {s : Bytes} (hs : s.length = 32) : (s.getD 31 0 >>> 7).toNat = leNat s / 2 ^ 255 := by
  obtain ⟨y, z, rfl, hy⟩ := split31 hs
  have hg : (y ++ [z]).getD 31 0 = z := by
    rw [List.getD_eq_getElem?_getD, List.getElem?_append_right (by omega), hy]; rfl
  have ht := top_bit ⟨z.toNat, z.toNat_lt⟩
  simp only [UInt8.ofNat_toNat] at ht
  have hl := Coniks.leNat_lt y
  rw [hy] at hl
  rw [hg, ht, leNat_snoc, hy]
  have e1 : 2 ^ 255 = 256 ^ 31 * 128 := by norm_num
  rw [e1, ← Nat.div_div_eq_div_mul, Nat.add_mul_div_left _ _ (by positivity), Nat.div_eq_of_lt hl, Nat.zero_add]

theorem fromBytes_ok (p : Ext) {s : Bytes} (hs : s.length = 32) :
    PyOk ((leNat s % 2 ^ 255 : Nat) : F) (leNat s / 2 ^ 255) (fromBytes p s) := by
  unfold fromBytes
  rw [← leNat_top hs]
  have h := Coniks.leNat_lt s
  rw [hs] at h
  refine fromParityAndY_ok p ?_ (Rep.fromBytes hs)
  rw [leNat_top hs]
  have e : 256 ^ 32 = 2 ^ 255 * 2 := by norm_num
  rw [e] at h
  exact Nat.div_lt_of_lt_mul h

/-- two points with the same y, one with x = 0 -/
theorem pt_ext0 {p q : Pt25519} (hy : p.y = q.y) (hx : p.x = 0 ∨ p.x.val % 2 = q.x.val % 2) : p = q := by
  rcases hx with hx | hx
  · have h1 := x_sq p
    have h2 := x_sq q
    rw [hy, hx] at h1
    have h3 : q.x ^ 2 = 0 := by
      have : q.x ^ 2 * (1 + d25519 * q.y ^ 2) = 0 := by rw [h2, ← h1]; ring
      exact (mul_eq_zero.mp this).resolve_right (den_y q.y)
    exact EdPoint.ext (hx.trans (pow_eq_zero_iff (by decide) |>.mp h3).symm) hy
  · exact pt_ext hy hx

/-- decoding undoes encoding -/
theorem fromBytes_encode (p : Ext) (g : Pt25519) : (fromBytes p (encodePoint g)).1 = true ∧ ExtOk (fromBytes p (encodePoint g)).2 g := by
  have h := fromBytes_ok p (encodePoint_length g)
  rw [leNat_encode, encNum_mod, encNum_div, ZMod.natCast_zmod_val] at h
  have h1 := h.iff.mpr ⟨g, rfl⟩
  obtain ⟨g', h2, h3, h4⟩ := h.ok h1
  rw [pt_ext0 h3 h4] at h2
  exact ⟨h1, h2⟩

theorem destOf_eq (r : Bool × Ext) : destOf r = r.2 := rfl

theorem PrjOk.toExtended {p : Prj} {P : Pt25519} (h : PrjOk p P) (s : Ext) : ExtOk (p.toExtended s) P := by
  unfold Prj.toExtended
  rw [h.toBytes, destOf_eq]
  exact (fromBytes_encode s P).2

theorem val_one : (1 : F).val = 1 := by
  have h := ZMod.val_natCast p25519 1
  rw [Nat.cast_one] at h
  rw [h]
  exact Nat.mod_eq_of_lt (by decide +kernel)

theorem leNat_one : leNat (1 :: List.replicate 31 0) = 1 := by decide +kernel

theorem encNum_zero : encNum 0 = 1 := by
  unfold encNum
  rw [ed_zero_x, ed_zero_y, val_one, ZMod.val_zero, Nat.zero_mod, Nat.mul_zero]

theorem encode_zero : encodePoint 0 = 1 :: List.replicate 31 0 :=
  (encodePoint_eq (List.length_cons.trans (by rw [List.length_replicate])) (by rw [leNat_one, encNum_zero])).symm

theorem ExtOk.unique {p : Ext} {P Q : Pt25519} (h : ExtOk p P) (h' : ExtOk p Q) : P = Q := by
  apply EdPoint.ext
  · exact mul_right_cancel₀ h.rep.ne (h.rep.x.symm.trans h'.rep.x)
  · exact mul_right_cancel₀ h.rep.ne (h.rep.y.symm.trans h'.rep.y)

theorem PrjOk.unique {p : Prj} {P Q : Pt25519} (h : PrjOk p P) (h' : PrjOk p Q) : P = Q := by
  apply EdPoint.ext
  · exact mul_right_cancel₀ h.rep.ne (h.rep.x.symm.trans h'.rep.x)
  · exact mul_right_cancel₀ h.rep.ne (h.rep.y.symm.trans h'.rep.y)

theorem leNat_order : leNat basePointOrder = Spec.ell := by decide +kernel

/-- a point with y = 0 has order four -/
theorem four_of_y0 {g : Pt25519} (h : g.y = 0) : 4 • g = 0 := by
  have h1 := g.on
  rw [h] at h1
  have hx : g.x ^ 2 = -1 := by linear_combination -h1
  have e : 4 • g = (g + g) + (g + g) := by abel
  have x2 : (g + g).x = 0 := by rw [ed_add_x, h]; simp
  have y2 : (g + g).y = -1 := by
    rw [ed_add_y, h]
    simp only [mul_zero, sub_zero, div_one, zero_add]
    rw [← sq]; exact hx
  rw [e]
  apply EdPoint.ext
  · rw [ed_add_x, x2]; simp [ed_zero_x]
  · rw [ed_add_y, x2, y2]; simp [ed_zero_y]

theorem encode_ne_zeros {g : Pt25519} (ho : Spec.ell • g = 0) (hg : g ≠ 0) : encodePoint g ≠ List.replicate 32 0 := by
  intro h
  have h := congrArg leNat h
  rw [leNat_encode, leNat_replicate_zero] at h
  have hy : g.y = 0 := by
    have := encNum_mod g
    rw [h, Nat.zero_mod] at this
    exact (ZMod.val_eq_zero _).mp this.symm
  have h4 := four_of_y0 hy
  have d1 := addOrderOf_dvd_of_nsmul_eq_zero h4
  have d2 := addOrderOf_dvd_of_nsmul_eq_zero ho
  have hc : Nat.Coprime 4 Spec.ell := by decide +kernel
  have : addOrderOf g = 1 := Nat.eq_one_of_dvd_coprimes hc d1 d2
  exact hg (AddMonoid.addOrderOf_eq_one_iff.mp this)

theorem fromBytesBaseGroup_some {g : Pt25519} (ho : Spec.ell • g = 0) (hg : g ≠ 0) :
    ∃ p, fromBytesBaseGroup (encodePoint g) = some p ∧ ExtOk p g := by
  obtain ⟨h1, h2⟩ := fromBytes_encode Ext.blank g
  refine ⟨_, ?_, h2⟩
  unfold fromBytesBaseGroup
  have hz : encodePoint g ≠ 1 :: List.replicate 31 0 := by
    rw [← encode_zero]; exact fun hc => hg (encodePoint_inj hc)
  have hs := (h2.geScalarMult (a := basePointOrder) rfl).toBytes
  rw [leNat_order, ho, encode_zero] at hs
  rw [if_neg hz]
  simp only
  rw [h1, h2.toBytes, hs]
  rw [if_neg (by decide), if_neg (by simp), if_neg (by simp), if_neg (encode_ne_zeros ho hg)]

theorem fromBytesBaseGroup_valid {b : Bytes} {p : Ext} (hb : b.length = 32) (h : fromBytesBaseGroup b = some p) :
    ∃ g : Pt25519, ExtOk p g ∧ encodePoint g = b ∧ Spec.ell • g = 0 ∧ g ≠ 0 := by
  unfold fromBytesBaseGroup at h
  split at h
  · cases h
  · rename_i hne
    simp only at h
    split at h
    · cases h
    · rename_i h1
      split at h
      · cases h
      · rename_i h2
        split at h
        · cases h
        · rename_i h3
          split at h
          · cases h
          · cases h
            have h1 : (fromBytes Ext.blank b).1 = true := by simpa using h1
            obtain ⟨g, hg, _⟩ := (fromBytes_ok Ext.blank hb).ok h1
            have h2 : (fromBytes Ext.blank b).2.toBytes = b := not_not.mp h2
            have h3 := not_not.mp h3
            rw [hg.toBytes] at h2
            rw [(hg.geScalarMult (a := basePointOrder) rfl).toBytes, leNat_order, ← encode_zero] at h3
            refine ⟨g, hg, h2, encodePoint_inj h3, ?_⟩
            rintro rfl
            exact hne (by rw [← h2, encode_zero])

/-! ### the base point -/

theorem extendedBaseEl_ok : ExtOk extendedBaseEl basePt := by
  refine ⟨Fe.bd_of (by decide +kernel), Fe.bd_of (by decide +kernel), Fe.bd_of (by decide +kernel), Fe.bd_of (by decide +kernel), ?_⟩
  simp only [el_num]
  refine ⟨natF_ne0 (by decide +kernel), ?_, ?_, ?_⟩
  · show _ = (bxN : F) * _
    rw [← Nat.cast_mul]
    exact natF_eq (by decide +kernel)
  · show _ = (byN : F) * _
    rw [← Nat.cast_mul]
    exact natF_eq (by decide +kernel)
  · show _ = (bxN : F) * (byN : F) * _
    rw [← Nat.cast_mul, ← Nat.cast_mul]
    exact natF_eq (by decide +kernel)

theorem baseBytes_eq : baseBytes = encodePoint basePt := extendedBaseEl_ok.toBytes

end Coniks.Ed

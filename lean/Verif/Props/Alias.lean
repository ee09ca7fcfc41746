import Verif.Spec.Alias
import Verif.Ed25519.AliasMul
import Verif.Ed25519.Convert
import Verif.Props.Ed25519
/-
C77: results may be stored over operands. The functions of edwards25519.go get pointers; callers pass the same pointer as an operand and as the
destination (`GeDouble(&hm, &hm)`, `GeAdd(&B, &B, &iic)` in vrf.go, `FeMul(&u, &u, &t0)` in extra25519.go), and the comment on `GeAdd` allows it.
-/
namespace Coniks.Props
open Coniks Coniks.Spec Coniks.Ed

/-- C77, field elements: whichever of the pointers `d`, `a`, `b` are equal, `d` then stands for the result on what `a` and `b` stood for
before the call, and nothing else changes. -/
theorem C77_field (n : Nat) (d a b : Ptr) (m : FeMem) {x y : F} (ha : Rep 1 (m a) x) (hb : Rep 1 (m b) y) :
    (Rep 1 (mMul d a b m d) (x * y) ∧ OnlyPlace n d m (mMul d a b m)) ∧
    (Rep 2 (mAdd d a b m d) (x + y) ∧ OnlyPlace n d m (mAdd d a b m)) ∧
    (Rep 2 (mSub d a b m d) (x - y) ∧ OnlyPlace n d m (mSub d a b m)) ∧
    (Rep 1 (mSquare d a m d) (x ^ 2) ∧ OnlyPlace n d m (mSquare d a m)) ∧
    (Rep 1 (mNeg d a m d) (-x) ∧ OnlyPlace n d m (mNeg d a m)) ∧
    (Rep 1 (mCopy d a m d) x ∧ OnlyPlace n d m (mCopy d a m)) := by
  have h3 : Rep 3 (m a) x := ha.mono (by decide)
  have g3 : Rep 3 (m b) y := hb.mono (by decide)
  have only : ∀ v, OnlyPlace n d m (m.put d v) := fun v o f _ h => put_ne h m v
  refine ⟨⟨?_, only _⟩, ⟨?_, ?_⟩, ⟨?_, ?_⟩, ⟨?_, only _⟩, ⟨?_, ?_⟩, ⟨?_, ?_⟩⟩
  · rw [mMul, put_eq]; exact (C53_products h3 g3).1
  · rw [mAdd_eq, put_eq]; exact (C53_sums ha hb (by decide) (by decide) (by decide)).1
  · rw [mAdd_eq]; exact only _
  · rw [mSub_eq, put_eq]; exact (C53_sums ha hb (by decide) (by decide) (by decide)).2.1
  · rw [mSub_eq]; exact only _
  · rw [mSquare, put_eq]; exact (C53_products h3 g3).2.1
  · rw [mNeg_eq, put_eq]; exact (C53_sums ha hb (by decide) (by decide) (by decide)).2.2
  · rw [mNeg_eq]; exact only _
  · rw [mCopy_eq, put_eq]; exact ha
  · rw [mCopy_eq]; exact only _

/-- C77, field elements: a conditional move copies or does nothing, also onto itself. -/
theorem C77_cmove (n : Nat) (f g : Ptr) (m : FeMem) {x y : F} (hf : Rep 1 (m f) x) (hg : Rep 1 (m g) y) :
    mCMove f g 0 m = m ∧ mCMove f g 1 m f = m g ∧ OnlyPlace n f m (mCMove f g 1 m) := by
  have h := C53_cmove (hf.mono (show (1 : Int) ≤ 3 by decide)) (hg.mono (show (1 : Int) ≤ 3 by decide))
  refine ⟨?_, ?_, ?_⟩
  · rw [mCMove_eq, h.1, put_self]
  · rw [mCMove_eq, put_eq, h.2]
  · rw [mCMove_eq]; exact fun o k _ hk => put_ne hk m _

/-- C77, inversion and the power for square roots: the result may be stored over the argument. -/
theorem C77_powers {n : Nat} {out z : Ptr} (ho : out.1 < n) (hz : z.1 < n) (m : FeMem) {x : F} (h : Rep 3 (m z) x) :
    (Rep 1 (mInvert n out z m out) x⁻¹ ∧ OnlyPlace n out m (mInvert n out z m)) ∧
    (Rep 1 (mPow22523 n out z m out) (x ^ ((p25519 - 5) / 8)) ∧ OnlyPlace n out m (mPow22523 n out z m)) := by
  obtain ⟨h1, h2, _⟩ := C53_powers h
  refine ⟨⟨?_, fun o f hon hne => ?_⟩, ⟨?_, fun o f hon hne => ?_⟩⟩
  · rw [mInvert_apply hz ho, if_pos rfl]; exact h1
  · rw [mInvert_apply hz hon, if_neg hne]
  · rw [mPow22523_apply hz ho, if_pos rfl]; exact h2
  · rw [mPow22523_apply hz hon, if_neg hne]

theorem same_object {n r : Nat} {m m' : FeMem} {e : Ext} (hr : r < n) (h : Same n m' (putExt m r e)) :
    extAt m' r = e ∧ OnlyObject n r m m' :=
  ⟨by rw [h.extAt hr, extAt_put], fun o f ho hne => by rw [h o ho f]; exact put4_ne hne m _ _ _ _ f⟩

/-- C77, points: `GeAdd`, for all objects r, a and b in use, equal or not. -/
theorem C77_add {n r a b : Nat} (hr : r < n) (ha : a < n) (hb : b < n) (m : FeMem) {P Q : Pt25519} (hP : ExtOk (extAt m a) P)
    (hQ : ExtOk (extAt m b) Q) : ExtOk (extAt (mGeAdd n r a b m) r) (P + Q) ∧ OnlyObject n r m (mGeAdd n r a b m) := by
  obtain ⟨h1, h2⟩ := same_object hr (mGeAdd_eq hr ha hb m)
  rw [h1]
  exact ⟨(C55_add_double hP hQ).1, h2⟩

/-- C77, points: `GeDouble`, also in place. -/
theorem C77_double {n r p : Nat} (hr : r < n) (hp : p < n) (m : FeMem) {P : Pt25519} (hP : ExtOk (extAt m p) P) :
    ExtOk (extAt (mGeDouble n r p m) r) (P + P) ∧ OnlyObject n r m (mGeDouble n r p m) := by
  obtain ⟨h1, h2⟩ := same_object hr (mGeDouble_eq hr hp m)
  rw [h1]
  exact ⟨(C55_add_double hP hP).2, h2⟩

/-- C77, points: the three multiplications; `GeScalarMult` also in place. -/
theorem C77_multiples {n r A : Nat} (hr : r < n) (hA : A < n) (m : FeMem) {P : Pt25519} (hP : ExtOk (extAt m A) P) {a b : Bytes}
    (ha : a.length = 32) (hb : b.length = 32) :
    (ExtOk (extAt (mGeScalarMult n r a A m) r) (leNat a • P) ∧ OnlyObject n r m (mGeScalarMult n r a A m)) ∧
    (leNat a < 2 ^ 255 → ExtOk (extAt (mGeScalarMultBase n r a m) r) (leNat a • basePt) ∧ OnlyObject n r m (mGeScalarMultBase n r a m)) ∧
    (∃ m', mGeDoubleScalarMult n r a A b m = some m' ∧ OnlyObject n r m m' ∧
      (leNat a < 2 ^ 255 → leNat b < 2 ^ 255 → PrjOk (prjAt m' r) (leNat a • P + leNat b • basePt))) := by
  refine ⟨?_, fun hl => ?_, ?_⟩
  · obtain ⟨h1, h2⟩ := same_object hr (mGeScalarMult_eq hr hA a m)
    rw [h1]
    exact ⟨C55_scalarMult hP ha, h2⟩
  · obtain ⟨h1, h2⟩ := same_object hr (mGeScalarMultBase_eq hr a m)
    rw [h1]
    exact ⟨C55_scalarMultBase ha hl, h2⟩
  · obtain ⟨p, e1, e2⟩ := C55_doubleScalarMult hP a b
    rcases mGeDoubleScalarMult_eq hr hA a b m with ⟨_, h⟩ | ⟨m', q, h1, h2, h3, h4⟩
    · rw [h] at e1; cases e1
    · rw [h2] at e1
      obtain rfl : q = p := Option.some.inj e1
      refine ⟨m', h1, fun o f ho hne => h4 o ho hne f, fun la lb => ?_⟩
      rw [h3]
      exact e2 ha hb la lb

/-- C77: encoding leaves the point, and everything else in use, as it was (`FeToBytes` and `FeIsNegative`, which it calls, do change their
arguments). -/
theorem C77_toBytes {n p : Nat} (hp : p < n) (m : FeMem) {P : Pt25519} (hP : ExtOk (extAt m p) P ∨ PrjOk (prjAt m p) P) :
    (mGeToBytes n p m).1 = encodePoint P ∧ ∀ o f, o < n → (mGeToBytes n p m).2 (o, f) = m (o, f) := by
  obtain ⟨h1, h2⟩ := mGeToBytes_eq hp m
  refine ⟨?_, fun o f ho => h2 o ho f⟩
  rw [h1]
  rcases hP with h | h
  · exact h.toBytes
  · exact h.toBytes

/-- C77: decoding writes the y-coordinate into the destination first and reads it from there; the result is the one of the function on values
whatever the destination held. -/
theorem C77_fromBytes {n p : Nat} (hp : p < n) (m : FeMem) {s : Bytes} (hs : s.length = 32) :
    ((mGeFromBytes n p s m).1 = true ↔ ∃ g : Pt25519, g.y = ((leNat s % 2 ^ 255 : Nat) : F)) ∧
    ((mGeFromBytes n p s m).1 = true → ∃ g : Pt25519, ExtOk (extAt (mGeFromBytes n p s m).2 p) g ∧ g.y = ((leNat s % 2 ^ 255 : Nat) : F) ∧
      (g.x = 0 ∨ g.x.val % 2 = leNat s / 2 ^ 255)) ∧
    OnlyObject n p m (mGeFromBytes n p s m).2 := by
  obtain ⟨h1, h2⟩ := mGeFromBytes_eq hp s m
  obtain ⟨h3, h4⟩ := same_object hp h2
  obtain ⟨c1, c2, _⟩ := C56_fromBytes (extAt m p) hs
  rw [h1, h3]
  exact ⟨c1, c2, h4⟩

/-- C77: `FromParityAndY` with any pointer to the y-coordinate: to another object or to a field of the destination. -/
theorem C77_fromParityAndY {n p : Nat} (hp : p < n) (m : FeMem) {bit : UInt8} (hbit : bit.toNat < 2) (y : Ptr) {Y : F} (hy : Rep 1 (m y) Y) :
    ((mFromParityAndY n p bit y m).1 = true ↔ ∃ g : Pt25519, g.y = Y) ∧
    ((mFromParityAndY n p bit y m).1 = true → ∃ g : Pt25519, ExtOk (extAt (mFromParityAndY n p bit y m).2 p) g ∧ g.y = Y ∧
      (g.x = 0 ∨ g.x.val % 2 = bit.toNat)) ∧
    OnlyObject n p m (mFromParityAndY n p bit y m).2 := by
  obtain ⟨h1, h2⟩ := mFromParityAndY_eq hp bit y m
  obtain ⟨h3, h4⟩ := same_object hp h2
  have c := fromParityAndY_ok (extAt m p) hbit hy
  rw [h1, h3]
  exact ⟨c.iff, c.ok, h4⟩

/-- C77: `ToExtended`, from projective to extended coordinates. -/
theorem C77_toExtended {n p s : Nat} (hp : p < n) (hs : s < n) (m : FeMem) {P : Pt25519} (hP : PrjOk (prjAt m p) P) :
    ExtOk (extAt (mPrjToExtended n p s m) s) P ∧ OnlyObject n s m (mPrjToExtended n p s m) := by
  obtain ⟨h1, h2⟩ := same_object hs (mPrjToExtended_eq hp hs m)
  rw [h1]
  exact ⟨C56_toExtended hP _, h2⟩

/-- C77, the boundary: `edwardsToMontgomeryX` (unexported, called with different pointers) gives (1 + y) / (1 - y) if the pointers differ;
over its own argument it gives 2 / (1 - y), which is right for no y except 1. -/
theorem C77_montgomery {n : Nat} {outX y : Ptr} (ho : outX.1 < n) (hy : y.1 < n) (m : FeMem) {Y : F} (h : Rep 1 (m y) Y) :
    (outX ≠ y → Rep 1 (mEdwardsToMontgomeryX n outX y m outX) ((1 + Y) / (1 - Y)) ∧ OnlyPlace n outX m (mEdwardsToMontgomeryX n outX y m)) ∧
    (outX = y → Rep 1 (mEdwardsToMontgomeryX n outX y m outX) (2 / (1 - Y)) ∧ (2 / (1 - Y) = (1 + Y) / (1 - Y) ↔ Y = 1)) := by
  refine ⟨fun hne => ?_, fun he => ?_⟩
  · have hs := mEdwardsToMontgomeryX_eq ho hy hne m
    refine ⟨?_, fun o f hon hof => ?_⟩
    · have := hs outX.1 ho outX.2
      rw [show ((outX.1, outX.2) : Ptr) = outX from rfl, put_eq] at this
      rw [this]
      exact edwardsToMontgomeryX_ok h
    · rw [hs o hon f, put_ne hof]
  · subst he
    refine ⟨?_, ?_⟩
    · rw [mEdwardsToMontgomeryX_same hy]
      have h1 : Rep 1 feOne 1 := Rep.one
      have h2 := (C53_sums h1 h1 (by decide) (by decide) (by decide)).1
      have h3 := (C53_sums h1 h (by decide) (by decide) (by decide)).2.1
      have h4 := (C53_powers (h3.mono (show (1 + 1 : Int) ≤ 3 by decide))).1
      have h5 := (C53_products (h2.mono (show (1 + 1 : Int) ≤ 3 by decide)) (h4.mono (show (1 : Int) ≤ 3 by decide))).1
      rw [show (2 : F) / (1 - Y) = (1 + 1) * (1 - Y)⁻¹ by rw [div_eq_mul_inv]; norm_num]
      exact h5
    · constructor
      · intro he
        by_cases h0 : (1 : F) - Y = 0
        · exact (sub_eq_zero.mp h0).symm
        · rw [div_left_inj' h0] at he
          have : Y = 2 - 1 := by rw [he]; ring
          rw [this]; norm_num
      · intro he; rw [he]; simp

/-- C77, scalars: `ScNeg` and `ScMulAdd`, with the result over any operand; other arrays keep their bytes. -/
theorem C77_scalars {s a b c : Nat} (m : Nat → Bytes) (hs : (m s).length = 32) (ha : (m a).length = 32) (hb : (m b).length = 32)
    (hc : (m c).length = 32) :
    (leNat (m a) ≤ ell → mScNeg s a m s = leBytes 32 (ell - leNat (m a))) ∧ (∀ o, o ≠ s → mScNeg s a m o = m o) ∧
    mScMulAdd s a b c m s = leBytes 32 ((leNat (m a) * leNat (m b) + leNat (m c)) % ell) ∧ (∀ o, o ≠ s → mScMulAdd s a b c m o = m o) := by
  rw [mScNeg_eq m ha hs]
  refine ⟨fun h => ?_, fun o ho => if_neg ho, ?_, fun o ho => if_neg ho⟩
  · exact (if_pos rfl).trans ((C54_neg ha).2.1 h).1
  · refine (if_pos rfl).trans ?_
    exact (C54_reduce_muladd (x := List.replicate 64 0) (by simp) ha hb hc).2

/-- a memory whose objects 0 and 1 are the base point -/
def memB : FeMem := fun q =>
  match q.2 with | 0 => extendedBaseEl.X | 1 => extendedBaseEl.Y | 2 => extendedBaseEl.Z | _ => extendedBaseEl.T

theorem memB_ok (o : Nat) : ExtOk (extAt memB o) basePt := extendedBaseEl_ok

/-- a memory full of ones -/
def memOne : FeMem := fun _ => feOne

theorem memOne_rep (q : Ptr) : Rep 1 (memOne q) 1 := Rep.one

/-- `FeAdd`, `FeMul`, `FeSub` with all three pointers equal: 1 + 1, 1 · 1, 1 - 1 -/
example : Rep 2 (mAdd (0, 2) (0, 2) (0, 2) memOne (0, 2)) 2 ∧ Rep 1 (mMul (0, 2) (0, 2) (0, 2) memOne (0, 2)) 1 ∧
    Rep 2 (mSub (0, 2) (0, 2) (0, 2) memOne (0, 2)) 0 := by
  have h := C77_field 1 (0, 2) (0, 2) (0, 2) memOne (memOne_rep _) (memOne_rep _)
  rw [one_add_one_eq_two, mul_one, sub_self] at h
  exact ⟨h.2.1.1, h.1.1, h.2.2.1.1⟩

/-- a conditional move between two objects -/
example : mCMove (0, 2) (1, 2) 1 memOne (0, 2) = memOne (1, 2) := (C77_cmove 2 (0, 2) (1, 2) memOne (memOne_rep _) (memOne_rep _)).2.1

/-- inversion in place -/
example : Rep 1 (mInvert 1 (0, 2) (0, 2) memOne (0, 2)) 1 := by
  have := (C77_powers (n := 1) (out := (0, 2)) (z := (0, 2)) (by decide) (by decide) memOne ((memOne_rep _).mono (by decide))).1.1
  rwa [inv_one] at this

/-- `GeScalarMult` in place: the base point becomes 3 B -/
example : ExtOk (extAt (mGeScalarMult 1 0 (3 :: List.replicate 31 0) 0 memB) 0) (3 • basePt) := by
  have := (C77_multiples (n := 1) (r := 0) (A := 0) (by decide) (by decide) memB (memB_ok 0) (a := 3 :: List.replicate 31 0)
    (b := 3 :: List.replicate 31 0) (by decide) (by decide)).1.1
  rwa [show leNat (3 :: List.replicate 31 0) = 3 by decide +kernel] at this

/-- encoding the base point leaves it there -/
example : (mGeToBytes 1 0 memB).1 = encodePoint basePt ∧ (mGeToBytes 1 0 memB).2 (0, 1) = memB (0, 1) :=
  have h := C77_toBytes (n := 1) (p := 0) (by decide) memB (.inl (memB_ok 0))
  ⟨h.1, h.2 0 1 (by decide)⟩

/-- decoding the base point's bytes over an object that holds another point -/
example : (mGeFromBytes 1 0 (encodePoint basePt) memB).1 = true := by
  refine (C77_fromBytes (n := 1) (p := 0) (by decide) memB (encodePoint_length basePt)).1.mpr ⟨basePt, ?_⟩
  rw [leNat_encode, encNum_mod, ZMod.natCast_zmod_val]

/-- `FromParityAndY` with the y-coordinate 1 taken from a field of the destination: the neutral element -/
example : (mFromParityAndY 1 0 0 (0, 2) memOne).1 = true :=
  (C77_fromParityAndY (n := 1) (p := 0) (by decide) memOne (bit := 0) (by decide) (0, 2) (memOne_rep _)).1.mpr ⟨0, ed_zero_y⟩

/-- `ToExtended` into its own object -/
example : ExtOk (extAt (mPrjToExtended 1 0 0 memB) 0) basePt :=
  (C77_toExtended (n := 1) (p := 0) (s := 0) (by decide) (by decide) memB extendedBaseEl_ok.toProjective).1

/-- `edwardsToMontgomeryX` of y = 0 into another object: 1 -/
example : Rep 1 (mEdwardsToMontgomeryX 2 (1, 0) (0, 0) (fun _ => feZero) (1, 0)) 1 := by
  have := ((C77_montgomery (n := 2) (outX := (1, 0)) (y := (0, 0)) (by decide) (by decide) (fun _ => feZero) Rep.zero).1 (by decide)).1
  rwa [add_zero, sub_zero, div_one] at this

/-- `ScMulAdd` with all arrays the same: 3 · 3 + 3 -/
example : mScMulAdd 0 0 0 0 (fun _ => 3 :: List.replicate 31 0) 0 = 12 :: List.replicate 31 0 := by
  rw [(C77_scalars (s := 0) (a := 0) (b := 0) (c := 0) (fun _ => 3 :: List.replicate 31 0) (by decide) (by decide) (by decide) (by decide)).2.2.1]
  decide +kernel

/-- the base point added to itself in place is 2 B; in place again it is 4 B; the other object still is B -/
example : ExtOk (extAt (mGeAdd 2 0 0 0 (mGeAdd 2 0 0 0 memB)) 0) (basePt + basePt + (basePt + basePt)) ∧
    ExtOk (extAt (mGeAdd 2 0 0 0 memB) 1) basePt := by
  obtain ⟨h1, h2⟩ := C77_add (n := 2) (r := 0) (a := 0) (b := 0) (by decide) (by decide) (by decide) memB (memB_ok 0) (memB_ok 0)
  obtain ⟨h3, _⟩ := C77_add (n := 2) (r := 0) (a := 0) (b := 0) (by decide) (by decide) (by decide) _ h1 h1
  refine ⟨h3, ?_⟩
  have e : extAt (mGeAdd 2 0 0 0 memB) 1 = extAt memB 1 := by
    unfold extAt
    rw [h2 1 0 (by decide) (by decide), h2 1 1 (by decide) (by decide), h2 1 2 (by decide) (by decide), h2 1 3 (by decide) (by decide)]
  rw [e]
  exact memB_ok 1

/-- the three doublings in place of `hashToCurve` (vrf.go:112-114) -/
example : ExtOk (extAt (mGeDouble 1 0 0 (mGeDouble 1 0 0 (mGeDouble 1 0 0 memB))) 0) (8 • basePt) := by
  have h1 := (C77_double (n := 1) (r := 0) (p := 0) (by decide) (by decide) memB (memB_ok 0)).1
  have h2 := (C77_double (n := 1) (r := 0) (p := 0) (by decide) (by decide) _ h1).1
  have h3 := (C77_double (n := 1) (r := 0) (p := 0) (by decide) (by decide) _ h2).1
  have e : 8 • basePt = basePt + basePt + (basePt + basePt) + (basePt + basePt + (basePt + basePt)) := by
    rw [show 8 = 1 + 1 + (1 + 1) + (1 + 1 + (1 + 1)) from rfl]
    simp only [add_nsmul, one_nsmul]
  rw [e]
  exact h3

end Coniks.Props

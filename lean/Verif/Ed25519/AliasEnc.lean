import Verif.Ed25519.AliasGe
/-
Encoding, decoding and the long multiplications through pointers (C77).
-/
namespace Coniks.Ed

attribute [local irreducible] feMul feSquare feSquare2 feAdd feSub feNeg feCMove feToBytes feIsNegative feIsNonZero feFromBytes
  feInvert fePow22523

theorem Same.putPtr {n : Nat} {q : Ptr} {m m' : FeMem} (h : Same n m m') (hq : n ≤ q.1) (x : Fe) : Same n (m.put q x) m' := fun o ho f => by
  rw [put_ne (fun e => by rw [← e] at hq; simp at hq; omega), h o ho f]

theorem mInvert_same {n : Nat} {out z : Ptr} (hz : z.1 < n) (m : FeMem) : Same n (mInvert n out z m) (m.put out (feInvert (m z))) :=
  fun o ho f => by rw [mInvert_apply hz (show (o, f).1 < n from ho), put_apply]

theorem mPow22523_same {n : Nat} {out z : Ptr} (hz : z.1 < n) (m : FeMem) : Same n (mPow22523 n out z m) (m.put out (fePow22523 (m z))) :=
  fun o ho f => by rw [mPow22523_apply hz (show (o, f).1 < n from ho), put_apply]

theorem mGeToBytes_eq {n p : Nat} (hp : p < n) (m : FeMem) :
    (mGeToBytes n p m).1 = geEncode (m (p, 0)) (m (p, 1)) (m (p, 2)) ∧ Same n (mGeToBytes n p m).2 m := by
  have h := mInvert_same (n := n + 3) (out := (n, 0)) (z := (p, 2)) (show p < n + 3 by omega) m
  unfold mGeToBytes
  generalize mInvert (n + 3) (n, 0) (p, 2) m = m1 at h ⊢
  have a0 : m1 (n, 0) = feInvert (m (p, 2)) := by rw [h n (by omega), put_eq]
  have a1 : ∀ f, m1 (p, f) = m (p, f) := fun f => by rw [h p (by omega), put_apply2, if_neg (by omega)]
  have hs : Same n m1 m := (h.mono (by omega)).trans ((Same.refl n m).putPtr (Nat.le_refl _) _)
  have n1 : p ≠ n := by omega
  have n2 : p ≠ n + 1 := by omega
  have n3 : p ≠ n + 2 := by omega
  refine ⟨?_, ?_⟩
  · simp [mMul, mToBytes, mIsNegative, put_apply2, a0, a1, n1, n2, n3, geEncode]
  · simp only [mMul, mToBytes, mIsNegative]
    exact ((((hs.put (by omega) _).put (by omega) _).put (by omega) _).put (by omega) _)
/-- a memory in which the first three fields of `p` and the five variables of `FromParityAndY` are set -/
def withY (m : FeMem) (n p : Nat) (X Y Z u v v3 vxx ck : Fe) : FeMem :=
  (((((put3 m p X Y Z).put (n, 0) u).put (n + 1, 0) v).put (n + 2, 0) v3).put (n + 3, 0) vxx).put (n + 4, 0) ck

theorem withY_self (m : FeMem) (n p : Nat) :
    m = withY m n p (m (p, 0)) (m (p, 1)) (m (p, 2)) (m (n, 0)) (m (n + 1, 0)) (m (n + 2, 0)) (m (n + 3, 0)) (m (n + 4, 0)) := by
  unfold withY put3
  rw [put_self, put_self, put_self, put_self, put_self, put_self, put_self, put_self]

section
variable {n p : Nat} (hp : p < n) (m : FeMem) (X Y Z u v v3 vxx ck w : Fe)
include hp
theorem withY_X : withY m n p X Y Z u v v3 vxx ck (p, 0) = X := by
  simp [withY, put3, put_apply2, show p ≠ n by omega, show p ≠ n + 1 by omega, show p ≠ n + 2 by omega, show p ≠ n + 3 by omega, show p ≠ n + 4 by omega]
theorem withY_Y : withY m n p X Y Z u v v3 vxx ck (p, 1) = Y := by
  simp [withY, put3, put_apply2, show p ≠ n by omega, show p ≠ n + 1 by omega, show p ≠ n + 2 by omega, show p ≠ n + 3 by omega, show p ≠ n + 4 by omega]
theorem withY_Z : withY m n p X Y Z u v v3 vxx ck (p, 2) = Z := by
  simp [withY, put3, put_apply2, show p ≠ n by omega, show p ≠ n + 1 by omega, show p ≠ n + 2 by omega, show p ≠ n + 3 by omega, show p ≠ n + 4 by omega]
theorem withY_u : withY m n p X Y Z u v v3 vxx ck (n, 0) = u := by
  simp [withY, put3, put_apply2]
theorem withY_v : withY m n p X Y Z u v v3 vxx ck (n + 1, 0) = v := by
  simp [withY, put3, put_apply2]
theorem withY_v3 : withY m n p X Y Z u v v3 vxx ck (n + 2, 0) = v3 := by
  simp [withY, put3, put_apply2]
theorem withY_vxx : withY m n p X Y Z u v v3 vxx ck (n + 3, 0) = vxx := by
  simp [withY, put3, put_apply2]
theorem withY_ck : withY m n p X Y Z u v v3 vxx ck (n + 4, 0) = ck := by
  simp [withY, put3, put_apply2]
theorem withY_putX : (withY m n p X Y Z u v v3 vxx ck).put (p, 0) w = withY m n p w Y Z u v v3 vxx ck := by
  funext q; simp only [withY, put3, put_apply]; by_cases h : q = (p, 0) <;>
    simp [h, show p ≠ n by omega, show p ≠ n + 1 by omega, show p ≠ n + 2 by omega, show p ≠ n + 3 by omega, show p ≠ n + 4 by omega]
theorem withY_putY : (withY m n p X Y Z u v v3 vxx ck).put (p, 1) w = withY m n p X w Z u v v3 vxx ck := by
  funext q; simp only [withY, put3, put_apply]; by_cases h : q = (p, 1) <;>
    simp [h, show p ≠ n by omega, show p ≠ n + 1 by omega, show p ≠ n + 2 by omega, show p ≠ n + 3 by omega, show p ≠ n + 4 by omega]
theorem withY_putZ : (withY m n p X Y Z u v v3 vxx ck).put (p, 2) w = withY m n p X Y w u v v3 vxx ck := by
  funext q; simp only [withY, put3, put_apply]; by_cases h : q = (p, 2) <;>
    simp [h, show p ≠ n by omega, show p ≠ n + 1 by omega, show p ≠ n + 2 by omega, show p ≠ n + 3 by omega, show p ≠ n + 4 by omega]
theorem withY_putu : (withY m n p X Y Z u v v3 vxx ck).put (n, 0) w = withY m n p X Y Z w v v3 vxx ck := by
  funext q; simp only [withY, put3, put_apply]; by_cases h : q = (n, 0) <;> simp [h]
theorem withY_putv : (withY m n p X Y Z u v v3 vxx ck).put (n + 1, 0) w = withY m n p X Y Z u w v3 vxx ck := by
  funext q; simp only [withY, put3, put_apply]; by_cases h : q = (n + 1, 0) <;> simp [h]
theorem withY_putv3 : (withY m n p X Y Z u v v3 vxx ck).put (n + 2, 0) w = withY m n p X Y Z u v w vxx ck := by
  funext q; simp only [withY, put3, put_apply]; by_cases h : q = (n + 2, 0) <;> simp [h]
theorem withY_putvxx : (withY m n p X Y Z u v v3 vxx ck).put (n + 3, 0) w = withY m n p X Y Z u v v3 w ck := by
  funext q; simp only [withY, put3, put_apply]; by_cases h : q = (n + 3, 0) <;> simp [h]
theorem withY_putck : (withY m n p X Y Z u v v3 vxx ck).put (n + 4, 0) w = withY m n p X Y Z u v v3 vxx w := by
  funext q; simp only [withY, put3, put_apply]; by_cases h : q = (n + 4, 0) <;> simp [h]
omit hp in
theorem withY_same (T : Fe) : Same n ((withY m n p X Y Z u v v3 vxx ck).put (p, 3) T) (put4 m p X Y Z T) := fun o ho f => by
  simp only [withY, put_apply2, put4, put3]
  simp [show o ≠ n by omega, show o ≠ n + 1 by omega, show o ≠ n + 2 by omega, show o ≠ n + 3 by omega, show o ≠ n + 4 by omega]
omit hp in
theorem withY_same3 : Same n (withY m n p X Y Z u v v3 vxx ck) (put4 m p X Y Z (m (p, 3))) := fun o ho f => by
  simp only [withY, put_apply2, put4, put3]
  simp [show o ≠ n by omega, show o ≠ n + 1 by omega, show o ≠ n + 2 by omega, show o ≠ n + 3 by omega, show o ≠ n + 4 by omega]
  intro h1 h2
  rw [h1, h2]
  simp
end

/-- after a step that keeps the objects in use, the variables may be read from the memory before -/
theorem withY_of_same {n p : Nat} (hp : p < n) {m m' : FeMem} {X Y Z u v v3 vxx ck : Fe}
    (h : Same (n + 5) m' (withY m n p X Y Z u v v3 vxx ck)) : m' = withY m' n p X Y Z u v v3 vxx ck := by
  have e := withY_self m' n p
  rw [h p (by omega), h p (by omega), h p (by omega), h n (by omega), h (n + 1) (by omega), h (n + 2) (by omega), h (n + 3) (by omega),
    h (n + 4) (by omega), withY_X hp, withY_Y hp, withY_Z hp, withY_u hp, withY_v hp, withY_v3 hp, withY_vxx hp, withY_ck hp] at e
  exact e

/-- two memories that agree on the objects in use but for the first three fields of `p` -/
def Off (n p : Nat) (M m : FeMem) : Prop := ∀ o f, o < n → (o ≠ p ∨ 3 ≤ f) → M (o, f) = m (o, f)

theorem Off.put4 {n p : Nat} {M m : FeMem} (h : Off n p M m) (X Y Z T : Fe) : Same n (Ed.put4 M p X Y Z T) (Ed.put4 m p X Y Z T) := by
  intro o ho f
  simp only [Ed.put4, put_apply2]
  by_cases h3 : o = p ∧ f = 3
  · rw [if_pos h3, if_pos h3]
  by_cases h2 : o = p ∧ f = 2
  · rw [if_neg h3, if_neg h3, if_pos h2, if_pos h2]
  by_cases h1 : o = p ∧ f = 1
  · rw [if_neg h3, if_neg h3, if_neg h2, if_neg h2, if_pos h1, if_pos h1]
  by_cases h0 : o = p ∧ f = 0
  · rw [if_neg h3, if_neg h3, if_neg h2, if_neg h2, if_neg h1, if_neg h1, if_pos h0, if_pos h0]
  rw [if_neg h3, if_neg h3, if_neg h2, if_neg h2, if_neg h1, if_neg h1, if_neg h0, if_neg h0]
  exact h o f ho (by omega)

theorem withY_off {n p : Nat} (m : FeMem) (X Y Z u v v3 vxx ck : Fe) : Off n p (withY m n p X Y Z u v v3 vxx ck) m := by
  intro o f ho hf
  simp only [withY, put_apply2, put3]
  simp only [show ¬ (o = n ∧ f = 0) by omega, show ¬ (o = n + 1 ∧ f = 0) by omega, show ¬ (o = n + 2 ∧ f = 0) by omega,
    show ¬ (o = n + 3 ∧ f = 0) by omega, show ¬ (o = n + 4 ∧ f = 0) by omega, show ¬ (o = p ∧ f = 0) by omega, show ¬ (o = p ∧ f = 1) by omega,
    show ¬ (o = p ∧ f = 2) by omega, if_false]

theorem Off.trans {n p : Nat} {a b c : FeMem} (h : Off n p a b) (h' : Off n p b c) : Off n p a c := fun o f ho hf =>
  (h o f ho hf).trans (h' o f ho hf)

theorem mFromParityAndY_eq {n p : Nat} (hp : p < n) (bit : UInt8) (y : Ptr) (m : FeMem) :
    (mFromParityAndY n p bit y m).1 = (fromParityAndY (extAt m p) bit (m y)).1 ∧
      Same n (mFromParityAndY n p bit y m).2 (putExt m p (fromParityAndY (extAt m p) bit (m y)).2) := by
  unfold mFromParityAndY
  simp only [mCopy_eq, mOne_eq]
  have a0 : Off n p ((m.put (p, 1) (m y)).put (p, 2) feOne) m := fun o f ho hf => by
    simp only [put_apply2, show ¬ (o = p ∧ f = 1) by omega, show ¬ (o = p ∧ f = 2) by omega, if_false]
  have a1 : ((m.put (p, 1) (m y)).put (p, 2) feOne) (p, 1) = m y := by simp [put_apply2]
  have a2 : ((m.put (p, 1) (m y)).put (p, 2) feOne) (p, 2) = feOne := put_eq _ _ _
  generalize (m.put (p, 1) (m y)).put (p, 2) feOne = M at a0 a1 a2 ⊢
  generalize m y = Y at a1 ⊢
  have e := withY_self M n p
  rw [a1, a2] at e
  generalize hM : withY M n p (M (p, 0)) Y feOne (M (n, 0)) (M (n + 1, 0)) (M (n + 2, 0)) (M (n + 3, 0)) (M (n + 4, 0)) = M1 at e
  subst e
  rw [← hM]
  simp only [mSquare, mMul, mMulC, mSub_eq, mAdd_eq, withY_X hp, withY_Y hp, withY_Z hp, withY_u hp, withY_v hp, withY_v3 hp, withY_vxx hp,
    withY_ck hp, withY_putX hp, withY_putu hp, withY_putv hp, withY_putv3 hp]
  have hpow := mPow22523_same (n := n + 5) (out := (p, 0)) (z := (p, 0)) (show p < n + 5 by omega)
    (withY M n p (feMul (feMul (feSquare (feMul (feSquare (feAdd (feMul (feSquare Y) feD) feOne)) (feAdd (feMul (feSquare Y) feD) feOne)))
      (feAdd (feMul (feSquare Y) feD) feOne)) (feSub (feSquare Y) feOne)) Y feOne (feSub (feSquare Y) feOne)
      (feAdd (feMul (feSquare Y) feD) feOne) (feMul (feSquare (feAdd (feMul (feSquare Y) feD) feOne))
      (feAdd (feMul (feSquare Y) feD) feOne)) (M (n + 3, 0)) (M (n + 4, 0)))
  rw [withY_X hp, withY_putX hp] at hpow
  generalize hP : mPow22523 (n + 5) (p, 0) (p, 0) _ = P at hpow ⊢
  have b0 : Off n p P m := by
    intro o f ho hf
    rw [hpow o (by omega) f, withY_off M _ _ _ _ _ _ _ _ o f ho hf, a0 o f ho hf]
  have hPe := withY_of_same hp hpow
  clear hpow hP
  simp only [fromParityAndY]
  generalize fePow22523 _ = W at hPe ⊢
  generalize hu : feSub (feSquare Y) feOne = u at hPe ⊢
  generalize hv : feAdd (feMul (feSquare Y) feD) feOne = v at hPe ⊢
  generalize hv3 : feMul (feSquare v) v = v3 at hPe ⊢
  rw [hPe]
  simp only [withY_X hp, withY_Y hp, withY_Z hp, withY_u hp, withY_v hp, withY_v3 hp, withY_vxx hp,
    withY_ck hp, withY_putX hp, withY_putu hp, withY_putv hp, withY_putv3 hp, withY_putvxx hp, withY_putck hp, mIsNonZero, mIsNegative, mToBytes]
  clear hM hPe
  generalize feMul (feMul W v3) u = X
  generalize feMul (feSquare X) v = vxx
  have fin : ∀ (X' ck : Fe) (b : Bool),
      Same n ((if b then mNeg (p, 0) (p, 0) (withY P n p X' Y feOne u v v3 vxx ck) else withY P n p X' Y feOne u v v3 vxx ck).put (p, 3)
        (feMul ((if b then mNeg (p, 0) (p, 0) (withY P n p X' Y feOne u v v3 vxx ck) else withY P n p X' Y feOne u v v3 vxx ck) (p, 0))
          ((if b then mNeg (p, 0) (p, 0) (withY P n p X' Y feOne u v v3 vxx ck) else withY P n p X' Y feOne u v v3 vxx ck) (p, 1))))
        (putExt m p ⟨if b then feNeg X' else X', Y, feOne, feMul (if b then feNeg X' else X') Y⟩) := by
    intro X' ck b
    cases b
    · simp only [Bool.false_eq_true, if_false]
      rw [withY_X hp, withY_Y hp]
      exact (withY_same P _ _ _ _ _ _ _ _ _).trans (b0.put4 _ _ _ _)
    · simp only [if_true]
      rw [mNeg_eq, withY_X hp, withY_putX hp, withY_X hp, withY_Y hp]
      exact (withY_same P _ _ _ _ _ _ _ _ _).trans (b0.put4 _ _ _ _)
  by_cases c1 : (feIsNonZero (feSub vxx u)).1 = 1
  · by_cases c2 : (feIsNonZero (feAdd vxx u)).1 = 1
    · simp only [c1, c2, if_true]
      refine ⟨by simp, ?_⟩
      simp
      refine (withY_same3 P _ _ _ _ _ _ _ _).trans ?_
      rw [b0 p 3 hp (Or.inr (Nat.le_refl _))]
      exact b0.put4 _ _ _ _
    · simp only [c1, c2, if_true, if_false]
      have d2 : ((feIsNonZero (feAdd vxx u)).1 != 1) = true := by simp [c2]
      simp only [d2, bne_self_eq_false, Bool.not_true, Bool.and_false, Bool.false_eq_true, if_false]
      exact ⟨trivial, fin _ _ _⟩
  · have d1 : ((feIsNonZero (feSub vxx u)).1 != 1) = true := by simp [c1]
    simp only [c1, d1, if_false, Bool.not_true, Bool.false_and, Bool.false_eq_true, if_true]
    exact ⟨trivial, fin _ _ _⟩

theorem mGeFromBytes_eq {n p : Nat} (hp : p < n) (s : Bytes) (m : FeMem) :
    (mGeFromBytes n p s m).1 = (fromBytes (extAt m p) s).1 ∧
      Same n (mGeFromBytes n p s m).2 (putExt m p (fromBytes (extAt m p) s).2) := by
  have h := mFromParityAndY_eq hp (s.getD 31 0 >>> 7) (p, 1) (mFromBytes (p, 1) s m)
  have e1 : mFromBytes (p, 1) s m (p, 1) = feFromBytes s := put_eq _ _ _
  rw [e1] at h
  have e2 : ∀ (A B : Ext), A.T = B.T → fromParityAndY A (s.getD 31 0 >>> 7) (feFromBytes s) = fromParityAndY B (s.getD 31 0 >>> 7) (feFromBytes s) := by
    intro A B hAB
    simp only [fromParityAndY, hAB]
  rw [e2 _ (extAt m p) (by simp [extAt, mFromBytes, put_apply2])] at h
  refine ⟨h.1, h.2.trans (Off.put4 (fun o f ho hf => ?_) _ _ _ _)⟩
  rw [mFromBytes, put_apply2, if_neg (by omega)]

theorem toExtended_call (p : Prj) (s : Ext) : p.toExtended s = destOf (fromBytes s (geEncode p.X p.Y p.Z)) := by
  unfold Prj.toExtended Prj.toBytes
  rfl

theorem memOf_destOf {n s : Nat} {R : Bool × FeMem} {S : Bool × Ext} {m : FeMem} (h : Same n R.2 (putExt m s S.2)) :
    Same n (memOf R) (putExt m s (destOf S)) := h

theorem mPrjToExtended_eq {n p s : Nat} (hp : p < n) (hs : s < n) (m : FeMem) :
    Same n (mPrjToExtended n p s m) (putExt m s ((prjAt m p).toExtended (extAt m s))) := by
  unfold mPrjToExtended
  obtain ⟨h1, h2⟩ := mGeToBytes_eq hp m
  rw [toExtended_call]
  generalize mGeToBytes n p m = B at h1 h2 ⊢
  obtain ⟨bs, M⟩ := B
  have h1' : bs = geEncode (m (p, 0)) (m (p, 1)) (m (p, 2)) := h1
  have h2' : Same n M m := h2
  have h3 := memOf_destOf (mGeFromBytes_eq hs bs M).2
  rw [h2'.extAt hs, h1'] at h3
  have e : geEncode (m (p, 0)) (m (p, 1)) (m (p, 2)) = geEncode (prjAt m p).X (prjAt m p).Y (prjAt m p).Z := by
    unfold prjAt; rfl
  dsimp only
  rw [← e]
  rw [h1']
  generalize destOf (fromBytes (extAt m s) _) = R at h3 ⊢
  exact h3.trans (h2'.both4 _ _ _ _)

end Coniks.Ed

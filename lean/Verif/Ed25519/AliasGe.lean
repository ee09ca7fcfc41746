import Verif.Ed25519.AliasFe
/-
Group elements through pointers (C77).
-/
namespace Coniks.Ed

attribute [local irreducible] feMul feSquare feSquare2 feAdd feSub feNeg feCMove feToBytes feIsNegative feIsNonZero feFromBytes

/-- all four fields of an object set -/
def put4 (m : FeMem) (o : Nat) (a b c d : Fe) : FeMem := (((m.put (o, 0) a).put (o, 1) b).put (o, 2) c).put (o, 3) d

/-- the first three fields of an object set -/
def put3 (m : FeMem) (o : Nat) (a b c : Fe) : FeMem := ((m.put (o, 0) a).put (o, 1) b).put (o, 2) c

def putExt (m : FeMem) (o : Nat) (e : Ext) : FeMem := put4 m o e.X e.Y e.Z e.T
def putCmp (m : FeMem) (o : Nat) (e : Cmp) : FeMem := put4 m o e.X e.Y e.Z e.T
def putCch (m : FeMem) (o : Nat) (e : Cch) : FeMem := put4 m o e.yPlusX e.yMinusX e.Z e.T2d
def putPrj (m : FeMem) (o : Nat) (e : Prj) : FeMem := put3 m o e.X e.Y e.Z
def putPre (m : FeMem) (o : Nat) (e : Pre) : FeMem := put3 m o e.yPlusX e.yMinusX e.xy2d

theorem put_apply2 (m : FeMem) (o f o' f' : Nat) (x : Fe) :
    m.put (o, f) x (o', f') = if o' = o ∧ f' = f then x else m (o', f') := by
  rw [put_apply]; simp only [Prod.mk.injEq]

theorem put4_ne {o o' : Nat} (h : o' ≠ o) (m : FeMem) (a b c d : Fe) (f : Nat) : put4 m o a b c d (o', f) = m (o', f) := by
  simp [put4, put_apply2, h]
theorem put3_ne {o o' : Nat} (h : o' ≠ o) (m : FeMem) (a b c : Fe) (f : Nat) : put3 m o a b c (o', f) = m (o', f) := by
  simp [put3, put_apply2, h]

theorem extAt_put (m : FeMem) (o : Nat) (e : Ext) : extAt (putExt m o e) o = e := by simp [extAt, putExt, put4, put_apply2]
theorem cmpAt_put (m : FeMem) (o : Nat) (e : Cmp) : cmpAt (putCmp m o e) o = e := by simp [cmpAt, putCmp, put4, put_apply2]
theorem cchAt_put (m : FeMem) (o : Nat) (e : Cch) : cchAt (putCch m o e) o = e := by simp [cchAt, putCch, put4, put_apply2]
theorem prjAt_put (m : FeMem) (o : Nat) (e : Prj) : prjAt (putPrj m o e) o = e := by simp [prjAt, putPrj, put3, put_apply2]
theorem preAt_put (m : FeMem) (o : Nat) (e : Pre) : preAt (putPre m o e) o = e := by simp [preAt, putPre, put3, put_apply2]

/-- two memories that agree on an object -/
def AgreeAt (m m' : FeMem) (o : Nat) : Prop := ∀ f, m (o, f) = m' (o, f)

theorem AgreeAt.ext {m m' : FeMem} {o : Nat} (h : AgreeAt m m' o) : extAt m o = extAt m' o := by simp [extAt, h _]
theorem AgreeAt.cmp {m m' : FeMem} {o : Nat} (h : AgreeAt m m' o) : cmpAt m o = cmpAt m' o := by simp [cmpAt, h _]
theorem AgreeAt.cch {m m' : FeMem} {o : Nat} (h : AgreeAt m m' o) : cchAt m o = cchAt m' o := by simp [cchAt, h _]
theorem AgreeAt.prj {m m' : FeMem} {o : Nat} (h : AgreeAt m m' o) : prjAt m o = prjAt m' o := by simp [prjAt, h _]
theorem AgreeAt.pre {m m' : FeMem} {o : Nat} (h : AgreeAt m m' o) : preAt m o = preAt m' o := by simp [preAt, h _]
theorem AgreeAt.trans {a b c : FeMem} {o : Nat} (h : AgreeAt a b o) (h' : AgreeAt b c o) : AgreeAt a c o := fun f => (h f).trans (h' f)

theorem agree_put4 {o o' : Nat} (h : o' ≠ o) (m : FeMem) (a b c d : Fe) : AgreeAt (put4 m o a b c d) m o' := put4_ne h m a b c d
theorem agree_put3 {o o' : Nat} (h : o' ≠ o) (m : FeMem) (a b c : Fe) : AgreeAt (put3 m o a b c) m o' := put3_ne h m a b c
theorem agree_put {o o' f : Nat} (h : o' ≠ o) (m : FeMem) (x : Fe) : AgreeAt (m.put (o, f) x) m o' := fun g => by simp [put_apply2, h]

/-! ### the pieces -/

theorem mPrjZero_eq (p : Nat) (m : FeMem) : mPrjZero p m = putPrj m p Prj.zero := by
  simp only [mPrjZero, mOne_eq, mZero_eq]; rfl
theorem mExtZero_eq (p : Nat) (m : FeMem) : mExtZero p m = putExt m p Ext.zero := by
  simp only [mExtZero, mOne_eq, mZero_eq]; rfl
theorem mPreZero_eq (p : Nat) (m : FeMem) : mPreZero p m = putPre m p Pre.zero := by
  simp only [mPreZero, mOne_eq, mZero_eq]; rfl

theorem mExtToProjective_eq {p r : Nat} (h : p ≠ r) (m : FeMem) : mExtToProjective p r m = putPrj m r (extAt m p).toProjective := by
  simp [mExtToProjective, mCopy_eq, putPrj, put3, put_apply2, h, extAt, Ext.toProjective]

theorem mCmpToProjective_eq {p r : Nat} (h : p ≠ r) (m : FeMem) : mCmpToProjective p r m = putPrj m r (cmpAt m p).toProjective := by
  simp [mCmpToProjective, mMul, putPrj, put3, put_apply2, h, cmpAt, Cmp.toProjective]

theorem mCmpToExtended_eq {p r : Nat} (h : p ≠ r) (m : FeMem) : mCmpToExtended p r m = putExt m r (cmpAt m p).toExtended := by
  simp [mCmpToExtended, mMul, putExt, put4, put_apply2, h, cmpAt, Cmp.toExtended]

theorem mToCached_eq {p r : Nat} (h : p ≠ r) (m : FeMem) : mToCached p r m = putCch m r (extAt m p).toCached := by
  simp [mToCached, mAdd_eq, mSub_eq, mCopy_eq, mMulC, putCch, put4, put_apply2, h, extAt, Ext.toCached]

theorem mExtCopy_eq {t u : Nat} (h : u ≠ t) (m : FeMem) : mExtCopy t u m = putExt m t (extAt m u) := by
  simp [mExtCopy, mCopy_eq, putExt, put4, put_apply2, h, extAt]

theorem mExtCMove_eq {t u : Nat} (h : u ≠ t) (b : Int) (m : FeMem) : mExtCMove t u b m = putExt m t (extCMove (extAt m t) (extAt m u) b) := by
  simp [mExtCMove, mCMove_eq, putExt, put4, put_apply2, h, extAt, extCMove]

/-- splits on the object and the field looked at -/
macro "fields" o:ident f:ident r:term : tactic => `(tactic| (
  by_cases ho : $o = $r
  · subst ho
    by_cases h3 : $f = 3
    · simp [h3]
    by_cases h2 : $f = 2
    · simp [h2]
    by_cases h1 : $f = 1
    · simp [h1]
    by_cases h0 : $f = 0
    · simp [h0]
    simp [h0, h1, h2, h3]
  · simp [ho]))

theorem mPrjDouble_eq {n p r : Nat} (h : p ≠ r) (hr : r ≠ n) (m : FeMem) :
    ∃ x, mPrjDouble n p r m = putCmp (m.put (n, 0) x) r (prjAt m p).double := by
  refine ⟨feSquare (feAdd (m (p, 0)) (m (p, 1))), ?_⟩
  funext ⟨o, f⟩
  simp only [mPrjDouble, mAdd_eq, mSub_eq, mSquare, mSquare2, putCmp, put4, put_apply2, prjAt, Prj.double]
  simp [h, hr, hr.symm]
  fields o f r

theorem mGeAddC_eq {n p q r : Nat} (hp : p ≠ r) (hq : q ≠ r) (hr : r ≠ n) (m : FeMem) :
    ∃ x, mGeAddC n r p q m = putCmp (m.put (n, 0) x) r (geAddC (extAt m p) (cchAt m q)) := by
  refine ⟨feAdd (feMul (m (p, 2)) (m (q, 2))) (feMul (m (p, 2)) (m (q, 2))), ?_⟩
  funext ⟨o, f⟩
  simp only [mGeAddC, mAdd_eq, mSub_eq, mMul, putCmp, put4, put_apply2, extAt, cchAt, geAddC]
  simp [hp, hq, hr, hr.symm]
  fields o f r

theorem mGeSubC_eq {n p q r : Nat} (hp : p ≠ r) (hq : q ≠ r) (hr : r ≠ n) (m : FeMem) :
    ∃ x, mGeSubC n r p q m = putCmp (m.put (n, 0) x) r (geSubC (extAt m p) (cchAt m q)) := by
  refine ⟨feAdd (feMul (m (p, 2)) (m (q, 2))) (feMul (m (p, 2)) (m (q, 2))), ?_⟩
  funext ⟨o, f⟩
  simp only [mGeSubC, mAdd_eq, mSub_eq, mMul, putCmp, put4, put_apply2, extAt, cchAt, geSubC]
  simp [hp, hq, hr, hr.symm]
  fields o f r

theorem mGeMixedAdd_eq {n p q r : Nat} (hp : p ≠ r) (hq : q ≠ r) (hr : r ≠ n) (m : FeMem) :
    ∃ x, mGeMixedAdd n r p q m = putCmp (m.put (n, 0) x) r (geMixedAdd (extAt m p) (preAt m q)) := by
  refine ⟨feAdd (m (p, 2)) (m (p, 2)), ?_⟩
  funext ⟨o, f⟩
  simp only [mGeMixedAdd, mAdd_eq, mSub_eq, mMul, putCmp, put4, put_apply2, extAt, preAt, geMixedAdd]
  simp [hp, hq, hr, hr.symm]
  fields o f r

theorem mGeMixedSub_eq {n p q r : Nat} (hp : p ≠ r) (hq : q ≠ r) (hr : r ≠ n) (m : FeMem) :
    ∃ x, mGeMixedSub n r p q m = putCmp (m.put (n, 0) x) r (geMixedSub (extAt m p) (preAt m q)) := by
  refine ⟨feAdd (m (p, 2)) (m (p, 2)), ?_⟩
  funext ⟨o, f⟩
  simp only [mGeMixedSub, mAdd_eq, mSub_eq, mMul, putCmp, put4, put_apply2, extAt, preAt, geMixedSub]
  simp [hp, hq, hr, hr.symm]
  fields o f r

/-- two memories that agree on the objects in use -/
def Same (n : Nat) (m m' : FeMem) : Prop := ∀ o, o < n → AgreeAt m m' o

theorem Same.refl (n : Nat) (m : FeMem) : Same n m m := fun _ _ _ => rfl
theorem Same.trans {n : Nat} {a b c : FeMem} (h : Same n a b) (h' : Same n b c) : Same n a c := fun o ho => (h o ho).trans (h' o ho)
theorem Same.mono {n k : Nat} {a b : FeMem} (h : Same n a b) (hk : k ≤ n) : Same k a b := fun o ho => h o (Nat.lt_of_lt_of_le ho hk)
theorem Same.put4 {n r : Nat} {m m' : FeMem} (h : Same n m m') (hr : n ≤ r) (a b c d : Fe) : Same n (put4 m r a b c d) m' := fun o ho =>
  (agree_put4 (by omega) m a b c d).trans (h o ho)
theorem Same.put3 {n r : Nat} {m m' : FeMem} (h : Same n m m') (hr : n ≤ r) (a b c : Fe) : Same n (put3 m r a b c) m' := fun o ho =>
  (agree_put3 (by omega) m a b c).trans (h o ho)
theorem Same.put {n r f : Nat} {m m' : FeMem} (h : Same n m m') (hr : n ≤ r) (x : Fe) : Same n (m.put (r, f) x) m' := fun o ho =>
  (agree_put (by omega) m x).trans (h o ho)
theorem Same.both4 {n r : Nat} {m m' : FeMem} (h : Same n m m') (a b c d : Fe) : Same n (Ed.put4 m r a b c d) (Ed.put4 m' r a b c d) :=
  fun o ho f => by simp only [Ed.put4, put_apply2, h o ho f]
theorem Same.both3 {n r : Nat} {m m' : FeMem} (h : Same n m m') (a b c : Fe) : Same n (Ed.put3 m r a b c) (Ed.put3 m' r a b c) :=
  fun o ho f => by simp only [Ed.put3, put_apply2, h o ho f]

theorem mExtDouble_eq {n p r : Nat} (hp : p < n) (hr : r < n) (m : FeMem) :
    Same n (mExtDouble n p r m) (putCmp m r (extAt m p).double) := by
  unfold mExtDouble
  simp only
  rw [mExtToProjective_eq (by omega)]
  obtain ⟨x, h⟩ := mPrjDouble_eq (n := n + 1) (p := n) (r := r) (by omega) (by omega) (putPrj m n (extAt m p).toProjective)
  rw [h, prjAt_put]
  exact (((Same.refl n m).put3 (by omega) _ _ _).put (by omega) _).both4 _ _ _ _

theorem mGeDouble_eq {n r p : Nat} (hr : r < n) (hp : p < n) (m : FeMem) :
    Same n (mGeDouble n r p m) (putExt m r (geDouble (extAt m p))) := by
  unfold mGeDouble
  simp only
  rw [mExtToProjective_eq (by omega)]
  obtain ⟨x, h⟩ := mPrjDouble_eq (n := n + 2) (p := n) (r := n + 1) (by omega) (by omega) (putPrj m n (extAt m p).toProjective)
  rw [h, prjAt_put, mCmpToExtended_eq (by omega), cmpAt_put]
  exact ((((Same.refl n m).put3 (by omega) _ _ _).put (by omega) _).put4 (by omega) _ _ _ _).both4 _ _ _ _

theorem mGeAdd_eq {n r a b : Nat} (hr : r < n) (ha : a < n) (hb : b < n) (m : FeMem) :
    Same n (mGeAdd n r a b m) (putExt m r (geAdd (extAt m a) (extAt m b))) := by
  unfold mGeAdd
  simp only
  rw [mToCached_eq (by omega)]
  obtain ⟨x, h⟩ := mGeAddC_eq (n := n + 2) (p := a) (q := n) (r := n + 1) (by omega) (by omega) (by omega) (putCch m n (extAt m b).toCached)
  rw [h, cchAt_put, mCmpToExtended_eq (by omega), cmpAt_put, show extAt (putCch m n (extAt m b).toCached) a = extAt m a from (agree_put4 (by omega) m _ _ _ _).ext]
  exact ((((Same.refl n m).put4 (by omega) _ _ _ _).put (by omega) _).put4 (by omega) _ _ _ _).both4 _ _ _ _

/-- what a function that stores into `r` reads from other objects does not depend on the objects not in use -/
theorem Same.extAt {n o : Nat} {m m' : FeMem} (h : Same n m m') (ho : o < n) : extAt m o = Ed.extAt m' o := (h o ho).ext
theorem Same.cmpAt {n o : Nat} {m m' : FeMem} (h : Same n m m') (ho : o < n) : cmpAt m o = Ed.cmpAt m' o := (h o ho).cmp
theorem Same.prjAt {n o : Nat} {m m' : FeMem} (h : Same n m m') (ho : o < n) : prjAt m o = Ed.prjAt m' o := (h o ho).prj
theorem Same.preAt {n o : Nat} {m m' : FeMem} (h : Same n m m') (ho : o < n) : preAt m o = Ed.preAt m' o := (h o ho).pre
theorem Same.cchAt {n o : Nat} {m m' : FeMem} (h : Same n m m') (ho : o < n) : cchAt m o = Ed.cchAt m' o := (h o ho).cch

theorem extAt_putExt_ne {o o' : Nat} (h : o' ≠ o) (m : FeMem) (e : Ext) : extAt (putExt m o e) o' = extAt m o' := (agree_put4 h m _ _ _ _).ext

/-- the loop of `GeScalarMult`: the objects below `n` are not touched, `q` becomes the result -/
theorem mScalarMultLoop_eq {n : Nat} (a : Bytes) : ∀ (k i : Nat) (m : FeMem),
    Same n (mScalarMultLoop n a k i m) m ∧
      extAt (mScalarMultLoop n a k i m) (n + 1) = geScalarMultLoop a k i (extAt m n) (extAt m (n + 1))
  | 0, _, m => ⟨Same.refl n m, rfl⟩
  | k + 1, i, m => by
    have h1 := mGeAdd_eq (n := n + 3) (r := n + 2) (a := n + 1) (b := n) (by omega) (by omega) (by omega) m
    generalize hm1 : mGeAdd (n + 3) (n + 2) (n + 1) n m = m1 at h1
    have e2 : mExtCMove (n + 1) (n + 2) (bitAt a i) m1 =
        putExt m1 (n + 1) (extCMove (extAt m (n + 1)) (geAdd (extAt m (n + 1)) (extAt m n)) (bitAt a i)) := by
      rw [mExtCMove_eq (by omega), h1.extAt (show n + 1 < n + 3 by omega), h1.extAt (show n + 2 < n + 3 by omega), extAt_put,
        extAt_putExt_ne (by omega)]
    have e3 : extAt (putExt m1 (n + 1) (extCMove (extAt m (n + 1)) (geAdd (extAt m (n + 1)) (extAt m n)) (bitAt a i))) n = extAt m n := by
      rw [extAt_putExt_ne (by omega), h1.extAt (show n < n + 3 by omega), extAt_putExt_ne (by omega)]
    have h4 := mGeDouble_eq (n := n + 3) (r := n) (p := n) (by omega) (by omega)
      (putExt m1 (n + 1) (extCMove (extAt m (n + 1)) (geAdd (extAt m (n + 1)) (extAt m n)) (bitAt a i)))
    rw [e3] at h4
    obtain ⟨ih1, ih2⟩ := mScalarMultLoop_eq a k (i + 1) (mGeDouble (n + 3) n n
      (putExt m1 (n + 1) (extCMove (extAt m (n + 1)) (geAdd (extAt m (n + 1)) (extAt m n)) (bitAt a i))))
    have hs : mScalarMultLoop n a (k + 1) i m = mScalarMultLoop n a k (i + 1) (mGeDouble (n + 3) n n
        (putExt m1 (n + 1) (extCMove (extAt m (n + 1)) (geAdd (extAt m (n + 1)) (extAt m n)) (bitAt a i)))) := by
      rw [← e2, ← hm1]; rfl
    rw [hs]
    refine ⟨ih1.trans ((h4.mono (by omega)).trans ?_), ?_⟩
    · refine Same.put4 (Same.put4 ?_ (by omega) _ _ _ _) (by omega) _ _ _ _
      exact (h1.mono (by omega)).trans ((Same.refl n m).put4 (by omega) _ _ _ _)
    · rw [ih2, h4.extAt (show n < n + 3 by omega), h4.extAt (show n + 1 < n + 3 by omega), extAt_put, extAt_putExt_ne (by omega), extAt_put]
      rfl

theorem mGeScalarMult_eq {n r A : Nat} (hr : r < n) (hA : A < n) (a : Bytes) (m : FeMem) :
    Same n (mGeScalarMult n r a A m) (putExt m r (geScalarMult a (extAt m A))) := by
  unfold mGeScalarMult
  simp only
  rw [mExtZero_eq, mExtCopy_eq (t := n) (by omega), extAt_putExt_ne (by omega)]
  obtain ⟨h1, h2⟩ := mScalarMultLoop_eq (n := n) a 256 0 (putExt (putExt m (n + 1) Ext.zero) n (extAt m A))
  rw [mExtCopy_eq (by omega), h2, extAt_put, extAt_putExt_ne (by omega), extAt_put]
  exact (h1.trans (((Same.refl n m).put4 (by omega) _ _ _ _).put4 (by omega) _ _ _ _)).both4 _ _ _ _

end Coniks.Ed

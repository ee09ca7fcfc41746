import Verif.Ed25519.AliasEnc
/-
The multiplications with tables, the change of coordinates and scalars through pointers (C77).
-/
namespace Coniks.Ed

attribute [local irreducible] feMul feSquare feSquare2 feAdd feSub feNeg feCMove feToBytes feIsNegative feIsNonZero feFromBytes
  feInvert fePow22523

theorem mEntry_eq (o : Nat) (e : Pre) (m : FeMem) : mEntry o e m = putPre m o e := rfl

theorem mPreCMove_eq {t u : Nat} (h : u ≠ t) (b : Int) (m : FeMem) : mPreCMove t u b m = putPre m t (preCMove (preAt m t) (preAt m u) b) := by
  simp [mPreCMove, mCMove_eq, putPre, put3, put_apply2, h, preAt, preCMove]

theorem putPre_putPre (m : FeMem) (o : Nat) (a b : Pre) : putPre (putPre m o a) o b = putPre m o b := by
  funext ⟨q, f⟩
  simp only [putPre, put3, put_apply2]
  by_cases h : q = o
  · by_cases h2 : f = 2
    · simp [h, h2]
    by_cases h1 : f = 1
    · simp [h, h1]
    by_cases h0 : f = 0
    · simp [h, h0]
    simp [h, h0, h1, h2]
  · simp [h]

theorem preAt_putPre_ne {o o' : Nat} (h : o' ≠ o) (m : FeMem) (e : Pre) : preAt (putPre m o e) o' = preAt m o' := (agree_put3 h m _ _ _).pre

theorem mSelectLoop_eq {n t : Nat} (ht : t < n) (bAbs : Int) : ∀ (row : List Pre) (i : Int) (m : FeMem),
    Same n (mSelectLoop n t bAbs i row m) (putPre m t (selectLoop bAbs i row (preAt m t)))
  | [], i, m => by
    intro o ho f
    simp only [mSelectLoop, selectLoop, putPre, put3, put_apply2, preAt]
    by_cases h : o = t
    · subst h
      by_cases h2 : f = 2
      · simp [h2]
      by_cases h1 : f = 1
      · simp [h1]
      by_cases h0 : f = 0
      · simp [h0]
      simp [h0, h1, h2]
    · simp [h]
  | e :: row, i, m => by
    rw [mSelectLoop, mEntry_eq, mPreCMove_eq (by omega), preAt_putPre_ne (by omega), preAt_put]
    refine (mSelectLoop_eq ht bAbs row (i + 1) _).trans ?_
    rw [preAt_put, putPre_putPre]
    exact ((Same.refl n m).put3 (Nat.le_refl n) _ _ _).both3 _ _ _

theorem mSelectPoint_eq {n t : Nat} (ht : t < n) (row : List Pre) (b : Int) (m : FeMem) :
    Same n (mSelectPoint n t row b m) (putPre m t (selectPoint row b)) := by
  unfold mSelectPoint
  simp only [mPreZero_eq]
  have h := mSelectLoop_eq ht (ctAbs b) row 0 (putPre m t Pre.zero)
  rw [preAt_put, putPre_putPre] at h
  generalize mSelectLoop n t (ctAbs b) 0 row (putPre m t Pre.zero) = M at h
  have hp : preAt M t = selectLoop (ctAbs b) 0 row Pre.zero := by rw [h.preAt ht, preAt_put]
  have e : mNeg (n + 1, 2) (t, 2) (mCopy (n + 1, 1) (t, 0) (mCopy (n + 1, 0) (t, 1) M)) =
      putPre M (n + 1) ⟨(preAt M t).yMinusX, (preAt M t).yPlusX, feNeg (preAt M t).xy2d⟩ := by
    simp [mCopy_eq, mNeg_eq, putPre, put3, put_apply2, preAt, show t ≠ n + 1 by omega]
  rw [e, mPreCMove_eq (by omega), preAt_put, preAt_putPre_ne (by omega), hp]
  have h2 : Same n (putPre M (n + 1) ⟨(selectLoop (ctAbs b) 0 row Pre.zero).yMinusX, (selectLoop (ctAbs b) 0 row Pre.zero).yPlusX,
      feNeg (selectLoop (ctAbs b) 0 row Pre.zero).xy2d⟩) (putPre m t (selectLoop (ctAbs b) 0 row Pre.zero)) := h.put3 (by omega) _ _ _
  have h3 := h2.both3 (r := t) (selectPoint row b).yPlusX (selectPoint row b).yMinusX (selectPoint row b).xy2d
  exact h3.trans (by
    have := putPre_putPre m t (selectLoop (ctAbs b) 0 row Pre.zero) (selectPoint row b)
    unfold putPre at this ⊢
    rw [this]
    exact Same.refl _ _)

theorem putExt_putExt (m : FeMem) (o : Nat) (a b : Ext) : putExt (putExt m o a) o b = putExt m o b := by
  funext ⟨q, f⟩
  simp only [putExt, put4, put_apply2]
  fields q f o

theorem putPrj_putPrj (m : FeMem) (o : Nat) (a b : Prj) : putPrj (putPrj m o a) o b = putPrj m o b := by
  funext ⟨q, f⟩
  simp only [putPrj, put3, put_apply2]
  fields q f o

theorem Same.symm {n : Nat} {a b : FeMem} (h : Same n a b) : Same n b a := fun o ho f => (h o ho f).symm

theorem putExt_extAt (m : FeMem) (o : Nat) : putExt m o (extAt m o) = m := by
  simp only [putExt, put4, extAt]; rw [put_self, put_self, put_self, put_self]

/-- one round of the loops of `GeScalarMultBase` -/
theorem smbStep {n h : Nat} (hh : h < n) (row : List Pre) (e : Int) (m : FeMem) :
    Same n (mCmpToExtended (n + 1) h (mGeMixedAdd (n + 3) (n + 1) h n (mSelectPoint (n + 3) n row e m)))
      (putExt m h (geMixedAdd (extAt m h) (selectPoint row e)).toExtended) := by
  have h1 := mSelectPoint_eq (n := n + 3) (t := n) (by omega) row e m
  generalize mSelectPoint (n + 3) n row e m = M at h1
  obtain ⟨x, hx⟩ := mGeMixedAdd_eq (n := n + 3) (p := h) (q := n) (r := n + 1) (by omega) (by omega) (by omega) M
  rw [hx, mCmpToExtended_eq (by omega), cmpAt_put, h1.preAt (show n < n + 3 by omega), preAt_put, h1.extAt (show h < n + 3 by omega),
    show extAt (putPre m n (selectPoint row e)) h = extAt m h from (agree_put3 (by omega) m _ _ _).ext]
  exact ((((h1.mono (show n ≤ n + 3 by omega)).trans ((Same.refl n m).put3 (Nat.le_refl n) _ _ _)).put (by omega) _).put4 (by omega) _ _ _ _).both4 _ _ _ _

theorem mSmbLoop_eq {n h : Nat} (hh : h < n) : ∀ (rows : List (List Pre)) (es : List Int) (m : FeMem),
    Same n (mSmbLoop n h rows es m) (putExt m h (smbLoop rows es (extAt m h)))
  | [], es, m => by
    rw [mSmbLoop, smbLoop, putExt_extAt]
    · exact Same.refl _ _
    · intros; contradiction
    · intros; contradiction
  | _ :: _, [], m => by
    rw [mSmbLoop, smbLoop, putExt_extAt]
    · exact Same.refl _ _
    · intros; contradiction
    · intros; contradiction
  | row :: rows, e :: es, m => by
    rw [mSmbLoop, smbLoop]
    have hs := smbStep hh row e m
    generalize mCmpToExtended (n + 1) h (mGeMixedAdd (n + 3) (n + 1) h n (mSelectPoint (n + 3) n row e m)) = M at hs
    refine (mSmbLoop_eq hh rows es M).trans ?_
    rw [hs.extAt hh, extAt_put]
    refine (hs.both4 _ _ _ _).trans ?_
    have := putExt_putExt m h (geMixedAdd (extAt m h) (selectPoint row e)).toExtended
      (smbLoop rows es (geMixedAdd (extAt m h) (selectPoint row e)).toExtended)
    conv at this => lhs; unfold putExt
    rw [show Ed.putExt m h (geMixedAdd (extAt m h) (selectPoint row e)).toExtended =
      put4 m h (geMixedAdd (extAt m h) (selectPoint row e)).toExtended.X (geMixedAdd (extAt m h) (selectPoint row e)).toExtended.Y
        (geMixedAdd (extAt m h) (selectPoint row e)).toExtended.Z (geMixedAdd (extAt m h) (selectPoint row e)).toExtended.T from rfl, this]
    exact Same.refl _ _

theorem mGeScalarMultBase_eq {n h : Nat} (hh : h < n) (a : Bytes) (m : FeMem) :
    Same n (mGeScalarMultBase n h a m) (putExt m h (geScalarMultBase a)) := by
  unfold mGeScalarMultBase geScalarMultBase
  simp only [mExtZero_eq]
  generalize recode16 0 (nibbles a) = e
  have h1 := mSmbLoop_eq hh tblBase (evens (e.drop 1)) (putExt m h Ext.zero)
  rw [extAt_put, putExt_putExt] at h1
  generalize smbLoop tblBase (evens (e.drop 1)) Ext.zero = H at h1 ⊢
  generalize mSmbLoop n h tblBase (evens (e.drop 1)) (putExt m h Ext.zero) = M1 at h1 ⊢
  have h2 := mExtDouble_eq (n := n + 3) (p := h) (r := n + 1) (by omega) (by omega) M1
  rw [h1.extAt hh, extAt_put] at h2
  generalize mExtDouble (n + 3) h (n + 1) M1 = M2 at h2 ⊢
  rw [mCmpToProjective_eq (by omega) M2, h2.cmpAt (show n + 1 < n + 3 by omega), cmpAt_put]
  have k2 : Same n (putPrj M2 (n + 2) H.double.toProjective) (putExt m h H) :=
    ((h2.mono (show n ≤ n + 3 by omega)).trans (h1.put4 (by omega) _ _ _ _)).put3 (by omega) _ _ _
  have p2 := prjAt_put M2 (n + 2) H.double.toProjective
  generalize putPrj M2 (n + 2) H.double.toProjective = M3 at k2 p2 ⊢
  generalize H.double.toProjective = S at p2 ⊢
  obtain ⟨x, hx⟩ := mPrjDouble_eq (n := n + 3) (p := n + 2) (r := n + 1) (by omega) (by omega) M3
  rw [hx, p2, mCmpToProjective_eq (by omega) (putCmp (M3.put (n + 3, 0) x) (n + 1) S.double), cmpAt_put]
  have k3 : Same n (putPrj (putCmp (M3.put (n + 3, 0) x) (n + 1) S.double) (n + 2) S.double.toProjective) (putExt m h H) :=
    ((k2.put (by omega) _).put4 (by omega) _ _ _ _).put3 (by omega) _ _ _
  have p3 := prjAt_put (putCmp (M3.put (n + 3, 0) x) (n + 1) S.double) (n + 2) S.double.toProjective
  generalize putPrj (putCmp (M3.put (n + 3, 0) x) (n + 1) S.double) (n + 2) S.double.toProjective = M4 at k3 p3 ⊢
  generalize S.double.toProjective = S2 at p3 ⊢
  obtain ⟨x, hx⟩ := mPrjDouble_eq (n := n + 3) (p := n + 2) (r := n + 1) (by omega) (by omega) M4
  rw [hx, p3, mCmpToProjective_eq (by omega) (putCmp (M4.put (n + 3, 0) x) (n + 1) S2.double), cmpAt_put]
  have k4 : Same n (putPrj (putCmp (M4.put (n + 3, 0) x) (n + 1) S2.double) (n + 2) S2.double.toProjective) (putExt m h H) :=
    ((k3.put (by omega) _).put4 (by omega) _ _ _ _).put3 (by omega) _ _ _
  have p4 := prjAt_put (putCmp (M4.put (n + 3, 0) x) (n + 1) S2.double) (n + 2) S2.double.toProjective
  generalize putPrj (putCmp (M4.put (n + 3, 0) x) (n + 1) S2.double) (n + 2) S2.double.toProjective = M5 at k4 p4 ⊢
  generalize S2.double.toProjective = S3 at p4 ⊢
  obtain ⟨x, hx⟩ := mPrjDouble_eq (n := n + 3) (p := n + 2) (r := n + 1) (by omega) (by omega) M5
  rw [hx, mCmpToExtended_eq (by omega), cmpAt_put, p4]
  have k5 : Same n (putExt (putCmp (M5.put (n + 3, 0) x) (n + 1) S3.double) h S3.double.toExtended) (putExt m h S3.double.toExtended) := by
    have := ((k4.put (r := n + 3) (f := 0) (by omega) x).put4 (r := n + 1) (by omega) S3.double.X S3.double.Y S3.double.Z S3.double.T).both4
      (r := h) S3.double.toExtended.X S3.double.toExtended.Y S3.double.toExtended.Z S3.double.toExtended.T
    have e2 := putExt_putExt m h H S3.double.toExtended
    unfold putExt putCmp at *
    rw [e2] at this
    exact this
  have e5 := extAt_put (putCmp (M5.put (n + 3, 0) x) (n + 1) S3.double) h S3.double.toExtended
  generalize putExt (putCmp (M5.put (n + 3, 0) x) (n + 1) S3.double) h S3.double.toExtended = M6 at k5 e5 ⊢
  generalize S3.double.toExtended = E at k5 e5 ⊢
  refine (mSmbLoop_eq hh tblBase (evens e) M6).trans ?_
  rw [e5]
  refine (k5.both4 _ _ _ _).trans ?_
  have e2 := putExt_putExt m h E (smbLoop tblBase (evens e) E)
  unfold putExt at *
  rw [e2]
  exact Same.refl _ _

/-! ### the double multiplication -/

theorem mOddMultiples_eq {n : Nat} : ∀ (k i : Nat) (m : FeMem), i + k ≤ 7 →
    (∀ j, j ≤ k → (oddMultiples (extAt m (n + 2)) k (cchAt m (n + 3 + i)))[j]? = some (cchAt (mOddMultiples n k i m) (n + 3 + i + j))) ∧
    ∀ o, o < n + 12 → o ≠ n → o ≠ n + 1 → ¬ (n + 3 + i < o ∧ o ≤ n + 3 + i + k) → AgreeAt (mOddMultiples n k i m) m o
  | 0, i, m, _ => ⟨fun j hj => by obtain rfl : j = 0 := by omega
                                  rfl, fun _ _ _ _ _ _ => rfl⟩
  | k + 1, i, m, hik => by
    rw [mOddMultiples]
    obtain ⟨x, hx⟩ := mGeAddC_eq (n := n + 12) (p := n + 2) (q := n + 3 + i) (r := n) (by omega) (by omega) (by omega) m
    rw [hx, mCmpToExtended_eq (by omega), cmpAt_put, mToCached_eq (by omega), extAt_put]
    generalize hc : (geAddC (extAt m (n + 2)) (cchAt m (n + 3 + i))).toExtended.toCached = c
    generalize hM : putCch (putExt (putCmp (m.put (n + 12, 0) x) n (geAddC (extAt m (n + 2)) (cchAt m (n + 3 + i)))) (n + 1)
      (geAddC (extAt m (n + 2)) (cchAt m (n + 3 + i))).toExtended) (n + 3 + (i + 1)) c = M
    have hMc : cchAt M (n + 3 + (i + 1)) = c := by rw [← hM, cchAt_put]
    have hag : ∀ o, o < n + 12 → o ≠ n → o ≠ n + 1 → o ≠ n + 3 + (i + 1) → AgreeAt M m o := fun o h1 h2 h3 h4 => by
      rw [← hM]
      exact (agree_put4 h4 _ _ _ _ _).trans ((agree_put4 h3 _ _ _ _ _).trans ((agree_put4 h2 _ _ _ _ _).trans (agree_put (by omega) _ _)))
    obtain ⟨ih1, ih2⟩ := mOddMultiples_eq (n := n) k (i + 1) M (by omega)
    rw [hMc, (hag (n + 2) (by omega) (by omega) (by omega) (by omega)).ext] at ih1
    refine ⟨fun j hj => ?_, fun o h1 h2 h3 h4 => ?_⟩
    · rw [oddMultiples, hc]
      cases j with
      | zero =>
        rw [List.getElem?_cons_zero, show n + 3 + i + 0 = n + 3 + i from rfl]
        rw [(ih2 (n + 3 + i) (by omega) (by omega) (by omega) (by omega)).cch, (hag (n + 3 + i) (by omega) (by omega) (by omega) (by omega)).cch]
      | succ j =>
        rw [List.getElem?_cons_succ, ih1 j (by omega)]
        rw [show n + 3 + (i + 1) + j = n + 3 + i + (j + 1) by omega]
    · exact (ih2 o h1 h2 h3 (by omega)).trans (hag o h1 h2 h3 (by omega))

theorem oddMultiples_length (A2 : Ext) : ∀ (k : Nat) (c : Cch), (oddMultiples A2 k c).length = k + 1
  | 0, _ => rfl
  | k + 1, c => by rw [oddMultiples, List.length_cons, oddMultiples_length]

/-- the eight multiples are where the main loop looks for them -/
def TabAt (n : Nat) (Ai : List Cch) (m : FeMem) : Prop := Ai.length = 8 ∧ ∀ j, j < 8 → Ai[j]? = some (cchAt m (n + 3 + j))

theorem TabAt.of_agree {n : Nat} {Ai : List Cch} {m m' : FeMem} (h : TabAt n Ai m) (ha : ∀ o, n + 2 < o → o < n + 11 → AgreeAt m' m o) :
    TabAt n Ai m' := ⟨h.1, fun j hj => by rw [h.2 j hj, (ha (n + 3 + j) (by omega) (by omega)).cch]⟩

/-- the objects the main loop keeps -/
def Kept (n : Nat) (m' m : FeMem) : Prop := ∀ o, o < n + 11 → o ≠ n → o ≠ n + 1 → AgreeAt m' m o

theorem mDsAddA_eq {n : Nat} {Ai : List Cch} {m : FeMem} (ht : TabAt n Ai m) (e : Int) :
    (mDsAddA n e m = none ∧ dsAddA Ai e (cmpAt m n) = none) ∨
      ∃ m' t, mDsAddA n e m = some m' ∧ dsAddA Ai e (cmpAt m n) = some t ∧ cmpAt m' n = t ∧ Kept n m' m := by
  unfold mDsAddA dsAddA
  by_cases h1 : e > 0
  · rw [if_pos h1, if_pos h1]
    by_cases h2 : (e / 2).toNat < 8
    · right
      rw [if_pos h2, ht.2 _ h2, mCmpToExtended_eq (by omega)]
      obtain ⟨x, hx⟩ := mGeAddC_eq (n := n + 12) (p := n + 1) (q := n + 3 + (e / 2).toNat) (r := n) (by omega) (by omega) (by omega)
        (putExt m (n + 1) (cmpAt m n).toExtended)
      rw [hx, extAt_put, show cchAt (putExt m (n + 1) (cmpAt m n).toExtended) (n + 3 + (e / 2).toNat) = cchAt m (n + 3 + (e / 2).toNat) from
        (agree_put4 (by omega) _ _ _ _ _).cch]
      exact ⟨_, _, rfl, rfl, cmpAt_put _ _ _, fun o a b c => (agree_put4 b _ _ _ _ _).trans ((agree_put (by omega) _ _).trans (agree_put4 c _ _ _ _ _))⟩
    · left
      rw [if_neg h2, List.getElem?_eq_none (by rw [ht.1]; omega)]
      exact ⟨rfl, rfl⟩
  · rw [if_neg h1, if_neg h1]
    by_cases h3 : e < 0
    · rw [if_pos h3, if_pos h3]
      by_cases h2 : (-e / 2).toNat < 8
      · right
        rw [if_pos h2, ht.2 _ h2, mCmpToExtended_eq (by omega)]
        obtain ⟨x, hx⟩ := mGeSubC_eq (n := n + 12) (p := n + 1) (q := n + 3 + (-e / 2).toNat) (r := n) (by omega) (by omega) (by omega)
          (putExt m (n + 1) (cmpAt m n).toExtended)
        rw [hx, extAt_put, show cchAt (putExt m (n + 1) (cmpAt m n).toExtended) (n + 3 + (-e / 2).toNat) = cchAt m (n + 3 + (-e / 2).toNat) from
          (agree_put4 (by omega) _ _ _ _ _).cch]
        exact ⟨_, _, rfl, rfl, cmpAt_put _ _ _, fun o a b c => (agree_put4 b _ _ _ _ _).trans ((agree_put (by omega) _ _).trans (agree_put4 c _ _ _ _ _))⟩
      · left
        rw [if_neg h2, List.getElem?_eq_none (by rw [ht.1]; omega)]
        exact ⟨rfl, rfl⟩
    · rw [if_neg h3, if_neg h3]
      exact Or.inr ⟨m, _, rfl, rfl, rfl, fun _ _ _ _ _ => rfl⟩

theorem mDsAddB_eq {n : Nat} (m : FeMem) (e : Int) :
    (mDsAddB n e m = none ∧ dsAddB e (cmpAt m n) = none) ∨
      ∃ m' t, mDsAddB n e m = some m' ∧ dsAddB e (cmpAt m n) = some t ∧ cmpAt m' n = t ∧ Kept n m' m := by
  unfold mDsAddB dsAddB
  by_cases h1 : e > 0
  · rw [if_pos h1, if_pos h1]
    cases tblBi[(e / 2).toNat]? with
    | none => exact Or.inl ⟨rfl, rfl⟩
    | some b =>
      right
      simp only [Option.map_some]
      rw [mCmpToExtended_eq (by omega), mEntry_eq]
      obtain ⟨x, hx⟩ := mGeMixedAdd_eq (n := n + 12) (p := n + 1) (q := n + 11) (r := n) (by omega) (by omega) (by omega)
        (putPre (putExt m (n + 1) (cmpAt m n).toExtended) (n + 11) b)
      rw [hx, preAt_put, show extAt (putPre (putExt m (n + 1) (cmpAt m n).toExtended) (n + 11) b) (n + 1) = (cmpAt m n).toExtended from
        ((agree_put3 (by omega) _ _ _ _).ext).trans (extAt_put _ _ _)]
      exact ⟨_, _, rfl, rfl, cmpAt_put _ _ _, fun o a b c => (agree_put4 b _ _ _ _ _).trans ((agree_put (by omega) _ _).trans
        ((agree_put3 (by omega) _ _ _ _).trans (agree_put4 c _ _ _ _ _)))⟩
  · rw [if_neg h1, if_neg h1]
    by_cases h3 : e < 0
    · rw [if_pos h3, if_pos h3]
      cases tblBi[(-e / 2).toNat]? with
      | none => exact Or.inl ⟨rfl, rfl⟩
      | some b =>
        right
        simp only [Option.map_some]
        rw [mCmpToExtended_eq (by omega), mEntry_eq]
        obtain ⟨x, hx⟩ := mGeMixedSub_eq (n := n + 12) (p := n + 1) (q := n + 11) (r := n) (by omega) (by omega) (by omega)
          (putPre (putExt m (n + 1) (cmpAt m n).toExtended) (n + 11) b)
        rw [hx, preAt_put, show extAt (putPre (putExt m (n + 1) (cmpAt m n).toExtended) (n + 11) b) (n + 1) = (cmpAt m n).toExtended from
          ((agree_put3 (by omega) _ _ _ _).ext).trans (extAt_put _ _ _)]
        exact ⟨_, _, rfl, rfl, cmpAt_put _ _ _, fun o a b c => (agree_put4 b _ _ _ _ _).trans ((agree_put (by omega) _ _).trans
          ((agree_put3 (by omega) _ _ _ _).trans (agree_put4 c _ _ _ _ _)))⟩
    · rw [if_neg h3, if_neg h3]
      exact Or.inr ⟨m, _, rfl, rfl, rfl, fun _ _ _ _ _ => rfl⟩

theorem mDsLoop_eq {n r : Nat} (hr : r < n) (as bs : Nat → Int) {Ai : List Cch} : ∀ (k : Nat) (m : FeMem), TabAt n Ai m →
    (mDsLoop n r as bs k m = none ∧ dsLoop Ai as bs k (prjAt m r) = none) ∨
      ∃ m' p, mDsLoop n r as bs k m = some m' ∧ dsLoop Ai as bs k (prjAt m r) = some p ∧ prjAt m' r = p ∧ ∀ o, o < n → o ≠ r → AgreeAt m' m o
  | 0, m, _ => Or.inr ⟨m, _, rfl, rfl, rfl, fun _ _ _ _ => rfl⟩
  | k + 1, m, ht => by
    rw [mDsLoop, dsLoop]
    obtain ⟨x, hx⟩ := mPrjDouble_eq (n := n + 12) (p := r) (r := n) (by omega) (by omega) m
    rw [hx]
    have c1 := cmpAt_put (m.put (n + 12, 0) x) n (prjAt m r).double
    have k1 : Kept n (putCmp (m.put (n + 12, 0) x) n (prjAt m r).double) m := fun o a b c => (agree_put4 b _ _ _ _ _).trans (agree_put (by omega) _ _)
    generalize putCmp (m.put (n + 12, 0) x) n (prjAt m r).double = M1 at c1 k1 ⊢
    have t1 : TabAt n Ai M1 := ht.of_agree fun o a b => k1 o b (by omega) (by omega)
    rcases mDsAddA_eq t1 (as k) with ⟨h1, h2⟩ | ⟨M2, t, h1, h2, h3, k2⟩
    · rw [c1] at h2
      rw [h1, h2]
      exact Or.inl ⟨rfl, rfl⟩
    · rw [c1] at h2
      rw [h1, h2]
      simp only [Option.bind_some]
      rcases mDsAddB_eq (n := n) M2 (bs k) with ⟨g1, g2⟩ | ⟨M3, t', g1, g2, g3, k3⟩
      · rw [h3] at g2
        rw [g1, g2]
        exact Or.inl ⟨rfl, rfl⟩
      · rw [h3] at g2
        rw [g1, g2]
        simp only [Option.bind_some]
        rw [mCmpToProjective_eq (by omega), g3]
        have ag : ∀ o, o < n + 11 → o ≠ n → o ≠ n + 1 → AgreeAt M3 m o := fun o a b c => (k3 o a b c).trans ((k2 o a b c).trans (k1 o a b c))
        have ih := mDsLoop_eq hr as bs (Ai := Ai) k (putPrj M3 r t'.toProjective) (ht.of_agree fun o a b =>
          (agree_put3 (by omega) _ _ _ _).trans (ag o b (by omega) (by omega)))
        rw [prjAt_put] at ih
        rcases ih with ⟨i1, i2⟩ | ⟨M4, p, i1, i2, i3, i4⟩
        · exact Or.inl ⟨i1, i2⟩
        · exact Or.inr ⟨M4, p, i1, i2, i3, fun o ho hor => (i4 o ho hor).trans ((agree_put3 hor _ _ _ _).trans (ag o (by omega) (by omega) (by omega)))⟩

theorem mGeDoubleScalarMult_eq {n r A : Nat} (hr : r < n) (hA : A < n) (a b : Bytes) (m : FeMem) :
    (mGeDoubleScalarMult n r a A b m = none ∧ geDoubleScalarMult a (extAt m A) b = none) ∨
      ∃ m' p, mGeDoubleScalarMult n r a A b m = some m' ∧ geDoubleScalarMult a (extAt m A) b = some p ∧ prjAt m' r = p ∧
        ∀ o, o < n → o ≠ r → AgreeAt m' m o := by
  unfold mGeDoubleScalarMult geDoubleScalarMult
  simp only
  rw [mToCached_eq (by omega)]
  have h2 := mExtDouble_eq (n := n + 12) (p := A) (r := n) (by omega) (by omega) (putCch m (n + 3) (extAt m A).toCached)
  rw [show extAt (putCch m (n + 3) (extAt m A).toCached) A = extAt m A from (agree_put4 (by omega) _ _ _ _ _).ext] at h2
  generalize mExtDouble (n + 12) A n (putCch m (n + 3) (extAt m A).toCached) = M2 at h2 ⊢
  rw [mCmpToExtended_eq (by omega), h2.cmpAt (show n < n + 12 by omega), cmpAt_put]
  have c3 : cchAt (putExt M2 (n + 2) (extAt m A).double.toExtended) (n + 3 + 0) = (extAt m A).toCached := by
    rw [show cchAt (putExt M2 (n + 2) (extAt m A).double.toExtended) (n + 3 + 0) = cchAt M2 (n + 3) from (agree_put4 (by omega) _ _ _ _ _).cch,
      h2.cchAt (show n + 3 < n + 12 by omega), show cchAt (putCmp (putCch m (n + 3) (extAt m A).toCached) n (extAt m A).double) (n + 3) =
        cchAt (putCch m (n + 3) (extAt m A).toCached) (n + 3) from (agree_put4 (by omega) _ _ _ _ _).cch, cchAt_put]
  have e3 := extAt_put M2 (n + 2) (extAt m A).double.toExtended
  have ag3 : ∀ o, o < n → AgreeAt (putExt M2 (n + 2) (extAt m A).double.toExtended) m o := fun o ho =>
    (agree_put4 (by omega) _ _ _ _ _).trans ((h2 o (by omega)).trans ((agree_put4 (by omega) _ _ _ _ _).trans (agree_put4 (by omega) _ _ _ _ _)))
  generalize putExt M2 (n + 2) (extAt m A).double.toExtended = M3 at c3 e3 ag3 ⊢
  obtain ⟨o1, o2⟩ := mOddMultiples_eq (n := n) 7 0 M3 (by omega)
  rw [c3, e3] at o1
  generalize mOddMultiples n 7 0 M3 = M4 at o1 o2 ⊢
  rw [mPrjZero_eq]
  have tab : TabAt n (oddMultiples (extAt m A).double.toExtended 7 (extAt m A).toCached) (putPrj M4 r Prj.zero) := by
    refine TabAt.of_agree (m := M4) ⟨oddMultiples_length _ _ _, fun j hj => o1 j (by omega)⟩ fun o a b => agree_put3 (by omega) _ _ _ _
  have h := mDsLoop_eq hr (slide a) (slide b) (dsTop (slide a) (slide b) 256) _ tab
  rw [prjAt_put] at h
  rcases h with h | ⟨m', p, h1, h2, h3, h4⟩
  · exact Or.inl h
  · exact Or.inr ⟨m', p, h1, h2, h3, fun o ho hor => (h4 o ho hor).trans ((agree_put3 hor _ _ _ _).trans
      ((o2 o (by omega) (by omega) (by omega) (by omega)).trans (ag3 o ho)))⟩

/-! ### the change of coordinates -/

theorem mEdwardsToMontgomeryX_eq {n : Nat} {outX y : Ptr} (ho : outX.1 < n) (hy : y.1 < n) (hne : outX ≠ y) (m : FeMem) :
    Same n (mEdwardsToMontgomeryX n outX y m) (m.put outX (edwardsToMontgomeryX (m y))) := by
  unfold mEdwardsToMontgomeryX edwardsToMontgomeryX
  simp only [mOne_eq, mSub_eq, mAdd_eq, mMul, put_eq, put_put]
  have y1 : y ≠ (n, 0) := fun e => by rw [e] at hy; simp at hy
  have o1 : outX ≠ (n, 0) := fun e => by rw [e] at ho; simp at ho
  have h := mInvert_same (n := n + 1) (out := (n, 0)) (z := (n, 0)) (show n < n + 1 by omega) (m.put (n, 0) (feSub feOne (m y)))
  rw [put_ne y1]
  rw [put_eq, put_put] at h
  generalize mInvert (n + 1) (n, 0) (n, 0) (m.put (n, 0) (feSub feOne (m y))) = M at h ⊢
  have r1 : M y = m y := by
    have := h y.1 (by omega) y.2
    rw [show ((y.1, y.2) : Ptr) = y from rfl, put_ne y1] at this
    exact this
  have r2 : M (n, 0) = feInvert (feSub feOne (m y)) := by rw [h n (by omega), put_eq]
  rw [put_ne hne.symm, put_ne o1.symm, r1, r2]
  intro o hon f
  rw [put_apply, put_apply, h o (by omega) f, put_ne (fun e => by cases e; omega)]

/-- with one pointer for both, what is stored is 2 / (1 - y) -/
theorem mEdwardsToMontgomeryX_same {n : Nat} {y : Ptr} (hy : y.1 < n) (m : FeMem) :
    mEdwardsToMontgomeryX n y y m y = feMul (feAdd feOne feOne) (feInvert (feSub feOne (m y))) := by
  unfold mEdwardsToMontgomeryX
  simp only [mOne_eq, mSub_eq, mAdd_eq, mMul, put_eq, put_put]
  have y1 : y ≠ (n, 0) := fun e => by rw [e] at hy; simp at hy
  have h := mInvert_same (n := n + 1) (out := (n, 0)) (z := (n, 0)) (show n < n + 1 by omega) (m.put (n, 0) (feSub feOne (m y)))
  rw [put_ne y1]
  rw [put_eq, put_put] at h
  generalize mInvert (n + 1) (n, 0) (n, 0) (m.put (n, 0) (feSub feOne (m y))) = M at h ⊢
  rw [put_ne y1.symm, h n (by omega), put_eq]

/-! ### scalars -/

theorem mScNegLoop_eq {r s : Nat} {l : List UInt8} : ∀ (k i : Nat) (carry : Int) (m : Nat → Bytes),
    l.length = i + k → (m s).length = i + k → (m r).length = i + k →
    mScNegLoop r s l k i carry m = fun o => if o = r then (m r).take i ++ scNegLoop carry (l.drop i) ((m s).drop i) else m o
  | 0, i, carry, m, h1, h2, h3 => by
    funext o
    rw [mScNegLoop, List.drop_of_length_le (by omega), scNegLoop, List.take_of_length_le (by omega), List.append_nil]
    · split
      · next h => rw [h]
      · rfl
    · intros; contradiction
  | k + 1, i, carry, m, h1, h2, h3 => by
    have hl : l.drop i = l.getD i 0 :: l.drop (i + 1) := by
      rw [List.drop_eq_getElem_cons (by omega), List.getD_eq_getElem?_getD, List.getElem?_eq_getElem (by omega), Option.getD_some]
    have hs : (m s).drop i = (m s).getD i 0 :: (m s).drop (i + 1) := by
      rw [List.drop_eq_getElem_cons (by omega), List.getD_eq_getElem?_getD, List.getElem?_eq_getElem (by omega), Option.getD_some]
    rw [mScNegLoop, hl, hs, scNegLoop]
    generalize scNegStep (carry + ((l.getD i 0).toNat : Int) - (((m s).getD i 0).toNat : Int)) = z
    have e1 : (if s = r then (m r).set i z.1 else m s).length = i + 1 + k := by
      split
      · rw [List.length_set]; omega
      · omega
    have e2 : (if s = r then (m r).set i z.1 else m s).drop (i + 1) = (m s).drop (i + 1) := by
      split
      · next h => rw [List.drop_set_of_lt (by omega), h]
      · rfl
    have e3 : ((m r).set i z.1).take (i + 1) = (m r).take i ++ [z.1] := by
      rw [List.take_add_one, List.take_set_of_le (by omega), List.getElem?_set_self (by omega)]
      rfl
    rw [mScNegLoop_eq k (i + 1) z.2 _ (by omega) e1 (by rw [if_pos rfl, List.length_set]; omega)]
    funext o
    rw [e2, if_pos rfl, e3]
    by_cases ho : o = r
    · rw [if_pos ho, if_pos ho, List.append_assoc]; rfl
    · rw [if_neg ho, if_neg ho, if_neg ho]

theorem mScNeg_eq {r s : Nat} (m : Nat → Bytes) (hs : (m s).length = 32) (hr : (m r).length = 32) :
    mScNeg r s m = fun o => if o = r then scNeg (m s) else m o := by
  unfold mScNeg scNeg
  rw [mScNegLoop_eq 32 0 0 m rfl (by omega) (by omega)]
  funext o
  rw [List.take_zero, List.nil_append, List.drop_zero, List.drop_zero]

end Coniks.Ed

import Verif.Model.Ed25519.Alias
/-
Field elements through pointers (C77): each function does what the function on values does, whichever pointers are equal.
-/
namespace Coniks.Ed

theorem put_eq (m : FeMem) (d : Ptr) (x : Fe) : m.put d x d = x := if_pos rfl
theorem put_ne {q d : Ptr} (h : q ≠ d) (m : FeMem) (x : Fe) : m.put d x q = m q := if_neg h
theorem put_apply (m : FeMem) (d q : Ptr) (x : Fe) : m.put d x q = if q = d then x else m q := rfl
theorem put_put (m : FeMem) (d : Ptr) (x y : Fe) : (m.put d x).put d y = m.put d y := by
  funext q; simp only [put_apply]; split <;> rfl
theorem put_self (m : FeMem) (d : Ptr) : m.put d (m d) = m := by
  funext q; rw [put_apply]; split <;> simp_all
theorem put_comm {d e : Ptr} (h : d ≠ e) (m : FeMem) (x y : Fe) : (m.put d x).put e y = (m.put e y).put d x := by
  funext q; simp only [put_apply]; by_cases h1 : q = d <;> by_cases h2 : q = e <;> simp_all

/-- a loop over the limbs whose body looks, of the destination, only at the limb it is about to write -/
theorem limbLoop_eq {d : Ptr} {g : FeMem → Nat → Int}
    (hg : ∀ m m' i, (∀ q, q ≠ d → m q = m' q) → (m d).env i = (m' d).env i → g m i = g m' i) (m : FeMem) :
    limbLoop d g m = m.put d ⟨g m 0, g m 1, g m 2, g m 3, g m 4, g m 5, g m 6, g m 7, g m 8, g m 9⟩ := by
  have key : ∀ (x : Fe) (i : Nat), (x.env i = (m d).env i) → g (m.put d x) i = g m i := fun x i h =>
    hg _ _ i (fun q hq => put_ne hq _ _) (by rw [put_eq]; exact h)
  unfold limbLoop
  simp only [show List.range 10 = [0, 1, 2, 3, 4, 5, 6, 7, 8, 9] from rfl, List.foldl_cons, List.foldl_nil, put_put, put_eq]
  congr 1
  simp only [Fe.setLimb]
  rw [key _ 1, key _ 2, key _ 3, key _ 4, key _ 5, key _ 6, key _ 7, key _ 8, key _ 9] <;> rfl

theorem env_of {m m' : FeMem} {d : Ptr} {i : Nat} (h : ∀ q, q ≠ d → m q = m' q) (hd : (m d).env i = (m' d).env i) (a : Ptr) :
    (m a).env i = (m' a).env i := by
  by_cases ha : a = d
  · rw [ha]; exact hd
  · rw [h a ha]

theorem mZero_eq (d : Ptr) (m : FeMem) : mZero d m = m.put d feZero := limbLoop_eq (fun _ _ _ _ _ => rfl) m
theorem mOne_eq (d : Ptr) (m : FeMem) : mOne d m = m.put d feOne := by
  unfold mOne; simp only [mZero_eq, put_put, put_eq]; rfl
theorem mAdd_eq (d a b : Ptr) (m : FeMem) : mAdd d a b m = m.put d (feAdd (m a) (m b)) :=
  limbLoop_eq (fun _ _ i h hd => by rw [env_of h hd a, env_of h hd b]) m
theorem mSub_eq (d a b : Ptr) (m : FeMem) : mSub d a b m = m.put d (feSub (m a) (m b)) :=
  limbLoop_eq (fun _ _ i h hd => by rw [env_of h hd a, env_of h hd b]) m
theorem mNeg_eq (d a : Ptr) (m : FeMem) : mNeg d a m = m.put d (feNeg (m a)) :=
  limbLoop_eq (fun _ _ i h hd => by rw [env_of h hd a]) m
theorem mCopy_eq (d a : Ptr) (m : FeMem) : mCopy d a m = m.put d (m a) :=
  limbLoop_eq (fun _ _ i h hd => by rw [env_of h hd a]) m
theorem mCMove_eq (f g : Ptr) (b : Int) (m : FeMem) : mCMove f g b m = m.put f (feCMove (m f) (m g) b) :=
  limbLoop_eq (fun _ _ i h hd => by rw [hd]) m

theorem mSquareN_eq (t : Ptr) : ∀ (k : Nat) (x : Fe) (m : FeMem), mSquareN t k (m.put t x) = m.put t (feSquareN k x)
  | 0, _, _ => rfl
  | k + 1, x, m => by
    rw [mSquareN, mSquare, put_eq, put_put, mSquareN_eq t k]; rfl

theorem mSquareN_succ (t a : Ptr) (k : Nat) (m : FeMem) : mSquareN t k (mSquare t a m) = m.put t (feSquareN (k + 1) (m a)) := by
  rw [mSquare, mSquareN_eq]; rfl

/-- a memory with four of its places set -/
def with4 (m : FeMem) (n : Nat) (a b c d : Fe) : FeMem := (((m.put (n, 0) a).put (n + 1, 0) b).put (n + 2, 0) c).put (n + 3, 0) d

section
variable (m : FeMem) (n : Nat) (a b c d x : Fe)
theorem with4_self : m = with4 m n (m (n, 0)) (m (n + 1, 0)) (m (n + 2, 0)) (m (n + 3, 0)) := by
  unfold with4
  rw [put_self, put_self, put_self, put_self]
theorem with4_0 : with4 m n a b c d (n, 0) = a := by simp [with4, put_apply]
theorem with4_1 : with4 m n a b c d (n + 1, 0) = b := by simp [with4, put_apply]
theorem with4_2 : with4 m n a b c d (n + 2, 0) = c := by simp [with4, put_apply]
theorem with4_3 : with4 m n a b c d (n + 3, 0) = d := by simp [with4, put_apply]
theorem with4_lt {q : Ptr} (h : q.1 < n) : with4 m n a b c d q = m q := by
  have : ∀ k, q ≠ (n + k, 0) := fun k e => by rw [e] at h; simp at h; omega
  simp [with4, put_apply, show q ≠ (n, 0) from this 0, this 1, this 2, this 3]
theorem with4_put0 : (with4 m n a b c d).put (n, 0) x = with4 m n x b c d := by
  funext q; simp only [with4, put_apply]; by_cases h : q = (n, 0) <;> simp [h]
theorem with4_put1 : (with4 m n a b c d).put (n + 1, 0) x = with4 m n a x c d := by
  funext q; simp only [with4, put_apply]; by_cases h : q = (n + 1, 0) <;> simp [h]
theorem with4_put2 : (with4 m n a b c d).put (n + 2, 0) x = with4 m n a b x d := by
  funext q; simp only [with4, put_apply]; by_cases h : q = (n + 2, 0) <;> simp [h]
theorem with4_put3 : (with4 m n a b c d).put (n + 3, 0) x = with4 m n a b c x := by
  funext q; simp only [with4, put_apply]; by_cases h : q = (n + 3, 0) <;> simp [h]
end

theorem feSquareN_one (t : Fe) : feSquareN 1 t = feSquare t := rfl

attribute [local irreducible] feMul feSquare feSquareN

set_option maxRecDepth 4000 in
theorem mInvert_with4 {n : Nat} {out z : Ptr} (hz : z.1 < n) (m : FeMem) (a b c d : Fe) :
    ∃ a' b' c' d', mInvert n out z (with4 m n a b c d) = (with4 m n a' b' c' d').put out (feInvert (m z)) := by
  unfold mInvert
  simp only [mSquareN_succ]
  simp only [mSquare, mMul, with4_0, with4_1, with4_2, with4_3, with4_lt _ _ _ _ _ _ hz, with4_put0, with4_put1,
      with4_put2, with4_put3]
  simp only [feInvert, Nat.reduceAdd]
  exact ⟨_, _, _, _, rfl⟩

/-- `FeInvert` writes `out` (which may be `z`) and its own variables -/
theorem mInvert_eq {n : Nat} {out z : Ptr} (hz : z.1 < n) (m : FeMem) :
    ∃ a b c d, mInvert n out z m = (with4 m n a b c d).put out (feInvert (m z)) := by
  have h := mInvert_with4 (out := out) hz m (m (n, 0)) (m (n + 1, 0)) (m (n + 2, 0)) (m (n + 3, 0))
  rw [← with4_self m n] at h
  exact h

set_option maxRecDepth 4000 in
theorem mPow22523_with4 {n : Nat} {out z : Ptr} (hz : z.1 < n) (m : FeMem) (a b c d : Fe) :
    ∃ a' b' c' d', mPow22523 n out z (with4 m n a b c d) = (with4 m n a' b' c' d').put out (fePow22523 (m z)) := by
  unfold mPow22523
  simp only [mSquareN_succ]
  simp only [mSquare, mMul, with4_0, with4_1, with4_2, with4_3, with4_lt _ _ _ _ _ _ hz, with4_put0, with4_put1,
      with4_put2, with4_put3]
  simp only [fePow22523, Nat.reduceAdd, feSquareN_one]
  exact ⟨_, _, _, _, rfl⟩

/-- `fePow22523` writes `out` (which may be `z`) and its own variables -/
theorem mPow22523_eq {n : Nat} {out z : Ptr} (hz : z.1 < n) (m : FeMem) :
    ∃ a b c d, mPow22523 n out z m = (with4 m n a b c d).put out (fePow22523 (m z)) := by
  have h := mPow22523_with4 (out := out) hz m (m (n, 0)) (m (n + 1, 0)) (m (n + 2, 0)) (m (n + 3, 0))
  rw [← with4_self m n] at h
  exact h

theorem mInvert_apply {n : Nat} {out z q : Ptr} (hz : z.1 < n) (hq : q.1 < n) (m : FeMem) :
    mInvert n out z m q = if q = out then feInvert (m z) else m q := by
  obtain ⟨a, b, c, d, h⟩ := mInvert_eq (out := out) hz m
  rw [h, put_apply, with4_lt _ _ _ _ _ _ hq]

theorem mPow22523_apply {n : Nat} {out z q : Ptr} (hz : z.1 < n) (hq : q.1 < n) (m : FeMem) :
    mPow22523 n out z m q = if q = out then fePow22523 (m z) else m q := by
  obtain ⟨a, b, c, d, h⟩ := mPow22523_eq (out := out) hz m
  rw [h, put_apply, with4_lt _ _ _ _ _ _ hq]

end Coniks.Ed

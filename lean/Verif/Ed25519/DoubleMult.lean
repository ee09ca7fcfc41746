import Verif.Ed25519.TableChecks
/-
GeDoubleScalarMultVartime computes a A + b B and never indexes outside its tables.
-/
namespace Coniks.Ed
open Coniks.Spec

theorem oddMultiples_ok {A2 : Ext} {Q : Pt25519} (h2 : ExtOk A2 Q) : ∀ (n : Nat) {c : Cch} {R : Pt25519}, CchOk c R →
    (oddMultiples A2 n c).length = n + 1 ∧ ∀ (j : Nat) (e : Cch), (oddMultiples A2 n c)[j]? = some e → CchOk e (R + j • Q)
  | 0, c, R, hc => by
    refine ⟨rfl, fun j e h => ?_⟩
    unfold oddMultiples at h
    match j with
    | 0 =>
      rw [List.getElem?_cons_zero] at h
      cases h
      rw [zero_nsmul, add_zero]; exact hc
    | j + 1 => simp at h
  | n + 1, c, R, hc => by
    have ih := oddMultiples_ok h2 n (h2.addC hc).toExtended.toCached
    refine ⟨by unfold oddMultiples; rw [List.length_cons, ih.1], fun j e h => ?_⟩
    unfold oddMultiples at h
    match j with
    | 0 =>
      rw [List.getElem?_cons_zero] at h
      cases h
      rw [zero_nsmul, add_zero]; exact hc
    | j + 1 =>
      rw [List.getElem?_cons_succ] at h
      have := ih.2 j e h
      rw [succ_nsmul', ← add_assoc, add_comm R Q]
      exact this

/-- a table of the odd multiples 1, 3, ..., 15 -/
def OddTbl (Ai : List Cch) (A : Pt25519) : Prop := Ai.length = 8 ∧ ∀ (j : Nat) (e : Cch), Ai[j]? = some e → CchOk e ((2 * j + 1) • A)

theorem oddMultiples_tbl {A : Ext} {P : Pt25519} (h : ExtOk A P) : OddTbl (oddMultiples A.double.toExtended 7 A.toCached) P := by
  obtain ⟨h1, h2⟩ := oddMultiples_ok h.double.toExtended 7 h.toCached
  refine ⟨h1, fun j e he => ?_⟩
  have := h2 j e he
  rw [← two_nsmul, ← mul_nsmul, ← succ_nsmul'] at this
  exact this

theorem digit_pos {e : Int} (h : IsDigit e) (hp : e > 0) : (e / 2).toNat < 8 ∧ ((2 * (e / 2).toNat + 1 : Nat) : Int) = e := by
  rcases h with h | ⟨h1, h2, h3⟩ <;> omega

theorem digit_neg {e : Int} (h : IsDigit e) (hp : e < 0) : (-e / 2).toNat < 8 ∧ ((2 * (-e / 2).toNat + 1 : Nat) : Int) = -e := by
  rcases h with h | ⟨h1, h2, h3⟩ <;> omega

theorem dsAddA_ok {Ai : List Cch} {A : Pt25519} (ht : OddTbl Ai A) {e : Int} (he : IsDigit e) {t : Cmp} {T : Pt25519} (h : CmpOk t T) :
    ∃ r, dsAddA Ai e t = some r ∧ CmpOk r (T + e • A) := by
  unfold dsAddA
  split
  · rename_i hp
    obtain ⟨h1, h2⟩ := digit_pos he hp
    have hg := List.getElem?_eq_getElem (l := Ai) (i := (e / 2).toNat) (by rw [ht.1]; exact h1)
    rw [hg, Option.map_some]
    refine ⟨_, rfl, ?_⟩
    have := h.toExtended.addC (ht.2 _ _ hg)
    rw [← natCast_zsmul, h2] at this
    exact this
  · split
    · rename_i hp
      obtain ⟨h1, h2⟩ := digit_neg he hp
      have hg := List.getElem?_eq_getElem (l := Ai) (i := (-e / 2).toNat) (by rw [ht.1]; exact h1)
      rw [hg, Option.map_some]
      refine ⟨_, rfl, ?_⟩
      have := h.toExtended.subC (ht.2 _ _ hg)
      rw [← natCast_zsmul, h2, neg_zsmul, sub_neg_eq_add] at this
      exact this
    · have : e = 0 := by omega
      subst this
      refine ⟨_, rfl, ?_⟩
      rw [zero_zsmul, add_zero]; exact h

theorem dsAddB_ok {e : Int} (he : IsDigit e) {t : Cmp} {T : Pt25519} (h : CmpOk t T) :
    ∃ r, dsAddB e t = some r ∧ CmpOk r (T + e • basePt) := by
  have hl : tblBi.length = 8 := by decide +kernel
  unfold dsAddB
  split
  · rename_i hp
    obtain ⟨h1, h2⟩ := digit_pos he hp
    have hg := List.getElem?_eq_getElem (l := tblBi) (i := (e / 2).toNat) (by rw [hl]; exact h1)
    rw [hg, Option.map_some]
    refine ⟨_, rfl, ?_⟩
    have := h.toExtended.mixedAdd (tblBi_ok _ _ hg)
    rw [← natCast_zsmul, h2] at this
    exact this
  · split
    · rename_i hp
      obtain ⟨h1, h2⟩ := digit_neg he hp
      have hg := List.getElem?_eq_getElem (l := tblBi) (i := (-e / 2).toNat) (by rw [hl]; exact h1)
      rw [hg, Option.map_some]
      refine ⟨_, rfl, ?_⟩
      have := h.toExtended.mixedSub (tblBi_ok _ _ hg)
      rw [← natCast_zsmul, h2, neg_zsmul, sub_neg_eq_add] at this
      exact this
    · have : e = 0 := by omega
      subst this
      refine ⟨_, rfl, ?_⟩
      rw [zero_zsmul, add_zero]; exact h

/-- the highest digit -/
theorem hv_top (r : Nat → Int) (n : Nat) : hv r (n + 1) 0 = hv r n 0 + 2 ^ n * r n := by
  rw [hv_split r n 1 0, Nat.zero_add]
  simp only [hv]
  ring

theorem dsLoop_ok {Ai : List Cch} {A : Pt25519} (ht : OddTbl Ai A) {as bs : Nat → Int} (ha : ∀ j, j < 256 → IsDigit (as j))
    (hb : ∀ j, j < 256 → IsDigit (bs j)) : ∀ (n : Nat), n ≤ 256 → ∀ {r : Prj} {R : Pt25519}, PrjOk r R →
    ∃ r', dsLoop Ai as bs n r = some r' ∧ PrjOk r' ((2 ^ n : Int) • R + (hv as n 0 • A + hv bs n 0 • basePt))
  | 0, _, r, R, h => ⟨r, rfl, by simpa [hv] using h⟩
  | n + 1, hn, r, R, h => by
    obtain ⟨t1, e1, h1⟩ := dsAddA_ok ht (ha n (by omega)) h.double
    obtain ⟨t2, e2, h2⟩ := dsAddB_ok (hb n (by omega)) h1
    obtain ⟨r', e3, h3⟩ := dsLoop_ok ht ha hb n (by omega) h2.toProjective
    refine ⟨r', ?_, ?_⟩
    · unfold dsLoop
      rw [e1, Option.bind_some, e2, Option.bind_some, e3]
    · rw [hv_top, hv_top]
      have : (2 ^ (n + 1) : Int) • R + ((hv as n 0 + 2 ^ n * as n) • A + (hv bs n 0 + 2 ^ n * bs n) • basePt) =
          (2 ^ n : Int) • (R + R + as n • A + bs n • basePt) + (hv as n 0 • A + hv bs n 0 • basePt) := by
        rw [pow_succ]
        module
      rw [this]; exact h3

theorem dsTop_ok (as bs : Nat → Int) : ∀ n, dsTop as bs n ≤ n ∧ hv as (dsTop as bs n) 0 = hv as n 0 ∧ hv bs (dsTop as bs n) 0 = hv bs n 0
  | 0 => ⟨Nat.le_refl _, rfl, rfl⟩
  | n + 1 => by
    unfold dsTop
    split
    · exact ⟨Nat.le_refl _, rfl, rfl⟩
    · rename_i h
      have h1 : as n = 0 := by by_contra hc; exact h (Or.inl hc)
      have h2 : bs n = 0 := by by_contra hc; exact h (Or.inr hc)
      obtain ⟨i1, i2, i3⟩ := dsTop_ok as bs n
      refine ⟨by omega, ?_, ?_⟩
      · rw [hv_top, h1, mul_zero, add_zero]; exact i2
      · rw [hv_top, h2, mul_zero, add_zero]; exact i3

/-- the integer the digits of `slide` stand for -/
def slideInt (a : Bytes) : Int := hv (slide a) 256 0

theorem ExtOk.geDoubleScalarMult {A : Ext} {P : Pt25519} (h : ExtOk A P) (a b : Bytes) :
    ∃ r, geDoubleScalarMult a A b = some r ∧ PrjOk r (slideInt a • P + slideInt b • basePt) := by
  obtain ⟨h1, h2, h3⟩ := dsTop_ok (slide a) (slide b) 256
  obtain ⟨r, e, hr⟩ := dsLoop_ok (oddMultiples_tbl h) (slide_digit a) (slide_digit b) _ h1 Prj.zero_ok
  refine ⟨r, e, ?_⟩
  rw [zsmul_zero, zero_add, h2, h3] at hr
  exact hr

end Coniks.Ed

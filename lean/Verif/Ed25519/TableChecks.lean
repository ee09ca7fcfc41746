import Verif.Ed25519.Slide
/-
The precomputed tables hold the multiples of the base point they should.
-/
namespace Coniks.Ed
open Coniks.Spec

/-- the number of an element -/
def Fe.num (f : Fe) : Nat := (f.val % P).toNat

theorem el_num (f : Fe) : f.el = (f.num : F) := el_nat f

/-- the entry stands for the point of `n` -/
def preChk (n : NPt) (e : Pre) : Bool :=
  e.yPlusX.bdB 1 && e.yMinusX.bdB 1 && e.xy2d.bdB 1 &&
  nmul e.yPlusX.num n.Z == nadd n.Y n.X && nmul e.yMinusX.num n.Z == nsub n.Y n.X && nmul e.xy2d.num n.Z == nmul (2 * dN) n.T

theorem preChk_ok {n : NPt} {e : Pre} {p : Pt25519} (hn : n.Rep p) (h : preChk n e = true) : PreOk e p := by
  unfold preChk at h
  simp only [Bool.and_eq_true, beq_iff_eq] at h
  obtain ⟨⟨⟨⟨⟨b1, b2⟩, b3⟩, h1⟩, h2⟩, h3⟩ := h
  have h1 := congrArg (Nat.cast (R := F)) h1
  have h2 := congrArg (Nat.cast (R := F)) h2
  have h3 := congrArg (Nat.cast (R := F)) h3
  simp only [nmul_cast, nadd_cast, nsub_cast, Nat.cast_mul, Nat.cast_ofNat, ← el_num, ← d_eq] at h1 h2 h3
  rw [hn.x, hn.y] at h1 h2
  rw [hn.t] at h3
  refine ⟨Fe.bd_of b1, Fe.bd_of b2, Fe.bd_of b3, ?_, ?_, ?_⟩
  · exact mul_right_cancel₀ hn.ne (h1.trans (by ring))
  · exact mul_right_cancel₀ hn.ne (h2.trans (by ring))
  · exact mul_right_cancel₀ hn.ne (h3.trans (by ring))

/-- the entries stand for n, n + s, n + 2s, ... -/
def rowChk (s : NPt) : NPt → List Pre → Bool
  | _, [] => true
  | n, e :: row => preChk n e && rowChk s (n.add s) row

theorem rowChk_ok {s : NPt} {S : Pt25519} (hs : s.Rep S) : ∀ {row : List Pre} {n : NPt} {p : Pt25519}, n.Rep p → rowChk s n row = true →
    ∀ (j : Nat) (e : Pre), row[j]? = some e → PreOk e (p + j • S)
  | [], _, _, _, _, j, e, h => by simp at h
  | a :: row, n, p, hn, hc, j, e, h => by
    unfold rowChk at hc
    rw [Bool.and_eq_true] at hc
    match j with
    | 0 =>
      rw [List.getElem?_cons_zero] at h
      cases h
      rw [zero_nsmul, add_zero]
      exact preChk_ok hn hc.1
    | j + 1 =>
      rw [List.getElem?_cons_succ] at h
      have := rowChk_ok hs (NPt.add_rep hn hs) hc.2 j e h
      rw [succ_nsmul', ← add_assoc]
      exact this

theorem tblBi_ok (j : Nat) (e : Pre) (h : tblBi[j]? = some e) : PreOk e ((2 * j + 1) • basePt) := by
  have := rowChk_ok (NPt.add_rep baseN_rep baseN_rep) (row := tblBi) baseN_rep (by decide +kernel) j e h
  have e2 : (2 * j + 1) • basePt = basePt + j • (basePt + basePt) := by
    rw [← two_nsmul, ← mul_nsmul, ← succ_nsmul']
  rw [e2]
  exact this

/-- every row starts 256 times further -/
def tblChk : NPt → List (List Pre) → Bool
  | _, [] => true
  | n, row :: rows => decide (row.length = 8) && rowChk n n row && tblChk (NPt.smul 9 256 n) rows

/-- the row holds 1, ..., 8 times a point -/
def RowOk (row : List Pre) (p : Pt25519) : Prop := row.length = 8 ∧ ∀ (j : Nat) (e : Pre), row[j]? = some e → PreOk e ((j + 1) • p)

/-- the rows are those of p, 256 p, 256^2 p, ... -/
def RowsOk : List (List Pre) → Pt25519 → Prop
  | [], _ => True
  | row :: rows, p => RowOk row p ∧ RowsOk rows (256 • p)

theorem tblChk_ok : ∀ {rows : List (List Pre)} {n : NPt} {p : Pt25519}, n.Rep p → tblChk n rows = true → RowsOk rows p
  | [], _, _, _, _ => trivial
  | row :: rows, n, p, hn, hc => by
    unfold tblChk at hc
    simp only [Bool.and_eq_true, decide_eq_true_eq] at hc
    refine ⟨⟨hc.1.1, fun j e h => ?_⟩, tblChk_ok (NPt.smul_rep 9 256 hn (by decide)) hc.2⟩
    rw [succ_nsmul']
    exact rowChk_ok hn hn hc.1.2 j e h

theorem tblBase_len : tblBase.length = 32 := by decide +kernel

theorem tblBase_ok : RowsOk tblBase basePt := tblChk_ok baseN_rep (by decide +kernel)

end Coniks.Ed

import Verif.Ed25519.FieldChecks
import Verif.Spec.Limbs
import Mathlib.Tactic.NormNum
/-
The field operations compute modulo 2^255 - 19.
-/
namespace Coniks.Ed

theorem Fe.Bd.mono {m n : Int} {f : Fe} (h : f.Bd m) (hmn : m ≤ n) : f.Bd n := by
  obtain ⟨h0, h1, h2, h3, h4, h5, h6, h7, h8, h9⟩ := h
  constructor <;> omega

theorem IvEnv.ok_of_mem {e : IvEnv} {ρ : Nat → Int} (h : ∀ x ∈ e, x.2.mem (ρ x.1)) : e.Ok ρ := by
  induction e with
  | nil => intro i a ha; cases ha
  | cons y e ih =>
    obtain ⟨j, b⟩ := y
    intro i a ha
    unfold IvEnv.look at ha
    split at ha
    · rename_i hj; subst hj; cases ha; exact h (j, b) (by simp)
    · exact ih (fun x hx => h x (List.mem_cons_of_mem _ hx)) i a ha

theorem limbIv_mem {n : Int} {k : Nat} {ρ : Nat → Int} (h : ∀ x ∈ limbIv n k, x.2.mem (ρ x.1)) :
    Fe.Bd n ⟨ρ k, ρ (k + 1), ρ (k + 2), ρ (k + 3), ρ (k + 4), ρ (k + 5), ρ (k + 6), ρ (k + 7), ρ (k + 8), ρ (k + 9)⟩ := by
  unfold limbIv at h
  simp only [List.mem_cons, List.not_mem_nil, or_false, forall_eq_or_imp, forall_eq, Iv.mem] at h
  obtain ⟨h0, h1, h2, h3, h4, h5, h6, h7, h8, h9⟩ := h
  constructor <;> assumption

theorem limbIv_of {n : Int} {k : Nat} {ρ : Nat → Int}
    (h : Fe.Bd n ⟨ρ k, ρ (k + 1), ρ (k + 2), ρ (k + 3), ρ (k + 4), ρ (k + 5), ρ (k + 6), ρ (k + 7), ρ (k + 8), ρ (k + 9)⟩) :
    ∀ x ∈ limbIv n k, x.2.mem (ρ x.1) := by
  obtain ⟨h0, h1, h2, h3, h4, h5, h6, h7, h8, h9⟩ := h
  unfold limbIv
  simp only [List.mem_cons, List.not_mem_nil, or_false, forall_eq_or_imp, forall_eq, Iv.mem]
  exact ⟨h0, h1, h2, h3, h4, h5, h6, h7, h8, h9⟩

theorem ev_limbPoly (ρ : Nat → Int) (k : Nat) : (limbPoly k).ev ρ =
    Fe.val ⟨ρ k, ρ (k + 1), ρ (k + 2), ρ (k + 3), ρ (k + 4), ρ (k + 5), ρ (k + 6), ρ (k + 7), ρ (k + 8), ρ (k + 9)⟩ := by
  unfold limbPoly Poly.ev Fe.val
  simp only [List.map_cons, List.map_nil, List.sum_cons, List.sum_nil, Mono.ev, List.prod_cons, List.prod_nil]
  push_cast
  ring

theorem Fe.env_ok {n : Int} {f : Fe} (h : f.Bd n) : ∀ x ∈ limbIv n 0, x.2.mem (f.env x.1) := limbIv_of h

theorem Fe.env2_ok {n : Int} {f g : Fe} (hf : f.Bd n) (hg : g.Bd n) : ∀ x ∈ limbIv n 0 ++ limbIv n 10, x.2.mem (Fe.env2 f g x.1) := by
  intro x hx
  rcases List.mem_append.mp hx with hx | hx
  · exact limbIv_of (k := 0) (ρ := Fe.env2 f g) hf x hx
  · exact limbIv_of (k := 10) (ρ := Fe.env2 f g) hg x hx

theorem feMul_spec {f g : Fe} (hf : f.Bd 3) (hg : g.Bd 3) : (feMul f g).Bd 1 ∧ P ∣ (feMul f g).val - f.val * g.val := by
  obtain ⟨h1, h2⟩ := ivCheck_sound feMul_iv (IvEnv.ok_of_mem (Fe.env2_ok hf hg))
  have h3 := wpCheck_sound feMul_wp (Fe.env2 f g)
  rw [Poly.ev_mul, ev_limbPoly, ev_limbPoly, ev_limbPoly] at h3
  have h4 := limbIv_mem h2
  unfold feMul
  rw [h1]
  exact ⟨h4, h3⟩

theorem feSquare_spec {f : Fe} (hf : f.Bd 3) : (feSquare f).Bd 1 ∧ P ∣ (feSquare f).val - f.val * f.val := by
  obtain ⟨h1, h2⟩ := ivCheck_sound feSquare_iv (IvEnv.ok_of_mem (Fe.env_ok hf))
  have h3 := wpCheck_sound feSquare_wp f.env
  rw [Poly.ev_mul, ev_limbPoly, ev_limbPoly] at h3
  have h4 := limbIv_mem h2
  unfold feSquare
  rw [h1]
  exact ⟨h4, h3⟩

theorem feSquare2_spec {f : Fe} (hf : f.Bd 3) : (feSquare2 f).Bd 1 ∧ P ∣ (feSquare2 f).val - 2 * (f.val * f.val) := by
  obtain ⟨h1, h2⟩ := ivCheck_sound feSquare2_iv (IvEnv.ok_of_mem (Fe.env_ok hf))
  have h3 := wpCheck_sound feSquare2_wp f.env
  rw [Poly.ev_mul, Poly.ev_mul, ev_limbPoly, ev_limbPoly] at h3
  have h4 := limbIv_mem h2
  have h5 : Poly.ev f.env [(2, [])] = 2 := rfl
  rw [h5, mul_comm _ 2] at h3
  unfold feSquare2
  rw [h1]
  exact ⟨h4, h3⟩

private theorem wrap32 {z : Int} (h1 : -2147483648 ≤ z) (h2 : z < 2147483648) : wrap 32 z = z := wrap_id (by decide) h1 h2

theorem feAdd_spec {m n : Int} {f g : Fe} (hf : f.Bd m) (hg : g.Bd n) (hmn : m + n ≤ 58) :
    (feAdd f g).Bd (m + n) ∧ (feAdd f g).val = f.val + g.val := by
  obtain ⟨a0, a1, a2, a3, a4, a5, a6, a7, a8, a9⟩ := hf
  obtain ⟨b0, b1, b2, b3, b4, b5, b6, b7, b8, b9⟩ := hg
  have e : feAdd f g = ⟨f.x0 + g.x0, f.x1 + g.x1, f.x2 + g.x2, f.x3 + g.x3, f.x4 + g.x4, f.x5 + g.x5, f.x6 + g.x6, f.x7 + g.x7,
      f.x8 + g.x8, f.x9 + g.x9⟩ := by
    unfold feAdd
    congr 1 <;> apply wrap32 <;> omega
  rw [e]
  refine ⟨?_, ?_⟩
  · constructor <;> simp only <;> omega
  · unfold Fe.val; simp only; ring

theorem feSub_spec {m n : Int} {f g : Fe} (hf : f.Bd m) (hg : g.Bd n) (hmn : m + n ≤ 58) :
    (feSub f g).Bd (m + n) ∧ (feSub f g).val = f.val - g.val := by
  obtain ⟨a0, a1, a2, a3, a4, a5, a6, a7, a8, a9⟩ := hf
  obtain ⟨b0, b1, b2, b3, b4, b5, b6, b7, b8, b9⟩ := hg
  have e : feSub f g = ⟨f.x0 - g.x0, f.x1 - g.x1, f.x2 - g.x2, f.x3 - g.x3, f.x4 - g.x4, f.x5 - g.x5, f.x6 - g.x6, f.x7 - g.x7,
      f.x8 - g.x8, f.x9 - g.x9⟩ := by
    unfold feSub
    congr 1 <;> apply wrap32 <;> omega
  rw [e]
  refine ⟨?_, ?_⟩
  · constructor <;> simp only <;> omega
  · unfold Fe.val; simp only; ring

theorem feNeg_spec {m : Int} {f : Fe} (hf : f.Bd m) (hm : m ≤ 58) : (feNeg f).Bd m ∧ (feNeg f).val = -f.val := by
  obtain ⟨a0, a1, a2, a3, a4, a5, a6, a7, a8, a9⟩ := hf
  have e : feNeg f = ⟨-f.x0, -f.x1, -f.x2, -f.x3, -f.x4, -f.x5, -f.x6, -f.x7, -f.x8, -f.x9⟩ := by
    unfold feNeg
    congr 1 <;> apply wrap32 <;> omega
  rw [e]
  refine ⟨?_, ?_⟩
  · constructor <;> simp only <;> omega
  · unfold Fe.val; simp only; ring

theorem feZero_spec : feZero.Bd 1 ∧ feZero.val = 0 := ⟨by constructor <;> decide, rfl⟩
theorem feOne_spec : feOne.Bd 1 ∧ feOne.val = 1 := ⟨by constructor <;> decide, rfl⟩

theorem cmove1_zero {f : Int} (g : Int) (h1 : -2147483648 ≤ f) (h2 : f < 2147483648) : cmove1 f g 0 = f := by
  unfold cmove1
  simp only [BitVec.ofInt_ofNat, BitVec.neg_zero, BitVec.zero_and, BitVec.xor_zero]
  rw [BitVec.toInt_ofInt]
  exact wrap32 h1 h2

theorem cmove1_one (f : Int) {g : Int} (h1 : -2147483648 ≤ g) (h2 : g < 2147483648) : cmove1 f g 1 = g := by
  unfold cmove1
  have : -(BitVec.ofInt 32 1) = BitVec.allOnes 32 := by decide
  simp only [this, BitVec.allOnes_and, ← BitVec.xor_assoc, BitVec.xor_self, BitVec.zero_xor]
  rw [BitVec.toInt_ofInt]
  exact wrap32 h1 h2

/-- `FeCMove` copies `g` to `f` if `b` is one and does nothing if `b` is zero. -/
theorem feCMove_spec {f g : Fe} {n : Int} (hf : f.Bd n) (hg : g.Bd n) (hn : n ≤ 58) :
    feCMove f g 0 = f ∧ feCMove f g 1 = g := by
  obtain ⟨a0, a1, a2, a3, a4, a5, a6, a7, a8, a9⟩ := hf
  obtain ⟨b0, b1, b2, b3, b4, b5, b6, b7, b8, b9⟩ := hg
  constructor
  · obtain ⟨f0, f1, f2, f3, f4, f5, f6, f7, f8, f9⟩ := f
    simp only at *
    unfold feCMove
    congr 1 <;> apply cmove1_zero <;> simp only <;> omega
  · obtain ⟨g0, g1, g2, g3, g4, g5, g6, g7, g8, g9⟩ := g
    simp only at *
    unfold feCMove
    congr 1 <;> apply cmove1_one <;> simp only <;> omega

end Coniks.Ed

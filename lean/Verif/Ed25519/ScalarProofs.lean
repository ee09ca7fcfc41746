import Verif.Model.Ed25519.Scalar
import Verif.Ed25519.ScChecks
import Verif.Ed25519.FieldPack
import Verif.Spec.Ed
import Mathlib.Tactic.IntervalCases
/-
The scalar functions compute modulo ℓ and give the least non-negative representative.
-/
namespace Coniks.Ed
open Coniks

/-! ### loading -/

theorem byteAt_leNat : ∀ (s : Bytes) (o : Nat), byteAt s o = leNat s / 256 ^ o % 256
  | [], o => by simp [byteAt, leNat]
  | b :: s, 0 => by
    have := b.toNat_lt
    simp only [byteAt, leNat, List.getD_cons_zero, pow_zero, Nat.div_one]
    omega
  | b :: s, o + 1 => by
    have h := byteAt_leNat s o
    have hb := b.toNat_lt
    have e : byteAt (b :: s) (o + 1) = byteAt s o := by simp [byteAt]
    rw [e, h, pow_succ', ← Nat.div_div_eq_div_mul]
    have : (leNat (b :: s)) / 256 = leNat s := by simp only [leNat]; omega
    rw [this]

theorem div256_succ (N o : Nat) : N / 256 ^ (o + 1) = N / 256 ^ o / 256 := by
  rw [pow_succ, Nat.div_div_eq_div_mul]

theorem load3_leNat (s : Bytes) (o : Nat) : load3 s o = leNat s / 256 ^ o % 2 ^ 24 := by
  rw [load3_eq, byteAt_leNat, byteAt_leNat, byteAt_leNat, div256_succ, div256_succ _ (o + 1), div256_succ]
  generalize leNat s / 256 ^ o = N
  omega

theorem load4_leNat (s : Bytes) (o : Nat) : load4 s o = leNat s / 256 ^ o % 2 ^ 32 := by
  rw [load4_eq, byteAt_leNat, byteAt_leNat, byteAt_leNat, byteAt_leNat, div256_succ _ (o + 2), div256_succ _ (o + 1), div256_succ]
  generalize leNat s / 256 ^ o = N
  omega

/-- the 21 bits from bit `n` on -/
def lim (N n : Nat) : Int := ((N / 2 ^ n % 2 ^ 21 : Nat) : Int)

theorem pow256 (o : Nat) : 256 ^ o = 2 ^ (8 * o) := by rw [pow_mul]; norm_num

theorem limb3_eq (s : Bytes) {o k : Nat} (hk : k ≤ 3) (n : Nat) (hn : 8 * o + k = n) : limb3 s o k = lim (leNat s) n := by
  unfold limb3 lim
  have h21 : (2097151 : Nat) = 2 ^ 21 - 1 := rfl
  rw [h21, Nat.and_two_pow_sub_one_eq_mod, load3_leNat, Nat.shiftRight_eq_div_pow, ← hn, pow_add, ← Nat.div_div_eq_div_mul, ← pow256]
  generalize leNat s / 256 ^ o = N
  congr 1
  interval_cases k <;> omega

theorem limb4_eq (s : Bytes) {o k : Nat} (hk : k ≤ 7) (n : Nat) (hn : 8 * o + k = n) : limb4 s o k = lim (leNat s) n := by
  unfold limb4 lim
  have h21 : (2097151 : Nat) = 2 ^ 21 - 1 := rfl
  rw [h21, Nat.and_two_pow_sub_one_eq_mod, load4_leNat, Nat.shiftRight_eq_div_pow, ← hn, pow_add, ← Nat.div_div_eq_div_mul, ← pow256]
  generalize leNat s / 256 ^ o = N
  congr 1
  interval_cases k <;> omega

/-- what remains above bit `n` -/
def hi (N n : Nat) : Int := ((N / 2 ^ n : Nat) : Int)

theorem top4_eq {s : Bytes} {o k : Nat} (hs : s.length = o + 4) (n : Nat) (hn : 8 * o + k = n) : ((load4 s o >>> k : Nat) : Int) = hi (leNat s) n := by
  unfold hi
  have hl := leNat_lt hs
  have h2 : leNat s / 256 ^ o < 2 ^ 32 := Nat.div_lt_of_lt_mul (by rw [pow_add] at hl; exact hl)
  rw [load4_leNat, Nat.mod_eq_of_lt h2, Nat.shiftRight_eq_div_pow, ← hn, pow_add, ← Nat.div_div_eq_div_mul, ← pow256]

theorem scLimbs_eq {a : Bytes} (ha : a.length = 32) : scLimbs a =
    [lim (leNat a) 0, lim (leNat a) 21, lim (leNat a) 42, lim (leNat a) 63, lim (leNat a) 84, lim (leNat a) 105, lim (leNat a) 126,
     lim (leNat a) 147, lim (leNat a) 168, lim (leNat a) 189, lim (leNat a) 210, hi (leNat a) 231] := by
  unfold scLimbs
  rw [limb3_eq a (by decide) 0 rfl, limb4_eq a (by decide) 21 rfl, limb3_eq a (by decide) 42 rfl, limb4_eq a (by decide) 63 rfl,
    limb4_eq a (by decide) 84 rfl, limb3_eq a (by decide) 105 rfl, limb4_eq a (by decide) 126 rfl, limb3_eq a (by decide) 147 rfl,
    limb3_eq a (by decide) 168 rfl, limb4_eq a (by decide) 189 rfl, limb3_eq a (by decide) 210 rfl, top4_eq ha 231 rfl]

theorem scLimbs64_eq {a : Bytes} (ha : a.length = 64) : scLimbs64 a =
    [lim (leNat a) 0, lim (leNat a) 21, lim (leNat a) 42, lim (leNat a) 63, lim (leNat a) 84, lim (leNat a) 105, lim (leNat a) 126,
     lim (leNat a) 147, lim (leNat a) 168, lim (leNat a) 189, lim (leNat a) 210, lim (leNat a) 231, lim (leNat a) 252, lim (leNat a) 273,
     lim (leNat a) 294, lim (leNat a) 315, lim (leNat a) 336, lim (leNat a) 357, lim (leNat a) 378, lim (leNat a) 399, lim (leNat a) 420,
     lim (leNat a) 441, lim (leNat a) 462, hi (leNat a) 483] := by
  unfold scLimbs64
  rw [limb3_eq a (by decide) 0 rfl, limb4_eq a (by decide) 21 rfl, limb3_eq a (by decide) 42 rfl, limb4_eq a (by decide) 63 rfl,
    limb4_eq a (by decide) 84 rfl, limb3_eq a (by decide) 105 rfl, limb4_eq a (by decide) 126 rfl, limb3_eq a (by decide) 147 rfl,
    limb3_eq a (by decide) 168 rfl, limb4_eq a (by decide) 189 rfl, limb3_eq a (by decide) 210 rfl, limb4_eq a (by decide) 231 rfl,
    limb4_eq a (by decide) 252 rfl, limb3_eq a (by decide) 273 rfl, limb4_eq a (by decide) 294 rfl, limb3_eq a (by decide) 315 rfl,
    limb3_eq a (by decide) 336 rfl, limb4_eq a (by decide) 357 rfl, limb3_eq a (by decide) 378 rfl, limb4_eq a (by decide) 399 rfl,
    limb4_eq a (by decide) 420 rfl, limb3_eq a (by decide) 441 rfl, limb4_eq a (by decide) 462 rfl, top4_eq ha 483 rfl]

theorem lim_range (N n : Nat) : 0 ≤ lim N n ∧ lim N n ≤ 2097151 := by
  unfold lim
  have : N / 2 ^ n % 2 ^ 21 < 2 ^ 21 := Nat.mod_lt _ (by positivity)
  omega

theorem hi_range {N n b : Nat} (h : N < 2 ^ (n + b)) : 0 ≤ hi N n ∧ hi N n ≤ 2 ^ b - 1 := by
  unfold hi
  have : N / 2 ^ n < 2 ^ b := Nat.div_lt_of_lt_mul (by rw [pow_add] at h; exact h)
  have h2 : ((N / 2 ^ n : Nat) : Int) < ((2 ^ b : Nat) : Int) := by exact_mod_cast this
  push_cast at h2 ⊢
  refine ⟨by positivity, by omega⟩

/-- put a digit back -/
theorem lim_hi (N n : Nat) : lim N n + 2 ^ 21 * hi N (n + 21) = hi N n := by
  unfold lim hi
  rw [pow_add, ← Nat.div_div_eq_div_mul]
  have := Nat.mod_add_div (N / 2 ^ n) (2 ^ 21)
  exact_mod_cast this

theorem hi_zero (N : Nat) : hi N 0 = N := by unfold hi; rw [pow_zero, Nat.div_one]

/-! ### the values of the limbs -/

theorem sPoly_ev12 (k : Nat) (ρ : Nat → Int) : (sPoly k 12).ev ρ = ρ k + 2 ^ 21 * ρ (k + 1) + 2 ^ 42 * ρ (k + 2) + 2 ^ 63 * ρ (k + 3) +
    2 ^ 84 * ρ (k + 4) + 2 ^ 105 * ρ (k + 5) + 2 ^ 126 * ρ (k + 6) + 2 ^ 147 * ρ (k + 7) + 2 ^ 168 * ρ (k + 8) + 2 ^ 189 * ρ (k + 9) +
    2 ^ 210 * ρ (k + 10) + 2 ^ 231 * ρ (k + 11) := by
  unfold sPoly Poly.ev
  simp only [List.range, List.range.loop, List.map, List.sum_cons, List.sum_nil, Mono.ev]
  norm_num
  ring

theorem sPoly_ev13 (ρ : Nat → Int) : (sPoly 0 13).ev ρ = (sPoly 0 12).ev ρ + 2 ^ 252 * ρ 12 := by
  unfold sPoly Poly.ev
  simp only [List.range, List.range.loop, List.map, List.sum_cons, List.sum_nil, Mono.ev]
  norm_num
  ring

set_option exponentiation.threshold 600 in
theorem sPoly_ev24 (ρ : Nat → Int) : (sPoly 0 24).ev ρ = (sPoly 0 12).ev ρ + 2 ^ 252 * (sPoly 12 12).ev ρ := by
  unfold sPoly Poly.ev
  simp only [List.range, List.range.loop, List.map, List.sum_cons, List.sum_nil, Mono.ev]
  norm_num
  ring

/-- the digits of a number, the last one unbounded -/
theorem digits12 (N n : Nat) : lim N n + 2 ^ 21 * lim N (n + 21) + 2 ^ 42 * lim N (n + 42) + 2 ^ 63 * lim N (n + 63) + 2 ^ 84 * lim N (n + 84) +
    2 ^ 105 * lim N (n + 105) + 2 ^ 126 * lim N (n + 126) + 2 ^ 147 * lim N (n + 147) + 2 ^ 168 * lim N (n + 168) + 2 ^ 189 * lim N (n + 189) +
    2 ^ 210 * lim N (n + 210) + 2 ^ 231 * hi N (n + 231) = hi N n := by
  have h0 := lim_hi N n
  have h1 := lim_hi N (n + 21)
  have h2 := lim_hi N (n + 42)
  have h3 := lim_hi N (n + 63)
  have h4 := lim_hi N (n + 84)
  have h5 := lim_hi N (n + 105)
  have h6 := lim_hi N (n + 126)
  have h7 := lim_hi N (n + 147)
  have h8 := lim_hi N (n + 168)
  have h9 := lim_hi N (n + 189)
  have h10 := lim_hi N (n + 210)
  simp only [Nat.add_assoc, Nat.reduceAdd] at h0 h1 h2 h3 h4 h5 h6 h7 h8 h9 h10
  linear_combination h0 + 2 ^ 21 * h1 + 2 ^ 42 * h2 + 2 ^ 63 * h3 + 2 ^ 84 * h4 + 2 ^ 105 * h5 + 2 ^ 126 * h6 + 2 ^ 147 * h7 + 2 ^ 168 * h8 +
    2 ^ 189 * h9 + 2 ^ 210 * h10

theorem scReduceEnv_val {s : Bytes} (hs : s.length = 64) : (sPoly 0 24).ev (scReduceEnv s) = leNat s := by
  rw [sPoly_ev24, sPoly_ev12, sPoly_ev12]
  unfold scReduceEnv
  rw [scLimbs64_eq hs]
  simp only [Nat.zero_add, Nat.reduceAdd, List.getD_cons_zero, List.getD_cons_succ]
  have d0 := digits12 (leNat s) 0
  have d1 := digits12 (leNat s) 252
  have l := lim_hi (leNat s) 231
  have z := hi_zero (leNat s)
  simp only [Nat.zero_add, Nat.reduceAdd] at d0 d1 l
  linear_combination d0 + 2 ^ 252 * d1 + 2 ^ 231 * l + z

set_option exponentiation.threshold 600 in
theorem scReduceEnv_ok {s : Bytes} (hs : s.length = 64) : ∀ x ∈ reduceIv, x.2.mem (scReduceEnv s x.1) := by
  have hl : leNat s < 2 ^ (483 + 29) := by
    have := leNat_lt hs
    have e : 256 ^ 64 = 2 ^ (483 + 29) := by norm_num
    rwa [e] at this
  have hh := hi_range hl
  have hr := lim_range (leNat s)
  unfold scReduceEnv
  rw [scLimbs64_eq hs]
  unfold reduceIv lim21
  simp only [List.range, List.range.loop, List.map, List.cons_append, List.nil_append, List.mem_cons, List.not_mem_nil, or_false,
    forall_eq_or_imp, forall_eq, Iv.mem, Nat.zero_add, List.getD_cons_zero, List.getD_cons_succ]
  norm_num at hh
  simp only [hr, hh, and_self]

theorem scMulAddEnv_ok {a b c : Bytes} (ha : a.length = 32) (hb : b.length = 32) (hc : c.length = 32) :
    ∀ x ∈ mulAddIv, x.2.mem (scMulAddEnv a b c x.1) := by
  have hl : ∀ s : Bytes, s.length = 32 → leNat s < 2 ^ (231 + 25) := by
    intro s hs
    have := leNat_lt hs
    have e : 256 ^ 32 = 2 ^ (231 + 25) := by norm_num
    rwa [e] at this
  have h1 := hi_range (hl a ha)
  have h2 := hi_range (hl b hb)
  have h3 := hi_range (hl c hc)
  have hr := lim_range
  unfold scMulAddEnv
  rw [scLimbs_eq ha, scLimbs_eq hb, scLimbs_eq hc]
  unfold mulAddIv lim21
  simp only [List.range, List.range.loop, List.map, List.replicate, List.cons_append, List.nil_append, List.mem_cons, List.not_mem_nil, or_false,
    forall_eq_or_imp, forall_eq, Iv.mem, Nat.zero_add, Nat.reduceAdd, List.getD_cons_zero, List.getD_cons_succ]
  norm_num at h1 h2 h3
  simp only [hr, h1, h2, h3, and_self]

theorem scMulAddEnv_val {a b c : Bytes} (ha : a.length = 32) (hb : b.length = 32) (hc : c.length = 32) :
    (((sPoly 24 12).mul (sPoly 36 12)).add (sPoly 48 12)).ev (scMulAddEnv a b c) = leNat a * leNat b + leNat c := by
  rw [Poly.ev_add, Poly.ev_mul, sPoly_ev12, sPoly_ev12, sPoly_ev12]
  unfold scMulAddEnv
  rw [scLimbs_eq ha, scLimbs_eq hb, scLimbs_eq hc]
  simp only [List.replicate, List.cons_append, List.nil_append, Nat.zero_add, Nat.reduceAdd, List.getD_cons_zero, List.getD_cons_succ]
  have da := digits12 (leNat a) 0
  have db := digits12 (leNat b) 0
  have dc := digits12 (leNat c) 0
  simp only [Nat.zero_add, hi_zero] at da db dc
  rw [da, db, dc]

/-! ### packing -/

theorem wrap64_mod (z : Int) : wrap 64 z % 256 = z % 256 := by
  have h : wrap 64 z % 18446744073709551616 = z % 18446744073709551616 := by
    unfold wrap
    exact Int.bmod_emod
  omega

theorem byteOr64_eq (x : Int) (k : Nat) (y : Int) (j : Nat) : byteOr64 x k y j = byteOr32 x k y j := by
  unfold byteOr64 byteOr32
  congr 1
  unfold byteOf
  rw [wrap64_mod, wrap32_mod]

/-- limbs of 21 bits, the last of at most 22 -/
structure Lims (ρ : Nat → Int) : Prop where
  low : ∀ i, i < 11 → 0 ≤ ρ i ∧ ρ i ≤ 2097151
  top : 0 ≤ ρ 11 ∧ ρ 11 ≤ 4194303

theorem scPack_length (ρ : Nat → Int) : (scPack ρ).length = 32 := rfl

theorem scPack_spec {ρ : Nat → Int} (h : Lims ρ) : (leNat (scPack ρ) : Int) = (sPoly 0 12).ev ρ := by
  have b0 := h.low 0 (by decide)
  have b1 := h.low 1 (by decide)
  have b2 := h.low 2 (by decide)
  have b3 := h.low 3 (by decide)
  have b4 := h.low 4 (by decide)
  have b5 := h.low 5 (by decide)
  have b6 := h.low 6 (by decide)
  have b7 := h.low 7 (by decide)
  have b8 := h.low 8 (by decide)
  have b9 := h.low 9 (by decide)
  have b10 := h.low 10 (by decide)
  have b11 := h.top
  rw [sPoly_ev12]
  unfold scPack
  simp only [Nat.zero_add]
  generalize ρ 0 = s0 at *
  generalize ρ 1 = s1 at *
  generalize ρ 2 = s2 at *
  generalize ρ 3 = s3 at *
  generalize ρ 4 = s4 at *
  generalize ρ 5 = s5 at *
  generalize ρ 6 = s6 at *
  generalize ρ 7 = s7 at *
  generalize ρ 8 = s8 at *
  generalize ρ 9 = s9 at *
  generalize ρ 10 = s10 at *
  generalize ρ 11 = s11 at *
  simp only [leNat, byteOr64_eq]
  push_cast
  rw [byteOr32_toNat (x := s0) (by omega) (by omega) (by omega), byteOr32_toNat (x := s1) (by omega) (by omega) (by omega),
    byteOr32_toNat (x := s2) (by omega) (by omega) (by omega), byteOr32_toNat (x := s3) (by omega) (by omega) (by omega),
    byteOr32_toNat (x := s4) (by omega) (by omega) (by omega), byteOr32_toNat (x := s5) (by omega) (by omega) (by omega),
    byteOr32_toNat (x := s6) (by omega) (by omega) (by omega), byteOr32_toNat (x := s8) (by omega) (by omega) (by omega),
    byteOr32_toNat (x := s9) (by omega) (by omega) (by omega), byteOr32_toNat (x := s10) (by omega) (by omega) (by omega)]
  simp only [byteOf_toNat]
  have e0 : s0 % 256 + 256 * (s0 / 2 ^ 8 % 256) + 65536 * (s0 / 2 ^ 16) = s0 := by omega
  have e1 : s1 * 2 ^ 5 % 256 + 256 * (s1 / 2 ^ 3 % 256) + 65536 * (s1 / 2 ^ 11 % 256) + 16777216 * (s1 / 2 ^ 19) = 32 * s1 := by omega
  have e2 : s2 * 2 ^ 2 % 256 + 256 * (s2 / 2 ^ 6 % 256) + 65536 * (s2 / 2 ^ 14) = 4 * s2 := by omega
  have e3 : s3 * 2 ^ 7 % 256 + 256 * (s3 / 2 ^ 1 % 256) + 65536 * (s3 / 2 ^ 9 % 256) + 16777216 * (s3 / 2 ^ 17) = 128 * s3 := by omega
  have e4 : s4 * 2 ^ 4 % 256 + 256 * (s4 / 2 ^ 4 % 256) + 65536 * (s4 / 2 ^ 12 % 256) + 16777216 * (s4 / 2 ^ 20) = 16 * s4 := by omega
  have e5 : s5 * 2 ^ 1 % 256 + 256 * (s5 / 2 ^ 7 % 256) + 65536 * (s5 / 2 ^ 15) = 2 * s5 := by omega
  have e6 : s6 * 2 ^ 6 % 256 + 256 * (s6 / 2 ^ 2 % 256) + 65536 * (s6 / 2 ^ 10 % 256) + 16777216 * (s6 / 2 ^ 18) = 64 * s6 := by omega
  have e7 : s7 * 2 ^ 3 % 256 + 256 * (s7 / 2 ^ 5 % 256) + 65536 * (s7 / 2 ^ 13 % 256) = 8 * s7 := by omega
  have e8 : s8 % 256 + 256 * (s8 / 2 ^ 8 % 256) + 65536 * (s8 / 2 ^ 16) = s8 := by omega
  have e9 : s9 * 2 ^ 5 % 256 + 256 * (s9 / 2 ^ 3 % 256) + 65536 * (s9 / 2 ^ 11 % 256) + 16777216 * (s9 / 2 ^ 19) = 32 * s9 := by omega
  have e10 : s10 * 2 ^ 2 % 256 + 256 * (s10 / 2 ^ 6 % 256) + 65536 * (s10 / 2 ^ 14) = 4 * s10 := by omega
  have e11 : s11 * 2 ^ 7 % 256 + 256 * (s11 / 2 ^ 1 % 256) + 65536 * (s11 / 2 ^ 9 % 256) + 16777216 * (s11 / 2 ^ 17 % 256) = 128 * s11 := by omega
  norm_num at e0 e1 e2 e3 e4 e5 e6 e7 e8 e9 e10 e11 ⊢
  linear_combination e0 + 2 ^ 16 * e1 + 2 ^ 40 * e2 + 2 ^ 56 * e3 + 2 ^ 80 * e4 + 2 ^ 104 * e5 + 2 ^ 120 * e6 + 2 ^ 144 * e7 + 2 ^ 168 * e8 +
    2 ^ 184 * e9 + 2 ^ 208 * e10 + 2 ^ 224 * e11

/-! ### reduction -/

theorem lim21_mem {k n : Nat} {ρ : Nat → Int} {rest : IvEnv} (h : ∀ x ∈ lim21 k n ++ rest, x.2.mem (ρ x.1)) :
    (∀ i, i < n → 0 ≤ ρ (k + i) ∧ ρ (k + i) ≤ 2097151) ∧ ∀ x ∈ rest, x.2.mem (ρ x.1) := by
  refine ⟨fun i hi => ?_, fun x hx => h x (List.mem_append_right _ hx)⟩
  have := h (k + i, ⟨0, 2097151⟩) (List.mem_append_left _ (by
    unfold lim21
    exact List.mem_map.mpr ⟨i, List.mem_range.mpr hi, rfl⟩))
  exact this

theorem sPoly12_range {ρ : Nat → Int} (h : ∀ i, i < 11 → 0 ≤ ρ i ∧ ρ i ≤ 2097151) :
    ∃ low, (sPoly 0 12).ev ρ = low + 2 ^ 231 * ρ 11 ∧ 0 ≤ low ∧ low < 2 ^ 231 := by
  have b0 := h 0 (by decide)
  have b1 := h 1 (by decide)
  have b2 := h 2 (by decide)
  have b3 := h 3 (by decide)
  have b4 := h 4 (by decide)
  have b5 := h 5 (by decide)
  have b6 := h 6 (by decide)
  have b7 := h 7 (by decide)
  have b8 := h 8 (by decide)
  have b9 := h 9 (by decide)
  have b10 := h 10 (by decide)
  refine ⟨_, sPoly_ev12 0 ρ, ?_, ?_⟩ <;> simp only [Nat.zero_add] <;> norm_num <;> omega

theorem L_eq : L = (Spec.ell : Int) := by decide +kernel

/-- The last two stages: from a number in a small range to its representative. -/
theorem finish {floor last : List St} (hfi : ivCheck midIv floor floorIv = true) (hfw : wpCheck 0 floor (sPoly 0 13) (sPoly 0 13) = true)
    (hli : ivCheck floorIv last lastIv = true) (hlw : wpCheck 0 last (sPoly 0 12) ((sPoly 0 13).sub [(L, [12])]) = true)
    {ρ : Nat → Int} (hρ : ∀ x ∈ midIv, x.2.mem (ρ x.1)) :
    Lims (run last (run floor ρ)) ∧ (sPoly 0 12).ev (run last (run floor ρ)) = (sPoly 0 12).ev ρ % L := by
  have h12 : ρ 12 = 0 := by
    have := hρ (12, ⟨0, 0⟩) (by decide)
    exact Int.le_antisymm this.2 this.1
  obtain ⟨f1, f2⟩ := ivCheck_sound hfi (IvEnv.ok_of_mem hρ)
  have f3 := wpCheck_sound hfw ρ
  rw [← f1] at f2 f3
  obtain ⟨l1, l2⟩ := ivCheck_sound hli (IvEnv.ok_of_mem f2)
  have l3 := wpCheck_sound hlw (run floor ρ)
  rw [← l1] at l2 l3
  generalize run floor ρ = ρ1 at *
  generalize run last ρ1 = ρ2 at *
  have f3 := Int.eq_of_sub_eq_zero (Int.zero_dvd.mp f3)
  have l3 := Int.eq_of_sub_eq_zero (Int.zero_dvd.mp l3)
  rw [Poly.ev_sub] at l3
  have eL : Poly.ev ρ1 [(L, [12])] = L * ρ1 12 := by simp [Poly.ev, Mono.ev]
  rw [eL, f3, sPoly_ev13, h12, mul_zero, add_zero] at l3
  obtain ⟨g1, g2⟩ := lim21_mem (k := 0) f2
  have g2 := g2 (12, ⟨-1, 0⟩) (by simp)
  simp only [Iv.mem] at g2
  obtain ⟨m1, m2⟩ := lim21_mem (k := 0) l2
  have m2 := m2 (11, ⟨-1, 2097152⟩) (by simp)
  simp only [Iv.mem] at m2
  simp only [Nat.zero_add] at g1 m1
  obtain ⟨low, e1, r1, r2⟩ := sPoly12_range fun i hi => g1 i (by omega)
  have g11 := g1 11 (by decide)
  obtain ⟨low2, e2, q1, q2⟩ := sPoly12_range m1
  rw [sPoly_ev13, sPoly_ev13 ρ, h12, mul_zero, add_zero] at f3
  have hL : L = 2 ^ 252 + 27742317777372353535851937790883648493 := by decide +kernel
  have hres : 0 ≤ (sPoly 0 12).ev ρ2 ∧ (sPoly 0 12).ev ρ2 < L := by
    rw [l3, ← f3, e1, hL]
    have : ρ1 12 = -1 ∨ ρ1 12 = 0 := by omega
    rcases this with h | h <;> rw [h] <;> norm_num <;> norm_num at r2 <;> omega
  refine ⟨⟨m1, ?_⟩, ?_⟩
  · rw [e2, hL] at hres
    norm_num at hres q2
    omega
  · rw [← Int.emod_eq_of_lt hres.1 hres.2, l3]
    exact Int.sub_mul_emod_self_left _ _ _

/-- ScReduce -/
theorem scReduce_spec {b : Bytes} (hb : b.length = 64) : leNat (scReduce b) = leNat b % Spec.ell := by
  obtain ⟨h1, h2⟩ := ivCheck_sound reduce_fold_iv (IvEnv.ok_of_mem (scReduceEnv_ok hb))
  have h3 := wpCheck_sound reduce_fold_wp (scReduceEnv b)
  rw [← h1] at h2 h3
  obtain ⟨f1, f2⟩ := finish reduce_floor_iv reduce_floor_wp reduce_last_iv reduce_last_wp h2
  have := scPack_spec f1
  rw [f2, Int.emod_eq_emod_iff_emod_sub_eq_zero.mpr (Int.emod_eq_zero_of_dvd h3), scReduceEnv_val hb, L_eq] at this
  exact_mod_cast this

/-- ScMulAdd -/
theorem scMulAdd_spec {a b c : Bytes} (ha : a.length = 32) (hb : b.length = 32) (hc : c.length = 32) :
    leNat (scMulAdd a b c) = (leNat a * leNat b + leNat c) % Spec.ell := by
  obtain ⟨h1, h2⟩ := ivCheck_sound mulAdd_iv (IvEnv.ok_of_mem (scMulAddEnv_ok ha hb hc))
  have h3 := wpCheck_sound mulAdd_wp (scMulAddEnv a b c)
  rw [← h1] at h2 h3
  obtain ⟨f1, f2⟩ := finish mulAdd_floor_iv mulAdd_floor_wp mulAdd_last_iv mulAdd_last_wp h2
  have := scPack_spec f1
  rw [f2, Int.emod_eq_emod_iff_emod_sub_eq_zero.mpr (Int.emod_eq_zero_of_dvd h3), scMulAddEnv_val ha hb hc, L_eq] at this
  exact_mod_cast this

/-! ### negation -/

theorem scNegStep_tab : ∀ n : Fin 512, scNegStep ((n.val : Int) - 256) =
    if n.val < 256 then (UInt8.ofNat n.val, -1) else (UInt8.ofNat (n.val - 256), 0) := by decide +kernel

theorem scNegStep_spec {z : Int} (h1 : -256 ≤ z) (h2 : z ≤ 255) :
    ((scNegStep z).1.toNat : Int) + 256 * (scNegStep z).2 = z ∧ ((scNegStep z).2 = 0 ∨ (scNegStep z).2 = -1) := by
  have h := scNegStep_tab ⟨(z + 256).toNat, by omega⟩
  have e : (((z + 256).toNat : Nat) : Int) - 256 = z := by omega
  simp only [e] at h
  rw [h]
  split
  · rename_i hlt
    refine ⟨?_, Or.inr rfl⟩
    simp only [UInt8.toNat_ofNat']
    omega
  · rename_i hge
    refine ⟨?_, Or.inl rfl⟩
    simp only [UInt8.toNat_ofNat']
    omega

theorem scNegLoop_length : ∀ {ls ss : List UInt8} {c : Int}, ls.length = ss.length → (scNegLoop c ls ss).length = ls.length
  | [], [], _, _ => rfl
  | l :: ls, s :: ss, c, h => by
    unfold scNegLoop
    simp only [List.length_cons] at h ⊢
    rw [scNegLoop_length (by omega)]
  | [], _ :: _, _, h => by simp at h
  | _ :: _, [], _, h => by simp at h

theorem scNegLoop_spec : ∀ {ls ss : List UInt8} {c : Int}, ls.length = ss.length → (c = 0 ∨ c = -1) →
    ∃ c', (c' = 0 ∨ c' = -1) ∧ (leNat (scNegLoop c ls ss) : Int) + 256 ^ ls.length * c' = c + leNat ls - leNat ss
  | [], [], c, _, hc => ⟨c, hc, by simp [scNegLoop, leNat]⟩
  | l :: ls, s :: ss, c, h, hc => by
    have hl := l.toNat_lt
    have hs := s.toNat_lt
    obtain ⟨s1, s2⟩ := scNegStep_spec (z := c + (l.toNat : Int) - (s.toNat : Int)) (by omega) (by omega)
    unfold scNegLoop
    simp only [List.length_cons] at h ⊢
    obtain ⟨c', h1, h2⟩ := scNegLoop_spec (ls := ls) (ss := ss) (by omega) s2
    refine ⟨c', h1, ?_⟩
    simp only [leNat]
    push_cast
    rw [pow_succ]
    linear_combination s1 + 256 * h2
  | [], _ :: _, _, h, _ => by simp at h
  | _ :: _, [], _, h, _ => by simp at h

theorem scNeg_length {b : Bytes} (hb : b.length = 32) : (scNeg b).length = 32 := scNegLoop_length (by rw [hb]; rfl)

/-- ScNeg -/
theorem scNeg_spec {b : Bytes} (hb : b.length = 32) (h : leNat b ≤ Spec.ell) : leNat (scNeg b) = Spec.ell - leNat b := by
  have hlen : ∀ l : List UInt8, l.length = 32 → l.length = b.length := fun l hl => by rw [hl, hb]
  unfold scNeg
  obtain ⟨c', h1, h2⟩ := scNegLoop_spec (ls := [237, 211, 245, 92, 26, 99, 18, 88, 214, 156, 247, 162, 222, 249, 222, 20, 0, 0, 0, 0, 0, 0, 0, 0, 0, 0, 0, 0, 0, 0, 0, 16])
    (ss := b) (hlen _ rfl) (Or.inl rfl)
  have hl : leNat [237, 211, 245, 92, 26, 99, 18, 88, 214, 156, 247, 162, 222, 249, 222, 20, 0, 0, 0, 0, 0, 0, 0, 0, 0, 0, 0, 0, 0, 0, 0, 16] = Spec.ell := by
    decide +kernel
  rw [hl] at h2
  have hlt := leNat_lt (b := scNegLoop 0 [237, 211, 245, 92, 26, 99, 18, 88, 214, 156, 247, 162, 222, 249, 222, 20, 0, 0, 0, 0, 0, 0, 0, 0, 0, 0, 0, 0, 0, 0, 0, 16] b) (n := 32)
    (scNegLoop_length (hlen _ rfl))
  generalize scNegLoop 0 [237, 211, 245, 92, 26, 99, 18, 88, 214, 156, 247, 162, 222, 249, 222, 20, 0, 0, 0, 0, 0, 0, 0, 0, 0, 0, 0, 0, 0, 0, 0, 16] b = r at *
  simp only [List.length_cons, List.length_nil, Nat.zero_add, Nat.reduceAdd] at h2
  norm_num at h2 hlt
  rcases h1 with h1 | h1 <;> rw [h1] at h2 <;> omega

end Coniks.Ed

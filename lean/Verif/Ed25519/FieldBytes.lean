import Verif.Ed25519.FieldProofs
import Verif.Model.Vrf
import Mathlib.Tactic.NormNum
/-
`FeFromBytes` and `FeToBytes`.
-/
namespace Coniks.Ed
open Coniks

theorem byteAt_lt (b : Bytes) (i : Nat) : byteAt b i < 256 := UInt8.toNat_lt _

theorem load3_eq (b : Bytes) (i : Nat) : load3 b i = byteAt b i + 2 ^ 8 * byteAt b (i + 1) + 2 ^ 16 * byteAt b (i + 2) := by
  have h0 := byteAt_lt b i
  have h1 := byteAt_lt b (i + 1)
  unfold load3
  rw [Nat.or_comm (byteAt b i), ← Nat.shiftLeft_add_eq_or_of_lt (by simpa using h0), Nat.or_comm,
    ← Nat.shiftLeft_add_eq_or_of_lt (by rw [Nat.shiftLeft_eq]; omega)]
  simp only [Nat.shiftLeft_eq]; omega

theorem load4_eq (b : Bytes) (i : Nat) : load4 b i =
    byteAt b i + 2 ^ 8 * byteAt b (i + 1) + 2 ^ 16 * byteAt b (i + 2) + 2 ^ 24 * byteAt b (i + 3) := by
  have h0 := byteAt_lt b i
  have h1 := byteAt_lt b (i + 1)
  have h2 := byteAt_lt b (i + 2)
  have h := load3_eq b i
  unfold load3 at h
  unfold load4
  rw [h, Nat.or_comm, ← Nat.shiftLeft_add_eq_or_of_lt (by omega)]
  simp only [Nat.shiftLeft_eq]; omega

theorem load3_lt (b : Bytes) (i : Nat) : load3 b i < 2 ^ 24 := by
  have h0 := byteAt_lt b i
  have h1 := byteAt_lt b (i + 1)
  have h2 := byteAt_lt b (i + 2)
  rw [load3_eq]; omega

theorem load4_lt (b : Bytes) (i : Nat) : load4 b i < 2 ^ 32 := by
  have h0 := byteAt_lt b i
  have h1 := byteAt_lt b (i + 1)
  have h2 := byteAt_lt b (i + 2)
  have h3 := byteAt_lt b (i + 3)
  rw [load4_eq]; omega

/-- bytes `k` to `k + n - 1` as a number -/
def bytesSum (b : Bytes) (k : Nat) : Nat → Nat
  | 0 => 0
  | n + 1 => byteAt b k + 256 * bytesSum b (k + 1) n

theorem leNat_drop (b : Bytes) (n : Nat) : ∀ k, k + n = b.length → leNat (b.drop k) = bytesSum b k n := by
  induction n with
  | zero => intro k h; rw [List.drop_eq_nil_of_le (by omega)]; rfl
  | succ n ih =>
    intro k h
    have hk : k < b.length := by omega
    rw [List.drop_eq_getElem_cons hk]
    simp only [leNat, bytesSum, byteAt]
    rw [ih (k + 1) (by omega), List.getD_eq_getElem?_getD, List.getElem?_eq_getElem hk]; rfl

theorem leNat_eq_sum {b : Bytes} {n : Nat} (h : b.length = n) : leNat b = bytesSum b 0 n := by
  have := leNat_drop b n 0 (by omega)
  simpa using this

theorem bytesSum_lt (b : Bytes) (n : Nat) : ∀ k, bytesSum b k n < 256 ^ n := by
  induction n with
  | zero => intro k; simp [bytesSum]
  | succ n ih =>
    intro k
    have h1 := ih (k + 1)
    have h2 := byteAt_lt b k
    simp only [bytesSum, pow_succ]
    omega

theorem leNat_lt {b : Bytes} {n : Nat} (h : b.length = n) : leNat b < 256 ^ n := by
  rw [leNat_eq_sum h]; exact bytesSum_lt b n 0

private theorem shl64_eq {x k : Nat} (hx : x < 2 ^ 24) (hk : k ≤ 7) : shl64 x k = (x : Int) * 2 ^ k := by
  unfold shl64
  have h0 : (0 : Int) ≤ (x : Int) * 2 ^ k := by positivity
  have h1 : x * 2 ^ k ≤ 2 ^ 24 * 2 ^ 7 := Nat.mul_le_mul hx.le (Nat.pow_le_pow_right (by decide) hk)
  have h2 : half 64 = 9223372036854775808 := rfl
  have h3 : (x : Int) * 2 ^ k ≤ 2147483648 := by exact_mod_cast h1
  apply wrap_id (by decide) <;> rw [h2] <;> linarith

theorem and23_eq (x : Nat) : and23 x = x % 8388608 := by
  unfold and23
  have : (8388607 : Nat) = 2 ^ 23 - 1 := rfl
  rw [this, Nat.and_two_pow_sub_one_eq_mod]

/-- the loaded limbs without the shifts wrapping around -/
theorem feLoad_eq (s : Bytes) : feLoad s = ⟨load4 s 0, load3 s 4 * 2 ^ 6, load3 s 7 * 2 ^ 5, load3 s 10 * 2 ^ 3, load3 s 13 * 2 ^ 2, load4 s 16,
    load3 s 20 * 2 ^ 7, load3 s 23 * 2 ^ 5, load3 s 26 * 2 ^ 4, ((load3 s 29 % 8388608 : Nat) : Int) * 2 ^ 2⟩ := by
  unfold feLoad
  rw [shl64_eq (load3_lt s 4) (by decide), shl64_eq (load3_lt s 7) (by decide), shl64_eq (load3_lt s 10) (by decide),
    shl64_eq (load3_lt s 13) (by decide), shl64_eq (load3_lt s 20) (by decide), shl64_eq (load3_lt s 23) (by decide),
    shl64_eq (load3_lt s 26) (by decide), and23_eq, shl64_eq ?_ (by decide)]
  exact lt_trans (Nat.mod_lt _ (by decide)) (by decide)

theorem feLoad_ok (s : Bytes) : ∀ x ∈ loadIv, x.2.mem ((feLoad s).env x.1) := by
  have a0 := load4_lt s 0
  have a1 := load3_lt s 4
  have a2 := load3_lt s 7
  have a3 := load3_lt s 10
  have a4 := load3_lt s 13
  have a5 := load4_lt s 16
  have a6 := load3_lt s 20
  have a7 := load3_lt s 23
  have a8 := load3_lt s 26
  have a9 : load3 s 29 % 8388608 < 8388608 := Nat.mod_lt _ (by decide)
  rw [feLoad_eq]
  unfold loadIv
  simp only [List.mem_cons, List.not_mem_nil, or_false, forall_eq_or_imp, forall_eq, Iv.mem, Fe.env]
  generalize load3 s 29 % 8388608 = m at *
  refine ⟨?_, ?_, ?_, ?_, ?_, ?_, ?_, ?_, ?_, ?_⟩ <;> omega

theorem mod_top {A t : Nat} (hA : A < 2 ^ 232) : (A + 2 ^ 232 * t) % 2 ^ 255 = A + 2 ^ 232 * (t % 8388608) := by
  have h1 : t = 8388608 * (t / 8388608) + t % 8388608 := (Nat.div_add_mod t 8388608).symm
  have h2 : t % 8388608 < 8388608 := Nat.mod_lt _ (by decide)
  generalize t % 8388608 = r at *
  generalize t / 8388608 = q at *
  subst h1
  have : A + 2 ^ 232 * (8388608 * q + r) = (A + 2 ^ 232 * r) + 2 ^ 255 * q := by ring
  rw [this, Nat.add_mul_mod_self_left]
  apply Nat.mod_eq_of_lt
  have : 2 ^ 232 * r ≤ 2 ^ 232 * 8388607 := Nat.mul_le_mul_left _ (by omega)
  calc A + 2 ^ 232 * r < 2 ^ 232 + 2 ^ 232 * 8388607 := by linarith
    _ = 2 ^ 255 := by norm_num

theorem feLoad_val {s : Bytes} (hs : s.length = 32) : (limbPoly 0).ev (feLoad s).env = ((leNat s % 2 ^ 255 : Nat) : Int) := by
  rw [ev_limbPoly]
  have hsum : leNat s = bytesSum s 0 29 + 2 ^ 232 * load3 s 29 := by
    rw [leNat_eq_sum hs]
    simp only [bytesSum, load3_eq]
    ring
  have hlow : bytesSum s 0 29 = load4 s 0 + 2 ^ 32 * load3 s 4 + 2 ^ 56 * load3 s 7 + 2 ^ 80 * load3 s 10 + 2 ^ 104 * load3 s 13 +
      2 ^ 128 * load4 s 16 + 2 ^ 160 * load3 s 20 + 2 ^ 184 * load3 s 23 + 2 ^ 208 * load3 s 26 := by
    simp only [bytesSum, load3_eq, load4_eq]
    ring
  have hlt : bytesSum s 0 29 < 2 ^ 232 := by
    have := bytesSum_lt s 29 0
    have e : 256 ^ 29 = 2 ^ 232 := by norm_num
    rwa [e] at this
  rw [hsum, mod_top hlt, hlow]
  rw [feLoad_eq]
  simp only [Fe.val, Nat.zero_add, Fe.env]
  push_cast
  ring

/-- `FeFromBytes` ignores the top bit and reads the number modulo p. -/
theorem feFromBytes_spec {s : Bytes} (hs : s.length = 32) :
    (feFromBytes s).Bd 1 ∧ P ∣ (feFromBytes s).val - ((leNat s % 2 ^ 255 : Nat) : Int) := by
  obtain ⟨h1, h2⟩ := ivCheck_sound feFromBytes_iv (IvEnv.ok_of_mem (feLoad_ok s))
  have h3 := wpCheck_sound feFromBytes_wp (feLoad s).env
  rw [feLoad_val hs, ev_limbPoly] at h3
  have h4 := limbIv_mem h2
  unfold feFromBytes
  rw [h1]
  exact ⟨h4, h3⟩

/-! ### FeToBytes -/

/-- limbs of a number in [0, 2^255) -/
structure Fe.Frozen (f : Fe) : Prop where
  b0 : 0 ≤ f.x0 ∧ f.x0 ≤ 67108863
  b1 : 0 ≤ f.x1 ∧ f.x1 ≤ 33554431
  b2 : 0 ≤ f.x2 ∧ f.x2 ≤ 67108863
  b3 : 0 ≤ f.x3 ∧ f.x3 ≤ 33554431
  b4 : 0 ≤ f.x4 ∧ f.x4 ≤ 67108863
  b5 : 0 ≤ f.x5 ∧ f.x5 ≤ 33554431
  b6 : 0 ≤ f.x6 ∧ f.x6 ≤ 67108863
  b7 : 0 ≤ f.x7 ∧ f.x7 ≤ 33554431
  b8 : 0 ≤ f.x8 ∧ f.x8 ≤ 67108863
  b9 : 0 ≤ f.x9 ∧ f.x9 ≤ 33554431

theorem Fe.Frozen.bd {f : Fe} (h : f.Frozen) : f.Bd 2 := by
  obtain ⟨h0, h1, h2, h3, h4, h5, h6, h7, h8, h9⟩ := h
  constructor <;> omega

private theorem nest (a b : Int) (m n : Nat) : (a + b / 2 ^ m) / 2 ^ n = (2 ^ m * a + b) / 2 ^ (m + n) := by
  have hm : (0 : Int) < 2 ^ m := by positivity
  have : a + b / 2 ^ m = (2 ^ m * a + b) / 2 ^ m := by
    rw [Int.add_comm (2 ^ m * a), Int.add_mul_ediv_left _ _ hm.ne', Int.add_comm]
  rw [this, Int.ediv_ediv_of_nonneg (by positivity), pow_add]

/-- the number of limbs 0 to 8 -/
def Fe.low (f : Fe) : Int :=
  f.x0 + 2 ^ 26 * f.x1 + 2 ^ 51 * f.x2 + 2 ^ 77 * f.x3 + 2 ^ 102 * f.x4 + 2 ^ 128 * f.x5 + 2 ^ 153 * f.x6 + 2 ^ 179 * f.x7 + 2 ^ 204 * f.x8

theorem quot_eq (f : Fe) : runZ FeToBytes.quot f.env FeToBytes.q.idx = (f.val + (19 * f.x9 + 16777216) / 2 ^ 25) / 2 ^ 255 := by
  have h : runZ FeToBytes.quot f.env FeToBytes.q.idx =
      (f.x9 + (f.x8 + (f.x7 + (f.x6 + (f.x5 + (f.x4 + (f.x3 + (f.x2 + (f.x1 + (f.x0 + (19 * f.x9 + 16777216) / 2 ^ 25) / 2 ^ 26) / 2 ^ 25) /
        2 ^ 26) / 2 ^ 25) / 2 ^ 26) / 2 ^ 25) / 2 ^ 26) / 2 ^ 25) / 2 ^ 26) / 2 ^ 25 := rfl
  rw [h]
  generalize (19 * f.x9 + 16777216) / 2 ^ 25 = u
  rw [nest f.x1, nest f.x2, nest f.x3, nest f.x4, nest f.x5, nest f.x6, nest f.x7, nest f.x8, nest f.x9]
  congr 1
  unfold Fe.val
  norm_num
  ring

theorem quot_other (f : Fe) (i : Nat) (h : i < 10) : runZ FeToBytes.quot f.env i = f.env i := by
  have : ∀ i : Fin 10, runZ FeToBytes.quot f.env i = f.env i := by
    intro i
    match i with
    | 0 => rfl
    | 1 => rfl
    | 2 => rfl
    | 3 => rfl
    | 4 => rfl
    | 5 => rfl
    | 6 => rfl
    | 7 => rfl
    | 8 => rfl
    | 9 => rfl
  exact this ⟨i, h⟩

/-- the quotient is the quotient -/
theorem quot_spec {f : Fe} (hf : f.Bd 4) : let q := runZ FeToBytes.quot f.env FeToBytes.q.idx; 0 ≤ f.val - P * q ∧ f.val - P * q < P := by
  intro q
  have hq : q = (f.val + (19 * f.x9 + 16777216) / 2 ^ 25) / 2 ^ 255 := quot_eq f
  generalize hu : (19 * f.x9 + 16777216) / 2 ^ 25 = u at hq
  have hu1 : 33554432 * u ≤ 19 * f.x9 + 16777216 := by omega
  have hu2 : 19 * f.x9 + 16777216 ≤ 33554432 * u + 33554431 := by omega
  have hv : f.val = f.low + 2 ^ 230 * f.x9 := rfl
  have hq1 : 2 ^ 255 * q ≤ f.val + u := by rw [hq]; exact Int.mul_ediv_self_le (by positivity)
  have hq2 : f.val + u < 2 ^ 255 * q + 2 ^ 255 := by rw [hq]; exact Int.lt_mul_ediv_self_add (by positivity)
  clear_value q
  clear hq hu
  obtain ⟨b0, b1, b2, b3, b4, b5, b6, b7, b8, b9⟩ := hf
  have hl1 : -(2 ^ 235 : Int) ≤ f.low := by unfold Fe.low; norm_num; linarith
  have hl2 : f.low ≤ (2 ^ 235 : Int) := by unfold Fe.low; norm_num; linarith
  unfold P
  generalize f.val = v at *
  generalize f.low = l at *
  norm_num at *
  constructor
  · by_contra h
    have h : v - 57896044618658097711785492504343953926634992332820282019728792003956564819949 * q ≤ -1 := by omega
    linarith
  · by_contra h
    have h : 57896044618658097711785492504343953926634992332820282019728792003956564819949 ≤
      v - 57896044618658097711785492504343953926634992332820282019728792003956564819949 * q := by omega
    linarith

theorem feFreeze_spec {f : Fe} (hf : f.Bd 4) : (feFreeze f).Frozen ∧ (feFreeze f).val = f.val % P := by
  obtain ⟨h1, h2⟩ := ivCheck_sound feQuot_iv (IvEnv.ok_of_mem (Fe.env_ok hf))
  obtain ⟨h3, h4⟩ := ivCheck_sound feCarries_iv (IvEnv.ok_of_mem h2)
  have h5 := wpCheck_sound feCarries_wp (runZ FeToBytes.quot f.env)
  have h6 := Int.zero_dvd.mp h5
  rw [Poly.ev_add, Poly.ev_add, ev_limbPoly, ev_limbPoly] at h6
  have e1 : ∀ ρ, Poly.ev ρ [(((2 ^ 255 : Nat) : Int), [FeToBytes.carry9.idx])] = 2 ^ 255 * ρ FeToBytes.carry9.idx := by
    intro ρ; unfold Poly.ev Mono.ev; simp
  have e2 : ∀ ρ, Poly.ev ρ [((19 : Int), [FeToBytes.q.idx])] = 19 * ρ FeToBytes.q.idx := by
    intro ρ; unfold Poly.ev Mono.ev; simp
  rw [e1, e2] at h6
  have hfz : feFreeze f = ⟨runZ FeToBytes.carries (runZ FeToBytes.quot f.env) 0, runZ FeToBytes.carries (runZ FeToBytes.quot f.env) 1,
      runZ FeToBytes.carries (runZ FeToBytes.quot f.env) 2, runZ FeToBytes.carries (runZ FeToBytes.quot f.env) 3,
      runZ FeToBytes.carries (runZ FeToBytes.quot f.env) 4, runZ FeToBytes.carries (runZ FeToBytes.quot f.env) 5,
      runZ FeToBytes.carries (runZ FeToBytes.quot f.env) 6, runZ FeToBytes.carries (runZ FeToBytes.quot f.env) 7,
      runZ FeToBytes.carries (runZ FeToBytes.quot f.env) 8, runZ FeToBytes.carries (runZ FeToBytes.quot f.env) 9⟩ := by
    unfold feFreeze
    rw [h1, h3]
    rfl
  have hfr : (feFreeze f).Frozen := by
    rw [hfz]
    unfold frozenIv at h4
    simp only [List.mem_cons, List.not_mem_nil, or_false, forall_eq_or_imp, forall_eq, Iv.mem] at h4
    obtain ⟨a0, a1, a2, a3, a4, a5, a6, a7, a8, a9⟩ := h4
    exact ⟨a0, a1, a2, a3, a4, a5, a6, a7, a8, a9⟩
  refine ⟨hfr, ?_⟩
  have hold : Fe.val ⟨runZ FeToBytes.quot f.env 0, runZ FeToBytes.quot f.env (0 + 1), runZ FeToBytes.quot f.env (0 + 2),
      runZ FeToBytes.quot f.env (0 + 3), runZ FeToBytes.quot f.env (0 + 4), runZ FeToBytes.quot f.env (0 + 5),
      runZ FeToBytes.quot f.env (0 + 6), runZ FeToBytes.quot f.env (0 + 7), runZ FeToBytes.quot f.env (0 + 8),
      runZ FeToBytes.quot f.env (0 + 9)⟩ = f.val := by
    rw [quot_other f 0 (by decide), quot_other f 1 (by decide), quot_other f 2 (by decide), quot_other f 3 (by decide),
      quot_other f 4 (by decide), quot_other f 5 (by decide), quot_other f 6 (by decide), quot_other f 7 (by decide),
      quot_other f 8 (by decide), quot_other f 9 (by decide)]
    rfl
  rw [hold] at h6
  have hnew : Fe.val ⟨runZ FeToBytes.carries (runZ FeToBytes.quot f.env) 0, runZ FeToBytes.carries (runZ FeToBytes.quot f.env) (0 + 1),
      runZ FeToBytes.carries (runZ FeToBytes.quot f.env) (0 + 2), runZ FeToBytes.carries (runZ FeToBytes.quot f.env) (0 + 3),
      runZ FeToBytes.carries (runZ FeToBytes.quot f.env) (0 + 4), runZ FeToBytes.carries (runZ FeToBytes.quot f.env) (0 + 5),
      runZ FeToBytes.carries (runZ FeToBytes.quot f.env) (0 + 6), runZ FeToBytes.carries (runZ FeToBytes.quot f.env) (0 + 7),
      runZ FeToBytes.carries (runZ FeToBytes.quot f.env) (0 + 8), runZ FeToBytes.carries (runZ FeToBytes.quot f.env) (0 + 9)⟩ =
      (feFreeze f).val := by rw [hfz]
  rw [hnew] at h6
  have hq := quot_spec hf
  simp only at hq
  generalize runZ FeToBytes.quot f.env FeToBytes.q.idx = q at *
  generalize runZ FeToBytes.carries (runZ FeToBytes.quot f.env) FeToBytes.carry9.idx = c at *
  have hr : 0 ≤ (feFreeze f).val ∧ (feFreeze f).val < 2 ^ 255 := by
    obtain ⟨a0, a1, a2, a3, a4, a5, a6, a7, a8, a9⟩ := hfr
    unfold Fe.val
    norm_num
    constructor <;> linarith
  have hfin : (feFreeze f).val = f.val - P * q := by
    unfold P at *
    norm_num at *
    omega
  rw [hfin]
  have : (f.val - P * q) % P = f.val % P := by rw [Int.sub_mul_emod_self_left]
  rw [← this]
  exact (Int.emod_eq_of_lt hq.1 hq.2).symm

end Coniks.Ed

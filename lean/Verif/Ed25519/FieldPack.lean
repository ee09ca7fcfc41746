import Verif.Ed25519.FieldBytes
import Mathlib.Tactic.LinearCombination
/-
`FeToBytes` writes the canonical representative of the field element; `FeIsNegative` is its parity and `FeIsNonZero` tells it from zero.
-/
namespace Coniks.Ed

theorem byteOf_toNat (z : Int) : ((byteOf z).toNat : Int) = z % 256 := by
  unfold byteOf
  rw [UInt8.toNat_ofNat']
  have : 0 ≤ z % 256 ∧ z % 256 < 256 := ⟨Int.emod_nonneg _ (by decide), Int.emod_lt_of_pos _ (by decide)⟩
  omega

theorem wrap32_mod (z : Int) : wrap 32 z % 256 = z % 256 := by
  have h : wrap 32 z % 4294967296 = z % 4294967296 := by
    unfold wrap
    exact Int.bmod_emod
  omega

theorem byteOr32_toNat {x y : Int} {k j : Nat} (hx : 0 ≤ x / 2 ^ k) (hx2 : x / 2 ^ k < 2 ^ j) (hj : j ≤ 8) :
    ((byteOr32 x k y j).toNat : Int) = x / 2 ^ k + y * 2 ^ j % 256 := by
  unfold byteOr32
  rw [UInt8.toNat_or]
  have hj8 : (2 : Int) ^ j ≤ 256 := by
    have : (2 : Int) ^ j ≤ 2 ^ 8 := pow_le_pow_right₀ (by norm_num) hj
    simpa using this
  have h1 := byteOf_toNat (x / 2 ^ k)
  rw [Int.emod_eq_of_lt hx (lt_of_lt_of_le hx2 hj8)] at h1
  have h2 := byteOf_toNat (wrap 32 (y * 2 ^ j))
  rw [wrap32_mod] at h2
  obtain ⟨a, ha⟩ : ∃ a : Nat, (byteOf (wrap 32 (y * 2 ^ j))).toNat = 2 ^ j * a := by
    have hd : (2 : Int) ^ j ∣ y * 2 ^ j % 256 := by
      rw [Int.emod_def]
      refine Int.dvd_sub (Dvd.intro_left _ rfl) ?_
      obtain ⟨e, he⟩ := pow_dvd_pow (2 : Int) hj
      refine Dvd.dvd.mul_right ⟨e, ?_⟩ _
      rw [← he]; rfl
    rw [← h2] at hd
    obtain ⟨a, ha⟩ := Int.natCast_dvd_natCast.mp (by push_cast; exact hd : ((2 ^ j : Nat) : Int) ∣ _)
    exact ⟨a, ha⟩
  rw [ha] at h2 ⊢
  have hlt : (byteOf (x / 2 ^ k)).toNat < 2 ^ j := by
    have : ((byteOf (x / 2 ^ k)).toNat : Int) < ((2 ^ j : Nat) : Int) := by rw [h1]; push_cast; exact hx2
    exact_mod_cast this
  rw [Nat.or_comm, ← Nat.two_pow_add_eq_or_of_lt hlt]
  push_cast at h1 h2 ⊢
  rw [h1, h2]; ring

theorem fePack_length (h : Fe) : (fePack h).length = 32 := rfl

theorem fePack_spec {h : Fe} (hf : h.Frozen) : (leNat (fePack h) : Int) = h.val := by
  obtain ⟨b0, b1, b2, b3, b4, b5, b6, b7, b8, b9⟩ := hf
  unfold fePack
  simp only [leNat]
  push_cast
  rw [byteOr32_toNat (by omega) (by omega) (by omega), byteOr32_toNat (by omega) (by omega) (by omega),
    byteOr32_toNat (by omega) (by omega) (by omega), byteOr32_toNat (by omega) (by omega) (by omega),
    byteOr32_toNat (by omega) (by omega) (by omega), byteOr32_toNat (by omega) (by omega) (by omega),
    byteOr32_toNat (by omega) (by omega) (by omega), byteOr32_toNat (by omega) (by omega) (by omega)]
  simp only [byteOf_toNat]
  unfold Fe.val
  have e0 : h.x0 % 256 + 256 * (h.x0 / 2 ^ 8 % 256) + 65536 * (h.x0 / 2 ^ 16 % 256) + 16777216 * (h.x0 / 2 ^ 24) = h.x0 := by omega
  have e1 : h.x1 * 2 ^ 2 % 256 + 256 * (h.x1 / 2 ^ 6 % 256) + 65536 * (h.x1 / 2 ^ 14 % 256) + 16777216 * (h.x1 / 2 ^ 22) = 4 * h.x1 := by omega
  have e2 : h.x2 * 2 ^ 3 % 256 + 256 * (h.x2 / 2 ^ 5 % 256) + 65536 * (h.x2 / 2 ^ 13 % 256) + 16777216 * (h.x2 / 2 ^ 21) = 8 * h.x2 := by omega
  have e3 : h.x3 * 2 ^ 5 % 256 + 256 * (h.x3 / 2 ^ 3 % 256) + 65536 * (h.x3 / 2 ^ 11 % 256) + 16777216 * (h.x3 / 2 ^ 19) = 32 * h.x3 := by omega
  have e4 : h.x4 * 2 ^ 6 % 256 + 256 * (h.x4 / 2 ^ 2 % 256) + 65536 * (h.x4 / 2 ^ 10 % 256) + 16777216 * (h.x4 / 2 ^ 18 % 256) = 64 * h.x4 := by omega
  have e5 : h.x5 % 256 + 256 * (h.x5 / 2 ^ 8 % 256) + 65536 * (h.x5 / 2 ^ 16 % 256) + 16777216 * (h.x5 / 2 ^ 24) = h.x5 := by omega
  have e6 : h.x6 * 2 ^ 1 % 256 + 256 * (h.x6 / 2 ^ 7 % 256) + 65536 * (h.x6 / 2 ^ 15 % 256) + 16777216 * (h.x6 / 2 ^ 23) = 2 * h.x6 := by omega
  have e7 : h.x7 * 2 ^ 3 % 256 + 256 * (h.x7 / 2 ^ 5 % 256) + 65536 * (h.x7 / 2 ^ 13 % 256) + 16777216 * (h.x7 / 2 ^ 21) = 8 * h.x7 := by omega
  have e8 : h.x8 * 2 ^ 4 % 256 + 256 * (h.x8 / 2 ^ 4 % 256) + 65536 * (h.x8 / 2 ^ 12 % 256) + 16777216 * (h.x8 / 2 ^ 20) = 16 * h.x8 := by omega
  have e9 : h.x9 * 2 ^ 6 % 256 + 256 * (h.x9 / 2 ^ 2 % 256) + 65536 * (h.x9 / 2 ^ 10 % 256) + 16777216 * (h.x9 / 2 ^ 18 % 256) = 64 * h.x9 := by omega
  norm_num at e0 e1 e2 e3 e4 e5 e6 e7 e8 e9 ⊢
  linear_combination e0 + 2 ^ 24 * e1 + 2 ^ 48 * e2 + 2 ^ 72 * e3 + 2 ^ 96 * e4 + 2 ^ 128 * e5 + 2 ^ 152 * e6 + 2 ^ 176 * e7 + 2 ^ 200 * e8 + 2 ^ 224 * e9

/-- `FeToBytes`: the bytes are the little-endian representative in [0, p), the argument keeps its value and stays in range. -/
theorem feToBytes_spec {f : Fe} (hf : f.Bd 4) :
    (feToBytes f).1.length = 32 ∧ (leNat (feToBytes f).1 : Int) = f.val % P ∧ (feToBytes f).2.Bd 2 ∧ (feToBytes f).2.val = f.val % P := by
  obtain ⟨h1, h2⟩ := feFreeze_spec hf
  exact ⟨rfl, by rw [← h2]; exact fePack_spec h1, h1.bd, h2⟩

theorem leNat_mod_two : ∀ b : Bytes, leNat b % 2 = (b.getD 0 0 &&& 1).toNat
  | [] => rfl
  | b :: bs => by
    have : leNat (b :: bs) = b.toNat + 256 * leNat bs := rfl
    rw [this]
    simp only [List.getD_cons_zero, UInt8.toNat_and]
    have : b.toNat &&& (1 : UInt8).toNat = b.toNat % 2 := Nat.and_one_is_mod _
    rw [this]; omega

theorem feIsNegative_spec {f : Fe} (hf : f.Bd 4) :
    ((feIsNegative f).1.toNat : Int) = f.val % P % 2 ∧ (feIsNegative f).2.Bd 2 ∧ (feIsNegative f).2.val = f.val % P := by
  obtain ⟨_, h1, h2, h3⟩ := feToBytes_spec hf
  refine ⟨?_, h2, h3⟩
  unfold feIsNegative
  simp only
  rw [← leNat_mod_two, ← h1]
  push_cast; rfl

theorem or_eq_zero8 (a b : UInt8) : a ||| b = 0 ↔ a = 0 ∧ b = 0 := by
  constructor
  · intro h
    have h' : a.toNat ||| b.toNat = 0 := by rw [← UInt8.toNat_or, h]; rfl
    have := Nat.or_eq_zero_iff.mp h'
    exact ⟨UInt8.toNat_inj.mp this.1, UInt8.toNat_inj.mp this.2⟩
  · rintro ⟨rfl, rfl⟩; rfl

theorem foldl_or_eq_zero : ∀ (bs : Bytes) (x : UInt8), bs.foldl (· ||| ·) x = 0 ↔ x = 0 ∧ leNat bs = 0
  | [], x => by simp [leNat]
  | b :: bs, x => by
    rw [List.foldl_cons, foldl_or_eq_zero bs, or_eq_zero8]
    have : leNat (b :: bs) = b.toNat + 256 * leNat bs := rfl
    have h2 : b = 0 ↔ b.toNat = 0 := by rw [← UInt8.toNat_inj]; rfl
    rw [this, h2, and_assoc]
    refine and_congr_right fun _ => ?_
    omega

theorem smear (x : UInt8) : (let x := x ||| x >>> 4; let x := x ||| x >>> 2; let x := x ||| x >>> 1; (x &&& 1).toNat) =
    if x = 0 then 0 else 1 := by
  have h : ∀ n : Fin 256, (let x := UInt8.ofNat n.val; let y := x ||| x >>> 4; let y := y ||| y >>> 2; let y := y ||| y >>> 1; (y &&& 1).toNat) =
    if UInt8.ofNat n.val = 0 then 0 else 1 := by decide +kernel
  have := h ⟨x.toNat, x.toNat_lt⟩
  simpa using this

theorem feIsNonZero_spec {f : Fe} (hf : f.Bd 4) :
    (feIsNonZero f).1 = (if P ∣ f.val then 0 else 1) ∧ (feIsNonZero f).2.Bd 2 ∧ (feIsNonZero f).2.val = f.val % P := by
  obtain ⟨_, h1, h2, h3⟩ := feToBytes_spec hf
  refine ⟨?_, h2, h3⟩
  unfold feIsNonZero
  simp only
  have h4 := smear ((feToBytes f).1.foldl (· ||| ·) 0)
  simp only at h4
  rw [h4]
  have h5 : ((feToBytes f).1.foldl (· ||| ·) 0 = 0) ↔ P ∣ f.val := by
    rw [foldl_or_eq_zero, Int.dvd_iff_emod_eq_zero, ← h1]
    generalize feToBytes f = r at *
    simp
  simp only [h5]
  split <;> rfl

end Coniks.Ed

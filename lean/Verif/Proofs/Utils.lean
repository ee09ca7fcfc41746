import Verif.Model.Utils
import Verif.Spec.Bits
namespace Coniks
open Spec

/-- A decidable statement about a byte holds for all bytes if it holds for all 256 of them. -/
theorem forall_byte {P : UInt8 → Prop} (h : ∀ n < 256, P (UInt8.ofNat n)) (b : UInt8) : P b := by
  have := h b.toNat b.toNat_lt
  simpa using this

theorem bit_shl (b : UInt8) (r : Nat) (h : r < 8) :
    decide ((b <<< (UInt8.ofNat r)) &&& ((1 : UInt8) <<< (7 : UInt8)) > 0) = bitOfByte b (7 - r) := by
  revert r
  refine forall_byte (P := fun b => ∀ r < 8, decide ((b <<< (UInt8.ofNat r)) &&& ((1 : UInt8) <<< (7 : UInt8)) > 0) = bitOfByte b (7 - r)) ?_ b
  decide +kernel

theorem bit_mask (b : UInt8) (r : Nat) (h : r < 8) :
    ((b &&& ((1 : UInt8) <<< (UInt8.ofNat (7 - r)))) != 0) = bitOfByte b (7 - r) := by
  revert r
  refine forall_byte (P := fun b => ∀ r < 8, ((b &&& ((1 : UInt8) <<< (UInt8.ofNat (7 - r)))) != 0) = bitOfByte b (7 - r)) ?_ b
  decide +kernel

theorem byteBits_length (b : UInt8) : (byteBits b).length = 8 := rfl

theorem bitsOf_length (bs : Bytes) : (bitsOf bs).length = 8 * bs.length := by
  induction bs with
  | nil => rfl
  | cons b bs ih =>
    simp only [bitsOf, List.flatMap_cons, List.length_append, byteBits_length, List.length_cons] at *
    omega

theorem byteBits_get (b : UInt8) (r : Nat) (h : r < 8) : (byteBits b)[r]? = some (bitOfByte b (7 - r)) := by
  match r, h with
  | 0, _ => rfl | 1, _ => rfl | 2, _ => rfl | 3, _ => rfl
  | 4, _ => rfl | 5, _ => rfl | 6, _ => rfl | 7, _ => rfl

/-- Spec-level reading of a position. -/
theorem bitsOf_get (bs : Bytes) (q r : Nat) (h : r < 8) :
    (bitsOf bs)[8 * q + r]? = (bs[q]?).map (fun b => bitOfByte b (7 - r)) := by
  induction bs generalizing q with
  | nil => simp [bitsOf]
  | cons b bs ih =>
    have e : bitsOf (b :: bs) = byteBits b ++ bitsOf bs := by simp [bitsOf]
    rw [e]
    cases q with
    | zero =>
      rw [List.getElem?_append_left (by rw [byteBits_length]; omega)]
      rw [show 8 * 0 + r = r by omega, byteBits_get b r h]; rfl
    | succ q =>
      rw [List.getElem?_append_right (by rw [byteBits_length]; omega), byteBits_length]
      rw [show 8 * (q + 1) + r - 8 = 8 * q + r by omega, ih q]
      simp

theorem toBits_length (bs : Bytes) : (toBits bs).length = 8 * bs.length := by
  simp [toBits]; omega

theorem toBits_eq_bitsOf (bs : Bytes) : toBits bs = bitsOf bs := by
  apply List.ext_getElem?
  intro i
  by_cases hi : i < 8 * bs.length
  · have hq : i / 8 < bs.length := by omega
    have e := bitsOf_get bs (i / 8) (i % 8) (by omega)
    rw [show 8 * (i / 8) + i % 8 = i by omega] at e
    rw [e]
    rw [toBits, List.getElem?_map, List.getElem?_range (by omega)]
    rw [List.getElem?_eq_getElem hq]
    simp only [Option.map_some]
    rw [bit_shl _ _ (by omega)]
    rw [List.getD_eq_getElem?_getD, List.getElem?_eq_getElem hq]; rfl
  · rw [List.getElem?_eq_none (by rw [toBits_length]; omega),
      List.getElem?_eq_none (by rw [bitsOf_length]; omega)]

theorem bitsOf_append (a b : Bytes) : bitsOf (a ++ b) = bitsOf a ++ bitsOf b := by
  simp [bitsOf]

/-- The byte made of (up to) 8 bits, by the loop. -/
theorem toBytesLoop_append (bs : Bytes) (i : Nat) (xs ys : List Bool) :
    toBytesLoop bs i (xs ++ ys) = toBytesLoop (toBytesLoop bs i xs) (i + xs.length) ys := by
  induction xs generalizing bs i with
  | nil => simp [toBytesLoop]
  | cons x xs ih => simp only [List.cons_append, toBytesLoop, ih, List.length_cons]; congr 1; omega

theorem toBytesStep_length (bs i b) : (toBytesStep bs i b).length = bs.length := by
  unfold toBytesStep; split <;> simp

theorem toBytesLoop_length (bs i xs) : (toBytesLoop bs i xs).length = bs.length := by
  induction xs generalizing bs i with
  | nil => rfl
  | cons x xs ih => simp [toBytesLoop, ih, toBytesStep_length]

/-- Steps at positions of later bytes do not touch the first byte. -/
theorem toBytesLoop_cons (b : UInt8) (bs : Bytes) (i : Nat) (xs : List Bool) :
    toBytesLoop (b :: bs) (8 + i) xs = b :: toBytesLoop bs i xs := by
  induction xs generalizing bs i with
  | nil => rfl
  | cons x xs ih =>
    have : toBytesStep (b :: bs) (8 + i) x = b :: toBytesStep bs i x := by
      unfold toBytesStep
      split
      · rw [show (8 + i) / 8 = i / 8 + 1 by omega, show (8 + i) % 8 = i % 8 by omega]
        simp [List.modify_succ_cons]
      · rfl
    simp only [toBytesLoop, this]
    rw [show 8 + i + 1 = 8 + (i + 1) by omega, ih]

theorem byteBits_bitset (xs : List Bool) (h : xs.length = 8) :
    ∃ b, (∀ bs, toBytesLoop (0 :: bs) 0 xs = b :: bs) ∧ byteBits b = xs := by
  match xs, h with
  | [a, b, c, d, e, f, g, i], _ =>
    refine ⟨(toBytesLoop [0] 0 [a, b, c, d, e, f, g, i]).headD 0, ?_, ?_⟩
    · intro bs
      cases a <;> cases b <;> cases c <;> cases d <;> cases e <;> cases f <;> cases g <;> cases i <;> rfl
    · revert a b c d e f g i; decide +kernel

theorem loop_short_pad (bs : Bytes) (i : Nat) (xs : List Bool) (k : Nat) :
    toBytesLoop bs i (xs ++ List.replicate k false) = toBytesLoop bs i xs := by
  rw [toBytesLoop_append]
  generalize toBytesLoop bs i xs = ys
  generalize i + xs.length = j
  induction k generalizing j with
  | zero => rfl
  | succ k ih => simp only [List.replicate_succ, toBytesLoop, toBytesStep, Bool.false_eq_true, if_false]; exact ih _

/-- Full bytes: the loop over `8n` bits gives `n` bytes whose bits are those given. -/
theorem bits_of_loop (n : Nat) (xs : List Bool) (h : xs.length = 8 * n) :
    bitsOf (toBytesLoop (List.replicate n 0) 0 xs) = xs := by
  induction n generalizing xs with
  | zero =>
    have : xs = [] := List.length_eq_zero_iff.mp (by omega)
    subst this; rfl
  | succ n ih =>
    obtain ⟨b, hb, hbits⟩ := byteBits_bitset (xs.take 8) (by simp; omega)
    have e : xs = xs.take 8 ++ xs.drop 8 := (List.take_append_drop 8 xs).symm
    rw [e, toBytesLoop_append, List.replicate_succ, hb]
    have l8 : 0 + (xs.take 8).length = 8 + 0 := by simp; omega
    rw [l8, toBytesLoop_cons]
    have := ih (xs.drop 8) (by simp; omega)
    simp only [bitsOf, List.flatMap_cons] at *
    rw [this, hbits]

theorem bitsOf_toBytes (bits : List Bool) : bitsOf (toBytes bits) = padTo8 bits := by
  have hl : (padTo8 bits).length = 8 * ((bits.length + 7) / 8) := by
    simp [padTo8]; omega
  have := bits_of_loop _ _ hl
  rw [padTo8, loop_short_pad] at this
  exact this

theorem toBytes_length (bits : List Bool) : (toBytes bits).length = (bits.length + 7) / 8 := by
  simp [toBytes, toBytesLoop_length]

theorem byteBits_inj (a b : UInt8) (h : byteBits a = byteBits b) : a = b := by
  have key : ∀ a : UInt8, a = UInt8.ofNat (((byteBits a).foldl (fun n x => 2 * n + (if x then 1 else 0)) 0)) := by
    intro a
    refine forall_byte (P := fun a => a = UInt8.ofNat (((byteBits a).foldl (fun n x => 2 * n + (if x then 1 else 0)) 0))) ?_ a
    decide +kernel
  rw [key a, key b, h]

theorem bitsOf_inj (a b : Bytes) (h : bitsOf a = bitsOf b) : a = b := by
  induction a generalizing b with
  | nil =>
    have := congrArg List.length h
    rw [bitsOf_length, bitsOf_length] at this
    cases b with
    | nil => rfl
    | cons => simp at this
  | cons x a ih =>
    cases b with
    | nil => have := congrArg List.length h; rw [bitsOf_length, bitsOf_length] at this; simp at this
    | cons y b =>
      have e1 : bitsOf (x :: a) = byteBits x ++ bitsOf a := by simp [bitsOf]
      have e2 : bitsOf (y :: b) = byteBits y ++ bitsOf b := by simp [bitsOf]
      rw [e1, e2] at h
      have := List.append_inj h (by simp [byteBits_length])
      rw [byteBits_inj x y this.1, ih b this.2]

theorem toBytes_toBits (bs : Bytes) : toBytes (toBits bs) = bs := by
  apply bitsOf_inj
  rw [bitsOf_toBytes, toBits_eq_bitsOf, padTo8]
  have : (bitsOf bs).length % 8 = 0 := by rw [bitsOf_length]; omega
  rw [this]; simp

theorem toBits_inj {a b : Bytes} (h : toBits a = toBits b) : a = b := by
  rw [← toBytes_toBits a, ← toBytes_toBits b, h]

theorem toBits_toBytes (bits : List Bool) : toBits (toBytes bits) = padTo8 bits := by
  rw [toBits_eq_bitsOf, bitsOf_toBytes]

theorem getNthBit_eq (bs : Bytes) (n : Nat) : getNthBit bs n = (toBits bs)[n]? := by
  have e := bitsOf_get bs (n / 8) (n % 8) (by omega)
  rw [show 8 * (n / 8) + n % 8 = n by omega] at e
  rw [toBits_eq_bitsOf, e, getNthBit]
  cases bs[n / 8]? with
  | none => rfl
  | some b => simp only [Option.map_some]; rw [bit_mask _ _ (by omega)]

/-! little-endian -/

theorem putUint64LE_length (v) : (putUint64LE v).length = 8 := rfl
theorem putUint32LE_length (v) : (putUint32LE v).length = 4 := rfl

theorem ulongToBytes_eq (v : UInt64) : ulongToBytes v = putUint64LE v := by
  simp [ulongToBytes, longToBytes]

theorem putUint64LE_digit (v : UInt64) (k : Nat) (h : k < 8) :
    ((putUint64LE v)[k]?).map UInt8.toNat = some (digit256 v.toNat k) := by
  have hv := v.toNat_lt
  match k, h with
  | 0, _ => simp [putUint64LE, digit256]
  | 1, _ => simp [putUint64LE, digit256, Nat.shiftRight_eq_div_pow]
  | 2, _ => simp [putUint64LE, digit256, Nat.shiftRight_eq_div_pow]
  | 3, _ => simp [putUint64LE, digit256, Nat.shiftRight_eq_div_pow]
  | 4, _ => simp [putUint64LE, digit256, Nat.shiftRight_eq_div_pow]
  | 5, _ => simp [putUint64LE, digit256, Nat.shiftRight_eq_div_pow]
  | 6, _ => simp [putUint64LE, digit256, Nat.shiftRight_eq_div_pow]
  | 7, _ => simp [putUint64LE, digit256, Nat.shiftRight_eq_div_pow]

theorem putUint32LE_digit (v : UInt32) (k : Nat) (h : k < 4) :
    ((putUint32LE v)[k]?).map UInt8.toNat = some (digit256 v.toNat k) := by
  match k, h with
  | 0, _ => simp [putUint32LE, digit256]
  | 1, _ => simp [putUint32LE, digit256, Nat.shiftRight_eq_div_pow]
  | 2, _ => simp [putUint32LE, digit256, Nat.shiftRight_eq_div_pow]
  | 3, _ => simp [putUint32LE, digit256, Nat.shiftRight_eq_div_pow]

theorem digits8_inj (a b : Nat) (ha : a < 2 ^ 64) (hb : b < 2 ^ 64)
    (h : ∀ k < 8, digit256 a k = digit256 b k) : a = b := by
  have h0 := h 0 (by omega); have h1 := h 1 (by omega); have h2 := h 2 (by omega); have h3 := h 3 (by omega)
  have h4 := h 4 (by omega); have h5 := h 5 (by omega); have h6 := h 6 (by omega); have h7 := h 7 (by omega)
  simp only [digit256, Nat.reducePow] at *
  omega

theorem putUint64LE_inj {a b : UInt64} (h : putUint64LE a = putUint64LE b) : a = b := by
  apply UInt64.toNat_inj.mp
  refine digits8_inj _ _ a.toNat_lt b.toNat_lt fun k hk => ?_
  have h1 := putUint64LE_digit a k hk
  have h2 := putUint64LE_digit b k hk
  rw [h, h2] at h1
  exact (Option.some.inj h1).symm

theorem putUint32LE_inj {a b : UInt32} (h : putUint32LE a = putUint32LE b) : a = b := by
  apply UInt32.toNat_inj.mp
  have ha := a.toNat_lt
  have hb := b.toNat_lt
  have key : ∀ k < 4, digit256 a.toNat k = digit256 b.toNat k := by
    intro k hk
    have h1 := putUint32LE_digit a k hk
    have h2 := putUint32LE_digit b k hk
    rw [h, h2] at h1
    exact (Option.some.inj h1).symm
  have h0 := key 0 (by omega); have h1 := key 1 (by omega); have h2 := key 2 (by omega); have h3 := key 3 (by omega)
  simp only [digit256, Nat.reducePow] at *
  omega

theorem ulongToBytes_inj {a b : UInt64} (h : ulongToBytes a = ulongToBytes b) : a = b := by
  rw [ulongToBytes_eq, ulongToBytes_eq] at h
  exact putUint64LE_inj h

theorem ulongToBytes_length (a) : (ulongToBytes a).length = 8 := rfl
theorem uint32ToBytes_length (a) : (uint32ToBytes a).length = 4 := rfl
theorem uint32ToBytes_inj {a b : UInt32} (h : uint32ToBytes a = uint32ToBytes b) : a = b := putUint32LE_inj h

end Coniks

import Verif.Proofs.Utils
/-
C01 and C02: bit/byte conversion and little-endian encodings.
-/
namespace Coniks.Props
open Coniks Coniks.Spec

/-- C01: `ToBits` reads a byte string most significant bit first (`Spec.bitsOf`). -/
theorem C01_toBits_msb_first (bs : Bytes) : toBits bs = bitsOf bs := toBits_eq_bitsOf bs

/-- C01: position `8q+r` of `ToBits bs` is the bit of weight `2^(7-r)` of byte `q` (and there is no such
position when there is no byte `q`). -/
theorem C01_toBits_position (bs : Bytes) (q r : Nat) (hr : r < 8) :
    (toBits bs)[8 * q + r]? = (bs[q]?).map (fun b => bitOfByte b (7 - r)) := by
  rw [toBits_eq_bitsOf]; exact bitsOf_get bs q r hr

/-- C01: `ToBytes (ToBits bs) = bs`. -/
theorem C01_toBytes_toBits (bs : Bytes) : toBytes (toBits bs) = bs := toBytes_toBits bs

/-- C01: `ToBits (ToBytes bits)` is `bits` padded with zeros to a multiple of eight. -/
theorem C01_toBits_toBytes (bits : List Bool) : toBits (toBytes bits) = padTo8 bits := toBits_toBytes bits

/-- C01: `ToBytes` returns `⌈n/8⌉` bytes for `n` bits. -/
theorem C01_toBytes_length (bits : List Bool) : (toBytes bits).length = (bits.length + 7) / 8 :=
  toBytes_length bits

/-- C01: `GetNthBit bs n` is element `n` of `ToBits bs`, and panics exactly when `n ≥ 8·len(bs)`. -/
theorem C01_getNthBit (bs : Bytes) (n : Nat) :
    getNthBit bs n = (bitsOf bs)[n]? ∧ (Panics (getNthBit bs n) ↔ 8 * bs.length ≤ n) := by
  have h : getNthBit bs n = (bitsOf bs)[n]? := by rw [getNthBit_eq, toBits_eq_bitsOf]
  refine ⟨h, ?_⟩
  rw [Panics, h, List.getElem?_eq_none_iff, bitsOf_length]

example : toBits [0xA5, 0x01] =
    [true,false,true,false,false,true,false,true, false,false,false,false,false,false,false,true] := by decide
example : toBytes [true, false, true] = [0xA0] := by decide
example : getNthBit [0xA5, 0x01] 15 = some true ∧ getNthBit [0xA5, 0x01] 16 = none := by decide

/-- C02: each encoder has a fixed width and byte `k` is the `k`-th base-256 digit. -/
theorem C02_uint32_digits (v : UInt32) :
    (uint32ToBytes v).length = 4 ∧
    ∀ k < 4, ((uint32ToBytes v)[k]?).map UInt8.toNat = some (digit256 v.toNat k) :=
  ⟨rfl, fun k hk => putUint32LE_digit v k hk⟩

/-- C02 -/
theorem C02_ulong_digits (v : UInt64) :
    (ulongToBytes v).length = 8 ∧
    ∀ k < 8, ((ulongToBytes v)[k]?).map UInt8.toNat = some (digit256 v.toNat k) := by
  rw [ulongToBytes_eq]; exact ⟨rfl, fun k hk => putUint64LE_digit v k hk⟩

/-- C02: `LongToBytes` encodes the two's complement representative (the residue mod 2^64). -/
theorem C02_long_digits (v : Int64) :
    (longToBytes v).length = 8 ∧
    ∀ k < 8, ((longToBytes v)[k]?).map UInt8.toNat = some (digit256 (v.toInt % 2 ^ 64).toNat k) := by
  have e : (v.toInt % 2 ^ 64).toNat = v.toUInt64.toNat := by
    have h1 : v.toInt = (v.toUInt64.toNat : Int).bmod (2 ^ 64) := by
      rw [← Int64.toInt_toBitVec, BitVec.toInt_eq_toNat_bmod]; rfl
    have h2 : ((v.toUInt64.toNat : Int).bmod (2 ^ 64)) % ((2 ^ 64 : Nat) : Int) =
        (v.toUInt64.toNat : Int) % ((2 ^ 64 : Nat) : Int) := Int.bmod_emod
    have := v.toUInt64.toNat_lt
    rw [h1]
    omega
  rw [e]
  exact ⟨rfl, fun k hk => putUint64LE_digit v.toUInt64 k hk⟩

/-- C02: distinct numbers have distinct encodings. -/
theorem C02_injective :
    Function.Injective uint32ToBytes ∧ Function.Injective ulongToBytes ∧ Function.Injective longToBytes := by
  refine ⟨fun a b h => uint32ToBytes_inj h, fun a b h => ulongToBytes_inj h, fun a b h => ?_⟩
  have := putUint64LE_inj h
  simpa using congrArg UInt64.toInt64 this

/-- C02: every 8 bytes are the encoding of a number, so with `C02_injective` the encoders are one-to-one onto. -/
theorem C02_ulong_onto (b : Bytes) (h : b.length = 8) : ∃ v, ulongToBytes v = b := by
  obtain ⟨b0, b1, b2, b3, b4, b5, b6, b7, rfl⟩ : ∃ b0 b1 b2 b3 b4 b5 b6 b7, b = [b0, b1, b2, b3, b4, b5, b6, b7] := by
    match b, h with
    | [b0, b1, b2, b3, b4, b5, b6, b7], _ => exact ⟨b0, b1, b2, b3, b4, b5, b6, b7, rfl⟩
  have hb : ∀ x : UInt8, x.toNat < 256 := fun x => x.toNat_lt
  let n := b0.toNat + 256 * b1.toNat + 65536 * b2.toNat + 16777216 * b3.toNat + 4294967296 * b4.toNat + 1099511627776 * b5.toNat +
    281474976710656 * b6.toNat + 72057594037927936 * b7.toNat
  have hn : n < 18446744073709551616 := by
    have := hb b0; have := hb b1; have := hb b2; have := hb b3; have := hb b4; have := hb b5; have := hb b6; have := hb b7
    simp only [n]; omega
  refine ⟨UInt64.ofNat n, ?_⟩
  have hv : (UInt64.ofNat n).toNat = n := by rw [UInt64.toNat_ofNat']; exact Nat.mod_eq_of_lt hn
  obtain ⟨hl, hd⟩ := C02_ulong_digits (UInt64.ofNat n)
  rw [hv] at hd
  have h0 := hb b0; have h1 := hb b1; have h2 := hb b2; have h3 := hb b3
  have h4 := hb b4; have h5 := hb b5; have h6 := hb b6; have h7 := hb b7
  have key : ∀ k < 8, (ulongToBytes (UInt64.ofNat n))[k]? = [b0, b1, b2, b3, b4, b5, b6, b7][k]? := by
    intro k hk
    have hd := hd k hk
    rw [List.getElem?_eq_getElem (by rw [hl]; exact hk)] at hd ⊢
    simp only [Option.map_some, Option.some.injEq] at hd
    rw [List.getElem?_eq_getElem (by simpa using hk), Option.some.injEq]
    refine UInt8.toNat_inj.mp (hd.trans ?_)
    have : k = 0 ∨ k = 1 ∨ k = 2 ∨ k = 3 ∨ k = 4 ∨ k = 5 ∨ k = 6 ∨ k = 7 := by omega
    rcases this with rfl | rfl | rfl | rfl | rfl | rfl | rfl | rfl <;> simp only [digit256, n, List.getElem_cons_succ, List.getElem_cons_zero] <;> omega
  refine List.ext_getElem? fun k => ?_
  by_cases hk : k < 8
  · exact key k hk
  · rw [List.getElem?_eq_none (by rw [hl]; omega), List.getElem?_eq_none (by simp; omega)]

example : uint32ToBytes 0x01020304 = [4, 3, 2, 1] := by decide
example : longToBytes (-2) = [0xFE, 255, 255, 255, 255, 255, 255, 255] := by decide

end Coniks.Props

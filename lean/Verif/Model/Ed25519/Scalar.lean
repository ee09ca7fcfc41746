import Verif.Model.Ed25519.Field
import Verif.Model.Ed25519.ScProg
/-
Scalars: crypto/internal/ed25519/edwards25519/edwards25519.go:1470-2252.
-/
namespace Coniks.Ed

/-- `2097151 & (load3(s[i:]) >> k)` as in edwards25519.go:1481 and 1937 -/
def limb3 (s : Bytes) (i k : Nat) : Int := ((load3 s i >>> k) &&& 2097151 : Nat)
/-- `2097151 & (load4(s[i:]) >> k)` as in edwards25519.go:1482 and 1938 -/
def limb4 (s : Bytes) (i k : Nat) : Int := ((load4 s i >>> k) &&& 2097151 : Nat)

/-- edwards25519.go:1481-1492, 1493-1504 and 1505-1516: the limbs of a scalar of 32 bytes -/
def scLimbs (a : Bytes) : List Int :=
  [limb3 a 0 0, limb4 a 2 5, limb3 a 5 2, limb4 a 7 7, limb4 a 10 4, limb3 a 13 1, limb4 a 15 6, limb3 a 18 3, limb3 a 21 0, limb4 a 23 5,
   limb3 a 26 2, ((load4 a 28 >>> 7 : Nat) : Int)]

/-- edwards25519.go:1937-1960: the limbs of a number of 64 bytes -/
def scLimbs64 (s : Bytes) : List Int :=
  [limb3 s 0 0, limb4 s 2 5, limb3 s 5 2, limb4 s 7 7, limb4 s 10 4, limb3 s 13 1, limb4 s 15 6, limb3 s 18 3, limb3 s 21 0, limb4 s 23 5,
   limb3 s 26 2, limb4 s 28 7, limb4 s 31 4, limb3 s 34 1, limb4 s 36 6, limb3 s 39 3, limb3 s 42 0, limb4 s 44 5, limb3 s 47 2, limb4 s 49 7,
   limb4 s 52 4, limb3 s 55 1, limb4 s 57 6, ((load4 s 60 >>> 3 : Nat) : Int)]

/-- `byte((x >> k) | (y << j))` on int64; the conversion to byte commutes with the bitwise or -/
def byteOr64 (x : Int) (k : Nat) (y : Int) (j : Nat) : UInt8 := byteOf (x / 2 ^ k) ||| byteOf (wrap 64 (y * 2 ^ j))

/-- edwards25519.go:1871-1902 and 2220-2251: the bytes -/
def scPack (ρ : Nat → Int) : Bytes :=
  let s0 := ρ 0
  let s1 := ρ 1
  let s2 := ρ 2
  let s3 := ρ 3
  let s4 := ρ 4
  let s5 := ρ 5
  let s6 := ρ 6
  let s7 := ρ 7
  let s8 := ρ 8
  let s9 := ρ 9
  let s10 := ρ 10
  let s11 := ρ 11
  [byteOf s0, byteOf (s0 / 2 ^ 8), byteOr64 s0 16 s1 5, byteOf (s1 / 2 ^ 3), byteOf (s1 / 2 ^ 11), byteOr64 s1 19 s2 2, byteOf (s2 / 2 ^ 6),
   byteOr64 s2 14 s3 7, byteOf (s3 / 2 ^ 1), byteOf (s3 / 2 ^ 9), byteOr64 s3 17 s4 4, byteOf (s4 / 2 ^ 4), byteOf (s4 / 2 ^ 12),
   byteOr64 s4 20 s5 1, byteOf (s5 / 2 ^ 7), byteOr64 s5 15 s6 6, byteOf (s6 / 2 ^ 2), byteOf (s6 / 2 ^ 10), byteOr64 s6 18 s7 3,
   byteOf (s7 / 2 ^ 5), byteOf (s7 / 2 ^ 13), byteOf s8, byteOf (s8 / 2 ^ 8), byteOr64 s8 16 s9 5, byteOf (s9 / 2 ^ 3), byteOf (s9 / 2 ^ 11),
   byteOr64 s9 19 s10 2, byteOf (s10 / 2 ^ 6), byteOr64 s10 14 s11 7, byteOf (s11 / 2 ^ 1), byteOf (s11 / 2 ^ 9), byteOf (s11 / 2 ^ 17)]

/-- the variables of `ScReduce.fold`: 0 to 23 are the limbs -/
def scReduceEnv (s : Bytes) (i : Nat) : Int := (scLimbs64 s).getD i 0

/-- edwards25519.go:1936-2252 `ScReduce` -/
def scReduce (s : Bytes) : Bytes := scPack (run ScReduce.last (run ScReduce.floor (run ScReduce.fold (scReduceEnv s))))

/-- the variables of `ScMulAdd.mul`: 24 to 35 are the limbs of `a`, 36 to 47 those of `b`, 48 to 59 those of `c` -/
def scMulAddEnv (a b c : Bytes) (i : Nat) : Int := (List.replicate 24 0 ++ scLimbs a ++ scLimbs b ++ scLimbs c).getD i 0

/-- edwards25519.go:1480-1903 `ScMulAdd` -/
def scMulAdd (a b c : Bytes) : Bytes := scPack (run ScMulAdd.last (run ScMulAdd.floor (run ScMulAdd.mul (scMulAddEnv a b c))))

/-- edwards25519.go:1916-1926: one round of `ScNeg` on int32, from `carry + l[i] - s[i]` to the byte and the next carry -/
def scNegStep (z : Int) : UInt8 × Int :=
  let carry := BitVec.ofInt 32 z
  let negative := carry &&& 0x80000000#32
  let negative := negative ||| negative.sshiftRight 16
  let negative := negative ||| negative.sshiftRight 8
  let negative := negative ||| negative.sshiftRight 4
  let negative := negative ||| negative.sshiftRight 2
  let negative := negative ||| negative.sshiftRight 1
  let carry := carry + (negative &&& 256#32)
  (UInt8.ofBitVec (carry.truncate 8), (negative &&& (-1#32)).toInt)

/-- edwards25519.go:1915-1927: the loop of `ScNeg` -/
def scNegLoop : Int → List UInt8 → List UInt8 → List UInt8
  | carry, l :: ls, s :: ss =>
    let r := scNegStep (carry + (l.toNat : Int) - (s.toNat : Int))
    r.1 :: scNegLoop r.2 ls ss
  | _, _, _ => []

/-- edwards25519.go:1912-1928 `ScNeg` -/
def scNeg (s : Bytes) : Bytes :=
  scNegLoop 0 [237, 211, 245, 92, 26, 99, 18, 88, 214, 156, 247, 162, 222, 249, 222, 20, 0, 0, 0, 0, 0, 0, 0, 0, 0, 0, 0, 0, 0, 0, 0, 16] s

end Coniks.Ed

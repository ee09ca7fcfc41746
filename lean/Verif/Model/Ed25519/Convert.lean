import Verif.Model.Ed25519.Elligator
import Verif.Model.Vrf
/-
The rest of crypto/internal/ed25519/extra25519/extra25519.go: conversion of Ed25519 keys to Curve25519 keys, and Curve25519 public keys
with a uniform representative. Fixed arrays are byte strings of that length. `SHA-512` is a parameter.
-/
namespace Coniks.Ed

/-- extra25519.go:13-26 `PrivateKeyToCurve25519`; `copy` keeps 32 of the 64 bytes of the digest. The three masks are those of `clamp`. -/
def privateKeyToCurve25519 (sha512 : Bytes → Bytes) (privateKey : Bytes) : Bytes :=
  (clamp (sha512 (privateKey.take 32))).take 32

/-- extra25519.go:28-41 `edwardsToMontgomeryX` -/
def edwardsToMontgomeryX (y : Fe) : Fe :=
  let oneMinusY := feSub feOne y
  let oneMinusY := feInvert oneMinusY
  let outX := feAdd feOne y
  feMul outX oneMinusY

/-- extra25519.go:43-56 `PublicKeyToCurve25519`: `none` is the result false, with nothing written -/
def publicKeyToCurve25519 (publicKey : Bytes) : Option Bytes :=
  let r := fromBytes Ext.blank publicKey
  if r.1 then some (feToBytes (edwardsToMontgomeryX r.2.Y)).1 else none

/-- extra25519.go:58-61 `sqrtMinusA` -/
def feSqrtMinusA : Fe := ⟨12222970, 8312128, 11511410, -9067497, 15300785, 241793, -25456130, -14121551, 12187136, -3972024⟩
/-- extra25519.go:63-66 `sqrtMinusHalf` -/
def feSqrtMinusHalf : Fe := ⟨-17256545, 3971863, 28865457, -1750208, 27359696, -16640980, 12573105, 1002827, -163343, 11073975⟩
/-- extra25519.go:68-71 `halfQMinus1Bytes` -/
def halfQMinus1Bytes : Bytes :=
  [0xf6, 0xff, 0xff, 0xff, 0xff, 0xff, 0xff, 0xff, 0xff, 0xff, 0xff, 0xff, 0xff, 0xff, 0xff, 0xff, 0xff, 0xff, 0xff, 0xff, 0xff, 0xff,
   0xff, 0xff, 0xff, 0xff, 0xff, 0xff, 0xff, 0xff, 0xff, 0x3f]

/-- extra25519.go:78-84: one round of the loop of `feBytesLE`, on (equalSoFar, greater) -/
def leStep (s : BitVec 32 × BitVec 32) (xy : UInt8 × UInt8) : BitVec 32 × BitVec 32 :=
  let x := BitVec.ofNat 32 xy.1.toNat
  let y := BitVec.ofNat 32 xy.2.toNat
  let greater := (~~~s.1 &&& s.2) ||| (s.1 &&& (x - y).sshiftRight 31)
  let equalSoFar := s.1 &&& ((x ^^^ y) - 1#32).sshiftRight 31
  (equalSoFar, greater)

/-- extra25519.go:73-87 `feBytesLE`, for two arrays of 32 bytes, from the last byte to the first -/
def feBytesLE (a b : Bytes) : Int :=
  let s := (a.zip b).reverse.foldl leStep (BitVec.ofInt 32 (-1), 0#32)
  (~~~s.1 &&& 1#32 &&& s.2).toInt

/-- extra25519.go:204-254 `q58`: the power (p - 5) / 8 -/
def q58 (z : Fe) : Fe :=
  let t1 := feSquare z
  let t1 := feMul t1 z
  let t1 := feSquare t1
  let t2 := feSquareN 2 t1
  let t2 := feMul t2 t1
  let t1 := feMul t2 z
  let t2 := feSquareN 5 t1
  let t1 := feMul t2 t1
  let t2 := feSquareN 10 t1
  let t2 := feMul t2 t1
  let t3 := feSquareN 20 t2
  let t2 := feMul t3 t2
  let t2 := feSquareN 10 t2
  let t1 := feMul t2 t1
  let t2 := feSquareN 50 t1
  let t2 := feMul t2 t1
  let t3 := feSquareN 100 t2
  let t2 := feMul t3 t2
  let t2 := feSquareN 50 t2
  let t1 := feMul t2 t1
  let t1 := feSquareN 2 t1
  feMul t1 z

/-- extra25519.go:104-117: `u` and `v` of the point, and the 1/((Z-Y) X) they come from -/
def montgomeryOf (p : Ext) : Fe × Fe :=
  let inv1 := feSub p.Z p.Y
  let inv1 := feMul inv1 p.X
  let inv1 := feInvert inv1
  let u := feMul inv1 p.X
  let t0 := feAdd p.Y p.Z
  let u := feMul u t0
  let v := feMul t0 inv1
  let v := feMul v p.Z
  let v := feMul v feSqrtMinusA
  (u, v)

/-- extra25519.go:119-129: b, b^3, b^8 and c for `u` -/
def repPowers (u : Fe) : Fe × Fe × Fe × Fe :=
  let b := feAdd u feA
  let b3 := feSquare b
  let b3 := feMul b3 b
  let c := feSquare b3
  let c := feMul c b
  let b8 := feMul c b
  let c := feMul c u
  let c := q58 c
  (b, b3, b8, c)

/-- extra25519.go:131-144: `chi` -/
def repChi (u b c : Fe) : Fe :=
  let chi := feSquare c
  let chi := feSquare chi
  let t0 := feSquare u
  let chi := feMul chi t0
  let t0 := feSquare b
  let t0 := feMul t0 b
  let t0 := feSquare t0
  let t0 := feMul t0 b
  let t0 := feSquare t0
  let chi := feMul chi t0
  feNeg chi

/-- extra25519.go:165-167 and 190-192: multiplied by the square root of -1 if `t0` is not zero -/
def repFix (r t0 : Fe) : Fe :=
  let maybeSqrtM1 := feCMove feOne feSqrtM1 (feIsNonZero t0).1
  feMul r maybeSqrtM1

/-- extra25519.go:153-167: `r1` -/
def repFirst (u b b3 c : Fe) : Fe :=
  let r1 := feMul c u
  let r1 := feMul r1 b3
  let r1 := feMul r1 feSqrtMinusHalf
  let t0 := feSquare r1
  let t0 := feMul t0 b
  let t0 := feAdd t0 t0
  let t0 := feAdd t0 u
  repFix r1 t0

/-- extra25519.go:169-192: `r` -/
def repSecond (u b b8 c : Fe) : Fe :=
  let t0 := feSquare c
  let t0 := feMul t0 c
  let t0 := feSquare t0
  let r := feMul t0 c
  let t0 := feSquare u
  let t0 := feMul t0 u
  let r := feMul r t0
  let t0 := feSquare b8
  let t0 := feMul t0 b8
  let t0 := feMul t0 b
  let r := feMul r t0
  let r := feMul r feSqrtMinusHalf
  let t0 := feSquare r
  let t0 := feMul t0 u
  let t0 := feAdd t0 t0
  let t0 := feAdd t0 b
  repFix r t0

/-- extra25519.go:90-202 `ScalarBaseMult`: `none` is the result false, with nothing written; else the public key and the representative -/
def scalarBaseMult (privateKey : Bytes) : Option (Bytes × Bytes) :=
  let (u, v) := montgomeryOf (geScalarMultBase (clamp privateKey))
  let (b, b3, b8, c) := repPowers u
  let chiBytes := (feToBytes (repChi u b c)).1
  if chiBytes.getD 1 0 = 0xff then none
  else
    let r1 := repFirst u b b3 c
    let r := repSecond u b b8 c
    let vInSquareRootImage := feBytesLE (feToBytes v).1 halfQMinus1Bytes
    let r := feCMove r r1 vInSquareRootImage
    some ((feToBytes u).1, (feToBytes r).1)

/-- extra25519.go:311-319 `RepresentativeToPublicKey` -/
def representativeToPublicKey (representative : Bytes) : Bytes :=
  (feToBytes (representativeToMontgomeryX (feFromBytes representative))).1

end Coniks.Ed

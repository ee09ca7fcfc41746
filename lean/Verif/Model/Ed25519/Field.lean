import Verif.Model.Basic
import Verif.Model.Ed25519.FeProg
/-
Field elements: crypto/internal/ed25519/edwards25519/edwards25519.go:15-985.

`FieldElement` is an array of ten int32; the limbs are integers here, and every operation wraps around as int32 or int64 arithmetic does.
Functions that write to a pointer return the new value; `FeToBytes` also changes its input, so it returns both.
-/
namespace Coniks.Ed

/-- edwards25519.go:19 `FieldElement` -/
structure Fe where
  x0 : Int
  x1 : Int
  x2 : Int
  x3 : Int
  x4 : Int
  x5 : Int
  x6 : Int
  x7 : Int
  x8 : Int
  x9 : Int
  deriving DecidableEq, Repr

/-- edwards25519.go:21-25 `FeZero` -/
def feZero : Fe := ⟨0, 0, 0, 0, 0, 0, 0, 0, 0, 0⟩
/-- edwards25519.go:27-30 `FeOne` -/
def feOne : Fe := ⟨1, 0, 0, 0, 0, 0, 0, 0, 0, 0⟩

/-- edwards25519.go:32-36 `FeAdd` -/
def feAdd (a b : Fe) : Fe :=
  ⟨wrap 32 (a.x0 + b.x0), wrap 32 (a.x1 + b.x1), wrap 32 (a.x2 + b.x2), wrap 32 (a.x3 + b.x3), wrap 32 (a.x4 + b.x4),
   wrap 32 (a.x5 + b.x5), wrap 32 (a.x6 + b.x6), wrap 32 (a.x7 + b.x7), wrap 32 (a.x8 + b.x8), wrap 32 (a.x9 + b.x9)⟩

/-- edwards25519.go:38-42 `FeSub` -/
def feSub (a b : Fe) : Fe :=
  ⟨wrap 32 (a.x0 - b.x0), wrap 32 (a.x1 - b.x1), wrap 32 (a.x2 - b.x2), wrap 32 (a.x3 - b.x3), wrap 32 (a.x4 - b.x4),
   wrap 32 (a.x5 - b.x5), wrap 32 (a.x6 - b.x6), wrap 32 (a.x7 - b.x7), wrap 32 (a.x8 - b.x8), wrap 32 (a.x9 - b.x9)⟩

/-- edwards25519.go:278-282 `FeNeg` -/
def feNeg (a : Fe) : Fe :=
  ⟨wrap 32 (-a.x0), wrap 32 (-a.x1), wrap 32 (-a.x2), wrap 32 (-a.x3), wrap 32 (-a.x4),
   wrap 32 (-a.x5), wrap 32 (-a.x6), wrap 32 (-a.x7), wrap 32 (-a.x8), wrap 32 (-a.x9)⟩

/-- edwards25519.go:54-64, one limb: `f ^ (-b & (f ^ g))` on int32 -/
def cmove1 (f g b : Int) : Int :=
  let F := BitVec.ofInt 32 f
  let G := BitVec.ofInt 32 g
  let x := (- BitVec.ofInt 32 b) &&& (F ^^^ G)
  (F ^^^ x).toInt

/-- edwards25519.go:54-64 `FeCMove(f, g, b)`: the new `f` -/
def feCMove (f g : Fe) (b : Int) : Fe :=
  ⟨cmove1 f.x0 g.x0 b, cmove1 f.x1 g.x1 b, cmove1 f.x2 g.x2 b, cmove1 f.x3 g.x3 b, cmove1 f.x4 g.x4 b,
   cmove1 f.x5 g.x5 b, cmove1 f.x6 g.x6 b, cmove1 f.x7 g.x7 b, cmove1 f.x8 g.x8 b, cmove1 f.x9 g.x9 b⟩

/-- byte `i` of `b`, for a fixed array argument `*[32]byte` or `*[64]byte` -/
def byteAt (b : Bytes) (i : Nat) : Nat := (b.getD i 0).toNat

/-- edwards25519.go:66-72 `load3(b[i:])` -/
def load3 (b : Bytes) (i : Nat) : Nat := byteAt b i ||| byteAt b (i + 1) <<< 8 ||| byteAt b (i + 2) <<< 16

/-- edwards25519.go:74-81 `load4(b[i:])` -/
def load4 (b : Bytes) (i : Nat) : Nat :=
  byteAt b i ||| byteAt b (i + 1) <<< 8 ||| byteAt b (i + 2) <<< 16 ||| byteAt b (i + 3) <<< 24

/-- `x << k` on a non-negative int64 -/
def shl64 (x : Nat) (k : Nat) : Int := wrap 64 ((x : Int) * 2 ^ k)

/-- edwards25519.go:93 `x & 8388607` -/
def and23 (x : Nat) : Nat := x &&& 8388607

/-- the limbs as variables 0 to 9 -/
def Fe.env (f : Fe) : Nat → Int
  | 0 => f.x0
  | 1 => f.x1
  | 2 => f.x2
  | 3 => f.x3
  | 4 => f.x4
  | 5 => f.x5
  | 6 => f.x6
  | 7 => f.x7
  | 8 => f.x8
  | 9 => f.x9
  | _ => 0

/-- edwards25519.go:84-93: the limbs `h0` to `h9` of `FeFromBytes` before the carries (they are int64) -/
def feLoad (s : Bytes) : Fe :=
  ⟨(load4 s 0 : Int), shl64 (load3 s 4) 6, shl64 (load3 s 7) 5, shl64 (load3 s 10) 3, shl64 (load3 s 13) 2,
   (load4 s 16 : Int), shl64 (load3 s 20) 7, shl64 (load3 s 23) 5, shl64 (load3 s 26) 4, shl64 (and23 (load3 s 29)) 2⟩

/-- edwards25519.go:83-138 `FeFromBytes` -/
def feFromBytes (s : Bytes) : Fe :=
  let ρ := run FeFromBytes.prog (feLoad s).env
  open FeFromBytes in
  ⟨ρ out0.idx, ρ out1.idx, ρ out2.idx, ρ out3.idx, ρ out4.idx, ρ out5.idx, ρ out6.idx, ρ out7.idx, ρ out8.idx, ρ out9.idx⟩

/-- the limbs of two elements as variables 0 to 19 -/
def Fe.env2 (f g : Fe) (i : Nat) : Int := if i < 10 then f.env i else g.env (i - 10)

/-- `byte(x)`: the low eight bits -/
def byteOf (z : Int) : UInt8 := UInt8.ofNat (z % 256).toNat

/-- `byte((x >> k) | (y << j))` on int32; the conversion to byte commutes with the bitwise or -/
def byteOr32 (x : Int) (k : Nat) (y : Int) (j : Nat) : UInt8 := byteOf (x / 2 ^ k) ||| byteOf (wrap 32 (y * 2 ^ j))

/-- edwards25519.go:218-249: the bytes of `FeToBytes` -/
def fePack (h : Fe) : Bytes :=
  [byteOf h.x0, byteOf (h.x0 / 2 ^ 8), byteOf (h.x0 / 2 ^ 16), byteOr32 h.x0 24 h.x1 2,
   byteOf (h.x1 / 2 ^ 6), byteOf (h.x1 / 2 ^ 14), byteOr32 h.x1 22 h.x2 3,
   byteOf (h.x2 / 2 ^ 5), byteOf (h.x2 / 2 ^ 13), byteOr32 h.x2 21 h.x3 5,
   byteOf (h.x3 / 2 ^ 3), byteOf (h.x3 / 2 ^ 11), byteOr32 h.x3 19 h.x4 6,
   byteOf (h.x4 / 2 ^ 2), byteOf (h.x4 / 2 ^ 10), byteOf (h.x4 / 2 ^ 18),
   byteOf h.x5, byteOf (h.x5 / 2 ^ 8), byteOf (h.x5 / 2 ^ 16), byteOr32 h.x5 24 h.x6 1,
   byteOf (h.x6 / 2 ^ 7), byteOf (h.x6 / 2 ^ 15), byteOr32 h.x6 23 h.x7 3,
   byteOf (h.x7 / 2 ^ 5), byteOf (h.x7 / 2 ^ 13), byteOr32 h.x7 21 h.x8 4,
   byteOf (h.x8 / 2 ^ 4), byteOf (h.x8 / 2 ^ 12), byteOr32 h.x8 20 h.x9 6,
   byteOf (h.x9 / 2 ^ 2), byteOf (h.x9 / 2 ^ 10), byteOf (h.x9 / 2 ^ 18)]

/-- edwards25519.go:163-217: what `FeToBytes` leaves in its argument -/
def feFreeze (h : Fe) : Fe :=
  let ρ := run FeToBytes.carries (run FeToBytes.quot h.env)
  open FeToBytes in
  ⟨ρ h0.idx, ρ h1.idx, ρ h2.idx, ρ h3.idx, ρ h4.idx, ρ h5.idx, ρ h6.idx, ρ h7.idx, ρ h8.idx, ρ h9.idx⟩

/-- edwards25519.go:163-250 `FeToBytes`: the bytes and the changed argument -/
def feToBytes (h : Fe) : Bytes × Fe := (fePack (feFreeze h), feFreeze h)

/-- edwards25519.go:252-256 `FeIsNegative` -/
def feIsNegative (f : Fe) : UInt8 × Fe := ((feToBytes f).1.getD 0 0 &&& 1, (feToBytes f).2)

/-- edwards25519.go:258-269 `FeIsNonZero` -/
def feIsNonZero (f : Fe) : Int × Fe :=
  let x := (feToBytes f).1.foldl (· ||| ·) 0
  let x := x ||| x >>> 4
  let x := x ||| x >>> 2
  let x := x ||| x >>> 1
  (((x &&& 1).toNat : Int), (feToBytes f).2)

/-- edwards25519.go:311-542 `FeMul` -/
def feMul (f g : Fe) : Fe :=
  let ρ := run FeMul.prog (Fe.env2 f g)
  open FeMul in
  ⟨ρ out0.idx, ρ out1.idx, ρ out2.idx, ρ out3.idx, ρ out4.idx, ρ out5.idx, ρ out6.idx, ρ out7.idx, ρ out8.idx, ρ out9.idx⟩

/-- edwards25519.go:551-695 `FeSquare` -/
def feSquare (f : Fe) : Fe :=
  let ρ := run FeSquare.prog f.env
  open FeSquare in
  ⟨ρ out0.idx, ρ out1.idx, ρ out2.idx, ρ out3.idx, ρ out4.idx, ρ out5.idx, ρ out6.idx, ρ out7.idx, ρ out8.idx, ρ out9.idx⟩

/-- edwards25519.go:707-862 `FeSquare2` -/
def feSquare2 (f : Fe) : Fe :=
  let ρ := run FeSquare2.prog f.env
  open FeSquare2 in
  ⟨ρ out0.idx, ρ out1.idx, ρ out2.idx, ρ out3.idx, ρ out4.idx, ρ out5.idx, ρ out6.idx, ρ out7.idx, ρ out8.idx, ρ out9.idx⟩

/-- `for i = 1; i < n; i++ { FeSquare(&t, &t) }` preceded by one squaring: `n` squarings -/
def feSquareN : Nat → Fe → Fe
  | 0, t => t
  | n + 1, t => feSquareN n (feSquare t)

/-- edwards25519.go:864-917 `FeInvert` -/
def feInvert (z : Fe) : Fe :=
  let t0 := feSquare z
  let t1 := feSquareN 2 t0
  let t1 := feMul z t1
  let t0 := feMul t0 t1
  let t2 := feSquare t0
  let t1 := feMul t1 t2
  let t2 := feSquareN 5 t1
  let t1 := feMul t2 t1
  let t2 := feSquareN 10 t1
  let t2 := feMul t2 t1
  let t3 := feSquareN 20 t2
  let t2 := feMul t3 t2
  let t2 := feSquareN 10 t2
  let t1 := feMul t2 t1
  let t2 := feSquareN 50 t1
  let t2 := feMul t2 t1
  let t3 := feSquareN 100 t2
  let t2 := feMul t3 t2
  let t2 := feSquareN 50 t2
  let t1 := feMul t2 t1
  let t1 := feSquareN 5 t1
  feMul t1 t0

/-- edwards25519.go:919-978 `fePow22523` -/
def fePow22523 (z : Fe) : Fe :=
  let t0 := feSquare z
  let t1 := feSquareN 2 t0
  let t1 := feMul z t1
  let t0 := feMul t0 t1
  let t0 := feSquare t0
  let t0 := feMul t1 t0
  let t1 := feSquareN 5 t0
  let t0 := feMul t1 t0
  let t1 := feSquareN 10 t0
  let t1 := feMul t1 t0
  let t2 := feSquareN 20 t1
  let t1 := feMul t2 t1
  let t1 := feSquareN 10 t1
  let t0 := feMul t1 t0
  let t1 := feSquareN 50 t0
  let t1 := feMul t1 t0
  let t2 := feSquareN 100 t1
  let t1 := feMul t2 t1
  let t1 := feSquareN 50 t1
  let t0 := feMul t1 t0
  let t0 := feSquareN 2 t0
  feMul t0 z

end Coniks.Ed

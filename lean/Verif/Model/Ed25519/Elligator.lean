import Verif.Model.Ed25519.Group
/-
Hashing to the curve: crypto/internal/ed25519/extra25519/extra25519.go:256-376. (`PrivateKeyToCurve25519`, `PublicKeyToCurve25519` and
`ScalarBaseMult` of that file are used by no other package; see DESIGN.md.)
-/
namespace Coniks.Ed

/-- extra25519.go:258-309 `chi`: the power (p - 1) / 2 -/
def chi (z : Fe) : Fe :=
  let t0 := feSquare z
  let t1 := feMul t0 z
  let t0 := feSquare t1
  let t2 := feSquareN 2 t0
  let t2 := feMul t2 t0
  let t1 := feMul t2 z
  let t2 := feSquareN 5 t1
  let t1 := feMul t2 t1
  let t2 := feSquareN 10 t1
  let t2 := feMul t2 t1
  let t3 := feSquareN 20 t2
  let t2 := feMul t3 t2
  let t2 := feSquareN 10 t2
  let t1 := feMul t2 t1
  let t2 := feSquareN 50 t1
  let t2 := feMul t2 t1
  let t3 := feSquareN 100 t2
  let t2 := feMul t3 t2
  let t2 := feSquareN 50 t2
  let t1 := feMul t2 t1
  let t1 := feSquareN 4 t1
  feMul t1 t0

/-- extra25519.go:325 `rr2[0]++` -/
def feInc (f : Fe) : Fe := { f with x0 := wrap 32 (f.x0 + 1) }

/-- extra25519.go:322-348 `representativeToMontgomeryX` (the value left in `rr2` is not used by its callers) -/
def representativeToMontgomeryX (rr2 : Fe) : Fe :=
  let rr2 := feSquare2 rr2
  let rr2 := feInc rr2
  let rr2 := feInvert rr2
  let v := feMul feA rr2
  let v := feNeg v
  let v2 := feSquare v
  let v3 := feMul v v2
  let e := feAdd v3 v
  let v2 := feMul v2 feA
  let e := feAdd v2 e
  let e := chi e
  let eIsMinus1 : Int := ((feToBytes e).1.getD 1 0 &&& 1).toNat
  let negV := feNeg v
  let v := feCMove v negV eIsMinus1
  let v2 := feCMove feZero feA eIsMinus1
  feSub v v2

/-- extra25519.go:350-357 `montgomeryXToEdwardsY` -/
def montgomeryXToEdwardsY (x : Fe) : Fe :=
  let tt := feAdd x feOne
  let tt := feInvert tt
  let t := feSub x feOne
  feMul tt t

/-- the destination if the boolean result is true, else the panic of extra25519.go:373-375 -/
def okOrPanic (r : Bool × Ext) : Go Ext := if r.1 then some r.2 else none

/-- extra25519.go:366-376 `HashToEdwards` -/
def hashToEdwards (h : Bytes) : Go Ext :=
  let bit := h.getD 31 0 >>> 7
  let hh := h.modify 31 (· &&& 127)
  let X := representativeToMontgomeryX (feFromBytes hh)
  let Y := montgomeryXToEdwardsY X
  okOrPanic (fromParityAndY ⟨X, Y, feZero, feZero⟩ bit Y)

end Coniks.Ed

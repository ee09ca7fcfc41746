import Verif.Model.Crypto
/-
crypto/vrf/vrf.go, over the operations it imports from crypto/internal/ed25519 (`EdOps`) and the extendable-output function SHAKE256.
`Model/Ed25519/*.lean` gives the operations as the Go code computes them.
-/
namespace Coniks

/-- The little-endian number of a byte string (crypto/internal/ed25519/edwards25519/edwards25519.go:1471-1473). -/
def leNat : Bytes → Nat
  | [] => 0
  | b :: bs => b.toNat + 256 * leNat bs

/-- The operations vrf.go uses. `Pt` is `ExtendedGroupElement`, `Pj` is `ProjectiveGroupElement` of
crypto/internal/ed25519/edwards25519/edwards25519.go:989-995. -/
structure EdOps where
  Pt : Type
  Pj : Type
  /-- edwards25519.go:1424 `GeScalarMultBase` -/
  scalarMultBase : Bytes → Pt
  /-- edwards25519.go:1316 `GeScalarMult` -/
  scalarMult : Bytes → Pt → Pt
  /-- edwards25519.go:1334 `GeDoubleScalarMultVartime(a, A, b)` -/
  doubleScalarMult : Bytes → Pt → Bytes → Pj
  /-- edwards25519.go:1058 `GeDouble` -/
  double : Pt → Pt
  /-- edwards25519.go:1292 `GeAdd` -/
  add : Pt → Pt → Pt
  /-- edwards25519.go:1079 `ExtendedGroupElement.ToBytes` -/
  toBytes : Pt → Bytes
  /-- edwards25519.go:1035 `ProjectiveGroupElement.ToBytes` -/
  pjToBytes : Pj → Bytes
  /-- edwards25519.go:1029 `ProjectiveGroupElement.ToExtended` -/
  pjToExtended : Pj → Pt
  /-- edwards25519.go:1095 `FromBytesBaseGroup`; `none` is the return value false -/
  fromBytesBaseGroup : Bytes → Option Pt
  /-- extra25519.go:366 `HashToEdwards`; the outer `none` is its panic -/
  hashToEdwards : Bytes → Go Pt
  /-- edwards25519.go:1936 `ScReduce` -/
  scReduce : Bytes → Bytes
  /-- edwards25519.go:1912 `ScNeg` -/
  scNeg : Bytes → Bytes
  /-- edwards25519.go:1480 `ScMulAdd(a, b, c)` -/
  scMulAdd : Bytes → Bytes → Bytes → Bytes
  /-- const.go:34-38 `BaseBytes` -/
  baseBytes : Bytes

/-- SHAKE256: input and number of bytes read. A second `Read` continues the output (vrf.go:81-82), so the output for a smaller number is a
prefix of the output for a larger one. -/
structure Xof where
  out : Bytes → Nat → Bytes
  length : ∀ m n, (out m n).length = n
  prefix_ : ∀ m n k, n ≤ k → (out m k).take n = out m n

/-- vrf.go:83-85: the clamping of the first 32 bytes. -/
def clamp (x : Bytes) : Bytes := (x.modify 0 (· &&& 248)).modify 31 (fun b => (b &&& 127) ||| 64)

/-- vrf.go:77-87 `expandSecret`; panics if the key has fewer than 32 bytes. -/
def vrfExpand (X : Xof) (sk : Bytes) : Go (Bytes × Bytes) :=
  if sk.length < 32 then none
  else
    let o := X.out (sk.take 32) 64
    some (clamp (o.take 32), o.drop 32)

/-- vrf.go:50-68 `GenerateKey`, for the 32 bytes read from the source of randomness. -/
def vrfGenerateKey (E : EdOps) (X : Xof) (rnd : Bytes) : Go Bytes := do
  let (x, _) ← vrfExpand X rnd
  some (rnd ++ E.toBytes (E.scalarMultBase x))

/-- vrf.go:72-75 `Public`: ed25519's `Public` copies bytes 32 to 63. For a 64 byte key. -/
def vrfPublic (sk : Bytes) : Bytes := sk.drop 32

/-- vrf.go:106-116 `hashToCurve` -/
def vrfHashToCurve (E : EdOps) (X : Xof) (m : Bytes) : Go E.Pt :=
  (E.hashToEdwards (X.out m 32)).map fun p => E.double (E.double (E.double p))

/-- vrf.go:91-104 `Compute` -/
def vrfCompute (E : EdOps) (X : Xof) (sk m : Bytes) : Go Bytes := do
  let (x, _) ← vrfExpand X sk
  let h ← vrfHashToCurve E X m
  some (X.out (E.toBytes (E.scalarMult x h) ++ m) 32)

/-- vrf.go:121-172 `Prove`: value and proof. -/
def vrfProveGo (E : EdOps) (X : Xof) (sk m : Bytes) : Go (Bytes × Bytes) := do
  let (x, skhr) ← vrfExpand X sk
  let h ← vrfHashToCurve E X m
  let hB := E.toBytes h
  let hxB := E.toBytes (E.scalarMult x h)
  let r := E.scReduce (X.out (skhr ++ sk.drop 32 ++ m) 64)
  let grB := E.toBytes (E.scalarMultBase r)
  let hrB := E.toBytes (E.scalarMult r h)
  let s := E.scReduce (X.out (E.baseBytes ++ hB ++ sk.drop 32 ++ hxB ++ grB ++ hrB ++ m) 64)
  let t := E.scMulAdd x (E.scNeg s) r
  some (X.out (hxB ++ m) 32, s ++ t ++ hxB)

/-- vrf.go:205-216: the two points recomputed by `Verify` from the decoded key `P`, the decoded value `ii`, the point `h` and `s`, `t`. -/
def vrfCommitments (E : EdOps) (P ii h : E.Pt) (s t : Bytes) : Bytes × Bytes :=
  let A := E.doubleScalarMult s P t
  let B := E.pjToExtended (E.doubleScalarMult t h (List.replicate 32 0))
  let iic := E.pjToExtended (E.doubleScalarMult s ii (List.replicate 32 0))
  (E.pjToBytes A, E.toBytes (E.add B iic))

/-- vrf.go:176-231 `Verify` -/
def vrfVerifyGo (E : EdOps) (X : Xof) (pk m vrf proof : Bytes) : Go Bool :=
  if proof.length ≠ 96 ∨ vrf.length ≠ 32 ∨ pk.length ≠ 32 then some false
  else
    let s := proof.take 32
    let t := (proof.drop 32).take 32
    let hxB := proof.drop 64
    if X.out (hxB ++ m) 32 != vrf then some false
    else
      match E.fromBytesBaseGroup pk with
      | none => some false
      | some P =>
        match E.fromBytesBaseGroup hxB with
        | none => some false
        | some ii =>
          (vrfHashToCurve E X m).map fun h =>
            let c := vrfCommitments E P ii h s t
            E.scReduce (X.out (E.baseBytes ++ E.toBytes h ++ pk ++ hxB ++ c.1 ++ c.2 ++ m) 64) == s

end Coniks

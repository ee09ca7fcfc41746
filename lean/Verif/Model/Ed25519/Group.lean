import Verif.Model.Ed25519.Tables
/-
Group elements: crypto/internal/ed25519/edwards25519/edwards25519.go:980-1468 and const.go.

A method that writes to a pointer returns the new value. Where an argument may alias the destination (for instance `FeMul(&r.Y, &r.Y, ..)`) the
code reads all inputs before it writes or works limb by limb, so values suffice (proved in C77 for the version with pointers, `Alias.lean`). `FeToBytes` changes its argument; the changed value is
threaded through wherever it is used again.
-/
namespace Coniks.Ed

/-- edwards25519.go:989-991 -/
structure Prj where
  X : Fe
  Y : Fe
  Z : Fe
  deriving DecidableEq

/-- edwards25519.go:993-995 -/
structure Ext where
  X : Fe
  Y : Fe
  Z : Fe
  T : Fe
  deriving DecidableEq

/-- edwards25519.go:997-999 -/
structure Cmp where
  X : Fe
  Y : Fe
  Z : Fe
  T : Fe
  deriving DecidableEq

/-- edwards25519.go:1005-1007 -/
structure Cch where
  yPlusX : Fe
  yMinusX : Fe
  Z : Fe
  T2d : Fe
  deriving DecidableEq

/-- const.go:10-12 `d` -/
def feD : Fe := ⟨-10913610, 13857413, -15372611, 6949391, 114729, -8787816, -6275908, -3247719, -18696448, -12055116⟩
/-- const.go:14-16 `d2` -/
def feD2 : Fe := ⟨-21827239, -5839606, -30745221, 13898782, 229458, 15978800, -12551817, -6495438, 29715968, 9444199⟩
/-- const.go:18-20 `SqrtM1` -/
def feSqrtM1 : Fe := ⟨-32595792, -7943725, 9377950, 3500415, 12389472, -272473, -25146209, -2005654, 326686, 11406482⟩
/-- const.go:22-24 `A` -/
def feA : Fe := ⟨486662, 0, 0, 0, 0, 0, 0, 0, 0, 0⟩
/-- const.go:26-31 `extendedBaseEl` -/
def extendedBaseEl : Ext :=
  ⟨⟨25485296, 5318399, 8791791, -8299916, -14349720, 6939349, -3324311, -7717049, 7287234, -6577708⟩,
   ⟨-758052, -1832720, 13046421, -4857925, 6576754, 14371947, -13139572, 6845540, -2198883, -4003719⟩,
   ⟨-947565, 6097708, -469190, 10704810, -8556274, -15589498, -16424464, -16608899, 14028613, -5004649⟩,
   ⟨6966464, -2456167, 7033433, 6781840, 28785542, 12262365, -2659449, 13959020, -21013759, -5262166⟩⟩
/-- const.go:8 `BasePointOrder` -/
def basePointOrder : Bytes :=
  [237, 211, 245, 92, 26, 99, 18, 88, 214, 156, 247, 162, 222, 249, 222, 20, 0, 0, 0, 0, 0, 0, 0, 0, 0, 0, 0, 0, 0, 0, 0, 16]

/-- edwards25519.go:1009-1013 -/
def Prj.zero : Prj := ⟨feZero, feOne, feOne⟩
/-- edwards25519.go:1045-1050 -/
def Ext.zero : Ext := ⟨feZero, feOne, feOne, feZero⟩
/-- edwards25519.go:1193-1197 -/
def Pre.zero : Pre := ⟨feOne, feOne, feZero⟩
/-- the zero value of an `ExtendedGroupElement` variable, as in `var p ExtendedGroupElement` -/
def Ext.blank : Ext := ⟨feZero, feZero, feZero, feZero⟩

/-- edwards25519.go:1015-1027 `ProjectiveGroupElement.Double` -/
def Prj.double (p : Prj) : Cmp :=
  let rX := feSquare p.X
  let rZ := feSquare p.Y
  let rT := feSquare2 p.Z
  let rY := feAdd p.X p.Y
  let t0 := feSquare rY
  let rY := feAdd rZ rX
  let rZ := feSub rZ rX
  let rX := feSub t0 rY
  let rT := feSub rT rZ
  ⟨rX, rY, rZ, rT⟩

/-- edwards25519.go:1073-1077 -/
def Ext.toProjective (p : Ext) : Prj := ⟨p.X, p.Y, p.Z⟩
/-- edwards25519.go:1052-1056 `ExtendedGroupElement.Double` -/
def Ext.double (p : Ext) : Cmp := p.toProjective.double
/-- edwards25519.go:1180-1184 -/
def Cmp.toProjective (p : Cmp) : Prj := ⟨feMul p.X p.T, feMul p.Y p.Z, feMul p.Z p.T⟩
/-- edwards25519.go:1186-1191 -/
def Cmp.toExtended (p : Cmp) : Ext := ⟨feMul p.X p.T, feMul p.Y p.Z, feMul p.Z p.T, feMul p.X p.Y⟩
/-- edwards25519.go:1058-1064 `GeDouble` -/
def geDouble (p : Ext) : Ext := p.toProjective.double.toExtended
/-- edwards25519.go:1066-1071 -/
def Ext.toCached (p : Ext) : Cch := ⟨feAdd p.Y p.X, feSub p.Y p.X, p.Z, feMul p.T feD2⟩

/-- edwards25519.go:1199-1213 `geAdd` -/
def geAddC (p : Ext) (q : Cch) : Cmp :=
  let rX := feAdd p.Y p.X
  let rY := feSub p.Y p.X
  let rZ := feMul rX q.yPlusX
  let rY := feMul rY q.yMinusX
  let rT := feMul q.T2d p.T
  let rX := feMul p.Z q.Z
  let t0 := feAdd rX rX
  let rX := feSub rZ rY
  let rY := feAdd rZ rY
  let rZ := feAdd t0 rT
  let rT := feSub t0 rT
  ⟨rX, rY, rZ, rT⟩

/-- edwards25519.go:1215-1229 `geSub` -/
def geSubC (p : Ext) (q : Cch) : Cmp :=
  let rX := feAdd p.Y p.X
  let rY := feSub p.Y p.X
  let rZ := feMul rX q.yMinusX
  let rY := feMul rY q.yPlusX
  let rT := feMul q.T2d p.T
  let rX := feMul p.Z q.Z
  let t0 := feAdd rX rX
  let rX := feSub rZ rY
  let rY := feAdd rZ rY
  let rZ := feSub t0 rT
  let rT := feAdd t0 rT
  ⟨rX, rY, rZ, rT⟩

/-- edwards25519.go:1231-1244 `geMixedAdd` -/
def geMixedAdd (p : Ext) (q : Pre) : Cmp :=
  let rX := feAdd p.Y p.X
  let rY := feSub p.Y p.X
  let rZ := feMul rX q.yPlusX
  let rY := feMul rY q.yMinusX
  let rT := feMul q.xy2d p.T
  let t0 := feAdd p.Z p.Z
  let rX := feSub rZ rY
  let rY := feAdd rZ rY
  let rZ := feAdd t0 rT
  let rT := feSub t0 rT
  ⟨rX, rY, rZ, rT⟩

/-- edwards25519.go:1246-1259 `geMixedSub` -/
def geMixedSub (p : Ext) (q : Pre) : Cmp :=
  let rX := feAdd p.Y p.X
  let rY := feSub p.Y p.X
  let rZ := feMul rX q.yMinusX
  let rY := feMul rY q.yPlusX
  let rT := feMul q.xy2d p.T
  let t0 := feAdd p.Z p.Z
  let rX := feSub rZ rY
  let rY := feAdd rZ rY
  let rZ := feSub t0 rT
  let rT := feAdd t0 rT
  ⟨rX, rY, rZ, rT⟩

/-- edwards25519.go:1292-1298 `GeAdd` -/
def geAdd (a b : Ext) : Ext := (geAddC a b.toCached).toExtended

/-! ### encoding -/

/-- edwards25519.go:1035-1043 and 1079-1087 `ToBytes`, from X, Y and Z -/
def geEncode (X Y Z : Fe) : Bytes :=
  let recip := feInvert Z
  let x := feMul X recip
  let y := feMul Y recip
  (feToBytes y).1.modify 31 (· ^^^ ((feIsNegative x).1 <<< 7))

/-- edwards25519.go:1035-1043 -/
def Prj.toBytes (p : Prj) : Bytes := geEncode p.X p.Y p.Z
/-- edwards25519.go:1079-1087 -/
def Ext.toBytes (p : Ext) : Bytes := geEncode p.X p.Y p.Z

/-- edwards25519.go:1134-1178 `FromParityAndY`: the return value and the destination, whose old value is `p` -/
def fromParityAndY (p : Ext) (bit : UInt8) (y : Fe) : Bool × Ext :=
  let Y := y
  let Z := feOne
  let u := feSquare Y
  let v := feMul u feD
  let u := feSub u Z
  let v := feAdd v Z
  let v3 := feSquare v
  let v3 := feMul v3 v
  let X := feSquare v3
  let X := feMul X v
  let X := feMul X u
  let X := fePow22523 X
  let X := feMul X v3
  let X := feMul X u
  let vxx := feSquare X
  let vxx := feMul vxx v
  let check := feSub vxx u
  let isRoot := (feIsNonZero check).1 != 1
  let isNegRoot := (feIsNonZero (feAdd vxx u)).1 != 1
  if !isRoot && !isNegRoot then (false, ⟨X, Y, Z, p.T⟩)
  else
    let X := if isRoot then X else (feToBytes (feMul X feSqrtM1)).2
    let n := feIsNegative X
    let X := n.2
    let X := if n.1 != bit then feNeg X else X
    (true, ⟨X, Y, Z, feMul X Y⟩)

/-- edwards25519.go:1129-1132 `FromBytes` -/
def fromBytes (p : Ext) (s : Bytes) : Bool × Ext := fromParityAndY p (s.getD 31 0 >>> 7) (feFromBytes s)

/-- the destination after a call whose boolean result is dropped (a separate definition so that the kernel compares calls, not values) -/
def destOf (r : Bool × Ext) : Ext := r.2

/-- edwards25519.go:1029-1033 `ProjectiveGroupElement.ToExtended`: the result of `FromBytes` is not looked at -/
def Prj.toExtended (p : Prj) (s : Ext) : Ext := destOf (fromBytes s p.toBytes)

/-! ### scalar multiplication -/

/-- edwards25519.go:1307-1312 -/
def extCMove (t u : Ext) (b : Int) : Ext := ⟨feCMove t.X u.X b, feCMove t.Y u.Y b, feCMove t.Z u.Z b, feCMove t.T u.T b⟩

/-- bit `i` of `a`: edwards25519.go:1263 and 1321, `1 & (a[i>>3] >> uint(i&7))` -/
def bitAt (a : Bytes) (i : Nat) : Int := ((byteAt a (i / 8) >>> (i % 8)) % 2 : Nat)

/-- edwards25519.go:1320-1326: the loop of `GeScalarMult` from bit `i` on, with `n` bits to go -/
def geScalarMultLoop (a : Bytes) : Nat → Nat → Ext → Ext → Ext
  | 0, _, _, q => q
  | n + 1, i, p, q => geScalarMultLoop a n (i + 1) (geDouble p) (extCMove q (geAdd q p) (bitAt a i))

/-- edwards25519.go:1316-1328 `GeScalarMult` -/
def geScalarMult (a : Bytes) (A : Ext) : Ext := geScalarMultLoop a 256 0 A Ext.zero

/-- edwards25519.go:1095-1127 `FromBytesBaseGroup`: the destination if the result is true -/
def fromBytesBaseGroup (s : Bytes) : Option Ext :=
  if s = 1 :: List.replicate 31 0 then none
  else
    let r := fromBytes Ext.blank s
    if !r.1 then none
    else if r.2.toBytes ≠ s then none
    else if (geScalarMult basePointOrder r.2).toBytes ≠ 1 :: List.replicate 31 0 then none
    else if s = List.replicate 32 0 then none
    else some r.2

/-- edwards25519.go:1275-1281: the carry of `slide`, from `k` on, with `n = 256 - k` -/
def slideCarry : Nat → Nat → (Nat → Int) → Nat → Int
  | 0, _, r => r
  | n + 1, k, r => if r k = 0 then upd r k 1 else slideCarry n (k + 1) (upd r k 0)

/-- edwards25519.go:1268-1286: the inner loop of `slide` at position `i`, with `b = 7 - n`; int8 arithmetic -/
def slideInner (i : Nat) : Nat → (Nat → Int) → Nat → Int
  | 0, r => r
  | n + 1, r =>
    let b := 6 - n
    if i + b < 256 then
      if r (i + b) ≠ 0 then
        let s := wrap 8 (r (i + b) * 2 ^ b)
        if wrap 8 (r i + s) ≤ 15 then slideInner i n (upd (upd r i (wrap 8 (r i + s))) (i + b) 0)
        else if wrap 8 (r i - s) ≥ -15 then slideInner i n (slideCarry (256 - (i + b)) (i + b) (upd r i (wrap 8 (r i - s))))
        else r
      else slideInner i n r
    else r

/-- edwards25519.go:1266-1288: the outer loop of `slide`, from position `i` on, with `n` positions to go -/
def slideOuter : Nat → Nat → (Nat → Int) → Nat → Int
  | 0, _, r => r
  | n + 1, i, r => slideOuter n (i + 1) (if r i ≠ 0 then slideInner i 6 r else r)

/-- edwards25519.go:1261-1289 `slide` -/
def slide (a : Bytes) : Nat → Int := slideOuter 256 0 (fun i => if i < 256 then bitAt a i else 0)

/-- edwards25519.go:1349-1353: the table of odd multiples, from `Ai[i]` on -/
def oddMultiples (A2 : Ext) : Nat → Cch → List Cch
  | 0, c => [c]
  | n + 1, c => c :: oddMultiples A2 n (geAddC A2 c).toExtended.toCached

/-- edwards25519.go:1366-1372: one digit of the first scalar; an index outside the table panics -/
def dsAddA (Ai : List Cch) (e : Int) (t : Cmp) : Go Cmp :=
  if e > 0 then (Ai[(e / 2).toNat]?).map (geAddC t.toExtended)
  else if e < 0 then (Ai[(-e / 2).toNat]?).map (geSubC t.toExtended)
  else some t

/-- edwards25519.go:1374-1380: one digit of the second scalar -/
def dsAddB (e : Int) (t : Cmp) : Go Cmp :=
  if e > 0 then (tblBi[(e / 2).toNat]?).map (geMixedAdd t.toExtended)
  else if e < 0 then (tblBi[(-e / 2).toNat]?).map (geMixedSub t.toExtended)
  else some t

/-- edwards25519.go:1363-1382: the main loop, with `n = i + 1` -/
def dsLoop (Ai : List Cch) (as bs : Nat → Int) : Nat → Prj → Go Prj
  | 0, r => some r
  | i + 1, r => (dsAddA Ai (as i) r.double).bind fun t => (dsAddB (bs i) t).bind fun t => dsLoop Ai as bs i t.toProjective

/-- edwards25519.go:1357-1361: the number of positions up to the highest non-zero digit -/
def dsTop (as bs : Nat → Int) : Nat → Nat
  | 0 => 0
  | i + 1 => if as i ≠ 0 ∨ bs i ≠ 0 then i + 1 else dsTop as bs i

/-- edwards25519.go:1334-1383 `GeDoubleScalarMultVartime` -/
def geDoubleScalarMult (a : Bytes) (A : Ext) (b : Bytes) : Go Prj :=
  let as := slide a
  let bs := slide b
  dsLoop (oddMultiples A.double.toExtended 7 A.toCached) as bs (dsTop as bs 256) Prj.zero

/-- edwards25519.go:1386-1390 `equal` -/
def ctEqual (b c : Int) : Int := (((BitVec.ofInt 32 b ^^^ BitVec.ofInt 32 c) - 1#32) >>> 31).toInt
/-- edwards25519.go:1393-1395 `negative` -/
def ctNegative (b : Int) : Int := ((BitVec.ofInt 32 b).sshiftRight 31 &&& 1#32).toInt

/-- edwards25519.go:1397-1401 -/
def preCMove (t u : Pre) (b : Int) : Pre := ⟨feCMove t.yPlusX u.yPlusX b, feCMove t.yMinusX u.yMinusX b, feCMove t.xy2d u.xy2d b⟩

/-- edwards25519.go:1406 `bAbs` -/
def ctAbs (b : Int) : Int := (BitVec.ofInt 32 b - ((- BitVec.ofInt 32 (ctNegative b)) &&& BitVec.ofInt 32 b) <<< 1).toInt

/-- edwards25519.go:1409-1411: the selecting loop, `i` being the index of the first entry of `row` -/
def selectLoop (bAbs : Int) : Int → List Pre → Pre → Pre
  | _, [], t => t
  | i, e :: row, t => selectLoop bAbs (i + 1) row (preCMove t e (ctEqual bAbs (i + 1)))

/-- edwards25519.go:1403-1416 `selectPoint`, `row` being `base[pos]` -/
def selectPoint (row : List Pre) (b : Int) : Pre :=
  let t := selectLoop (ctAbs b) 0 row Pre.zero
  let minusT : Pre := ⟨t.yMinusX, t.yPlusX, feNeg t.xy2d⟩
  preCMove t minusT (ctNegative b)

/-- edwards25519.go:1427-1430: the digits in radix 16 -/
def nibbles (a : Bytes) : List Int := a.flatMap fun (v : UInt8) => [((v &&& 15).toNat : Int), (((v >>> 4) &&& 15).toNat : Int)]

/-- edwards25519.go:1434-1440: the carries, in int8 -/
def recode16 : Int → List Int → List Int
  | _, [] => []
  | carry, [e] => [wrap 8 (e + carry)]
  | carry, e :: es =>
    let e := wrap 8 (e + carry)
    let carry := wrap 8 (e + 8) / 2 ^ 4
    wrap 8 (e - wrap 8 (carry * 2 ^ 4)) :: recode16 carry es

/-- edwards25519.go:1446-1450 and 1463-1467: adds the selected points of consecutive rows; `es` are the digits for these rows -/
def smbLoop : List (List Pre) → List Int → Ext → Ext
  | row :: rows, e :: es, h => smbLoop rows es (geMixedAdd h (selectPoint row e)).toExtended
  | _, _, h => h

/-- every second element, starting with the first -/
def evens : List Int → List Int
  | [] => []
  | [x] => [x]
  | x :: _ :: xs => x :: evens xs

/-- edwards25519.go:1424-1468 `GeScalarMultBase` -/
def geScalarMultBase (a : Bytes) : Ext :=
  let e := recode16 0 (nibbles a)
  let h := smbLoop tblBase (evens (e.drop 1)) Ext.zero
  let s := h.double.toProjective
  let s := s.double.toProjective
  let s := s.double.toProjective
  let h := s.double.toExtended
  smbLoop tblBase (evens e) h

/-- const.go:34-38 `BaseBytes`, set by `init` -/
def baseBytes : Bytes := extendedBaseEl.toBytes

end Coniks.Ed

import Verif.Model.Ed25519.Scalar
import Verif.Model.Ed25519.Convert
/-
The functions of edwards25519.go as what they are in Go: they get pointers, which may be equal, and change a memory. `Field.lean` and
`Group.lean` have them as functions from values to values.

The memory has objects (numbered), which have fields (numbered in the order of the struct), which are field elements. A `FieldElement`
variable is an object with one field. Each function gets `n`, the first object number that is not in use: its local variables are the
objects from `n` on. Constants (`d`, `d2`, `SqrtM1`, `base`, `bi`, `BasePointOrder`) are values: no function here gets a pointer to one as
its destination.
-/
namespace Coniks.Ed

/-- a pointer to a field element: object and field (Go's `&r.X` is `(r, 0)`) -/
abbrev Ptr := Nat × Nat

/-- the field elements of the memory -/
abbrev FeMem := Ptr → Fe

/-- an assignment through a pointer -/
def FeMem.put (m : FeMem) (d : Ptr) (x : Fe) : FeMem := fun q => if q = d then x else m q

/-- edwards25519.go:19: one limb of a `FieldElement`, changed -/
def Fe.setLimb (f : Fe) (v : Int) : Nat → Fe
  | 0 => { f with x0 := v } | 1 => { f with x1 := v } | 2 => { f with x2 := v } | 3 => { f with x3 := v } | 4 => { f with x4 := v }
  | 5 => { f with x5 := v } | 6 => { f with x6 := v } | 7 => { f with x7 := v } | 8 => { f with x8 := v } | 9 => { f with x9 := v }
  | _ => f

/-- `for i := range dst { dst[i] = g(i) }` where `g` reads the memory as it is at that moment (edwards25519.go:32-48, 278-282) -/
def limbLoop (d : Ptr) (g : FeMem → Nat → Int) (m : FeMem) : FeMem :=
  (List.range 10).foldl (fun m i => m.put d ((m d).setLimb (g m i) i)) m

/-- edwards25519.go:21-25 `FeZero` -/
def mZero (d : Ptr) : FeMem → FeMem := limbLoop d fun _ _ => 0
/-- edwards25519.go:27-30 `FeOne` -/
def mOne (d : Ptr) (m : FeMem) : FeMem := let m := mZero d m; m.put d ((m d).setLimb 1 0)
/-- edwards25519.go:32-36 `FeAdd` -/
def mAdd (d a b : Ptr) : FeMem → FeMem := limbLoop d fun m i => wrap 32 ((m a).env i + (m b).env i)
/-- edwards25519.go:38-42 `FeSub` -/
def mSub (d a b : Ptr) : FeMem → FeMem := limbLoop d fun m i => wrap 32 ((m a).env i - (m b).env i)
/-- edwards25519.go:44-48 `FeCopy` -/
def mCopy (d a : Ptr) : FeMem → FeMem := limbLoop d fun m i => (m a).env i
/-- edwards25519.go:278-282 `FeNeg` -/
def mNeg (d a : Ptr) : FeMem → FeMem := limbLoop d fun m i => wrap 32 (-(m a).env i)
/-- edwards25519.go:54-64 `FeCMove(f, g, b)`: the ten differences are computed before `f` is changed -/
def mCMove (f g : Ptr) (b : Int) (m : FeMem) : FeMem :=
  let x : Nat → BitVec 32 := fun i => (- BitVec.ofInt 32 b) &&& (BitVec.ofInt 32 ((m f).env i) ^^^ BitVec.ofInt 32 ((m g).env i))
  limbLoop f (fun m i => (BitVec.ofInt 32 ((m f).env i) ^^^ x i).toInt) m
/-- edwards25519.go:311-542 `FeMul`: the twenty limbs are read (312-331) before the ten are written (532-541) -/
def mMul (d a b : Ptr) (m : FeMem) : FeMem := m.put d (feMul (m a) (m b))
/-- edwards25519.go:311-542 `FeMul` with a constant as second factor -/
def mMulC (d a : Ptr) (c : Fe) (m : FeMem) : FeMem := m.put d (feMul (m a) c)
/-- edwards25519.go:551-695 `FeSquare`: reads (552-561) before writes -/
def mSquare (d a : Ptr) (m : FeMem) : FeMem := m.put d (feSquare (m a))
/-- edwards25519.go:707-862 `FeSquare2`: reads (708-717) before writes -/
def mSquare2 (d a : Ptr) (m : FeMem) : FeMem := m.put d (feSquare2 (m a))
/-- edwards25519.go:83-138 `FeFromBytes` -/
def mFromBytes (d : Ptr) (s : Bytes) (m : FeMem) : FeMem := m.put d (feFromBytes s)
/-- edwards25519.go:163-250 `FeToBytes`, which also changes its argument -/
def mToBytes (h : Ptr) (m : FeMem) : Bytes × FeMem := ((feToBytes (m h)).1, m.put h (feToBytes (m h)).2)
/-- edwards25519.go:252-256 `FeIsNegative` -/
def mIsNegative (f : Ptr) (m : FeMem) : UInt8 × FeMem := ((feIsNegative (m f)).1, m.put f (feIsNegative (m f)).2)
/-- edwards25519.go:258-269 `FeIsNonZero` -/
def mIsNonZero (f : Ptr) (m : FeMem) : Int × FeMem := ((feIsNonZero (m f)).1, m.put f (feIsNonZero (m f)).2)

/-- `for i = 1; i < k + 1; i++ { FeSquare(t, t) }` (edwards25519.go:864-978) -/
def mSquareN (t : Ptr) : Nat → FeMem → FeMem
  | 0, m => m
  | k + 1, m => mSquareN t k (mSquare t t m)

/-- edwards25519.go:864-917 `FeInvert` -/
def mInvert (n : Nat) (out z : Ptr) (m : FeMem) : FeMem :=
  let t0 := (n, 0)
  let t1 := (n + 1, 0)
  let t2 := (n + 2, 0)
  let t3 := (n + 3, 0)
  let m := mSquare t0 z m
  let m := mSquareN t1 1 (mSquare t1 t0 m)
  let m := mMul t1 z t1 m
  let m := mMul t0 t0 t1 m
  let m := mSquare t2 t0 m
  let m := mMul t1 t1 t2 m
  let m := mSquareN t2 4 (mSquare t2 t1 m)
  let m := mMul t1 t2 t1 m
  let m := mSquareN t2 9 (mSquare t2 t1 m)
  let m := mMul t2 t2 t1 m
  let m := mSquareN t3 19 (mSquare t3 t2 m)
  let m := mMul t2 t3 t2 m
  let m := mSquareN t2 9 (mSquare t2 t2 m)
  let m := mMul t1 t2 t1 m
  let m := mSquareN t2 49 (mSquare t2 t1 m)
  let m := mMul t2 t2 t1 m
  let m := mSquareN t3 99 (mSquare t3 t2 m)
  let m := mMul t2 t3 t2 m
  let m := mSquareN t2 49 (mSquare t2 t2 m)
  let m := mMul t1 t2 t1 m
  let m := mSquareN t1 4 (mSquare t1 t1 m)
  mMul out t1 t0 m

/-- edwards25519.go:919-978 `fePow22523` -/
def mPow22523 (n : Nat) (out z : Ptr) (m : FeMem) : FeMem :=
  let t0 := (n, 0)
  let t1 := (n + 1, 0)
  let t2 := (n + 2, 0)
  let m := mSquareN t0 0 (mSquare t0 z m)
  let m := mSquareN t1 1 (mSquare t1 t0 m)
  let m := mMul t1 z t1 m
  let m := mMul t0 t0 t1 m
  let m := mSquareN t0 0 (mSquare t0 t0 m)
  let m := mMul t0 t1 t0 m
  let m := mSquareN t1 4 (mSquare t1 t0 m)
  let m := mMul t0 t1 t0 m
  let m := mSquareN t1 9 (mSquare t1 t0 m)
  let m := mMul t1 t1 t0 m
  let m := mSquareN t2 19 (mSquare t2 t1 m)
  let m := mMul t1 t2 t1 m
  let m := mSquareN t1 9 (mSquare t1 t1 m)
  let m := mMul t0 t1 t0 m
  let m := mSquareN t1 49 (mSquare t1 t0 m)
  let m := mMul t1 t1 t0 m
  let m := mSquareN t2 99 (mSquare t2 t1 m)
  let m := mMul t1 t2 t1 m
  let m := mSquareN t1 49 (mSquare t1 t1 m)
  let m := mMul t0 t1 t0 m
  let m := mSquareN t0 1 (mSquare t0 t0 m)
  mMul out t0 z m

/-! ### group elements -/

/-- edwards25519.go:989-1007: the group elements an object holds -/
def prjAt (m : FeMem) (o : Nat) : Prj := ⟨m (o, 0), m (o, 1), m (o, 2)⟩
/-- see `prjAt` -/
def extAt (m : FeMem) (o : Nat) : Ext := ⟨m (o, 0), m (o, 1), m (o, 2), m (o, 3)⟩
/-- see `prjAt` -/
def cmpAt (m : FeMem) (o : Nat) : Cmp := ⟨m (o, 0), m (o, 1), m (o, 2), m (o, 3)⟩
/-- see `prjAt` -/
def preAt (m : FeMem) (o : Nat) : Pre := ⟨m (o, 0), m (o, 1), m (o, 2)⟩
/-- see `prjAt` -/
def cchAt (m : FeMem) (o : Nat) : Cch := ⟨m (o, 0), m (o, 1), m (o, 2), m (o, 3)⟩

/-- edwards25519.go:1009-1013 -/
def mPrjZero (p : Nat) (m : FeMem) : FeMem := mOne (p, 2) (mOne (p, 1) (mZero (p, 0) m))

/-- edwards25519.go:1045-1050 -/
def mExtZero (p : Nat) (m : FeMem) : FeMem := mZero (p, 3) (mOne (p, 2) (mOne (p, 1) (mZero (p, 0) m)))

/-- edwards25519.go:1193-1197 -/
def mPreZero (p : Nat) (m : FeMem) : FeMem := mZero (p, 2) (mOne (p, 1) (mOne (p, 0) m))

/-- edwards25519.go:1015-1027 `ProjectiveGroupElement.Double` -/
def mPrjDouble (n p r : Nat) (m : FeMem) : FeMem :=
  let t0 := (n, 0)
  let m := mSquare (r, 0) (p, 0) m
  let m := mSquare (r, 2) (p, 1) m
  let m := mSquare2 (r, 3) (p, 2) m
  let m := mAdd (r, 1) (p, 0) (p, 1) m
  let m := mSquare t0 (r, 1) m
  let m := mAdd (r, 1) (r, 2) (r, 0) m
  let m := mSub (r, 2) (r, 2) (r, 0) m
  let m := mSub (r, 0) t0 (r, 1) m
  mSub (r, 3) (r, 3) (r, 2) m

/-- edwards25519.go:1073-1077 -/
def mExtToProjective (p r : Nat) (m : FeMem) : FeMem :=
  let m := mCopy (r, 0) (p, 0) m
  let m := mCopy (r, 1) (p, 1) m
  mCopy (r, 2) (p, 2) m

/-- edwards25519.go:1052-1056 `ExtendedGroupElement.Double` -/
def mExtDouble (n p r : Nat) (m : FeMem) : FeMem :=
  let q := n
  let m := mExtToProjective p q m
  mPrjDouble (n + 1) q r m

/-- edwards25519.go:1180-1184 -/
def mCmpToProjective (p r : Nat) (m : FeMem) : FeMem :=
  let m := mMul (r, 0) (p, 0) (p, 3) m
  let m := mMul (r, 1) (p, 1) (p, 2) m
  mMul (r, 2) (p, 2) (p, 3) m

/-- edwards25519.go:1186-1191 -/
def mCmpToExtended (p r : Nat) (m : FeMem) : FeMem :=
  let m := mMul (r, 0) (p, 0) (p, 3) m
  let m := mMul (r, 1) (p, 1) (p, 2) m
  let m := mMul (r, 2) (p, 2) (p, 3) m
  mMul (r, 3) (p, 0) (p, 1) m

/-- edwards25519.go:1058-1064 `GeDouble` -/
def mGeDouble (n r p : Nat) (m : FeMem) : FeMem :=
  let q := n
  let m := mExtToProjective p q m
  let rco := n + 1
  let m := mPrjDouble (n + 2) q rco m
  mCmpToExtended rco r m

/-- edwards25519.go:1066-1071 -/
def mToCached (p r : Nat) (m : FeMem) : FeMem :=
  let m := mAdd (r, 0) (p, 1) (p, 0) m
  let m := mSub (r, 1) (p, 1) (p, 0) m
  let m := mCopy (r, 2) (p, 2) m
  mMulC (r, 3) (p, 3) feD2 m

/-- edwards25519.go:1199-1213 `geAdd` -/
def mGeAddC (n r p q : Nat) (m : FeMem) : FeMem :=
  let t0 := (n, 0)
  let m := mAdd (r, 0) (p, 1) (p, 0) m
  let m := mSub (r, 1) (p, 1) (p, 0) m
  let m := mMul (r, 2) (r, 0) (q, 0) m
  let m := mMul (r, 1) (r, 1) (q, 1) m
  let m := mMul (r, 3) (q, 3) (p, 3) m
  let m := mMul (r, 0) (p, 2) (q, 2) m
  let m := mAdd t0 (r, 0) (r, 0) m
  let m := mSub (r, 0) (r, 2) (r, 1) m
  let m := mAdd (r, 1) (r, 2) (r, 1) m
  let m := mAdd (r, 2) t0 (r, 3) m
  mSub (r, 3) t0 (r, 3) m

/-- edwards25519.go:1215-1229 `geSub` -/
def mGeSubC (n r p q : Nat) (m : FeMem) : FeMem :=
  let t0 := (n, 0)
  let m := mAdd (r, 0) (p, 1) (p, 0) m
  let m := mSub (r, 1) (p, 1) (p, 0) m
  let m := mMul (r, 2) (r, 0) (q, 1) m
  let m := mMul (r, 1) (r, 1) (q, 0) m
  let m := mMul (r, 3) (q, 3) (p, 3) m
  let m := mMul (r, 0) (p, 2) (q, 2) m
  let m := mAdd t0 (r, 0) (r, 0) m
  let m := mSub (r, 0) (r, 2) (r, 1) m
  let m := mAdd (r, 1) (r, 2) (r, 1) m
  let m := mSub (r, 2) t0 (r, 3) m
  mAdd (r, 3) t0 (r, 3) m

/-- edwards25519.go:1231-1244 `geMixedAdd` -/
def mGeMixedAdd (n r p q : Nat) (m : FeMem) : FeMem :=
  let t0 := (n, 0)
  let m := mAdd (r, 0) (p, 1) (p, 0) m
  let m := mSub (r, 1) (p, 1) (p, 0) m
  let m := mMul (r, 2) (r, 0) (q, 0) m
  let m := mMul (r, 1) (r, 1) (q, 1) m
  let m := mMul (r, 3) (q, 2) (p, 3) m
  let m := mAdd t0 (p, 2) (p, 2) m
  let m := mSub (r, 0) (r, 2) (r, 1) m
  let m := mAdd (r, 1) (r, 2) (r, 1) m
  let m := mAdd (r, 2) t0 (r, 3) m
  mSub (r, 3) t0 (r, 3) m

/-- edwards25519.go:1246-1259 `geMixedSub` -/
def mGeMixedSub (n r p q : Nat) (m : FeMem) : FeMem :=
  let t0 := (n, 0)
  let m := mAdd (r, 0) (p, 1) (p, 0) m
  let m := mSub (r, 1) (p, 1) (p, 0) m
  let m := mMul (r, 2) (r, 0) (q, 1) m
  let m := mMul (r, 1) (r, 1) (q, 0) m
  let m := mMul (r, 3) (q, 2) (p, 3) m
  let m := mAdd t0 (p, 2) (p, 2) m
  let m := mSub (r, 0) (r, 2) (r, 1) m
  let m := mAdd (r, 1) (r, 2) (r, 1) m
  let m := mSub (r, 2) t0 (r, 3) m
  mAdd (r, 3) t0 (r, 3) m

/-- edwards25519.go:1292-1298 `GeAdd` -/
def mGeAdd (n r a b : Nat) (m : FeMem) : FeMem :=
  let bca := n
  let m := mToCached b bca m
  let rc := n + 1
  let m := mGeAddC (n + 2) rc a bca m
  mCmpToExtended rc r m

/-- edwards25519.go:1300-1305 -/
def mExtCopy (t u : Nat) (m : FeMem) : FeMem :=
  let m := mCopy (t, 0) (u, 0) m
  let m := mCopy (t, 1) (u, 1) m
  let m := mCopy (t, 2) (u, 2) m
  mCopy (t, 3) (u, 3) m

/-- edwards25519.go:1307-1312 -/
def mExtCMove (t u : Nat) (b : Int) (m : FeMem) : FeMem :=
  let m := mCMove (t, 0) (u, 0) b m
  let m := mCMove (t, 1) (u, 1) b m
  let m := mCMove (t, 2) (u, 2) b m
  mCMove (t, 3) (u, 3) b m

/-- edwards25519.go:1320-1326: the loop of `GeScalarMult` from bit `i` on, with `k` bits to go; `p`, `q` and `t` are the objects `n`,
`n + 1` and `n + 2` (`t` is new and zero in each round; `GeAdd` overwrites all of it) -/
def mScalarMultLoop (n : Nat) (a : Bytes) : Nat → Nat → FeMem → FeMem
  | 0, _, m => m
  | k + 1, i, m =>
    let m := mGeAdd (n + 3) (n + 2) (n + 1) n m
    let m := mExtCMove (n + 1) (n + 2) (bitAt a i) m
    let m := mGeDouble (n + 3) n n m
    mScalarMultLoop n a k (i + 1) m

/-- edwards25519.go:1316-1328 `GeScalarMult` -/
def mGeScalarMult (n r : Nat) (a : Bytes) (A : Nat) (m : FeMem) : FeMem :=
  let m := mExtZero (n + 1) m
  let m := mExtCopy n A m
  let m := mScalarMultLoop n a 256 0 m
  mExtCopy r (n + 1) m

/-- an entry of one of the constant tables `base` and `bi`, as the object `o` -/
def mEntry (o : Nat) (e : Pre) (m : FeMem) : FeMem := ((m.put (o, 0) e.yPlusX).put (o, 1) e.yMinusX).put (o, 2) e.xy2d

/-- edwards25519.go:1397-1401 -/
def mPreCMove (t u : Nat) (b : Int) (m : FeMem) : FeMem :=
  let m := mCMove (t, 0) (u, 0) b m
  let m := mCMove (t, 1) (u, 1) b m
  mCMove (t, 2) (u, 2) b m

/-- edwards25519.go:1409-1411: the selecting loop; the entries are in the object `n` one after the other -/
def mSelectLoop (n t : Nat) (bAbs : Int) : Int → List Pre → FeMem → FeMem
  | _, [], m => m
  | i, e :: row, m => mSelectLoop n t bAbs (i + 1) row (mPreCMove t n (ctEqual bAbs (i + 1)) (mEntry n e m))

/-- edwards25519.go:1403-1416 `selectPoint`; `minusT` is the object `n + 1` -/
def mSelectPoint (n t : Nat) (row : List Pre) (b : Int) (m : FeMem) : FeMem :=
  let m := mPreZero t m
  let m := mSelectLoop n t (ctAbs b) 0 row m
  let m := mCopy (n + 1, 0) (t, 1) m
  let m := mCopy (n + 1, 1) (t, 0) m
  let m := mNeg (n + 1, 2) (t, 2) m
  mPreCMove t (n + 1) (ctNegative b) m

/-- edwards25519.go:1446-1450 and 1463-1467; `t` and `r` are the objects `n` and `n + 1` -/
def mSmbLoop (n h : Nat) : List (List Pre) → List Int → FeMem → FeMem
  | row :: rows, e :: es, m =>
    let m := mSelectPoint (n + 3) n row e m
    let m := mGeMixedAdd (n + 3) (n + 1) h n m
    mSmbLoop n h rows es (mCmpToExtended (n + 1) h m)
  | _, _, m => m

/-- edwards25519.go:1424-1468 `GeScalarMultBase`; `t`, `r` and `s` are the objects `n`, `n + 1` and `n + 2` -/
def mGeScalarMultBase (n h : Nat) (a : Bytes) (m : FeMem) : FeMem :=
  let e := recode16 0 (nibbles a)
  let m := mExtZero h m
  let m := mSmbLoop n h tblBase (evens (e.drop 1)) m
  let m := mExtDouble (n + 3) h (n + 1) m
  let m := mCmpToProjective (n + 1) (n + 2) m
  let m := mPrjDouble (n + 3) (n + 2) (n + 1) m
  let m := mCmpToProjective (n + 1) (n + 2) m
  let m := mPrjDouble (n + 3) (n + 2) (n + 1) m
  let m := mCmpToProjective (n + 1) (n + 2) m
  let m := mPrjDouble (n + 3) (n + 2) (n + 1) m
  let m := mCmpToExtended (n + 1) h m
  mSmbLoop n h tblBase (evens e) m

/-- edwards25519.go:1349-1353: the odd multiples; `t`, `u` and `A2` are the objects `n`, `n + 1` and `n + 2`, `Ai[i]` is `n + 3 + i`; `k`
rounds are left -/
def mOddMultiples (n : Nat) : Nat → Nat → FeMem → FeMem
  | 0, _, m => m
  | k + 1, i, m =>
    let m := mGeAddC (n + 12) n (n + 2) (n + 3 + i) m
    let m := mCmpToExtended n (n + 1) m
    mOddMultiples n k (i + 1) (mToCached (n + 1) (n + 3 + (i + 1)) m)

/-- edwards25519.go:1366-1372: one digit of the first scalar; the index of `Ai` (an array of 8) is checked -/
def mDsAddA (n : Nat) (e : Int) (m : FeMem) : Go FeMem :=
  if e > 0 then
    if (e / 2).toNat < 8 then some (mGeAddC (n + 12) n (n + 1) (n + 3 + (e / 2).toNat) (mCmpToExtended n (n + 1) m)) else none
  else if e < 0 then
    if (-e / 2).toNat < 8 then some (mGeSubC (n + 12) n (n + 1) (n + 3 + (-e / 2).toNat) (mCmpToExtended n (n + 1) m)) else none
  else some m

/-- edwards25519.go:1374-1380: one digit of the second scalar; the entry of `bi` is the object `n + 11` -/
def mDsAddB (n : Nat) (e : Int) (m : FeMem) : Go FeMem :=
  if e > 0 then (tblBi[(e / 2).toNat]?).map fun b => mGeMixedAdd (n + 12) n (n + 1) (n + 11) (mEntry (n + 11) b (mCmpToExtended n (n + 1) m))
  else if e < 0 then
    (tblBi[(-e / 2).toNat]?).map fun b => mGeMixedSub (n + 12) n (n + 1) (n + 11) (mEntry (n + 11) b (mCmpToExtended n (n + 1) m))
  else some m

/-- edwards25519.go:1363-1382: the main loop, with `i + 1` rounds to go -/
def mDsLoop (n r : Nat) (as bs : Nat → Int) : Nat → FeMem → Go FeMem
  | 0, m => some m
  | i + 1, m =>
    (mDsAddA n (as i) (mPrjDouble (n + 12) r n m)).bind fun m => (mDsAddB n (bs i) m).bind fun m =>
      mDsLoop n r as bs i (mCmpToProjective n r m)

/-- edwards25519.go:1334-1383 `GeDoubleScalarMultVartime` -/
def mGeDoubleScalarMult (n r : Nat) (a : Bytes) (A : Nat) (b : Bytes) (m : FeMem) : Go FeMem :=
  let as := slide a
  let bs := slide b
  let m := mToCached A (n + 3) m
  let m := mExtDouble (n + 12) A n m
  let m := mCmpToExtended n (n + 2) m
  let m := mOddMultiples n 7 0 m
  let m := mPrjZero r m
  mDsLoop n r as bs (dsTop as bs 256) m

/-- edwards25519.go:1035-1043 and 1079-1087 `ToBytes` -/
def mGeToBytes (n p : Nat) (m : FeMem) : Bytes × FeMem :=
  let m := mInvert (n + 3) (n, 0) (p, 2) m
  let m := mMul (n + 1, 0) (p, 0) (n, 0) m
  let m := mMul (n + 2, 0) (p, 1) (n, 0) m
  let s := mToBytes (n + 2, 0) m
  let b := mIsNegative (n + 1, 0) s.2
  (s.1.modify 31 (· ^^^ (b.1 <<< 7)), b.2)

/-- edwards25519.go:1134-1178 `FromParityAndY`; `u`, `v`, `v3`, `vxx` and `check` are the objects from `n` on -/
def mFromParityAndY (n p : Nat) (bit : UInt8) (y : Ptr) (m : FeMem) : Bool × FeMem :=
  let u := (n, 0)
  let v := (n + 1, 0)
  let v3 := (n + 2, 0)
  let vxx := (n + 3, 0)
  let check := (n + 4, 0)
  let m := mCopy (p, 1) y m
  let m := mOne (p, 2) m
  let m := mSquare u (p, 1) m
  let m := mMulC v u feD m
  let m := mSub u u (p, 2) m
  let m := mAdd v v (p, 2) m
  let m := mSquare v3 v m
  let m := mMul v3 v3 v m
  let m := mSquare (p, 0) v3 m
  let m := mMul (p, 0) (p, 0) v m
  let m := mMul (p, 0) (p, 0) u m
  let m := mPow22523 (n + 5) (p, 0) (p, 0) m
  let m := mMul (p, 0) (p, 0) v3 m
  let m := mMul (p, 0) (p, 0) u m
  let m := mSquare vxx (p, 0) m
  let m := mMul vxx vxx v m
  let m := mSub check vxx u m
  let c := mIsNonZero check m
  let finish (m : FeMem) : Bool × FeMem :=
    let s := mIsNegative (p, 0) m
    let m := if s.1 != bit then mNeg (p, 0) (p, 0) s.2 else s.2
    (true, mMul (p, 3) (p, 0) (p, 1) m)
  if c.1 = 1 then
    let m := mAdd check vxx u c.2
    let c := mIsNonZero check m
    if c.1 = 1 then (false, c.2)
    else
      let m := mMulC (p, 0) (p, 0) feSqrtM1 c.2
      finish (mToBytes (p, 0) m).2
  else finish c.2

/-- edwards25519.go:1129-1132 `FromBytes` -/
def mGeFromBytes (n p : Nat) (s : Bytes) (m : FeMem) : Bool × FeMem :=
  mFromParityAndY n p (s.getD 31 0 >>> 7) (p, 1) (mFromBytes (p, 1) s m)

/-- the memory after a call whose boolean result is dropped (see `destOf`) -/
def memOf (r : Bool × FeMem) : FeMem := r.2

/-- edwards25519.go:1029-1033 `ProjectiveGroupElement.ToExtended` -/
def mPrjToExtended (n p s : Nat) (m : FeMem) : FeMem :=
  let b := mGeToBytes n p m
  memOf (mGeFromBytes n s b.1 b.2)

/-- extra25519.go:28-41 `edwardsToMontgomeryX` -/
def mEdwardsToMontgomeryX (n : Nat) (outX y : Ptr) (m : FeMem) : FeMem :=
  let oneMinusY := (n, 0)
  let m := mOne oneMinusY m
  let m := mSub oneMinusY oneMinusY y m
  let m := mInvert (n + 1) oneMinusY oneMinusY m
  let m := mOne outX m
  let m := mAdd outX outX y m
  mMul outX outX oneMinusY m

/-! ### scalars -/

/-- edwards25519.go:1915-1927: the loop of `ScNeg` over a memory of byte arrays, from `i` on: byte `i` of `s` is read, then byte `i` of
`r` is written -/
def mScNegLoop (r s : Nat) (l : List UInt8) : Nat → Nat → Int → (Nat → Bytes) → Nat → Bytes
  | 0, _, _, m => m
  | k + 1, i, carry, m =>
    let z := scNegStep (carry + ((l.getD i 0).toNat : Int) - (((m s).getD i 0).toNat : Int))
    mScNegLoop r s l k (i + 1) z.2 (fun o => if o = r then (m r).set i z.1 else m o)

/-- edwards25519.go:1912-1928 `ScNeg` -/
def mScNeg (r s : Nat) (m : Nat → Bytes) : Nat → Bytes :=
  mScNegLoop r s [237, 211, 245, 92, 26, 99, 18, 88, 214, 156, 247, 162, 222, 249, 222, 20, 0, 0, 0, 0, 0, 0, 0, 0, 0, 0, 0, 0, 0, 0, 0, 16]
    32 0 0 m

/-- edwards25519.go:1480-1903 `ScMulAdd`: the limbs are read (1481-1516) before the bytes are written -/
def mScMulAdd (s a b c : Nat) (m : Nat → Bytes) : Nat → Bytes := fun o => if o = s then scMulAdd (m a) (m b) (m c) else m o

end Coniks.Ed

import Verif.Model.Vrf
import Verif.Model.Ed25519.Scalar
import Verif.Model.Ed25519.Elligator
/-
The operations that crypto/vrf/vrf.go uses, as the Go code of crypto/internal/ed25519 computes them.
-/
namespace Coniks.Ed

/-- const.go, edwards25519.go and extra25519.go. `GeDoubleScalarMultVartime` (edwards25519.go:1334) indexes arrays of eight elements by half of
a digit; `ExtOk.geDoubleScalarMult` (Ed25519/DoubleMult.lean) shows that no index is out of range, so that the value `Prj.zero` stands for a
panic that does not happen. `ProjectiveGroupElement.ToExtended` is called in vrf.go:213 and 214 on new variables, whose coordinates are
zero. -/
def goOps : EdOps where
  Pt := Ext
  Pj := Prj
  scalarMultBase := geScalarMultBase
  scalarMult := geScalarMult
  doubleScalarMult a A b := (geDoubleScalarMult a A b).getD Prj.zero
  double := geDouble
  add := geAdd
  toBytes := Ext.toBytes
  pjToBytes := Prj.toBytes
  pjToExtended p := p.toExtended Ext.blank
  fromBytesBaseGroup := fromBytesBaseGroup
  hashToEdwards := hashToEdwards
  scReduce := scReduce
  scNeg := scNeg
  scMulAdd := scMulAdd
  baseBytes := baseBytes

end Coniks.Ed

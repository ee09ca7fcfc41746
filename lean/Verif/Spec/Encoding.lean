import Verif.Spec.Curve
import Verif.Model.Basic
/-
The encoding of points: RFC 8032, section 5.1.2.
-/
namespace Coniks.Spec

/-- `n` bytes of a number, least significant first -/
def leBytes : Nat → Nat → Bytes
  | 0, _ => []
  | n + 1, k => UInt8.ofNat (k % 256) :: leBytes n (k / 256)

/-- 32 bytes: the least non-negative number of y and, in the highest bit, the parity of that of x. -/
def encodePoint [_root_.Fact p25519.Prime] (g : EdPoint d25519) : Bytes := leBytes 32 (g.y.val + 2 ^ 255 * (g.x.val % 2))

end Coniks.Spec

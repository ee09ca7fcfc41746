from poly import *
import cert as C
n1,d1,n2,d2=C.n1,C.d1,C.n2,C.d2
m1=x2*y3+x3*y2; c1=1+d*x2*x3*y2*y3; m2=y2*y3+x2*x3; c2=1-d*x2*x3*y2*y3
xn=n1*d2*y3+x3*n2*d1; xd=d1*d2+d*n1*n2*x3*y3
yn=n2*d1*y3+n1*d2*x3; yd=d1*d2-d*n1*n2*x3*y3
xn_=x1*m2*c1+m1*c2*y1; xd_=c1*c2+d*m1*m2*x1*y1
yn_=y1*m2*c1+x1*m1*c2; yd_=c1*c2-d*m1*m2*x1*y1
G=n2**2*d1**2-n1**2*d2**2-d1**2*d2**2-d*n1**2*n2**2
def lc(G):
    k,q=cert('',G); assert k==0
    return ' + '.join(f'({z}) * h{i+1}' for i,z in enumerate(q) if z.c)
sN1="(x1 * y2 + x2 * y1)"; sD1="(1 + d * x1 * x2 * y1 * y2)"; sN2="(y1 * y2 + x1 * x2)"; sD2="(1 - d * x1 * x2 * y1 * y2)"
sM1="(x2 * y3 + x3 * y2)"; sC1="(1 + d * x2 * x3 * y2 * y3)"; sM2="(y2 * y3 + x2 * x3)"; sC2="(1 - d * x2 * x3 * y2 * y3)"
o='''import Mathlib.Tactic.LinearCombination
import Mathlib.Algebra.Field.Basic
/-
Polynomial identities of the Edwards addition law. The cofactors were found by polynomial division outside Lean; `ring` checks them.
-/
namespace Coniks.Ed
variable {K : Type} [Field K] {d x1 y1 x2 y2 x3 y3 : K}

theorem ed_closure (h1 : y1 ^ 2 - x1 ^ 2 - 1 - d * x1 ^ 2 * y1 ^ 2 = 0) (h2 : y2 ^ 2 - x2 ^ 2 - 1 - d * x2 ^ 2 * y2 ^ 2 = 0) :
    %s ^ 2 * %s ^ 2 - %s ^ 2 * %s ^ 2 - %s ^ 2 * %s ^ 2 - d * %s ^ 2 * %s ^ 2 = 0 := by
  linear_combination %s

'''%(sN2,sD1,sN1,sD2,sD1,sD2,sN1,sN2,lc(G))
H="(h1 : y1 ^ 2 - x1 ^ 2 - 1 - d * x1 ^ 2 * y1 ^ 2 = 0) (h2 : y2 ^ 2 - x2 ^ 2 - 1 - d * x2 ^ 2 * y2 ^ 2 = 0)\n    (h3 : y3 ^ 2 - x3 ^ 2 - 1 - d * x3 ^ 2 * y3 ^ 2 = 0)"
o+='''theorem ed_assoc_x %s :
    (%s * %s * y3 + x3 * %s * %s) * (%s * %s + d * %s * %s * x1 * y1) =
    (x1 * %s * %s + %s * %s * y1) * (%s * %s + d * %s * %s * x3 * y3) := by
  linear_combination %s

'''%(H,sN1,sD2,sN2,sD1,sC1,sC2,sM1,sM2,  sM2,sC1,sM1,sC2,sD1,sD2,sN1,sN2, lc(xn*xd_-xn_*xd))
o+='''theorem ed_assoc_y %s :
    (%s * %s * y3 + %s * %s * x3) * (%s * %s - d * %s * %s * x1 * y1) =
    (y1 * %s * %s + x1 * %s * %s) * (%s * %s - d * %s * %s * x3 * y3) := by
  linear_combination %s

end Coniks.Ed
'''%(H,sN2,sD1,sN1,sD2,sC1,sC2,sM1,sM2,  sM2,sC1,sM1,sC2,sD1,sD2,sN1,sN2, lc(yn*yd_-yn_*yd))
open('/verif/lean/Verif/Ed25519/EdIdent.lean','w').write(o)

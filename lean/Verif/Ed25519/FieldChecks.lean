import Verif.Ed25519.Straight
import Verif.Model.Ed25519.FeProg
/-
The two checkers on the field arithmetic: no operation wraps around, and the value is right modulo 2^255 - 19.
-/
namespace Coniks.Ed

/-- p = 2^255 - 19 -/
def P : Int := 57896044618658097711785492504343953926634992332820282019728792003956564819949

/-- ten consecutive variables, bounded by n times 1.1*2^25, 1.1*2^24, 1.1*2^25, 1.1*2^24, ... -/
def limbIv (n : Int) (k : Nat) : IvEnv :=
  [(k, ⟨-(n * 36909875), n * 36909875⟩), (k + 1, ⟨-(n * 18454937), n * 18454937⟩), (k + 2, ⟨-(n * 36909875), n * 36909875⟩),
   (k + 3, ⟨-(n * 18454937), n * 18454937⟩), (k + 4, ⟨-(n * 36909875), n * 36909875⟩), (k + 5, ⟨-(n * 18454937), n * 18454937⟩),
   (k + 6, ⟨-(n * 36909875), n * 36909875⟩), (k + 7, ⟨-(n * 18454937), n * 18454937⟩), (k + 8, ⟨-(n * 36909875), n * 36909875⟩),
   (k + 9, ⟨-(n * 18454937), n * 18454937⟩)]

/-- ten consecutive variables as a number -/
def limbPoly (k : Nat) : Poly :=
  [(1, [k]), (((2 ^ 26 : Nat) : Int), [k + 1]), (((2 ^ 51 : Nat) : Int), [k + 2]), (((2 ^ 77 : Nat) : Int), [k + 3]),
   (((2 ^ 102 : Nat) : Int), [k + 4]), (((2 ^ 128 : Nat) : Int), [k + 5]), (((2 ^ 153 : Nat) : Int), [k + 6]),
   (((2 ^ 179 : Nat) : Int), [k + 7]), (((2 ^ 204 : Nat) : Int), [k + 8]), (((2 ^ 230 : Nat) : Int), [k + 9])]

/-- limbs of a number in [0, 2^255), as `FeToBytes` leaves them -/
def frozenIv : IvEnv :=
  [(0, ⟨0, 67108863⟩), (1, ⟨0, 33554431⟩), (2, ⟨0, 67108863⟩), (3, ⟨0, 33554431⟩), (4, ⟨0, 67108863⟩),
   (5, ⟨0, 33554431⟩), (6, ⟨0, 67108863⟩), (7, ⟨0, 33554431⟩), (8, ⟨0, 67108863⟩), (9, ⟨0, 33554431⟩)]

/-- what `FeFromBytes` loads -/
def loadIv : IvEnv :=
  [(0, ⟨0, 4294967295⟩), (1, ⟨0, 1073741760⟩), (2, ⟨0, 536870880⟩), (3, ⟨0, 134217720⟩), (4, ⟨0, 67108860⟩),
   (5, ⟨0, 4294967295⟩), (6, ⟨0, 2147483520⟩), (7, ⟨0, 536870880⟩), (8, ⟨0, 268435440⟩), (9, ⟨0, 33554428⟩)]

set_option maxRecDepth 100000

theorem feMul_iv : ivCheck (limbIv 3 0 ++ limbIv 3 10) FeMul.prog (limbIv 1 FeMul.out0.idx) = true := by decide +kernel
theorem feMul_wp : wpCheck P FeMul.prog (limbPoly FeMul.out0.idx) ((limbPoly 0).mul (limbPoly 10)) = true := by decide +kernel

theorem feSquare_iv : ivCheck (limbIv 3 0) FeSquare.prog (limbIv 1 FeSquare.out0.idx) = true := by decide +kernel
theorem feSquare_wp : wpCheck P FeSquare.prog (limbPoly FeSquare.out0.idx) ((limbPoly 0).mul (limbPoly 0)) = true := by decide +kernel

theorem feSquare2_iv : ivCheck (limbIv 3 0) FeSquare2.prog (limbIv 1 FeSquare2.out0.idx) = true := by decide +kernel
theorem feSquare2_wp :
    wpCheck P FeSquare2.prog (limbPoly FeSquare2.out0.idx) (((limbPoly 0).mul (limbPoly 0)).mul [(2, [])]) = true := by decide +kernel

theorem feFromBytes_iv : ivCheck loadIv FeFromBytes.prog (limbIv 1 FeFromBytes.out0.idx) = true := by decide +kernel
theorem feFromBytes_wp : wpCheck P FeFromBytes.prog (limbPoly FeFromBytes.out0.idx) (limbPoly 0) = true := by decide +kernel

/-- the quotient stays small, and nothing wraps around -/
theorem feQuot_iv : ivCheck (limbIv 4 0) FeToBytes.quot (limbIv 4 0 ++ [(FeToBytes.q.idx, ⟨-5, 4⟩)]) = true := by decide +kernel
theorem feCarries_iv : ivCheck (limbIv 4 0 ++ [(FeToBytes.q.idx, ⟨-5, 4⟩)]) FeToBytes.carries frozenIv = true := by decide +kernel
/-- exactly: the new value plus 2^255 times the last carry is the old value plus 19 q -/
theorem feCarries_wp : wpCheck 0 FeToBytes.carries
    ((limbPoly 0).add [(((2 ^ 255 : Nat) : Int), [FeToBytes.carry9.idx])]) ((limbPoly 0).add [(19, [FeToBytes.q.idx])]) = true := by
  decide +kernel

end Coniks.Ed

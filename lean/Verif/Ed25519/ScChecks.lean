import Verif.Ed25519.Straight
import Verif.Model.Ed25519.ScProg
/-
The two checkers on the scalar arithmetic: no operation wraps around, and the value is right modulo ℓ.
-/
namespace Coniks.Ed

/-- ℓ = 2^252 + 27742317777372353535851937790883648493 -/
def L : Int := 7237005577332262213973186563042994240857116359379907606001950938285454250989

/-- `n` limbs of 21 bits from variable `k` on -/
def lim21 (k n : Nat) : IvEnv := (List.range n).map fun i => (k + i, ⟨0, 2097151⟩)

/-- `n` variables from `k` on, as limbs of 21 bits of a number -/
def sPoly (k n : Nat) : Poly := (List.range n).map fun i => (((2 ^ (21 * i) : Nat) : Int), [k + i])

/-- what `ScReduce` loads: the last limb has 29 bits -/
def reduceIv : IvEnv := lim21 0 23 ++ [(23, ⟨0, 536870911⟩)]

/-- what `ScMulAdd` loads: the twelfth limbs have 25 bits -/
def mulAddIv : IvEnv :=
  lim21 24 11 ++ [(35, ⟨0, 33554431⟩)] ++ lim21 36 11 ++ [(47, ⟨0, 33554431⟩)] ++ lim21 48 11 ++ [(59, ⟨0, 33554431⟩)]

/-- the limbs before the carries that round down -/
def midIv : IvEnv :=
  ((List.range 11).map fun i => (i, ⟨-250000000, 250000000⟩)) ++ [(11, ⟨-1048576, 1048575⟩), (12, ⟨0, 0⟩)]

/-- and after them -/
def floorIv : IvEnv := lim21 0 12 ++ [(12, ⟨-1, 0⟩)]

def lastIv : IvEnv := lim21 0 11 ++ [(11, ⟨-1, 2097152⟩)]

set_option maxRecDepth 100000

theorem reduce_fold_iv : ivCheck reduceIv ScReduce.fold midIv = true := by decide +kernel
theorem reduce_fold_wp : wpCheck L ScReduce.fold (sPoly 0 12) (sPoly 0 24) = true := by decide +kernel
theorem reduce_floor_iv : ivCheck midIv ScReduce.floor floorIv = true := by decide +kernel
theorem reduce_floor_wp : wpCheck 0 ScReduce.floor (sPoly 0 13) (sPoly 0 13) = true := by decide +kernel
theorem reduce_last_iv : ivCheck floorIv ScReduce.last lastIv = true := by decide +kernel
theorem reduce_last_wp : wpCheck 0 ScReduce.last (sPoly 0 12) ((sPoly 0 13).sub [(L, [12])]) = true := by decide +kernel

theorem mulAdd_iv : ivCheck mulAddIv ScMulAdd.mul midIv = true := by decide +kernel
theorem mulAdd_wp : wpCheck L ScMulAdd.mul (sPoly 0 12) (((sPoly 24 12).mul (sPoly 36 12)).add (sPoly 48 12)) = true := by decide +kernel
theorem mulAdd_floor_iv : ivCheck midIv ScMulAdd.floor floorIv = true := by decide +kernel
theorem mulAdd_floor_wp : wpCheck 0 ScMulAdd.floor (sPoly 0 13) (sPoly 0 13) = true := by decide +kernel
theorem mulAdd_last_iv : ivCheck floorIv ScMulAdd.last lastIv = true := by decide +kernel
theorem mulAdd_last_wp : wpCheck 0 ScMulAdd.last (sPoly 0 12) ((sPoly 0 13).sub [(L, [12])]) = true := by decide +kernel

end Coniks.Ed

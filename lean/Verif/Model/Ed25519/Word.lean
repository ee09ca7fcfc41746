/-
Straight-line code over int32 and int64, as the arithmetic of crypto/internal/ed25519/edwards25519/edwards25519.go is written.

A program is a list of assignments to numbered variables. Every arithmetic operation wraps around at the width of its type, as Go
prescribes (The Go Programming Language Specification, "Integer overflow"); a right shift of a signed integer is an arithmetic shift.
-/
namespace Coniks.Ed

/-- The value of an integer in a signed type of `w` bits. -/
def wrap (w : Nat) (z : Int) : Int := z.bmod (2 ^ w)

/-- Expressions of one integer type; `v i` is a variable (a conversion from int32 to int64 is the identity). -/
inductive Ex where
  | v (i : Nat)
  | c (z : Int)
  | add (a b : Ex)
  | sub (a b : Ex)
  | mul (a b : Ex)
  /-- `a << k` -/
  | shl (a : Ex) (k : Nat)
  deriving Repr, DecidableEq

instance : Add Ex := ⟨.add⟩
instance : Sub Ex := ⟨.sub⟩
instance : Mul Ex := ⟨.mul⟩
instance : HShiftLeft Ex Nat Ex := ⟨.shl⟩
instance (n : Nat) : OfNat Ex n := ⟨.c n⟩

/-- The number of a variable. -/
def Ex.idx : Ex → Nat
  | .v i => i
  | _ => 0

/-- The value of an expression in a type of `w` bits. -/
def Ex.ev (w : Nat) (ρ : Nat → Int) : Ex → Int
  | .v i => ρ i
  | .c z => z
  | .add a b => wrap w (a.ev w ρ + b.ev w ρ)
  | .sub a b => wrap w (a.ev w ρ - b.ev w ρ)
  | .mul a b => wrap w (a.ev w ρ * b.ev w ρ)
  | .shl a k => wrap w (a.ev w ρ * 2 ^ k)

/-- Assignments. -/
inductive St where
  /-- `d = e` in a type of `w` bits (for a plain variable `e`, the conversion to that type) -/
  | set (w : Nat) (d : Nat) (e : Ex)
  /-- `d = e >> k` -/
  | shr (w : Nat) (d : Nat) (e : Ex) (k : Nat)
  deriving Repr, DecidableEq

def upd (ρ : Nat → Int) (d : Nat) (z : Int) : Nat → Int := fun i => if i = d then z else ρ i

/-- One assignment. -/
def St.run (ρ : Nat → Int) : St → Nat → Int
  | .set w d e => upd ρ d (wrap w (e.ev w ρ))
  | .shr w d e k => upd ρ d (e.ev w ρ / 2 ^ k)

/-- A sequence of assignments. -/
def run : List St → (Nat → Int) → Nat → Int
  | [], ρ => ρ
  | s :: ss, ρ => run ss (s.run ρ)

/-- `x = e` for int32 and int64, `x = e >> k` for int32 and int64. -/
def set32 (x e : Ex) : St := .set 32 x.idx e
def set64 (x e : Ex) : St := .set 64 x.idx e
def shr32 (x e : Ex) (k : Nat) : St := .shr 32 x.idx e k
def shr64 (x e : Ex) (k : Nat) : St := .shr 64 x.idx e k

end Coniks.Ed

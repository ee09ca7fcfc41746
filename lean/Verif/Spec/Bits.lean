import Verif.Model.Basic
/-
Independent specification of "bit n of a byte string, most significant bit of each byte first",
of base-256 digits and of zero padding. Uses only arithmetic on natural numbers.
-/
namespace Coniks.Spec

/-- Bit `k` (weight `2^k`) of a byte. -/
def bitOfByte (b : UInt8) (k : Nat) : Bool := b.toNat / 2 ^ k % 2 == 1

/-- The bits of a byte, most significant first. -/
def byteBits (b : UInt8) : List Bool := [7, 6, 5, 4, 3, 2, 1, 0].map (bitOfByte b)

/-- The bits of a byte string, most significant bit of each byte first. -/
def bitsOf (bs : Bytes) : List Bool := bs.flatMap byteBits

/-- `bits` followed by the least number of `false` that makes the length a multiple of 8. -/
def padTo8 (bits : List Bool) : List Bool :=
  bits ++ List.replicate ((8 - bits.length % 8) % 8) false

/-- `k`-th base-256 digit of a natural number. -/
def digit256 (n k : Nat) : Nat := n / 256 ^ k % 256

end Coniks.Spec

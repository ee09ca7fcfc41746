import Verif.Spec.Bits
/-
Base64 (RFC 4648) and decimal numbers, independent of the decoder.
-/
namespace Coniks.Spec
open Coniks

/-- The alphabet. -/
def alphabet : List UInt8 :=
  "ABCDEFGHIJKLMNOPQRSTUVWXYZabcdefghijklmnopqrstuvwxyz0123456789+/".toList.map fun c => UInt8.ofNat c.toNat

/-- Six bits, most significant first. -/
def sixBits (n : Nat) : List Bool := [5, 4, 3, 2, 1, 0].map fun k => n / 2 ^ k % 2 == 1

/-- `s` is base64 text for `b`: without its line breaks it consists of characters of the alphabet and at most two `=`, together a multiple
of four; the bits of the characters are those of `b` and two more for each `=`, which do not matter. -/
def Base64 (s b : Bytes) : Prop :=
  ∃ (ns : List Nat) (p : Nat) (rest : List Bool), (s.filter fun c => c ≠ 10 ∧ c ≠ 13) = ns.map (fun n => alphabet.getD n 0) ++ List.replicate p 0x3D ∧
    (∀ n ∈ ns, n < 64) ∧ p ≤ 2 ∧ (ns.length + p) % 4 = 0 ∧ ns.flatMap sixBits = bitsOf b ++ rest ∧ rest.length = 2 * p

/-- The value of decimal digits. -/
def decimal (ds : Bytes) : Nat := ds.foldl (fun n b => 10 * n + (b.toNat - 48)) 0

/-- `s` consists of decimal digits, at least one. -/
def Digits (s : Bytes) : Prop := s ≠ [] ∧ ∀ b ∈ s, 48 ≤ b.toNat ∧ b.toNat ≤ 57

/-- `s` writes the integer `n` of 64 bits. -/
def IntText (s : Bytes) (n : Int) : Prop :=
  (-2 ^ 63 ≤ n ∧ n < 2 ^ 63) ∧ ((Digits s ∧ n = decimal s) ∨ ∃ ds, s = 0x2D :: ds ∧ Digits ds ∧ n = -(decimal ds : Int))

/-- `s` writes the number `n`, below `bound`. -/
def NatText (bound : Nat) (s : Bytes) (n : Nat) : Prop := Digits s ∧ n = decimal s ∧ n < bound

end Coniks.Spec

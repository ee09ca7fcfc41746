import Verif.Proofs.Vrf
import Verif.Ed25519.Primes
/-
A small instance of `EdLaws`, used in examples to show that the laws are consistent: the group of integers modulo ℓ, with 32-byte
little-endian encodings. (`Ed25519/*.lean` treats the operations of the Go code.)
-/
namespace Coniks.ToyEd
open Coniks Spec

/-- `n` bytes of a number, least significant first -/
def toLE : Nat → Nat → Bytes
  | 0, _ => []
  | n + 1, k => UInt8.ofNat (k % 256) :: toLE n (k / 256)

theorem toLE_length : ∀ n k, (toLE n k).length = n
  | 0, _ => rfl
  | n + 1, k => by simp [toLE, toLE_length n]

theorem leNat_toLE : ∀ n k, leNat (toLE n k) = k % 256 ^ n
  | 0, k => by simp [toLE, leNat, Nat.mod_one]
  | n + 1, k => by
    simp only [toLE, leNat, leNat_toLE n]
    rw [Nat.pow_succ, Nat.mul_comm (256 ^ n), Nat.mod_mul]
    simp

instance : NeZero ell := ⟨by unfold ell; omega⟩

/-- encoding of an element of ZMod ℓ -/
def enc (g : ZMod ell) : Bytes := toLE 32 g.val

/-- the operations -/
def ops : EdOps where
  Pt := ZMod ell
  Pj := ZMod ell
  scalarMultBase a := leNat a • 1
  scalarMult a p := leNat a • p
  doubleScalarMult a p b := leNat a • p + leNat b • 1
  double p := p + p
  add p q := p + q
  toBytes := enc
  pjToBytes := enc
  pjToExtended p := p
  fromBytesBaseGroup b := if leNat b < ell ∧ leNat b ≠ 0 then some (leNat b : ZMod ell) else none
  hashToEdwards b := some (leNat b : ZMod ell)
  scReduce b := toLE 32 (leNat b % ell)
  scNeg b := toLE 32 (ell - leNat b)
  scMulAdd a b c := toLE 32 ((leNat a * leNat b + leNat c) % ell)
  baseBytes := enc 1

theorem small {k : Nat} (h : k ≤ ell) : leNat (toLE 32 k) = k := by
  rw [leNat_toLE, Nat.mod_eq_of_lt]
  refine lt_of_le_of_lt h ?_
  unfold ell; norm_num

theorem leNat_enc (g : ZMod ell) : leNat (enc g) = g.val := small (le_of_lt (ZMod.val_lt g))

theorem smul_ell (g : ZMod ell) : ell • g = 0 := by simp

/-- the laws hold -/
def laws : EdLaws ops (ZMod ell) where
  val p := p
  valJ p := p
  Valid _ := True
  ValidJ _ := True
  enc := enc
  enc_length g := toLE_length _ _
  enc_inj g g' h := ZMod.val_injective ell (by rw [← leNat_enc, ← leNat_enc, h])
  base := 1
  base_ne := by
    have : Fact (Nat.Prime ell) := ⟨prime_ell⟩
    exact one_ne_zero
  base_order := smul_ell _
  cofactor g := by rw [mul_nsmul, smul_ell]
  baseBytes := rfl
  digits a := leNat a
  digits_eq _ _ _ := rfl
  scalarMultBase _ _ _ := ⟨trivial, rfl⟩
  scalarMult _ _ _ _ := ⟨trivial, rfl⟩
  doubleScalarMult a (p : ZMod ell) b _ _ _ := ⟨trivial, by rw [natCast_zsmul p, natCast_zsmul (1 : ZMod ell)]; simp only [ops]⟩
  double _ _ := ⟨trivial, rfl⟩
  add _ _ _ _ := ⟨trivial, rfl⟩
  toBytes _ _ := rfl
  pjToBytes _ _ := rfl
  pjToExtended _ _ := ⟨trivial, rfl⟩
  decode_some g _ h := by
    have h1 : leNat (enc g) < ell := by rw [leNat_enc]; exact ZMod.val_lt g
    have h2 : leNat (enc g) ≠ 0 := by rw [leNat_enc]; exact fun e => h ((ZMod.val_eq_zero g).mp e)
    refine ⟨(leNat (enc g) : ZMod ell), ?_⟩
    simp only [ops, h1, h2, ne_eq, not_false_iff, and_self, if_true]
  decode_valid b p hb h := by
    simp only [ops] at h
    split at h
    · rename_i hc
      cases h
      have hv : ((leNat b : ZMod ell)).val = leNat b := ZMod.val_cast_of_lt hc.1
      refine ⟨trivial, ?_, smul_ell _, ?_⟩
      · exact leNat_inj _ _ (by rw [hb]; exact toLE_length _ _) (by rw [leNat_enc, hv])
      · intro e; exact hc.2 (by rw [← hv]; exact (ZMod.val_eq_zero _).mpr e)
    · exact (nomatch h)
  hashToEdwards _ _ := ⟨_, rfl, trivial⟩
  scReduce_length _ _ := toLE_length _ _
  scReduce _ _ := small (le_of_lt (Nat.mod_lt _ ell_pos))
  scNeg_length _ _ := toLE_length _ _
  scNeg _ _ _ := small (Nat.sub_le _ _)
  scMulAdd_length _ _ _ _ _ _ := toLE_length _ _
  scMulAdd _ _ _ _ _ _ := small (le_of_lt (Nat.mod_lt _ ell_pos))

/-- an extendable-output function: the input repeated with a marker, then zeros -/
def xof : Xof where
  out m n := (toLE 32 (leNat m + 7) ++ List.replicate n 1).take n
  length m n := by simp [toLE_length]
  prefix_ m n k h := by
    apply List.ext_getElem?
    intro i
    simp only [List.getElem?_take, List.getElem?_append, List.getElem?_replicate, toLE_length]
    repeat' split
    all_goals first | rfl | omega

end Coniks.ToyEd

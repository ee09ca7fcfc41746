import Verif.Ed25519.FieldPack
import Verif.Ed25519.Primes
import Verif.Spec.Curve
import Mathlib.FieldTheory.Finite.Basic
/-
Field elements as elements of ZMod p: `Rep n f a` says that the limbs of `f` are within n times the bounds of the code's comments and that
`f` stands for `a`.
-/
namespace Coniks.Ed
open Coniks.Spec

theorem p25519_eq : p25519 = 57896044618658097711785492504343953926634992332820282019728792003956564819949 := by
  unfold p25519; norm_num

instance : _root_.Fact p25519.Prime := ⟨by rw [p25519_eq]; exact prime_p⟩

theorem P_eq : P = (p25519 : Int) := by rw [p25519_eq]; rfl

theorem el_of_dvd {f : Fe} {z : Int} (h : P ∣ f.val - z) : f.el = (z : F) := by
  unfold Fe.el
  rw [P_eq] at h
  have := (ZMod.intCast_zmod_eq_zero_iff_dvd _ _).mpr h
  rw [Int.cast_sub] at this
  exact sub_eq_zero.mp this

theorem Rep.mono {m n : Int} {f : Fe} {a : F} (h : Rep m f a) (hmn : m ≤ n) : Rep n f a := ⟨h.bd.mono hmn, h.el⟩

theorem Rep.mul {m n : Int} {f g : Fe} {a b : F} (hf : Rep m f a) (hg : Rep n g b) (hm : m ≤ 3 := by decide) (hn : n ≤ 3 := by decide) :
    Rep 1 (feMul f g) (a * b) := by
  obtain ⟨h1, h2⟩ := feMul_spec (hf.bd.mono hm) (hg.bd.mono hn)
  refine ⟨h1, ?_⟩
  rw [el_of_dvd h2, Int.cast_mul, ← hf.el, ← hg.el]; rfl

theorem Rep.square {m : Int} {f : Fe} {a : F} (hf : Rep m f a) (hm : m ≤ 3 := by decide) : Rep 1 (feSquare f) (a ^ 2) := by
  obtain ⟨h1, h2⟩ := feSquare_spec (hf.bd.mono hm)
  refine ⟨h1, ?_⟩
  rw [el_of_dvd h2, Int.cast_mul, ← hf.el, sq]; rfl

theorem Rep.square2 {m : Int} {f : Fe} {a : F} (hf : Rep m f a) (hm : m ≤ 3 := by decide) : Rep 1 (feSquare2 f) (2 * a ^ 2) := by
  obtain ⟨h1, h2⟩ := feSquare2_spec (hf.bd.mono hm)
  refine ⟨h1, ?_⟩
  rw [el_of_dvd h2, Int.cast_mul, Int.cast_mul, ← hf.el, sq]
  norm_num [Fe.el]

theorem Rep.add {m n : Int} {f g : Fe} {a b : F} (hf : Rep m f a) (hg : Rep n g b) (h : m + n ≤ 58 := by decide) :
    Rep (m + n) (feAdd f g) (a + b) := by
  obtain ⟨h1, h2⟩ := feAdd_spec hf.bd hg.bd h
  exact ⟨h1, by unfold Fe.el; rw [h2, Int.cast_add, ← hf.el, ← hg.el]; rfl⟩

theorem Rep.sub {m n : Int} {f g : Fe} {a b : F} (hf : Rep m f a) (hg : Rep n g b) (h : m + n ≤ 58 := by decide) :
    Rep (m + n) (feSub f g) (a - b) := by
  obtain ⟨h1, h2⟩ := feSub_spec hf.bd hg.bd h
  exact ⟨h1, by unfold Fe.el; rw [h2, Int.cast_sub, ← hf.el, ← hg.el]; rfl⟩

theorem Rep.neg {m : Int} {f : Fe} {a : F} (hf : Rep m f a) (h : m ≤ 58 := by decide) : Rep m (feNeg f) (-a) := by
  obtain ⟨h1, h2⟩ := feNeg_spec hf.bd h
  exact ⟨h1, by unfold Fe.el; rw [h2, Int.cast_neg, ← hf.el]; rfl⟩

theorem Rep.zero : Rep 1 feZero 0 := ⟨feZero_spec.1, by unfold Fe.el; rw [feZero_spec.2]; simp⟩
theorem Rep.one : Rep 1 feOne 1 := ⟨feOne_spec.1, by unfold Fe.el; rw [feOne_spec.2]; simp⟩

theorem el_emod {f : Fe} {z : Int} (h : f.val = z % P) : f.el = (z : F) := by
  apply el_of_dvd
  rw [h, Int.emod_def]
  exact ⟨-(z / P), by ring⟩

theorem el_eq_zero (f : Fe) : f.el = 0 ↔ P ∣ f.val := by
  unfold Fe.el
  rw [P_eq]
  exact ZMod.intCast_zmod_eq_zero_iff_dvd _ _

/-- the least non-negative number of the class -/
theorem val_emod (f : Fe) : f.val % P = ((f.el).val : Int) := by
  unfold Fe.el
  rw [ZMod.val_intCast, P_eq]

theorem Rep.toBytes {m : Int} {f : Fe} {a : F} (hf : Rep m f a) (hm : m ≤ 4 := by decide) :
    (feToBytes f).1.length = 32 ∧ leNat (feToBytes f).1 = a.val ∧ Rep 2 (feToBytes f).2 a := by
  obtain ⟨h1, h2, h3, h4⟩ := feToBytes_spec (hf.bd.mono hm)
  refine ⟨h1, ?_, h3, ?_⟩
  · rw [val_emod, hf.el] at h2; exact_mod_cast h2
  · rw [el_emod h4, ← hf.el]; rfl

theorem Rep.isNegative {m : Int} {f : Fe} {a : F} (hf : Rep m f a) (hm : m ≤ 4 := by decide) :
    (feIsNegative f).1.toNat = a.val % 2 ∧ Rep 2 (feIsNegative f).2 a := by
  obtain ⟨h2, h3, h4⟩ := feIsNegative_spec (hf.bd.mono hm)
  refine ⟨?_, h3, ?_⟩
  · rw [val_emod, hf.el] at h2; exact_mod_cast h2
  · rw [el_emod h4, ← hf.el]; rfl

theorem Rep.isNonZero {m : Int} {f : Fe} {a : F} (hf : Rep m f a) (hm : m ≤ 4 := by decide) :
    (feIsNonZero f).1 = (if a = 0 then 0 else 1) ∧ Rep 2 (feIsNonZero f).2 a := by
  obtain ⟨h2, h3, h4⟩ := feIsNonZero_spec (hf.bd.mono hm)
  refine ⟨?_, h3, ?_⟩
  · rw [h2]; simp only [← hf.el, el_eq_zero]
  · rw [el_emod h4, ← hf.el]; rfl

theorem Rep.fromBytes {s : Bytes} (hs : s.length = 32) : Rep 1 (feFromBytes s) ((leNat s % 2 ^ 255 : Nat) : F) := by
  obtain ⟨h1, h2⟩ := feFromBytes_spec hs
  refine ⟨h1, ?_⟩
  rw [el_of_dvd h2, Int.cast_natCast]

theorem Rep.cmove0 {m : Int} {f g : Fe} {a b : F} (hf : Rep m f a) (hg : Rep m g b) (h : m ≤ 58 := by decide) : feCMove f g 0 = f :=
  (feCMove_spec hf.bd hg.bd h).1

theorem Rep.cmove1 {m : Int} {f g : Fe} {a b : F} (hf : Rep m f a) (hg : Rep m g b) (h : m ≤ 58 := by decide) : feCMove f g 1 = g :=
  (feCMove_spec hf.bd hg.bd h).2

/-! ### powers -/

theorem Rep.squareN : ∀ {n : Nat} {f : Fe} {a : F}, Rep 3 f a → Rep 3 (feSquareN n f) (a ^ 2 ^ n)
  | 0, f, a, h => by simpa [feSquareN] using h
  | n + 1, f, a, h => by
    have := Rep.squareN (n := n) (h.square.mono (by decide : (1 : Int) ≤ 3))
    rw [← pow_mul, ← pow_succ'] at this
    exact this

/-- `f` stands for a power of `a` -/
def Pw (a : F) (f : Fe) (e : Nat) : Prop := Rep 3 f (a ^ e)

theorem Pw.mul1 {a : F} {f g : Fe} {e k : Nat} (hf : Pw a f e) (hg : Pw a g k) (l : Nat) (h : e + k = l) :
    Rep 1 (feMul f g) (a ^ l) := by
  subst h
  rw [pow_add]
  exact Rep.mul hf hg

theorem Pw.mul {a : F} {f g : Fe} {e k : Nat} (hf : Pw a f e) (hg : Pw a g k) (l : Nat) (h : e + k = l) : Pw a (feMul f g) l :=
  (hf.mul1 hg l h).mono (by decide)

theorem Pw.sqN {a : F} {f : Fe} {e : Nat} (hf : Pw a f e) (n : Nat) (l : Nat) (h : e * 2 ^ n = l) : Pw a (feSquareN n f) l := by
  subst h
  unfold Pw
  rw [pow_mul]
  exact Rep.squareN hf

theorem Pw.sq {a : F} {f : Fe} {e : Nat} (hf : Pw a f e) (l : Nat) (h : e * 2 = l) : Pw a (feSquare f) l := hf.sqN 1 l h

/-- a^(p - 2) -/
theorem Rep.invert_pow {m : Int} {f : Fe} {a : F} (hf : Rep m f a) (hm : m ≤ 3 := by decide) : Rep 1 (feInvert f) (a ^ (57896044618658097711785492504343953926634992332820282019728792003956564819947)) := by
  have z : Pw a f 1 := by unfold Pw; rw [pow_one]; exact hf.mono hm
  have t0 := z.sq (2) (by norm_num)
  have t1 := t0.sqN 2 (8) (by norm_num)
  have t1 := z.mul t1 (9) (by norm_num)
  have t0 := t0.mul t1 (11) (by norm_num)
  have t2 := t0.sq (22) (by norm_num)
  have t1 := t1.mul t2 (31) (by norm_num)
  have t2 := t1.sqN 5 (992) (by norm_num)
  have t1 := t2.mul t1 (1023) (by norm_num)
  have t2 := t1.sqN 10 (1047552) (by norm_num)
  have t2 := t2.mul t1 (1048575) (by norm_num)
  have t3 := t2.sqN 20 (1099510579200) (by norm_num)
  have t2 := t3.mul t2 (1099511627775) (by norm_num)
  have t2 := t2.sqN 10 (1125899906841600) (by norm_num)
  have t1 := t2.mul t1 (1125899906842623) (by norm_num)
  have t2 := t1.sqN 50 (1267650600228228275596796362752) (by norm_num)
  have t2 := t2.mul t1 (1267650600228229401496703205375) (by norm_num)
  have t3 := t2.sqN 100 (1606938044258990275541962092339894951921974764381296132096000) (by norm_num)
  have t2 := t3.mul t2 (1606938044258990275541962092341162602522202993782792835301375) (by norm_num)
  have t2 := t2.sqN 50 (1809251394333065553493296640760748560207343510400633813116523624223735808000) (by norm_num)
  have t1 := t2.mul t1 (1809251394333065553493296640760748560207343510400633813116524750123642650623) (by norm_num)
  have t1 := t1.sqN 5 (57896044618658097711785492504343953926634992332820282019728792003956564819936) (by norm_num)
  have r := t1.mul1 t0 (57896044618658097711785492504343953926634992332820282019728792003956564819947) (by norm_num)
  unfold feInvert
  exact r

/-- a^((p - 5) / 8) -/
theorem Rep.pow22523 {m : Int} {f : Fe} {a : F} (hf : Rep m f a) (hm : m ≤ 3 := by decide) : Rep 1 (fePow22523 f) (a ^ (7237005577332262213973186563042994240829374041602535252466099000494570602493)) := by
  have z : Pw a f 1 := by unfold Pw; rw [pow_one]; exact hf.mono hm
  have t0 := z.sq (2) (by norm_num)
  have t1 := t0.sqN 2 (8) (by norm_num)
  have t1 := z.mul t1 (9) (by norm_num)
  have t0 := t0.mul t1 (11) (by norm_num)
  have t0 := t0.sq (22) (by norm_num)
  have t0 := t1.mul t0 (31) (by norm_num)
  have t1 := t0.sqN 5 (992) (by norm_num)
  have t0 := t1.mul t0 (1023) (by norm_num)
  have t1 := t0.sqN 10 (1047552) (by norm_num)
  have t1 := t1.mul t0 (1048575) (by norm_num)
  have t2 := t1.sqN 20 (1099510579200) (by norm_num)
  have t1 := t2.mul t1 (1099511627775) (by norm_num)
  have t1 := t1.sqN 10 (1125899906841600) (by norm_num)
  have t0 := t1.mul t0 (1125899906842623) (by norm_num)
  have t1 := t0.sqN 50 (1267650600228228275596796362752) (by norm_num)
  have t1 := t1.mul t0 (1267650600228229401496703205375) (by norm_num)
  have t2 := t1.sqN 100 (1606938044258990275541962092339894951921974764381296132096000) (by norm_num)
  have t1 := t2.mul t1 (1606938044258990275541962092341162602522202993782792835301375) (by norm_num)
  have t1 := t1.sqN 50 (1809251394333065553493296640760748560207343510400633813116523624223735808000) (by norm_num)
  have t0 := t1.mul t0 (1809251394333065553493296640760748560207343510400633813116524750123642650623) (by norm_num)
  have t0 := t0.sqN 2 (7237005577332262213973186563042994240829374041602535252466099000494570602492) (by norm_num)
  have r := t0.mul1 z (7237005577332262213973186563042994240829374041602535252466099000494570602493) (by norm_num)
  unfold fePow22523
  exact r

theorem Rep.invert {m : Int} {f : Fe} {a : F} (hf : Rep m f a) (hm : m ≤ 3 := by decide) : Rep 1 (feInvert f) a⁻¹ := by
  have h := hf.invert_pow hm
  refine ⟨h.bd, ?_⟩
  rw [h.el]
  by_cases ha : a = 0
  · subst ha
    rw [inv_zero, zero_pow]
    norm_num
  · have h1 := ZMod.pow_card_sub_one_eq_one ha
    have h2 : a ^ (57896044618658097711785492504343953926634992332820282019728792003956564819947) * a = 1 := by
      rw [← pow_succ, ← h1]
      congr 1
    exact eq_inv_of_mul_eq_one_left h2

end Coniks.Ed

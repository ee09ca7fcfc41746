import Verif.Ed25519.Instance
import Verif.Ed25519.SmallOrder
/-
C53 to C57: the arithmetic of crypto/internal/ed25519. `Rep n f a` (Spec/Limbs.lean) says that the ten limbs of `f` are within n times the
bounds of the code's comments and that `f` stands for the residue `a`; `ExtOk p P` and `PrjOk p P` (Spec/Points.lean) that a group element
stands for the point `P` of the curve (Spec/Curve.lean); `encodePoint` (Spec/Encoding.lean) is the encoding of RFC 8032.
-/
namespace Coniks.Props
open Coniks Coniks.Spec Coniks.Ed

/-! ### C53: field arithmetic -/

/-- C53: on all elements within the bounds stated in the comments of the code, multiplication and squaring return the product modulo p, within
the bounds that every operation accepts. -/
theorem C53_products {f g : Fe} {a b : F} (hf : Rep 3 f a) (hg : Rep 3 g b) :
    Rep 1 (feMul f g) (a * b) ∧ Rep 1 (feSquare f) (a ^ 2) ∧ Rep 1 (feSquare2 f) (2 * a ^ 2) :=
  ⟨hf.mul hg, hf.square, hf.square2⟩

/-- √-1 · √-1 and the square of d -/
example : Rep 1 (feMul feSqrtM1 feSqrtM1) (-1) ∧ Rep 1 (feSquare feD) (d25519 ^ 2) := by
  have h := (C53_products (feSqrtM1_rep.mono (by decide)) (feSqrtM1_rep.mono (by decide))).1
  rw [← sq, i_sq] at h
  exact ⟨h, (C53_products (feD_rep.mono (by decide)) (feD_rep.mono (by decide))).2.1⟩

/-- C53: addition, subtraction and negation, with the growth of the bounds. -/
theorem C53_sums {m n : Int} {f g : Fe} {a b : F} (hf : Rep m f a) (hg : Rep n g b) (hm : 0 ≤ m) (hn : 0 ≤ n) (h : m + n ≤ 58) :
    Rep (m + n) (feAdd f g) (a + b) ∧ Rep (m + n) (feSub f g) (a - b) ∧ Rep m (feNeg f) (-a) :=
  ⟨hf.add hg h, hf.sub hg h, hf.neg (by omega)⟩

/-- √-1 - d and -d -/
example : Rep 6 (feSub feSqrtM1 feD) ((iN : F) - d25519) ∧ Rep 3 (feNeg feD) (-d25519) :=
  ⟨(C53_sums (feSqrtM1_rep.mono (by decide : (_ : Int) ≤ 3)) (feD_rep.mono (by decide : (_ : Int) ≤ 3)) (by decide) (by decide) (by decide)).2.1,
    (C53_sums (feD_rep.mono (by decide : (_ : Int) ≤ 3)) (feD_rep.mono (by decide : (_ : Int) ≤ 3)) (by decide) (by decide) (by decide)).2.2⟩

/-- C53: inversion (zero is sent to zero) and the power used for square roots. -/
theorem C53_powers {f : Fe} {a : F} (hf : Rep 3 f a) :
    Rep 1 (feInvert f) a⁻¹ ∧ Rep 1 (fePow22523 f) (a ^ ((p25519 - 5) / 8)) ∧ Rep 1 (chi f) (a ^ ((p25519 - 1) / 2)) := by
  refine ⟨hf.invert, ?_, ?_⟩
  · have e : (p25519 - 5) / 8 = 7237005577332262213973186563042994240829374041602535252466099000494570602493 := by rw [p25519_eq]
    rw [e]; exact hf.pow22523
  · have e : (p25519 - 1) / 2 = p25519 / 2 := by rw [p25519_eq]
    rw [e]; exact hf.chi

/-- 1/d, and the quadratic character of zero -/
example : Rep 1 (feInvert feD) d25519⁻¹ ∧ Rep 1 (chi feZero) 0 := by
  refine ⟨(C53_powers (feD_rep.mono (by decide))).1, ?_⟩
  have := (C53_powers (Rep.zero.mono (by decide))).2.2
  rwa [zero_pow (by decide +kernel)] at this

/-- C53: the bytes written are the least non-negative residue, whatever the limbs; its parity and the test for zero are those of the residue;
the element that these functions change keeps standing for the same residue. -/
theorem C53_toBytes {f : Fe} {a : F} (hf : Rep 4 f a) :
    (feToBytes f).1 = leBytes 32 a.val ∧ Rep 2 (feToBytes f).2 a ∧ (feIsNegative f).1.toNat = a.val % 2 ∧ Rep 2 (feIsNegative f).2 a ∧
      (feIsNonZero f).1 = (if a = 0 then 0 else 1) ∧ Rep 2 (feIsNonZero f).2 a := by
  obtain ⟨h1, h2, h3⟩ := hf.toBytes
  refine ⟨?_, h3, hf.isNegative.1, hf.isNegative.2, hf.isNonZero.1, hf.isNonZero.2⟩
  refine leNat_inj _ _ (by rw [h1, leBytes_length]) ?_
  rw [h2, leNat_leBytes, Nat.mod_eq_of_lt]
  refine lt_trans (ZMod.val_lt a) ?_
  decide +kernel

/-- C53: reading 32 bytes ignores the highest bit and reduces modulo p. -/
theorem C53_fromBytes {s : Bytes} (hs : s.length = 32) : Rep 1 (feFromBytes s) ((leNat s % 2 ^ 255 : Nat) : F) := Rep.fromBytes hs

/-- 2^256 - 1 is read as 2^255 - 1 -/
example : Rep 1 (feFromBytes (List.replicate 32 255)) ((2 ^ 255 - 1 : Nat) : F) := by
  have := C53_fromBytes (s := List.replicate 32 255) (by decide)
  rwa [show leNat (List.replicate 32 255) % 2 ^ 255 = 2 ^ 255 - 1 by decide +kernel] at this

/-- C53: the conditional move. -/
theorem C53_cmove {f g : Fe} {a b : F} (hf : Rep 3 f a) (hg : Rep 3 g b) : feCMove f g 0 = f ∧ feCMove f g 1 = g :=
  ⟨hf.cmove0 hg, hf.cmove1 hg⟩

/-- the hypotheses are met by the constants of the code: `d`, the square root of -1, and by what `FeFromBytes` returns -/
example : Rep 3 feD d25519 ∧ Rep 3 feSqrtM1 (iN : F) ∧ (iN : F) ^ 2 = -1 ∧ Rep 1 (feMul feSqrtM1 feSqrtM1) (-1) :=
  ⟨feD_rep.mono (by decide), feSqrtM1_rep.mono (by decide), i_sq, by
    have := feSqrtM1_rep.mul feSqrtM1_rep
    rwa [← sq, i_sq] at this⟩

/-- an element that is not reduced: limbs of p itself, written as zeros -/
example : (feToBytes ⟨-19, 0, 0, 0, 0, 0, 0, 0, 0, 33554432⟩).1 = List.replicate 32 0 := by
  have h : Rep 3 ⟨-19, 0, 0, 0, 0, 0, 0, 0, 0, 33554432⟩ 0 := by
    refine ⟨Fe.bd_of (by decide +kernel), ?_⟩
    rw [el_nat]
    rw [natF_eq (b := 0) (by decide +kernel)]; simp
  rw [(C53_toBytes (h.mono (by decide))).1, ZMod.val_zero]
  decide +kernel

/-! ### C54: scalar arithmetic -/

/-- C54: `ScReduce` reduces 64 bytes modulo ℓ, `ScMulAdd` is ab + c modulo ℓ for all 32-byte arguments, both canonical. -/
theorem C54_reduce_muladd {x a b c : Bytes} (hx : x.length = 64) (ha : a.length = 32) (hb : b.length = 32) (hc : c.length = 32) :
    scReduce x = leBytes 32 (leNat x % ell) ∧ scMulAdd a b c = leBytes 32 ((leNat a * leNat b + leNat c) % ell) := by
  have hl : ell < 256 ^ 32 := by decide +kernel
  refine ⟨leNat_inj _ _ (by rw [scReduce_length, leBytes_length]) ?_, leNat_inj _ _ (by rw [scMulAdd_length, leBytes_length]) ?_⟩
  · rw [scReduce_spec hx, leNat_leBytes, Nat.mod_eq_of_lt (lt_trans (Nat.mod_lt _ ell_pos) hl)]
  · rw [scMulAdd_spec ha hb hc, leNat_leBytes, Nat.mod_eq_of_lt (lt_trans (Nat.mod_lt _ ell_pos) hl)]

/-- C54: `ScNeg` is ℓ - s for every 32-byte s, computed modulo 2^256: for s up to ℓ (which its comment asks for, and which every caller in this
code provides) that is a representative of -s modulo ℓ, the canonical one unless s = 0 (which gives ℓ); for a larger s it is ℓ - s + 2^256. -/
theorem C54_neg {s : Bytes} (hs : s.length = 32) :
    scNeg s = leBytes 32 ((ell + 2 ^ 256 - leNat s) % 2 ^ 256) ∧
    (leNat s ≤ ell → scNeg s = leBytes 32 (ell - leNat s) ∧ (leNat s + leNat (scNeg s)) % ell = 0) ∧
    (0 < leNat s → leNat s ≤ ell → scNeg s = leBytes 32 ((ell - leNat s) % ell)) ∧
    (leNat s = 0 → leNat (scNeg s) = ell) := by
  have hl : ell < 256 ^ 32 := by decide +kernel
  have h256 : (256 : Nat) ^ 32 = 2 ^ 256 := by decide +kernel
  have hlt : leNat s < 256 ^ 32 := Coniks.Ed.leNat_lt hs
  have val : leNat (scNeg s) = (ell + 2 ^ 256 - leNat s) % 2 ^ 256 := by
    have hlen : ∀ l : List UInt8, l.length = 32 → l.length = s.length := fun l hl => by rw [hl, hs]
    have hr : leNat (scNeg s) < 256 ^ 32 := Coniks.Ed.leNat_lt (scNeg_length hs)
    have key : ∃ c', (c' = 0 ∨ c' = -1) ∧ (leNat (scNeg s) : Int) + 256 ^ 32 * c' = ell - leNat s := by
      obtain ⟨c', h1, h2⟩ := scNegLoop_spec (ls := [237, 211, 245, 92, 26, 99, 18, 88, 214, 156, 247, 162, 222, 249, 222, 20, 0, 0, 0, 0, 0, 0, 0, 0, 0, 0, 0, 0, 0, 0, 0, 16])
        (ss := s) (hlen _ rfl) (Or.inl rfl)
      have hv : leNat [237, 211, 245, 92, 26, 99, 18, 88, 214, 156, 247, 162, 222, 249, 222, 20, 0, 0, 0, 0, 0, 0, 0, 0, 0, 0, 0, 0, 0, 0, 0, 16] = ell := by
        decide +kernel
      rw [hv] at h2
      refine ⟨c', h1, ?_⟩
      unfold scNeg
      simp only [List.length_cons, List.length_nil, Nat.zero_add, Nat.reduceAdd] at h2
      rw [h2]; ring
    obtain ⟨c', h1, h2⟩ := key
    have h256' : (256 : Int) ^ 32 = ((256 ^ 32 : Nat) : Int) := by push_cast
    rw [h256'] at h2
    rw [← h256]
    generalize leNat (scNeg s) = r at *
    generalize (256 : Nat) ^ 32 = M at *
    rcases h1 with h1 | h1 <;> rw [h1] at h2
    · have : ell + M - leNat s = r + M := by omega
      rw [this, Nat.add_mod_right, Nat.mod_eq_of_lt hr]
    · have : ell + M - leNat s = r := by omega
      rw [this, Nat.mod_eq_of_lt hr]
  have small : leNat s ≤ ell → leNat (scNeg s) = ell - leNat s := fun h => by
    rw [val, ← h256, show ell + 256 ^ 32 - leNat s = (ell - leNat s) + 256 ^ 32 by omega, Nat.add_mod_right, Nat.mod_eq_of_lt (by omega)]
  have bytes : ∀ n, n < 256 ^ 32 → leNat (scNeg s) = n → scNeg s = leBytes 32 n := fun n hn h => by
    refine leNat_inj _ _ (by rw [scNeg_length hs, leBytes_length]) ?_
    rw [h, leNat_leBytes, Nat.mod_eq_of_lt hn]
  refine ⟨bytes _ (by rw [h256]; exact Nat.mod_lt _ (by positivity)) val, fun h => ⟨bytes _ (by omega) (small h), ?_⟩, fun h0 h => ?_, fun h => ?_⟩
  · rw [small h, Nat.add_sub_cancel' h, Nat.mod_self]
  · rw [Nat.mod_eq_of_lt (by omega)]
    exact bytes _ (by omega) (small h)
  · rw [small (by omega), h, Nat.sub_zero]

/-- a product that overflows ℓ many times over -/
example : scMulAdd (List.replicate 32 255) (List.replicate 32 255) (List.replicate 32 7) =
    leBytes 32 (((2 ^ 256 - 1) * (2 ^ 256 - 1) + leNat (List.replicate 32 7)) % ell) := by
  rw [(C54_reduce_muladd (x := List.replicate 64 0) (by simp) (by simp) (by simp) (by simp)).2]
  congr 1

example : leNat (1 :: List.replicate 31 0) ≤ ell ∧ scNeg (1 :: List.replicate 31 0) = leBytes 32 (ell - 1) := by
  have h : leNat (1 :: List.replicate 31 0) ≤ ell := by decide +kernel
  refine ⟨h, ?_⟩
  rw [((C54_neg (by simp)).2.1 h).1]
  congr 1

/-- zero, and an argument above ℓ, for which the result is no negative modulo ℓ -/
example : leNat (scNeg (List.replicate 32 0)) = ell ∧
    (leNat (List.replicate 32 255) + leNat (scNeg (List.replicate 32 255))) % ell = 2 ^ 256 % ell ∧ 2 ^ 256 % ell ≠ 0 := by decide +kernel

/-! ### C55: the group -/

/-- C55: the points of the curve are a commutative group of 8 ℓ elements under the addition of RFC 8032 (Spec/Curve.lean), in which the base
point (x, 4/5) with even x has order ℓ. -/
theorem C55_group : (∀ P Q : Pt25519, (P + Q).x = edAddX d25519 P.x P.y Q.x Q.y ∧ (P + Q).y = edAddY d25519 P.x P.y Q.x Q.y) ∧
    (∀ P Q R : Pt25519, P + Q + R = P + (Q + R)) ∧ (∀ P Q : Pt25519, P + Q = Q + P) ∧
    ((0 : Pt25519).x = 0 ∧ (0 : Pt25519).y = 1) ∧ Fintype.card Pt25519 = 8 * ell ∧ addOrderOf basePt = ell ∧
    basePt.y * 5 = 4 ∧ basePt.x.val % 2 = 0 := by
  refine ⟨fun _ _ => ⟨rfl, rfl⟩, add_assoc, add_comm, ⟨rfl, rfl⟩, card_pt, base_addOrder, ?_, ?_⟩
  · have h := natF_eq (a := byN * 5) (b := 4) (by decide +kernel)
    push_cast at h
    exact h
  · show ((bxN : Nat) : F).val % 2 = 0
    rw [ZMod.val_natCast]
    decide +kernel

/-- C55: addition and doubling have no exceptional case, for all representations. -/
theorem C55_add_double {p q : Ext} {P Q : Pt25519} (hp : ExtOk p P) (hq : ExtOk q Q) : ExtOk (geAdd p q) (P + Q) ∧ ExtOk (geDouble p) (P + P) :=
  ⟨hp.geAdd hq, hp.geDouble⟩

/-- adding the base point to itself is the doubling, adding it to its double is 3 B -/
example : ExtOk (geAdd extendedBaseEl extendedBaseEl) (basePt + basePt) ∧
    ExtOk (geAdd extendedBaseEl (geDouble extendedBaseEl)) (basePt + (basePt + basePt)) :=
  ⟨(C55_add_double extendedBaseEl_ok extendedBaseEl_ok).1, (C55_add_double extendedBaseEl_ok (C55_add_double extendedBaseEl_ok extendedBaseEl_ok).2).1⟩

/-- C55: scalar multiplication, for every scalar of 256 bits. -/
theorem C55_scalarMult {p : Ext} {P : Pt25519} (hp : ExtOk p P) {a : Bytes} (ha : a.length = 32) : ExtOk (geScalarMult a p) (leNat a • P) :=
  hp.geScalarMult ha

/-- with the largest scalar -/
example : ExtOk (geScalarMult (List.replicate 32 255) extendedBaseEl) ((2 ^ 256 - 1) • basePt) := by
  have := C55_scalarMult extendedBaseEl_ok (a := List.replicate 32 255) (by decide)
  rwa [show leNat (List.replicate 32 255) = 2 ^ 256 - 1 by decide +kernel] at this

/-- C55: multiples of the base point, for every scalar below 2^255 (the comment in the code asks for a[31] ≤ 127). -/
theorem C55_scalarMultBase {a : Bytes} (ha : a.length = 32) (h : leNat a < 2 ^ 255) : ExtOk (geScalarMultBase a) (leNat a • basePt) :=
  geScalarMultBase_ok ha h

/-- with the largest scalar allowed -/
example : ExtOk (geScalarMultBase (List.replicate 31 255 ++ [127])) ((2 ^ 255 - 1) • basePt) := by
  have e : leNat (List.replicate 31 255 ++ [127]) = 2 ^ 255 - 1 := by decide +kernel
  have := C55_scalarMultBase (a := List.replicate 31 255 ++ [127]) (by decide) (by rw [e]; decide +kernel)
  rwa [e] at this

/-- C55: the double multiplication never panics, and is a P + b B for scalars below 2^255. -/
theorem C55_doubleScalarMult {p : Ext} {P : Pt25519} (hp : ExtOk p P) (a b : Bytes) :
    ∃ r, geDoubleScalarMult a p b = some r ∧ (a.length = 32 → b.length = 32 → leNat a < 2 ^ 255 → leNat b < 2 ^ 255 →
      PrjOk r (leNat a • P + leNat b • basePt)) := by
  obtain ⟨r, h1, h2⟩ := hp.geDoubleScalarMult a b
  refine ⟨r, h1, fun ha hb la lb => ?_⟩
  rw [slideInt_eq ha la, slideInt_eq hb lb, natCast_zsmul, natCast_zsmul] at h2
  exact h2

/-- 3 P + 5 B for P = B -/
example : ∃ r, geDoubleScalarMult (3 :: List.replicate 31 0) extendedBaseEl (5 :: List.replicate 31 0) = some r ∧
    PrjOk r (3 • basePt + 5 • basePt) := by
  obtain ⟨r, h1, h2⟩ := C55_doubleScalarMult extendedBaseEl_ok (3 :: List.replicate 31 0) (5 :: List.replicate 31 0)
  have e3 : leNat (3 :: List.replicate 31 0) = 3 := by decide +kernel
  have e5 : leNat (5 :: List.replicate 31 0) = 5 := by decide +kernel
  rw [e3, e5] at h2
  exact ⟨r, h1, h2 (by decide) (by decide) (by decide) (by decide)⟩

/-- C55, the boundary is sharp: for the scalar 2^256 - 1 the double multiplication uses another number. -/
theorem C55_doubleScalarMult_top : slideInt (List.replicate 32 255) ≠ (leNat (List.replicate 32 255) : Int) := by decide +kernel

/-- the base element of the code represents the base point, its double represents 2 B, and 2 B is not zero -/
example : ExtOk extendedBaseEl basePt ∧ ExtOk (geDouble extendedBaseEl) (basePt + basePt) ∧ basePt + basePt ≠ 0 := by
  refine ⟨extendedBaseEl_ok, extendedBaseEl_ok.geDouble, fun h => ?_⟩
  have h1 : addOrderOf basePt ∣ 2 := addOrderOf_dvd_of_nsmul_eq_zero (by rw [two_nsmul]; exact h)
  rw [base_addOrder] at h1
  exact absurd (Nat.le_of_dvd (by decide) h1) (by decide +kernel)

/-! ### C56: encodings -/

/-- C56: both `ToBytes` write the encoding of RFC 8032, whatever the representation; different points have different encodings. -/
theorem C56_toBytes {p : Ext} {q : Prj} {P Q : Pt25519} (hp : ExtOk p P) (hq : PrjOk q Q) :
    p.toBytes = encodePoint P ∧ q.toBytes = encodePoint Q ∧ (p.toBytes = q.toBytes ↔ P = Q) := by
  refine ⟨hp.toBytes, hq.toBytes, ?_⟩
  rw [hp.toBytes, hq.toBytes]
  exact ⟨encodePoint_inj, fun h => by rw [h]⟩

/-- two representations of the base point have the same bytes -/
example : extendedBaseEl.toBytes = encodePoint basePt ∧ extendedBaseEl.toBytes = extendedBaseEl.toProjective.toBytes :=
  ⟨(C56_toBytes extendedBaseEl_ok extendedBaseEl_ok.toProjective).1, (C56_toBytes extendedBaseEl_ok extendedBaseEl_ok.toProjective).2.2.mpr rfl⟩

/-- C56: `FromBytes` accepts 32 bytes exactly when the number of the low 255 bits is, modulo p, the y-coordinate of a point, and then returns
such a point whose x has the parity of the highest bit (or is zero); it undoes `ToBytes`. -/
theorem C56_fromBytes (dst : Ext) {s : Bytes} (hs : s.length = 32) :
    ((fromBytes dst s).1 = true ↔ ∃ g : Pt25519, g.y = ((leNat s % 2 ^ 255 : Nat) : F)) ∧
    ((fromBytes dst s).1 = true → ∃ g : Pt25519, ExtOk (fromBytes dst s).2 g ∧ g.y = ((leNat s % 2 ^ 255 : Nat) : F) ∧
      (g.x = 0 ∨ g.x.val % 2 = leNat s / 2 ^ 255)) ∧
    (∀ g : Pt25519, s = encodePoint g → (fromBytes dst s).1 = true ∧ ExtOk (fromBytes dst s).2 g) := by
  refine ⟨(fromBytes_ok dst hs).iff, (fromBytes_ok dst hs).ok, ?_⟩
  rintro g rfl
  exact fromBytes_encode dst g

/-- C56: `FromBytesBaseGroup` accepts exactly the encodings of the points of order ℓ: no other encoding of them, no point of another order,
not the neutral element. -/
theorem C56_fromBytesBaseGroup {b : Bytes} (hb : b.length = 32) :
    (∃ p, fromBytesBaseGroup b = some p) ↔ ∃ g : Pt25519, b = encodePoint g ∧ addOrderOf g = ell := by
  have hpr : Nat.Prime ell := prime_ell
  constructor
  · rintro ⟨p, hp⟩
    obtain ⟨g, _, h2, h3, h4⟩ := fromBytesBaseGroup_valid hb hp
    have : _root_.Fact ell.Prime := ⟨hpr⟩
    exact ⟨g, h2.symm, addOrderOf_eq_prime h3 h4⟩
  · rintro ⟨g, rfl, ho⟩
    have h0 : ell • g = 0 := by rw [← ho]; exact addOrderOf_nsmul_eq_zero g
    have hne : g ≠ 0 := by
      rintro rfl
      rw [addOrderOf_zero] at ho
      exact hpr.one_lt.ne ho
    obtain ⟨p, hp, _⟩ := fromBytesBaseGroup_some h0 hne
    exact ⟨p, hp⟩

/-- C56: and what it returns stands for that point. -/
theorem C56_fromBytesBaseGroup_value {b : Bytes} (hb : b.length = 32) {p : Ext} (h : fromBytesBaseGroup b = some p) :
    ∃ g, ExtOk p g ∧ encodePoint g = b := by
  obtain ⟨g, h1, h2, _⟩ := fromBytesBaseGroup_valid hb h
  exact ⟨g, h1, h2⟩

/-- what is decoded from the base point's bytes stands for the base point -/
example : ∃ p, fromBytesBaseGroup (encodePoint basePt) = some p ∧ ExtOk p basePt := by
  obtain ⟨p, hp⟩ := (C56_fromBytesBaseGroup (encodePoint_length _)).mpr ⟨basePt, rfl, base_addOrder⟩
  obtain ⟨g, h1, h2⟩ := C56_fromBytesBaseGroup_value (encodePoint_length _) hp
  exact ⟨p, hp, encodePoint_inj h2 ▸ h1⟩

/-- C56: `ToExtended` drops the result of `FromBytes`; it never fails on an element that stands for a point. -/
theorem C56_toExtended {p : Prj} {P : Pt25519} (h : PrjOk p P) (dst : Ext) : ExtOk (p.toExtended dst) P := h.toExtended dst

example : ExtOk (extendedBaseEl.toProjective.toExtended extendedBaseEl) basePt := C56_toExtended extendedBaseEl_ok.toProjective _

/-- C56, `FromBytes` alone is not injective: 1 and p + 1 are two encodings of the neutral element's y-coordinate. -/
theorem C56_fromBytes_not_canonical (dst : Ext) :
    ∃ s s' : Bytes, s ≠ s' ∧ s.length = 32 ∧ s'.length = 32 ∧ ExtOk (fromBytes dst s).2 0 ∧ ExtOk (fromBytes dst s').2 0 ∧
      (fromBytes dst s).1 = true ∧ (fromBytes dst s').1 = true := by
  have e0 := fromBytes_encode dst 0
  have hl : (leBytes 32 (p25519 + 1)).length = 32 := leBytes_length _ _
  have hn : leNat (leBytes 32 (p25519 + 1)) = p25519 + 1 := by rw [leNat_leBytes]; decide +kernel
  have h := fromBytes_ok dst hl
  rw [hn] at h
  have hy : (((p25519 + 1) % 2 ^ 255 : Nat) : F) = 1 := by
    have := natF_eq (a := (p25519 + 1) % 2 ^ 255) (b := 1) (by decide +kernel)
    rw [this]; simp
  rw [hy] at h
  have ht := h.iff.mpr ⟨0, rfl⟩
  obtain ⟨g, h1, h2, h3⟩ := h.ok ht
  have hx : g.x = 0 := by
    have := x_sq g
    rw [h2] at this
    have h4 : g.x ^ 2 * (1 + d25519 * 1 ^ 2) = 0 := by rw [this]; ring
    exact (pow_eq_zero_iff (by decide)).mp ((mul_eq_zero.mp h4).resolve_right (den_y 1))
  have hg : g = 0 := EdPoint.ext hx h2
  rw [hg] at h1
  refine ⟨encodePoint 0, leBytes 32 (p25519 + 1), ?_, encodePoint_length _, hl, e0.2, h1, e0.1, ht⟩
  intro hc
  have hc := congrArg leNat hc
  rw [hn, leNat_encode, encNum_zero] at hc
  exact absurd hc (by decide +kernel)

/-- the encoding of the base point is accepted; that of the neutral element is not -/
example : (∃ p, fromBytesBaseGroup (encodePoint basePt) = some p) ∧ ¬ ∃ p, fromBytesBaseGroup (encodePoint 0) = some p := by
  refine ⟨(C56_fromBytesBaseGroup (encodePoint_length _)).mpr ⟨basePt, rfl, base_addOrder⟩, fun h => ?_⟩
  obtain ⟨g, h1, h2⟩ := (C56_fromBytesBaseGroup (encodePoint_length _)).mp h
  rw [← encodePoint_inj h1, addOrderOf_zero] at h2
  exact absurd h2 (by decide +kernel)

/-! ### C57: hashing to the curve -/

/-- C57: `HashToEdwards` never panics; it returns the point that Elligator prescribes (Spec/Elligator.lean) for the low 255 bits, with the
parity given by the highest bit. -/
theorem C57_hashToEdwards {b : Bytes} (hb : b.length = 32) :
    ∃ p g, hashToEdwards b = some p ∧ ExtOk p g ∧ g.y = edwardsY (elligatorX ((leNat b % 2 ^ 255 : Nat) : F)) ∧
      (g.x = 0 ∨ g.x.val % 2 = leNat b / 2 ^ 255) := hashToEdwards_ok hb

/-- C57: exactly which pairs of hash values are sent to the same point: r, -r, 1/(2r), -1/(2r) with the same highest bit, and the two values
with r = 0. So the map is four to one, and a collision needs one of these relations. -/
theorem C57_collisions {b b' : Bytes} (hb : b.length = 32) (hb' : b'.length = 32) {p p' : Ext} {g g' : Pt25519}
    (h : hashToEdwards b = some p) (h' : hashToEdwards b' = some p') (hp : ExtOk p g) (hp' : ExtOk p' g') :
    g = g' ↔
      let r : F := ((leNat b % 2 ^ 255 : Nat) : F)
      let r' : F := ((leNat b' % 2 ^ 255 : Nat) : F)
      (r = r' ∨ r = -r' ∨ 2 * r * r' = 1 ∨ 2 * r * r' = -1) ∧ (r = 0 ∨ leNat b / 2 ^ 255 = leNat b' / 2 ^ 255) := by
  obtain ⟨q, k, e, hk, hy, hx⟩ := hashToEdwards_ok hb
  obtain ⟨q', k', e', hk', hy', hx'⟩ := hashToEdwards_ok hb'
  rw [e] at h
  rw [e'] at h'
  cases h
  cases h'
  rw [hp.unique hk, hp'.unique hk']
  simp only
  rw [← elligatorX_eq]
  have n1 := elligatorX_ne ((leNat b % 2 ^ 255 : Nat) : F)
  have n2 := elligatorX_ne ((leNat b' % 2 ^ 255 : Nat) : F)
  have z1 := x_zero_iff k n1 hy
  rw [elligatorX_eq_zero] at z1
  constructor
  · rintro rfl
    rw [hy] at hy'
    refine ⟨edwardsY_inj n1 n2 hy', ?_⟩
    rw [← z1]
    rcases hx with hx | hx
    · exact Or.inl hx
    · rcases hx' with hx' | hx'
      · exact Or.inl hx'
      · exact Or.inr (hx ▸ hx')
  · rintro ⟨h1, h2⟩
    have hyy : k.y = k'.y := by rw [hy, hy', h1]
    refine pt_ext0 hyy ?_
    rw [← z1] at h2
    rcases h2 with h2 | h2
    · exact Or.inl h2
    · rcases hx with hx | hx
      · exact Or.inl hx
      · rcases hx' with hx' | hx'
        · left
          have := pt_ext0 hyy.symm (Or.inl hx')
          rw [← this]; exact hx'
        · exact Or.inr (by rw [hx, hx', h2])

/-- 1 and p - 1, that is -1, are sent to the same point; 1 and 2 are not -/
example : ∃ p p' p'' g g' g'', hashToEdwards (1 :: List.replicate 31 0) = some p ∧ hashToEdwards (leBytes 32 (p25519 - 1)) = some p' ∧
    hashToEdwards (2 :: List.replicate 31 0) = some p'' ∧ ExtOk p g ∧ ExtOk p' g' ∧ ExtOk p'' g'' ∧ g = g' ∧ g ≠ g'' := by
  obtain ⟨p, g, h1, h2, _⟩ := C57_hashToEdwards (b := 1 :: List.replicate 31 0) (by decide)
  obtain ⟨p', g', h1', h2', _⟩ := C57_hashToEdwards (b := leBytes 32 (p25519 - 1)) (by decide +kernel)
  obtain ⟨p'', g'', h1'', h2'', _⟩ := C57_hashToEdwards (b := 2 :: List.replicate 31 0) (by decide)
  refine ⟨p, p', p'', g, g', g'', h1, h1', h1'', h2, h2', h2'', ?_, ?_⟩
  · refine (C57_collisions (by decide) (by decide +kernel) h1 h1' h2 h2').mpr ⟨.inr (.inl ?_), .inr (by decide +kernel)⟩
    rw [show leNat (1 :: List.replicate 31 0) % 2 ^ 255 = 1 by decide +kernel,
      show leNat (leBytes 32 (p25519 - 1)) % 2 ^ 255 = p25519 - 1 by decide +kernel, Nat.cast_sub (by decide +kernel), ZMod.natCast_self]
    simp
  · intro e
    have := ((C57_collisions (by decide) (by decide) h1 h1'' h2 h2'').mp e).1
    rw [show leNat (1 :: List.replicate 31 0) % 2 ^ 255 = 1 by decide +kernel,
      show leNat (2 :: List.replicate 31 0) % 2 ^ 255 = 2 by decide +kernel] at this
    have hne : ∀ a b : Nat, a < p25519 → b < p25519 → a ≠ b → ((a : Nat) : F) ≠ (b : F) := fun a b ha hb h e => h (by
      have := (ZMod.natCast_eq_natCast_iff' a b p25519).mp e
      rwa [Nat.mod_eq_of_lt ha, Nat.mod_eq_of_lt hb] at this)
    rcases this with h | h | h | h
    · exact hne 1 2 (by decide +kernel) (by decide +kernel) (by decide) h
    · refine hne 3 0 (by decide +kernel) (by decide +kernel) (by decide) ?_
      rw [← sub_eq_zero] at h; push_cast at h ⊢; rw [← h]; ring
    · refine hne 3 0 (by decide +kernel) (by decide +kernel) (by decide) ?_
      rw [← sub_eq_zero] at h; push_cast at h ⊢; rw [← h]; ring
    · refine hne 5 0 (by decide +kernel) (by decide +kernel) (by decide) ?_
      rw [← sub_eq_zero] at h; push_cast at h ⊢; rw [← h]; ring

/-- C57: exactly six numbers (twelve hash values of the 2^256) are sent to points of order dividing eight, which `hashToCurve` turns into the
neutral element. -/
theorem C57_small_order {b : Bytes} (hb : b.length = 32) {p : Ext} {g : Pt25519} (h : hashToEdwards b = some p) (hp : ExtOk p g) :
    8 • g = 0 ↔ leNat b % 2 ^ 255 ∈ [0, p25519, rN, p25519 - rN, rN', p25519 - rN'] := by
  obtain ⟨q, k, e, hk, hy, hx⟩ := hashToEdwards_ok hb
  rw [e] at h
  cases h
  rw [hp.unique hk, small_order_iff hy]
  exact small_nat (Nat.mod_lt _ (by positivity))

/-- all zero bytes go to the point (0, -1) of order two -/
example : ∃ p, hashToEdwards (List.replicate 32 0) = some p ∧ ∃ g : Pt25519, ExtOk p g ∧ g ≠ 0 ∧ 8 • g = 0 := by
  obtain ⟨p, g, h1, h2, h3, h4⟩ := C57_hashToEdwards (b := List.replicate 32 0) (by simp)
  refine ⟨p, h1, g, h2, ?_, ?_⟩
  · rintro rfl
    have hz : elligatorX ((leNat (List.replicate 32 0) % 2 ^ 255 : Nat) : F) = 0 := by
      rw [elligatorX_eq_zero, leNat_replicate_zero]; simp
    rw [hz] at h3
    have h5 : (1 : F) = edwardsY 0 := h3
    unfold edwardsY at h5
    norm_num at h5
    exact two_ne (by linear_combination h5)
  · rw [C57_small_order (by simp) h1 h2, leNat_replicate_zero]
    decide

end Coniks.Props

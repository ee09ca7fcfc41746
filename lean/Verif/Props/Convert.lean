import Verif.Ed25519.Convert
import Verif.Ed25519.Toy
/-
C72: conversion of Ed25519 keys to Curve25519 keys and public keys with a representative (crypto/internal/ed25519/extra25519). Curve25519 is
the elliptic curve of Spec/Montgomery.lean, with Mathlib's group law; `Pt25519` is the Edwards curve of Spec/Curve.lean; `elligatorX`
(Spec/Elligator.lean) is the map of Elligator 2; `leBytes 32 n` is the number n as 32 bytes, lowest first.
-/
namespace Coniks.Props
open Coniks Coniks.Spec Coniks.Ed

/-- C72: the two curves are the same group: there is an isomorphism that matches the base points of RFC 7748 and RFC 8032, under which the
u-coordinate is (1 + y) / (1 - y). -/
theorem C72_same_group : ∃ φ : curve25519.Point ≃+ Pt25519, φ curveBase = basePt ∧ (∀ P, uCoord P = (1 + (φ P).y) / (1 - (φ P).y)) ∧
    ∀ n : Nat, φ (n • curveBase) = n • basePt := by
  let φ : curve25519.Point ≃+ Pt25519 := AddEquiv.ofBijective toEdHom ⟨fun _ _ h => toEd_inj h, toEd_surj⟩
  refine ⟨φ, toEd_base, montU_toEd, fun n => ?_⟩
  rw [map_nsmul]
  exact congrArg (n • ·) toEd_base

/-- the base point is that of RFC 7748: u = 9, and it has the prime order ℓ -/
theorem C72_base : uCoord curveBase = 9 ∧ vCoord curveBase = (baseV : F) ∧ addOrderOf curveBase = Spec.ell := by
  refine ⟨rfl, rfl, ?_⟩
  rw [← addOrderOf_injective toEdHom (fun _ _ h => toEd_inj h)]
  show addOrderOf (toEd curveBase) = _
  rw [toEd_base]
  exact base_addOrder

/-- C72: `PublicKeyToCurve25519` answers false exactly if the 32 bytes do not decode to a point (the sign bit plays no role), and otherwise
writes the u-coordinate of the point, as the least non-negative number. -/
theorem C72_public_key {b : Bytes} (hb : b.length = 32) :
    (publicKeyToCurve25519 b = none ↔ ¬ ∃ g : Pt25519, g.y = ((leNat b % 2 ^ 255 : Nat) : F)) ∧
    ∀ g : Pt25519, g.y = ((leNat b % 2 ^ 255 : Nat) : F) → publicKeyToCurve25519 b = some (leBytes 32 ((1 + g.y) / (1 - g.y)).val) := by
  rcases publicKeyToCurve25519_ok hb with ⟨h1, h2⟩ | ⟨g, h1, h2⟩
  · exact ⟨⟨fun _ => h2, fun _ => h1⟩, fun g hg => absurd ⟨g, hg⟩ h2⟩
  · refine ⟨⟨fun h => ?_, fun h => absurd ⟨g, h1⟩ h⟩, fun g' hg' => ?_⟩
    · rw [h2] at h; cases h
    · rw [h2, montU, h1, hg']

/-- C72: the key of the point n B is sent to the u-coordinate of the n-fold of the base point of Curve25519. -/
theorem C72_public_key_multiple (n : Nat) : publicKeyToCurve25519 (encodePoint (n • basePt)) = some (leBytes 32 (uCoord (n • curveBase)).val) := by
  rw [(C72_public_key (encodePoint_length _)).2 (n • basePt), uCoord_smul]
  · rfl
  · rw [leNat_encode, encNum_mod, ZMod.natCast_zmod_val]

/-- C72: a public key and the one with the other sign give the same Curve25519 key; nothing else does, among canonical encodings. -/
theorem C72_public_key_collisions (g g' : Pt25519) : publicKeyToCurve25519 (encodePoint g) = publicKeyToCurve25519 (encodePoint g') ↔
    (g = g' ∨ g = -g') ∨ (g.x = 0 ∧ g'.x = 0) := by
  have key : ∀ g : Pt25519, publicKeyToCurve25519 (encodePoint g) = some (leBytes 32 (montU g).val) := by
    intro g
    rw [(C72_public_key (encodePoint_length _)).2 g]
    · rfl
    · rw [leNat_encode, encNum_mod, ZMod.natCast_zmod_val]
  rw [key, key]
  have hinj : some (leBytes 32 (montU g).val) = some (leBytes 32 (montU g').val) ↔ montU g = montU g' := by
    refine ⟨fun h => ?_, fun h => by rw [h]⟩
    have h := congrArg leNat (Option.some.inj h)
    rw [leNat_leBytes, leNat_leBytes] at h
    have hl : ∀ a : F, a.val < 256 ^ 32 := fun a => lt_trans (ZMod.val_lt a) (by decide +kernel)
    rw [Nat.mod_eq_of_lt (hl _), Nat.mod_eq_of_lt (hl _)] at h
    exact ZMod.val_injective _ h
  rw [hinj]
  have hyx : ∀ g : Pt25519, g.x = 0 ↔ g.y = 1 ∨ g.y = -1 := by
    intro g
    have ho := x_sq g
    constructor
    · intro h
      rw [h] at ho
      have h1 : (g.y - 1) * (g.y + 1) = 0 := by linear_combination -ho
      rcases mul_eq_zero.mp h1 with h | h
      · left; linear_combination h
      · right; linear_combination h
    · intro h
      have h2 : g.y ^ 2 = 1 := by rcases h with h | h <;> rw [h] <;> ring
      rw [h2, sub_self] at ho
      have h3 := (mul_eq_zero.mp ho).resolve_right (by have := den_y g.y; rwa [h2] at this)
      exact pow_eq_zero_iff (by decide) |>.mp h3
  have hsame : ∀ g g' : Pt25519, g.y = g'.y → g = g' ∨ g = -g' := by
    intro g g' hy
    have h1 := x_sq g
    have h2 := x_sq g'
    rw [hy] at h1
    have h3 : g.x ^ 2 = g'.x ^ 2 := mul_right_cancel₀ (den_y g'.y) (h1.trans h2.symm)
    rcases sq_eq_sq_iff_eq_or_eq_neg.mp h3 with h | h
    · exact Or.inl (EdPoint.ext h hy)
    · exact Or.inr (EdPoint.ext (by rw [ed_neg_x, h]) (by rw [ed_neg_y, hy]))
  have hm0 : ∀ g : Pt25519, g.x = 0 → montU g = 0 := by
    intro g h
    unfold montU
    rcases (hyx g).mp h with h | h <;> rw [h] <;> norm_num
  constructor
  · intro h
    by_cases hx : g.x = 0
    · right
      refine ⟨hx, ?_⟩
      rw [hm0 g hx] at h
      by_contra hx'
      have hn := fun h => hx' ((hyx g').mpr h)
      unfold montU at h
      rcases div_eq_zero_iff.mp h.symm with h | h
      · exact hn (Or.inr (by linear_combination h))
      · exact hn (Or.inl (by linear_combination -h))
    · left
      have hn := fun h => hx ((hyx g).mpr h)
      have hd : 1 - g.y ≠ 0 := fun h => hn (Or.inl (by linear_combination -h))
      by_cases hx' : g'.x = 0
      · exfalso
        rw [hm0 g' hx'] at h
        unfold montU at h
        rcases div_eq_zero_iff.mp h with h | h
        · exact hn (Or.inr (by linear_combination h))
        · exact hd h
      · have hn' := fun h => hx' ((hyx g').mpr h)
        have hd' : 1 - g'.y ≠ 0 := fun h => hn' (Or.inl (by linear_combination -h))
        apply hsame
        unfold montU at h
        rw [div_eq_div_iff hd hd'] at h
        have : 2 * (g.y - g'.y) = 0 := by linear_combination h
        have := (mul_eq_zero.mp this).resolve_left two_ne
        linear_combination this
  · rintro ((rfl | rfl) | ⟨h1, h2⟩)
    · rfl
    · unfold montU; rw [ed_neg_y]
    · rw [hm0 _ h1, hm0 _ h2]

/-- C72: `PrivateKeyToCurve25519` writes 32 bytes whose number is the clamped first half of the digest of the first 32 bytes of the key, for
every hash function with 64 bytes of output; the rest of the key plays no role. -/
theorem C72_private_key (sha512 : Bytes → Bytes) (hl : ∀ x, (sha512 x).length = 64) (sk : Bytes) :
    (privateKeyToCurve25519 sha512 sk).length = 32 ∧
    leNat (privateKeyToCurve25519 sha512 sk) = clampNat (leNat ((sha512 (sk.take 32)).take 32)) := by
  have e : privateKeyToCurve25519 sha512 sk = clamp ((sha512 (sk.take 32)).take 32) := by
    unfold privateKeyToCurve25519 clamp
    rw [List.take_modify, List.take_modify]
  have hl' : ((sha512 (sk.take 32)).take 32).length = 32 := by rw [List.length_take, hl]; rfl
  rw [e]
  exact ⟨(leNat_clamp _ hl').1, clamp_nat hl'⟩

/-- a digest of 64 bytes 255, clamped: 2^255 - 8 -/
example : leNat (privateKeyToCurve25519 (fun _ => List.replicate 64 255) (List.replicate 64 9)) = 2 ^ 255 - 8 := by
  rw [(C72_private_key (fun _ => List.replicate 64 255) (fun _ => by simp) (List.replicate 64 9)).2]
  decide +kernel

/-- C72: `ScalarBaseMult` answers false exactly if the u-coordinate of the multiple of the base point has no representative, and otherwise
writes that coordinate and one of its representatives; which one depends on the other coordinate. The coordinates of the multiple are those
of RFC 7748: the private key is clamped, the base point is (9, baseV). -/
theorem C72_scalar_base_mult {sk : Bytes} (hs : sk.length = 32) :
    (scalarBaseMult sk = none ↔ ¬ ∃ r, elligatorX r = uCoord (clampNat (leNat sk) • curveBase)) ∧
    ∀ pub rep, scalarBaseMult sk = some (pub, rep) → pub = leBytes 32 (uCoord (clampNat (leNat sk) • curveBase)).val ∧
      ∃ r, rep = leBytes 32 r.val ∧ elligatorX r = uCoord (clampNat (leNat sk) • curveBase) ∧
        (if (vCoord (clampNat (leNat sk) • curveBase)).val < (p25519 - 1) / 2 then
          2 * (uCoord (clampNat (leNat sk) • curveBase) + 486662) * r ^ 2 = -uCoord (clampNat (leNat sk) • curveBase)
        else 2 * uCoord (clampNat (leNat sk) • curveBase) * r ^ 2 = -(uCoord (clampNat (leNat sk) • curveBase) + 486662)) := by
  have hp : (p25519 - 1) / 2 = p25519 / 2 := by rw [p25519_eq]
  rw [hp]
  rcases scalarBaseMult_ok hs with ⟨h1, h2⟩ | ⟨r, h1, h2, h3⟩
  · refine ⟨⟨fun _ => h2, fun _ => h1⟩, fun pub rep h => ?_⟩
    rw [h1] at h; cases h
  · refine ⟨⟨fun h => ?_, fun h => absurd ⟨r, h2⟩ h⟩, fun pub rep h => ?_⟩
    · rw [h1] at h; cases h
    · rw [h1] at h
      cases h
      exact ⟨rfl, r, rfl, h2, h3⟩

/-- C72: the key pair is never degenerate: the coordinate written is not zero, and the point has order ℓ. -/
theorem C72_scalar_base_mult_order (sk : Bytes) :
    addOrderOf (clampNat (leNat sk) • curveBase) = Spec.ell ∧ uCoord (clampNat (leNat sk) • curveBase) ≠ 0 := by
  have hx := clamp_x_ne (leNat sk)
  have hP : toEd (clampNat (leNat sk) • curveBase) = clampNat (leNat sk) • basePt := by rw [toEd_smul, toEd_base]
  refine ⟨?_, ?_⟩
  · rw [← addOrderOf_injective toEdHom (fun _ _ h => toEd_inj h)]
    show addOrderOf (toEd _) = _
    have hf : _root_.Fact (Nat.Prime Spec.ell) := ⟨prime_ell⟩
    rw [hP]
    apply addOrderOf_eq_prime
    · rw [smul_comm, base_order, smul_zero]
    · intro h
      rw [h] at hx
      exact hx ed_zero_x
  · intro h
    rw [← hP] at hx
    have h1 := vCoord_toEd hx
    rw [← montU_toEd, h, mul_zero, zero_div] at h1
    rcases hPe : clampNat (leNat sk) • curveBase with _ | ⟨u, v, hp⟩
    · rw [hPe] at hx
      exact hx ed_zero_x
    · rw [hPe] at hx h1
      have hv : v = 0 := h1
      apply hx
      show cM * u / v = 0
      rw [hv, div_zero]

/-- C72: `RepresentativeToPublicKey` applies the map of Elligator 2 to the low 255 bits, so every 32 bytes are a representative of the
u-coordinate of some point of the curve. -/
theorem C72_representative {b : Bytes} (hb : b.length = 32) :
    representativeToPublicKey b = leBytes 32 (elligatorX ((leNat b % 2 ^ 255 : Nat) : F)).val ∧
    ∃ P : curve25519.Point, P ≠ 0 ∧ representativeToPublicKey b = leBytes 32 (uCoord P).val := by
  have h := representativeToPublicKey_ok hb
  refine ⟨h, ?_⟩
  obtain ⟨v, hv⟩ := elligatorX_sq ((leNat b % 2 ^ 255 : Nat) : F)
  have hn := nonsingular_of (u := elligatorX ((leNat b % 2 ^ 255 : Nat) : F)) (v := v) (by rw [hv]; ring)
  refine ⟨.some _ v hn, WeierstrassCurve.Affine.Point.some_ne_zero _, h⟩

/-- the representative 0 is that of the u-coordinate 0 of Elligator 2, whatever the highest bit -/
example : representativeToPublicKey (List.replicate 32 0) = representativeToPublicKey (List.replicate 31 0 ++ [128]) := by
  rw [(C72_representative (b := List.replicate 32 0) (by decide)).1, (C72_representative (b := List.replicate 31 0 ++ [128]) (by decide)).1]
  congr 4

/-- C72: the representative that `ScalarBaseMult` writes gives back the public key it writes, also with the highest bit set. -/
theorem C72_round_trip {sk pub rep : Bytes} (hs : sk.length = 32) (h : scalarBaseMult sk = some (pub, rep)) :
    representativeToPublicKey rep = pub ∧ representativeToPublicKey (rep.modify 31 (· ||| 128)) = pub := by
  obtain ⟨h1, r, h2, h3, -⟩ := (C72_scalar_base_mult hs).2 pub rep h
  have hlt : r.val < 2 ^ 255 := lt_trans (ZMod.val_lt r) (by decide +kernel)
  have hn : leNat rep = r.val := by
    rw [h2, leNat_leBytes, Nat.mod_eq_of_lt]
    exact lt_trans hlt (by decide +kernel)
  have hlen : rep.length = 32 := by rw [h2, leBytes_length]
  refine ⟨?_, ?_⟩
  · rw [(C72_representative hlen).1, hn, Nat.mod_eq_of_lt hlt, ZMod.natCast_zmod_val, h3, h1]
  · have hlen' : (rep.modify 31 (· ||| 128)).length = 32 := by simp [hlen]
    have hm : leNat (rep.modify 31 (· ||| 128)) % 2 ^ 255 = r.val := by
      obtain ⟨y, z, rfl, hy⟩ := split31 hlen
      have hm := modify_last y z (· ||| 128)
      rw [hy] at hm
      rw [hm, leNat_snoc, hy]
      rw [leNat_snoc, hy] at hn
      have hor : ∀ n : Fin 256, (UInt8.ofNat n.val ||| 128).toNat = n.val % 128 + 128 := by decide +kernel
      have ho := hor ⟨z.toNat, z.toNat_lt⟩
      simp only [UInt8.ofNat_toNat] at ho
      rw [ho]
      have hyl := Coniks.leNat_lt y
      rw [hy] at hyl
      have hz := z.toNat_lt
      norm_num at hyl hlt hn ⊢
      omega
    rw [(C72_representative hlen').1, hm, ZMod.natCast_zmod_val, h3, h1]

/-- C72: converting the two halves of an Ed25519 key pair gives a Curve25519 key pair: if the public key is that of RFC 8032 (the clamped first
half of the digest of the seed, times the base point), then its conversion is the public key that belongs to the converted private key, and
it is what `ScalarBaseMult` writes for it whenever that answers true. -/
theorem C72_key_pair (sha512 : Bytes → Bytes) (hl : ∀ x, (sha512 x).length = 64) (sk : Bytes) :
    publicKeyToCurve25519 (encodePoint (clampNat (leNat ((sha512 (sk.take 32)).take 32)) • basePt)) =
      some (leBytes 32 (uCoord (clampNat (leNat (privateKeyToCurve25519 sha512 sk)) • curveBase)).val) ∧
    ∀ pub rep, scalarBaseMult (privateKeyToCurve25519 sha512 sk) = some (pub, rep) →
      publicKeyToCurve25519 (encodePoint (clampNat (leNat ((sha512 (sk.take 32)).take 32)) • basePt)) = some pub := by
  obtain ⟨h1, h2⟩ := C72_private_key sha512 hl sk
  have e : publicKeyToCurve25519 (encodePoint (clampNat (leNat ((sha512 (sk.take 32)).take 32)) • basePt)) =
      some (leBytes 32 (uCoord (clampNat (leNat (privateKeyToCurve25519 sha512 sk)) • curveBase)).val) := by
    rw [C72_public_key_multiple, h2, clampNat_idem]
  refine ⟨e, fun pub rep h => ?_⟩
  rw [e, ((C72_scalar_base_mult h1).2 pub rep h).1]

/-- for a digest of 64 bytes 7 -/
example : publicKeyToCurve25519 (encodePoint (clampNat (leNat (List.replicate 32 7)) • basePt)) = some (leBytes 32
    (uCoord (clampNat (leNat (privateKeyToCurve25519 (fun _ => List.replicate 64 7) (List.replicate 64 9))) • curveBase)).val) :=
  (C72_key_pair (fun _ => List.replicate 64 7) (fun _ => by simp) (List.replicate 64 9)).1

/-- C72: the comparison used to choose the representative is strict, although its comment says a ≤ b. -/
theorem C72_compare {a b : Bytes} (h : a.length = b.length) : feBytesLE a b = if leNat a < leNat b then 1 else 0 := feBytesLE_eq h

/-- equal numbers: the answer is 0 -/
example : feBytesLE [1, 2] [1, 2] = 0 ∧ feBytesLE [9, 1] [1, 2] = 1 := by
  rw [C72_compare (a := [1, 2]) (b := [1, 2]) rfl, C72_compare (a := [9, 1]) (b := [1, 2]) rfl]
  decide

theorem C72_compare_comment_wrong (a : Bytes) : feBytesLE a a = 0 := by
  rw [feBytesLE_eq rfl, if_neg (by omega)]

/-- C72: what the two constants are: `sqrtMinusA` is a square root of -(A + 2), not of -A, which has none; twice the square of
`sqrtMinusHalf` is a square root of -1 (with the other sign than `SqrtM1`), not -1: -1/2 has no square root. -/
theorem C72_constants : (∃ c : F, Rep 1 feSqrtMinusA c ∧ c ^ 2 = -486664) ∧ ¬ IsSquare (-486662 : F) ∧
    (∃ h i : F, Rep 1 feSqrtMinusHalf h ∧ Rep 1 feSqrtM1 i ∧ i ^ 2 = -1 ∧ 2 * h ^ 2 = -i) ∧ ¬ ∃ h : F, 2 * h ^ 2 = -1 := by
  refine ⟨⟨cM, feSqrtMinusA_rep, cM_sq⟩, ?_, ⟨_, _, feSqrtMinusHalf_rep, feSqrtM1_rep, i_sq, h_sq⟩, ?_⟩
  · intro h
    apply A_not_sq
    have := neg1_sq.mul h
    rwa [show (-1 * -486662 : F) = 486662 by ring] at this
  · rintro ⟨h, hh⟩
    exact den_r h (by linear_combination hh)

/-! ### concrete cases -/

private def uChk (k u : Nat) : Bool :=
  let n := NPt.smul 255 k baseN
  nmul u (nsub n.Z n.Y) == nadd n.Z n.Y && nsub n.Z n.Y != 0

private theorem uChk_ok {k u : Nat} (hk : k < 2 ^ 255) (h : uChk k u = true) : uCoord (k • curveBase) = (u : F) := by
  have hr := NPt.smul_rep 255 k baseN_rep hk
  unfold uChk at h
  simp only [Bool.and_eq_true, beq_iff_eq, bne_iff_ne] at h
  obtain ⟨h1, h2⟩ := h
  generalize NPt.smul 255 k baseN = n at *
  have h1 := congrArg (Nat.cast : Nat → F) h1
  rw [nmul_cast, nadd_cast, nsub_cast] at h1
  have hy := hr.y
  rw [uCoord_smul, montU]
  generalize k • basePt = g at *
  have hz := hr.ne
  have hne : (n.Z : F) - n.Y ≠ 0 := by
    rw [← nsub_cast]
    intro h0
    apply h2
    have := (ZMod.natCast_eq_zero_iff _ _).mp h0
    rw [Nat.dvd_iff_mod_eq_zero] at this
    unfold nsub at this ⊢
    rwa [Nat.mod_mod] at this
  have hd : 1 - g.y ≠ 0 := by
    intro h0
    apply hne
    rw [hy]
    linear_combination (n.Z : F) * h0
  rw [div_eq_iff hd]
  refine mul_right_cancel₀ hz ?_
  rw [hy] at h1
  linear_combination -h1

/-- a key with a representative, and its public key: 32 bytes of 7 -/
private def u7 : Nat := 49521034228830619629260891619225567055584564874474322184561959714842538393107
private def r7 : Nat := 1905023161696642249360857652412159060625952229443342298920325855305711411949

private theorem u7_ok : uCoord (clampNat (leNat (List.replicate 32 7)) • curveBase) = (u7 : F) :=
  uChk_ok (clampNat_lt _) (by decide +kernel)

example : ∃ rep, scalarBaseMult (List.replicate 32 7) = some (leBytes 32 u7, rep) ∧ representativeToPublicKey rep = leBytes 32 u7 := by
  have hm := C72_scalar_base_mult (sk := List.replicate 32 7) (by decide)
  have hS : IsSquare (montRhs (u7 : F)) := by
    refine ⟨vCoord (clampNat (leNat (List.replicate 32 7)) • curveBase), ?_⟩
    rw [← u7_ok, ← uCoord_sq]
    · ring
    · intro h
      have := (C72_scalar_base_mult_order (List.replicate 32 7)).2
      rw [h] at this
      exact this rfl
  have hr : elligatorX (r7 : F) = (u7 : F) := by
    refine rep_second hS ?_
    have := natF_eq (a := 2 * u7 * (r7 * r7) + u7 + 486662) (b := 0) (by decide +kernel)
    push_cast at this
    linear_combination this
  rcases h : scalarBaseMult (List.replicate 32 7) with _ | ⟨pub, rep⟩
  · exact absurd ⟨(r7 : F), by rw [u7_ok]; exact hr⟩ (hm.1.mp h)
  · have h1 := (hm.2 pub rep h).1
    have h2 := (C72_round_trip (by decide) h).1
    rw [u7_ok, ZMod.val_natCast, Nat.mod_eq_of_lt (by decide +kernel)] at h1
    subst h1
    exact ⟨rep, rfl, h2⟩

/-- and one without: 32 bytes of 1 -/
private def u1 : Nat := 4358756744656299921611720742713659245005038656318957406234335445765305065636
private def s1 : Nat := 34466762790141223052878129121356279218726786507488760114161526940559611609628

private theorem u1_ok : uCoord (clampNat (leNat (List.replicate 32 1)) • curveBase) = (u1 : F) :=
  uChk_ok (clampNat_lt _) (by decide +kernel)

example : scalarBaseMult (List.replicate 32 1) = none := by
  refine (C72_scalar_base_mult (sk := List.replicate 32 1) (by decide)).1.mpr ?_
  rw [u1_ok]
  rintro ⟨r, hr⟩
  have hS := elligatorX_sq r
  rw [hr] at hS
  refine rep_not_sq hS (natF_ne0 (by decide +kernel)) hr ⟨(s1 : F), ?_⟩
  have := natF_eq (a := u1 * (u1 + 486662)) (b := s1 * s1) (by decide +kernel)
  push_cast at this
  exact this

/-- the neutral element and the point of order two are converted as well, both to 0: small-order keys are not refused -/
example : publicKeyToCurve25519 (encodePoint 0) = some (List.replicate 32 0) := by
  rw [(C72_public_key (encodePoint_length _)).2 0]
  · rw [ed_zero_y, sub_self, div_zero, ZMod.val_zero]; rfl
  · rw [leNat_encode, encNum_mod, ZMod.natCast_zmod_val]

/-- 2 is not the y-coordinate of a point -/
example : publicKeyToCurve25519 (2 :: List.replicate 31 0) = none := by
  refine (C72_public_key (b := 2 :: List.replicate 31 0) (by decide)).1.mpr ?_
  rw [show leNat (2 :: List.replicate 31 0) % 2 ^ 255 = 2 by decide +kernel]
  rintro ⟨g, hg⟩
  have ho := x_sq g
  rw [hg] at ho
  push_cast at ho
  have h2 : ¬ IsSquare (((3 * (1 + 4 * dN)) : Nat) : F) := not_square (by decide +kernel) (by decide +kernel)
  apply h2
  refine ⟨g.x * (1 + 4 * d25519), ?_⟩
  push_cast
  rw [← d_eq]
  linear_combination -(1 + 4 * d25519) * ho

end Coniks.Props

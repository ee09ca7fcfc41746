import Verif.Proofs.Vrf
import Verif.Ed25519.Toy
/-
C07, C08: the verifiable random function, over any group that satisfies `EdLaws`.
-/
namespace Coniks.Props
open Coniks Spec

variable {E : EdOps} {G : Type} [AddCommGroup G]

/-- C07, first half: nothing panics, and `Prove` returns the value `Compute` returns. -/
theorem C07_prove_compute (L : EdLaws E G) (X : Xof) (sk m : Bytes) (hsk : 32 ≤ sk.length) :
    ∃ v p, vrfProveGo E X sk m = some (v, p) ∧ vrfCompute E X sk m = some v := by
  obtain ⟨x, r, hx, _⟩ := expand_ok X sk hsk
  obtain ⟨h, hh, _⟩ := hashToCurve_ok L X m
  exact ⟨_, _, by simp only [vrfProveGo, hx, hh, Option.bind_eq_bind, Option.bind_some]; rfl,
    by simp only [vrfCompute, hx, hh, Option.bind_eq_bind, Option.bind_some]⟩

/-- C07, second half, for every key made by `GenerateKey` and every message that is not hashed to the neutral element (see
`C07_neutral_rejected`): `Verify` under the public key accepts the value and the proof returned by `Prove`. -/
theorem C07_complete (L : EdLaws E G) (X : Xof) (rnd sk m v p : Bytes) (hrnd : rnd.length = 32)
    (hgen : vrfGenerateKey E X rnd = some sk) (hpr : vrfProveGo E X sk m = some (v, p))
    (hne : ∀ h, vrfHashToCurve E X m = some h → L.val h ≠ 0) :
    vrfVerifyGo E X (vrfPublic sk) m v p = some true := by
  obtain ⟨x, rr, hx, hxl, k, hk, hk1, hk2⟩ := expand_ok X rnd (by omega)
  obtain ⟨h, hh, vh, oh⟩ := hashToCurve_ok L X m
  have hH := hne h hh
  have xlt : leNat x < 2 ^ 255 := by omega
  obtain ⟨vP, eP⟩ := L.scalarMultBase x hxl xlt
  have hsk : sk = rnd ++ L.enc (leNat x • L.base) := by
    simp only [vrfGenerateKey, hx, Option.bind_eq_bind, Option.bind_some, Option.some.injEq] at hgen
    rw [← hgen, L.toBytes _ vP, eP]
  have hpk : sk.drop 32 = L.enc (leNat x • L.base) := by rw [hsk, ← hrnd, List.drop_left]
  have hskx : vrfExpand X sk = some (x, rr) := by
    rw [hsk, expand_append X _ _ hrnd]; exact hx
  obtain ⟨vi, ei⟩ := L.scalarMult x h hxl vh
  -- what `Prove` returns
  simp only [vrfProveGo, hskx, hh, Option.bind_eq_bind, Option.bind_some, Option.some.injEq, Prod.mk.injEq] at hpr
  obtain ⟨hv, hp⟩ := hpr
  rw [L.toBytes _ vi, ei] at hv hp
  rw [hpk] at hp
  generalize hr : E.scReduce (X.out (rr ++ L.enc (leNat x • L.base) ++ m) 64) = r at hp
  have rl : r.length = 32 := by rw [← hr]; exact L.scReduce_length _ (X.length _ _)
  have rlt : leNat r < ell := by rw [← hr, L.scReduce _ (X.length _ _)]; exact Nat.mod_lt _ ell_pos
  have ellt : ell < 2 ^ 255 := by unfold ell; omega
  obtain ⟨vgr, egr⟩ := L.scalarMultBase r rl (by omega)
  obtain ⟨vhr, ehr⟩ := L.scalarMult r h rl vh
  rw [L.toBytes _ vh, L.toBytes _ vgr, L.toBytes _ vhr, egr, ehr] at hp
  generalize hs : E.scReduce (X.out (E.baseBytes ++ L.enc (L.val h) ++ L.enc (leNat x • L.base) ++ L.enc (leNat x • L.val h) ++
    L.enc (leNat r • L.base) ++ L.enc (leNat r • L.val h) ++ m) 64) = s at hp
  have sl : s.length = 32 := by rw [← hs]; exact L.scReduce_length _ (X.length _ _)
  have slt : leNat s < ell := by rw [← hs, L.scReduce _ (X.length _ _)]; exact Nat.mod_lt _ ell_pos
  generalize ht : E.scMulAdd x (E.scNeg s) r = t at hp
  have tl : t.length = 32 := by rw [← ht]; exact L.scMulAdd_length _ _ _ hxl (L.scNeg_length _ sl) rl
  have tv : leNat t = (leNat x * (ell - leNat s) + leNat r) % ell := by
    rw [← ht, L.scMulAdd _ _ _ hxl (L.scNeg_length _ sl) rl, L.scNeg _ sl (by omega)]
  have tlt : leNat t < ell := by rw [tv]; exact Nat.mod_lt _ ell_pos
  have il : (L.enc (leNat x • L.val h)).length = 32 := L.enc_length _
  -- the parts of the proof
  have e1 : p.take 32 = s := by rw [← hp, ← sl, List.append_assoc, List.take_left]
  have e2 : (p.drop 32).take 32 = t := by rw [← hp, ← sl, List.append_assoc, List.drop_left, sl, ← tl, List.take_left]
  have e3 : p.drop 64 = L.enc (leNat x • L.val h) := by
    rw [← hp, show (64 : Nat) = (s ++ t).length by simp [sl, tl], List.drop_left]
  have pl : p.length = 96 := by rw [← hp]; simp [sl, tl, il]
  have vl : v.length = 32 := by rw [← hv]; exact X.length _ _
  -- both points are decoded
  have xc := clamped_coprime prime_ell hk hk1 hk2
  have oP : ell • (leNat x • L.base) = 0 := by rw [← mul_nsmul, mul_comm, mul_nsmul, L.base_order]; simp
  have oI : ell • (leNat x • L.val h) = 0 := by rw [← mul_nsmul, mul_comm, mul_nsmul, oh]; simp
  obtain ⟨P, hP⟩ := L.decode_some _ oP (smul_ne_zero_of_coprime L.base_order L.base_ne _ xc)
  obtain ⟨I, hI⟩ := L.decode_some _ oI (smul_ne_zero_of_coprime oh hH _ xc)
  obtain ⟨vP', eP', _⟩ := L.decode_valid _ _ (L.enc_length _) hP
  obtain ⟨vI', eI', _⟩ := L.decode_valid _ _ (L.enc_length _) hI
  have eP' := L.enc_inj _ _ eP'
  have eI' := L.enc_inj _ _ eI'
  -- the commitments come out
  have key : ∀ g : G, ell • g = 0 → leNat s • (leNat x • g) + leNat t • g = leNat r • g := by
    intro g hg
    rw [← mul_nsmul, ← add_nsmul]
    refine smul_congr hg ?_
    rw [tv, Nat.add_mod_mod, ← Nat.add_assoc]
    have : leNat s * leNat x + leNat x * (ell - leNat s) = leNat x * ell := by
      rw [Nat.mul_comm (leNat s), ← Nat.mul_add]; congr 1; omega
    rw [Nat.mul_comm (leNat x) (leNat s), this, Nat.mul_add_mod_self_right]
  have hcom : vrfCommitments E P I h s t = (L.enc (leNat r • L.base), L.enc (leNat r • L.val h)) := by
    rw [commitments_eq L P I h s t sl tl vP' vI' vh, L.digits_eq s sl (by omega), L.digits_eq t tl (by omega), eP', eI']
    simp only [natCast_zsmul]
    rw [key _ L.base_order, add_comm (leNat t • L.val h), key _ oh]
  unfold vrfVerifyGo vrfPublic
  rw [hpk, e1, e2, e3]
  simp only [pl, vl, L.enc_length, hP, hI, hh, Option.map_some, hcom, hv, L.toBytes _ vh, hs]
  simp

/-- C07. The exception is real: if a message is hashed to the neutral element, `Verify` rejects the value and proof that `Prove` returns,
under every key. -/
theorem C07_neutral_rejected (L : EdLaws E G) (X : Xof) (rnd sk m v p : Bytes) (hrnd : rnd.length = 32)
    (hgen : vrfGenerateKey E X rnd = some sk) (hpr : vrfProveGo E X sk m = some (v, p)) (h : E.Pt)
    (hh : vrfHashToCurve E X m = some h) (hz : L.val h = 0) : ∀ pk, vrfVerifyGo E X pk m v p = some false := by
  intro pk
  obtain ⟨x, rr, hx, hxl, k, hk, hk1, hk2⟩ := expand_ok X rnd (by omega)
  obtain ⟨h', hh', vh, oh⟩ := hashToCurve_ok L X m
  rw [hh] at hh'
  cases hh'
  obtain ⟨vP, eP⟩ := L.scalarMultBase x hxl (by omega)
  have hsk : sk = rnd ++ L.enc (leNat x • L.base) := by
    simp only [vrfGenerateKey, hx, Option.bind_eq_bind, Option.bind_some, Option.some.injEq] at hgen
    rw [← hgen, L.toBytes _ vP, eP]
  have hskx : vrfExpand X sk = some (x, rr) := by
    rw [hsk, expand_append X _ _ hrnd]; exact hx
  obtain ⟨vi, ei⟩ := L.scalarMult x h hxl vh
  simp only [vrfProveGo, hskx, hh, Option.bind_eq_bind, Option.bind_some, Option.some.injEq, Prod.mk.injEq] at hpr
  obtain ⟨hv, hp⟩ := hpr
  rw [L.toBytes _ vi, ei, hz, smul_zero] at hp
  generalize hA : E.scReduce (X.out (rr ++ List.drop 32 sk ++ m) 64) = r at hp
  have rl : r.length = 32 := by rw [← hA]; exact L.scReduce_length _ (X.length _ _)
  generalize hB : E.scReduce (X.out (E.baseBytes ++ E.toBytes h ++ List.drop 32 sk ++ L.enc 0 ++ E.toBytes (E.scalarMultBase r) ++
    E.toBytes (E.scalarMult r h) ++ m) 64) = s at hp
  have sl : s.length = 32 := by rw [← hB]; exact L.scReduce_length _ (X.length _ _)
  have tl : (E.scMulAdd x (E.scNeg s) r).length = 32 := L.scMulAdd_length _ _ _ hxl (L.scNeg_length _ sl) rl
  have e3 : p.drop 64 = L.enc 0 := by
    rw [← hp, show (64 : Nat) = (s ++ E.scMulAdd x (E.scNeg s) r).length by simp [sl, tl], List.drop_left]
  have hno : E.fromBytesBaseGroup (L.enc 0) = none := by
    cases hd : E.fromBytesBaseGroup (L.enc 0) with
    | none => rfl
    | some q =>
      obtain ⟨_, e, _, n⟩ := L.decode_valid _ _ (L.enc_length _) hd
      exact absurd (L.enc_inj _ _ e) n
  unfold vrfVerifyGo
  rw [e3]
  split
  · rfl
  · simp only [hno]
    split
    · rfl
    · split <;> rfl

/-- What acceptance means: lengths, the value is the hash of the point in the proof, key and point are points of order ℓ in canonical
encoding, and the challenge `s` is the hash of the two recomputed commitments. -/
theorem C08_accepts_iff (L : EdLaws E G) (X : Xof) (pk m v p : Bytes) :
    vrfVerifyGo E X pk m v p = some true ↔
    p.length = 96 ∧ v.length = 32 ∧ pk.length = 32 ∧ X.out (p.drop 64 ++ m) 32 = v ∧
    ∃ (P I h : E.Pt), E.fromBytesBaseGroup pk = some P ∧ E.fromBytesBaseGroup (p.drop 64) = some I ∧
      vrfHashToCurve E X m = some h ∧
      E.scReduce (X.out (L.enc L.base ++ L.enc (L.val h) ++ pk ++ p.drop 64 ++
        (vrfCommitments E P I h (p.take 32) ((p.drop 32).take 32)).1 ++
        (vrfCommitments E P I h (p.take 32) ((p.drop 32).take 32)).2 ++ m) 64) = p.take 32 := by
  obtain ⟨h, hh, vh, _⟩ := hashToCurve_ok L X m
  unfold vrfVerifyGo
  by_cases hl : p.length ≠ 96 ∨ v.length ≠ 32 ∨ pk.length ≠ 32
  · rw [if_pos hl]
    constructor
    · intro h; simp at h
    · rintro ⟨h1, h2, h3, _⟩; rcases hl with g | g | g <;> contradiction
  · rw [if_neg hl]
    simp only [not_or, not_not] at hl
    obtain ⟨l1, l2, l3⟩ := hl
    by_cases hv : X.out (p.drop 64 ++ m) 32 = v
    · have : (X.out (p.drop 64 ++ m) 32 != v) = false := by simp [hv]
      simp only [this, Bool.false_eq_true, if_false, l1, l2, l3, hv, true_and]
      cases hP : E.fromBytesBaseGroup pk with
      | none => simp
      | some P =>
        cases hI : E.fromBytesBaseGroup (p.drop 64) with
        | none => simp
        | some I =>
          simp only [hh, Option.map_some, Option.some.injEq, L.baseBytes, L.toBytes _ vh]
          constructor
          · intro hb
            exact ⟨P, I, h, rfl, rfl, rfl, by simpa using hb⟩
          · rintro ⟨P', I', h', rfl, rfl, rfl, hb⟩
            simpa using hb
    · have : (X.out (p.drop 64 ++ m) 32 != v) = true := by simp [hv]
      simp [this, hv]

/-- C08, special soundness. Two proofs are accepted for the same key, message and point, possibly under different hash functions
`X` and `X'` (as when a prover is rewound) that agree on where the message is mapped and on the key pair. If the recomputed
commitments are the same and the challenges differ, then the accepted value is the one `Compute` returns. -/
theorem C08_special_soundness (L : EdLaws E G) (X X' : Xof) (rnd sk m v v' p p' : Bytes)
    (hrnd : rnd.length = 32) (hgen : vrfGenerateKey E X rnd = some sk)
    (hmap : X'.out m 32 = X.out m 32)
    (acc : vrfVerifyGo E X (vrfPublic sk) m v p = some true) (acc' : vrfVerifyGo E X' (vrfPublic sk) m v' p' = some true)
    (hpt : p'.drop 64 = p.drop 64)
    (hcom : ∀ P I h, E.fromBytesBaseGroup (vrfPublic sk) = some P → E.fromBytesBaseGroup (p.drop 64) = some I →
      vrfHashToCurve E X m = some h →
      vrfCommitments E P I h (p.take 32) ((p.drop 32).take 32) = vrfCommitments E P I h (p'.take 32) ((p'.drop 32).take 32))
    (hch : p.take 32 ≠ p'.take 32) : vrfCompute E X sk m = some v := by
  obtain ⟨l1, l2, l3, hv, P, I, h, hP, hI, hh, hs⟩ := (C08_accepts_iff L X _ m v p).mp acc
  obtain ⟨l1', l2', l3', hv', P', I', h', hP', hI', hh', hs'⟩ := (C08_accepts_iff L X' _ m v' p').mp acc'
  rw [hP] at hP'; cases hP'
  rw [hpt, hI] at hI'; cases hI'
  have hh2 : vrfHashToCurve E X' m = some h := by unfold vrfHashToCurve at hh ⊢; rw [hmap]; exact hh
  rw [hh2] at hh'; cases hh'
  obtain ⟨h0, hh0, vh, oh⟩ := hashToCurve_ok L X m
  rw [hh] at hh0; cases hh0
  have il : (p.drop 64).length = 32 := by rw [List.length_drop, l1]
  obtain ⟨vP, eP, oP, _⟩ := L.decode_valid _ _ l3 hP
  obtain ⟨vI, eI, oI, _⟩ := L.decode_valid _ _ il hI
  -- the key
  obtain ⟨x, rr, hx, hxl, k, hk, hk1, hk2⟩ := expand_ok X rnd (by omega)
  obtain ⟨vx, ex⟩ := L.scalarMultBase x hxl (by omega)
  have hsk : sk = rnd ++ L.enc (leNat x • L.base) := by
    simp only [vrfGenerateKey, hx, Option.bind_eq_bind, Option.bind_some, Option.some.injEq] at hgen
    rw [← hgen, L.toBytes _ vx, ex]
  have hpk : vrfPublic sk = L.enc (leNat x • L.base) := by unfold vrfPublic; rw [hsk, ← hrnd, List.drop_left]
  have hskx : vrfExpand X sk = some (x, rr) := by
    rw [hsk, expand_append X _ _ hrnd]; exact hx
  rw [hpk] at eP
  have eP := L.enc_inj _ _ eP
  -- the challenges are reduced
  have red : ∀ (Y : Xof) (b c : Bytes), E.scReduce (Y.out b 64) = c → c.length = 32 ∧ leNat c < ell := by
    intro Y b c e
    rw [← e]
    exact ⟨L.scReduce_length _ (Y.length _ _), by rw [L.scReduce _ (Y.length _ _)]; exact Nat.mod_lt _ ell_pos⟩
  obtain ⟨sl, slt⟩ := red X _ _ hs
  obtain ⟨sl', slt'⟩ := red X' _ _ hs'
  have ellt : ell < 2 ^ 255 := by unfold ell; omega
  have tl : ((p.drop 32).take 32).length = 32 := by simp [l1]
  have tl' : ((p'.drop 32).take 32).length = 32 := by simp [l1']
  have hc := hcom P I h hP hI hh
  rw [commitments_eq L P I h _ _ sl tl vP vI vh, commitments_eq L P I h _ _ sl' tl' vP vI vh] at hc
  simp only [Prod.mk.injEq] at hc
  have c1 := L.enc_inj _ _ hc.1
  have c2 := L.enc_inj _ _ hc.2
  rw [L.digits_eq _ sl (by omega), L.digits_eq _ sl' (by omega)] at c1 c2
  generalize hS : p.take 32 = s at *
  generalize hS' : p'.take 32 = s' at *
  generalize (p.drop 32).take 32 = t at *
  generalize (p'.drop 32).take 32 = t' at *
  rw [eP] at c1
  -- (s - s') x B = (t' - t) B, (s - s') I = (t' - t) h
  have dS : ((leNat s : Int) - leNat s') ≠ 0 := by
    intro e
    exact hch (leNat_inj _ _ (sl.trans sl'.symm) (by omega))
  have d1 : (((leNat s : Int) - leNat s') * leNat x - (L.digits t' - L.digits t)) • L.base = 0 := by
    have : ((leNat s : Int) * leNat x + L.digits t) • L.base = ((leNat s' : Int) * leNat x + L.digits t') • L.base := by
      rw [add_zsmul, add_zsmul, mul_zsmul, mul_zsmul, natCast_zsmul L.base (leNat x)]; exact c1
    rw [← sub_eq_zero, sub_eq_add_neg, ← sub_zsmul] at this
    rw [← this]; congr 1; ring
  have d2 : (((leNat s : Int) - leNat s')) • L.val I = (L.digits t' - L.digits t) • L.val h := by
    rw [sub_zsmul, sub_zsmul, ← sub_eq_add_neg, ← sub_eq_add_neg, sub_eq_sub_iff_add_eq_add, add_comm, c2, add_comm]
  -- ℓ divides the coefficient of B
  have hB : addOrderOf L.base = ell := by
    rcases (Nat.dvd_prime prime_ell).mp (addOrderOf_dvd_of_nsmul_eq_zero L.base_order) with g | g
    · exact absurd (AddMonoid.addOrderOf_eq_one_iff.mp g) L.base_ne
    · exact g
  have hdvd : (ell : Int) ∣ (((leNat s : Int) - leNat s') * leNat x - (L.digits t' - L.digits t)) := by
    have := addOrderOf_dvd_iff_zsmul_eq_zero.mpr d1
    rwa [hB] at this
  have d3 : ((leNat s : Int) - leNat s') • (L.val I - (leNat x : Int) • L.val h) = 0 := by
    obtain ⟨q, hq⟩ := hdvd
    rw [zsmul_sub, d2, ← mul_zsmul, sub_eq_add_neg, ← sub_zsmul]
    have : L.digits t' - L.digits t - ((leNat s : Int) - leNat s') * leNat x = -q * ell := by
      rw [neg_mul, mul_comm q, ← hq]; ring
    rw [this, mul_zsmul, natCast_zsmul, oh, smul_zero]
  have d4 : ell • (L.val I - (leNat x : Int) • L.val h) = 0 := by
    rw [nsmul_sub, oI, ← natCast_zsmul, ← mul_zsmul, mul_comm, mul_zsmul, natCast_zsmul _ ell, oh, smul_zero, sub_zero]
  have hval : L.val I = leNat x • L.val h := by
    have o1 := addOrderOf_dvd_of_nsmul_eq_zero d4
    have o2 := addOrderOf_dvd_iff_zsmul_eq_zero.mpr d3
    rcases (Nat.dvd_prime prime_ell).mp o1 with g | g
    · have := AddMonoid.addOrderOf_eq_one_iff.mp g
      rw [sub_eq_zero, natCast_zsmul] at this
      exact this
    · rw [g] at o2
      have := Nat.le_of_dvd (Int.natAbs_pos.mpr dS) (Int.natCast_dvd.mp o2)
      omega
  obtain ⟨vi, ei⟩ := L.scalarMult x h hxl vh
  simp only [vrfCompute, hskx, hh, Option.bind_eq_bind, Option.bind_some, Option.some.injEq]
  rw [L.toBytes _ vi, ei, ← hval, eI]
  exact hv

/-- C08, the other half: the accepted value is determined by the message and the point in the proof. -/
theorem C08_value_determined (L : EdLaws E G) (X : Xof) (pk pk' m v v' p p' : Bytes)
    (acc : vrfVerifyGo E X pk m v p = some true) (acc' : vrfVerifyGo E X pk' m v' p' = some true)
    (hpt : p.drop 64 = p'.drop 64) : v = v' := by
  obtain ⟨_, _, _, hv, _⟩ := (C08_accepts_iff L X _ m v p).mp acc
  obtain ⟨_, _, _, hv', _⟩ := (C08_accepts_iff L X _ m v' p').mp acc'
  rw [← hv, ← hv', hpt]

/-- C08, proofs are not unique: adding ℓ to the response gives another accepted proof of the same value (the code does not ask for a
canonical response). -/
theorem C08_response_not_unique (L : EdLaws E G) (X : Xof) (pk m v p t' : Bytes) (acc : vrfVerifyGo E X pk m v p = some true)
    (ht : t'.length = 32) (he : leNat t' = leNat ((p.drop 32).take 32) + ell) (hlt : leNat t' < 2 ^ 255) :
    vrfVerifyGo E X pk m v (p.take 32 ++ t' ++ p.drop 64) = some true ∧ p.take 32 ++ t' ++ p.drop 64 ≠ p := by
  obtain ⟨l1, l2, l3, hv, P, I, h, hP, hI, hh, hs⟩ := (C08_accepts_iff L X pk m v p).mp acc
  obtain ⟨h0, hh0, vh, oh⟩ := hashToCurve_ok L X m
  rw [hh] at hh0; cases hh0
  obtain ⟨vP, _⟩ := L.decode_valid _ _ l3 hP
  obtain ⟨vI, _⟩ := L.decode_valid _ _ (by rw [List.length_drop, l1]) hI
  have tl : ((p.drop 32).take 32).length = 32 := by simp [l1]
  have sl : (p.take 32).length = 32 := by simp [l1]
  have e1 : (p.take 32 ++ t' ++ p.drop 64).take 32 = p.take 32 := by rw [List.append_assoc]; exact List.take_left' sl
  have e2 : ((p.take 32 ++ t' ++ p.drop 64).drop 32).take 32 = t' := by
    rw [List.append_assoc, List.drop_left' sl]; exact List.take_left' ht
  have e3 : (p.take 32 ++ t' ++ p.drop 64).drop 64 = p.drop 64 := List.drop_left' (by simp [sl, ht])
  constructor
  · refine (C08_accepts_iff L X pk m v _).mpr ⟨by simp [l1, ht], l2, l3, by rw [e3]; exact hv, P, I, h, hP, by rw [e3]; exact hI, hh, ?_⟩
    rw [e1, e2, e3]
    have hc : vrfCommitments E P I h (p.take 32) t' = vrfCommitments E P I h (p.take 32) ((p.drop 32).take 32) := by
      rw [commitments_eq L P I h _ _ sl ht vP vI vh, commitments_eq L P I h _ _ sl tl vP vI vh, L.digits_eq _ ht hlt,
        L.digits_eq ((p.drop 32).take 32) tl (by omega), he]
      simp only [natCast_zsmul, add_nsmul, L.base_order, oh, add_zero]
    rw [hc]
    exact hs
  · intro hc
    have : t' = (p.drop 32).take 32 := by rw [← e2, hc]
    rw [← this] at he
    have := ell_pos
    omega

/- The hypotheses are met: in the group of integers modulo ℓ with a concrete hash, a key is generated and a proof made and accepted;
the message is not hashed to the neutral element. -/
section example_
open ToyEd

/-- a seed -/
def toyRnd : Bytes := List.replicate 32 3

example : ∃ sk v p, vrfGenerateKey ops xof toyRnd = some sk ∧ vrfProveGo ops xof sk [1, 2] = some (v, p) ∧
    vrfCompute ops xof sk [1, 2] = some v ∧ (∀ h, vrfHashToCurve ops xof [1, 2] = some h → laws.val h ≠ 0) ∧
    vrfVerifyGo ops xof (vrfPublic sk) [1, 2] v p = some true := by
  obtain ⟨x, rr, hx, _⟩ := expand_ok xof toyRnd (by decide)
  have hg : vrfGenerateKey ops xof toyRnd = some (toyRnd ++ ops.toBytes (ops.scalarMultBase x)) := by
    simp only [vrfGenerateKey, hx, Option.bind_eq_bind, Option.bind_some]
  obtain ⟨v, p, hp, hc⟩ := C07_prove_compute laws xof (toyRnd ++ ops.toBytes (ops.scalarMultBase x)) [1, 2] (by simp [toyRnd])
  have hne : ∀ h, vrfHashToCurve ops xof [1, 2] = some h → laws.val h ≠ 0 := by
    intro h hh
    obtain ⟨h', e, _, _⟩ := hashToCurve_ok laws xof [1, 2]
    have : vrfHashToCurve ops xof [1, 2] = some ((8 * 520 : Nat) : ZMod ell) := by
      have e : leNat (xof.out [1, 2] 32) = 520 := by decide +kernel
      unfold vrfHashToCurve
      simp only [ops, e, Option.map_some, Option.some.injEq]
      push_cast; ring
    rw [this] at hh
    cases hh
    show ((8 * 520 : Nat) : ZMod ell) ≠ 0
    rw [Ne, ZMod.natCast_eq_zero_iff]
    intro hd
    have := Nat.le_of_dvd (by norm_num) hd
    unfold ell at this
    omega
  exact ⟨_, v, p, hg, hp, hc, hne, C07_complete laws xof toyRnd _ [1, 2] v p (by decide) hg hp hne⟩

/-- a hash that maps every message to 5 and answers every longer request with 5 followed by `k`s: two of them stand for a prover that is
rewound between its commitment and its challenge -/
def flatXof (k : UInt8) : Xof where
  out _ n := (toLE 32 5 ++ List.replicate n k).take n
  length m n := by simp [toLE_length]
  prefix_ m n j h := by
    apply List.ext_getElem?
    intro i
    simp only [List.getElem?_take, List.getElem?_append, List.getElem?_replicate, toLE_length]
    repeat' split
    all_goals first | rfl | omega

/-- the challenge under `flatXof k` -/
def flatS (k : UInt8) : Nat := leNat (toLE 32 5 ++ List.replicate 32 k) % ell

/-- a proof for the key `x` and the point 40 = 8 · 5, with the commitments 0 and 0 -/
def flatProof (x : Nat) (k : UInt8) : Bytes := toLE 32 (flatS k) ++ enc (-(flatS k * x : ZMod ell)) ++ enc (x * 40)

theorem three_parts {a b c : Bytes} (l1 : a.length = 32) (l2 : b.length = 32) (l3 : c.length = 32) : (a ++ b ++ c).take 32 = a ∧
    ((a ++ b ++ c).drop 32).take 32 = b ∧ (a ++ b ++ c).drop 64 = c ∧ (a ++ b ++ c).length = 96 := by
  refine ⟨by rw [List.append_assoc]; exact List.take_left' l1, ?_, List.drop_left' (by simp [l1, l2]), by simp [l1, l2, l3]⟩
  rw [List.append_assoc, List.drop_left' l1]; exact List.take_left' l2

theorem flat_parts (x : Nat) (k : UInt8) : (flatProof x k).take 32 = toLE 32 (flatS k) ∧
    ((flatProof x k).drop 32).take 32 = enc (-(flatS k * x : ZMod ell)) ∧ (flatProof x k).drop 64 = enc (x * 40) ∧
    (flatProof x k).length = 96 := three_parts (toLE_length _ _) (toLE_length _ _) (toLE_length _ _)

theorem flat_hash (k : UInt8) (m : Bytes) : vrfHashToCurve ops (flatXof k) m = some (40 : ZMod ell) := by
  have e : leNat ((flatXof k).out m 32) = 5 := by
    show leNat ((toLE 32 5 ++ List.replicate 32 k).take 32) = 5
    rw [List.take_left' (toLE_length _ _)]; decide +kernel
  unfold vrfHashToCurve
  simp only [ops, e, Option.map_some, Option.some.injEq]
  push_cast; ring

theorem dec_enc {g : ZMod ell} (h : g ≠ 0) : ops.fromBytesBaseGroup (enc g) = some g := by
  obtain ⟨p, hp⟩ := laws.decode_some g (smul_ell g) h
  obtain ⟨_, h2, _⟩ := laws.decode_valid (enc g) p (toLE_length _ _) hp
  rw [show p = g from laws.enc_inj _ _ h2] at hp
  exact hp

theorem flat_accepted {x : Nat} (h1 : (x : ZMod ell) ≠ 0) (h2 : (x * 40 : ZMod ell) ≠ 0) (k : UInt8) (m : Bytes) :
    vrfVerifyGo ops (flatXof k) (enc x) m (toLE 32 5) (flatProof x k) = some true := by
  obtain ⟨a, b, c, d⟩ := flat_parts x k
  refine (C08_accepts_iff laws (flatXof k) _ m _ _).mpr ⟨d, toLE_length _ _, toLE_length _ _, ?_, (x : ZMod ell), (x * 40 : ZMod ell), (40 : ZMod ell), dec_enc h1,
    by rw [c]; exact dec_enc h2, flat_hash k m, ?_⟩
  · show (toLE 32 5 ++ List.replicate 32 k).take 32 = _
    exact List.take_left' (toLE_length _ _)
  · rw [a]
    show toLE 32 (leNat ((toLE 32 5 ++ List.replicate 64 k).take 64) % ell) = _
    rw [List.take_append, toLE_length]
    rfl

theorem commit_zero (x S : Nat) (hS : S < ell) : vrfCommitments ops (x : ZMod ell) (x * 40 : ZMod ell) (40 : ZMod ell) (toLE 32 S)
    (enc (-(S * x : ZMod ell))) = (enc 0, enc 0) := by
  have hs : leNat (toLE 32 S) = S := small (le_of_lt hS)
  have e := commitments_eq laws (x : ZMod ell) (x * 40 : ZMod ell) (40 : ZMod ell) (toLE 32 S) (enc (-(S * x : ZMod ell))) (toLE_length _ _)
    (toLE_length _ _) trivial trivial trivial
  refine e.trans ?_
  have e1 : laws.digits (toLE 32 S) • (x : ZMod ell) + laws.digits (enc (-(S * x : ZMod ell))) • (1 : ZMod ell) = 0 := by
    simp only [laws, hs, leNat_enc, natCast_zsmul, nsmul_eq_mul, ZMod.natCast_zmod_val]; ring
  have e2 : laws.digits (enc (-(S * x : ZMod ell))) • (40 : ZMod ell) + laws.digits (toLE 32 S) • (x * 40 : ZMod ell) = 0 := by
    simp only [laws, hs, leNat_enc, natCast_zsmul, nsmul_eq_mul, ZMod.natCast_zmod_val]; ring
  exact congrArg₂ (fun a b => (enc a, enc b)) e1 e2

theorem flat_commit (x : Nat) (k : UInt8) : vrfCommitments ops (x : ZMod ell) (x * 40 : ZMod ell) (40 : ZMod ell) ((flatProof x k).take 32)
    (((flatProof x k).drop 32).take 32) = (enc 0, enc 0) := by
  obtain ⟨a, b, _, _⟩ := flat_parts x k
  rw [a, b]
  exact commit_zero x _ (Nat.mod_lt _ ell_pos)

/-- the hypotheses of `C08_special_soundness` and `C08_value_determined` are met: key, two accepted proofs with the same point, the same
commitments and different challenges -/
example : ∃ sk p p' v, vrfGenerateKey ops (flatXof 0) toyRnd = some sk ∧ vrfVerifyGo ops (flatXof 0) (vrfPublic sk) [1, 2] v p = some true ∧
    vrfVerifyGo ops (flatXof 1) (vrfPublic sk) [1, 2] v p' = some true ∧ p'.drop 64 = p.drop 64 ∧ p.take 32 ≠ p'.take 32 ∧
    vrfCompute ops (flatXof 0) sk [1, 2] = some v := by
  obtain ⟨x, rr, hx, _, k, hk, hk1, hk2⟩ := expand_ok (flatXof 0) toyRnd (by decide)
  have hg : vrfGenerateKey ops (flatXof 0) toyRnd = some (toyRnd ++ enc (leNat x : ZMod ell)) := by
    simp only [vrfGenerateKey, hx, Option.bind_eq_bind, Option.bind_some]
    simp only [ops, nsmul_eq_mul, mul_one]
  have hp : vrfPublic (toyRnd ++ enc (leNat x : ZMod ell)) = enc (leNat x : ZMod ell) := List.drop_left' (by decide)
  have hp1 := (Nat.prime_def.mp prime_ell).1
  have hxne : ¬ ell ∣ leNat x := by
    rintro ⟨q, hq⟩
    have h8 : ell ∣ 8 * k := ⟨q, by rw [← hq, hk]⟩
    rcases (Nat.Prime.dvd_mul prime_ell).mp h8 with h | h
    · have := Nat.le_of_dvd (by decide) h
      unfold ell at this; omega
    · have := Nat.le_of_dvd (by omega) h
      unfold ell at this; omega
  have h1 : ((leNat x : Nat) : ZMod ell) ≠ 0 := by rwa [Ne, ZMod.natCast_eq_zero_iff]
  have h2 : ((leNat x : Nat) * 40 : ZMod ell) ≠ 0 := by
    have e : ((leNat x : Nat) * 40 : ZMod ell) = ((leNat x * 40 : Nat) : ZMod ell) := by push_cast; ring
    rw [e, Ne, ZMod.natCast_eq_zero_iff]
    intro h
    rcases (Nat.Prime.dvd_mul prime_ell).mp h with h | h
    · exact hxne h
    · have := Nat.le_of_dvd (by decide) h
      unfold ell at this; omega
  have a1 := flat_accepted h1 h2 0 [1, 2]
  have a2 := flat_accepted h1 h2 1 [1, 2]
  rw [← hp] at a1 a2
  have hd : (flatProof (leNat x) 1).drop 64 = (flatProof (leNat x) 0).drop 64 := by rw [(flat_parts _ _).2.2.1, (flat_parts _ _).2.2.1]
  have hne : (flatProof (leNat x) 0).take 32 ≠ (flatProof (leNat x) 1).take 32 := by
    rw [(flat_parts _ _).1, (flat_parts _ _).1]
    decide +kernel
  refine ⟨_, _, _, _, hg, a1, a2, hd, hne, C08_special_soundness laws (flatXof 0) (flatXof 1) toyRnd _ [1, 2] _ _ _ _ (by decide) hg rfl a1 a2 hd ?_ hne⟩
  intro P I h hP hI hh
  rw [hp, dec_enc h1] at hP
  rw [(flat_parts _ _).2.2.1, dec_enc h2] at hI
  rw [flat_hash] at hh
  cases hP; cases hI; cases hh
  rw [flat_commit, flat_commit]

/-- the second exception: with `C08_response_not_unique` the first of these proofs has a twin -/
example (x : Nat) (h1 : (x : ZMod ell) ≠ 0) (h2 : (x * 40 : ZMod ell) ≠ 0) : ∃ p', p' ≠ flatProof x 0 ∧
    vrfVerifyGo ops (flatXof 0) (enc x) [1, 2] (toLE 32 5) p' = some true := by
  obtain ⟨_, b, _, _⟩ := flat_parts x 0
  have hb := ZMod.val_lt (-(flatS 0 * x : ZMod ell))
  have hl : 2 * ell < 2 ^ 255 := by unfold ell; norm_num
  have e : leNat (toLE 32 ((-(flatS 0 * x : ZMod ell)).val + ell)) = (-(flatS 0 * x : ZMod ell)).val + ell := by
    rw [leNat_toLE, Nat.mod_eq_of_lt]
    exact lt_trans (by omega) (lt_trans hl (by norm_num))
  have := C08_response_not_unique laws (flatXof 0) (enc x) [1, 2] _ _ _ (flat_accepted h1 h2 0 [1, 2]) (toLE_length _ _)
    (by rw [b, leNat_enc]; exact e) (by rw [e]; omega)
  exact ⟨_, this.2, this.1⟩

/-- a hash that sends everything to 0: the message is mapped to the neutral element, and the proof that `Prove` makes is refused -/
def zeroXof : Xof where
  out _ n := List.replicate n 0
  length _ n := by simp
  prefix_ _ n k h := by simp [List.take_replicate, Nat.min_eq_left h]

example : ∃ sk v p, vrfGenerateKey ops zeroXof toyRnd = some sk ∧ vrfProveGo ops zeroXof sk [1, 2] = some (v, p) ∧
    vrfVerifyGo ops zeroXof (vrfPublic sk) [1, 2] v p = some false := by
  obtain ⟨x, rr, hx, _⟩ := expand_ok zeroXof toyRnd (by decide)
  have hg : vrfGenerateKey ops zeroXof toyRnd = some (toyRnd ++ ops.toBytes (ops.scalarMultBase x)) := by
    simp only [vrfGenerateKey, hx, Option.bind_eq_bind, Option.bind_some]
  obtain ⟨v, p, hp, _⟩ := C07_prove_compute laws zeroXof (toyRnd ++ ops.toBytes (ops.scalarMultBase x)) [1, 2] (by simp [toyRnd])
  have hz : vrfHashToCurve ops zeroXof [1, 2] = some (0 : ZMod ell) := by
    have e : leNat (zeroXof.out [1, 2] 32) = 0 := leNat_replicate_zero 32
    unfold vrfHashToCurve
    simp only [ops, e, Option.map_some, Option.some.injEq]
    simp
  exact ⟨_, v, p, hg, hp, C07_neutral_rejected laws zeroXof toyRnd _ [1, 2] v p (by decide) hg hp _ hz rfl _⟩

end example_

end Coniks.Props

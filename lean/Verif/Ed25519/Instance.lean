import Verif.Model.Ed25519.Ops
import Verif.Spec.Ed
import Verif.Ed25519.DoubleMult
import Verif.Ed25519.BaseMult
import Verif.Ed25519.Encoding
import Verif.Ed25519.ScalarProofs
import Verif.Ed25519.Elligator
/-
The Go code satisfies the laws that C07 and C08 assume: `goLaws`.
-/
namespace Coniks.Ed
open Coniks Coniks.Spec

open Classical in
/-- the point an extended element stands for -/
noncomputable def extVal (p : Ext) : Pt25519 := if h : ∃ P, ExtOk p P then h.choose else 0

open Classical in
/-- the point a projective element stands for -/
noncomputable def prjVal (p : Prj) : Pt25519 := if h : ∃ P, PrjOk p P then h.choose else 0

theorem extVal_eq {p : Ext} {P : Pt25519} (h : ExtOk p P) : extVal p = P := by
  have hx : ∃ P, ExtOk p P := ⟨P, h⟩
  unfold extVal
  rw [dif_pos hx]
  exact hx.choose_spec.unique h

theorem prjVal_eq {p : Prj} {P : Pt25519} (h : PrjOk p P) : prjVal p = P := by
  have hx : ∃ P, PrjOk p P := ⟨P, h⟩
  unfold prjVal
  rw [dif_pos hx]
  exact hx.choose_spec.unique h

theorem ExtOk.val {p : Ext} {P : Pt25519} (h : ExtOk p P) : (∃ Q, ExtOk p Q) ∧ extVal p = P := ⟨⟨P, h⟩, extVal_eq h⟩
theorem PrjOk.val {p : Prj} {P : Pt25519} (h : PrjOk p P) : (∃ Q, PrjOk p Q) ∧ prjVal p = P := ⟨⟨P, h⟩, prjVal_eq h⟩

theorem slideInt_eq {a : Bytes} (ha : a.length = 32) (h : leNat a < 2 ^ 255) : slideInt a = leNat a := by
  unfold slideInt
  exact slide_val ha h

theorem scReduce_length (b : Bytes) : (scReduce b).length = 32 := by unfold scReduce; exact scPack_length _
theorem scMulAdd_length (a b c : Bytes) : (scMulAdd a b c).length = 32 := by unfold scMulAdd; exact scPack_length _

attribute [local irreducible] geScalarMult geScalarMultBase geDoubleScalarMult geDouble geAdd Ext.toBytes Prj.toBytes Prj.toExtended
  fromBytesBaseGroup hashToEdwards scReduce scNeg scMulAdd baseBytes slideInt extVal prjVal

/-- The operations of crypto/internal/ed25519 compute in the group of points of the curve of RFC 8032. -/
noncomputable def goLaws : EdLaws goOps Pt25519 where
  val := extVal
  valJ := prjVal
  Valid p := ∃ P, ExtOk p P
  ValidJ p := ∃ P, PrjOk p P
  enc := encodePoint
  enc_length := encodePoint_length
  enc_inj _ _ h := encodePoint_inj h
  base := basePt
  base_ne := base_ne
  base_order := base_order
  cofactor := cofactor_pt
  baseBytes := baseBytes_eq
  digits := slideInt
  digits_eq a ha h := slideInt_eq ha h
  scalarMultBase _ ha h := (geScalarMultBase_ok ha h).val
  scalarMult _ p ha h := by
    obtain ⟨P, hP⟩ := h
    have := hP.geScalarMult ha
    rw [← extVal_eq hP] at this
    exact this.val
  doubleScalarMult a p b _ _ h := by
    obtain ⟨P, hP⟩ := h
    obtain ⟨r, h1, h2⟩ := hP.geDoubleScalarMult a b
    rw [← extVal_eq hP] at h2
    have e : (geDoubleScalarMult a p b).getD Prj.zero = r := by rw [h1, Option.getD_some]
    rw [← e] at h2
    exact h2.val
  double p h := by
    obtain ⟨P, hP⟩ := h
    have := hP.geDouble
    rw [← extVal_eq hP] at this
    exact this.val
  add p q h hq := by
    obtain ⟨P, hP⟩ := h
    obtain ⟨Q, hQ⟩ := hq
    have := hP.geAdd hQ
    rw [← extVal_eq hP, ← extVal_eq hQ] at this
    exact this.val
  toBytes p h := by
    obtain ⟨P, hP⟩ := h
    rw [extVal_eq hP]
    exact hP.toBytes
  pjToBytes p h := by
    obtain ⟨P, hP⟩ := h
    rw [prjVal_eq hP]
    exact hP.toBytes
  pjToExtended p h := by
    obtain ⟨P, hP⟩ := h
    have := hP.toExtended Ext.blank
    rw [← prjVal_eq hP] at this
    exact this.val
  decode_some g ho hg := by
    obtain ⟨p, h, _⟩ := fromBytesBaseGroup_some ho hg
    exact ⟨p, h⟩
  decode_valid b p hb h := by
    obtain ⟨P, h1, h2, h3, h4⟩ := fromBytesBaseGroup_valid hb h
    rw [extVal_eq h1]
    exact ⟨⟨P, h1⟩, h2, h3, h4⟩
  hashToEdwards b hb := by
    obtain ⟨p, g, h1, h2, _⟩ := hashToEdwards_ok hb
    exact ⟨p, h1, g, h2⟩
  scReduce_length b _ := scReduce_length b
  scReduce _ hb := scReduce_spec hb
  scNeg_length _ hb := scNeg_length hb
  scNeg _ hb h := scNeg_spec hb h
  scMulAdd_length a b c _ _ _ := scMulAdd_length a b c
  scMulAdd _ _ _ ha hb hc := scMulAdd_spec ha hb hc

end Coniks.Ed

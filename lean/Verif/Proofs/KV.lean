import Verif.Model.KV
import Verif.Spec.Lex
namespace Coniks
open Spec

/-- Recursive characterisation of `incrementKey`. -/
def incRec : Bytes → Option Bytes
  | [] => none
  | c :: rest =>
    match incRec rest with
    | some l => some (c :: l)
    | none => if c < 0xff then some [c + 1] else none

theorem loop_cons (c : UInt8) (rest : Bytes) (i : Nat) (hi : i ≤ rest.length) :
    incrementKeyLoop (c :: rest) (i + 1) =
      match incrementKeyLoop rest i with
      | some l => some (c :: l)
      | none => if c < 0xff then some [c + 1] else none := by
  induction i with
  | zero =>
    show (if c < 0xff then _ else incrementKeyLoop _ 0) = _
    simp [incrementKeyLoop]
  | succ i ih =>
    have hlt : i < rest.length := by omega
    rw [incrementKeyLoop]
    rw [List.getElem?_cons_succ, List.getElem?_eq_getElem hlt]
    simp only
    conv => rhs; rw [incrementKeyLoop, List.getElem?_eq_getElem hlt]
    simp only
    split
    · simp
    · exact ih (by omega)

theorem incrementKey_eq (p : Bytes) : incrementKey p = incRec p := by
  induction p with
  | nil => rfl
  | cons c rest ih =>
    rw [incrementKey, List.length_cons, loop_cons c rest _ (Nat.le_refl _)]
    rw [incrementKey] at ih
    rw [ih]; rfl

/-- boolean-style recursion for LexLt -/
theorem lexLt_nil_left (b : Bytes) : LexLt [] b ↔ b ≠ [] := by
  constructor
  · rintro (⟨y, t, rfl⟩ | ⟨p, x, y, s, t, h, _, _⟩)
    · simp
    · simp at h
  · intro h
    cases b with
    | nil => exact absurd rfl h
    | cons y t => exact Or.inl ⟨y, t, rfl⟩

theorem lexLt_nil_right (a : Bytes) : ¬ LexLt a [] := by
  rintro (⟨y, t, h⟩ | ⟨p, x, y, s, t, _, h, _⟩) <;> simp at h

theorem lexLt_cons (x y : UInt8) (a b : Bytes) :
    LexLt (x :: a) (y :: b) ↔ x < y ∨ (x = y ∧ LexLt a b) := by
  constructor
  · rintro (⟨z, t, h⟩ | ⟨p, u, v, s, t, h1, h2, h3⟩)
    · simp only [List.cons_append, List.cons.injEq] at h
      exact Or.inr ⟨h.1.symm, Or.inl ⟨z, t, h.2⟩⟩
    · cases p with
      | nil => simp at h1 h2; left; rw [h1.1, h2.1]; exact h3
      | cons q p =>
        simp only [List.cons_append, List.cons.injEq] at h1 h2
        exact Or.inr ⟨by rw [h1.1, h2.1], Or.inr ⟨p, u, v, s, t, h1.2, h2.2, h3⟩⟩
  · rintro (h | ⟨rfl, (⟨z, t, h⟩ | ⟨p, u, v, s, t, h1, h2, h3⟩)⟩)
    · exact Or.inr ⟨[], x, y, a, b, rfl, rfl, h⟩
    · exact Or.inl ⟨z, t, by rw [h]; rfl⟩
    · exact Or.inr ⟨x :: p, u, v, s, t, by rw [h1]; rfl, by rw [h2]; rfl, h3⟩

theorem lexLe_cons (x y : UInt8) (a b : Bytes) :
    LexLe (x :: a) (y :: b) ↔ x < y ∨ (x = y ∧ LexLe a b) := by
  simp only [LexLe, lexLt_cons, List.cons.injEq]
  constructor
  · rintro ((h | ⟨h, h'⟩) | ⟨h, h'⟩)
    · exact Or.inl h
    · exact Or.inr ⟨h, Or.inl h'⟩
    · exact Or.inr ⟨h, Or.inr h'⟩
  · rintro (h | ⟨h, h' | h'⟩)
    · exact Or.inl (Or.inl h)
    · exact Or.inl (Or.inr ⟨h, h'⟩)
    · exact Or.inr ⟨h, h'⟩

theorem u8_irrefl (x : UInt8) : ¬ x < x := UInt8.lt_irrefl x

theorem inRange_iff (p k : Bytes) : InRange p (incRec p) k ↔ p <+: k := by
  induction p generalizing k with
  | nil =>
    simp only [incRec, List.nil_prefix, iff_true]
    refine ⟨?_, by simp⟩
    cases k with
    | nil => exact Or.inr rfl
    | cons => exact Or.inl ((lexLt_nil_left _).mpr (by simp))
  | cons c rest ih =>
    cases k with
    | nil =>
      simp only [List.prefix_nil, List.cons_ne_nil, iff_false]
      rintro ⟨h | h, _⟩
      · exact lexLt_nil_right _ h
      · simp at h
    | cons d k =>
      rw [List.cons_prefix_cons, ← ih k]
      simp only [InRange, incRec, lexLe_cons]
      cases hr : incRec rest with
      | some l =>
        simp only [Option.some.injEq, forall_eq', lexLt_cons]
        constructor
        · rintro ⟨h1 | h1, h2 | h2⟩
          · exact absurd (UInt8.lt_trans h1 h2) (u8_irrefl _)
          · exact absurd (h2.1 ▸ h1) (u8_irrefl _)
          · exact absurd (h1.1 ▸ h2) (u8_irrefl _)
          · exact ⟨h1.1, h1.2, h2.2⟩
        · rintro ⟨h1, h2, h3⟩
          exact ⟨Or.inr ⟨h1, h2⟩, Or.inr ⟨h1.symm, h3⟩⟩
      | none =>
        by_cases hc : c < 0xff
        · have hcs : (c + 1).toNat = c.toNat + 1 := by
            have h255 : c.toNat < 255 := by simpa [UInt8.lt_iff_toNat_lt] using hc
            rw [UInt8.toNat_add]; simp; omega
          simp only [hc, if_true, Option.some.injEq, forall_eq', lexLt_cons]
          constructor
          · rintro ⟨h1, h2 | h2⟩
            · have h2' : d.toNat < c.toNat + 1 := by rw [← hcs]; exact UInt8.lt_iff_toNat_lt.mp h2
              rcases h1 with h1 | h1
              · have := UInt8.lt_iff_toNat_lt.mp h1; omega
              · exact ⟨h1.1, h1.2, by simp⟩
            · exact absurd h2.2 (lexLt_nil_right _)
          · rintro ⟨h1, h2, _⟩
            refine ⟨Or.inr ⟨h1, h2⟩, Or.inl ?_⟩
            subst h1
            rw [UInt8.lt_iff_toNat_lt, hcs]; omega
        · simp only [hc, if_false]
          have h255 : c.toNat = 255 := by
            have := c.toNat_lt
            have : ¬ c.toNat < 255 := fun h => hc (by simpa [UInt8.lt_iff_toNat_lt] using h)
            omega
          constructor
          · rintro ⟨h1 | h1, _⟩
            · have := UInt8.lt_iff_toNat_lt.mp h1
              have := d.toNat_lt
              omega
            · exact ⟨h1.1, h1.2, by simp⟩
          · rintro ⟨h1, h2, _⟩
            exact ⟨Or.inr ⟨h1, h2⟩, by simp⟩

/-- upper bounds of the keys with prefix `p` -/
def AboveAll (p m : Bytes) : Prop := ∀ k, p <+: k → LexLt k m

theorem aboveAll_cons (c y : UInt8) (rest m : Bytes) :
    AboveAll (c :: rest) (y :: m) ↔ c < y ∨ (c = y ∧ AboveAll rest m) := by
  constructor
  · intro h
    have h0 := h (c :: rest) (List.prefix_rfl)
    rw [lexLt_cons] at h0
    rcases h0 with h0 | ⟨h0, _⟩
    · exact Or.inl h0
    · refine Or.inr ⟨h0, fun k hk => ?_⟩
      have := h (c :: k) (by rw [List.cons_prefix_cons]; exact ⟨rfl, hk⟩)
      rw [lexLt_cons] at this
      rcases this with h1 | h1
      · exact absurd (h0 ▸ h1) (u8_irrefl _)
      · exact h1.2
  · rintro h k hk
    obtain ⟨t, rfl⟩ := hk
    rw [List.cons_append, lexLt_cons]
    rcases h with h | ⟨h, h'⟩
    · exact Or.inl h
    · exact Or.inr ⟨h, h' _ (List.prefix_append _ _)⟩

theorem incRec_spec (p : Bytes) :
    (∀ l, incRec p = some l → AboveAll p l ∧ ∀ m, AboveAll p m → LexLe l m) ∧
    (incRec p = none → ∀ m, ¬ AboveAll p m) := by
  induction p with
  | nil =>
    refine ⟨by simp [incRec], fun _ m h => ?_⟩
    have := h m (List.nil_prefix)
    have irr : ∀ m : Bytes, ¬ LexLt m m := by
      intro m
      induction m with
      | nil => exact lexLt_nil_right _
      | cons a m ih =>
        rw [lexLt_cons]
        rintro (h | h)
        · exact u8_irrefl _ h
        · exact ih h.2
    exact irr _ this
  | cons c rest ih =>
    simp only [incRec]
    cases hr : incRec rest with
    | some l =>
      refine ⟨fun l' h => ?_, by simp⟩
      simp only [Option.some.injEq] at h
      subst h
      obtain ⟨ih1, ih2⟩ := ih.1 l hr
      refine ⟨(aboveAll_cons _ _ _ _).mpr (Or.inr ⟨rfl, ih1⟩), fun m hm => ?_⟩
      cases m with
      | nil => exact absurd (hm _ List.prefix_rfl) (lexLt_nil_right _)
      | cons y m =>
        rw [aboveAll_cons] at hm
        rw [lexLe_cons]
        rcases hm with h | ⟨h, h'⟩
        · exact Or.inl h
        · exact Or.inr ⟨h, ih2 m h'⟩
    | none =>
      have ihn := ih.2 hr
      by_cases hc : c < 0xff
      · have hcs : (c + 1).toNat = c.toNat + 1 := by
          have h255 : c.toNat < 255 := by simpa [UInt8.lt_iff_toNat_lt] using hc
          rw [UInt8.toNat_add]; simp; omega
        simp only [hc, if_true]
        refine ⟨fun l' h => ?_, by simp⟩
        simp only [Option.some.injEq] at h
        subst h
        refine ⟨(aboveAll_cons _ _ _ _).mpr (Or.inl (by rw [UInt8.lt_iff_toNat_lt, hcs]; omega)), fun m hm => ?_⟩
        cases m with
        | nil => exact absurd (hm _ List.prefix_rfl) (lexLt_nil_right _)
        | cons y m =>
          rw [aboveAll_cons] at hm
          rw [lexLe_cons]
          rcases hm with h | ⟨_, h'⟩
          · have := UInt8.lt_iff_toNat_lt.mp h
            by_cases e : c + 1 = y
            · refine Or.inr ⟨e, ?_⟩
              cases m with
              | nil => exact Or.inr rfl
              | cons => exact Or.inl ((lexLt_nil_left _).mpr (by simp))
            · left
              rw [UInt8.lt_iff_toNat_lt, hcs]
              have : (c + 1).toNat ≠ y.toNat := fun h => e (UInt8.toNat_inj.mp h)
              omega
          · exact absurd h' (ihn m)
      · simp only [hc, if_false]
        refine ⟨by simp, fun _ m hm => ?_⟩
        have h255 : c.toNat = 255 := by
          have := c.toNat_lt
          have : ¬ c.toNat < 255 := fun h => hc (by simpa [UInt8.lt_iff_toNat_lt] using h)
          omega
        cases m with
        | nil => exact lexLt_nil_right _ (hm _ List.prefix_rfl)
        | cons y m =>
          rw [aboveAll_cons] at hm
          rcases hm with h | ⟨_, h'⟩
          · have := UInt8.lt_iff_toNat_lt.mp h
            have := y.toNat_lt
            omega
          · exact ihn m h'

end Coniks

import Verif.Spec.Crash
import Verif.Props.Proof
/-
C15, exact: the authentication paths that crash the verifier.
-/
namespace Coniks.Props
open Coniks Spec

theorem authPathLoop_none_iff (C : Crypto) (bits : List Bool) (p : List Arr32) (L : Nat) (h : Bytes) :
    authPathLoop C bits p L h = none ↔ bits.length < L ∨ p.length < L := by
  cases L with
  | zero => simp [authPathLoop]
  | succ d =>
    constructor
    · intro e
      by_cases hb : d + 1 ≤ bits.length
      · by_cases hp : d + 1 ≤ p.length
        · exact absurd e (authPathLoop_total C bits p (d + 1) h hb hp)
        · right; omega
      · left; omega
    · intro hl
      rw [authPathLoop]
      rcases hl with hl | hl
      · rw [List.getElem?_eq_none (by omega)]
      · rw [List.getElem?_eq_none (l := p) (by omega)]
        rcases bits[d]? with _ | (_ | _) <;> rfl

theorem authPathHash_none_iff (C : Crypto) (ap : AuthPath) (l : ProofNode) (hl : ap.leaf = some l) :
    ap.authPathHash C = none ↔ (l.isEmpty = false ∧ l.commitment = none) ∨
      8 * l.index.length < l.level.toNat ∨ ap.prunedTree.length < l.level.toNat := by
  unfold AuthPath.authPathHash
  rw [hl]
  simp only
  cases hh : l.hash C ap.treeNonce with
  | none =>
    simp only [true_iff]
    left
    unfold ProofNode.hash at hh
    cases he : l.isEmpty <;> simp only [he, Bool.false_eq_true, if_true, if_false, reduceCtorEq] at hh
    cases hc : l.commitment <;> simp only [hc, reduceCtorEq] at hh
    exact ⟨rfl, rfl⟩
  | some x =>
    simp only [authPathLoop_none_iff, toBits_length]
    constructor
    · exact Or.inr
    · rintro (⟨a, b⟩ | h)
      · simp [ProofNode.hash, a, b] at hh
      · exact h

theorem prefixLoop_none_iff (a b : List Bool) (n : Nat) : ∀ i, prefixLoop a b i n = none ↔
    (a.length < i + n ∨ b.length < i + n) ∧ 0 < n ∧
      ∀ j, i ≤ j → j < i + n → ∀ x y, a[j]? = some x → b[j]? = some y → x = y := by
  induction n with
  | zero => intro i; simp [prefixLoop]
  | succ n ih =>
    intro i
    rw [prefixLoop]
    rcases ha : a[i]? with _ | x
    · have := List.getElem?_eq_none_iff.mp ha
      simp only [true_iff]
      refine ⟨Or.inl (by omega), by omega, ?_⟩
      intro j h1 _ x y hx _
      rw [List.getElem?_eq_none (by omega)] at hx; cases hx
    rcases hb : b[i]? with _ | y
    · have := List.getElem?_eq_none_iff.mp hb
      simp only [true_iff]
      refine ⟨Or.inr (by omega), by omega, ?_⟩
      intro j h1 _ x y _ hy
      rw [List.getElem?_eq_none (by omega)] at hy; cases hy
    have la := (List.getElem?_eq_some_iff.mp ha).1
    have lb := (List.getElem?_eq_some_iff.mp hb).1
    simp only
    by_cases e : x = y
    · rw [if_pos e, ih (i + 1)]
      constructor
      · rintro ⟨h1, h2, h3⟩
        refine ⟨by omega, by omega, ?_⟩
        intro j hj1 hj2 x' y' hx' hy'
        by_cases ej : j = i
        · subst ej
          rw [ha] at hx'; rw [hb] at hy'
          cases hx'; cases hy'; exact e
        · exact h3 j (by omega) (by omega) x' y' hx' hy'
      · rintro ⟨h1, h2, h3⟩
        refine ⟨by omega, ?_, fun j hj1 hj2 => h3 j (by omega) (by omega)⟩
        omega
    · rw [if_neg e]
      constructor
      · intro h; cases h
      · rintro ⟨_, _, h3⟩
        exact absurd (h3 i (by omega) (by omega) x y ha hb) e

/-- `prefixLoop` reports a mismatch exactly when there is one before either index ends. -/
theorem prefixLoop_agree {a b : List Bool} (n : Nat) : ∀ i,
    (prefixLoop a b i n = some true → i + n ≤ a.length ∨ n = 0) ∧
    (prefixLoop a b i n = some true → i + n ≤ b.length ∨ n = 0) ∧
    (prefixLoop a b i n = some true → ∀ j, i ≤ j → j < i + n → ∀ x y, a[j]? = some x → b[j]? = some y → x = y) ∧
    (prefixLoop a b i n = some false → ¬ ∀ j, i ≤ j → j < i + n → ∀ x y, a[j]? = some x → b[j]? = some y → x = y) := by
  induction n with
  | zero => intro i; simp [prefixLoop]; omega
  | succ n ih =>
    intro i
    rw [prefixLoop]
    rcases ha : a[i]? with _ | x
    · simp
    rcases hb : b[i]? with _ | y
    · simp
    have la := (List.getElem?_eq_some_iff.mp ha).1
    have lb := (List.getElem?_eq_some_iff.mp hb).1
    simp only
    obtain ⟨i1, i2, i3, i4⟩ := ih (i + 1)
    by_cases e : x = y
    · rw [if_pos e]
      refine ⟨fun h => ?_, fun h => ?_, fun h => ?_, fun h hall => ?_⟩
      · rcases i1 h with h | h <;> left <;> omega
      · rcases i2 h with h | h <;> left <;> omega
      · intro j hj1 hj2 x' y' hx' hy'
        by_cases ej : j = i
        · subst ej
          rw [ha] at hx'; rw [hb] at hy'
          cases hx'; cases hy'; exact e
        · exact i3 h j (by omega) (by omega) x' y' hx' hy'
      · exact i4 h fun j a b => hall j (by omega) (by omega)
    · rw [if_neg e]
      refine ⟨fun h => (by cases h), fun h => (by cases h), fun h => (by cases h), fun _ hall => ?_⟩
      exact e (hall i (by omega) (by omega) x y ha hb)

/-- C15, exact: `Verify` crashes on exactly the paths described by `Spec.CrashesVerifier`, for every tree hash; on all others
it returns. -/
theorem C15_verify_panics_iff (C : Crypto) (ap : AuthPath) (key value th : Bytes) :
    Panics (ap.verify C key value th) ↔ CrashesVerifier C.hash ap key value := by
  unfold CrashesVerifier Panics AuthPath.verify
  cases hl : ap.leaf with
  | none => simp
  | some l =>
    simp only [reduceCtorEq, false_or, Option.some.injEq, exists_eq_left']
    have hc : ∀ v : Go (Except VerifyErr Unit), v = (match ap.authPathHash C with
        | none => none
        | some h => if th = h then some (.ok ()) else some (.error .unequalTreeHashes)) →
        (v = none ↔ (l.isEmpty = false ∧ l.commitment = none) ∨
          8 * l.index.length < l.level.toNat ∨ ap.prunedTree.length < l.level.toNat) := by
      intro v hv
      rw [← authPathHash_none_iff C ap l hl, hv]
      cases ap.authPathHash C with
      | none => simp
      | some h => simp only [reduceCtorEq, iff_false]; split <;> simp
    by_cases hi : ap.lookupIndex = l.index
    · rw [if_pos hi]
      simp only [hi, true_and, ne_eq, not_true_eq_false, false_and, or_false]
      by_cases hv : l.value.getD [] = value
      · rw [if_pos hv]
        cases hcm : l.commitment with
        | none => simp [hv]
        | some c =>
          have e : C.commitVerify c [key, value] = true ↔ c.value = C.hash (c.salt ++ key ++ value) := by
            simp only [Crypto.commitVerify, Crypto.digest, beq_iff_eq, List.flatten_cons, List.flatten_nil, List.append_nil,
              List.append_assoc]
          simp only [hv, true_and, reduceCtorEq, Option.some.injEq, exists_eq_left', false_or]
          by_cases hcv : C.commitVerify c [key, value] = true
          · rw [if_pos hcv]
            refine Iff.trans (hc _ rfl) ?_
            constructor
            · rintro (⟨_, h⟩ | h)
              · rw [hcm] at h; cases h
              · exact ⟨e.mp hcv, h⟩
            · exact fun h => Or.inr h.2
          · rw [if_neg hcv]
            constructor
            · intro h; cases h
            · exact fun h => absurd (e.mpr h.1) hcv
      · rw [if_neg hv]
        simp [hv]
    · rw [if_neg hi]
      have hi' : l.index ≠ ap.lookupIndex := Ne.symm hi
      simp only [hi', ne_eq, not_false_eq_true, true_and, false_and, false_or]
      have agr : AgreeUpTo l.level.toNat l.index ap.lookupIndex ↔
          ∀ j, 0 ≤ j → j < 0 + l.level.toNat → ∀ x y, (toBits l.index)[j]? = some x →
            (toBits ap.lookupIndex)[j]? = some y → x = y := by
        unfold AgreeUpTo
        rw [toBits_eq_bitsOf, toBits_eq_bitsOf]
        simp
      obtain ⟨p1, p2, p3, p4⟩ := prefixLoop_agree (a := toBits l.index) (b := toBits ap.lookupIndex) l.level.toNat 0
      rw [agr]
      cases hp : prefixLoop (toBits l.index) (toBits ap.lookupIndex) 0 l.level.toNat with
      | none =>
        obtain ⟨h1, h2, h3⟩ := (prefixLoop_none_iff _ _ _ 0).mp hp
        simp only [toBits_length] at h1
        simp only [true_iff]
        exact ⟨h3, by omega⟩
      | some b =>
        cases b with
        | false =>
          simp only [reduceCtorEq, false_iff]
          exact fun h => p4 hp h.1
        | true =>
          have q1 := p1 hp
          have q2 := p2 hp
          have q3 := p3 hp
          simp only [toBits_length] at q1 q2
          simp only
          cases hv : l.value with
          | some v =>
            simp only [Option.isSome_some, if_true, reduceCtorEq, false_and, or_false, false_iff]
            omega
          | none =>
            simp only [Option.isSome_none, Bool.false_eq_true, if_false, true_and]
            refine Iff.trans (hc _ rfl) ?_
            constructor
            · intro h
              exact ⟨q3, Or.inr (Or.inr (by rcases h with h | h | h; exact Or.inl h; omega; exact Or.inr h))⟩
            · rintro ⟨_, h | h | h | h⟩
              · omega
              · omega
              · exact Or.inl h
              · exact Or.inr (Or.inr h)

/-- both sides occur: a path without its commitment, and an honest-looking path -/
example (C : Crypto) : CrashesVerifier C.hash ⟨[], [], [1], [], some ⟨0, [1], some [2], false, none⟩⟩ [7] [2] :=
  Or.inr ⟨_, rfl, Or.inl ⟨rfl, rfl, Or.inl rfl⟩⟩

example (C : Crypto) : ¬ CrashesVerifier C.hash
    ⟨[], [], [1], [], some ⟨0, [1], some [2], false, some ⟨[3], C.hash [3, 7, 2]⟩⟩⟩ [7] [2] := by
  rintro (h | ⟨l, hl, h⟩)
  · cases h
  · simp only [Option.some.injEq] at hl
    subst hl
    rcases h with ⟨_, _, h | ⟨c, _, _, h | h⟩⟩ | ⟨h, _⟩
    · cases h
    · exact absurd h (Nat.not_lt_zero _)
    · exact absurd h (Nat.not_lt_zero _)
    · exact h rfl

end Coniks.Props

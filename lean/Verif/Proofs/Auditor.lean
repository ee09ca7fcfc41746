import Verif.Model.Auditor
import Verif.Spec.Chain
/-
Lemmas about the auditor state.
-/
namespace Coniks
open Spec

theorem verifyHashChain_iff (C : Crypto) (s p : DirSTR) : s.verifyHashChain C p = true ↔ Linked C p s := by
  unfold DirSTR.verifyHashChain STRCore.verifyHashChain
  simp only [Bool.and_eq_true, beq_iff_eq, Crypto.digest, List.flatten_cons, List.flatten_nil, List.append_nil]
  constructor
  · rintro ⟨⟨h1, h2⟩, h3⟩; exact ⟨h2, h1, h3.symm⟩
  · rintro ⟨h1, h2, h3⟩; exact ⟨⟨h2, h1⟩, h3.symm⟩

/-- all the results of `verifySTRConsistency` -/
theorem consistency_cases (C : Crypto) (a : AudState) (p : Option DirSTR) (s : DirSTR) :
    (s.policies = none ∧ a.verifySTRConsistency C p s = none) ∨
    (s.policies ≠ none ∧ ¬ Signed C a.signKey s ∧ a.verifySTRConsistency C p s = some (some CheckBadSignature)) ∨
    (Signed C a.signKey s ∧ p = none ∧ a.verifySTRConsistency C p s = none) ∨
    (∃ q, p = some q ∧ Signed C a.signKey s ∧ ¬ Linked C q s ∧ a.verifySTRConsistency C p s = some (some CheckBadSTR)) ∨
    (∃ q, p = some q ∧ Successor C a.signKey q s ∧ a.verifySTRConsistency C p s = some none) := by
  unfold AudState.verifySTRConsistency
  cases hp : s.policies with
  | none => left; simp [DirSTR.serialize, hp]
  | some pol =>
    have hs : s.serialize = some (s.core.serializeInternal ++ pol.serialize) := by simp [DirSTR.serialize, hp]
    rw [hs]
    right
    by_cases hv : C.verify a.signKey (s.core.serializeInternal ++ pol.serialize) s.core.signature = true
    · have hsig : Signed C a.signKey s := ⟨_, hs, hv⟩
      right
      simp only [AudState.verify, hv, if_true]
      cases p with
      | none => left; exact ⟨hsig, rfl, rfl⟩
      | some q =>
        right
        by_cases hl : s.verifyHashChain C q = true
        · right; exact ⟨q, rfl, ⟨hsig, (verifyHashChain_iff C s q).mp hl⟩, by simp [hl]⟩
        · left; exact ⟨q, rfl, hsig, fun h => hl ((verifyHashChain_iff C s q).mpr h), by simp [hl]⟩
    · left
      refine ⟨by simp, ?_, by simp [AudState.verify, hv]⟩
      rintro ⟨m, h1, h2⟩
      rw [hs] at h1
      cases h1; exact hv h2

theorem consistency_ok (C : Crypto) (a : AudState) (p : Option DirSTR) (s : DirSTR) :
    a.verifySTRConsistency C p s = some none ↔ ∃ q, p = some q ∧ Successor C a.signKey q s := by
  rcases consistency_cases C a p s with ⟨h1, h2⟩ | ⟨h1, h2, h3⟩ | ⟨h1, h2, h3⟩ | ⟨q, h1, h2, h3, h4⟩ | ⟨q, h1, h2, h3⟩
  · rw [h2]
    refine ⟨fun h => (nomatch h), ?_⟩
    rintro ⟨q, _, ⟨m, h, _⟩, _⟩
    simp [DirSTR.serialize, h1] at h
  · rw [h3]
    refine ⟨fun h => (nomatch h), ?_⟩
    rintro ⟨q, _, h, _⟩; exact absurd h h2
  · rw [h3]
    refine ⟨fun h => (nomatch h), ?_⟩
    rintro ⟨q, h, _⟩; rw [h2] at h; nomatch h
  · rw [h4]
    refine ⟨fun h => (nomatch h), ?_⟩
    rintro ⟨q', h, _, h'⟩
    rw [h1] at h; cases h; exact absurd h' h3
  · rw [h3]
    exact ⟨fun _ => ⟨q, h1, h2⟩, fun _ => rfl⟩

theorem uint64_succ_ne (e : UInt64) : e + 1 ≠ e := by
  intro h
  have := congrArg UInt64.toNat h
  rw [UInt64.toNat_add] at this
  have h1 : (1 : UInt64).toNat = 1 := rfl
  have h2 := e.toNat_lt
  omega

theorem check_ok (C : Crypto) (a : AudState) (s : Option DirSTR) :
    a.checkSTRAgainstVerified C s = some none ↔ ∃ t, s = some t ∧ (t = a.verified ∨ Successor C a.signKey a.verified t) := by
  cases s with
  | none => simp [AudState.checkSTRAgainstVerified]
  | some t =>
    simp only [AudState.checkSTRAgainstVerified, Option.some.injEq, exists_eq_left']
    by_cases h1 : t.core.epoch = a.verified.core.epoch
    · rw [if_pos h1]
      simp only [AudState.compareWithVerified, Option.some.injEq]
      by_cases h2 : a.verified = t
      · simp [h2]
      · rw [if_neg h2]
        refine ⟨fun h => (nomatch h), ?_⟩
        rintro (h | h)
        · exact absurd h.symm h2
        · have := h.2.epoch
          rw [h1] at this
          exact absurd this.symm (uint64_succ_ne _)
    · rw [if_neg h1]
      by_cases h2 : t.core.epoch = a.verified.core.epoch + 1
      · rw [if_pos h2, consistency_ok]
        constructor
        · rintro ⟨q, h, h'⟩; cases h; exact .inr h'
        · rintro (h | h)
          · rw [h] at h1; exact absurd rfl h1
          · exact ⟨_, rfl, h⟩
      · rw [if_neg h2]
        refine ⟨fun h => (nomatch h), ?_⟩
        rintro (h | h)
        · rw [h] at h1; exact absurd rfl h1
        · exact absurd h.2.epoch h2

theorem chain_nil (C : Crypto) (pk : Bytes) : Chain C pk [] := by intro j a b h; simp at h
theorem chain_single (C : Crypto) (pk : Bytes) (s : DirSTR) : Chain C pk [s] := by intro j a b _ h; simp at h

theorem chain_cons (C : Crypto) (pk : Bytes) (s t : DirSTR) (l : List DirSTR) :
    Chain C pk (s :: t :: l) ↔ Successor C pk s t ∧ Chain C pk (t :: l) := by
  constructor
  · intro h
    refine ⟨h 0 s t rfl rfl, fun j a b ha hb => h (j + 1) a b (by simpa using ha) (by simpa using hb)⟩
  · rintro ⟨h1, h2⟩ j a b ha hb
    cases j with
    | zero => simp at ha hb; subst ha; subst hb; exact h1
    | succ j => exact h2 j a b (by simpa using ha) (by simpa using hb)

theorem range_ok (C : Crypto) (a : AudState) (l : List (Option DirSTR)) :
    ∀ (s : DirSTR), a.verifySTRRange C (some s) l = some none ↔ ∃ r, l = r.map some ∧ Chain C a.signKey (s :: r) := by
  induction l with
  | nil =>
    intro s
    simp only [AudState.verifySTRRange, true_iff]
    exact ⟨[], rfl, chain_single _ _ _⟩
  | cons x l ih =>
    intro s
    cases x with
    | none =>
      simp only [AudState.verifySTRRange]
      refine ⟨fun h => (nomatch h), ?_⟩
      rintro ⟨r, h, _⟩
      cases r <;> simp at h
    | some t =>
      simp only [AudState.verifySTRRange]
      have key := consistency_ok C a (some s) t
      cases hc : a.verifySTRConsistency C (some s) t with
      | none =>
        rw [hc] at key
        refine ⟨fun h => (nomatch h), ?_⟩
        rintro ⟨r, h, h'⟩
        cases r with
        | nil => simp at h
        | cons y r =>
          simp only [List.map_cons, List.cons.injEq, Option.some.injEq] at h
          obtain ⟨rfl, rfl⟩ := h
          exact absurd (key.mpr ⟨s, rfl, ((chain_cons ..).mp h').1⟩) (by simp)
      | some o =>
        cases o with
        | some e =>
          rw [hc] at key
          refine ⟨fun h => (by simp at h), ?_⟩
          rintro ⟨r, h, h'⟩
          cases r with
          | nil => simp at h
          | cons y r =>
            simp only [List.map_cons, List.cons.injEq, Option.some.injEq] at h
            obtain ⟨rfl, rfl⟩ := h
            exact absurd (key.mpr ⟨s, rfl, ((chain_cons ..).mp h').1⟩) (by simp)
        | none =>
          rw [hc] at key
          obtain ⟨q, h1, h2⟩ := key.mp rfl
          cases h1
          show a.verifySTRRange C (some t) l = some none ↔ _
          rw [ih t]
          constructor
          · rintro ⟨r, rfl, h⟩
            exact ⟨t :: r, rfl, (chain_cons ..).mpr ⟨h2, h⟩⟩
          · rintro ⟨r, h, h'⟩
            cases r with
            | nil => simp at h
            | cons y r =>
              simp only [List.map_cons, List.cons.injEq, Option.some.injEq] at h
              obtain ⟨rfl, rfl⟩ := h
              exact ⟨r, rfl, ((chain_cons ..).mp h').2⟩

theorem audit_ok (C : Crypto) (a : AudState) (strs : List (Option DirSTR)) :
    a.auditDirectory C strs = some none ↔ ∃ l, strs = l.map some ∧ Continues C a.signKey a.verified l := by
  cases strs with
  | nil =>
    simp only [AudState.auditDirectory]
    refine ⟨fun h => (nomatch h), ?_⟩
    rintro ⟨l, h, ⟨s, h', _⟩, _⟩
    cases l <;> simp_all
  | cons x rest =>
    simp only [AudState.auditDirectory]
    have key := check_ok C a x
    have back : (∃ l, x :: rest = l.map some ∧ Continues C a.signKey a.verified l) →
        ∃ s r, x = some s ∧ rest = r.map some ∧ (s = a.verified ∨ Successor C a.signKey a.verified s) ∧ Chain C a.signKey (s :: r) := by
      rintro ⟨l, h, ⟨s, h1, h2⟩, h3⟩
      cases l with
      | nil => simp at h
      | cons y r =>
        simp only [List.map_cons, List.cons.injEq] at h
        simp only [List.getElem?_cons_zero, Option.some.injEq] at h1
        subst h1
        exact ⟨y, r, h.1, h.2, h2, h3⟩
    cases hc : a.checkSTRAgainstVerified C x with
    | none =>
      rw [hc] at key
      refine ⟨fun h => (nomatch h), fun h => ?_⟩
      obtain ⟨s, r, h1, _, h3, _⟩ := back h
      exact absurd (key.mpr ⟨s, h1, h3⟩) (by simp)
    | some o =>
      cases o with
      | some e =>
        rw [hc] at key
        refine ⟨fun h => (by simp at h), fun h => ?_⟩
        obtain ⟨s, r, h1, _, h3, _⟩ := back h
        exact absurd (key.mpr ⟨s, h1, h3⟩) (by simp)
      | none =>
        rw [hc] at key
        obtain ⟨s, rfl, hs⟩ := key.mp rfl
        have e : (if rest.length > 0 then a.verifySTRRange C (some s) rest else some none) = a.verifySTRRange C (some s) rest := by
          cases rest <;> simp [AudState.verifySTRRange]
        simp only [e]
        rw [range_ok]
        constructor
        · rintro ⟨r, rfl, h⟩
          exact ⟨s :: r, rfl, ⟨s, rfl, hs⟩, h⟩
        · intro h
          obtain ⟨s', r, h1, h2, _, h4⟩ := back h
          cases h1
          exact ⟨r, h2, h4⟩

/-- non-nil STRs with policies do not crash the range check, and its errors are the three consistency errors -/
theorem range_total (C : Crypto) (a : AudState) (l : List (Option DirSTR)) :
    ∀ s : DirSTR, (∀ t, some t ∈ l → t.policies ≠ none) → ∃ r, a.verifySTRRange C (some s) l = some r ∧
      (r = none ∨ r = some ErrMalformedMessage ∨ r = some CheckBadSTR ∨ r = some CheckBadSignature) := by
  induction l with
  | nil => intro s _; exact ⟨none, rfl, .inl rfl⟩
  | cons x l ih =>
    intro s h
    cases x with
    | none => exact ⟨_, rfl, .inr (.inl rfl)⟩
    | some t =>
      simp only [AudState.verifySTRRange]
      have hp := h t (List.mem_cons_self ..)
      rcases consistency_cases C a (some s) t with ⟨h1, _⟩ | ⟨_, _, h3⟩ | ⟨_, h2, _⟩ | ⟨q, _, _, _, h4⟩ | ⟨q, _, _, h3⟩
      · exact absurd h1 hp
      · rw [h3]; exact ⟨_, rfl, .inr (.inr (.inr rfl))⟩
      · nomatch h2
      · rw [h4]; exact ⟨_, rfl, .inr (.inr (.inl rfl))⟩
      · rw [h3]; exact ih t (fun u hu => h u (List.mem_cons_of_mem _ hu))

theorem check_total (C : Crypto) (a : AudState) (s : DirSTR) (h : s.policies ≠ none) :
    ∃ r, a.checkSTRAgainstVerified C (some s) = some r ∧ (r = none ∨ r = some CheckBadSTR ∨ r = some CheckBadSignature) := by
  simp only [AudState.checkSTRAgainstVerified]
  split
  · unfold AudState.compareWithVerified
    split
    · exact ⟨_, rfl, .inl rfl⟩
    · exact ⟨_, rfl, .inr (.inl rfl)⟩
  · split
    · rcases consistency_cases C a (some a.verified) s with ⟨h1, _⟩ | ⟨_, _, h3⟩ | ⟨_, h2, _⟩ | ⟨q, _, _, _, h4⟩ | ⟨q, _, _, h3⟩
      · exact absurd h1 h
      · rw [h3]; exact ⟨_, rfl, .inr (.inr rfl)⟩
      · nomatch h2
      · rw [h4]; exact ⟨_, rfl, .inr (.inl rfl)⟩
      · rw [h3]; exact ⟨_, rfl, .inl rfl⟩
    · exact ⟨_, rfl, .inr (.inl rfl)⟩

end Coniks

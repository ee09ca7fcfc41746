import Verif.Proofs.Json.Parse
/-
A text that was read does not change its meaning when something is appended, and the bounds of the parser are never reached.
-/
namespace Coniks.Json

/-! ### Appending to a string literal -/

theorem hex4_append {s t : Bytes} {n : Nat} (h : hex4 s = some (n, t)) (r : Bytes) : hex4 (s ++ r) = some (n, t ++ r) := by
  match s with
  | [] => simp [hex4] at h
  | [_] => simp [hex4] at h
  | [_, _] => simp [hex4] at h
  | [_, _, _] => simp [hex4] at h
  | a :: b :: c :: d :: s =>
    simp only [hex4, List.cons_append] at h ⊢
    split at h
    · simp only [Option.some.injEq, Prod.mk.injEq] at h
      rw [h.1, h.2]
    · exact nomatch h

theorem hex4_length {s t : Bytes} {n : Nat} (h : hex4 s = some (n, t)) : s.length = t.length + 4 := by
  match s with
  | [] => simp [hex4] at h
  | [_] => simp [hex4] at h
  | [_, _] => simp [hex4] at h
  | [_, _, _] => simp [hex4] at h
  | a :: b :: c :: d :: s =>
    simp only [hex4] at h
    split at h
    · simp only [Option.some.injEq, Prod.mk.injEq] at h
      rw [← h.2]; rfl
    · exact nomatch h

theorem uEscape_length (n : Nat) (t : Bytes) : (uEscape n t).2.length ≤ t.length := by
  unfold uEscape
  split
  · split
    · split
      · rename_i h
        have := hex4_length h
        split
        · simp; omega
        · exact Nat.le_refl _
      · exact Nat.le_refl _
    · exact Nat.le_refl _
  · exact Nat.le_refl _

theorem strStep_length {s b t : Bytes} (h : strStep s = some (.inr (b, t))) : t.length < s.length := by
  match s with
  | [] => simp [strStep] at h
  | c :: s =>
    unfold strStep at h
    dsimp only at h
    split at h
    · simp at h
    split at h
    · match s with
      | [] => simp at h
      | e :: s =>
        dsimp only at h
        split at h
        · obtain ⟨⟨n, t'⟩, h1, h2⟩ := Option.map_eq_some_iff.mp h
          simp only [Sum.inr.injEq] at h2
          have := uEscape_length n t'
          have h3 := hex4_length h1
          rw [h2] at this
          simp at this ⊢
          omega
        all_goals repeat' split at h
        all_goals simp at h
        all_goals (rw [← h.2]; simp only [List.length_cons]; omega)
    · split at h
      · simp at h
      · split at h
        · simp at h; rw [← h.2]; simp
        · simp at h; rw [← h.2]; simp; omega

theorem strStep_end_length {s t : Bytes} (h : strStep s = some (.inl t)) : s = 0x22 :: t := by
  match s with
  | [] => simp [strStep] at h
  | c :: s =>
    unfold strStep at h
    dsimp only at h
    split at h
    · rename_i hc; simp at h; rw [h, hc]
    split at h
    · match s with
      | [] => simp at h
      | e :: s =>
        dsimp only at h
        split at h
        · obtain ⟨⟨n, t'⟩, h1, h2⟩ := Option.map_eq_some_iff.mp h
          exact nomatch h2
        all_goals repeat' split at h
        all_goals simp at h
    · split at h
      · simp at h
      · split at h <;> simp at h

theorem pStr_length : ∀ (f : Nat) (s x t : Bytes), pStr f s = some (x, t) → t.length < s.length
  | 0, _, _, _, h => by simp [pStr] at h
  | f + 1, s, x, t, h => by
    unfold pStr at h
    split at h
    · exact nomatch h
    · rename_i h1
      simp at h
      rw [strStep_end_length h1, h.2]; simp
    · rename_i b t' h1
      obtain ⟨⟨x', t''⟩, h2, h3⟩ := Option.map_eq_some_iff.mp h
      have := pStr_length f t' x' t'' h2
      have h4 := strStep_length h1
      simp at h3
      rw [← h3.2]
      omega

/-- what follows one character ends the input -/
theorem strStep_suffix {s b t : Bytes} (h : strStep s = some (.inr (b, t))) : t <:+ s := by
  match s with
  | [] => simp [strStep] at h
  | c :: s =>
    unfold strStep at h
    dsimp only at h
    split at h
    · simp at h
    split at h
    · match s with
      | [] => simp at h
      | e :: s =>
        dsimp only at h
        have hx : ∀ {n t'}, hex4 s = some (n, t') → t' <:+ s := by
          intro n t' h
          match s with
          | [] => simp [hex4] at h
          | [_] => simp [hex4] at h
          | [_, _] => simp [hex4] at h
          | [_, _, _] => simp [hex4] at h
          | a :: b :: c :: d :: s =>
            simp only [hex4] at h
            split at h
            · simp only [Option.some.injEq, Prod.mk.injEq] at h
              rw [← h.2]; exact ⟨[a, b, c, d], rfl⟩
            · exact nomatch h
        split at h
        · obtain ⟨⟨n, t'⟩, h1, h2⟩ := Option.map_eq_some_iff.mp h
          simp only [Sum.inr.injEq] at h2
          have h3 : t <:+ t' := by
            have : t = (uEscape n t').2 := by rw [h2]
            rw [this]
            unfold uEscape
            split
            · split
              · split
                · rename_i t'' _ m t3 h4
                  split
                  · refine List.IsSuffix.trans (l₂ := t'') ?_ ⟨[0x5C, 0x75], rfl⟩
                    match t'' with
                    | [] => simp [hex4] at h4
                    | [_] => simp [hex4] at h4
                    | [_, _] => simp [hex4] at h4
                    | [_, _, _] => simp [hex4] at h4
                    | a :: b :: c :: d :: s =>
                      simp only [hex4] at h4
                      split at h4
                      · simp only [Option.some.injEq, Prod.mk.injEq] at h4
                        rw [← h4.2]; exact ⟨[a, b, c, d], rfl⟩
                      · exact nomatch h4
                  · exact List.suffix_refl _
                · exact List.suffix_refl _
              · exact List.suffix_refl _
            · exact List.suffix_refl _
          exact (h3.trans (hx h1)).trans ⟨[c, e], rfl⟩
        all_goals repeat' split at h
        all_goals simp at h
        all_goals rw [← h.2]; exact ⟨[c, e], rfl⟩
    · split at h
      · simp at h
      · split at h
        · simp at h; rw [← h.2]; exact ⟨[c], rfl⟩
        · simp at h; rw [← h.2]; exact (List.drop_suffix _ _).trans ⟨[c], rfl⟩

/-- a literal that was read has a closing quote -/
theorem pStr_mem : ∀ (f : Nat) (s x t : Bytes), pStr f s = some (x, t) → 0x22 ∈ s
  | 0, _, _, _, h => by simp [pStr] at h
  | f + 1, s, x, t, h => by
    unfold pStr at h
    split at h
    · exact nomatch h
    · rename_i h1
      rw [strStep_end_length h1]; simp
    · rename_i b t' h1
      obtain ⟨⟨x', t''⟩, h2, -⟩ := Option.map_eq_some_iff.mp h
      exact (strStep_suffix h1).subset (pStr_mem f t' x' t'' h2)

theorem utf8Head_zero_append (c : UInt8) (t r : Bytes) (h : utf8Head (c :: t) = 0) (hm : (0x22 : UInt8) ∈ t) :
    utf8Head (c :: (t ++ r)) = 0 := by
  have hq : isCont 0x22 = false := by decide
  unfold utf8Head at h ⊢
  dsimp only at h ⊢
  by_cases h1 : c < 0x80
  · simp [h1] at h
  by_cases h2 : c < 0xC2
  · simp [h1, h2]
  by_cases h3 : c < 0xE0
  · match t with
    | [] => simp at hm
    | b :: t => simp only [h1, h2, h3, if_true, if_false, List.cons_append] at h ⊢; exact h
  by_cases h4 : c < 0xF0
  · match t with
    | [] => simp at hm
    | [b] =>
      simp only [List.mem_singleton] at hm
      subst hm
      simp only [h1, h2, h3, h4, if_true, if_false, List.cons_append, List.nil_append]
      cases r <;> simp [hq]
    | b :: d :: t => simp only [h1, h2, h3, h4, if_true, if_false, List.cons_append] at h ⊢; exact h
  by_cases h5 : c < 0xF5
  · match t with
    | [] => simp at hm
    | [b] =>
      simp only [List.mem_singleton] at hm
      subst hm
      simp only [h1, h2, h3, h4, h5, if_true, if_false, List.cons_append, List.nil_append]
      match r with
      | [] => simp
      | [_] => simp
      | _ :: _ :: _ => simp [hq]
    | [b, d] =>
      simp only [List.mem_cons, List.not_mem_nil, or_false] at hm
      simp only [h1, h2, h3, h4, h5, if_true, if_false, List.cons_append, List.nil_append]
      match r with
      | [] => simp
      | _ :: _ =>
        rcases hm with rfl | rfl <;> simp [hq]
    | b :: d :: e :: t => simp only [h1, h2, h3, h4, h5, if_true, if_false, List.cons_append] at h ⊢; exact h
  · simp [h1, h2, h3, h4, h5]

theorem uEscape_append (n : Nat) (t r : Bytes) (f : Nat) (y : Bytes × Bytes) (h : pStr f (uEscape n t).2 = some y) :
    uEscape n (t ++ r) = ((uEscape n t).1, (uEscape n t).2 ++ r) := by
  unfold uEscape at h ⊢
  by_cases h1 : 0xD800 ≤ n ∧ n < 0xE000
  · simp only [if_pos h1] at h ⊢
    have bad : ∀ {s}, strStep s = none → pStr f s = some y → False := by
      intro s hs hp
      match f with
      | 0 => simp [pStr] at hp
      | f + 1 => simp [pStr, hs] at hp
    match t with
    | [] => exact (bad rfl h).elim
    | [a] =>
      by_cases ha : a = 0x5C
      · subst ha; exact (bad (by simp [strStep]) h).elim
      · simp only [List.cons_append, List.nil_append] at h ⊢
        split
        · rename_i h2; simp at h2; exact absurd h2.1 ha
        · rfl
    | a :: b :: t' =>
      by_cases hab : a = 0x5C ∧ b = 0x75
      · obtain ⟨rfl, rfl⟩ := hab
        simp only [List.cons_append] at h ⊢
        match h4 : hex4 t' with
        | none =>
          rw [h4] at h
          exact (bad (by simp [strStep, h4]) h).elim
        | some (m, t'') =>
          by_cases hc : n < 0xDC00 ∧ 0xDC00 ≤ m ∧ m < 0xE000
          · simp only [hex4_append h4 r, if_pos hc]
          · simp only [hex4_append h4 r, if_neg hc, List.cons_append]
      · simp only [List.cons_append]
        split
        · rename_i h2; simp at h2; exact absurd ⟨h2.1, h2.2.1⟩ hab
        · split
          · rename_i h2; simp at h2; exact absurd ⟨h2.1, h2.2.1⟩ hab
          · rfl
  · simp only [if_neg h1]

theorem strStep_append {s b t : Bytes} (h : strStep s = some (.inr (b, t))) (f : Nat) (y : Bytes × Bytes)
    (hy : pStr f t = some y) (r : Bytes) : strStep (s ++ r) = some (.inr (b, t ++ r)) := by
  match s with
  | [] => simp [strStep] at h
  | c :: s =>
    simp only [List.cons_append]
    unfold strStep at h ⊢
    dsimp only at h ⊢
    by_cases h1 : c = 0x22
    · simp [h1] at h
    by_cases h2 : c = 0x5C
    · simp only [if_neg h1, if_pos h2] at h ⊢
      match s with
      | [] => simp at h
      | e :: s =>
        simp only [List.cons_append] at h ⊢
        by_cases h3 : e = 0x75
        · simp only [if_pos h3] at h ⊢
          obtain ⟨⟨n, t'⟩, h4, h5⟩ := Option.map_eq_some_iff.mp h
          simp only [Sum.inr.injEq] at h5
          rw [hex4_append h4 r]
          have := uEscape_append n t' r f y (by rw [h5]; exact hy)
          simp only [Option.map_some, this, h5]
        · simp only [if_neg h3] at h ⊢
          by_cases e1 : e = 0x22 ∨ e = 0x5C ∨ e = 0x2F
          · simp only [if_pos e1, Option.some.injEq, Sum.inr.injEq, Prod.mk.injEq] at h ⊢; exact ⟨h.1, by rw [h.2]⟩
          simp only [if_neg e1] at h ⊢
          by_cases e2 : e = 0x62
          · simp only [if_pos e2, Option.some.injEq, Sum.inr.injEq, Prod.mk.injEq] at h ⊢; exact ⟨h.1, by rw [h.2]⟩
          simp only [if_neg e2] at h ⊢
          by_cases e3 : e = 0x66
          · simp only [if_pos e3, Option.some.injEq, Sum.inr.injEq, Prod.mk.injEq] at h ⊢; exact ⟨h.1, by rw [h.2]⟩
          simp only [if_neg e3] at h ⊢
          by_cases e4 : e = 0x6E
          · simp only [if_pos e4, Option.some.injEq, Sum.inr.injEq, Prod.mk.injEq] at h ⊢; exact ⟨h.1, by rw [h.2]⟩
          simp only [if_neg e4] at h ⊢
          by_cases e5 : e = 0x72
          · simp only [if_pos e5, Option.some.injEq, Sum.inr.injEq, Prod.mk.injEq] at h ⊢; exact ⟨h.1, by rw [h.2]⟩
          simp only [if_neg e5] at h ⊢
          by_cases e6 : e = 0x74
          · simp only [if_pos e6, Option.some.injEq, Sum.inr.injEq, Prod.mk.injEq] at h ⊢; exact ⟨h.1, by rw [h.2]⟩
          simp only [if_neg e6] at h
          exact nomatch h
    · simp only [if_neg h1, if_neg h2] at h ⊢
      by_cases h3 : c < 0x20
      · simp [h3] at h
      simp only [if_neg h3] at h ⊢
      match hk : utf8Head (c :: s) with
      | 0 =>
        rw [hk] at h
        simp only [Option.some.injEq, Sum.inr.injEq, Prod.mk.injEq] at h
        have := utf8Head_zero_append c s r hk (by rw [h.2]; exact pStr_mem f t y.1 y.2 hy)
        rw [this]
        simp [h.1, h.2]
      | k + 1 =>
        rw [hk] at h
        simp only [Option.some.injEq, Sum.inr.injEq, Prod.mk.injEq] at h
        have hle := utf8Head_le (c :: s)
        rw [hk, List.length_cons] at hle
        have := utf8Head_take (c :: s) (s.drop k ++ r) (by omega)
        rw [hk] at this
        simp only [List.take_succ_cons, List.cons_append] at this
        rw [← List.append_assoc, List.take_append_drop] at this
        rw [this]
        simp only [Option.some.injEq, Sum.inr.injEq, Prod.mk.injEq]
        rw [List.take_append_of_le_length (by omega), List.drop_append_of_le_length (by omega), h.1, h.2]
        exact ⟨rfl, rfl⟩

theorem pStr_append : ∀ (f : Nat) (s x t : Bytes), pStr f s = some (x, t) → ∀ (f' : Nat) (r : Bytes), f ≤ f' →
    pStr f' (s ++ r) = some (x, t ++ r)
  | 0, _, _, _, h => by simp [pStr] at h
  | f + 1, s, x, t, h => by
    intro f' r hf
    match f' with
    | 0 => omega
    | f' + 1 =>
      unfold pStr at h ⊢
      match h1 : strStep s with
      | none => rw [h1] at h; exact nomatch h
      | some (.inl t') =>
        rw [h1] at h
        simp only [Option.some.injEq, Prod.mk.injEq] at h
        rw [strStep_end_length h1]
        simp [strStep, h.1, h.2]
      | some (.inr (b, t')) =>
        rw [h1] at h
        obtain ⟨⟨x', t''⟩, h2, h3⟩ := Option.map_eq_some_iff.mp h
        rw [strStep_append h1 f (x', t'') h2 r]
        simp only [Prod.mk.injEq] at h3
        simp only [pStr_append f t' x' t'' h2 f' r (by omega), Option.map_some, h3.1, h3.2]

/-- the bound on the number of characters is never reached -/
theorem pStr_fuel : ∀ (n : Nat) (s : Bytes), s.length ≤ n → ∀ (f f' : Nat), s.length < f → s.length < f' → pStr f s = pStr f' s
  | n, s, hn, f, f', hf, hf' => by
    match f, f' with
    | 0, _ => omega
    | _, 0 => omega
    | f + 1, f' + 1 =>
      unfold pStr
      match h1 : strStep s with
      | none => rfl
      | some (.inl t') => rfl
      | some (.inr (b, t')) =>
        have := strStep_length h1
        match n with
        | 0 => omega
        | n + 1 => simp only [pStr_fuel n t' (by omega) f f' (by omega) (by omega)]

/-! ### Appending to a number literal -/

theorem digits_append' {s ds t : Bytes} (h : digits s = (ds, t)) (ht : t ≠ []) (r : Bytes) : digits (s ++ r) = (ds, t ++ r) := by
  induction s generalizing ds with
  | nil => simp [digits] at h; exact absurd h.2 (by first | exact ht | exact ht.symm)
  | cons c s ih =>
    by_cases hc : isDigit c = true
    · simp only [digits, List.takeWhile_cons, List.dropWhile_cons, hc, if_true, List.cons_append, Prod.mk.injEq] at h ⊢
      have := ih (ds := s.takeWhile isDigit) (by simp only [digits, h.2])
      simp only [digits, Prod.mk.injEq] at this
      rw [this.1, this.2]
      exact ⟨h.1, rfl⟩
    · simp only [digits, List.takeWhile_cons, List.dropWhile_cons, hc, List.cons_append, Prod.mk.injEq] at h ⊢
      exact ⟨h.1, by rw [← h.2]; rfl⟩

theorem digits_length {s ds t : Bytes} (h : digits s = (ds, t)) : s.length = ds.length + t.length := by
  have : s = ds ++ t := by
    simp only [digits, Prod.mk.injEq] at h
    rw [← h.1, ← h.2, List.takeWhile_append_dropWhile]
  rw [this, List.length_append]

theorem pInt_append {s i t : Bytes} (h : pInt s = some (i, t)) (ht : t ≠ []) (r : Bytes) : pInt (s ++ r) = some (i, t ++ r) := by
  match s with
  | [] => simp [pInt] at h
  | c :: s =>
    simp only [pInt, List.cons_append] at h ⊢
    by_cases h1 : c = 0x30
    · simp only [if_pos h1, Option.some.injEq, Prod.mk.injEq] at h ⊢; exact ⟨h.1, by rw [h.2]⟩
    simp only [if_neg h1] at h ⊢
    split at h
    · rename_i h2
      simp only [if_pos h2, Option.some.injEq] at h ⊢
      exact digits_append' h ht r
    · exact nomatch h

theorem pInt_length {s i t : Bytes} (h : pInt s = some (i, t)) : t.length < s.length := by
  match s with
  | [] => simp [pInt] at h
  | c :: s =>
    simp only [pInt] at h
    split at h
    · simp only [Option.some.injEq, Prod.mk.injEq] at h; rw [← h.2]; simp
    split at h
    · rename_i h2
      simp only [Option.some.injEq] at h
      have := digits_length h
      have h3 : i ≠ [] := by
        simp only [digits, List.takeWhile_cons, h2, if_true, Prod.mk.injEq] at h
        rw [← h.1]; simp
      have := List.length_pos_iff.mpr h3
      omega
    · exact nomatch h

theorem pFrac_append {s i t : Bytes} (h : pFrac s = some (i, t)) (ht : t ≠ []) (r : Bytes) : pFrac (s ++ r) = some (i, t ++ r) := by
  match s with
  | [] => simp [pFrac] at h; exact absurd h.2 (by first | exact ht | exact ht.symm)
  | c :: s =>
    by_cases hc : c = 0x2E
    · subst hc
      simp only [pFrac, List.cons_append] at h ⊢
      split at h
      · exact nomatch h
      · rename_i h1
        simp only [Option.some.injEq, Prod.mk.injEq] at h
        have := digits_append' (s := s) (ds := (digits s).1) (t := t) (by rw [← h.2]) ht r
        rw [this]
        simp [h1, h.1]
    · unfold pFrac at h ⊢
      simp only [List.cons_append] at h ⊢
      split at h
      · rename_i h1; simp at h1; exact absurd h1.1 hc
      · split
        · rename_i h1; simp at h1; exact absurd h1.1 hc
        · simp only [Option.some.injEq, Prod.mk.injEq] at h ⊢
          exact ⟨h.1, by rw [← h.2]; rfl⟩

theorem pFrac_length {s i t : Bytes} (h : pFrac s = some (i, t)) : t.length ≤ s.length := by
  unfold pFrac at h
  split at h
  · split at h
    · exact nomatch h
    · rename_i t' _
      simp only [Option.some.injEq, Prod.mk.injEq] at h
      have := digits_length (s := t') (ds := (digits t').1) (t := (digits t').2) rfl
      rw [← h.2]; simp; omega
  · simp only [Option.some.injEq, Prod.mk.injEq] at h
    rw [← h.2]; exact Nat.le_refl _

theorem pSign_append {s : Bytes} (h : s ≠ []) (r : Bytes) : pSign (s ++ r) = ((pSign s).1, (pSign s).2 ++ r) := by
  match s with
  | [] => exact absurd rfl h
  | c :: s => simp only [pSign, List.cons_append]; split <;> rfl

theorem pSign_length (s : Bytes) : (pSign s).2.length ≤ s.length := by
  match s with
  | [] => exact Nat.le_refl _
  | c :: s =>
    simp only [pSign]
    split
    · simp
    · exact Nat.le_refl _

theorem pExp_append {s i t : Bytes} (h : pExp s = some (i, t)) (ht : t ≠ []) (r : Bytes) : pExp (s ++ r) = some (i, t ++ r) := by
  match s with
  | [] => simp [pExp] at h; exact absurd h.2 (by first | exact ht | exact ht.symm)
  | c :: s =>
    simp only [pExp, List.cons_append] at h ⊢
    by_cases hc : c = 0x65 ∨ c = 0x45
    · simp only [if_pos hc] at h ⊢
      split at h
      · exact nomatch h
      · rename_i h1
        simp only [Option.some.injEq, Prod.mk.injEq] at h
        have hs : s ≠ [] := by rintro rfl; exact h1 rfl
        rw [pSign_append hs]
        have := digits_append' (s := (pSign s).2) (ds := (digits (pSign s).2).1) (t := t) (by rw [← h.2]) ht r
        simp only [this, if_neg h1, h.1]
    · simp only [if_neg hc, Option.some.injEq, Prod.mk.injEq] at h ⊢
      exact ⟨h.1, by rw [← h.2]; rfl⟩

theorem pExp_length {s i t : Bytes} (h : pExp s = some (i, t)) : t.length ≤ s.length := by
  match s with
  | [] => simp [pExp] at h; rw [h.2]; exact Nat.le_refl _
  | c :: s =>
    simp only [pExp] at h
    split at h
    · split at h
      · exact nomatch h
      · simp only [Option.some.injEq, Prod.mk.injEq] at h
        have := digits_length (s := (pSign s).2) (ds := (digits (pSign s).2).1) (t := (digits (pSign s).2).2) rfl
        have h2 := pSign_length s
        rw [← h.2]; simp; omega
    · simp only [Option.some.injEq, Prod.mk.injEq] at h
      rw [← h.2]; exact Nat.le_refl _

theorem pMinus_append {s : Bytes} (h : (pMinus s).2 ≠ []) (r : Bytes) : pMinus (s ++ r) = ((pMinus s).1, (pMinus s).2 ++ r) := by
  match s with
  | [] => exact absurd rfl h
  | c :: s => simp only [pMinus, List.cons_append]; split <;> rfl

theorem pMinus_length (s : Bytes) : (pMinus s).2.length ≤ s.length := by
  match s with
  | [] => exact Nat.le_refl _
  | c :: s =>
    simp only [pMinus]
    split
    · simp
    · exact Nat.le_refl _

theorem pNum_append {s l t : Bytes} (h : pNum s = some (l, t)) (ht : t ≠ []) (r : Bytes) : pNum (s ++ r) = some (l, t ++ r) := by
  unfold pNum at h
  obtain ⟨⟨i, t1⟩, h1, h⟩ := Option.bind_eq_some_iff.mp h
  obtain ⟨⟨fr, t2⟩, h2, h⟩ := Option.bind_eq_some_iff.mp h
  obtain ⟨⟨e, t3⟩, h3, h⟩ := Option.map_eq_some_iff.mp h
  simp only [Prod.mk.injEq] at h h2 h3
  have n3 : t3 ≠ [] := by rw [h.2]; exact ht
  have n2 : t2 ≠ [] := by
    rintro rfl
    have := pExp_length h3
    exact n3 (List.length_eq_zero_iff.mp (by simpa using this))
  have n1 : t1 ≠ [] := by
    rintro rfl
    have := pFrac_length h2
    exact n2 (List.length_eq_zero_iff.mp (by simpa using this))
  have n0 : (pMinus s).2 ≠ [] := by
    intro h0; rw [h0] at h1; simp [pInt] at h1
  unfold pNum
  rw [pMinus_append n0, pInt_append h1 n1 r]
  simp only [Option.bind_some, pFrac_append h2 n2 r, pExp_append h3 n3 r, Option.map_some, h.1, h.2]

theorem pNum_length {s l t : Bytes} (h : pNum s = some (l, t)) : t.length < s.length := by
  unfold pNum at h
  obtain ⟨⟨i, t1⟩, h1, h⟩ := Option.bind_eq_some_iff.mp h
  obtain ⟨⟨fr, t2⟩, h2, h⟩ := Option.bind_eq_some_iff.mp h
  obtain ⟨⟨e, t3⟩, h3, h⟩ := Option.map_eq_some_iff.mp h
  have a0 := pMinus_length s
  have a1 := pInt_length h1
  have a2 := pFrac_length h2
  have a3 := pExp_length h3
  simp only [Prod.mk.injEq] at h a2 a3
  rw [← h.2]; omega

/-! ### Values -/

theorem skipWs_append {s : Bytes} (h : skipWs s ≠ []) (r : Bytes) : skipWs (s ++ r) = skipWs s ++ r := by
  induction s with
  | nil => exact absurd rfl h
  | cons c s ih =>
    by_cases hc : isWs c = true
    · simp only [skipWs, List.dropWhile_cons, hc, if_true, List.cons_append] at h ⊢
      exact ih h
    · simp [skipWs, hc]

theorem skipWs_length (s : Bytes) : (skipWs s).length ≤ s.length := (List.dropWhile_suffix _).length_le

theorem skipWs_le {s : Bytes} {c : UInt8} {t : Bytes} (h : skipWs s = c :: t) : t.length < s.length := by
  have := skipWs_length s
  rw [h] at this; simp at this; omega

theorem skipWs_append_cons {s : Bytes} {c : UInt8} {t : Bytes} (h : skipWs s = c :: t) (r : Bytes) :
    skipWs (s ++ r) = c :: (t ++ r) := by
  rw [skipWs_append (by rw [h]; simp), h]; rfl

theorem pLit_append {kw : Bytes} {v w : JVal} {s t : Bytes} (h : pLit kw v s = some (w, t)) (r : Bytes) :
    pLit kw v (s ++ r) = some (w, t ++ r) := by
  unfold pLit at h ⊢
  split at h
  · rename_i h1
    simp only [Option.some.injEq, Prod.mk.injEq] at h
    have hl : kw.length ≤ s.length := by
      have := congrArg List.length h1
      simp at this; omega
    rw [List.take_append_of_le_length hl, if_pos h1, List.drop_append_of_le_length hl, h.1, h.2]
  · exact nomatch h

theorem pLit_length {kw : Bytes} {v w : JVal} {s t : Bytes} (hk : kw ≠ []) (h : pLit kw v s = some (w, t)) : t.length < s.length := by
  unfold pLit at h
  split at h
  · rename_i h1
    simp only [Option.some.injEq, Prod.mk.injEq] at h
    have hp := List.length_pos_iff.mpr hk
    have hl : kw.length ≤ s.length := by
      have := congrArg List.length h1
      simp at this; omega
    rw [← h.2, List.length_drop]; omega
  · exact nomatch h

/-- a number -/
def JVal.isNum : JVal → Bool
  | .num _ => true
  | _ => false

/-- the three functions at once -/
theorem p_append : ∀ (f : Nat),
    (∀ (s : Bytes) (v : JVal) (t : Bytes), pValue f s = some (v, t) → (t ≠ [] ∨ v.isNum = false) → ∀ (f' : Nat) (r : Bytes), f ≤ f' →
      pValue f' (s ++ r) = some (v, t ++ r)) ∧
    (∀ (s : Bytes) (v : List JVal) (t : Bytes), pElems f s = some (v, t) → ∀ (f' : Nat) (r : Bytes), f ≤ f' →
      pElems f' (s ++ r) = some (v, t ++ r)) ∧
    (∀ (s : Bytes) (v : List (Bytes × JVal)) (t : Bytes), pMembers f s = some (v, t) → ∀ (f' : Nat) (r : Bytes), f ≤ f' →
      pMembers f' (s ++ r) = some (v, t ++ r))
  | 0 => by simp [pValue, pElems, pMembers]
  | f + 1 => by
    obtain ⟨ih1, ih2, ih3⟩ := p_append f
    refine ⟨?_, ?_, ?_⟩
    · intro s v t h hor f' r hf
      match f' with
      | 0 => omega
      | f' + 1 =>
        rw [pValue] at h ⊢
        match hs : skipWs s with
        | [] => rw [hs] at h; exact nomatch h
        | c :: u =>
          rw [hs] at h
          rw [skipWs_append_cons hs r]
          dsimp only at h ⊢
          by_cases c1 : c = 0x7B
          · simp only [if_pos c1] at h ⊢
            match hu : skipWs u with
            | [] =>
              rw [hu] at h
              obtain ⟨⟨x, y⟩, h1, h2⟩ := Option.map_eq_some_iff.mp h
              match f with
              | 0 => simp [pMembers] at h1
              | f + 1 => rw [pMembers, hu] at h1; exact nomatch h1
            | d :: u' =>
              rw [hu] at h
              rw [skipWs_append_cons hu r]
              by_cases hd : d = 0x7D
              · subst hd
                simp only [Option.some.injEq, Prod.mk.injEq] at h ⊢
                exact ⟨h.1, by rw [h.2]⟩
              · split at h
                · rename_i e; simp at e; exact absurd e.1 hd
                · split
                  · rename_i e; simp at e; exact absurd e.1 hd
                  · obtain ⟨⟨x, y⟩, h1, h2⟩ := Option.map_eq_some_iff.mp h
                    simp only [Prod.mk.injEq] at h2
                    rw [ih3 u x y h1 f' r (by omega)]
                    simp [h2.1, h2.2]
          simp only [if_neg c1] at h ⊢
          by_cases c2 : c = 0x5B
          · simp only [if_pos c2] at h ⊢
            match hu : skipWs u with
            | [] =>
              rw [hu] at h
              obtain ⟨⟨x, y⟩, h1, h2⟩ := Option.map_eq_some_iff.mp h
              match f with
              | 0 => simp [pElems] at h1
              | 1 => simp [pElems, pValue] at h1
              | f + 2 => rw [pElems, pValue, hu] at h1; exact nomatch h1
            | d :: u' =>
              rw [hu] at h
              rw [skipWs_append_cons hu r]
              by_cases hd : d = 0x5D
              · subst hd
                simp only [Option.some.injEq, Prod.mk.injEq] at h ⊢
                exact ⟨h.1, by rw [h.2]⟩
              · split at h
                · rename_i e; simp at e; exact absurd e.1 hd
                · split
                  · rename_i e; simp at e; exact absurd e.1 hd
                  · obtain ⟨⟨x, y⟩, h1, h2⟩ := Option.map_eq_some_iff.mp h
                    simp only [Prod.mk.injEq] at h2
                    rw [ih2 u x y h1 f' r (by omega)]
                    simp [h2.1, h2.2]
          simp only [if_neg c2] at h ⊢
          by_cases c3 : c = 0x22
          · simp only [if_pos c3] at h ⊢
            obtain ⟨⟨x, y⟩, h1, h2⟩ := Option.map_eq_some_iff.mp h
            simp only [Prod.mk.injEq] at h2
            rw [pStr_append _ u x y h1 _ r (by simp)]
            simp [h2.1, h2.2]
          simp only [if_neg c3] at h ⊢
          by_cases c4 : c = 0x74
          · simp only [if_pos c4] at h ⊢; exact pLit_append h r
          simp only [if_neg c4] at h ⊢
          by_cases c5 : c = 0x66
          · simp only [if_pos c5] at h ⊢; exact pLit_append h r
          simp only [if_neg c5] at h ⊢
          by_cases c6 : c = 0x6E
          · simp only [if_pos c6] at h ⊢; exact pLit_append h r
          simp only [if_neg c6] at h ⊢
          obtain ⟨⟨x, y⟩, h1, h2⟩ := Option.map_eq_some_iff.mp h
          simp only [Prod.mk.injEq] at h2
          rcases hor with hor | hor
          · have := pNum_append h1 (by rw [h2.2]; exact hor) r
            simp only [List.cons_append] at this
            rw [this]
            simp [h2.1, h2.2]
          · rw [← h2.1] at hor; exact nomatch hor
    · intro s v t h f' r hf
      match f' with
      | 0 => omega
      | f' + 1 =>
        rw [pElems] at h ⊢
        match h1 : pValue f s with
        | none => rw [h1] at h; exact nomatch h
        | some (x, u) =>
          rw [h1] at h
          dsimp only at h
          match hu : skipWs u with
          | [] => rw [hu] at h; exact nomatch h
          | d :: u' =>
            have hne : u ≠ [] := by rintro rfl; exact nomatch hu
            rw [ih1 s x u h1 (.inl hne) f' r (by omega)]
            dsimp only
            rw [hu] at h
            rw [skipWs_append_cons hu r]
            by_cases d1 : d = 0x2C
            · subst d1
              obtain ⟨⟨y, z⟩, h2, h3⟩ := Option.map_eq_some_iff.mp h
              simp only [Prod.mk.injEq] at h3
              simp only
              rw [ih2 u' y z h2 f' r (by omega)]
              simp [h3.1, h3.2]
            by_cases d2 : d = 0x5D
            · subst d2
              simp only [Option.some.injEq, Prod.mk.injEq] at h ⊢
              exact ⟨h.1, by rw [h.2]⟩
            · split at h
              · rename_i e; simp at e; exact absurd e.1 d1
              · rename_i e; simp at e; exact absurd e.1 d2
              · exact nomatch h
    · intro s v t h f' r hf
      match f' with
      | 0 => omega
      | f' + 1 =>
        rw [pMembers] at h ⊢
        match hs : skipWs s with
        | [] => rw [hs] at h; exact nomatch h
        | c :: u =>
          rw [hs] at h
          rw [skipWs_append_cons hs r]
          by_cases c1 : c = 0x22
          · subst c1
            simp only at h ⊢
            match h1 : pStr (u.length + 1) u with
            | none => rw [h1] at h; exact nomatch h
            | some (k, w) =>
              rw [h1] at h
              rw [pStr_append _ u k w h1 _ r (by simp)]
              dsimp only at h ⊢
              match hw : skipWs w with
              | [] => rw [hw] at h; exact nomatch h
              | d :: w' =>
                rw [hw] at h
                rw [skipWs_append_cons hw r]
                by_cases d1 : d = 0x3A
                · subst d1
                  simp only at h ⊢
                  match h2 : pValue f w' with
                  | none => rw [h2] at h; exact nomatch h
                  | some (x, y) =>
                    rw [h2] at h
                    dsimp only at h
                    match hy : skipWs y with
                    | [] => rw [hy] at h; exact nomatch h
                    | e :: y' =>
                      have hne : y ≠ [] := by rintro rfl; exact nomatch hy
                      rw [ih1 w' x y h2 (.inl hne) f' r (by omega)]
                      dsimp only
                      rw [hy] at h
                      rw [skipWs_append_cons hy r]
                      by_cases e1 : e = 0x2C
                      · subst e1
                        obtain ⟨⟨p, q⟩, h3, h4⟩ := Option.map_eq_some_iff.mp h
                        simp only [Prod.mk.injEq] at h4
                        simp only
                        rw [ih3 y' p q h3 f' r (by omega)]
                        simp [h4.1, h4.2]
                      by_cases e2 : e = 0x7D
                      · subst e2
                        simp only [Option.some.injEq, Prod.mk.injEq] at h ⊢
                        exact ⟨h.1, by rw [h.2]⟩
                      · split at h
                        · rename_i e; simp at e; exact absurd e.1 e1
                        · rename_i e; simp at e; exact absurd e.1 e2
                        · exact nomatch h
                · split at h
                  · rename_i e; simp at e; exact absurd e.1 d1
                  · exact nomatch h
          · split at h
            · rename_i e; simp at e; exact absurd e.1 c1
            · exact nomatch h

/-- the three functions consume something -/
theorem p_length : ∀ (f : Nat),
    (∀ (s : Bytes) (v : JVal) (t : Bytes), pValue f s = some (v, t) → t.length < s.length) ∧
    (∀ (s : Bytes) (v : List JVal) (t : Bytes), pElems f s = some (v, t) → t.length < s.length) ∧
    (∀ (s : Bytes) (v : List (Bytes × JVal)) (t : Bytes), pMembers f s = some (v, t) → t.length < s.length)
  | 0 => by simp [pValue, pElems, pMembers]
  | f + 1 => by
    obtain ⟨ih1, ih2, ih3⟩ := p_length f
    refine ⟨?_, ?_, ?_⟩
    · intro s v t h
      rw [pValue] at h
      match hs : skipWs s with
      | [] => rw [hs] at h; exact nomatch h
      | c :: u =>
        have hl := skipWs_length s
        rw [hs] at h hl
        simp only [List.length_cons] at hl
        dsimp only at h
        split at h
        · split at h
          · rename_i e
            have := skipWs_le e
            simp only [Option.some.injEq, Prod.mk.injEq] at h
            rw [← h.2]; omega
          · obtain ⟨⟨x, y⟩, h1, h2⟩ := Option.map_eq_some_iff.mp h
            have := ih3 _ _ _ h1
            simp only [Prod.mk.injEq] at h2
            rw [← h2.2]; omega
        split at h
        · split at h
          · rename_i e
            have := skipWs_le e
            simp only [Option.some.injEq, Prod.mk.injEq] at h
            rw [← h.2]; omega
          · obtain ⟨⟨x, y⟩, h1, h2⟩ := Option.map_eq_some_iff.mp h
            have := ih2 _ _ _ h1
            simp only [Prod.mk.injEq] at h2
            rw [← h2.2]; omega
        split at h
        · obtain ⟨⟨x, y⟩, h1, h2⟩ := Option.map_eq_some_iff.mp h
          have := pStr_length _ _ _ _ h1
          simp only [Prod.mk.injEq] at h2
          rw [← h2.2]; omega
        split at h
        · have := pLit_length (by simp) h; simp at this; omega
        split at h
        · have := pLit_length (by simp) h; simp at this; omega
        split at h
        · have := pLit_length (by simp) h; simp at this; omega
        · obtain ⟨⟨x, y⟩, h1, h2⟩ := Option.map_eq_some_iff.mp h
          have := pNum_length h1
          simp only [Prod.mk.injEq] at h2
          rw [← h2.2]; simp at this; omega
    · intro s v t h
      rw [pElems] at h
      split at h
      · exact nomatch h
      · rename_i h1
        have a1 := ih1 _ _ _ h1
        split at h
        · rename_i e
          have a2 := skipWs_le e
          obtain ⟨⟨x, y⟩, h2, h3⟩ := Option.map_eq_some_iff.mp h
          have a3 := ih2 _ _ _ h2
          simp only [Prod.mk.injEq] at h3
          rw [← h3.2]; omega
        · rename_i e
          have a2 := skipWs_le e
          simp only [Option.some.injEq, Prod.mk.injEq] at h
          rw [← h.2]; omega
        · exact nomatch h
    · intro s v t h
      rw [pMembers] at h
      split at h
      · rename_i e
        have a0 := skipWs_le e
        split at h
        · exact nomatch h
        · rename_i h1
          have a1 := pStr_length _ _ _ _ h1
          split at h
          · rename_i e
            have a2 := skipWs_le e
            split at h
            · exact nomatch h
            · rename_i h2
              have a3 := ih1 _ _ _ h2
              split at h
              · rename_i e
                have a4 := skipWs_le e
                obtain ⟨⟨x, y⟩, h3, h4⟩ := Option.map_eq_some_iff.mp h
                have a5 := ih3 _ _ _ h3
                simp only [Prod.mk.injEq] at h4
                rw [← h4.2]; omega
              · rename_i e
                have a4 := skipWs_le e
                simp only [Option.some.injEq, Prod.mk.injEq] at h
                rw [← h.2]; omega
              · exact nomatch h
          · exact nomatch h
      · exact nomatch h

/-- the bound on the number of values is never reached -/
theorem p_fuel : ∀ (n : Nat),
    (∀ (s : Bytes), s.length ≤ n → ∀ (f f' : Nat), 2 * s.length + 1 ≤ f → 2 * s.length + 1 ≤ f' → pValue f s = pValue f' s) ∧
    (∀ (s : Bytes), s.length ≤ n → ∀ (f f' : Nat), 2 * s.length + 2 ≤ f → 2 * s.length + 2 ≤ f' → pElems f s = pElems f' s) ∧
    (∀ (s : Bytes), s.length ≤ n → ∀ (f f' : Nat), 2 * s.length + 2 ≤ f → 2 * s.length + 2 ≤ f' → pMembers f s = pMembers f' s) := by
  intro n
  induction n using Nat.strongRecOn with
  | ind n ih =>
    have hV : ∀ (s : Bytes), s.length ≤ n → ∀ (f f' : Nat), 2 * s.length + 1 ≤ f → 2 * s.length + 1 ≤ f' → pValue f s = pValue f' s := by
      intro s hn f f' hf hf'
      match f, f' with
      | 0, _ => omega
      | _, 0 => omega
      | f + 1, f' + 1 =>
        rw [pValue, pValue]
        match hs : skipWs s with
        | [] => rfl
        | c :: u =>
          have hl := skipWs_le hs
          obtain ⟨-, i2, i3⟩ := ih u.length (by omega)
          dsimp only
          rw [i2 u (Nat.le_refl _) f f' (by omega) (by omega), i3 u (Nat.le_refl _) f f' (by omega) (by omega)]
    refine ⟨hV, ?_, ?_⟩
    · intro s hn f f' hf hf'
      match f, f' with
      | 0, _ => omega
      | _, 0 => omega
      | f + 1, f' + 1 =>
        rw [pElems, pElems, hV s hn f f' (by omega) (by omega)]
        match h1 : pValue f' s with
        | none => rfl
        | some (x, u) =>
          have a1 := (p_length f').1 _ _ _ h1
          dsimp only
          split
          · rename_i u' e
            have a2 := skipWs_le e
            obtain ⟨-, i2, -⟩ := ih u'.length (by omega)
            rw [i2 u' (Nat.le_refl _) f f' (by omega) (by omega)]
          · rfl
          · rfl
    · intro s hn f f' hf hf'
      match f, f' with
      | 0, _ => omega
      | _, 0 => omega
      | f + 1, f' + 1 =>
        rw [pMembers, pMembers]
        split
        · rename_i u e
          have a0 := skipWs_le e
          split
          · rfl
          · rename_i k w h1
            have a1 := pStr_length _ _ _ _ h1
            split
            · rename_i w' e
              have a2 := skipWs_le e
              obtain ⟨i1, -, -⟩ := ih w'.length (by omega)
              rw [i1 w' (Nat.le_refl _) f f' (by omega) (by omega)]
              split
              · rfl
              · rename_i h2
                have a3 := (p_length f').1 _ _ _ h2
                split
                · rename_i y' e
                  have a4 := skipWs_le e
                  obtain ⟨-, -, i3⟩ := ih y'.length (by omega)
                  rw [i3 y' (Nat.le_refl _) f f' (by omega) (by omega)]
                · rfl
                · rfl
            · rfl
        · rfl

/-- The bound that `parse` gives to the parser is never the reason for a rejection: every larger one gives the same result. -/
theorem parse_fuel (s : Bytes) (f : Nat) (h : 2 * s.length + 2 ≤ f) :
    pValue f s = pValue (2 * s.length + 2) s :=
  (p_fuel s.length).1 s (Nat.le_refl _) _ _ (by omega) (by omega)

theorem pValue_brace {f : Nat} {t : Bytes} {v : JVal} {u : Bytes} (h : pValue f (0x7B :: t) = some (v, u)) : ∃ ms, v = .obj ms := by
  match f with
  | 0 => simp [pValue] at h
  | f + 1 =>
    rw [pValue, skipWs_cons 0x7B _ (by decide : isWs 0x7B = false)] at h
    dsimp only at h
    rw [if_pos rfl] at h
    split at h
    · simp only [Option.some.injEq, Prod.mk.injEq] at h; exact ⟨[], h.1.symm⟩
    · obtain ⟨⟨x, y⟩, h1, h2⟩ := Option.map_eq_some_iff.mp h
      simp only [Prod.mk.injEq] at h2; exact ⟨x, h2.1.symm⟩

/-- No proper prefix of the text of an object, cut before its last byte that is not white space, is a JSON text. -/
theorem parse_prefix (t r : Bytes) (w : JVal) (h : parse (0x7B :: t ++ r) = some w) (hr : ∃ b ∈ r, isWs b = false) :
    parse (0x7B :: t) = none := by
  match h1 : parse (0x7B :: t) with
  | none => rfl
  | some v =>
    exfalso
    unfold parse at h1 h
    match h2 : pValue (2 * (0x7B :: t).length + 2) (0x7B :: t) with
    | none => rw [h2] at h1; exact nomatch h1
    | some (v', u) =>
      rw [h2] at h1
      dsimp only at h1
      have hu : skipWs u = [] := by
        split at h1
        · assumption
        · exact nomatch h1
      obtain ⟨ms, rfl⟩ := pValue_brace h2
      have := (p_append _).1 _ _ _ h2 (.inr rfl) (2 * (0x7B :: t ++ r).length + 2) r (by simp; omega)
      rw [this] at h
      dsimp only at h
      have hw : skipWs (u ++ r) = [] := by
        split at h
        · assumption
        · exact nomatch h
      obtain ⟨b, hb, hbw⟩ := hr
      have hall : ∀ (l : Bytes), skipWs l = [] → ∀ b ∈ l, isWs b = true := by
        intro l
        induction l with
        | nil => intro _ b hb; simp at hb
        | cons c l ih =>
          intro hl b hb
          by_cases hc : isWs c = true
          · simp only [skipWs, List.dropWhile_cons, hc, if_true] at hl
            rcases List.mem_cons.mp hb with rfl | hb
            · exact hc
            · exact ih hl b hb
          · simp [skipWs, hc] at hl
      rw [hall _ hw b (List.mem_append_right _ hb)] at hbw
      exact nomatch hbw

end Coniks.Json

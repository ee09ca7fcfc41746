import Verif.Model.Json.Codec
/-
Facts about the JSON text functions: UTF-8, string literals.
-/
namespace Coniks.Json

/-! ### UTF-8 -/

theorem utf8Head_le (s : Bytes) : utf8Head s ≤ s.length := by
  unfold utf8Head
  split
  · simp
  · repeat' split
    all_goals simp

theorem utf8Head_take (s r : Bytes) (h : 0 < utf8Head s) : utf8Head (s.take (utf8Head s) ++ r) = utf8Head s := by
  match s with
  | [] => simp [utf8Head] at h
  | a :: t =>
    unfold utf8Head at h ⊢
    by_cases h1 : a < 0x80
    · simp [h1]
    by_cases h2 : a < 0xC2
    · simp [h1, h2] at h
    by_cases h3 : a < 0xE0
    · match t with
      | [] => simp [h1, h2, h3] at h
      | b :: t =>
        by_cases h4 : isCont b = true
        · simp [h1, h2, h3, h4]
        · simp [h1, h2, h3, h4] at h
    by_cases h4 : a < 0xF0
    · match t with
      | [] => simp [h1, h2, h3, h4] at h
      | [b] => simp [h1, h2, h3, h4] at h
      | b :: c :: t =>
        by_cases h5 : (isCont b && isCont c && (a != 0xE0 || decide (0xA0 ≤ b)) && (a != 0xED || decide (b ≤ 0x9F))) = true
        · simp only [h1, h2, h3, h4, h5, if_true, if_false, List.take_succ_cons, List.take_zero, List.cons_append, List.nil_append]
        · simp only [h1, h2, h3, h4, h5, if_true, if_false] at h; simp at h
    by_cases h5 : a < 0xF5
    · match t with
      | [] => simp [h1, h2, h3, h4, h5] at h
      | [b] => simp [h1, h2, h3, h4, h5] at h
      | [b, c] => simp [h1, h2, h3, h4, h5] at h
      | b :: c :: d :: t =>
        by_cases h6 : (isCont b && isCont c && isCont d && (a != 0xF0 || decide (0x90 ≤ b)) && (a != 0xF4 || decide (b ≤ 0x8F))) = true
        · simp only [h1, h2, h3, h4, h5, h6, if_true, if_false, List.take_succ_cons, List.take_zero, List.cons_append, List.nil_append]
        · simp only [h1, h2, h3, h4, h5, h6, if_true, if_false] at h; simp at h
    · simp [h1, h2, h3, h4, h5] at h

theorem utf8Head_ascii (a : UInt8) (t : Bytes) (h : a < 0x80) : utf8Head (a :: t) = 1 := by simp [utf8Head, h]

theorem utf8Head_one (a : UInt8) (t : Bytes) (h : utf8Head (a :: t) = 1) : a < 0x80 := by
  unfold utf8Head at h
  by_cases h1 : a < 0x80
  · exact h1
  · simp only [h1, if_false] at h
    repeat' split at h
    all_goals simp at h

theorem utf8Head_many (a : UInt8) (t : Bytes) (k : Nat) (h : utf8Head (a :: t) = k + 2) : 0x80 ≤ a := by
  by_cases h1 : a < 0x80
  · simp [utf8Head, h1] at h
  · exact UInt8.not_lt.mp h1

theorem cleanAux_nil (k : Nat) : cleanAux k [] = [] := by cases k <;> rfl

theorem cleanAux_eq : ∀ (k : Nat) (s : Bytes), cleanAux k s = s.take k ++ cleanAux 0 (s.drop k)
  | 0, s => by simp
  | k + 1, [] => by simp [cleanAux_nil]
  | k + 1, a :: t => by simp only [cleanAux, List.take_succ_cons, List.drop_succ_cons, List.cons_append]; rw [cleanAux_eq k t]

theorem clean_cons (a : UInt8) (t : Bytes) (k : Nat) (h : utf8Head (a :: t) = k + 1) :
    clean (a :: t) = a :: t.take k ++ clean (t.drop k) := by
  unfold clean
  rw [cleanAux, h]
  simp only [List.cons_append]
  rw [cleanAux_eq k t]

theorem clean_bad (a : UInt8) (t : Bytes) (h : utf8Head (a :: t) = 0) : clean (a :: t) = replacement ++ clean t := by
  unfold clean
  rw [cleanAux, h]

theorem clean_nil : clean [] = [] := rfl

theorem clean_ascii : ∀ (s : Bytes), (∀ b ∈ s, b < 0x80) → clean s = s
  | [], _ => rfl
  | a :: t, h => by
    have ha : a < 0x80 := h a (by simp)
    rw [clean_cons a t 0 (utf8Head_ascii a t ha)]
    simp only [List.take_zero, List.drop_zero, List.cons_append, List.nil_append]
    rw [clean_ascii t fun b hb => h b (List.mem_cons_of_mem _ hb)]

/-! ### String literals -/

theorem escAux_nil (m : Bool) (k : Nat) : escAux m k [] = [] := by cases m <;> cases k <;> rfl

theorem escAux_zero (m : Bool) (s : Bytes) : escAux m 0 s = escAux true 0 s := by
  cases s with
  | nil => rw [escAux_nil, escAux_nil]
  | cons a t => cases m <;> rfl

theorem escAux_true : ∀ (k : Nat) (s : Bytes), escAux true k s = s.take k ++ escAux true 0 (s.drop k)
  | 0, s => by simp
  | k + 1, [] => by simp [escAux_nil]
  | k + 1, a :: t => by
    simp only [escAux, List.take_succ_cons, List.drop_succ_cons, List.cons_append]; rw [escAux_true k t]

theorem escAux_false : ∀ (k : Nat) (s : Bytes), escAux false k s = escAux true 0 (s.drop k)
  | 0, s => by rw [escAux_zero]; simp
  | k + 1, [] => by simp [escAux_nil]
  | k + 1, a :: t => by simp only [escAux, List.drop_succ_cons]; exact escAux_false k t

theorem ascii_forall {p : UInt8 → Bool} (h : ∀ n : Fin 256, p (UInt8.ofNat n.val) = true) (a : UInt8) : p a = true := by
  have := h ⟨a.toNat, a.toNat_lt⟩
  simpa using this

theorem strStep_u (t : Bytes) : strStep (0x5C :: 0x75 :: t) = (hex4 t).map fun x => .inr (uEscape x.1 x.2) := by simp [strStep]

/-- reading back one escaped ASCII character -/
theorem strStep_ascii (a : UInt8) (ha : a < 0x80) (r : Bytes) : strStep (escAscii a ++ r) = some (.inr ([a], r)) := by
  unfold escAscii
  by_cases h1 : a = 0x22 ∨ a = 0x5C
  · rw [if_pos h1]
    rcases h1 with h1 | h1 <;> subst h1 <;> simp [strStep]
  rw [if_neg h1]
  by_cases h2 : a = 0x0A
  · subst h2; simp [strStep]
  rw [if_neg h2]
  by_cases h3 : a = 0x0D
  · subst h3; simp [strStep]
  rw [if_neg h3]
  by_cases h4 : a = 0x09
  · subst h4; simp [strStep]
  rw [if_neg h4]
  by_cases h5 : a < 0x20 ∨ a = 0x3C ∨ a = 0x3E ∨ a = 0x26
  · rw [if_pos h5]
    have e1 : ∀ a : UInt8, (decide (a < 0x80) → hexVal (hexDigit (a >>> 4)) = some (a.toNat / 16)) ∧
        hexVal (hexDigit (a &&& 15)) = some (a.toNat % 16) := by
      intro a
      have := ascii_forall (p := fun a => decide ((decide (a < 0x80) → hexVal (hexDigit (a >>> 4)) = some (a.toNat / 16)) ∧
        hexVal (hexDigit (a &&& 15)) = some (a.toNat % 16))) (by decide +kernel) a
      exact of_decide_eq_true this
    obtain ⟨e2, e3⟩ := e1 a
    have e4 : hexVal 0x30 = some 0 := by decide
    have e5 : ((0 * 16 + 0) * 16 + a.toNat / 16) * 16 + a.toNat % 16 = a.toNat := by omega
    have hs : a.toNat < 0x80 := by simpa using UInt8.lt_iff_toNat_lt.mp ha
    simp only [List.cons_append, List.nil_append, strStep_u]
    simp only [hex4, e4, e2 (by simpa using ha), e3, e5, Option.map_some, uEscape]
    rw [if_neg (by omega)]
    simp only [encodeRune, hs, if_true, UInt8.ofNat_toNat]
  rw [if_neg h5]
  simp only [not_or] at h1 h5
  simp only [List.cons_append, List.nil_append, strStep]
  rw [if_neg h1.1, if_neg h1.2, if_neg h5.1, utf8Head_ascii a r ha]
  simp

theorem lineSep_spec {a : UInt8} {t : Bytes} (h : lineSep (a :: t) = true) :
    ∃ c t', (c = 0xA8 ∨ c = 0xA9) ∧ a = 0xE2 ∧ t = 0x80 :: c :: t' := by
  match t with
  | [] => simp [lineSep] at h
  | [b] => simp [lineSep] at h
  | b :: c :: t' =>
    simp only [lineSep, Bool.and_eq_true, Bool.or_eq_true, beq_iff_eq] at h
    exact ⟨c, t', h.2, h.1.1, by rw [h.1.2]⟩

/-- The first character of a string: how it is written, how it is read back, and what is left. -/
theorem esc_step (a : UInt8) (t : Bytes) : ∃ tok out s', tok ≠ [] ∧ escAux true 0 (a :: t) = tok ++ escAux true 0 s' ∧
    clean (a :: t) = out ++ clean s' ∧ s'.length ≤ t.length ∧ ∀ r, strStep (tok ++ r) = some (.inr (out, r)) := by
  match hk : utf8Head (a :: t) with
  | 0 =>
    refine ⟨[0x5C, 0x75, 0x66, 0x66, 0x66, 0x64], replacement, t, by simp, by rw [escAux, hk], clean_bad a t hk, Nat.le_refl _, ?_⟩
    intro r
    have e1 : hexVal 0x66 = some 15 := by decide
    have e2 : hexVal 0x64 = some 13 := by decide
    simp only [List.cons_append, List.nil_append, strStep_u]
    simp only [hex4, e1, e2, Option.map_some, uEscape]
    rw [if_neg (by decide)]
    rfl
  | 1 =>
    have ha := utf8Head_one a t hk
    refine ⟨escAscii a, [a], t, ?_, by rw [escAux, hk]; rfl, ?_, Nat.le_refl _, strStep_ascii a ha⟩
    · unfold escAscii; repeat' split
      all_goals simp
    · rw [clean_cons a t 0 hk]; simp
  | k + 2 =>
    have ha := utf8Head_many a t k hk
    have hle := utf8Head_le (a :: t)
    rw [hk, List.length_cons] at hle
    by_cases hl : lineSep (a :: t) = true
    · obtain ⟨c, t', hc, rfl, rfl⟩ := lineSep_spec hl
      have hk3 : utf8Head (0xE2 :: 0x80 :: c :: t') = 3 := by
        rcases hc with rfl | rfl <;> simp [utf8Head, isCont]
      rw [hk3] at hk
      have : k = 1 := by omega
      subst this
      refine ⟨[0x5C, 0x75, 0x32, 0x30, 0x32, hexDigit (c &&& 15)], [0xE2, 0x80, c], t', by simp, ?_, ?_, by simp; omega, ?_⟩
      · rw [escAux, hk3]
        simp only [hl, if_true]
        rw [escAux_false]
        simp
      · rw [clean_cons _ _ 2 hk3]; simp
      · intro r
        have e1 : hexVal 0x32 = some 2 := by decide
        have e2 : hexVal 0x30 = some 0 := by decide
        rcases hc with rfl | rfl
        · have e3 : hexVal (hexDigit (0xA8 &&& 15)) = some 8 := by decide
          simp only [List.cons_append, List.nil_append, strStep_u]
          simp only [hex4, e1, e2, e3, Option.map_some, uEscape]
          rw [if_neg (by decide)]
          rfl
        · have e3 : hexVal (hexDigit (0xA9 &&& 15)) = some 9 := by decide
          simp only [List.cons_append, List.nil_append, strStep_u]
          simp only [hex4, e1, e2, e3, Option.map_some, uEscape]
          rw [if_neg (by decide)]
          rfl
    · refine ⟨a :: t.take (k + 1), a :: t.take (k + 1), t.drop (k + 1), by simp, ?_, clean_cons a t (k + 1) hk, by simp, ?_⟩
      · rw [escAux, hk]
        simp only [hl]
        rw [escAux_true]
        simp
      · intro r
        have h2 := utf8Head_take (a :: t) r (by omega)
        rw [hk] at h2
        simp only [List.take_succ_cons, List.cons_append] at h2
        have n1 : a ≠ 0x22 := by rintro rfl; exact absurd ha (by decide)
        have n2 : a ≠ 0x5C := by rintro rfl; exact absurd ha (by decide)
        have n3 : ¬ a < 0x20 := by
          intro h
          have h1 := UInt8.lt_iff_toNat_lt.mp h
          have h2 := UInt8.le_iff_toNat_le.mp ha
          simp at h1 h2
          omega
        simp only [List.cons_append, strStep, if_neg n1, if_neg n2, if_neg n3]
        rw [h2]
        have hlen : (t.take (k + 1)).length = k + 1 := by simp; omega
        simp only [Option.some.injEq, Sum.inr.injEq, Prod.mk.injEq, List.cons.injEq, true_and]
        constructor
        · rw [List.take_append_of_le_length (by omega), List.take_of_length_le (by omega)]
        · rw [List.drop_append_of_le_length (by omega), List.drop_of_length_le (by omega), List.nil_append]

/-- Reading back a string literal gives the string with the bytes that are not UTF-8 replaced. -/
theorem pStr_quote : ∀ (n : Nat) (s : Bytes), s.length ≤ n → ∀ (f : Nat) (r : Bytes), (escAux true 0 s).length < f →
    pStr f (escAux true 0 s ++ 0x22 :: r) = some (clean s, r) := by
  intro n
  induction n with
  | zero =>
    intro s hs f r hf
    match s with
    | [] =>
      match f with
      | 0 => omega
      | f + 1 => simp [escAux_nil, pStr, strStep, clean_nil]
    | _ :: _ => simp at hs
  | succ n ih =>
    intro s hs f r hf
    match s with
    | [] =>
      match f with
      | 0 => omega
      | f + 1 => simp [escAux_nil, pStr, strStep, clean_nil]
    | a :: t =>
      obtain ⟨tok, out, s', h1, h2, h3, h4, h5⟩ := esc_step a t
      match f with
      | 0 => omega
      | f + 1 =>
        have hpos : 0 < tok.length := List.length_pos_iff.mpr h1
        rw [h2, List.length_append] at hf
        rw [h2, h3, List.append_assoc]
        simp only [pStr, h5]
        rw [ih s' (by simp at hs; omega) f r (by omega)]
        rfl

end Coniks.Json

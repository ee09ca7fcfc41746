import Verif.Spec.JsonGrammar
import Verif.Proofs.Json.Prefix
import Verif.Proofs.Json.Utf8
/-
The reader accepts exactly the texts of the grammar, with their meaning.
-/
namespace Coniks.Json
open Spec

/-! ### White space -/

theorem isWs_iff (b : UInt8) : isWs b = true ↔ b ∈ ([0x20, 0x09, 0x0D, 0x0A] : Bytes) := by
  simp [isWs, or_assoc]

theorem ws_iff (s : Bytes) : Ws s ↔ ∀ b ∈ s, isWs b = true := by
  unfold Ws; exact forall_congr' fun b => forall_congr' fun _ => (isWs_iff b).symm

theorem skipWs_split (s : Bytes) : ∃ w, Ws w ∧ s = w ++ skipWs s := by
  refine ⟨s.takeWhile isWs, (ws_iff _).mpr ?_, (List.takeWhile_append_dropWhile).symm⟩
  intro b hb
  induction s with
  | nil => simp at hb
  | cons a t ih =>
    by_cases h : isWs a = true
    · simp only [List.takeWhile_cons, h, if_true, List.mem_cons] at hb
      rcases hb with rfl | hb
      · exact h
      · exact ih hb
    · simp [List.takeWhile_cons, h] at hb

theorem skipWs_ws (w s : Bytes) (hw : Ws w) : skipWs (w ++ s) = skipWs s := by
  rw [ws_iff] at hw
  induction w with
  | nil => rfl
  | cons a t ih =>
    have h1 := hw a (by simp)
    have h2 := ih fun b hb => hw b (List.mem_cons_of_mem _ hb)
    simp only [skipWs, List.cons_append, List.dropWhile_cons, h1, if_true] at h2 ⊢
    exact h2

theorem skipWs_nil_iff (s : Bytes) : skipWs s = [] ↔ Ws s := by
  constructor
  · intro h
    obtain ⟨w, hw, e⟩ := skipWs_split s
    rw [h, List.append_nil] at e
    rw [e]; exact hw
  · intro h
    have := skipWs_ws s [] h
    rw [List.append_nil] at this
    rw [this]; rfl

theorem skipWs_cons_split {s : Bytes} {c : UInt8} {t : Bytes} (h : skipWs s = c :: t) : ∃ w, Ws w ∧ s = w ++ c :: t := by
  obtain ⟨w, hw, e⟩ := skipWs_split s
  exact ⟨w, hw, h ▸ e⟩

theorem ws_stop {c : UInt8} {w t s : Bytes} (hw : Ws w) (hc : isWs c = false) : skipWs (w ++ c :: t ++ s) = c :: (t ++ s) := by
  rw [List.append_assoc, skipWs_ws _ _ hw, List.cons_append, skipWs_cons _ _ hc]

/-! ### Numbers -/

theorem isDigit_iff (b : UInt8) : isDigit b = true ↔ 48 ≤ b.toNat ∧ b.toNat ≤ 57 := by
  simp only [isDigit, Bool.and_eq_true, decide_eq_true_eq, UInt8.le_iff_toNat_le]
  exact Iff.rfl

theorem digits_all (s : Bytes) : ∀ b ∈ (digits s).1, 48 ≤ b.toNat ∧ b.toNat ≤ 57 := by
  intro b hb
  induction s with
  | nil => simp [digits] at hb
  | cons a t ih =>
    simp only [digits] at hb ih
    by_cases h : isDigit a = true
    · simp only [List.takeWhile_cons, h, if_true, List.mem_cons] at hb
      rcases hb with rfl | hb
      · exact (isDigit_iff _).mp h
      · exact ih hb
    · simp [List.takeWhile_cons, h] at hb

theorem digits_eq (s : Bytes) : s = (digits s).1 ++ (digits s).2 := (List.takeWhile_append_dropWhile).symm

theorem digits_stop (ds r : Bytes) (hd : Digits ds) (hr : ∀ c t, r = c :: t → isDigit c = false) : digits (ds ++ r) = (ds, r) :=
  digits_append ds r (fun b hb => (isDigit_iff b).mpr (hd.2 b hb)) hr

theorem pMinus_split (s : Bytes) : ((pMinus s).1 = [] ∨ (pMinus s).1 = [0x2D]) ∧ s = (pMinus s).1 ++ (pMinus s).2 := by
  unfold pMinus
  split
  · split
    · rename_i h; subst h; exact ⟨.inr rfl, rfl⟩
    · exact ⟨.inl rfl, rfl⟩
  · exact ⟨.inl rfl, rfl⟩

theorem pSign_split (s : Bytes) : ((pSign s).1 = [] ∨ (pSign s).1 = [0x2B] ∨ (pSign s).1 = [0x2D]) ∧ s = (pSign s).1 ++ (pSign s).2 := by
  unfold pSign
  split
  · split
    · rename_i h
      rcases h with h | h <;> subst h
      · exact ⟨.inr (.inl rfl), rfl⟩
      · exact ⟨.inr (.inr rfl), rfl⟩
    · exact ⟨.inl rfl, rfl⟩
  · exact ⟨.inl rfl, rfl⟩

theorem pInt_split {s i t : Bytes} (h : pInt s = some (i, t)) : s = i ++ t ∧ (i = [0x30] ∨ (Digits i ∧ i.head? ≠ some 0x30)) := by
  unfold pInt at h
  split at h
  · rename_i c u
    split at h
    · rename_i hc
      simp only [Option.some.injEq, Prod.mk.injEq] at h
      obtain ⟨rfl, rfl⟩ := h
      subst hc
      exact ⟨rfl, .inl rfl⟩
    · split at h
      · rename_i hc hd
        simp only [Option.some.injEq] at h
        have e := digits_eq (c :: u)
        have a := digits_all (c :: u)
        rw [h] at e a
        have hi : i = c :: u.takeWhile isDigit := by
          have : (digits (c :: u)).1 = i := by rw [h]
          rw [← this]; simp [digits, List.takeWhile_cons, hd]
        refine ⟨e, .inr ⟨⟨by rw [hi]; simp, a⟩, ?_⟩⟩
        rw [hi]; simpa using hc
      · exact nomatch h
  · exact nomatch h

theorem pFrac_split {s i t : Bytes} (h : pFrac s = some (i, t)) : s = i ++ t ∧ (i = [] ∨ ∃ ds, Digits ds ∧ i = 0x2E :: ds) := by
  unfold pFrac at h
  split at h
  · rename_i u
    split at h
    · exact nomatch h
    · rename_i hn
      simp only [Option.some.injEq, Prod.mk.injEq] at h
      obtain ⟨rfl, rfl⟩ := h
      refine ⟨by rw [List.cons_append, ← digits_eq], .inr ⟨_, ⟨hn, digits_all u⟩, rfl⟩⟩
  · simp only [Option.some.injEq, Prod.mk.injEq] at h
    obtain ⟨rfl, rfl⟩ := h
    exact ⟨rfl, .inl rfl⟩

theorem pExp_split {s i t : Bytes} (h : pExp s = some (i, t)) : s = i ++ t ∧ (i = [] ∨ ∃ e sg ds, i = e :: sg ++ ds ∧ (e = 0x65 ∨ e = 0x45) ∧
    (sg = [] ∨ sg = [0x2B] ∨ sg = [0x2D]) ∧ Digits ds) := by
  unfold pExp at h
  split at h
  · rename_i e u
    split at h
    · rename_i he
      split at h
      · exact nomatch h
      · rename_i hn
        simp only [Option.some.injEq, Prod.mk.injEq] at h
        obtain ⟨rfl, rfl⟩ := h
        obtain ⟨s1, s2⟩ := pSign_split u
        refine ⟨?_, .inr ⟨e, _, _, rfl, he, s1, hn, digits_all _⟩⟩
        rw [List.cons_append, List.cons_append, List.append_assoc, ← digits_eq, ← s2]
    · simp only [Option.some.injEq, Prod.mk.injEq] at h
      obtain ⟨rfl, rfl⟩ := h
      exact ⟨rfl, .inl rfl⟩
  · simp only [Option.some.injEq, Prod.mk.injEq] at h
    obtain ⟨rfl, rfl⟩ := h
    exact ⟨rfl, .inl rfl⟩

theorem pNum_split {s l t : Bytes} (h : pNum s = some (l, t)) : s = l ++ t ∧ Number l := by
  unfold pNum at h
  obtain ⟨⟨i, u1⟩, h1, h⟩ := Option.bind_eq_some_iff.mp h
  obtain ⟨⟨f, u2⟩, h2, h⟩ := Option.bind_eq_some_iff.mp h
  obtain ⟨⟨e, u3⟩, h3, h⟩ := Option.map_eq_some_iff.mp h
  simp only [Prod.mk.injEq] at h
  obtain ⟨rfl, rfl⟩ := h
  obtain ⟨m1, m2⟩ := pMinus_split s
  obtain ⟨a1, a2⟩ := pInt_split h1
  obtain ⟨b1, b2⟩ := pFrac_split h2
  obtain ⟨c1, c2⟩ := pExp_split h3
  dsimp only at b1 c1
  refine ⟨?_, _, _, _, _, rfl, m1, a2, b2, c2⟩
  rw [List.append_assoc, List.append_assoc, List.append_assoc, ← c1, ← b1, ← a1, ← m2]

theorem pExp_number {exp r : Bytes} (hr : Stops r) (h : exp = [] ∨ ∃ e sg ds, exp = e :: sg ++ ds ∧ (e = 0x65 ∨ e = 0x45) ∧
    (sg = [] ∨ sg = [0x2B] ∨ sg = [0x2D]) ∧ Digits ds) : pExp (exp ++ r) = some (exp, r) := by
  rcases h with rfl | ⟨e, sg, ds, rfl, he, hs, hd⟩
  · exact pExp_stops r hr
  · have hst : ∀ c t, r = c :: t → isDigit c = false := fun c t e => (hr c t e).1
    have d := digits_stop ds r hd hst
    have p : pSign (sg ++ ds ++ r) = (sg, ds ++ r) := by
      rcases hs with rfl | rfl | rfl
      · obtain ⟨hne, had⟩ := hd
        match ds, hne with
        | d :: ds, _ =>
          have := had d (by simp)
          simp only [List.nil_append, List.cons_append, pSign]
          rw [if_neg]
          rintro (rfl | rfl) <;> simp at this
      · rfl
      · rfl
    simp only [List.cons_append, pExp]
    rw [if_pos he, p]
    dsimp only
    rw [d, if_neg hd.1]

theorem exp_head {exp r : Bytes} (hr : Stops r) (h : exp = [] ∨ ∃ e sg ds, exp = e :: sg ++ ds ∧ (e = 0x65 ∨ e = 0x45) ∧
    (sg = [] ∨ sg = [0x2B] ∨ sg = [0x2D]) ∧ Digits ds) : ∀ c t, exp ++ r = c :: t → isDigit c = false ∧ c ≠ 0x2E := by
  intro c t e
  rcases h with rfl | ⟨x, sg, ds, rfl, hx, -, -⟩
  · exact ⟨(hr c t e).1, (hr c t e).2.1⟩
  · simp only [List.cons_append, List.cons.injEq] at e
    rw [← e.1]
    rcases hx with rfl | rfl <;> decide

theorem pFrac_number {frac r : Bytes} (hr : ∀ c t, r = c :: t → isDigit c = false ∧ c ≠ 0x2E) (h : frac = [] ∨ ∃ ds, Digits ds ∧ frac = 0x2E :: ds) :
    pFrac (frac ++ r) = some (frac, r) := by
  rcases h with rfl | ⟨ds, hd, rfl⟩
  · rw [List.nil_append]
    unfold pFrac
    split
    · rename_i t
      exact absurd rfl (hr _ _ rfl).2
    · rfl
  · have d := digits_stop ds r hd fun c t e => (hr c t e).1
    simp only [List.cons_append, pFrac]
    rw [d, if_neg hd.1]

theorem frac_head {frac r : Bytes} (hr : ∀ c t, r = c :: t → isDigit c = false ∧ c ≠ 0x2E) (h : frac = [] ∨ ∃ ds, Digits ds ∧ frac = 0x2E :: ds) :
    ∀ c t, frac ++ r = c :: t → isDigit c = false := by
  intro c t e
  rcases h with rfl | ⟨ds, -, rfl⟩
  · exact (hr c t e).1
  · simp only [List.cons_append, List.cons.injEq] at e
    rw [← e.1]; decide

theorem pInt_number {int r : Bytes} (hr : ∀ c t, r = c :: t → isDigit c = false) (h : int = [0x30] ∨ (Digits int ∧ int.head? ≠ some 0x30)) :
    pInt (int ++ r) = some (int, r) := by
  rcases h with rfl | ⟨hd, hh⟩
  · rfl
  · have d := digits_stop int r hd hr
    match int, hd, hh, d with
    | [], hd, _, _ => exact absurd rfl hd.1
    | c :: ds, hd, hh, d =>
      simp only [List.cons_append, pInt]
      rw [if_neg (by intro e; rw [e] at hh; exact hh rfl), if_pos ((isDigit_iff c).mpr (hd.2 c (by simp)))]
      exact congrArg some d

theorem number_first {s : Bytes} (h : Number s) : ∃ c t, s = c :: t ∧ (c = 0x2D ∨ isDigit c = true) := by
  obtain ⟨sg, int, fr, ex, rfl, hs, hi, -, -⟩ := h
  rcases hs with rfl | rfl
  · rcases hi with rfl | ⟨hd, -⟩
    · exact ⟨_, _, rfl, .inr (by decide)⟩
    · match int, hd with
      | [], hd => exact absurd rfl hd.1
      | c :: ds, hd => exact ⟨_, _, rfl, .inr ((isDigit_iff c).mpr (hd.2 c (by simp)))⟩
  · exact ⟨_, _, rfl, .inl rfl⟩

theorem pNum_number {l r : Bytes} (hl : Number l) (hr : Stops r) : pNum (l ++ r) = some (l, r) := by
  obtain ⟨sg, int, fr, ex, rfl, hs, hi, hf, he⟩ := hl
  have e1 := pExp_number hr he
  have e2 := pFrac_number (exp_head hr he) hf
  have e3 := pInt_number (frac_head (exp_head hr he) hf) hi
  have e4 : pMinus (sg ++ (int ++ (fr ++ (ex ++ r)))) = (sg, int ++ (fr ++ (ex ++ r))) := by
    rcases hs with rfl | rfl
    · rcases hi with rfl | ⟨hd, -⟩
      · rfl
      · match int, hd with
        | [], hd => exact absurd rfl hd.1
        | c :: ds, hd =>
          have := hd.2 c (by simp)
          simp only [List.nil_append, List.cons_append, pMinus]
          rw [if_neg]
          rintro rfl; simp at this
    · rfl
  simp only [List.append_assoc]
  unfold pNum
  rw [e4]
  simp only [e3, Option.bind_some, e2, e1, Option.map_some, List.append_assoc]

/-! ### Strings -/

theorem hexVal_iff (b : UInt8) (n : Nat) : hexVal b = some n ↔ Hex b n := by
  constructor
  · intro h
    have := ascii_forall (p := fun b => match hexVal b with
      | some n => hexLower[n]? == some b || hexUpper[n]? == some b
      | none => true) (by decide +kernel) b
    simp only [h, Bool.or_eq_true, beq_iff_eq] at this
    exact this
  · intro h
    have hn : n < 16 := by
      rcases h with h | h
      · obtain ⟨h', -⟩ := List.getElem?_eq_some_iff.mp h; exact h'
      · obtain ⟨h', -⟩ := List.getElem?_eq_some_iff.mp h; exact h'
    have t : ∀ n : Fin 16, (hexLower[n.val]?).bind hexVal = some n.val ∧ (hexUpper[n.val]?).bind hexVal = some n.val := by decide +kernel
    obtain ⟨t1, t2⟩ := t ⟨n, hn⟩
    rcases h with h | h
    · rw [h] at t1; exact t1
    · rw [h] at t2; exact t2

theorem hex4_iff (s : Bytes) (n : Nat) (t : Bytes) : hex4 s = some (n, t) ↔ ∃ h, s = h ++ t ∧ Hex4 h n := by
  constructor
  · intro h
    unfold hex4 at h
    split at h
    · rename_i a b c d u
      split at h
      · rename_i x y z w e1 e2 e3 e4
        simp only [Option.some.injEq, Prod.mk.injEq] at h
        obtain ⟨rfl, rfl⟩ := h
        exact ⟨[a, b, c, d], rfl, a, b, c, d, x, y, z, w, rfl, (hexVal_iff _ _).mp e1, (hexVal_iff _ _).mp e2, (hexVal_iff _ _).mp e3,
          (hexVal_iff _ _).mp e4, by omega⟩
      · exact nomatch h
    · exact nomatch h
  · rintro ⟨h, rfl, a, b, c, d, x, y, z, w, rfl, e1, e2, e3, e4, rfl⟩
    simp only [List.cons_append, List.nil_append, hex4, (hexVal_iff _ _).mpr e1, (hexVal_iff _ _).mpr e2, (hexVal_iff _ _).mpr e3,
      (hexVal_iff _ _).mpr e4, Option.some.injEq, Prod.mk.injEq, and_true]
    omega

theorem replacement_eq : replacement = String.utf8EncodeChar (Char.ofNat 0xFFFD) := by decide +kernel

theorem char_of (v : Nat) (hv : v < 0xD800 ∨ (0xDFFF < v ∧ v < 0x110000)) : ∃ c : Char, c.toNat = v := by
  refine ⟨Char.ofNat v, ?_⟩
  have : v.isValidChar := hv
  simp only [Char.ofNat, this, dif_pos, Char.ofNatAux]
  rfl

theorem encodeRune_char (c : Char) : encodeRune c.toNat = String.utf8EncodeChar c := by
  have hc := char_range c
  have e : c.toNat = c.val.toNat := rfl
  rw [e]
  unfold encodeRune String.utf8EncodeChar
  generalize c.val.toNat = v at *
  dsimp only
  by_cases h1 : v < 0x80
  · rw [if_pos h1, if_pos (show v ≤ 127 by omega)]
  · rw [if_neg h1, if_neg (show ¬ v ≤ 127 by omega)]
    by_cases h2 : v < 0x800
    · rw [if_pos h2, if_pos (show v ≤ 2047 by omega)]
      simp only [List.cons.injEq, and_true]
      refine ⟨congrArg _ (by omega), congrArg _ (by omega)⟩
    · rw [if_neg h2, if_neg (show ¬ v ≤ 2047 by omega), if_neg (show ¬ (0xD800 ≤ v ∧ v < 0xE000) by omega)]
      by_cases h3 : v < 0x10000
      · rw [if_pos h3, if_pos (show v ≤ 65535 by omega)]
        simp only [List.cons.injEq, and_true]
        refine ⟨congrArg _ (by omega), congrArg _ (by omega), congrArg _ (by omega)⟩
      · rw [if_neg h3, if_pos (show v < 0x110000 by omega), if_neg (show ¬ v ≤ 65535 by omega)]
        simp only [List.cons.injEq, and_true]
        refine ⟨congrArg _ (by omega), congrArg _ (by omega), congrArg _ (by omega), congrArg _ (by omega)⟩

/-- the bytes of a character: one below 128, or several of at least 128 -/
theorem enc_bytes (c : Char) : (c.toNat < 128 ∧ String.utf8EncodeChar c = [UInt8.ofNat c.toNat]) ∨
    (128 ≤ c.toNat ∧ ∀ b ∈ String.utf8EncodeChar c, 128 ≤ b.toNat) := by
  have hc := char_range c
  have e : c.toNat = c.val.toNat := rfl
  rw [e]
  unfold String.utf8EncodeChar
  generalize c.val.toNat = v at *
  dsimp only
  by_cases h1 : v < 128
  · left; refine ⟨h1, ?_⟩; rw [if_pos (by omega)]
  · right
    refine ⟨by omega, ?_⟩
    rw [if_neg (by omega)]
    by_cases h2 : v < 0x800
    · rw [if_pos (by omega)]
      intro b hb
      simp only [List.mem_cons, List.not_mem_nil, or_false] at hb
      rcases hb with rfl | rfl <;> rw [toNat_u8 _ (by omega)] <;> omega
    · rw [if_neg (by omega)]
      by_cases h3 : v < 0x10000
      · rw [if_pos (by omega)]
        intro b hb
        simp only [List.mem_cons, List.not_mem_nil, or_false] at hb
        rcases hb with rfl | rfl | rfl <;> rw [toNat_u8 _ (by omega)] <;> omega
      · rw [if_neg (by omega)]
        intro b hb
        simp only [List.mem_cons, List.not_mem_nil, or_false] at hb
        rcases hb with rfl | rfl | rfl | rfl <;> rw [toNat_u8 _ (by omega)] <;> omega

/-- a byte below 128 is a character -/
theorem enc_ascii (b : UInt8) (h : b.toNat < 128) : ∃ c : Char, c.toNat = b.toNat ∧ String.utf8EncodeChar c = [b] := by
  obtain ⟨c, hc⟩ := char_of b.toNat (by omega)
  refine ⟨c, hc, ?_⟩
  rcases enc_bytes c with ⟨-, e⟩ | ⟨e, -⟩
  · rw [e, hc, UInt8.ofNat_toNat]
  · omega

theorem escape_step (e c : Char) (h : (e, c) ∈ escapes) (t : Bytes) :
    strStep (0x5C :: (String.utf8EncodeChar e ++ t)) = some (.inr (String.utf8EncodeChar c, t)) := by
  simp only [escapes, List.mem_cons, Prod.mk.injEq, List.not_mem_nil, or_false] at h
  rcases h with ⟨rfl, rfl⟩ | ⟨rfl, rfl⟩ | ⟨rfl, rfl⟩ | ⟨rfl, rfl⟩ | ⟨rfl, rfl⟩ | ⟨rfl, rfl⟩ | ⟨rfl, rfl⟩ | ⟨rfl, rfl⟩ <;> rfl

/-- what follows a body: the first escape of it is not changed by the closing quote -/
theorem lowAhead_quote {t r : Bytes} : LowAhead (t ++ 0x22 :: r) ↔ LowAhead t := by
  constructor
  · rintro ⟨h, n, u, e, h4, hl⟩
    have h4' := h4
    obtain ⟨a, b, c, d, x, y, z, w, rfl, e1, e2, e3, e4, -⟩ := h4'
    have nq : ∀ b x, Hex b x → b ≠ 0x22 := by
      rintro b x hb rfl
      rw [← hexVal_iff] at hb
      exact nomatch hb
    simp only [List.cons_append, List.nil_append] at e
    match t, e with
    | [], e => simp at e
    | [_], e => simp at e
    | [_, _], e => simp at e; exact absurd e.2.2.1.symm (nq _ _ e1)
    | [_, _, _], e => simp at e; exact absurd e.2.2.2.1.symm (nq _ _ e2)
    | [_, _, _, _], e => simp at e; exact absurd e.2.2.2.2.1.symm (nq _ _ e3)
    | [_, _, _, _, _], e => simp at e; exact absurd e.2.2.2.2.2.1.symm (nq _ _ e4)
    | t1 :: t2 :: t3 :: t4 :: t5 :: t6 :: t, e =>
      simp only [List.cons_append, List.cons.injEq] at e
      obtain ⟨rfl, rfl, rfl, rfl, rfl, rfl, -⟩ := e
      exact ⟨_, n, t, rfl, h4, hl⟩
  · rintro ⟨h, n, u, rfl, h4, hl⟩
    exact ⟨h, n, u ++ 0x22 :: r, by simp, h4, hl⟩

theorem uEscape_low (n : Nat) (hn : 0xD800 ≤ n ∧ n < 0xE000) (t : Bytes) (h : (High n ∧ ¬ LowAhead t) ∨ Low n) : uEscape n t = (replacement, t) := by
  unfold uEscape
  rw [if_pos hn]
  split
  · rename_i t'
    split
    · rename_i m t'' e
      rw [if_neg]
      rintro ⟨c1, c2⟩
      rcases h with ⟨-, h⟩ | h
      · obtain ⟨h', rfl, e'⟩ := (hex4_iff _ _ _).mp e
        exact h ⟨h', m, t'', rfl, e', c2⟩
      · unfold Low at h; omega
    · rfl
  · rfl

theorem pStr_sound : ∀ (f : Nat) (s x u : Bytes), pStr f s = some (x, u) → ∃ t, s = t ++ 0x22 :: u ∧ StrText t x
  | 0, _, _, _, h => by simp [pStr] at h
  | f + 1, s, x, u, h => by
    rw [pStr] at h
    match hs : strStep s with
    | none => rw [hs] at h; exact nomatch h
    | some (.inl t) =>
      rw [hs] at h
      simp only [Option.some.injEq, Prod.mk.injEq] at h
      obtain ⟨rfl, rfl⟩ := h
      exact ⟨[], strStep_end_length hs, .nil⟩
    | some (.inr (b, t)) =>
      rw [hs] at h
      obtain ⟨⟨x', u'⟩, h2, h3⟩ := Option.map_eq_some_iff.mp h
      simp only [Prod.mk.injEq] at h3
      obtain ⟨rfl, rfl⟩ := h3
      obtain ⟨body, ht, hb⟩ := pStr_sound f t x' u' h2
      match s, hs with
      | [], hs => simp [strStep] at hs
      | c :: s, hs =>
        unfold strStep at hs
        dsimp only at hs
        split at hs
        · exact nomatch hs
        · rename_i c1
          split at hs
          · rename_i c2
            subst c2
            match s, hs with
            | [], hs => simp at hs
            | e :: s, hs =>
              dsimp only at hs
              split at hs
              · rename_i c3
                subst c3
                obtain ⟨⟨n, v⟩, h4, h5⟩ := Option.map_eq_some_iff.mp hs
                simp only [Sum.inr.injEq] at h5
                obtain ⟨hx, rfl, hh⟩ := (hex4_iff _ _ _).mp h4
                by_cases hn : 0xD800 ≤ n ∧ n < 0xE000
                · by_cases hp : (High n ∧ ¬ LowAhead v) ∨ Low n
                  · rw [uEscape_low n hn v hp] at h5
                    simp only [Prod.mk.injEq] at h5
                    obtain ⟨rfl, rfl⟩ := h5
                    subst ht
                    refine ⟨0x5C :: 0x75 :: (hx ++ body), by simp, ?_⟩
                    rw [replacement_eq]
                    rw [lowAhead_quote] at hp
                    exact .lone hx n hh hp hb
                  · have hH : High n := by
                      unfold High
                      by_cases hl : Low n
                      · exact absurd (.inr hl) hp
                      · unfold Low at hl; omega
                    have hA : LowAhead v := by
                      by_cases hA : LowAhead v
                      · exact hA
                      · exact absurd (.inl ⟨hH, hA⟩) hp
                    obtain ⟨l, m, v', rfl, hl4, hlow⟩ := hA
                    unfold High at hH
                    unfold Low at hlow
                    simp only [uEscape] at h5
                    rw [if_pos hn, (hex4_iff _ _ _).mpr ⟨l, rfl, hl4⟩] at h5
                    dsimp only at h5
                    rw [if_pos ⟨hH.2, hlow⟩] at h5
                    simp only [Prod.mk.injEq] at h5
                    obtain ⟨rfl, rfl⟩ := h5
                    subst ht
                    obtain ⟨ch, hch⟩ := char_of (0x10000 + (n - 0xD800) * 1024 + (m - 0xDC00)) (by omega)
                    rw [← hch, encodeRune_char]
                    exact ⟨0x5C :: 0x75 :: (hx ++ 0x5C :: 0x75 :: (l ++ body)), by simp, .pair hx l n m ch hh hH hl4 hlow (by omega) hb⟩
                · unfold uEscape at h5
                  rw [if_neg hn] at h5
                  simp only [Prod.mk.injEq] at h5
                  obtain ⟨rfl, rfl⟩ := h5
                  subst ht
                  have hlt : n < 65536 := by
                    obtain ⟨a, b, c, d, x, y, z, w, rfl, e1, e2, e3, e4, rfl⟩ := hh
                    have lt : ∀ b x, Hex b x → x < 16 := by
                      intro b x hb
                      rcases hb with hb | hb
                      · obtain ⟨h', -⟩ := List.getElem?_eq_some_iff.mp hb; exact h'
                      · obtain ⟨h', -⟩ := List.getElem?_eq_some_iff.mp hb; exact h'
                    have := lt _ _ e1; have := lt _ _ e2; have := lt _ _ e3; have := lt _ _ e4
                    omega
                  obtain ⟨ch, hch⟩ := char_of n (by omega)
                  subst hch
                  rw [encodeRune_char]
                  exact ⟨0x5C :: 0x75 :: (hx ++ body), by simp, .uni hx ch hh hb⟩
              · have fin : ∀ (ec cc : Char), (ec, cc) ∈ escapes → String.utf8EncodeChar ec = [e] → String.utf8EncodeChar cc = b → s = t →
                    ∃ t', 0x5C :: e :: s = t' ++ 0x22 :: u' ∧ StrText t' (b ++ x') := by
                  rintro ec cc hm he rfl rfl
                  subst ht
                  refine ⟨0x5C :: e :: body, by simp, ?_⟩
                  have := StrText.esc ec cc hm hb
                  rw [he] at this
                  exact this
                split at hs
                · rename_i c4
                  simp only [Option.some.injEq, Sum.inr.injEq, Prod.mk.injEq] at hs
                  rcases c4 with rfl | rfl | rfl
                  · exact fin '"' '"' (by decide) (by decide +kernel) (hs.1 ▸ by decide +kernel) hs.2
                  · exact fin '\\' '\\' (by decide) (by decide +kernel) (hs.1 ▸ by decide +kernel) hs.2
                  · exact fin '/' '/' (by decide) (by decide +kernel) (hs.1 ▸ by decide +kernel) hs.2
                split at hs
                · rename_i c4
                  simp only [Option.some.injEq, Sum.inr.injEq, Prod.mk.injEq] at hs
                  subst c4
                  exact fin 'b' (Char.ofNat 8) (by decide) (by decide +kernel) (hs.1 ▸ by decide +kernel) hs.2
                split at hs
                · rename_i c4
                  simp only [Option.some.injEq, Sum.inr.injEq, Prod.mk.injEq] at hs
                  subst c4
                  exact fin 'f' (Char.ofNat 12) (by decide) (by decide +kernel) (hs.1 ▸ by decide +kernel) hs.2
                split at hs
                · rename_i c4
                  simp only [Option.some.injEq, Sum.inr.injEq, Prod.mk.injEq] at hs
                  subst c4
                  exact fin 'n' '\n' (by decide) (by decide +kernel) (hs.1 ▸ by decide +kernel) hs.2
                split at hs
                · rename_i c4
                  simp only [Option.some.injEq, Sum.inr.injEq, Prod.mk.injEq] at hs
                  subst c4
                  exact fin 'r' '\r' (by decide) (by decide +kernel) (hs.1 ▸ by decide +kernel) hs.2
                split at hs
                · rename_i c4
                  simp only [Option.some.injEq, Sum.inr.injEq, Prod.mk.injEq] at hs
                  subst c4
                  exact fin 't' '\t' (by decide) (by decide +kernel) (hs.1 ▸ by decide +kernel) hs.2
                · exact nomatch hs
          · rename_i c2
            split at hs
            · exact nomatch hs
            · rename_i c3
              split at hs
              · rename_i h0
                simp only [Option.some.injEq, Sum.inr.injEq, Prod.mk.injEq] at hs
                obtain ⟨rfl, rfl⟩ := hs
                subst ht
                refine ⟨c :: body, rfl, ?_⟩
                rw [replacement_eq]
                refine .bad c ?_ hb
                intro ch r e
                obtain ⟨k1, k2⟩ := utf8Head_char ch (r ++ 0x22 :: u')
                rw [← List.append_assoc, ← e, List.cons_append, h0] at k1
                omega
              · rename_i k h0
                simp only [Option.some.injEq, Sum.inr.injEq, Prod.mk.injEq] at hs
                obtain ⟨rfl, e⟩ := hs
                obtain ⟨ch, hch⟩ := head_char c s k h0
                rw [List.take_succ_cons] at hch
                refine ⟨String.utf8EncodeChar ch ++ body, ?_, ?_⟩
                · rw [hch, List.append_assoc, ← ht, ← e, List.cons_append, List.take_append_drop]
                · rw [← hch]
                  have first : ∀ d : UInt8, d.toNat < 128 → ch.toNat = d.toNat → c = d := by
                    intro d hd hcd
                    rcases enc_bytes ch with ⟨-, e'⟩ | ⟨e', -⟩
                    · rw [e', hcd, UInt8.ofNat_toNat] at hch
                      exact (List.cons.inj hch).1.symm
                    · omega
                  refine .char ch ?_ ?_ ?_ hb
                  · apply Nat.le_of_not_lt
                    intro hlt
                    have e1 : (UInt8.ofNat ch.toNat).toNat = ch.toNat := toNat_u8 _ (by omega)
                    have := first (UInt8.ofNat ch.toNat) (by omega) e1.symm
                    apply c3
                    rw [this, UInt8.lt_iff_toNat_lt, e1]; exact hlt
                  · rintro rfl; exact c1 (first 0x22 (by decide) (by decide))
                  · rintro rfl; exact c2 (first 0x5C (by decide) (by decide))

theorem strStep_char (ch : Char) (h1 : 0x20 ≤ ch.toNat) (h2 : ch ≠ '"') (h3 : ch ≠ '\\') (r : Bytes) :
    strStep (String.utf8EncodeChar ch ++ r) = some (.inr (String.utf8EncodeChar ch, r)) := by
  obtain ⟨k1, k2⟩ := utf8Head_char ch r
  have hb := enc_bytes ch
  have inj : ∀ d : Char, ch.toNat = d.toNat → ch = d := fun d h => Char.toNat_inj.mp h
  generalize String.utf8EncodeChar ch = e at *
  match e with
  | [] => simp at k2
  | a :: t =>
    have a1 : a ≠ 0x22 ∧ a ≠ 0x5C ∧ ¬ a < 0x20 := by
      rcases hb with ⟨l, e⟩ | ⟨l, e⟩
      · obtain ⟨rfl, -⟩ := List.cons.inj e
        refine ⟨?_, ?_, ?_⟩
        · intro h
          have := congrArg UInt8.toNat h
          rw [toNat_u8 _ (by omega)] at this
          exact h2 (inj '"' this)
        · intro h
          have := congrArg UInt8.toNat h
          rw [toNat_u8 _ (by omega)] at this
          exact h3 (inj '\\' this)
        · rw [UInt8.lt_iff_toNat_lt, toNat_u8 _ (by omega)]
          exact Nat.not_lt.mpr h1
      · have := e a (by simp)
        refine ⟨?_, ?_, ?_⟩
        · rintro rfl; simp at this
        · rintro rfl; simp at this
        · rw [UInt8.lt_iff_toNat_lt]; exact Nat.not_lt.mpr (by simp; omega)
    rw [List.cons_append] at k1 ⊢
    unfold strStep
    dsimp only
    rw [if_neg a1.1, if_neg a1.2.1, if_neg a1.2.2, k1]
    simp

theorem strStep_bad (b : UInt8) (t r : Bytes) (h : ∀ c u, b :: t ≠ String.utf8EncodeChar c ++ u) :
    strStep (b :: (t ++ 0x22 :: r)) = some (.inr (replacement, t ++ 0x22 :: r)) := by
  have hb : 128 ≤ b.toNat := by
    apply Nat.le_of_not_lt
    intro hlt
    obtain ⟨c, -, e⟩ := enc_ascii b hlt
    exact h c t (by rw [e]; rfl)
  have h0 : utf8Head (b :: (t ++ 0x22 :: r)) = 0 := by
    match hk : utf8Head (b :: (t ++ 0x22 :: r)) with
    | 0 => rfl
    | k + 1 =>
      exfalso
      obtain ⟨c, hc⟩ := head_char _ _ _ hk
      have e : (b :: t) ++ 0x22 :: r = String.utf8EncodeChar c ++ (b :: (t ++ 0x22 :: r)).drop (k + 1) := by
        rw [hc, List.take_append_drop]; rfl
      rcases List.append_eq_append_iff.mp e with ⟨a', e1, e2⟩ | ⟨c', e1, -⟩
      · match a', e1, e2 with
        | [], e1, _ => exact h c [] (by rw [e1]; simp)
        | x :: a', e1, e2 =>
          obtain ⟨rfl, -⟩ := List.cons.inj e2
          rcases enc_bytes c with ⟨-, e'⟩ | ⟨-, e'⟩
          · rw [e'] at e1
            have := congrArg List.length e1
            simp at this
          · have := e' 0x22 (by rw [e1]; simp)
            simp at this
      · exact h c c' e1
  unfold strStep
  dsimp only
  rw [if_neg (by rintro rfl; simp at hb), if_neg (by rintro rfl; simp at hb),
    if_neg (by rw [UInt8.lt_iff_toNat_lt]; exact Nat.not_lt.mpr (by simp; omega)), h0]

theorem pStr_complete {t v : Bytes} (h : StrText t v) : ∀ (f : Nat) (r : Bytes), t.length < f → pStr f (t ++ 0x22 :: r) = some (v, r) := by
  have step : ∀ (tok out s v : Bytes) (f : Nat) (r : Bytes), tok ≠ [] → (tok ++ s).length < f →
      (∀ (f : Nat) (r : Bytes), s.length < f → pStr f (s ++ 0x22 :: r) = some (v, r)) →
      strStep (tok ++ (s ++ 0x22 :: r)) = some (.inr (out, s ++ 0x22 :: r)) → pStr f ((tok ++ s) ++ 0x22 :: r) = some (out ++ v, r) := by
    intro tok out s v f r ht hf ih hst
    match f with
    | 0 => omega
    | f + 1 =>
      have : tok.length ≠ 0 := fun h => ht (List.length_eq_zero_iff.mp h)
      rw [List.length_append] at hf
      rw [List.append_assoc, pStr, hst]
      dsimp only
      rw [ih f r (by omega)]
      rfl
  induction h with
  | nil =>
    intro f r hf
    match f with
    | 0 => simp at hf
    | f + 1 => simp [pStr, strStep]
  | @char t v c h1 h2 h3 _ ih =>
    intro f r hf
    refine step _ _ _ _ f r ?_ hf ih (strStep_char c h1 h2 h3 _)
    intro e
    have := (utf8Head_char c []).2
    rw [e] at this; simp at this
  | @bad t v b hb _ ih =>
    intro f r hf
    rw [← replacement_eq]
    exact step [b] _ _ _ f r (by simp) hf ih (strStep_bad b _ _ hb)
  | @esc t v e c hm _ ih =>
    intro f r hf
    exact step (0x5C :: String.utf8EncodeChar e) _ _ _ f r (by simp) hf ih (escape_step e c hm _)
  | @uni t v h c hh _ ih =>
    intro f r hf
    have e : (0x5C :: 0x75 :: (h ++ t) : Bytes) = (0x5C :: 0x75 :: h) ++ t := rfl
    rw [e] at hf ⊢
    refine step _ _ _ _ f r (by simp) hf ih ?_
    rw [List.cons_append, List.cons_append, strStep_u, (hex4_iff _ _ _).mpr ⟨h, rfl, hh⟩, Option.map_some]
    dsimp only
    unfold uEscape
    have := char_range c
    rw [if_neg (by have : c.toNat = c.val.toNat := rfl; omega), encodeRune_char]
  | @pair t v h l n m c hh hn hl hm hc _ ih =>
    intro f r hf
    have e : (0x5C :: 0x75 :: (h ++ 0x5C :: 0x75 :: (l ++ t)) : Bytes) = (0x5C :: 0x75 :: (h ++ 0x5C :: 0x75 :: l)) ++ t := by simp
    rw [e] at hf ⊢
    refine step _ _ _ _ f r (by simp) hf ih ?_
    rw [List.cons_append, List.cons_append, strStep_u, List.append_assoc, (hex4_iff _ _ _).mpr ⟨h, rfl, hh⟩, Option.map_some]
    unfold High at hn
    unfold Low at hm
    dsimp only
    simp only [List.cons_append, uEscape]
    rw [if_pos (by omega), (hex4_iff _ _ _).mpr ⟨l, rfl, hl⟩]
    dsimp only
    rw [if_pos ⟨hn.2, hm⟩, ← encodeRune_char, hc, Nat.mul_comm 0x400]
  | @lone t v h n hh hs _ ih =>
    intro f r hf
    have e : (0x5C :: 0x75 :: (h ++ t) : Bytes) = (0x5C :: 0x75 :: h) ++ t := rfl
    rw [e] at hf ⊢
    rw [← replacement_eq]
    refine step _ _ _ _ f r (by simp) hf ih ?_
    rw [List.cons_append, List.cons_append, strStep_u, (hex4_iff _ _ _).mpr ⟨h, rfl, hh⟩, Option.map_some]
    dsimp only
    rw [uEscape_low n (by unfold High Low at hs; omega) _ (by rw [lowAhead_quote]; exact hs)]

end Coniks.Json

import Verif.Spec.Wire
import Verif.Proofs.Json.Codec
/-
`clean` leaves exactly the valid UTF-8 strings alone.
-/
namespace Coniks.Json
open Spec

theorem char_range (c : Char) : c.val.toNat < 0xD800 ∨ (0xDFFF < c.val.toNat ∧ c.val.toNat < 0x110000) := c.valid

theorem u8_lt (n k : Nat) (hn : n < 256) (hk : k < 256) : (UInt8.ofNat n < UInt8.ofNat k) ↔ n < k := by
  rw [UInt8.lt_iff_toNat_lt, UInt8.toNat_ofNat', UInt8.toNat_ofNat', Nat.mod_eq_of_lt (by omega), Nat.mod_eq_of_lt (by omega)]

theorem isCont_iff (b : UInt8) : isCont b = true ↔ 0x80 ≤ b.toNat ∧ b.toNat ≤ 0xBF := by
  simp only [isCont, Bool.and_eq_true, decide_eq_true_eq, UInt8.le_iff_toNat_le]
  exact Iff.rfl

theorem utf8Head_nat (a : UInt8) (t : Bytes) : utf8Head (a :: t) =
    if a.toNat < 0x80 then 1
    else if a.toNat < 0xC2 then 0
    else if a.toNat < 0xE0 then
      match t with
      | b :: _ => if isCont b then 2 else 0
      | _ => 0
    else if a.toNat < 0xF0 then
      match t with
      | b :: c :: _ =>
        if isCont b ∧ isCont c ∧ (a.toNat ≠ 0xE0 ∨ 0xA0 ≤ b.toNat) ∧ (a.toNat ≠ 0xED ∨ b.toNat ≤ 0x9F) then 3 else 0
      | _ => 0
    else if a.toNat < 0xF5 then
      match t with
      | b :: c :: d :: _ =>
        if isCont b ∧ isCont c ∧ isCont d ∧ (a.toNat ≠ 0xF0 ∨ 0x90 ≤ b.toNat) ∧ (a.toNat ≠ 0xF4 ∨ b.toNat ≤ 0x8F) then 4 else 0
      | _ => 0
    else 0 := by
  have e : ∀ (x y : UInt8), (x != y) = true ↔ x.toNat ≠ y.toNat := by
    intro x y
    rw [bne_iff_ne, ne_eq, ne_eq, UInt8.toNat_inj]
  have l1 : ∀ x : UInt8, (x < 0x80) = (x.toNat < 0x80) := fun x => propext UInt8.lt_iff_toNat_lt
  have l2 : ∀ x : UInt8, (x < 0xC2) = (x.toNat < 0xC2) := fun x => propext UInt8.lt_iff_toNat_lt
  have l3 : ∀ x : UInt8, (x < 0xE0) = (x.toNat < 0xE0) := fun x => propext UInt8.lt_iff_toNat_lt
  have l4 : ∀ x : UInt8, (x < 0xF0) = (x.toNat < 0xF0) := fun x => propext UInt8.lt_iff_toNat_lt
  have l5 : ∀ x : UInt8, (x < 0xF5) = (x.toNat < 0xF5) := fun x => propext UInt8.lt_iff_toNat_lt
  have g1 : ∀ x : UInt8, (0xA0 ≤ x) = (0xA0 ≤ x.toNat) := fun x => propext UInt8.le_iff_toNat_le
  have g2 : ∀ x : UInt8, (x ≤ 0x9F) = (x.toNat ≤ 0x9F) := fun x => propext UInt8.le_iff_toNat_le
  have g3 : ∀ x : UInt8, (0x90 ≤ x) = (0x90 ≤ x.toNat) := fun x => propext UInt8.le_iff_toNat_le
  have g4 : ∀ x : UInt8, (x ≤ 0x8F) = (x.toNat ≤ 0x8F) := fun x => propext UInt8.le_iff_toNat_le
  unfold utf8Head
  simp only [l1, l2, l3, l4, l5, Bool.and_eq_true, Bool.or_eq_true, e, decide_eq_true_eq, g1, g2, g3, g4, and_assoc]
  rfl

theorem toNat_u8 (n : Nat) (h : n < 256) : (UInt8.ofNat n).toNat = n := by rw [UInt8.toNat_ofNat', Nat.mod_eq_of_lt (by omega)]

theorem utf8Head_char (c : Char) (r : Bytes) :
    utf8Head (String.utf8EncodeChar c ++ r) = (String.utf8EncodeChar c).length ∧ 0 < (String.utf8EncodeChar c).length := by
  have hc := char_range c
  unfold String.utf8EncodeChar
  generalize c.val.toNat = v at *
  simp only
  split
  · simp only [List.singleton_append, utf8Head_nat, List.length_singleton, Nat.lt_irrefl, Nat.zero_lt_one, and_true]
    rw [toNat_u8 _ (by omega), if_pos (by omega)]
  · split
    · simp only [List.cons_append, List.nil_append, utf8Head_nat, List.length_cons, List.length_nil, isCont_iff]
      rw [toNat_u8 _ (by omega), toNat_u8 _ (by omega), if_neg (by omega), if_neg (by omega), if_pos (by omega), if_pos (by omega)]
      omega
    · split
      · simp only [List.cons_append, List.nil_append, utf8Head_nat, List.length_cons, List.length_nil, isCont_iff]
        rw [toNat_u8 _ (by omega), toNat_u8 _ (by omega), toNat_u8 _ (by omega), if_neg (by omega), if_neg (by omega), if_neg (by omega),
          if_pos (by omega), if_pos (by omega)]
        omega
      · simp only [List.cons_append, List.nil_append, utf8Head_nat, List.length_cons, List.length_nil, isCont_iff]
        rw [toNat_u8 _ (by omega), toNat_u8 _ (by omega), toNat_u8 _ (by omega), toNat_u8 _ (by omega), if_neg (by omega), if_neg (by omega),
          if_neg (by omega), if_neg (by omega), if_pos (by omega), if_pos (by omega)]
        omega

theorem clean_char (c : Char) (r : Bytes) : clean (String.utf8EncodeChar c ++ r) = String.utf8EncodeChar c ++ clean r := by
  obtain ⟨h1, h2⟩ := utf8Head_char c r
  generalize String.utf8EncodeChar c = e at *
  match e with
  | [] => simp at h2
  | a :: t =>
    rw [List.cons_append] at h1 ⊢
    rw [clean_cons a (t ++ r) t.length h1]
    simp

theorem clean_valid (s : Bytes) (h : Utf8 s) : clean s = s := by
  obtain ⟨cs, rfl⟩ := h
  induction cs with
  | nil => rfl
  | cons c cs ih => rw [List.flatMap_cons, clean_char, ih]

/-- the sequences `utf8Head` accepts are encodings of characters -/
theorem head_char (a : UInt8) (t : Bytes) (k : Nat) (h : utf8Head (a :: t) = k + 1) :
    ∃ c, String.utf8EncodeChar c = (a :: t).take (k + 1) := by
  have mk : ∀ v : Nat, (v < 0xD800 ∨ (0xDFFF < v ∧ v < 0x110000)) → ∃ c : Char, c.val.toNat = v := by
    intro v hv
    refine ⟨Char.ofNat v, ?_⟩
    have : v.isValidChar := hv
    simp only [Char.ofNat, this, dif_pos, Char.ofNatAux]
    rfl
  have ha := a.toNat_lt
  have back : ∀ x : UInt8, ∀ n, n = x.toNat → UInt8.ofNat n = x := by rintro x n rfl; exact UInt8.ofNat_toNat
  rw [utf8Head_nat] at h
  split at h
  · obtain ⟨c, hc⟩ := mk a.toNat (by omega)
    have : k = 0 := by omega
    subst this
    refine ⟨c, ?_⟩
    unfold String.utf8EncodeChar
    simp only [hc]
    rw [if_pos (by omega)]
    simp
  split at h
  · omega
  split at h
  · match t, h with
    | [], h => simp at h
    | b :: t, h =>
      simp only [isCont_iff] at h
      split at h
      · rename_i hb
        have : k = 1 := by omega
        subst this
        obtain ⟨c, hc⟩ := mk ((a.toNat - 192) * 64 + (b.toNat - 128)) (by omega)
        refine ⟨c, ?_⟩
        unfold String.utf8EncodeChar
        simp only [hc]
        rw [if_neg (by omega), if_pos (by omega), back a _ (by omega), back b _ (by omega)]
        rfl
      · omega
  split at h
  · match t, h with
    | [], h => simp at h
    | [_], h => simp at h
    | b :: d :: t, h =>
      simp only [isCont_iff] at h
      split at h
      · rename_i hb
        have : k = 2 := by omega
        subst this
        obtain ⟨c, hc⟩ := mk ((a.toNat - 224) * 4096 + (b.toNat - 128) * 64 + (d.toNat - 128)) (by omega)
        refine ⟨c, ?_⟩
        unfold String.utf8EncodeChar
        simp only [hc]
        rw [if_neg (by omega), if_neg (by omega), if_pos (by omega), back a _ (by omega), back b _ (by omega), back d _ (by omega)]
        rfl
      · omega
  split at h
  · match t, h with
    | [], h => simp at h
    | [_], h => simp at h
    | [_, _], h => simp at h
    | b :: d :: e :: t, h =>
      simp only [isCont_iff] at h
      split at h
      · rename_i hb
        have : k = 3 := by omega
        subst this
        obtain ⟨c, hc⟩ := mk ((a.toNat - 240) * 262144 + (b.toNat - 128) * 4096 + (d.toNat - 128) * 64 + (e.toNat - 128)) (by omega)
        refine ⟨c, ?_⟩
        unfold String.utf8EncodeChar
        simp only [hc]
        rw [if_neg (by omega), if_neg (by omega), if_neg (by omega), back a _ (by omega), back b _ (by omega), back d _ (by omega),
          back e _ (by omega)]
        rfl
      · omega
  · omega

theorem utf8_cons (c : Char) (s : Bytes) (h : Utf8 s) : Utf8 (String.utf8EncodeChar c ++ s) := by
  obtain ⟨cs, rfl⟩ := h
  exact ⟨c :: cs, by rw [List.flatMap_cons]⟩

/-- what comes out is always valid -/
theorem clean_utf8 : ∀ (n : Nat) (s : Bytes), s.length ≤ n → Utf8 (clean s)
  | _, [], _ => ⟨[], rfl⟩
  | 0, _ :: _, h => absurd h (by simp)
  | n + 1, a :: t, hn => by
    simp only [List.length_cons] at hn
    match hk : utf8Head (a :: t) with
    | 0 =>
      rw [clean_bad a t hk]
      exact utf8_cons (Char.ofNat 0xFFFD) _ (clean_utf8 n t (by omega))
    | k + 1 =>
      obtain ⟨c, hc⟩ := head_char a t k hk
      rw [clean_cons a t k hk]
      have : (a :: t).take (k + 1) = a :: t.take k := rfl
      rw [this] at hc
      have := utf8_cons c _ (clean_utf8 n (t.drop k) (by rw [List.length_drop]; omega))
      rw [hc] at this
      exact this

theorem clean_iff (s : Bytes) : clean s = s ↔ Utf8 s :=
  ⟨fun h => by have := clean_utf8 s.length s (Nat.le_refl _); rwa [h] at this, clean_valid s⟩

end Coniks.Json

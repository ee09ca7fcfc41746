import Verif.Spec.Base64
import Verif.Proofs.Utils
import Verif.Proofs.Json.Codec
/-
The base64 and number decoders against their specifications.
-/
namespace Coniks.Json
open Coniks Spec

theorem b64Char_alphabet (n : Nat) (h : n < 64) : b64Char n = alphabet.getD n 0 := by
  have : ∀ n : Fin 64, b64Char n.val = alphabet.getD n.val 0 := by decide +kernel
  exact this ⟨n, h⟩

theorem b64Val_some {c : UInt8} {n : Nat} (h : b64Val c = some n) : n < 64 ∧ c = b64Char n := by
  have : ∀ c : Fin 256, ∀ n, b64Val (UInt8.ofNat c.val) = some n → n < 64 ∧ UInt8.ofNat c.val = b64Char n := by
    have key : ∀ c : Fin 256, (match b64Val (UInt8.ofNat c.val) with | some n => decide (n < 64 ∧ UInt8.ofNat c.val = b64Char n) | none => true) = true := by
      decide +kernel
    intro c n hn
    have := key c
    rw [hn] at this
    simpa using this
  have h' := this ⟨c.toNat, c.toNat_lt⟩ n (by simpa using h)
  simpa using h'

theorem bits3 (x y z w : Nat) (hx : x < 64) (hy : y < 64) (hz : z < 64) (hw : w < 64) :
    sixBits x ++ sixBits y ++ sixBits z ++ sixBits w =
      byteBits (UInt8.ofNat (x * 4 + y / 16)) ++ byteBits (UInt8.ofNat (y % 16 * 16 + z / 4)) ++ byteBits (UInt8.ofNat (z % 4 * 64 + w)) := by
  have e1 : (UInt8.ofNat (x * 4 + y / 16)).toNat = x * 4 + y / 16 := by rw [UInt8.toNat_ofNat', Nat.mod_eq_of_lt]; omega
  have e2 : (UInt8.ofNat (y % 16 * 16 + z / 4)).toNat = y % 16 * 16 + z / 4 := by rw [UInt8.toNat_ofNat', Nat.mod_eq_of_lt]; omega
  have e3 : (UInt8.ofNat (z % 4 * 64 + w)).toNat = z % 4 * 64 + w := by rw [UInt8.toNat_ofNat', Nat.mod_eq_of_lt]; omega
  simp only [sixBits, byteBits, bitOfByte, e1, e2, e3, List.map_cons, List.map_nil, List.cons_append, List.nil_append]
  congr 1
  · congr 1; omega
  iterate 23
    congr 1
    · congr 1; omega

theorem bits2 (x y z : Nat) (hx : x < 64) (hy : y < 64) (hz : z < 64) :
    sixBits x ++ sixBits y ++ sixBits z =
      byteBits (UInt8.ofNat (x * 4 + y / 16)) ++ byteBits (UInt8.ofNat (y % 16 * 16 + z / 4)) ++ [z / 2 ^ 1 % 2 == 1, z / 2 ^ 0 % 2 == 1] := by
  have e1 : (UInt8.ofNat (x * 4 + y / 16)).toNat = x * 4 + y / 16 := by rw [UInt8.toNat_ofNat', Nat.mod_eq_of_lt]; omega
  have e2 : (UInt8.ofNat (y % 16 * 16 + z / 4)).toNat = y % 16 * 16 + z / 4 := by rw [UInt8.toNat_ofNat', Nat.mod_eq_of_lt]; omega
  simp only [sixBits, byteBits, bitOfByte, e1, e2, List.map_cons, List.map_nil, List.cons_append, List.nil_append]
  iterate 16
    congr 1
    · congr 1; omega

theorem bits1 (x y : Nat) (hx : x < 64) (hy : y < 64) :
    sixBits x ++ sixBits y =
      byteBits (UInt8.ofNat (x * 4 + y / 16)) ++ [y / 2 ^ 3 % 2 == 1, y / 2 ^ 2 % 2 == 1, y / 2 ^ 1 % 2 == 1, y / 2 ^ 0 % 2 == 1] := by
  have e1 : (UInt8.ofNat (x * 4 + y / 16)).toNat = x * 4 + y / 16 := by rw [UInt8.toNat_ofNat', Nat.mod_eq_of_lt]; omega
  simp only [sixBits, byteBits, bitOfByte, e1, List.map_cons, List.map_nil, List.cons_append, List.nil_append]
  iterate 8
    congr 1
    · congr 1; omega

/-- the text of sextets with padding -/
def textOf (ns : List Nat) (p : Nat) : Bytes := ns.map b64Char ++ List.replicate p 0x3D

theorem b64DecAux_text : ∀ (ns : List Nat) (p : Nat), (∀ n ∈ ns, n < 64) → p ≤ 2 → (ns.length + p) % 4 = 0 →
    ∃ b rest, b64DecAux (textOf ns p) = some b ∧ ns.flatMap sixBits = bitsOf b ++ rest ∧ rest.length = 2 * p
  | [], p, _, hp, hl => by
    obtain rfl : p = 0 := by simp at hl; omega
    exact ⟨[], [], rfl, rfl, rfl⟩
  | [x], p, _, hp, hl => by simp at hl; omega
  | [x, y], p, hn, hp, hl => by
    obtain rfl : p = 2 := by simp at hl; omega
    have hx := hn x (by simp)
    have hy := hn y (by simp)
    refine ⟨[UInt8.ofNat (x * 4 + y / 16)], [y / 2 ^ 3 % 2 == 1, y / 2 ^ 2 % 2 == 1, y / 2 ^ 1 % 2 == 1, y / 2 ^ 0 % 2 == 1], ?_, ?_, rfl⟩
    · simp [textOf, b64DecAux, (b64Val_char x hx).1, (b64Val_char y hy).1, List.replicate]
    · have := bits1 x y hx hy
      simpa [bitsOf] using this
  | [x, y, z], p, hn, hp, hl => by
    obtain rfl : p = 1 := by simp at hl; omega
    have hx := hn x (by simp)
    have hy := hn y (by simp)
    have hz := hn z (by simp)
    refine ⟨[UInt8.ofNat (x * 4 + y / 16), UInt8.ofNat (y % 16 * 16 + z / 4)], [z / 2 ^ 1 % 2 == 1, z / 2 ^ 0 % 2 == 1], ?_, ?_, rfl⟩
    · simp [textOf, b64DecAux, (b64Val_char x hx).1, (b64Val_char y hy).1, (b64Val_char z hz).1, (b64Val_char z hz).2.1, List.replicate]
    · have := bits2 x y z hx hy hz
      simpa [bitsOf] using this
  | x :: y :: z :: w :: ns, p, hn, hp, hl => by
    have hx := hn x (by simp)
    have hy := hn y (by simp)
    have hz := hn z (by simp)
    have hw := hn w (by simp)
    obtain ⟨b, rest, h1, h2, h3⟩ := b64DecAux_text ns p (fun n h => hn n (by simp [h])) hp (by simp at hl; omega)
    refine ⟨UInt8.ofNat (x * 4 + y / 16) :: UInt8.ofNat (y % 16 * 16 + z / 4) :: UInt8.ofNat (z % 4 * 64 + w) :: b, rest, ?_, ?_, h3⟩
    · have ht : textOf (x :: y :: z :: w :: ns) p = b64Char x :: b64Char y :: b64Char z :: b64Char w :: textOf ns p := by simp [textOf]
      rw [ht]
      simp only [b64DecAux, (b64Val_char x hx).1, (b64Val_char y hy).1, (b64Val_char z hz).1, (b64Val_char w hw).1, if_neg (b64Val_char z hz).2.1,
        if_neg (b64Val_char w hw).2.1, h1, Option.map_some]
    · have := bits3 x y z w hx hy hz hw
      simp only [List.flatMap_cons, h2, bitsOf]
      simp only [List.append_assoc] at this ⊢
      rw [← List.append_assoc (sixBits z), ← List.append_assoc (sixBits y), ← List.append_assoc (sixBits x), this]
      simp

theorem b64DecAux_some : ∀ (t b : Bytes), b64DecAux t = some b → ∃ ns p, (∀ n ∈ ns, n < 64) ∧ p ≤ 2 ∧ (ns.length + p) % 4 = 0 ∧ t = textOf ns p
  | [], b, h => ⟨[], 0, by simp, by simp, rfl, rfl⟩
  | [_], b, h => by simp [b64DecAux] at h
  | [_, _], b, h => by simp [b64DecAux] at h
  | [_, _, _], b, h => by simp [b64DecAux] at h
  | a :: b :: c :: d :: t, r, h => by
    simp only [b64DecAux] at h
    split at h
    · rename_i x y hx hy
      obtain ⟨lx, rfl⟩ := b64Val_some hx
      obtain ⟨ly, rfl⟩ := b64Val_some hy
      split at h
      · rename_i hc
        split at h
        · rename_i hd
          obtain ⟨rfl, rfl⟩ := hd
          subst hc
          exact ⟨[x, y], 2, by simp [lx, ly], by simp, by simp, rfl⟩
        · exact nomatch h
      · split at h
        · exact nomatch h
        · rename_i z hz
          obtain ⟨lz, rfl⟩ := b64Val_some hz
          split at h
          · rename_i hd
            split at h
            · rename_i ht
              subst hd ht
              exact ⟨[x, y, z], 1, by simp [lx, ly, lz], by simp, by simp, rfl⟩
            · exact nomatch h
          · split at h
            · exact nomatch h
            · rename_i w hw
              obtain ⟨lw, rfl⟩ := b64Val_some hw
              obtain ⟨r', h', _⟩ := Option.map_eq_some_iff.mp h
              obtain ⟨ns, p, h1, h2, h3, rfl⟩ := b64DecAux_some t r' h'
              refine ⟨x :: y :: z :: w :: ns, p, ?_, h2, by simp; omega, by simp [textOf]⟩
              intro n hn
              simp only [List.mem_cons] at hn
              rcases hn with rfl | rfl | rfl | rfl | hn
              · exact lx
              · exact ly
              · exact lz
              · exact lw
              · exact h1 n hn
    · exact nomatch h

theorem map_alphabet (ns : List Nat) (h : ∀ n ∈ ns, n < 64) : ns.map (fun n => alphabet.getD n 0) = ns.map b64Char :=
  List.map_congr_left fun n hn => (b64Char_alphabet n (h n hn)).symm

/-- the base64 decoder does what the specification says -/
theorem b64Dec_iff (s b : Bytes) : b64Dec s = some b ↔ Base64 s b := by
  unfold b64Dec Base64
  have hf : (s.filter fun c => decide (c ≠ 10 ∧ c ≠ 13)) = s.filter fun b => b != 0x0A && b != 0x0D := by
    apply List.filter_congr
    intro c _
    simp [bne, Bool.decide_and]
    rfl
  rw [hf]
  generalize (s.filter fun b => b != 0x0A && b != 0x0D) = t
  constructor
  · intro h
    obtain ⟨ns, p, h1, h2, h3, rfl⟩ := b64DecAux_some t b h
    obtain ⟨b', rest, h4, h5, h6⟩ := b64DecAux_text ns p h1 h2 h3
    rw [h] at h4
    cases h4
    exact ⟨ns, p, rest, by rw [map_alphabet ns h1]; rfl, h1, h2, h3, h5, h6⟩
  · rintro ⟨ns, p, rest, ht, h1, h2, h3, h5, h6⟩
    obtain ⟨b', rest', h4, h5', h6'⟩ := b64DecAux_text ns p h1 h2 h3
    rw [map_alphabet ns h1] at ht
    have ht : t = textOf ns p := ht
    rw [ht, h4]
    rw [h5'] at h5
    obtain ⟨e, _⟩ := List.append_inj' h5 (by omega)
    rw [bitsOf_inj _ _ e]

/-! ### Numbers -/

theorem digits_iff (s : Bytes) : (s ≠ [] ∧ s.all isDigit = true) ↔ Digits s := by
  unfold Digits
  rw [List.all_eq_true]
  have : ∀ b : UInt8, isDigit b = true ↔ 48 ≤ b.toNat ∧ b.toNat ≤ 57 := by
    intro b
    simp only [isDigit, Bool.and_eq_true, decide_eq_true_eq, UInt8.le_iff_toNat_le]
    rfl
  constructor
  · rintro ⟨h1, h2⟩; exact ⟨h1, fun b hb => (this b).mp (h2 b hb)⟩
  · rintro ⟨h1, h2⟩; exact ⟨h1, fun b hb => (this b).mpr (h2 b hb)⟩

theorem decimal_eq (s : Bytes) : s.foldl (fun n b => n * 10 + (b.toNat - 0x30)) 0 = decimal s := by
  unfold decimal
  congr 1
  funext n b
  omega

theorem natOf_iff (s : Bytes) (n : Nat) : natOf s = some n ↔ Digits s ∧ n = decimal s := by
  unfold natOf
  rw [decimal_eq]
  split
  · rename_i h
    have := (digits_iff s).mp h
    simp only [Option.some.injEq, this, true_and]
    exact eq_comm
  · rename_i h
    have : ¬ Digits s := fun h' => h ((digits_iff s).mpr h')
    simp [this]

theorem parseUint_iff (bound : Nat) (s : Bytes) (n : Nat) : parseUint bound s = some n ↔ NatText bound s n := by
  unfold parseUint NatText
  rw [Option.bind_eq_some_iff]
  constructor
  · rintro ⟨m, h1, h2⟩
    obtain ⟨h3, h4⟩ := (natOf_iff s m).mp h1
    split at h2
    · cases h2; exact ⟨h3, h4, by assumption⟩
    · exact nomatch h2
  · rintro ⟨h1, h2, h3⟩
    exact ⟨n, (natOf_iff s n).mpr ⟨h1, h2⟩, if_pos h3⟩

theorem parseInt_iff (s : Bytes) (n : Int) : parseInt s = some n ↔ IntText s n := by
  unfold IntText
  by_cases hs : ∃ t, s = 0x2D :: t
  · obtain ⟨t, rfl⟩ := hs
    have nd : ¬ Digits (0x2D :: t) := fun h => by
      have := h.2 0x2D (by simp)
      simp at this
    simp only [parseInt, Option.bind_eq_some_iff, nd, false_and, false_or, List.cons.injEq, true_and]
    constructor
    · rintro ⟨m, h1, h2⟩
      obtain ⟨h3, h4⟩ := (natOf_iff t m).mp h1
      split at h2
      · cases h2
        refine ⟨⟨by omega, by omega⟩, t, rfl, h3, by rw [h4]⟩
      · exact nomatch h2
    · rintro ⟨⟨h1, h2⟩, _, rfl, h3, h4⟩
      refine ⟨decimal t, (natOf_iff t _).mpr ⟨h3, rfl⟩, ?_⟩
      rw [if_pos (by omega), h4]
  · have hp : parseInt s = (natOf s).bind fun n => if n < 2 ^ 63 then some (n : Int) else none := by
      unfold parseInt
      split
      · exact absurd ⟨_, rfl⟩ hs
      · rfl
    rw [hp, Option.bind_eq_some_iff]
    constructor
    · rintro ⟨m, h1, h2⟩
      obtain ⟨h3, h4⟩ := (natOf_iff s m).mp h1
      split at h2
      · cases h2
        exact ⟨⟨by omega, by omega⟩, .inl ⟨h3, by rw [h4]⟩⟩
      · exact nomatch h2
    · rintro ⟨⟨h1, h2⟩, ⟨h3, h4⟩ | ⟨ds, h, _⟩⟩
      · refine ⟨decimal s, (natOf_iff s _).mpr ⟨h3, rfl⟩, ?_⟩
        rw [if_pos (by omega), h4]
      · exact absurd ⟨ds, h⟩ hs

end Coniks.Json

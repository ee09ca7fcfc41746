import Verif.Ed25519.GroupProofs
import Mathlib.Tactic.IntervalCases
/-
The signed digits of `slide`: each is zero or odd between -15 and 15, and for a scalar below 2^255 they stand for it.
-/
namespace Coniks.Ed

/-- r(k) + 2 r(k+1) + 4 r(k+2) + ..., `n` digits -/
def hv (r : Nat → Int) : Nat → Nat → Int
  | 0, _ => 0
  | n + 1, k => r k + 2 * hv r n (k + 1)

theorem hv_succ (r : Nat → Int) (n k : Nat) : hv r (n + 1) k = r k + 2 * hv r n (k + 1) := rfl

theorem hv_congr {r r' : Nat → Int} : ∀ (n k : Nat), (∀ j, k ≤ j → j < k + n → r j = r' j) → hv r n k = hv r' n k
  | 0, _, _ => rfl
  | n + 1, k, h => by
    unfold hv
    rw [h k (by omega) (by omega), hv_congr n (k + 1) fun j h1 h2 => h j (by omega) (by omega)]

theorem hv_split (r : Nat → Int) : ∀ (m n k : Nat), hv r (m + n) k = hv r m k + 2 ^ m * hv r n (k + m)
  | 0, n, k => by simp [hv]
  | m + 1, n, k => by
    have : m + 1 + n = (m + n) + 1 := by omega
    rw [this, hv_succ, hv_succ, hv_split r m n (k + 1)]
    have : k + 1 + m = k + (m + 1) := by omega
    rw [this, pow_succ]
    ring

theorem hv_upd (r : Nat → Int) (z : Int) : ∀ (n k j : Nat), j < n → hv (upd r (k + j) z) n k = hv r n k + (z - r (k + j)) * 2 ^ j
  | 0, _, _, h => by omega
  | n + 1, k, 0, h => by
    rw [hv_succ, hv_succ]
    have : hv (upd r (k + 0) z) n (k + 1) = hv r n (k + 1) := hv_congr _ _ fun j h1 h2 => by
      unfold upd; rw [if_neg (by omega)]
    rw [this]
    have : upd r (k + 0) z k = z := by unfold upd; rw [if_pos (by omega)]
    rw [this, Nat.add_zero]
    ring_nf
  | n + 1, k, j + 1, h => by
    rw [hv_succ, hv_succ]
    have h1 := hv_upd r z n (k + 1) j (by omega)
    have e : k + 1 + j = k + (j + 1) := by omega
    rw [e] at h1
    rw [h1]
    have : upd r (k + (j + 1)) z k = r k := by unfold upd; rw [if_neg (by omega)]
    rw [this, pow_succ]
    ring

theorem upd_ne (r : Nat → Int) {k j : Nat} (z : Int) (h : j ≠ k) : upd r k z j = r j := by unfold upd; rw [if_neg h]

/-- a bit -/
def IsBit (z : Int) : Prop := z = 0 ∨ z = 1

theorem slideCarry_low : ∀ (n k : Nat) (r : Nat → Int) (j : Nat), j < k → slideCarry n k r j = r j
  | 0, _, _, _, _ => rfl
  | n + 1, k, r, j, h => by
    unfold slideCarry
    split
    · exact upd_ne _ _ (by omega)
    · rw [slideCarry_low n (k + 1) _ j (by omega)]
      exact upd_ne _ _ (by omega)

theorem slideCarry_bit : ∀ (n k : Nat) (r : Nat → Int), (∀ j, k ≤ j → IsBit (r j)) → ∀ j, k ≤ j → IsBit (slideCarry n k r j)
  | 0, _, _, h, j, hj => h j hj
  | n + 1, k, r, h, j, hj => by
    unfold slideCarry
    split
    · unfold upd; split
      · exact Or.inr rfl
      · exact h j hj
    · by_cases hk : j = k
      · subst hk
        rw [slideCarry_low _ _ _ _ (by omega), upd_same]
        exact Or.inl rfl
      · refine slideCarry_bit n (k + 1) _ (fun i hi => ?_) j (by omega)
        rw [upd_ne _ _ (by omega)]
        exact h i (by omega)

theorem slideCarry_start {n k : Nat} {r : Nat → Int} (h : r k ≠ 0) : slideCarry (n + 1) k r k = 0 := by
  unfold slideCarry
  rw [if_neg h, slideCarry_low _ _ _ _ (by omega), upd_same]

/-- If the top digit is zero the carry is not lost, and if it reaches the top digit it leaves zeros behind. -/
theorem slideCarry_val : ∀ (n k : Nat) (r : Nat → Int), k + n = 256 → 0 < n → (∀ j, k ≤ j → IsBit (r j)) → r 255 = 0 →
    hv (slideCarry n k r) n k = hv r n k + 1 ∧ (slideCarry n k r 255 = 0 ∨ ∀ j, k ≤ j → j < 255 → slideCarry n k r j = 0)
  | 0, _, _, _, h, _, _ => by omega
  | n + 1, k, r, hk, _, hb, ht => by
    unfold slideCarry
    split
    · rename_i h0
      constructor
      · have := hv_upd r 1 (n + 1) k 0 (by omega)
        rw [Nat.add_zero, h0] at this
        rw [this]; ring
      · by_cases h : k = 255
        · right; intro j h1 h2; omega
        · left; rw [upd_ne _ _ (by omega)]; exact ht
    · rename_i h0
      have h1 : r k = 1 := (hb k (by omega)).resolve_left h0
      have hne : k ≠ 255 := by rintro rfl; exact h0 ht
      obtain ⟨v1, v2⟩ := slideCarry_val n (k + 1) (upd r k 0) (by omega) (by omega)
        (fun j hj => by rw [upd_ne _ _ (by omega)]; exact hb j (by omega)) (by rw [upd_ne _ _ (by omega)]; exact ht)
      constructor
      · rw [hv_succ, hv_succ, v1, slideCarry_low _ _ _ _ (by omega), upd_same, h1]
        rw [hv_congr (r := upd r k 0) (r' := r) n (k + 1) fun j h1 h2 => upd_ne _ _ (by omega)]
        ring
      · rcases v2 with h | h
        · exact Or.inl h
        · right
          intro j h2 h3
          by_cases hj : j = k
          · subst hj; rw [slideCarry_low _ _ _ _ (by omega), upd_same]
          · exact h j (by omega) h3

/-- a digit -/
def IsDigit (z : Int) : Prop := z = 0 ∨ (z % 2 = 1 ∧ -15 ≤ z ∧ z ≤ 15)

/-- the state inside the inner loop at position `i`, before `b`; `r0` is the state at the start -/
structure Win (H : Prop) (r0 : Nat → Int) (i b : Nat) (r : Nat → Int) : Prop where
  odd : r i % 2 = 1
  small : b ≤ 4 → 1 ≤ r i ∧ r i ≤ 2 ^ b - 1
  big : -15 ≤ r i ∧ r i ≤ 15
  bits : ∀ j, i < j → IsBit (r j)
  low : ∀ j, j < i → r j = r0 j
  zero : b ≤ 4 → ∀ j, i < j → j < i + b → r j = 0
  val : H → hv r (256 - i) i = hv r0 (256 - i) i
  top : H → r 255 = 0 ∨ ∀ j, i < j → j < 255 → r j = 0
  top0 : H → b ≤ 4 → i + b ≤ 255 → r 255 = 0

/-- what the inner loop leaves -/
structure WinEnd (H : Prop) (r0 : Nat → Int) (i : Nat) (r : Nat → Int) : Prop where
  dig : IsDigit (r i)
  bits : ∀ j, i < j → IsBit (r j)
  low : ∀ j, j < i → r j = r0 j
  val : H → hv r (256 - i) i = hv r0 (256 - i) i
  top : H → r 255 = 0 ∨ ∀ j, i < j → j < 255 → r j = 0

theorem Win.fin {H : Prop} {r0 : Nat → Int} {i b : Nat} {r : Nat → Int} (h : Win H r0 i b r) : WinEnd H r0 i r :=
  ⟨Or.inr ⟨h.odd, h.big⟩, h.bits, h.low, h.val, h.top⟩

theorem wrap8 {z : Int} (h1 : -128 ≤ z) (h2 : z < 128) : wrap 8 z = z := wrap_id (by decide) h1 h2

theorem slideInner_ok {H : Prop} {r0 : Nat → Int} {i : Nat} : ∀ (n : Nat) (r : Nat → Int), n ≤ 6 → Win H r0 i (7 - n) r →
    WinEnd H r0 i (slideInner i n r)
  | 0, r, _, h => h.fin
  | n + 1, r, hn, h => by
    have hb : 7 - (n + 1) = 6 - n := by omega
    rw [hb] at h
    have hb2 : 7 - n = 6 - n + 1 := by omega
    have ih := slideInner_ok (H := H) (r0 := r0) (i := i) n
    rw [hb2] at ih
    unfold slideInner
    simp only
    have hbl : 1 ≤ 6 - n ∧ 6 - n ≤ 6 := by omega
    generalize 6 - n = b at *
    have hp : (2 : Int) ^ b = 2 ∨ (2 : Int) ^ b = 4 ∨ (2 : Int) ^ b = 8 ∨ (2 : Int) ^ b = 16 ∨ (2 : Int) ^ b = 32 ∨ (2 : Int) ^ b = 64 := by
      obtain ⟨h1, h6⟩ := hbl
      interval_cases b <;> simp
    split
    · rename_i hi
      split
      · rename_i hne
        have h1 : r (i + b) = 1 := (h.bits _ (by omega)).resolve_left hne
        have hs : wrap 8 (r (i + b) * 2 ^ b) = 2 ^ b := by
          rw [h1, one_mul]; exact wrap8 (by omega) (by omega)
        rw [hs]
        have hbig := h.big
        rw [wrap8 (z := r i + 2 ^ b) (by omega) (by omega), wrap8 (z := r i - 2 ^ b) (by omega) (by omega)]
        split
        · -- absorbed
          rename_i hle
          have hb4 : b ≤ 3 := by
            by_contra hc
            by_cases h4 : b = 4
            · subst h4; have := h.small (by omega); omega
            · have : b = 5 ∨ b = 6 := by omega
              rcases this with rfl | rfl <;> omega
          have hsm := h.small (by omega)
          apply ih _ (by omega)
          have hii : upd (upd r i (r i + 2 ^ b)) (i + b) 0 i = r i + 2 ^ b := by rw [upd_ne _ _ (by omega), upd_same]
          refine ⟨?_, ?_, ?_, ?_, ?_, ?_, ?_, ?_, ?_⟩
          · rw [hii]; have := h.odd; omega
          · intro _; rw [hii, pow_succ]; omega
          · rw [hii]; omega
          · intro j hj
            by_cases hj2 : j = i + b
            · subst hj2; rw [upd_same]; exact Or.inl rfl
            · rw [upd_ne _ _ hj2, upd_ne _ _ (by omega)]; exact h.bits j hj
          · intro j hj
            rw [upd_ne _ _ (by omega), upd_ne _ _ (by omega)]; exact h.low j hj
          · intro _ j h1 h2
            by_cases hj2 : j = i + b
            · subst hj2; rw [upd_same]
            · rw [upd_ne _ _ hj2, upd_ne _ _ (by omega)]; exact h.zero (by omega) j h1 (by omega)
          · intro hH
            rw [hv_upd _ _ _ _ _ (by omega)]
            have := hv_upd r (r i + 2 ^ b) (256 - i) i 0 (by omega)
            rw [Nat.add_zero] at this
            rw [this, upd_ne _ _ (by omega), h1, ← h.val hH]
            ring
          · intro hH
            by_cases h255 : i + b = 255
            · left; rw [h255, upd_same]
            · left
              rw [upd_ne _ _ (by omega), upd_ne _ _ (by omega)]
              exact h.top0 hH (by omega) (by omega)
          · intro hH _ h255
            rw [upd_ne _ _ (by omega), upd_ne _ _ (by omega)]
            exact h.top0 hH (by omega) (by omega)
        · split
          · -- carry
            rename_i hgt hge
            have hb4 : b = 4 := by
              have : b = 4 ∨ b = 5 ∨ b = 6 ∨ b ≤ 3 := by omega
              rcases this with h4 | rfl | rfl | h3
              · exact h4
              · omega
              · omega
              · exfalso
                have := h.small (by omega)
                have hp' : (2 : Int) ^ b ≤ 8 := by
                  obtain ⟨h1, h6⟩ := hbl
                  interval_cases b <;> simp
                omega
            subst hb4
            have hsm := h.small (by omega)
            apply ih _ (by omega)
            have hlow : ∀ j, j ≠ i → j < i + 4 → slideCarry (256 - (i + 4)) (i + 4) (upd r i (r i - 2 ^ 4)) j = r j := by
              intro j h1 h2
              rw [slideCarry_low _ _ _ _ h2, upd_ne _ _ h1]
            have hii : slideCarry (256 - (i + 4)) (i + 4) (upd r i (r i - 2 ^ 4)) i = r i - 2 ^ 4 := by
              rw [slideCarry_low _ _ _ _ (by omega), upd_same]
            have hbits : ∀ j, i + 4 ≤ j → IsBit (upd r i (r i - 2 ^ 4) j) := by
              intro j hj; rw [upd_ne _ _ (by omega)]; exact h.bits j (by omega)
            refine ⟨?_, ?_, ?_, ?_, ?_, ?_, ?_, ?_, ?_⟩
            · rw [hii]; have := h.odd; omega
            · intro h5; omega
            · rw [hii]; omega
            · intro j hj
              by_cases hj2 : j < i + 4
              · rw [hlow j (by omega) hj2]; exact h.bits j hj
              · exact slideCarry_bit _ _ _ hbits j (by omega)
            · intro j hj
              rw [hlow j (by omega) (by omega)]; exact h.low j hj
            · intro h5; omega
            · intro hH
              have ht := h.top0 hH (by omega) (by omega)
              have hv1 := (slideCarry_val (256 - (i + 4)) (i + 4) (upd r i (r i - 2 ^ 4)) (by omega) (by omega) hbits
                (by rw [upd_ne _ _ (by omega)]; exact ht)).1
              have e : 256 - i = 4 + (256 - (i + 4)) := by omega
              rw [← h.val hH, e, hv_split, hv_split, hv1]
              have e2 : hv (upd r i (r i - 2 ^ 4)) (256 - (i + 4)) (i + 4) = hv r (256 - (i + 4)) (i + 4) :=
                hv_congr _ _ fun j h1 h2 => upd_ne _ _ (by omega)
              rw [e2]
              have e3 : hv (slideCarry (256 - (i + 4)) (i + 4) (upd r i (r i - 2 ^ 4))) 4 i = hv r 4 i - 2 ^ 4 := by
                have a1 := hlow (i + 1) (by omega) (by omega)
                have a2 := hlow (i + 1 + 1) (by omega) (by omega)
                have a3 := hlow (i + 1 + 1 + 1) (by omega) (by omega)
                simp only [hv]
                rw [hii, a1, a2, a3]
                ring
              rw [e3]; ring
            · intro hH
              have ht := h.top0 hH (by omega) (by omega)
              have hv2 := (slideCarry_val (256 - (i + 4)) (i + 4) (upd r i (r i - 2 ^ 4)) (by omega) (by omega) hbits
                (by rw [upd_ne _ _ (by omega)]; exact ht)).2
              rcases hv2 with h2 | h2
              · exact Or.inl h2
              · right
                intro j h3 h4
                by_cases hj : j < i + 4
                · rw [hlow j (by omega) hj]; exact h.zero (by omega) j h3 hj
                · exact h2 j (by omega) h4
            · intro _ h5; omega
          · exact h.fin
      · rename_i hz
        have hz : r (i + b) = 0 := by
          by_contra hc; exact hz hc
        apply ih _ (by omega)
        refine ⟨h.odd, ?_, h.big, h.bits, h.low, ?_, h.val, h.top, ?_⟩
        · intro h4
          have := h.small (by omega)
          rw [pow_succ]; omega
        · intro h4 j h1 h2
          by_cases hj : j = i + b
          · rw [hj]; exact hz
          · exact h.zero (by omega) j h1 (by omega)
        · intro hH h4 h5; exact h.top0 hH (by omega) (by omega)
    · exact h.fin

/-- the state of the outer loop before position `i` -/
structure Out (H : Prop) (i : Nat) (r : Nat → Int) : Prop where
  bits : ∀ j, i ≤ j → IsBit (r j)
  top : H → r 255 = 0 ∨ ∀ j, i ≤ j → j < 255 → r j = 0

theorem slideOuter_ok {H : Prop} : ∀ (n i : Nat) (r : Nat → Int), i + n = 256 → Out H i r →
    (∀ j, j < i → slideOuter n i r j = r j) ∧ (∀ j, i ≤ j → j < 256 → IsDigit (slideOuter n i r j)) ∧
    (H → hv (slideOuter n i r) n i = hv r n i)
  | 0, i, r, h, _ => ⟨fun _ _ => rfl, fun j h1 h2 => by omega, fun _ => rfl⟩
  | n + 1, i, r, h, ho => by
    have step : WinEnd H r i (if r i ≠ 0 then slideInner i 6 r else r) := by
      split
      · rename_i hne
        have h1 : r i = 1 := (ho.bits i (by omega)).resolve_left hne
        apply slideInner_ok 6 r (by omega)
        refine ⟨by rw [h1]; rfl, fun _ => by rw [h1]; decide, by rw [h1]; decide, fun j hj => ho.bits j (by omega), fun _ _ => rfl,
          fun _ j h2 h3 => by omega, fun _ => rfl, fun hH => ?_, fun hH _ h3 => ?_⟩
        · rcases ho.top hH with h2 | h2
          · exact Or.inl h2
          · right; intro j h3 h4; exact h2 j (by omega) h4
        · rcases ho.top hH with h2 | h2
          · exact h2
          · exact absurd (h2 i (by omega) (by omega)) hne
      · rename_i hz
        have hz : r i = 0 := by by_contra hc; exact hz hc
        refine ⟨Or.inl hz, fun j hj => ho.bits j (by omega), fun _ _ => rfl, fun _ => rfl, fun hH => ?_⟩
        rcases ho.top hH with h2 | h2
        · exact Or.inl h2
        · right; intro j h3 h4; exact h2 j (by omega) h4
    unfold slideOuter
    generalize (if r i ≠ 0 then slideInner i 6 r else r) = r1 at *
    have en : 256 - i = n + 1 := by omega
    obtain ⟨i1, i2, i3⟩ := slideOuter_ok n (i + 1) r1 (by omega)
      ⟨fun j hj => step.bits j (by omega), fun hH => by
        rcases step.top hH with h2 | h2
        · exact Or.inl h2
        · right; intro j h3 h4; exact h2 j (by omega) h4⟩
    refine ⟨fun j hj => ?_, fun j h1 h2 => ?_, fun hH => ?_⟩
    · rw [i1 j (by omega)]; exact step.low j hj
    · by_cases hj : j = i
      · subst hj; rw [i1 j (by omega)]; exact step.dig
      · exact i2 j (by omega) h2
    · have hv := step.val hH
      rw [en] at hv
      rw [← hv, hv_succ, hv_succ, i1 i (by omega), i3 hH]

theorem bitAt_bit (a : Bytes) (i : Nat) : IsBit (bitAt a i) := by
  unfold bitAt
  rcases Nat.mod_two_eq_zero_or_one (byteAt a (i / 8) >>> (i % 8)) with h | h
  · left; rw [h]; rfl
  · right; rw [h]; rfl

theorem hv_bits (a : Bytes) : ∀ n i, i + n ≤ 256 → hv (fun i => if i < 256 then bitAt a i else 0) n i = (bitsFrom a n i : Int)
  | 0, _, _ => rfl
  | n + 1, i, h => by
    rw [hv_succ]
    unfold bitsFrom
    rw [hv_bits a n (i + 1) (by omega), if_pos (by omega)]
    unfold bitAt
    push_cast; rfl

theorem slide_digit (a : Bytes) (j : Nat) (hj : j < 256) : IsDigit (slide a j) :=
  (slideOuter_ok (H := False) 256 0 _ rfl ⟨fun j _ => by
    split
    · exact bitAt_bit a j
    · exact Or.inl rfl, fun h => h.elim⟩).2.1 j (by omega) hj

theorem byte31_lt {a : Bytes} (ha : a.length = 32) (h : leNat a < 2 ^ 255) : byteAt a 31 < 128 := by
  rw [leNat_eq_sum ha] at h
  have e : bytesSum a 0 32 = bytesSum a 0 31 + 2 ^ 248 * byteAt a 31 := by
    simp only [bytesSum]; ring
  rw [e] at h
  by_contra hc
  have : 2 ^ 248 * 128 ≤ 2 ^ 248 * byteAt a 31 := Nat.mul_le_mul_left _ (by omega)
  norm_num at this h
  omega

/-- For a scalar below 2^255 the digits stand for it. -/
theorem slide_val {a : Bytes} (ha : a.length = 32) (h : leNat a < 2 ^ 255) : hv (slide a) 256 0 = leNat a := by
  have h31 := byte31_lt ha h
  have h255 : bitAt a 255 = 0 := by
    unfold bitAt
    have : byteAt a (255 / 8) >>> (255 % 8) = 0 := by
      rw [Nat.shiftRight_eq_div_pow]
      exact Nat.div_eq_of_lt h31
    rw [this]; rfl
  have := (slideOuter_ok (H := True) 256 0 (fun i => if i < 256 then bitAt a i else 0) rfl ⟨fun j _ => by
    split
    · exact bitAt_bit a j
    · exact Or.inl rfl, fun _ => Or.inl (by rw [if_pos (by omega)]; exact h255)⟩).2.2 trivial
  unfold slide
  rw [this, hv_bits a 256 0 (by omega), bitsFrom_eq ha]

end Coniks.Ed

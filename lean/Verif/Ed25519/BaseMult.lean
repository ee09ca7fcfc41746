import Verif.Ed25519.DoubleMult
/-
GeScalarMultBase computes a B for a below 2^255.
-/
namespace Coniks.Ed
open Coniks.Spec

theorem ctEqual_spec : ∀ (k i : Fin 9), ctEqual (k.val : Int) (i.val : Int) = if k = i then 1 else 0 := by decide +kernel
theorem ctAbs_spec : ∀ k : Fin 17, ctAbs ((k.val : Int) - 8) = (((k.val : Int) - 8).natAbs : Int) := by decide +kernel
theorem ctNegative_spec : ∀ k : Fin 17, ctNegative ((k.val : Int) - 8) = if k.val < 8 then 1 else 0 := by decide +kernel

/-- limbs within bounds -/
structure PreBd (p : Pre) : Prop where
  bA : p.yPlusX.Bd 1
  bS : p.yMinusX.Bd 1
  bT : p.xy2d.Bd 1

theorem PreOk.bd {p : Pre} {P : Pt25519} (h : PreOk p P) : PreBd p := ⟨h.bA, h.bS, h.bT⟩

theorem preCMove_zero {p q : Pre} (h : PreBd p) (hq : PreBd q) : preCMove p q 0 = p := by
  unfold preCMove
  rw [h.bA.rep.cmove0 hq.bA.rep, h.bS.rep.cmove0 hq.bS.rep, h.bT.rep.cmove0 hq.bT.rep]

theorem preCMove_one {p q : Pre} (h : PreBd p) (hq : PreBd q) : preCMove p q 1 = q := by
  unfold preCMove
  rw [h.bA.rep.cmove1 hq.bA.rep, h.bS.rep.cmove1 hq.bS.rep, h.bT.rep.cmove1 hq.bT.rep]

theorem selectLoop_spec (k : Nat) (hk : k ≤ 8) : ∀ (row : List Pre) (i : Nat) (t : Pre), i + row.length ≤ 8 → (∀ e ∈ row, PreBd e) → PreBd t →
    (k ≤ i → selectLoop k i row t = t) ∧ (i < k → k ≤ i + row.length → row[k - i - 1]? = some (selectLoop k i row t))
  | [], i, t, _, _, _ => ⟨fun _ => rfl, fun h1 h2 => by simp at h2; omega⟩
  | e :: row, i, t, hl, hr, ht => by
    rw [List.length_cons] at hl
    have hce := ctEqual_spec ⟨k, by omega⟩ ⟨i + 1, by omega⟩
    simp only [Fin.mk.injEq, Nat.cast_add, Nat.cast_one] at hce
    have he := hr e List.mem_cons_self
    have hr' : ∀ e ∈ row, PreBd e := fun x hx => hr x (List.mem_cons_of_mem _ hx)
    have hi : ((i : Int) + 1) = ((i + 1 : Nat) : Int) := by push_cast; rfl
    unfold selectLoop
    rw [hce]
    by_cases h : k = i + 1
    · rw [if_pos h, preCMove_one ht he, hi]
      obtain ⟨i1, _⟩ := selectLoop_spec k hk row (i + 1) e (by omega) hr' he
      refine ⟨fun h1 => by omega, fun _ _ => ?_⟩
      rw [i1 (by omega)]
      have : k - i - 1 = 0 := by omega
      rw [this]; rfl
    · rw [if_neg h, preCMove_zero ht he, hi]
      obtain ⟨i1, i2⟩ := selectLoop_spec k hk row (i + 1) t (by omega) hr' ht
      refine ⟨fun h1 => i1 (by omega), fun h1 h2 => ?_⟩
      rw [List.length_cons] at h2
      have : k - i - 1 = (k - (i + 1) - 1) + 1 := by omega
      rw [this, List.getElem?_cons_succ]
      exact i2 (by omega) (by omega)

theorem RowOk.select {row : List Pre} {p : Pt25519} (h : RowOk row p) {e : Int} (h1 : -8 ≤ e) (h2 : e ≤ 8) : PreOk (selectPoint row e) (e • p) := by
  have ha := ctAbs_spec ⟨(e + 8).toNat, by omega⟩
  have hn := ctNegative_spec ⟨(e + 8).toNat, by omega⟩
  simp only at ha hn
  have e8 : (((e + 8).toNat : Nat) : Int) - 8 = e := by omega
  rw [e8] at ha hn
  have hrow : ∀ x ∈ row, PreBd x := by
    intro x hx
    obtain ⟨j, hj⟩ := List.getElem?_of_mem hx
    exact (h.2 j x hj).bd
  have hk : e.natAbs ≤ 8 := by omega
  obtain ⟨s1, s2⟩ := selectLoop_spec e.natAbs hk row 0 Pre.zero (by rw [h.1]) hrow Pre.zero_ok.bd
  have hsel : PreOk (selectLoop (e.natAbs : Int) 0 row Pre.zero) (e.natAbs • p) := by
    by_cases h0 : e.natAbs = 0
    · have := s1 (by omega)
      simp only [Nat.cast_zero] at this
      rw [this, h0, zero_nsmul]
      exact Pre.zero_ok
    · have := s2 (by omega) (by rw [h.1]; omega)
      have := h.2 _ _ this
      have e1 : e.natAbs - 0 - 1 + 1 = e.natAbs := by omega
      rw [e1] at this
      exact this
  unfold selectPoint
  simp only
  rw [ha, hn]
  generalize selectLoop (e.natAbs : Int) 0 row Pre.zero = t at *
  have hneg := hsel.bT.rep.neg
  have hm : PreOk ⟨t.yMinusX, t.yPlusX, feNeg t.xy2d⟩ (-(e.natAbs • p)) := by
    refine ⟨hsel.bS, hsel.bA, hneg.bd, ?_⟩
    simp only [hneg.el]
    exact hsel.rep.neg
  by_cases hneg : e < 0
  · rw [if_pos (by omega), preCMove_one hsel.bd hm.bd]
    have : e • p = -(e.natAbs • p) := by
      rw [← natCast_zsmul, ← neg_zsmul]; congr 1; omega
    rw [this]; exact hm
  · rw [if_neg (by omega), preCMove_zero hsel.bd hm.bd]
    have : e • p = e.natAbs • p := by
      rw [← natCast_zsmul]; congr 1; omega
    rw [this]; exact hsel

/-- e₀ + r e₁ + r² e₂ + ... -/
def rv (r : Int) : List Int → Int
  | [] => 0
  | e :: es => e + r * rv r es

/-- digits that `selectPoint` accepts -/
def Digs (es : List Int) : Prop := ∀ e ∈ es, -8 ≤ e ∧ e ≤ 8

theorem smbLoop_ok : ∀ {rows : List (List Pre)} {es : List Int} {h : Ext} {H p : Pt25519}, RowsOk rows p → es.length ≤ rows.length → Digs es →
    ExtOk h H → ExtOk (smbLoop rows es h) (H + rv 256 es • p)
  | [], [], h, H, p, _, _, _, hh => by
    unfold smbLoop rv; rw [zero_zsmul, add_zero]; exact hh
  | row :: rows, [], h, H, p, _, _, _, hh => by
    unfold smbLoop rv; rw [zero_zsmul, add_zero]; exact hh
  | [], e :: es, h, H, p, _, hl, _, _ => by simp at hl
  | row :: rows, e :: es, h, H, p, hr, hl, hd, hh => by
    unfold smbLoop rv
    have he := hd e List.mem_cons_self
    have hs := (hh.mixedAdd (hr.1.select he.1 he.2)).toExtended
    have := smbLoop_ok hr.2 (by simp only [List.length_cons] at hl; omega) (fun x hx => hd x (List.mem_cons_of_mem _ hx)) hs
    have e2 : H + (e + 256 * rv 256 es) • p = H + e • p + rv 256 es • 256 • p := by
      rw [← natCast_zsmul p 256]
      push_cast
      module
    rw [e2]; exact this

theorem evens_len : ∀ es : List Int, (evens es).length = (es.length + 1) / 2
  | [] => by simp [evens]
  | [_] => by simp [evens]
  | _ :: _ :: es => by unfold evens; simp only [List.length_cons]; rw [evens_len es]; omega

theorem evens_mem : ∀ {es : List Int} {e : Int}, e ∈ evens es → e ∈ es
  | [x], e, h => h
  | x :: y :: es, e, h => by
    unfold evens at h
    rcases List.mem_cons.mp h with h | h
    · rw [h]; exact List.mem_cons_self
    · exact List.mem_cons_of_mem _ (List.mem_cons_of_mem _ (evens_mem h))

theorem rv_evens : ∀ es : List Int, rv 16 es = rv 256 (evens es) + 16 * rv 256 (evens (es.drop 1))
  | [] => rfl
  | [x] => by simp [rv, evens]
  | x :: y :: es => by
    have ih := rv_evens es
    have e1 : evens ((x :: y :: es).drop 1) = y :: evens (es.drop 1) := by
      cases es with
      | nil => rfl
      | cons z es => rfl
    rw [e1]
    simp only [evens, rv]
    rw [ih]; ring

theorem recode16_len : ∀ (es : List Int) (c : Int), (recode16 c es).length = es.length
  | [], _ => rfl
  | [_], _ => rfl
  | _ :: y :: es, _ => by unfold recode16; simp only [List.length_cons]; rw [recode16_len (y :: es)]; rfl

/-- The carries keep the value and leave digits between -8 and 8, if the last nibble is at most 7. -/
theorem recode16_ok : ∀ (es : List Int) (c : Int), (∀ e ∈ es, 0 ≤ e ∧ e ≤ 15) → (∀ l, es.getLast? = some l → l ≤ 7) → 0 ≤ c → c ≤ 1 → es ≠ [] →
    rv 16 (recode16 c es) = c + rv 16 es ∧ Digs (recode16 c es)
  | [], _, _, _, _, _, h => absurd rfl h
  | [e], c, hd, hl, h0, h1, _ => by
    have he := hd e List.mem_cons_self
    have h7 := hl e rfl
    unfold recode16
    rw [wrap8 (by omega) (by omega)]
    refine ⟨by simp only [rv]; ring, fun x hx => ?_⟩
    rw [List.mem_singleton] at hx
    subst hx; omega
  | e :: f :: es, c, hd, hl, h0, h1, _ => by
    have he := hd e List.mem_cons_self
    unfold recode16
    simp only
    rw [wrap8 (z := e + c) (by omega) (by omega), wrap8 (z := e + c + 8) (by omega) (by omega)]
    have p16 : (2 : Int) ^ 4 = 16 := by norm_num
    rw [p16]
    have hc : 0 ≤ (e + c + 8) / 16 ∧ (e + c + 8) / 16 ≤ 1 := by omega
    rw [wrap8 (z := (e + c + 8) / 16 * 16) (by omega) (by omega), wrap8 (z := e + c - (e + c + 8) / 16 * 16) (by omega) (by omega)]
    obtain ⟨i1, i2⟩ := recode16_ok (f :: es) ((e + c + 8) / 16) (fun x hx => hd x (List.mem_cons_of_mem _ hx))
      (fun l h => hl l (by rw [List.getLast?_cons_cons]; exact h)) hc.1 hc.2 (by simp)
    refine ⟨?_, fun x hx => ?_⟩
    · have e1 : ∀ x l, rv 16 (x :: l) = x + 16 * rv 16 l := fun _ _ => rfl
      rw [e1, i1, e1 e]; ring
    · rcases List.mem_cons.mp hx with h | h
      · subst h; omega
      · exact i2 x h

theorem nibble_byte : ∀ n : Fin 256, ((UInt8.ofNat n.val &&& 15).toNat + 16 * ((UInt8.ofNat n.val >>> 4) &&& 15).toNat = n.val) ∧
    (UInt8.ofNat n.val &&& 15).toNat ≤ 15 ∧ ((UInt8.ofNat n.val >>> 4) &&& 15).toNat ≤ 15 := by decide +kernel

theorem nibble_u8 (v : UInt8) : ((v &&& 15).toNat + 16 * ((v >>> 4) &&& 15).toNat = v.toNat) ∧ (v &&& 15).toNat ≤ 15 ∧ ((v >>> 4) &&& 15).toNat ≤ 15 := by
  have := nibble_byte ⟨v.toNat, v.toNat_lt⟩
  simpa using this

theorem nibbles_cons (v : UInt8) (a : Bytes) : nibbles (v :: a) = ((v &&& 15).toNat : Int) :: (((v >>> 4) &&& 15).toNat : Int) :: nibbles a := rfl

theorem nibbles_rv : ∀ a : Bytes, rv 16 (nibbles a) = leNat a
  | [] => rfl
  | v :: a => by
    rw [nibbles_cons]
    simp only [rv]
    rw [nibbles_rv a]
    have := (nibble_u8 v).1
    have el : leNat (v :: a) = v.toNat + 256 * leNat a := rfl
    rw [el, ← this]
    push_cast
    ring

theorem nibbles_len : ∀ a : Bytes, (nibbles a).length = 2 * a.length
  | [] => rfl
  | v :: a => by rw [nibbles_cons]; simp only [List.length_cons]; rw [nibbles_len a]; omega

theorem nibbles_range : ∀ (a : Bytes) (e : Int), e ∈ nibbles a → 0 ≤ e ∧ e ≤ 15
  | v :: a, e, h => by
    have hv := nibble_u8 v
    rw [nibbles_cons] at h
    rcases List.mem_cons.mp h with h | h
    · omega
    · rcases List.mem_cons.mp h with h | h
      · omega
      · exact nibbles_range a e h

theorem nibbles_last : ∀ (a : Bytes) (l : Int), (nibbles a).getLast? = some l → ∃ v, a.getLast? = some v ∧ l = (((v >>> 4) &&& 15).toNat : Int)
  | [v], l, h => by
    rw [nibbles_cons] at h
    exact ⟨v, rfl, by cases h; rfl⟩
  | v :: w :: a, l, h => by
    have : (nibbles (v :: w :: a)).getLast? = (nibbles (w :: a)).getLast? := rfl
    rw [this] at h
    obtain ⟨x, h1, h2⟩ := nibbles_last (w :: a) l h
    exact ⟨x, by rw [List.getLast?_cons_cons]; exact h1, h2⟩

theorem high_nibble : ∀ n : Fin 128, ((UInt8.ofNat n.val >>> 4) &&& 15).toNat ≤ 7 := by decide +kernel

theorem geScalarMultBase_ok {a : Bytes} (ha : a.length = 32) (h : leNat a < 2 ^ 255) : ExtOk (geScalarMultBase a) (leNat a • basePt) := by
  have h31 := byte31_lt ha h
  have hlast : ∀ l, (nibbles a).getLast? = some l → l ≤ 7 := by
    intro l hl
    obtain ⟨v, h1, h2⟩ := nibbles_last a l hl
    have hv : v.toNat < 128 := by
      unfold byteAt at h31
      rw [List.getLast?_eq_getElem?, ha] at h1
      have : a.getD 31 0 = v := by rw [List.getD_eq_getElem?_getD, h1]; rfl
      rw [this] at h31; exact h31
    have := high_nibble ⟨v.toNat, hv⟩
    simp only [UInt8.ofNat_toNat] at this
    omega
  have hne : nibbles a ≠ [] := by
    intro hc
    have := nibbles_len a
    rw [hc, ha] at this
    simp at this
  obtain ⟨r1, r2⟩ := recode16_ok (nibbles a) 0 (nibbles_range a) hlast (by omega) (by omega) hne
  have hlen := recode16_len (nibbles a) 0
  rw [nibbles_len, ha] at hlen
  rw [zero_add, nibbles_rv] at r1
  unfold geScalarMultBase
  simp only
  generalize recode16 0 (nibbles a) = e at *
  have s1 := smbLoop_ok (es := evens (e.drop 1)) tblBase_ok (by rw [evens_len, tblBase_len, List.length_drop]; omega)
    (fun x hx => r2 x (List.drop_subset _ _ (evens_mem hx))) Ext.zero_ok
  have s2 := s1.double.toProjective.double.toProjective.double.toProjective.double.toExtended
  have s3 := smbLoop_ok (es := evens e) tblBase_ok (by rw [evens_len, tblBase_len]; omega) (fun x hx => r2 x (evens_mem hx)) s2
  rw [rv_evens] at r1
  have : leNat a • basePt = (rv 256 (evens e) + 16 * rv 256 (evens (List.drop 1 e))) • basePt := by
    rw [r1, natCast_zsmul]
  rw [this]
  rw [zero_add] at s3
  generalize rv 256 (evens (List.drop 1 e)) = o at *
  have e4 : (rv 256 (evens e) + 16 * o) • basePt = (o • basePt + o • basePt + (o • basePt + o • basePt) + (o • basePt + o • basePt + (o • basePt + o • basePt)) +
      (o • basePt + o • basePt + (o • basePt + o • basePt) + (o • basePt + o • basePt + (o • basePt + o • basePt)))) + rv 256 (evens e) • basePt := by
    module
  rw [e4]
  exact s3

end Coniks.Ed

import Verif.Proofs.Json.Text
/-
Reading back what was written: numbers, then whole values.
-/
namespace Coniks.Json

/-! ### Numbers -/

/-- what may follow a number literal -/
def Stops (r : Bytes) : Prop := ∀ c t, r = c :: t → isDigit c = false ∧ c ≠ 0x2E ∧ c ≠ 0x65 ∧ c ≠ 0x45

theorem stops_nil : Stops [] := by intro c t h; simp at h

theorem digits_append (ds r : Bytes) (hd : ∀ b ∈ ds, isDigit b = true) (hr : ∀ c t, r = c :: t → isDigit c = false) :
    digits (ds ++ r) = (ds, r) := by
  induction ds with
  | nil =>
    match r with
    | [] => rfl
    | c :: t => have := hr c t rfl; simp [digits, List.takeWhile, List.dropWhile, this]
  | cons d ds ih =>
    have h1 := hd d (by simp)
    have h2 := ih fun b hb => hd b (List.mem_cons_of_mem _ hb)
    simp only [digits, Prod.mk.injEq] at h2
    simp [digits, List.takeWhile, List.dropWhile, h1, h2]

theorem digit_isDigit (n : Nat) (h : n < 10) : isDigit (UInt8.ofNat (0x30 + n)) = true ∧
    (UInt8.ofNat (0x30 + n)).toNat - 0x30 = n := by
  have : ∀ n : Fin 10, isDigit (UInt8.ofNat (0x30 + n.val)) = true ∧ (UInt8.ofNat (0x30 + n.val)).toNat - 0x30 = n.val := by decide
  exact this ⟨n, h⟩

theorem decAux_digits : ∀ (f n : Nat), ∀ b ∈ decAux f n, isDigit b = true
  | 0, _ => by simp [decAux]
  | f + 1, n => by
    unfold decAux
    split
    · rename_i h
      intro b hb
      simp only [List.mem_singleton] at hb
      subst hb; exact (digit_isDigit n h).1
    · intro b hb
      rw [List.mem_append, List.mem_singleton] at hb
      rcases hb with hb | rfl
      · exact decAux_digits f _ b hb
      · exact (digit_isDigit _ (Nat.mod_lt _ (by omega))).1

theorem decAux_val : ∀ (f n : Nat), n < f → (decAux f n).foldl (fun m b => m * 10 + (b.toNat - 0x30)) 0 = n
  | 0, _, h => by omega
  | f + 1, n, h => by
    unfold decAux
    split
    · rename_i h1
      simp only [List.foldl_cons, List.foldl_nil, Nat.zero_mul, Nat.zero_add]; exact (digit_isDigit n h1).2
    · rw [List.foldl_append, decAux_val f (n / 10) (by omega)]
      simp only [List.foldl_cons, List.foldl_nil]
      rw [(digit_isDigit (n % 10) (Nat.mod_lt _ (by omega))).2]
      omega

theorem decAux_ne_nil (f n : Nat) (h : n < f) : decAux f n ≠ [] := by
  match f with
  | 0 => omega
  | f + 1 => unfold decAux; split <;> simp

/-- the first digit is 0 only for the number 0 -/
theorem decAux_head : ∀ (f n : Nat), n < f → 0 < n → ∃ c t, decAux f n = c :: t ∧ c ≠ 0x30 ∧ isDigit c = true
  | 0, _, h, _ => by omega
  | f + 1, n, h, h0 => by
    unfold decAux
    split
    · rename_i h1
      refine ⟨_, _, rfl, ?_, (digit_isDigit n h1).1⟩
      have : ∀ n : Fin 10, 0 < n.val → UInt8.ofNat (0x30 + n.val) ≠ 0x30 := by decide
      exact this ⟨n, h1⟩ h0
    · obtain ⟨c, t, e, h1, h2⟩ := decAux_head f (n / 10) (by omega) (by omega)
      exact ⟨c, t ++ [UInt8.ofNat (0x30 + n % 10)], by rw [e]; rfl, h1, h2⟩

theorem natOf_decNat (n : Nat) : natOf (decNat n) = some n := by
  unfold natOf decNat
  rw [if_pos ⟨decAux_ne_nil _ _ (by omega), List.all_eq_true.mpr (decAux_digits _ _)⟩, decAux_val _ _ (by omega)]

theorem pInt_decNat (n : Nat) (r : Bytes) (hr : Stops r) : pInt (decNat n ++ r) = some (decNat n, r) := by
  by_cases h0 : n = 0
  · subst h0
    have : decNat 0 = [0x30] := by decide
    rw [this]; simp [pInt]
  · obtain ⟨c, t, e, h1, h2⟩ := decAux_head (n + 1) n (by omega) (by omega)
    have e' : decNat n = c :: t := e
    have hd := digits_append (decNat n) r (decAux_digits _ _) (fun c t h => (hr c t h).1)
    rw [e'] at hd ⊢
    simp only [List.cons_append] at hd ⊢
    simp only [pInt, if_neg h1, if_pos h2, hd]

theorem pFrac_stops (r : Bytes) (hr : Stops r) : pFrac r = some ([], r) := by
  match r with
  | [] => rfl
  | c :: t =>
    have := (hr c t rfl).2.1
    unfold pFrac
    split
    · rename_i h; simp at h; exact absurd h.1 this
    · rfl

theorem pExp_stops (r : Bytes) (hr : Stops r) : pExp r = some ([], r) := by
  match r with
  | [] => rfl
  | c :: t =>
    have := (hr c t rfl).2.2
    simp [pExp, this.1, this.2]

theorem decNat_head (n : Nat) : ∃ c t, decNat n = c :: t ∧ isDigit c = true := by
  match h : decNat n with
  | [] => exact absurd h (decAux_ne_nil _ _ (by omega))
  | c :: t => exact ⟨c, t, rfl, decAux_digits (n + 1) n c (by show c ∈ decNat n; rw [h]; simp)⟩

theorem isDigit_ne (c : UInt8) (h : isDigit c = true) : c ≠ 0x2D ∧ c ≠ 0x7B ∧ c ≠ 0x5B ∧ c ≠ 0x22 ∧ c ≠ 0x74 ∧ c ≠ 0x66 ∧
    c ≠ 0x6E ∧ c ≠ 0x7D ∧ c ≠ 0x5D ∧ isWs c = false := by
  have := ascii_forall (p := fun c => decide (isDigit c = true → c ≠ 0x2D ∧ c ≠ 0x7B ∧ c ≠ 0x5B ∧ c ≠ 0x22 ∧ c ≠ 0x74 ∧ c ≠ 0x66 ∧
    c ≠ 0x6E ∧ c ≠ 0x7D ∧ c ≠ 0x5D ∧ isWs c = false)) (by decide +kernel) c
  exact of_decide_eq_true this h

theorem pNum_decInt (n : Int) (r : Bytes) (hr : Stops r) : pNum (decInt n ++ r) = some (decInt n, r) := by
  have key := pInt_decNat n.natAbs r hr
  unfold decInt
  split
  · have e1 : pMinus (0x2D :: (decNat n.natAbs ++ r)) = ([0x2D], decNat n.natAbs ++ r) := by simp [pMinus]
    simp only [pNum, e1, key, Option.bind_some, pFrac_stops r hr, pExp_stops r hr, Option.map_some, List.append_nil,
      List.cons_append, List.nil_append]
  · have e1 : pMinus (decNat n.natAbs ++ r) = ([], decNat n.natAbs ++ r) := by
      obtain ⟨c, t, e, hc⟩ := decNat_head n.natAbs
      rw [e]
      simp [pMinus, (isDigit_ne c hc).1]
    simp only [pNum, e1, key, Option.bind_some, pFrac_stops r hr, pExp_stops r hr, Option.map_some, List.append_nil, List.nil_append]

theorem parseInt_decInt (n : Int) (h : -2 ^ 63 ≤ n ∧ n < 2 ^ 63) : parseInt (decInt n) = some n := by
  unfold decInt
  split
  · simp only [parseInt, natOf_decNat, Option.bind_some]
    rw [if_pos (by omega)]
    congr 1; omega
  · obtain ⟨c, t, e, hc⟩ := decNat_head n.natAbs
    have hne := (isDigit_ne c hc).1
    have : parseInt (decNat n.natAbs) = (natOf (decNat n.natAbs)).bind fun n => if n < 2 ^ 63 then some (n : Int) else none := by
      rw [e]
      unfold parseInt
      split
      · rename_i h; simp at h; exact absurd h.1 hne
      · rfl
    rw [this, natOf_decNat, Option.bind_some, if_pos (by omega)]
    congr 1; omega

theorem parseUint_decNat (b n : Nat) (h : n < b) : parseUint b (decNat n) = some n := by
  simp [parseUint, natOf_decNat, h]

/-! ### Values -/

mutual
/-- the value with every string cleaned -/
def JVal.cleanV : JVal → JVal
  | .null => .null
  | .bool b => .bool b
  | .num l => .num l
  | .str s => .str (clean s)
  | .arr xs => .arr (cleanL xs)
  | .obj ms => .obj (cleanM ms)
/-- all elements cleaned -/
def cleanL : List JVal → List JVal
  | [] => []
  | x :: xs => x.cleanV :: cleanL xs
/-- one member cleaned -/
def cleanP : Bytes × JVal → Bytes × JVal
  | (k, v) => (clean k, v.cleanV)
/-- all members cleaned -/
def cleanM : List (Bytes × JVal) → List (Bytes × JVal)
  | [] => []
  | m :: ms => cleanP m :: cleanM ms
end

mutual
/-- every number in the value is an integer as Go writes it -/
def JVal.Ok : JVal → Prop
  | .null => True
  | .bool _ => True
  | .num l => ∃ n : Int, l = decInt n
  | .str _ => True
  | .arr xs => OkL xs
  | .obj ms => OkM ms
/-- of every element -/
def OkL : List JVal → Prop
  | [] => True
  | x :: xs => x.Ok ∧ OkL xs
/-- of a member -/
def OkP : Bytes × JVal → Prop
  | (_, v) => v.Ok
/-- of every member -/
def OkM : List (Bytes × JVal) → Prop
  | [] => True
  | m :: ms => OkP m ∧ OkM ms
end

theorem skipWs_cons (c : UInt8) (t : Bytes) (h : isWs c = false) : skipWs (c :: t) = c :: t := by
  simp [skipWs, List.dropWhile, h]

/-- the first byte of a written value -/
theorem print_head (v : JVal) (hv : v.Ok) : ∃ c t, v.print = c :: t ∧ isWs c = false ∧ c ≠ 0x5D ∧ c ≠ 0x7D := by
  match v with
  | .null => exact ⟨_, _, rfl, by decide, by decide, by decide⟩
  | .bool true => exact ⟨_, _, rfl, by decide, by decide, by decide⟩
  | .bool false => exact ⟨_, _, rfl, by decide, by decide, by decide⟩
  | .num l =>
    obtain ⟨n, rfl⟩ := hv
    simp only [JVal.print]
    unfold decInt
    split
    · exact ⟨_, _, rfl, by decide, by decide, by decide⟩
    · obtain ⟨c, t, e, hc⟩ := decNat_head n.natAbs
      have := isDigit_ne c hc
      exact ⟨c, t, e, this.2.2.2.2.2.2.2.2.2, this.2.2.2.2.2.2.2.2.1, this.2.2.2.2.2.2.2.1⟩
  | .str s => exact ⟨_, _, rfl, by decide, by decide, by decide⟩
  | .arr [] => exact ⟨_, _, rfl, by decide, by decide, by decide⟩
  | .arr (x :: xs) => exact ⟨_, _, rfl, by decide, by decide, by decide⟩
  | .obj [] => exact ⟨_, _, rfl, by decide, by decide, by decide⟩
  | .obj (m :: ms) => exact ⟨_, _, rfl, by decide, by decide, by decide⟩

theorem printElems_head (xs : List JVal) : ∃ c t, printElems xs = c :: t ∧ isWs c = false ∧
    isDigit c = false ∧ c ≠ 0x2E ∧ c ≠ 0x65 ∧ c ≠ 0x45 := by
  match xs with
  | [] => exact ⟨_, _, rfl, by decide, by decide, by decide, by decide, by decide⟩
  | x :: xs => exact ⟨_, _, rfl, by decide, by decide, by decide, by decide, by decide⟩

theorem printMembers_head (ms : List (Bytes × JVal)) : ∃ c t, printMembers ms = c :: t ∧ isWs c = false ∧
    isDigit c = false ∧ c ≠ 0x2E ∧ c ≠ 0x65 ∧ c ≠ 0x45 := by
  match ms with
  | [] => exact ⟨_, _, rfl, by decide, by decide, by decide, by decide, by decide⟩
  | x :: xs => exact ⟨_, _, rfl, by decide, by decide, by decide, by decide, by decide⟩

theorem stops_of_head {s : Bytes} (h : ∃ c t, s = c :: t ∧ isWs c = false ∧ isDigit c = false ∧ c ≠ 0x2E ∧ c ≠ 0x65 ∧ c ≠ 0x45)
    (r : Bytes) : Stops (s ++ r) := by
  obtain ⟨c, t, rfl, _, h1⟩ := h
  intro c' t' h
  simp only [List.cons_append, List.cons.injEq] at h
  rw [← h.1]; exact h1

theorem printMember_eq (k : Bytes) (v : JVal) (r : Bytes) :
    printMember (k, v) ++ r = 0x22 :: (escAux true 0 k ++ 0x22 :: 0x3A :: (v.print ++ r)) := by
  simp [printMember, quote]

mutual
/-- Reading what was written gives the value back, with its strings cleaned. -/
theorem pValue_print : ∀ (v : JVal), v.Ok → ∀ (f : Nat) (r : Bytes), v.print.length ≤ f → Stops r →
    pValue f (v.print ++ r) = some (v.cleanV, r)
  | .null, _, f, r, hf, _ => by
    simp only [JVal.print, List.length_cons, List.length_nil] at hf
    match f with
    | 0 => omega
    | f + 1 => simp [pValue, JVal.print, skipWs_cons, isWs, pLit, JVal.cleanV]
  | .bool true, _, f, r, hf, _ => by
    simp only [JVal.print, List.length_cons, List.length_nil] at hf
    match f with
    | 0 => omega
    | f + 1 => simp [pValue, JVal.print, skipWs_cons, isWs, pLit, JVal.cleanV]
  | .bool false, _, f, r, hf, _ => by
    simp only [JVal.print, List.length_cons, List.length_nil] at hf
    match f with
    | 0 => omega
    | f + 1 => simp [pValue, JVal.print, skipWs_cons, isWs, pLit, JVal.cleanV]
  | .num l, hv, f, r, hf, hr => by
    obtain ⟨c, t, e, hw, -, -⟩ := print_head (.num l) hv
    obtain ⟨n, rfl⟩ := hv
    simp only [JVal.print] at e hf ⊢
    have hp := pNum_decInt n r hr
    have hne : c ≠ 0x7B ∧ c ≠ 0x5B ∧ c ≠ 0x22 ∧ c ≠ 0x74 ∧ c ≠ 0x66 ∧ c ≠ 0x6E := by
      unfold decInt at e
      split at e
      · have : c = 0x2D := by simp at e; exact e.1.symm
        subst this; decide
      · obtain ⟨c', t', e', hc⟩ := decNat_head n.natAbs
        rw [e'] at e
        have : c' = c := by simp at e; exact e.1
        subst this
        have := isDigit_ne c' hc
        exact ⟨this.2.1, this.2.2.1, this.2.2.2.1, this.2.2.2.2.1, this.2.2.2.2.2.1, this.2.2.2.2.2.2.1⟩
    match f with
    | 0 => rw [e] at hf; simp at hf
    | f + 1 =>
      rw [e] at hp ⊢
      simp only [List.cons_append] at hp ⊢
      simp only [pValue, skipWs_cons c _ hw, if_neg hne.1, if_neg hne.2.1, if_neg hne.2.2.1, if_neg hne.2.2.2.1,
        if_neg hne.2.2.2.2.1, if_neg hne.2.2.2.2.2, hp, Option.map_some, JVal.cleanV]
  | .str s, _, f, r, hf, _ => by
    match f with
    | 0 => simp [JVal.print, quote] at hf
    | f + 1 =>
      have := pStr_quote s.length s (Nat.le_refl _) ((escAux true 0 s ++ 0x22 :: r).length + 1) r (by simp; omega)
      simp only [JVal.print, quote, List.cons_append, List.append_assoc, List.nil_append, pValue,
        skipWs_cons 0x22 _ (by decide : isWs 0x22 = false)]
      rw [if_neg (by decide), if_neg (by decide), if_pos trivial, this]
      rfl
  | .arr [], _, f, r, hf, _ => by
    match f with
    | 0 => simp [JVal.print] at hf
    | f + 1 => simp [pValue, JVal.print, skipWs_cons, isWs, JVal.cleanV, cleanL]
  | .arr (x :: xs), hv, f, r, hf, _ => by
    match f with
    | 0 => simp [JVal.print] at hf
    | f + 1 =>
      have hv' : x.Ok ∧ OkL xs := hv
      obtain ⟨c, t, e, hw, hb, -⟩ := print_head x hv'.1
      have ih := pElems_print x xs hv'.1 hv'.2 f r (by simp [JVal.print] at hf ⊢; omega)
      simp only [JVal.print, List.cons_append, pValue, skipWs_cons 0x5B _ (by decide : isWs 0x5B = false)]
      rw [if_neg (by decide), if_pos trivial]
      rw [e] at ih ⊢
      simp only [List.cons_append] at ih ⊢
      rw [skipWs_cons c _ hw]
      split
      · rename_i h; simp at h; exact absurd h.1 hb
      · rw [ih]; rfl
  | .obj [], _, f, r, hf, _ => by
    match f with
    | 0 => simp [JVal.print] at hf
    | f + 1 => simp [pValue, JVal.print, skipWs_cons, isWs, JVal.cleanV, cleanM]
  | .obj ((k, v) :: ms), hv, f, r, hf, _ => by
    match f with
    | 0 => simp [JVal.print] at hf
    | f + 1 =>
      have hv' : v.Ok ∧ OkM ms := hv
      have ih := pMembers_print k v ms hv'.1 hv'.2 f r (by simp [JVal.print] at hf ⊢; omega)
      simp only [JVal.print, List.cons_append, pValue, skipWs_cons 0x7B _ (by decide : isWs 0x7B = false)]
      rw [if_pos trivial]
      rw [List.append_assoc, printMember_eq] at ih ⊢
      rw [skipWs_cons 0x22 _ (by decide : isWs 0x22 = false)]
      split
      · rename_i h; simp at h
      · rw [ih]; rfl
theorem pElems_print : ∀ (x : JVal) (xs : List JVal), x.Ok → OkL xs → ∀ (f : Nat) (r : Bytes),
    (x.print ++ printElems xs).length ≤ f → pElems f (x.print ++ printElems xs ++ r) = some (x.cleanV :: cleanL xs, r)
  | x, xs, hx, hxs, f, r, hf => by
    have hh := printElems_head xs
    have hst := stops_of_head hh r
    match f with
    | 0 =>
      obtain ⟨c, t, e, -⟩ := hh
      rw [e] at hf; simp at hf
    | f + 1 =>
      have hlen : 0 < (printElems xs).length := by obtain ⟨c, t, e, -⟩ := hh; rw [e]; simp
      rw [List.length_append] at hf
      have ih := pValue_print x hx f (printElems xs ++ r) (by omega) hst
      rw [List.append_assoc, pElems, ih]
      match xs, hxs with
      | [], _ => simp [printElems, skipWs_cons, isWs, cleanL]
      | y :: ys, hys =>
        have hys' : y.Ok ∧ OkL ys := hys
        have ih2 := pElems_print y ys hys'.1 hys'.2 f r (by simp [printElems] at hf ⊢; omega)
        simp only [printElems, List.cons_append, skipWs_cons 0x2C _ (by decide : isWs 0x2C = false)]
        rw [ih2]; rfl
theorem pMembers_print : ∀ (k : Bytes) (v : JVal) (ms : List (Bytes × JVal)), v.Ok → OkM ms → ∀ (f : Nat) (r : Bytes),
    (printMember (k, v) ++ printMembers ms).length ≤ f →
    pMembers f (printMember (k, v) ++ printMembers ms ++ r) = some ((clean k, v.cleanV) :: cleanM ms, r)
  | k, v, ms, hv, hms, f, r, hf => by
    have hh := printMembers_head ms
    have hst := stops_of_head hh r
    match f with
    | 0 =>
      obtain ⟨c, t, e, -⟩ := hh
      rw [e] at hf; simp at hf
    | f + 1 =>
      have hlen : v.print.length + 4 ≤ f + 1 := by
        obtain ⟨c, t, e, -⟩ := hh
        rw [e] at hf; simp [printMember, quote] at hf; omega
      have ih := pValue_print v hv f (printMembers ms ++ r) (by omega) hst
      have hs := pStr_quote k.length k (Nat.le_refl _)
        ((escAux true 0 k ++ 0x22 :: 0x3A :: (v.print ++ (printMembers ms ++ r))).length + 1)
        (0x3A :: (v.print ++ (printMembers ms ++ r))) (by simp; omega)
      rw [List.append_assoc, printMember_eq, pMembers, skipWs_cons 0x22 _ (by decide : isWs 0x22 = false)]
      simp only [hs, skipWs_cons 0x3A _ (by decide : isWs 0x3A = false), ih]
      match ms, hms with
      | [], _ => simp [printMembers, skipWs_cons, isWs, cleanM]
      | (k', v') :: ms', hms =>
        have hms' : v'.Ok ∧ OkM ms' := hms
        have ih2 := pMembers_print k' v' ms' hms'.1 hms'.2 f r (by simp [printMembers] at hf ⊢; omega)
        simp only [printMembers, List.cons_append, skipWs_cons 0x2C _ (by decide : isWs 0x2C = false)]
        rw [ih2]; rfl
end

/-- Reading a written text gives the value back, with its strings cleaned. -/
theorem parse_print (v : JVal) (hv : v.Ok) : parse v.print = some v.cleanV := by
  have := pValue_print v hv (2 * v.print.length + 2) [] (by omega) stops_nil
  rw [List.append_nil] at this
  simp [parse, this, skipWs]

end Coniks.Json

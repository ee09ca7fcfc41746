import Verif.Spec.Pid
import Verif.Proofs.Listen
import Verif.Proofs.Json.Base64
/-
The PID file: digits and their number.
-/
namespace Coniks.PidProofs
open Coniks Spec Json ListenProofs

theorem decAux_length : ∀ (f n : Nat), n < f → 0 < n → ∀ k, (decAux f n).length ≤ k ↔ n < 10 ^ k
  | 0, _, h, _, _ => by omega
  | f + 1, n, h, h0, k => by
    unfold decAux
    cases k with
    | zero =>
      split
      · simp; omega
      · simp; omega
    | succ k =>
      have h10 : 0 < 10 ^ k := Nat.pos_of_ne_zero (by simp)
      split
      · rw [Nat.pow_succ]; simp; omega
      · have ih := decAux_length f (n / 10) (by omega) (by omega) k
        rw [Nat.pow_succ, List.length_append]
        simp only [List.length_singleton, Nat.add_le_add_iff_right]
        rw [ih, Nat.div_lt_iff_lt_mul (by omega)]

theorem decNat_length {n : Nat} (h : 0 < n) (k : Nat) : (decNat n).length ≤ k ↔ n < 10 ^ k := decAux_length (n + 1) n (by omega) h k

theorem noLonger_iff {a b : Nat} (ha : 0 < a) (hb : 0 < b) : NoLonger a b ↔ (decNat a).length ≤ (decNat b).length := by
  constructor
  · intro h
    exact (decNat_length ha _).2 (h _ ((decNat_length hb _).1 (Nat.le_refl _)))
  · intro h k hk
    exact (decNat_length ha _).1 (Nat.le_trans h ((decNat_length hb _).2 hk))

theorem decNat_digits (n : Nat) : Digits (decNat n) ∧ decimal (decNat n) = n := by
  obtain ⟨h1, h2⟩ := (natOf_iff _ n).1 (natOf_decNat n)
  exact ⟨h1, h2.symm⟩

theorem foldl_decimal (t : Bytes) : ∀ m : Nat, t.foldl (fun n b => 10 * n + (b.toNat - 48)) m = m * 10 ^ t.length + decimal t := by
  induction t with
  | nil => intro m; simp [decimal]
  | cons b t ih =>
    intro m
    have e : decimal (b :: t) = t.foldl (fun n b => 10 * n + (b.toNat - 48)) (10 * 0 + (b.toNat - 48)) := rfl
    rw [e, ih, List.foldl_cons, ih, List.length_cons, Nat.pow_succ, Nat.mul_comm (10 ^ t.length) 10, ← Nat.mul_assoc, Nat.mul_comm m 10, Nat.add_mul,
      Nat.add_mul]
    omega

theorem decimal_append (s t : Bytes) : decimal (s ++ t) = decimal s * 10 ^ t.length + decimal t := by
  rw [← foldl_decimal]
  unfold decimal
  rw [List.foldl_append]

theorem overwrite_length (old buf : Bytes) : (overwrite old buf).length = max old.length buf.length := by
  unfold overwrite; simp; omega

/-- what is in the file when it is longer than the number -/
theorem overwrite_long {old : Bytes} {p : Nat} (hp : 0 < p) (h : (decNat p).length < old.length) :
    ∃ r, r ≠ [] ∧ overwrite old (decNat p) = decNat p ++ r ∧ (∀ x ∈ r, x ∈ old) ∧ decimal (decNat p ++ r) ≥ 10 * p := by
  refine ⟨old.drop (decNat p).length, ?_, rfl, fun x hx => List.mem_of_mem_drop hx, ?_⟩
  · intro e
    have := congrArg List.length e
    simp at this
    omega
  · rw [decimal_append, (decNat_digits p).2]
    have h1 : 1 ≤ (old.drop (decNat p).length).length := by rw [List.length_drop]; omega
    have h2 : 10 ^ 1 ≤ 10 ^ (old.drop (decNat p).length).length := Nat.pow_le_pow_right (by omega) h1
    have h3 := Nat.mul_le_mul_left p h2
    omega

theorem names_overwrite {old : Bytes} {p : Nat} (hp : 0 < p) : Names (some (overwrite old (decNat p))) p ↔ old.length ≤ (decNat p).length := by
  constructor
  · rintro ⟨s, hs, hd, hv⟩
    injection hs with hs
    subst hs
    refine Nat.le_of_not_lt fun hlt => ?_
    obtain ⟨r, _, h2, _, h4⟩ := overwrite_long hp hlt
    rw [h2] at hv
    omega
  · intro h
    refine ⟨_, rfl, ?_⟩
    have : overwrite old (decNat p) = decNat p := by
      unfold overwrite
      rw [List.drop_eq_nil_of_le h, List.append_nil]
    rw [this]
    exact decNat_digits p

theorem box_run_append (M : Machine) (b : Box) (x y : List BoxEv) : b.run M (x ++ y) = (b.run M x).run M y := by
  unfold Box.run; rw [List.foldl_append]

theorem silent_run (M : Machine) : ∀ (evs : List BoxEv) (b : Box), (∀ e ∈ evs, Silent e) → (b.run M evs).pidFile = b.pidFile
  | [], _, _ => rfl
  | e :: evs, b, h => by
    have ih := silent_run M evs (b.step M e) fun x hx => h x (.tail _ hx)
    have hs : (b.step M e).pidFile = b.pidFile := by
      have := h e (.head _)
      cases e with
      | other e => rfl
      | run flag p f c =>
        have hf : flag = false := this
        subst hf
        rfl
    exact ih.trans hs

/-- the file after a history: digits only, as long as the longest number written -/
theorem history_file (M : Machine) : ∀ (evs : List BoxEv) (b : Box) (n : Nat), ((b.pidFile.getD []).length = n ∧ ∀ x ∈ b.pidFile.getD [], 48 ≤ x.toNat ∧ x.toNat ≤ 57) →
    (∀ fl p f c, .run fl p f c ∈ evs → 0 < p ∧ f = .none) → ∀ k, n ≤ k →
    ((((b.run M evs).pidFile.getD []).length ≤ k ↔ ∀ p f c, .run true p f c ∈ evs → (decNat p).length ≤ k) ∧
      ∀ x ∈ (b.run M evs).pidFile.getD [], 48 ≤ x.toNat ∧ x.toNat ≤ 57)
  | [], b, n, hb, _, k, hk => by
    refine ⟨iff_of_true ?_ (fun p f c h => nomatch h), hb.2⟩
    show (b.pidFile.getD []).length ≤ k
    omega
  | e :: evs, b, n, hb, he, k, hk => by
    have hrest := fun fl p f c (h : BoxEv.run fl p f c ∈ evs) => he fl p f c (.tail _ h)
    show ((((b.step M e).run M evs).pidFile.getD []).length ≤ k ↔ _) ∧ ∀ x ∈ ((b.step M e).run M evs).pidFile.getD [], _
    cases e with
    | other e =>
      have ih := history_file M evs (b.step M (.other e)) n hb hrest k hk
      refine ⟨ih.1.trans ⟨fun h p f c hm => ?_, fun h p f c hm => h p f c (.tail _ hm)⟩, ih.2⟩
      rcases List.mem_cons.1 hm with hm | hm
      · exact nomatch hm
      · exact h p f c hm
    | run fl q f c =>
      obtain ⟨hq, hf⟩ := he fl q f c (.head _)
      subst hf
      cases fl with
      | false =>
        have ih := history_file M evs (b.step M (.run false q .none c)) n hb hrest k hk
        refine ⟨ih.1.trans ⟨fun h p f c hm => ?_, fun h p f c hm => h p f c (.tail _ hm)⟩, ih.2⟩
        rcases List.mem_cons.1 hm with hm | hm
        · exact nomatch hm
        · exact h p f c hm
      | true =>
        have hfile : (b.step M (.run true q .none c)).pidFile.getD [] = overwrite (b.pidFile.getD []) (decNat q) := rfl
        have hdig : ∀ x ∈ overwrite (b.pidFile.getD []) (decNat q), 48 ≤ x.toNat ∧ x.toNat ≤ 57 := by
          intro x hx
          rcases List.mem_append.1 hx with hx | hx
          · exact (decNat_digits q).1.2 x hx
          · exact hb.2 x (List.mem_of_mem_drop hx)
        by_cases hle : (decNat q).length ≤ k
        · have ih := history_file M evs (b.step M (.run true q .none c)) (max n (decNat q).length)
            ⟨by rw [hfile, overwrite_length, hb.1], by rw [hfile]; exact hdig⟩ hrest k (by omega)
          refine ⟨ih.1.trans ⟨fun h p f c' hm => ?_, fun h p f c' hm => h p f c' (.tail _ hm)⟩, ih.2⟩
          rcases List.mem_cons.1 hm with hm | hm
          · injection hm with _ hm _ _; rw [hm]; exact hle
          · exact h p f c' hm
        · have ih := history_file M evs (b.step M (.run true q .none c)) (max n (decNat q).length)
            ⟨by rw [hfile, overwrite_length, hb.1], by rw [hfile]; exact hdig⟩ hrest
          refine ⟨iff_of_false ?_ (fun h => hle (h q .none c (.head _))), (ih _ (Nat.le_refl _)).2⟩
          intro h
          -- the file never gets shorter
          have grow : ∀ (evs : List BoxEv) (b : Box), (∀ fl p f c, .run fl p f c ∈ evs → 0 < p ∧ f = .none) →
              (b.pidFile.getD []).length ≤ ((b.run M evs).pidFile.getD []).length := by
            intro evs
            induction evs with
            | nil => intro b _; exact Nat.le_refl _
            | cons e evs ih =>
              intro b he
              refine Nat.le_trans ?_ (ih (b.step M e) fun fl p f c h => he fl p f c (.tail _ h))
              cases e with
              | other e => exact Nat.le_refl _
              | run fl p f c =>
                obtain ⟨_, hf⟩ := he fl p f c (.head _)
                subst hf
                cases fl with
                | false => exact Nat.le_refl _
                | true =>
                  show _ ≤ (overwrite (b.pidFile.getD []) (decNat p)).length
                  rw [overwrite_length]; omega
          have := grow evs (b.step M (.run true q .none c)) hrest
          rw [hfile, overwrite_length] at this
          omega

end Coniks.PidProofs

import Verif.Model.Loops
import Verif.Proofs.DirReads
/-
The loops over epochs are the lists `epochRange`, unless the last epoch is the last number.
-/
namespace Coniks

/-- a loop has at most one outcome -/
theorem epochLoop_unique {σ ρ : Type} {body : UInt64 → σ → Go (σ ⊕ ρ)} {e ep : UInt64} {s : σ} {n : Nat} {out : Go (σ ⊕ ρ)}
    (h : EpochLoop body e ep s n out) : ∀ {m out'}, EpochLoop body e ep s m out' → n = m ∧ out = out' := by
  induction h with
  | done h => intro m o h'; cases h' <;> first | exact ⟨rfl, rfl⟩ | contradiction
  | crash h hb => intro m o h'; cases h' <;> simp_all
  | ret h hb => intro m o h'; cases h' <;> simp_all
  | next h hb _ ih =>
    intro m o h'
    cases h' with
    | done => contradiction
    | crash _ hb' => rw [hb] at hb'; cases hb'
    | ret _ hb' => rw [hb] at hb'; cases hb'
    | next _ hb' hr =>
      rw [hb] at hb'
      cases hb'
      obtain ⟨h1, h2⟩ := ih hr
      exact ⟨by rw [h1], h2⟩

/-- the loop over a list -/
def runRounds {σ ρ : Type} (body : UInt64 → σ → Go (σ ⊕ ρ)) : List UInt64 → σ → Go (σ ⊕ ρ)
  | [], s => some (.inl s)
  | ep :: eps, s =>
    match body ep s with
    | none => none
    | some (.inr r) => some (.inr r)
    | some (.inl s') => runRounds body eps s'

theorem epochRange_nil {s e : UInt64} (h : ¬ s ≤ e) : epochRange s e = [] := by
  rw [UInt64.le_iff_toNat_le] at h
  unfold epochRange
  rw [show e.toNat + 1 - s.toNat = 0 by omega]
  rfl

theorem succ_toNat {s e : UInt64} (h : s ≤ e) (he : e.toNat < 2 ^ 64 - 1) : (s + 1).toNat = s.toNat + 1 := by
  rw [UInt64.le_iff_toNat_le] at h
  rw [UInt64.toNat_add]
  show (s.toNat + 1) % 2 ^ 64 = _
  exact Nat.mod_eq_of_lt (by omega)

theorem epochRange_cons {s e : UInt64} (h : s ≤ e) (he : e.toNat < 2 ^ 64 - 1) : epochRange s e = s :: epochRange (s + 1) e := by
  have h' := UInt64.le_iff_toNat_le.mp h
  rw [epochRange_eq, epochRange_eq, succ_toNat h he, show e.toNat + 1 - s.toNat = (e.toNat + 1 - (s.toNat + 1)) + 1 by omega, List.range'_succ, List.map_cons]
  congr 1
  exact UInt64.ofNat_toNat

/-- unless it goes up to the last number, a loop ends, after at most as many rounds as there are epochs, with what the list gives -/
theorem epochLoop_ends {σ ρ : Type} (body : UInt64 → σ → Go (σ ⊕ ρ)) (e : UInt64) (he : e.toNat < 2 ^ 64 - 1) :
    ∀ (k : Nat) (ep : UInt64), e.toNat + 1 - ep.toNat = k → ∀ s, ∃ n, n ≤ k ∧ EpochLoop body e ep s n (runRounds body (epochRange ep e) s) ∧
      ((∃ s', runRounds body (epochRange ep e) s = some (.inl s')) → n = k) := by
  intro k
  induction k with
  | zero =>
    intro ep hk s
    have hn : ¬ ep ≤ e := by
      rw [UInt64.le_iff_toNat_le]; omega
    rw [epochRange_nil hn]
    exact ⟨0, Nat.le_refl _, .done hn, fun _ => rfl⟩
  | succ k ih =>
    intro ep hk s
    have hle : ep ≤ e := by rw [UInt64.le_iff_toNat_le]; omega
    rw [epochRange_cons hle he]
    unfold runRounds
    rcases hb : body ep s with _ | (s' | r)
    · exact ⟨1, by omega, .crash hle hb, fun ⟨_, h⟩ => nomatch h⟩
    · obtain ⟨n, h1, h2, h3⟩ := ih (ep + 1) (by rw [succ_toNat hle he]; omega) s'
      exact ⟨n + 1, by omega, .next hle hb h2, fun h => by rw [h3 h]⟩
    · exact ⟨1, by omega, .ret hle hb, fun ⟨_, h⟩ => nomatch h⟩

/-- the same as an equivalence -/
theorem epochLoop_iff {σ ρ : Type} (body : UInt64 → σ → Go (σ ⊕ ρ)) (e ep : UInt64) (he : e.toNat < 2 ^ 64 - 1) (s : σ) (out : Go (σ ⊕ ρ)) :
    (∃ n, EpochLoop body e ep s n out) ↔ out = runRounds body (epochRange ep e) s := by
  obtain ⟨n, _, h, _⟩ := epochLoop_ends body e he _ ep rfl s
  constructor
  · rintro ⟨m, hm⟩
    exact ((epochLoop_unique h hm).2).symm
  · rintro rfl
    exact ⟨n, h⟩

/-- a loop up to the last number, whose rounds never fail or return, does not end -/
theorem epochLoop_forever {σ ρ : Type} (body : UInt64 → σ → Go (σ ⊕ ρ)) (e : UInt64) (he : e.toNat = 2 ^ 64 - 1) (good : ∀ ep s, ∃ s', body ep s = some (.inl s'))
    (ep : UInt64) (s : σ) (n : Nat) (out : Go (σ ⊕ ρ)) : ¬ EpochLoop body e ep s n out := by
  intro h
  induction h with
  | @done ep s h =>
    rw [UInt64.le_iff_toNat_le] at h
    have := ep.toNat_lt
    omega
  | crash _ hb => obtain ⟨s', hs⟩ := good _ _; rw [hs] at hb; cases hb
  | ret _ hb => obtain ⟨s', hs⟩ := good _ _; rw [hs] at hb; cases hb
  | next _ _ _ ih => exact ih

theorem collect_rounds (d : Directory) : ∀ (eps : List UInt64) (acc : List DirSTR),
    runRounds (collectRound d) eps acc = (d.collectSTRs eps).map fun ss => .inl (acc ++ ss)
  | [], acc => by simp [runRounds, Directory.collectSTRs]
  | ep :: eps, acc => by
    unfold runRounds Directory.collectSTRs
    have hr : collectRound d ep acc = (newDirSTR (d.pad.getSTR ep)).map fun s => .inl (acc ++ [s]) := rfl
    rw [hr]
    cases hs : newDirSTR (d.pad.getSTR ep) with
    | none => rfl
    | some s =>
      simp only [Option.map_some]
      rw [collect_rounds d eps, Option.map_map]
      cases d.collectSTRs eps with
      | none => rfl
      | some ss => simp

theorem monitor_rounds (C : Crypto) (d : Directory) (n : Bytes) : ∀ (eps : List UInt64) (acc : List AuthPath × List DirSTR),
    runRounds (monitorRound C d n) eps acc = (d.monitorLoop C n eps).map fun x => match x with
      | none => .inr (newErrorResponse ErrDirectory)
      | some y => .inl (acc.1 ++ y.1, acc.2 ++ y.2)
  | [], acc => by simp [runRounds, Directory.monitorLoop]
  | ep :: eps, acc => by
    unfold runRounds Directory.monitorLoop
    rcases hl : d.pad.lookupInEpoch C n ep with _ | (_ | ap)
    · have hr : monitorRound C d n ep acc = none := by unfold monitorRound; rw [hl]; rfl
      rw [hr]; rfl
    · have hr : monitorRound C d n ep acc = some (.inr (newErrorResponse ErrDirectory)) := by unfold monitorRound; rw [hl]; rfl
      rw [hr]; rfl
    · have hr : monitorRound C d n ep acc = (newDirSTR (d.pad.getSTR ep)).map fun s => .inl (acc.1 ++ [ap], acc.2 ++ [s]) := by
        unfold monitorRound; rw [hl]; rfl
      rw [hr]
      cases hs : newDirSTR (d.pad.getSTR ep) with
      | none => rfl
      | some s =>
        simp only [Option.map_some]
        rw [monitor_rounds C d n eps]
        rcases d.monitorLoop C n eps with _ | (_ | ⟨aps, ss⟩)
        · rfl
        · rfl
        · simp

theorem observed_rounds (h : DirHistory) : ∀ (eps : List UInt64) (acc : List (Option DirSTR)),
    runRounds (observedRound h) eps acc = some (.inl (acc ++ eps.map h.snapshots))
  | [], acc => by simp [runRounds]
  | ep :: eps, acc => by
    unfold runRounds
    rw [show observedRound h ep acc = some (.inl (acc ++ [h.snapshots ep])) from rfl]
    dsimp only
    rw [observed_rounds h eps]
    simp

end Coniks

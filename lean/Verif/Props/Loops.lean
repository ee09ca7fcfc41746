import Verif.Proofs.Loops
import Verif.Props.AuditLog
import Verif.Props.Directory
/-
C92. Requests about ranges of epochs come to an end.
-/
namespace Coniks.Props
open Coniks Coniks.Spec

/-- the rounds of a loop and what its function makes of them -/
theorem loop_request {σ : Type} (body : UInt64 → σ → Go (σ ⊕ Response)) (e s : UInt64) (he : e.toNat < 2 ^ 64 - 1) (x : σ) (finish : σ → Go Response) :
    ∃ n ≤ e.toNat + 1 - s.toNat, ∀ m out, (∃ r, EpochLoop body e s x m r ∧ out = afterLoop finish r) ↔
      m = n ∧ out = afterLoop finish (runRounds body (epochRange s e) x) := by
  obtain ⟨n, h1, h2, _⟩ := epochLoop_ends body e he _ s rfl x
  refine ⟨n, h1, fun m out => ⟨?_, ?_⟩⟩
  · rintro ⟨r, hr, rfl⟩
    obtain ⟨h3, h4⟩ := epochLoop_unique h2 hr
    exact ⟨h3.symm, by rw [h4]⟩
  · rintro ⟨rfl, rfl⟩
    exact ⟨_, h2, rfl⟩

/-- the newest epoch as a number -/
theorem newest_epoch (C : Crypto) (t0 : UInt64) (sk vk : Bytes) (size : Nat) (r₁ r₂ : Bytes) (ops : List DirOp) (hlt : dirUpdates ops < 2 ^ 64)
    (d : Directory) (log : List STR) (h : dirAfter C t0 sk vk size r₁ r₂ ops = some (d, log)) : d.latestSTR.core.epoch.toNat = dirUpdates ops := by
  obtain ⟨inv, hl, _⟩ := dirAfter_padInv C t0 sk vk size r₁ r₂ ops hlt d log h
  have he : d.latestSTR.core.epoch = UInt64.ofNat (log.length - 1) := inv.latest_epoch
  rw [he, ofNat_toNat64 (by omega)]
  omega

theorem min_epoch (a b : UInt64) : (if a > b then b else a).toNat ≤ b.toNat := by
  split
  · exact Nat.le_refl _
  · rename_i h
    have h : ¬ b < a := h
    rw [UInt64.lt_iff_toNat_lt] at h
    omega

/-- C92. After any history of a directory with fewer than 2^64 - 1 updates every request about a range of epochs comes to an end, after at most one round
for every epoch from the first one asked for up to the newest, whatever the request. The number of rounds and the outcome are the only possible ones, and the
outcome is the one that the other theorems are about. -/
theorem C92_directory (C : Crypto) (t0 : UInt64) (sk vk : Bytes) (size : Nat) (r₁ r₂ : Bytes) (ops : List DirOp) (hlt : dirUpdates ops < 2 ^ 64 - 1)
    (d : Directory) (log : List STR) (h : dirAfter C t0 sk vk size r₁ r₂ ops = some (d, log)) :
    (∀ req : STRHistoryRequest, ∃ n ≤ dirUpdates ops + 1 - req.startEpoch.toNat, ∀ m out, d.HistoryRuns req m out ↔ m = n ∧ out = d.getSTRHistory req) ∧
    (∀ req : MonitoringRequest, ∃ n ≤ dirUpdates ops + 1 - req.startEpoch.toNat, ∀ m out, d.MonitorRuns C req m out ↔ m = n ∧ out = d.monitor C req) ∧
    (∀ req : KeyLookupInEpochRequest, ∃ n ≤ dirUpdates ops + 1 - req.epoch.toNat, ∀ m out,
      d.LookupInEpochRuns C req m out ↔ m = n ∧ out = d.keyLookupInEpoch C req) := by
  have hep := newest_epoch C t0 sk vk size r₁ r₂ ops (by omega) d log h
  refine ⟨fun req => ?_, fun req => ?_, fun req => ?_⟩
  · unfold Directory.HistoryRuns Directory.getSTRHistory
    split
    · exact ⟨0, Nat.zero_le _, fun m out => Iff.rfl⟩
    · have hb := min_epoch req.endEpoch d.latestSTR.core.epoch
      obtain ⟨n, h1, h2⟩ := loop_request (collectRound d) (if req.endEpoch > d.latestSTR.core.epoch then d.latestSTR.core.epoch else req.endEpoch) req.startEpoch
        (by omega) [] (fun ss => some (newSTRHistoryRange (ss.map some)))
      refine ⟨n, by omega, fun m out => ?_⟩
      rw [h2, collect_rounds]
      dsimp only
      cases d.collectSTRs _ <;> rfl
  · unfold Directory.MonitorRuns Directory.monitor
    split
    · exact ⟨0, Nat.zero_le _, fun m out => Iff.rfl⟩
    · have hb := min_epoch req.endEpoch d.latestSTR.core.epoch
      obtain ⟨n, h1, h2⟩ := loop_request (monitorRound C d req.username) (if req.endEpoch > d.latestSTR.core.epoch then d.latestSTR.core.epoch else req.endEpoch)
        req.startEpoch (by omega) ([], []) (fun x => some (newMonitoringProof x.1 x.2))
      refine ⟨n, by omega, fun m out => ?_⟩
      rw [h2, monitor_rounds]
      dsimp only
      rcases d.monitorLoop C req.username _ with _ | (_ | ⟨aps, ss⟩) <;> rfl
  · unfold Directory.LookupInEpochRuns Directory.keyLookupInEpoch
    split
    · exact ⟨0, Nat.zero_le _, fun m out => Iff.rfl⟩
    · rcases d.pad.lookupInEpoch C req.username req.epoch with _ | (_ | ap)
      · exact ⟨0, Nat.zero_le _, fun m out => Iff.rfl⟩
      · exact ⟨0, Nat.zero_le _, fun m out => Iff.rfl⟩
      · obtain ⟨n, h1, h2⟩ := loop_request (collectRound d) d.latestSTR.core.epoch req.epoch (by omega) []
          (fun strs => ap.found.map fun b => newKeyLookupInEpochProof ap strs (if b then ReqSuccess else ReqNameNotFound))
        refine ⟨n, by omega, fun m out => ?_⟩
        dsimp only
        rw [h2, collect_rounds]
        cases d.collectSTRs _ with
        | none => rfl
        | some ss => rcases ap.found with _ | (_ | _) <;> rfl

/-- C92. An auditor answers every request for observed STRs after one round for every epoch asked for, if the newest STR it holds of the directory is not of the last
epoch that has a number. -/
theorem C92_auditor (l : AuditLog) (req : AuditingRequest) (hlast : ∀ h, l req.dirInitSTRHash = some h → h.aud.verified.core.epoch.toNat < 2 ^ 64 - 1) :
    ∃ n ≤ req.endEpoch.toNat + 1 - req.startEpoch.toNat, ∀ m out, l.ObservedRuns req m out ↔ m = n ∧ out = some (l.getObservedSTRs req) := by
  unfold AuditLog.ObservedRuns AuditLog.getObservedSTRs
  cases hl : l req.dirInitSTRHash with
  | none => exact ⟨0, Nat.zero_le _, fun m out => Iff.rfl⟩
  | some h =>
    have hh := hlast h hl
    dsimp only
    split
    · exact ⟨0, Nat.zero_le _, fun m out => Iff.rfl⟩
    · rename_i hc
      have hc1 : ¬ h.aud.verified.core.epoch < req.endEpoch := fun hx => hc (.inl hx)
      rw [UInt64.lt_iff_toNat_lt] at hc1
      obtain ⟨n, h1, h2⟩ := loop_request (observedRound h) req.endEpoch req.startEpoch (by omega) [] (fun strs => some (newSTRHistoryRange strs))
      refine ⟨n, h1, fun m out => ?_⟩
      rw [h2, observed_rounds]
      rfl

/-- C92. Exactly which requests an auditor never finishes: those up to the last epoch that has a number, 2^64 - 1, if it holds an STR of this epoch as its newest. -/
theorem C92_auditor_iff (l : AuditLog) (req : AuditingRequest) :
    (¬ ∃ m out, l.ObservedRuns req m out) ↔ ∃ h, l req.dirInitSTRHash = some h ∧ h.aud.verified.core.epoch.toNat = 2 ^ 64 - 1 ∧ req.endEpoch.toNat = 2 ^ 64 - 1 := by
  constructor
  · intro hno
    unfold AuditLog.ObservedRuns at hno
    cases hl : l req.dirInitSTRHash with
    | none => rw [hl] at hno; exact (hno ⟨_, _, rfl, rfl⟩).elim
    | some h =>
      rw [hl] at hno
      dsimp only at hno
      split at hno
      · exact (hno ⟨_, _, rfl, rfl⟩).elim
      · rename_i hc
        have hc1 : ¬ h.aud.verified.core.epoch < req.endEpoch := fun hx => hc (.inl hx)
        rw [UInt64.lt_iff_toNat_lt] at hc1
        have hv := h.aud.verified.core.epoch.toNat_lt
        have he := req.endEpoch.toNat_lt
        by_cases hend : req.endEpoch.toNat = 2 ^ 64 - 1
        · exact ⟨h, rfl, by omega, hend⟩
        · obtain ⟨n, _, h2⟩ := loop_request (observedRound h) req.endEpoch req.startEpoch (by omega) [] (fun strs => some (newSTRHistoryRange strs))
          obtain ⟨r, hr⟩ := (h2 n _).mpr ⟨rfl, rfl⟩
          exact (hno ⟨_, _, r, hr⟩).elim
  · rintro ⟨h, hl, hv, hend⟩ ⟨m, out, hr⟩
    unfold AuditLog.ObservedRuns at hr
    rw [hl] at hr
    dsimp only at hr
    have hs := req.startEpoch.toNat_lt
    rw [if_neg (by
      rintro (h1 | h1)
      · have h1 : h.aud.verified.core.epoch < req.endEpoch := h1
        rw [UInt64.lt_iff_toNat_lt] at h1; omega
      · have h1 : req.endEpoch < req.startEpoch := h1
        rw [UInt64.lt_iff_toNat_lt] at h1; omega)] at hr
    obtain ⟨r, hr, _⟩ := hr
    exact epochLoop_forever (observedRound h) req.endEpoch hend (fun ep s => ⟨_, rfl⟩) _ _ _ _ hr

/-- an STR with the last epoch number -/
def lastToy : DirSTR := { toy0 with core := { toy0.core with epoch := 0xffffffffffffffff } }

/-- C92. COUNTEREXAMPLE to "every request of a client to an auditor comes to an end": `InitHistory` takes over the stored STRs without a look at them (C42), so
a file whose second STR carries the epoch 2^64 - 1 makes an auditor that never finishes such a request, and whose answer grows until the memory is used up. -/
theorem C92_forever_counterexample : ∃ l, newAuditLog.initHistory Crypto.toy [] toyPK [some toy0, some lastToy] = some (l, none) ∧
    ¬ ∃ m out, l.ObservedRuns ⟨dirId Crypto.toy toy0, 0, 0xffffffffffffffff⟩ m out := by
  have key : (newAuditLog.initHistory Crypto.toy [] toyPK [some toy0, some lastToy]).map (fun x =>
      (x.2, (x.1 (dirId Crypto.toy toy0)).map fun h => h.aud.verified.core.epoch)) = some (none, some 0xffffffffffffffff) := by decide +kernel
  obtain ⟨⟨l, e⟩, h1, h2⟩ := Option.map_eq_some_iff.mp key
  simp only [Prod.mk.injEq] at h2
  obtain ⟨h, h3, h4⟩ := Option.map_eq_some_iff.mp h2.2
  exact ⟨l, by rw [h1, h2.1], (C92_auditor_iff _ _).mpr ⟨h, h3, by rw [h4]; decide, by decide⟩⟩

/-- a loop that collects STRs up to the last epoch number of a directory that has evicted epoch 0 crashes -/
theorem collect_wraps (d : Directory) (e : UInt64) (he : e.toNat = 2 ^ 64 - 1) (h0 : d.pad.getSTR 0 = none) : ∀ (k : Nat) (ep : UInt64), 2 ^ 64 - 1 - ep.toNat = k →
    ∀ acc, ∃ n, EpochLoop (collectRound d) e ep acc n none := by
  have hle : ∀ ep : UInt64, ep ≤ e := fun ep => by rw [UInt64.le_iff_toNat_le]; have := ep.toNat_lt; omega
  intro k
  induction k with
  | zero =>
    intro ep hk acc
    have hlt := ep.toNat_lt
    have hep : ep + 1 = 0 := by
      have : (ep + 1).toNat = 0 := by
        rw [UInt64.toNat_add]
        show (ep.toNat + 1) % 2 ^ 64 = 0
        rw [show ep.toNat + 1 = 2 ^ 64 by omega]
      exact UInt64.toNat_inj.mp this
    cases hr : collectRound d ep acc with
    | none => exact ⟨1, .crash (hle ep) hr⟩
    | some x =>
      obtain ⟨s, _, rfl⟩ := Option.map_eq_some_iff.mp hr
      have h1 : collectRound d 0 (acc ++ [s]) = none := by unfold collectRound; rw [h0]; rfl
      exact ⟨_, .next (hle ep) hr (by rw [hep]; exact .crash (hle 0) h1)⟩
  | succ k ih =>
    intro ep hk acc
    have hlt := ep.toNat_lt
    cases hr : collectRound d ep acc with
    | none => exact ⟨1, .crash (hle ep) hr⟩
    | some x =>
      obtain ⟨s, _, rfl⟩ := Option.map_eq_some_iff.mp hr
      obtain ⟨n, hn⟩ := ih (ep + 1) (by
        rw [UInt64.toNat_add]
        show 2 ^ 64 - 1 - (ep.toNat + 1) % 2 ^ 64 = k
        rw [Nat.mod_eq_of_lt (by omega)]
        omega) (acc ++ [s])
      exact ⟨_, .next (hle ep) hr hn⟩

/-- C92. COUNTEREXAMPLE at the directory, where the newest epoch is the last one that has a number: every request for the history up to the newest epoch crashes it, as
the counter starts again at 0 and the STR of epoch 0 is long evicted. (Every such request ends after a history with fewer updates, `C92_directory`.) -/
theorem C92_last_epoch_counterexample (C : Crypto) (t0 : UInt64) (sk vk : Bytes) (size : Nat) (hsz : 2 ≤ size) (hsz' : size < 2 ^ 64) (r₁ r₂ : Bytes) (ops : List DirOp)
    (hu : dirUpdates ops = 2 ^ 64 - 1) (d : Directory) (log : List STR) (h : dirAfter C t0 sk vk size r₁ r₂ ops = some (d, log)) (req : STRHistoryRequest)
    (hend : req.endEpoch.toNat = 2 ^ 64 - 1) : (∃ n, d.HistoryRuns req n none) ∧ ∀ n out, d.HistoryRuns req n out → out = none := by
  have hep := newest_epoch C t0 sk vk size r₁ r₂ ops (by omega) d log h
  obtain ⟨lo, r, hr⟩ := epochs_available C t0 sk vk size r₁ r₂ ops (by omega) d log h
  obtain ⟨_, hl, _⟩ := dirAfter_padInv C t0 sk vk size r₁ r₂ ops (by omega) d log h
  obtain ⟨h1, _⟩ := hr hsz
  have h0 : d.pad.getSTR 0 = none := r.evicted 0 (by
    show 0 < lo
    omega)
  have hs := req.startEpoch.toNat_lt
  have hcond : ¬ (req.startEpoch > d.latestSTR.core.epoch ∨ req.endEpoch < req.startEpoch) := by
    rintro (hx | hx)
    · have hx : d.latestSTR.core.epoch < req.startEpoch := hx
      rw [UInt64.lt_iff_toNat_lt] at hx; omega
    · rw [UInt64.lt_iff_toNat_lt] at hx; omega
  have hb : (if req.endEpoch > d.latestSTR.core.epoch then d.latestSTR.core.epoch else req.endEpoch).toNat = 2 ^ 64 - 1 := by
    split
    · omega
    · exact hend
  obtain ⟨n, hn⟩ := collect_wraps d _ hb h0 _ req.startEpoch rfl []
  refine ⟨⟨n, ?_⟩, ?_⟩
  · unfold Directory.HistoryRuns
    rw [if_neg hcond]
    exact ⟨none, hn, rfl⟩
  · intro m out hm
    unfold Directory.HistoryRuns at hm
    rw [if_neg hcond] at hm
    obtain ⟨r', hr', rfl⟩ := hm
    rw [← (epochLoop_unique hn hr').2]
    rfl

/-! ### Concrete cases -/

/-- `C92_directory` on a directory with three epochs: the requests end, and the history from epoch 2 on has two STRs -/
example : ∃ d log, dirAfter Crypto.toy 5 [1] [2] 2 [3] [4] sampleDir = some (d, log) ∧
    ∃ n ≤ dirUpdates sampleDir + 1 - 2, ∃ out, d.HistoryRuns ⟨2, 9⟩ n out ∧ d.HistoryRuns ⟨2, 9⟩ n (d.getSTRHistory ⟨2, 9⟩) := by
  obtain ⟨d, log, h⟩ := C31_history_runs Crypto.toy 5 [1] [2] 2 [3] [4] sampleDir (by decide) (by intro req; simp [sampleDir])
  obtain ⟨n, h1, h2⟩ := (C92_directory Crypto.toy 5 [1] [2] 2 [3] [4] sampleDir (by decide) d log h).1 ⟨2, 9⟩
  exact ⟨d, log, h, n, h1, _, (h2 n _).mpr ⟨rfl, rfl⟩, (h2 n _).mpr ⟨rfl, rfl⟩⟩

/-- `C92_auditor` for the auditor with a gap in its history: three rounds, and an answer with a nil pointer -/
example : ∃ l, newAuditLog.initHistory Crypto.toy [] toyPK [some toy0, some toy2] = some (l, none) ∧
    ∃ n ≤ 3, l.ObservedRuns ⟨dirId Crypto.toy toy0, 0, 2⟩ n (some ⟨ReqSuccess, .history [some toy0, none, some toy2]⟩) := by
  obtain ⟨l, h1, h2⟩ := C42_unchecked_init_counterexample
  refine ⟨l, h1, ?_⟩
  have key : (newAuditLog.initHistory Crypto.toy [] toyPK [some toy0, some toy2]).map (fun x =>
      (x.1 (dirId Crypto.toy toy0)).map fun h => h.aud.verified.core.epoch) = some (some 2) := by decide +kernel
  rw [h1, Option.map_some] at key
  dsimp only at key
  obtain ⟨n, g1, g2⟩ := C92_auditor l ⟨dirId Crypto.toy toy0, 0, 2⟩ (by
    intro h hl
    have hl : l (dirId Crypto.toy toy0) = some h := hl
    rw [hl, Option.map_some] at key
    rw [Option.some.inj (Option.some.inj key)]
    decide)
  exact ⟨n, g1, (g2 n _).mpr ⟨rfl, by rw [h2]⟩⟩

end Coniks.Props

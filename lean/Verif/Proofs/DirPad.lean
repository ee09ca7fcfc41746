import Verif.Proofs.DirReads
namespace Coniks
open Spec

/-- every history of a directory drives its PAD through a history of `Set`s and `Update`s with the same STRs -/
theorem step_pad {C : Crypto} {d d' : Directory} {op : DirOp} {r : Option Response} (h : d.step C op = some (d', r))
    (log : List STR) : ∃ pops, d.pad.runLog C log pops = some (d'.pad, log ++ op.issued d') ∧ numUpdates pops = dirUpdates [op] := by
  have same : ∀ {x : Go Response}, (x.map fun r => (d, some r)) = some (d', r) → d' = d := by
    intro x hx
    obtain ⟨y, _, hy⟩ := Option.map_eq_some_iff.mp hx
    exact (congrArg Prod.fst hy).symm
  have nop : ∀ {d'' : Directory}, d''.pad = d.pad → ∃ pops, d.pad.runLog C log pops = some (d''.pad, log ++ []) ∧ numUpdates pops = 0 := by
    intro d'' e; exact ⟨[], by simp [PAD.runLog, e], rfl⟩
  cases op with
  | keyLookup req => rw [same h]; exact nop rfl
  | keyLookupInEpoch req => rw [same h]; exact nop rfl
  | monitor req => rw [same h]; exact nop rfl
  | getSTRHistory req => rw [same h]; exact nop rfl
  | setPolicies t =>
    simp only [Directory.step, Option.some.injEq, Prod.mk.injEq] at h
    rw [← h.1]; exact nop rfl
  | update =>
    simp only [Directory.step, Option.some.injEq, Prod.mk.injEq] at h
    rw [← h.1]
    exact ⟨[.update (some d.policies)], rfl, rfl⟩
  | register rnd req =>
    obtain ⟨⟨d2, r2⟩, h1, h2⟩ := Option.map_eq_some_iff.mp h
    simp only [Prod.mk.injEq] at h2
    rw [← h2.1]
    have hset : ∀ {p ok}, d.pad.set C rnd req.username req.key = some (p, ok) →
        ∃ pops, d.pad.runLog C log pops = some (p, log ++ []) ∧ numUpdates pops = 0 := by
      intro p ok hp
      refine ⟨[.set rnd req.username req.key], ?_, rfl⟩
      simp [PAD.runLog, PAD.step, hp, PadOp.issued]
    unfold Directory.register at h1
    split at h1
    · cases h1; exact nop rfl
    · split at h1
      · cases h1
      · cases h1; exact nop rfl
      · split at h1
        · cases h1
        · cases h1; exact nop rfl
        · split at h1
          · cases h1; exact nop rfl
          · simp only at h1
            split at h1
            · cases h1
            · next hs => cases h1; exact hset hs
            · next hs => cases h1; exact hset hs

theorem pad_runLog_append (C : Crypto) (a b : List PadOp) : ∀ (p : PAD) (log : List STR),
    p.runLog C log (a ++ b) = (p.runLog C log a).bind fun x => x.1.runLog C x.2 b := by
  induction a with
  | nil => intro p log; rfl
  | cons o a ih =>
    intro p log
    simp only [List.cons_append, PAD.runLog]
    cases p.step C o with
    | none => rfl
    | some x => exact ih x _

theorem runLog_pad (C : Crypto) (ops : List DirOp) : ∀ (d : Directory) (log : List STR) d' log',
    d.runLog C log ops = some (d', log') →
    ∃ pops, d.pad.runLog C log pops = some (d'.pad, log') ∧ numUpdates pops = dirUpdates ops := by
  induction ops with
  | nil =>
    intro d log d' log' h
    simp only [Directory.runLog, Option.some.injEq, Prod.mk.injEq] at h
    obtain ⟨rfl, rfl⟩ := h
    exact ⟨[], rfl, rfl⟩
  | cons op ops ih =>
    intro d log d' log' h
    simp only [Directory.runLog] at h
    obtain ⟨⟨d1, r⟩, h1, h2⟩ := Option.bind_eq_some_iff.mp h
    obtain ⟨p1, a1, b1⟩ := step_pad h1 log
    obtain ⟨p2, a2, b2⟩ := ih d1 _ d' log' h2
    refine ⟨p1 ++ p2, ?_, ?_⟩
    · rw [pad_runLog_append, a1]; exact a2
    · rw [numUpdates_append, b1, b2, ← dirUpdates_cons]

theorem dirAfter_pad (C : Crypto) (t0 : UInt64) (sk vk : Bytes) (size : Nat) (r₁ r₂ : Bytes) (ops : List DirOp)
    (d : Directory) (log : List STR) (h : dirAfter C t0 sk vk size r₁ r₂ ops = some (d, log)) :
    ∃ pops, padAfter C (newPolicies t0 (C.vrfPub vk)) sk vk size r₁ r₂ pops = some (d.pad, log) ∧
      numUpdates pops = dirUpdates ops := by
  obtain ⟨p, h1, _⟩ := newPAD_spec C (newPolicies t0 (C.vrfPub vk)) sk vk size r₁ r₂
  simp only [dirAfter, newDirectory, h1, if_true, Option.bind_some] at h
  obtain ⟨pops, h2, h3⟩ := runLog_pad C ops _ _ _ _ h
  exact ⟨pops, by simp [padAfter, h1]; exact h2, h3⟩

/-- the PAD invariant of a used directory, without any hypothesis on the VRF -/
theorem dirAfter_padInv (C : Crypto) (t0 : UInt64) (sk vk : Bytes) (size : Nat) (r₁ r₂ : Bytes) (ops : List DirOp)
    (hlt : dirUpdates ops < 2 ^ 64) (d : Directory) (log : List STR)
    (h : dirAfter C t0 sk vk size r₁ r₂ ops = some (d, log)) :
    PadInv C d.pad log ∧ log.length = dirUpdates ops + 1 ∧ d.pad.signKey = sk ∧ d.pad.vrfKey = vk := by
  obtain ⟨pops, h1, h2⟩ := dirAfter_pad C t0 sk vk size r₁ r₂ ops d log h
  obtain ⟨p, log', h3, inv, h4, h5, h6⟩ := padAfter_inv C (newPolicies t0 (C.vrfPub vk)) sk vk size r₁ r₂ pops (by omega)
  rw [h1] at h3
  simp only [Option.some.injEq, Prod.mk.injEq] at h3
  obtain ⟨rfl, rfl⟩ := h3
  exact ⟨inv, by omega, h4, h5⟩

/-! ### totality -/

theorem lookupInEpoch_total {C : Crypto} {p : PAD} {log : List STR} (inv : PadInv C p log) (n : Bytes) (e : UInt64) :
    (p.getSTR e = none ∧ p.lookupInEpoch C n e = some none) ∨
    (∃ s ap l, p.getSTR e = some s ∧ p.lookupInEpoch C n e = some (some ap) ∧ ap.leaf = some l) := by
  cases hg : p.getSTR e with
  | none => left; simp [PAD.lookupInEpoch, hg]
  | some s =>
    right
    have hs : s ∈ log := by
      obtain ⟨lo, _, _, l3⟩ := getSTR_spec inv
      rw [l3] at hg
      split at hg
      · simp only [Option.some.injEq] at hg; rw [← hg]; exact inv.latest_mem
      · split at hg
        · exact List.mem_of_getElem? hg
        · cases hg
    obtain ⟨ap, q, pn, hget, post⟩ := get_spec C 256 s.tree (inv.snap s hs).inv (C.vrfProve p.vrfKey n).1
      (by rw [toBits_length, C.vrf_length])
    refine ⟨s, { ap with vrfProof := (C.vrfProve p.vrfKey n).2 }, pn, rfl, ?_, post.leaf⟩
    simp [PAD.lookupInEpoch, hg, hget]

theorem lookup_total {C : Crypto} {p : PAD} {log : List STR} (inv : PadInv C p log) (n : Bytes) :
    ∃ ap l, p.lookup C n = some (some ap) ∧ ap.leaf = some l := by
  rcases lookupInEpoch_total inv n p.latest.core.epoch with ⟨h, _⟩ | ⟨s, ap, l, _, h2, h3⟩
  · simp [PAD.getSTR] at h
  · exact ⟨ap, l, h2, h3⟩

theorem register_total {C : Crypto} {d : Directory} {log : List STR} (inv : PadInv C d.pad log) (rnd : Option Bytes)
    (req : RegistrationRequest) : ∃ x, d.register C rnd req = some x := by
  obtain ⟨ap, l, h1, h2⟩ := lookup_total inv req.username
  obtain ⟨pad', hset, _⟩ := pad_set_spec C d.pad log inv rnd req.username req.key
  have hf : ap.found = some (ap.lookupIndex == l.index) := by simp [AuthPath.found, h2]
  unfold Directory.register
  split
  · exact ⟨_, rfl⟩
  · rw [h1]
    simp only [hf]
    cases (ap.lookupIndex == l.index) with
    | true => exact ⟨_, rfl⟩
    | false =>
      simp only
      split
      · exact ⟨_, rfl⟩
      · rw [hset]
        cases rnd with
        | none => exact ⟨_, rfl⟩
        | some r => exact ⟨_, rfl⟩

theorem keyLookup_total {C : Crypto} {d : Directory} {log : List STR} (inv : PadInv C d.pad log)
    (req : KeyLookupRequest) : ∃ x, d.keyLookup C req = some x := by
  obtain ⟨ap, l, h1, h2⟩ := lookup_total inv req.username
  have hf : ap.found = some (ap.lookupIndex == l.index) := by simp [AuthPath.found, h2]
  unfold Directory.keyLookup
  split
  · exact ⟨_, rfl⟩
  · rw [h1]
    simp only [hf]
    cases (ap.lookupIndex == l.index) with
    | true => exact ⟨_, rfl⟩
    | false =>
      simp only
      split <;> exact ⟨_, rfl⟩

theorem getSTR_none_lo {p : PAD} {log : List STR} {lo : Nat} (r : Retrievable p log lo) {e : UInt64} (h : e.toNat < log.length) :
    p.getSTR e = none ↔ e.toNat < lo := by
  constructor
  · intro hn
    rcases Nat.lt_or_ge e.toNat lo with x | x
    · exact x
    · rw [r.get e x h, List.getElem?_eq_getElem h] at hn; cases hn
  · exact r.evicted e

theorem keyLookupInEpoch_total {C : Crypto} {d : Directory} {log : List STR} (inv : PadInv C d.pad log)
    (req : KeyLookupInEpochRequest) : ∃ x, d.keyLookupInEpoch C req = some x := by
  obtain ⟨lo, r⟩ := retrievable inv
  have hsm := inv.small
  have hpos := inv.len_pos
  have hlt : d.latestSTR.core.epoch.toNat = log.length - 1 := inv.latest_toNat
  unfold Directory.keyLookupInEpoch
  split
  · exact ⟨_, rfl⟩
  · next hc =>
    rw [gt_iff_toNat] at hc
    simp only [not_or, Nat.not_lt] at hc
    rcases lookupInEpoch_total inv req.username req.epoch with ⟨_, h⟩ | ⟨s, ap, l, g1, g2, g3⟩
    · rw [h]; exact ⟨_, rfl⟩
    · have hlo : lo ≤ req.epoch.toNat := by
        rcases Nat.lt_or_ge req.epoch.toNat lo with x | x
        · rw [r.evicted _ x] at g1; cases g1
        · exact x
      have hf : ap.found = some (ap.lookupIndex == l.index) := by simp [AuthPath.found, g3]
      rw [g2]
      simp only [epochRange_eq, hlt]
      rw [collect_spec inv r _ _ hlo (by omega)]
      simp only [hf]
      cases (ap.lookupIndex == l.index) <;> exact ⟨_, rfl⟩

theorem monitorLoop_total {C : Crypto} {d : Directory} {log : List STR} (inv : PadInv C d.pad log) (n : Bytes) (es : List UInt64) :
    ∃ x, d.monitorLoop C n es = some x := by
  induction es with
  | nil => exact ⟨_, rfl⟩
  | cons e es ih =>
    obtain ⟨y, hy⟩ := ih
    rcases lookupInEpoch_total inv n e with ⟨_, h⟩ | ⟨s, ap, l, g1, g2, g3⟩
    · simp only [Directory.monitorLoop, h]; exact ⟨_, rfl⟩
    · simp only [Directory.monitorLoop, g2, g1, newDirSTR, hy]
      cases y <;> exact ⟨_, rfl⟩

theorem monitor_total {C : Crypto} {d : Directory} {log : List STR} (inv : PadInv C d.pad log)
    (req : MonitoringRequest) : ∃ x, d.monitor C req = some x := by
  unfold Directory.monitor
  split
  · exact ⟨_, rfl⟩
  · obtain ⟨x, hx⟩ := monitorLoop_total inv req.username
      (epochRange req.startEpoch (if req.endEpoch > d.latestSTR.core.epoch then d.latestSTR.core.epoch else req.endEpoch))
    simp only [hx]
    cases x with
    | none => exact ⟨_, rfl⟩
    | some y => exact ⟨_, rfl⟩

/-- the only call that panics -/
theorem step_panics_iff {C : Crypto} {d : Directory} {log : List STR} (inv : PadInv C d.pad log) (op : DirOp) :
    d.step C op = none ↔ ∃ req, op = .getSTRHistory req ∧ req.startEpoch ≤ req.endEpoch ∧ d.pad.getSTR req.startEpoch = none := by
  have no : ∀ {x : Go (Directory × Option Response)}, (∃ y, x = some y) → (∀ req, op ≠ .getSTRHistory req) →
      (x = none ↔ ∃ req, op = .getSTRHistory req ∧ req.startEpoch ≤ req.endEpoch ∧ d.pad.getSTR req.startEpoch = none) := by
    rintro x ⟨y, rfl⟩ h
    constructor
    · intro h; cases h
    · rintro ⟨req, e, _⟩; exact absurd e (h req)
  cases op with
  | register rnd req =>
    obtain ⟨x, hx⟩ := register_total inv rnd req
    exact no ⟨_, by rw [Directory.step, hx]; rfl⟩ (fun _ e => by cases e)
  | keyLookup req =>
    obtain ⟨x, hx⟩ := keyLookup_total inv req
    exact no ⟨_, by rw [Directory.step, hx]; rfl⟩ (fun _ e => by cases e)
  | keyLookupInEpoch req =>
    obtain ⟨x, hx⟩ := keyLookupInEpoch_total inv req
    exact no ⟨_, by rw [Directory.step, hx]; rfl⟩ (fun _ e => by cases e)
  | monitor req =>
    obtain ⟨x, hx⟩ := monitor_total inv req
    exact no ⟨_, by rw [Directory.step, hx]; rfl⟩ (fun _ e => by cases e)
  | update => exact no ⟨_, rfl⟩ (fun _ e => by cases e)
  | setPolicies t => exact no ⟨_, rfl⟩ (fun _ e => by cases e)
  | getSTRHistory req =>
    obtain ⟨lo, r⟩ := retrievable inv
    obtain ⟨h1, h2, h3⟩ := history_spec inv r req
    have hrlt := r.lt
    by_cases a : log.length ≤ req.startEpoch.toNat ∨ req.endEpoch.toNat < req.startEpoch.toNat
    · constructor
      · intro h; rw [Directory.step, h1 a] at h; cases h
      · rintro ⟨req', e, h4, h5⟩
        cases e
        rw [UInt64.le_iff_toNat_le] at h4
        rcases a with a | a
        · exfalso
          obtain ⟨lo', l1, _, l3⟩ := getSTR_spec inv
          rw [l3, if_pos (by omega)] at h5
          cases h5
        · omega
    · simp only [not_or, Nat.not_le, Nat.not_lt] at a
      rcases Nat.lt_or_ge req.startEpoch.toNat lo with b | b
      · constructor
        · intro _
          exact ⟨req, rfl, by rw [UInt64.le_iff_toNat_le]; exact a.2, r.evicted _ b⟩
        · intro _; rw [Directory.step, h2 b a.2]; rfl
      · constructor
        · intro h; rw [Directory.step, h3 b a.1 a.2] at h; cases h
        · rintro ⟨req', e, h4, h5⟩
          cases e
          have := (getSTR_none_lo r a.1).mp h5
          omega

end Coniks

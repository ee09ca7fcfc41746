import Verif.Proofs.Directory
namespace Coniks
open Spec

/-- the DirSTR of an STR (protocol/str.go:13-18) -/
def STR.toDir (s : STR) : DirSTR := { core := s.core, policies := some s.ad }

theorem latestSTR_eq (d : Directory) : d.latestSTR = d.pad.latest.toDir := rfl

theorem epochRange_eq (s e : UInt64) : epochRange s e = (List.range' s.toNat (e.toNat + 1 - s.toNat)).map UInt64.ofNat := by
  rw [epochRange, List.range'_eq_map_range, List.map_map]; rfl

/-- the first epoch that can be retrieved -/
structure Retrievable (p : PAD) (log : List STR) (lo : Nat) : Prop where
  lt : lo < log.length
  get : ∀ e : UInt64, lo ≤ e.toNat → e.toNat < log.length → p.getSTR e = log[e.toNat]?
  evicted : ∀ e : UInt64, e.toNat < lo → p.getSTR e = none
  count : p.loadedEpochs.length = log.length - lo

theorem retrievable {C : Crypto} {p : PAD} {log : List STR} (inv : PadInv C p log) : ∃ lo, Retrievable p log lo := by
  obtain ⟨lo, h1, h2, h3⟩ := getSTR_spec inv
  refine ⟨lo, h1, ?_, ?_, h2⟩
  · intro e a b
    rw [h3]
    split
    · rw [← inv.latest_get]; congr 1; omega
    · rfl
  · intro e a
    rw [h3, if_neg (by omega), if_neg (by omega)]

theorem collect_spec {C : Crypto} {d : Directory} {log : List STR} (inv : PadInv C d.pad log) {lo : Nat}
    (r : Retrievable d.pad log lo) (k : Nat) : ∀ s, lo ≤ s → s + k ≤ log.length →
    d.collectSTRs ((List.range' s k).map UInt64.ofNat) = some (((log.drop s).take k).map STR.toDir) := by
  have hsm := inv.small
  induction k with
  | zero => intro s _ _; simp [Directory.collectSTRs]
  | succ k ih =>
    intro s h1 h2
    have hlt : s < log.length := by omega
    have hs : (UInt64.ofNat s).toNat = s := ofNat_toNat64 (by omega)
    rw [List.range'_succ, List.map_cons, Directory.collectSTRs, r.get _ (by omega) (by omega), hs,
      List.getElem?_eq_getElem hlt]
    simp only [newDirSTR]
    rw [ih (s + 1) (by omega) (by omega), List.drop_eq_getElem_cons hlt, List.take_succ_cons, List.map_cons]
    rfl

theorem collect_evicted {d : Directory} {log : List STR} {lo : Nat} (r : Retrievable d.pad log lo) (s k : Nat)
    (h : s < lo) (h64 : s < 2 ^ 64) : d.collectSTRs ((List.range' s (k + 1)).map UInt64.ofNat) = none := by
  rw [List.range'_succ, List.map_cons, Directory.collectSTRs, r.evicted _ (by rw [ofNat_toNat64 h64]; exact h)]
  rfl

/-- lookup of a name in an epoch that can be retrieved -/
theorem lookupInEpoch_spec {C sk vk ns d log A} (inv : DirInv C sk vk ns d log A) {lo : Nat} (r : Retrievable d.pad log lo)
    (n : Bytes) (inj : IndexInj (fun k => (C.vrfProve vk k).1) (n :: ns)) (e : UInt64) (h1 : lo ≤ e.toNat)
    (h2 : e.toNat < log.length) :
    ∃ ap s M, d.pad.lookupInEpoch C n e = some (some ap) ∧ log[e.toNat]? = some s ∧ A.past[e.toNat]? = some M ∧
      d.pad.getSTR e = some s ∧
      (∀ v, M n = some v → ap.found = some true ∧ ProofShows C vk n s.core.treeHash ap (some v)) ∧
      (M n = none → (∃ l, ap.leaf = some l ∧ l.value = none) ∧ (∃ f, ap.found = some f) ∧
        (IndexSpread (fun k => (C.vrfProve vk k).1) (n :: ns) →
          ap.found = some false ∧ ProofShows C vk n s.core.treeHash ap none)) := by
  have hs : ∃ s, log[e.toNat]? = some s := ⟨_, List.getElem?_eq_getElem h2⟩
  obtain ⟨s, hs⟩ := hs
  have hM : ∃ M, A.past[e.toNat]? = some M := ⟨_, List.getElem?_eq_getElem (by rw [inv.len]; exact h2)⟩
  obtain ⟨M, hM⟩ := hM
  have hg : d.pad.getSTR e = some s := by rw [r.get e h1 h2, hs]
  have hold := inv.snaps _ _ _ hs hM
  have ok := inv.pad.snap s (List.mem_of_getElem? hs)
  have hMc : ∀ m w, M m = some w → A.committed m = some w := inv.mono M (List.mem_of_getElem? hM)
  have hMn : ∀ m w, M m = some w → m ∈ n :: ns := fun m w h => List.mem_cons_of_mem _ (inv.committed_names m w (hMc m w h))
  have hinj : ∀ m w, M m = some w → (C.vrfProve vk m).1 = (C.vrfProve vk n).1 → m = n :=
    fun m w h e => inj m (hMn m w h) n (List.mem_cons_self ..) e
  have hlk : d.pad.lookupInEpoch C n e = (s.tree.get (C.vrfProve vk n).1).map
      fun ap => some { ap with vrfProof := (C.vrfProve vk n).2 } := by
    simp [PAD.lookupInEpoch, hg, inv.vkEq]
  cases hn : M n with
  | some v =>
    obtain ⟨ap, g1, g2, g3⟩ := snap_present ok hold n v hn hinj
    refine ⟨_, s, M, by rw [hlk, g1]; rfl, hs, hM, hg, ?_, ?_⟩
    · intro w hw
      rw [hn] at hw
      simp only [Option.some.injEq] at hw
      subst hw
      exact ⟨g3, g2⟩
    · intro h; rw [hn] at h; cases h
  | none =>
    obtain ⟨ap, l, g1, g2, g3, g4, g5⟩ := snap_absent ok hold n hn hinj
    refine ⟨_, s, M, by rw [hlk, g1]; rfl, hs, hM, hg, ?_, ?_⟩
    · intro w hw; rw [hn] at hw; cases hw
    · intro _
      refine ⟨⟨l, g3, g4⟩, ⟨_, by simp [AuthPath.found, g3]; rfl⟩, fun spr => ?_⟩
      obtain ⟨x, y⟩ := g5 (fun a b w w' ha hb hab => spr a (hMn a w ha) b (hMn b w' hb) hab)
      exact ⟨y, x⟩

theorem lookupInEpoch_evicted {d : Directory} {log : List STR} {lo : Nat} (C : Crypto) (r : Retrievable d.pad log lo)
    (n : Bytes) (e : UInt64) (h : e.toNat < lo) : d.pad.lookupInEpoch C n e = some none := by
  simp [PAD.lookupInEpoch, r.evicted e h]

/-- one pair (proof, STR) is right for an epoch -/
def PairOK (C : Crypto) (vk n : Bytes) (ns : List Bytes) (ap : AuthPath) (s : STR) (M : Bytes → Option Bytes) : Prop :=
  (∀ v, M n = some v → ProofShows C vk n s.core.treeHash ap (some v)) ∧
  (M n = none → (∃ l, ap.leaf = some l ∧ l.value = none) ∧
    (IndexSpread (fun k => (C.vrfProve vk k).1) (n :: ns) → ProofShows C vk n s.core.treeHash ap none))

theorem monitorLoop_spec {C sk vk ns d log A} (inv : DirInv C sk vk ns d log A) {lo : Nat} (r : Retrievable d.pad log lo)
    (n : Bytes) (inj : IndexInj (fun k => (C.vrfProve vk k).1) (n :: ns)) (k : Nat) : ∀ s, lo ≤ s → s + k ≤ log.length →
    ∃ aps, d.monitorLoop C n ((List.range' s k).map UInt64.ofNat) = some (some (aps, ((log.drop s).take k).map STR.toDir)) ∧
      aps.length = k ∧
      ∀ j ap s' M, aps[j]? = some ap → log[s + j]? = some s' → A.past[s + j]? = some M → PairOK C vk n ns ap s' M := by
  have hsm := inv.pad.small
  induction k with
  | zero => intro s _ _; exact ⟨[], by simp [Directory.monitorLoop], rfl, by simp⟩
  | succ k ih =>
    intro s h1 h2
    have hlt : s < log.length := by omega
    have hs : (UInt64.ofNat s).toNat = s := ofNat_toNat64 (by omega)
    obtain ⟨ap, st, M, g1, g2, g3, g4, g5, g6⟩ := lookupInEpoch_spec inv r n inj (UInt64.ofNat s) (by omega) (by omega)
    obtain ⟨aps, i1, i2, i3⟩ := ih (s + 1) (by omega) (by omega)
    rw [hs] at g2 g3
    refine ⟨ap :: aps, ?_, by simp [i2], ?_⟩
    · rw [List.range'_succ, List.map_cons, Directory.monitorLoop, g1, g4]
      simp only [newDirSTR]
      rw [i1, List.drop_eq_getElem_cons hlt, List.take_succ_cons, List.map_cons]
      have : log[s] = st := by rw [List.getElem?_eq_getElem hlt] at g2; simpa using g2
      rw [this]; rfl
    · intro j ap' s' M' a1 a2 a3
      cases j with
      | zero =>
        simp only [List.getElem?_cons_zero, Option.some.injEq] at a1
        rw [Nat.add_zero, g2] at a2
        rw [Nat.add_zero, g3] at a3
        simp only [Option.some.injEq] at a2 a3
        subst a1; subst a2; subst a3
        exact ⟨fun v hv => (g5 v hv).2, fun hn => ⟨(g6 hn).1, fun sp => ((g6 hn).2.2 sp).2⟩⟩
      | succ j =>
        simp only [List.getElem?_cons_succ] at a1
        exact i3 j ap' s' M' a1 (by rw [← a2]; congr 1; omega) (by rw [← a3]; congr 1; omega)

theorem monitorLoop_evicted {d : Directory} {log : List STR} {lo : Nat} (C : Crypto) (r : Retrievable d.pad log lo)
    (n : Bytes) (s k : Nat) (h : s < lo) (h64 : s < 2 ^ 64) :
    d.monitorLoop C n ((List.range' s (k + 1)).map UInt64.ofNat) = some none := by
  rw [List.range'_succ, List.map_cons, Directory.monitorLoop,
    lookupInEpoch_evicted C r n _ (by rw [ofNat_toNat64 h64]; exact h)]

theorem gt_iff_toNat (a b : UInt64) : a > b ↔ b.toNat < a.toNat := by rw [gt_iff_lt, UInt64.lt_iff_toNat_lt]

theorem drop_take_all {α} (l : List α) (s : Nat) : (l.drop s).take (l.length - s) = l.drop s := by
  rw [← List.length_drop, List.take_length]

/-- everything about `KeyLookupInEpoch` -/
theorem keyLookupInEpoch_spec {C sk vk ns d log A} (inv : DirInv C sk vk ns d log A) {lo : Nat} (r : Retrievable d.pad log lo)
    (req : KeyLookupInEpochRequest) (inj : IndexInj (fun k => (C.vrfProve vk k).1) (req.username :: ns)) :
    ((req.username = [] ∨ log.length ≤ req.epoch.toNat) →
      d.keyLookupInEpoch C req = some (newErrorResponse ErrMalformedMessage)) ∧
    (req.username ≠ [] → req.epoch.toNat < lo → d.keyLookupInEpoch C req = some (newErrorResponse ErrDirectory)) ∧
    (req.username ≠ [] → lo ≤ req.epoch.toNat → req.epoch.toNat < log.length →
      ∃ ap s M code, d.keyLookupInEpoch C req = some (newKeyLookupInEpochProof ap ((log.drop req.epoch.toNat).map STR.toDir) code) ∧
        log[req.epoch.toNat]? = some s ∧ A.past[req.epoch.toNat]? = some M ∧
        (∀ v, M req.username = some v → code = ReqSuccess ∧ ProofShows C vk req.username s.core.treeHash ap (some v)) ∧
        (M req.username = none → (∃ l, ap.leaf = some l ∧ l.value = none) ∧
          (IndexSpread (fun k => (C.vrfProve vk k).1) (req.username :: ns) →
            code = ReqNameNotFound ∧ ProofShows C vk req.username s.core.treeHash ap none))) := by
  have hsm := inv.pad.small
  have hpos := inv.pad.len_pos
  have hlt : d.latestSTR.core.epoch.toNat = log.length - 1 := inv.pad.latest_toNat
  have hrlt := r.lt
  refine ⟨?_, ?_, ?_⟩
  · intro h
    have : req.username.length = 0 ∨ req.epoch > d.latestSTR.core.epoch := by
      rcases h with h | h
      · left; simp [h]
      · right; rw [gt_iff_toNat]; omega
    simp only [Directory.keyLookupInEpoch, if_pos this]
  · intro h1 h2
    have : ¬ (req.username.length = 0 ∨ req.epoch > d.latestSTR.core.epoch) := by
      rw [gt_iff_toNat]; simp only [List.length_eq_zero_iff, h1, false_or]; omega
    simp only [Directory.keyLookupInEpoch, if_neg this, lookupInEpoch_evicted C r _ _ h2]
  · intro h1 h2 h3
    have : ¬ (req.username.length = 0 ∨ req.epoch > d.latestSTR.core.epoch) := by
      rw [gt_iff_toNat]; simp only [List.length_eq_zero_iff, h1, false_or]; omega
    obtain ⟨ap, s, M, g1, g2, g3, g4, g5, g6⟩ := lookupInEpoch_spec inv r req.username inj req.epoch h2 h3
    have hcol : d.collectSTRs (epochRange req.epoch d.latestSTR.core.epoch) = some ((log.drop req.epoch.toNat).map STR.toDir) := by
      rw [epochRange_eq, hlt, show log.length - 1 + 1 - req.epoch.toNat = log.length - req.epoch.toNat by omega,
        collect_spec inv.pad r _ _ h2 (by omega), drop_take_all]
    cases hM : M req.username with
    | some v =>
      obtain ⟨f, p⟩ := g5 v hM
      refine ⟨ap, s, M, ReqSuccess, ?_, g2, g3, ?_, ?_⟩
      · simp only [Directory.keyLookupInEpoch, if_neg this, g1, hcol, f]
      · intro w hw; rw [hM] at hw; simp only [Option.some.injEq] at hw; subst hw; exact ⟨rfl, p⟩
      · intro h; rw [hM] at h; cases h
    | none =>
      obtain ⟨hl, ⟨f, hf⟩, hsp⟩ := g6 hM
      refine ⟨ap, s, M, if f then ReqSuccess else ReqNameNotFound, ?_, g2, g3, ?_, ?_⟩
      · cases f <;> simp only [Directory.keyLookupInEpoch, if_neg this, g1, hcol, hf] <;> rfl
      · intro w hw; rw [hM] at hw; cases hw
      · intro _
        refine ⟨hl, fun sp => ?_⟩
        obtain ⟨a, b⟩ := hsp sp
        rw [hf] at a
        simp only [Option.some.injEq] at a
        subst a
        exact ⟨rfl, b⟩

/-- everything about `Monitor` -/
theorem monitor_spec {C sk vk ns d log A} (inv : DirInv C sk vk ns d log A) {lo : Nat} (r : Retrievable d.pad log lo)
    (req : MonitoringRequest) (inj : IndexInj (fun k => (C.vrfProve vk k).1) (req.username :: ns)) :
    ((req.username = [] ∨ log.length ≤ req.startEpoch.toNat ∨ req.endEpoch.toNat < req.startEpoch.toNat) →
      d.monitor C req = some (newErrorResponse ErrMalformedMessage)) ∧
    (req.username ≠ [] → req.startEpoch.toNat < lo → req.startEpoch.toNat ≤ req.endEpoch.toNat →
      d.monitor C req = some (newErrorResponse ErrDirectory)) ∧
    (req.username ≠ [] → lo ≤ req.startEpoch.toNat → req.startEpoch.toNat < log.length →
      req.startEpoch.toNat ≤ req.endEpoch.toNat →
      let k := min req.endEpoch.toNat (log.length - 1) + 1 - req.startEpoch.toNat
      ∃ aps, d.monitor C req = some (newMonitoringProof aps (((log.drop req.startEpoch.toNat).take k).map STR.toDir)) ∧
        aps.length = k ∧
        ∀ j ap s M, aps[j]? = some ap → log[req.startEpoch.toNat + j]? = some s → A.past[req.startEpoch.toNat + j]? = some M →
          PairOK C vk req.username ns ap s M) := by
  have hsm := inv.pad.small
  have hpos := inv.pad.len_pos
  have hlt : d.latestSTR.core.epoch.toNat = log.length - 1 := inv.pad.latest_toNat
  have hrlt := r.lt
  have hend : (if req.endEpoch > d.latestSTR.core.epoch then d.latestSTR.core.epoch else req.endEpoch).toNat =
      min req.endEpoch.toNat (log.length - 1) := by
    split
    · next h => rw [gt_iff_toNat] at h; omega
    · next h => rw [gt_iff_toNat] at h; omega
  refine ⟨?_, ?_, ?_⟩
  · intro h
    have : req.username.length = 0 ∨ req.startEpoch > d.latestSTR.core.epoch ∨ req.startEpoch > req.endEpoch := by
      rw [gt_iff_toNat, gt_iff_toNat]
      rcases h with h | h | h
      · left; simp [h]
      · right; left; omega
      · right; right; omega
    simp only [Directory.monitor, if_pos this]
  · intro h1 h2 h3
    have : ¬ (req.username.length = 0 ∨ req.startEpoch > d.latestSTR.core.epoch ∨ req.startEpoch > req.endEpoch) := by
      rw [gt_iff_toNat, gt_iff_toNat]; simp only [List.length_eq_zero_iff, h1, false_or]; omega
    have hk : min req.endEpoch.toNat (log.length - 1) + 1 - req.startEpoch.toNat =
        (min req.endEpoch.toNat (log.length - 1) - req.startEpoch.toNat) + 1 := by omega
    simp only [Directory.monitor, if_neg this, epochRange_eq, hend]
    rw [hk, monitorLoop_evicted C r _ _ _ h2 (by omega)]
  · intro h1 h2 h3 h4 k
    have : ¬ (req.username.length = 0 ∨ req.startEpoch > d.latestSTR.core.epoch ∨ req.startEpoch > req.endEpoch) := by
      rw [gt_iff_toNat, gt_iff_toNat]; simp only [List.length_eq_zero_iff, h1, false_or]; omega
    obtain ⟨aps, g1, g2, g3⟩ := monitorLoop_spec inv r req.username inj k req.startEpoch.toNat h2 (by omega)
    refine ⟨aps, ?_, g2, g3⟩
    simp only [Directory.monitor, if_neg this, epochRange_eq, hend]
    rw [g1]

/-- everything about `GetSTRHistory` -/
theorem history_spec {C : Crypto} {d : Directory} {log : List STR} (inv : PadInv C d.pad log) {lo : Nat}
    (r : Retrievable d.pad log lo) (req : STRHistoryRequest) :
    ((log.length ≤ req.startEpoch.toNat ∨ req.endEpoch.toNat < req.startEpoch.toNat) →
      d.getSTRHistory req = some (newErrorResponse ErrMalformedMessage)) ∧
    (req.startEpoch.toNat < lo → req.startEpoch.toNat ≤ req.endEpoch.toNat → d.getSTRHistory req = none) ∧
    (lo ≤ req.startEpoch.toNat → req.startEpoch.toNat < log.length → req.startEpoch.toNat ≤ req.endEpoch.toNat →
      d.getSTRHistory req = some (newSTRHistoryRange
        (((log.drop req.startEpoch.toNat).take (min req.endEpoch.toNat (log.length - 1) + 1 - req.startEpoch.toNat)).map
          fun s => some s.toDir))) := by
  have hsm := inv.small
  have hpos := inv.len_pos
  have hlt : d.latestSTR.core.epoch.toNat = log.length - 1 := inv.latest_toNat
  have hrlt := r.lt
  have hend : (if req.endEpoch > d.latestSTR.core.epoch then d.latestSTR.core.epoch else req.endEpoch).toNat =
      min req.endEpoch.toNat (log.length - 1) := by
    split
    · next h => rw [gt_iff_toNat] at h; omega
    · next h => rw [gt_iff_toNat] at h; omega
  refine ⟨?_, ?_, ?_⟩
  · intro h
    have : req.startEpoch > d.latestSTR.core.epoch ∨ req.endEpoch < req.startEpoch := by
      rw [gt_iff_toNat, UInt64.lt_iff_toNat_lt]
      rcases h with h | h
      · left; omega
      · right; omega
    simp only [Directory.getSTRHistory, if_pos this]
  · intro h1 h2
    have : ¬ (req.startEpoch > d.latestSTR.core.epoch ∨ req.endEpoch < req.startEpoch) := by
      rw [gt_iff_toNat, UInt64.lt_iff_toNat_lt]; omega
    have hk : min req.endEpoch.toNat (log.length - 1) + 1 - req.startEpoch.toNat =
        (min req.endEpoch.toNat (log.length - 1) - req.startEpoch.toNat) + 1 := by omega
    simp only [Directory.getSTRHistory, if_neg this, epochRange_eq, hend]
    rw [hk, collect_evicted r _ _ h1 (by omega)]
    rfl
  · intro h1 h2 h3
    have : ¬ (req.startEpoch > d.latestSTR.core.epoch ∨ req.endEpoch < req.startEpoch) := by
      rw [gt_iff_toNat, UInt64.lt_iff_toNat_lt]; omega
    simp only [Directory.getSTRHistory, if_neg this, epochRange_eq, hend]
    rw [collect_spec inv r _ _ h1 (by omega), Option.map_some, List.map_map]
    rfl

/-! ### which keys an answer shows -/

theorem past_merged {C sk vk ns d log A} (inv : DirInv C sk vk ns d log A) {e : Nat} {M : Bytes → Option Bytes}
    (hM : A.past[e]? = some M) {n v w : Bytes} (hv : A.merged n = some v) (hw : M n = some w) : w = v := by
  have := merged_of_committed inv.disj (inv.mono M (List.mem_of_getElem? hM) n w hw)
  rw [hv] at this
  simpa using this.symm

theorem keyLookupInEpoch_keys {C sk vk ns d log A} (inv : DirInv C sk vk ns d log A) (req : KeyLookupInEpochRequest)
    (inj : IndexInj (fun k => (C.vrfProve vk k).1) (req.username :: ns)) (v : Bytes) (hv : A.merged req.username = some v)
    (resp : Response) (h : d.keyLookupInEpoch C req = some resp) : ∀ k ∈ keysShown resp, k = v := by
  obtain ⟨lo, r⟩ := retrievable inv.pad
  obtain ⟨h1, h2, h3⟩ := keyLookupInEpoch_spec inv r req inj
  by_cases a : req.username = [] ∨ log.length ≤ req.epoch.toNat
  · rw [h1 a] at h
    simp only [Option.some.injEq] at h
    rw [← h]; simp [keysShown, newErrorResponse]
  · have a1 : req.username ≠ [] := fun e => a (Or.inl e)
    have a2 : req.epoch.toNat < log.length := by
      rcases Nat.lt_or_ge req.epoch.toNat log.length with x | x
      · exact x
      · exact absurd (Or.inr x) a
    rcases Nat.lt_or_ge req.epoch.toNat lo with b | b
    · rw [h2 a1 b] at h
      simp only [Option.some.injEq] at h
      rw [← h]; simp [keysShown, newErrorResponse]
    · obtain ⟨ap, s, M, code, g1, g2, g3, g4, g5⟩ := h3 a1 b a2
      rw [g1] at h
      simp only [Option.some.injEq] at h
      rw [← h]
      cases hm : M req.username with
      | none =>
        obtain ⟨⟨l, e1, e2⟩, _⟩ := g5 hm
        simp [keysShown, newKeyLookupInEpochProof, e1, e2]
      | some w =>
        obtain ⟨l, e1, e2⟩ := (g4 w hm).2.value
        simp [keysShown, newKeyLookupInEpochProof, e1, e2, past_merged inv g3 hv hm]

theorem monitor_keys {C sk vk ns d log A} (inv : DirInv C sk vk ns d log A) (req : MonitoringRequest)
    (inj : IndexInj (fun k => (C.vrfProve vk k).1) (req.username :: ns)) (v : Bytes) (hv : A.merged req.username = some v)
    (resp : Response) (h : d.monitor C req = some resp) : ∀ k ∈ keysShown resp, k = v := by
  obtain ⟨lo, r⟩ := retrievable inv.pad
  obtain ⟨h1, h2, h3⟩ := monitor_spec inv r req inj
  by_cases a : req.username = [] ∨ log.length ≤ req.startEpoch.toNat ∨ req.endEpoch.toNat < req.startEpoch.toNat
  · rw [h1 a] at h
    simp only [Option.some.injEq] at h
    rw [← h]; simp [keysShown, newErrorResponse]
  · simp only [not_or, Nat.not_le, Nat.not_lt] at a
    obtain ⟨a1, a2, a3⟩ := a
    rcases Nat.lt_or_ge req.startEpoch.toNat lo with b | b
    · rw [h2 a1 b a3] at h
      simp only [Option.some.injEq] at h
      rw [← h]; simp [keysShown, newErrorResponse]
    · obtain ⟨aps, g1, g2, g3⟩ := h3 a1 b a2 a3
      rw [g1] at h
      simp only [Option.some.injEq] at h
      rw [← h]
      intro k hk
      simp only [keysShown, newMonitoringProof, Option.toList_none, List.map_nil, List.append_nil, List.mem_filterMap,
        List.mem_map] at hk
      obtain ⟨l, ⟨ap, ⟨_, ⟨ap', hap, rfl⟩, e⟩, hl⟩, hk⟩ := hk
      simp only [id_eq, Option.some.injEq] at e
      subst e
      obtain ⟨j, hj, hj'⟩ := List.getElem_of_mem hap
      have hlt : req.startEpoch.toNat + j < log.length := by omega
      have hM : ∃ M, A.past[req.startEpoch.toNat + j]? = some M :=
        ⟨_, List.getElem?_eq_getElem (l := A.past) (i := req.startEpoch.toNat + j) (by rw [inv.len]; exact hlt)⟩
      obtain ⟨M, hM⟩ := hM
      obtain ⟨p1, p2⟩ := g3 j ap' _ _ (by rw [List.getElem?_eq_getElem hj, hj']) (List.getElem?_eq_getElem hlt) hM
      cases hm : M req.username with
      | none =>
        obtain ⟨⟨l', e1, e2⟩, _⟩ := p2 hm
        rw [hl] at e1
        simp only [Option.some.injEq] at e1
        subst e1
        rw [hk] at e2; cases e2
      | some w =>
        obtain ⟨l', e1, e2⟩ := (p1 w hm).value
        rw [hl] at e1
        simp only [Option.some.injEq] at e1
        subst e1
        rw [hk] at e2
        simp only [Option.some.injEq] at e2
        rw [e2]
        exact past_merged inv hM hv hm

/-! ### policies -/

theorem register_keeps {C : Crypto} {d d' : Directory} {rnd : Option Bytes} {req : RegistrationRequest} {resp : Response}
    (h : d.register C rnd req = some (d', resp)) :
    d'.policies = d.policies ∧ d'.pad.ad = d.pad.ad ∧ d'.pad.latest = d.pad.latest := by
  have hset : ∀ {x p ok}, d.pad.set C rnd req.username x = some (p, ok) → p.ad = d.pad.ad ∧ p.latest = d.pad.latest := by
    intro x p ok hp
    obtain ⟨⟨t, o⟩, _, e⟩ := Option.map_eq_some_iff.mp hp
    simp only [Prod.mk.injEq] at e
    rw [← e.1]; exact ⟨rfl, rfl⟩
  unfold Directory.register at h
  split at h
  · cases h; exact ⟨rfl, rfl, rfl⟩
  · split at h
    · cases h
    · cases h; exact ⟨rfl, rfl, rfl⟩
    · split at h
      · cases h
      · cases h; exact ⟨rfl, rfl, rfl⟩
      · split at h
        · cases h; exact ⟨rfl, rfl, rfl⟩
        · simp only at h
          split at h
          · cases h
          · next hs => cases h; exact ⟨rfl, (hset hs).1, (hset hs).2⟩
          · next hs => cases h; exact ⟨rfl, (hset hs).1, (hset hs).2⟩

theorem step_policies {C : Crypto} {d d' : Directory} {op : DirOp} {r : Option Response} (h : d.step C op = some (d', r)) :
    (∀ t vkp, d.policies = newPolicies t vkp → d'.policies = newPolicies (lastDeadline t [op]) vkp) ∧
    (op ≠ .update → d'.pad.ad = d.pad.ad ∧ d'.pad.latest = d.pad.latest) ∧
    (op = .update → d' = d.update C ∧ d'.pad.ad = d.policies ∧ d'.pad.latest.ad = d.pad.ad) := by
  have same : ∀ {x : Go Response}, (x.map fun r => (d, some r)) = some (d', r) → d' = d := by
    intro x hx
    obtain ⟨y, _, hy⟩ := Option.map_eq_some_iff.mp hx
    exact (congrArg Prod.fst hy).symm
  cases op with
  | register rnd req =>
    obtain ⟨⟨d2, r2⟩, h1, h2⟩ := Option.map_eq_some_iff.mp h
    simp only [Prod.mk.injEq] at h2
    obtain ⟨a, b, c⟩ := register_keeps h1
    rw [h2.1] at a b c
    exact ⟨fun t vkp e => by rw [a, e]; rfl, fun _ => ⟨b, c⟩, fun e => by cases e⟩
  | keyLookup req => rw [same h]; exact ⟨fun t vkp e => by rw [e]; rfl, fun _ => ⟨rfl, rfl⟩, fun e => by cases e⟩
  | keyLookupInEpoch req => rw [same h]; exact ⟨fun t vkp e => by rw [e]; rfl, fun _ => ⟨rfl, rfl⟩, fun e => by cases e⟩
  | monitor req => rw [same h]; exact ⟨fun t vkp e => by rw [e]; rfl, fun _ => ⟨rfl, rfl⟩, fun e => by cases e⟩
  | getSTRHistory req => rw [same h]; exact ⟨fun t vkp e => by rw [e]; rfl, fun _ => ⟨rfl, rfl⟩, fun e => by cases e⟩
  | setPolicies t' =>
    simp only [Directory.step, Option.some.injEq, Prod.mk.injEq] at h
    rw [← h.1]
    exact ⟨fun t vkp e => by simp only [Directory.setPolicies]; rw [e]; rfl, fun _ => ⟨rfl, rfl⟩, fun e => by cases e⟩
  | update =>
    simp only [Directory.step, Option.some.injEq, Prod.mk.injEq] at h
    rw [← h.1]
    obtain ⟨e1, e2, e3, e4, e5, e6⟩ := evict_fields d.pad
    refine ⟨fun t vkp e => e, fun e => absurd rfl e, fun _ => ⟨rfl, rfl, ?_⟩⟩
    simp [Directory.update, PAD.update, PAD.updateInternal, newSTR, e4]

end Coniks

import Verif.Proofs.DirExact
import Verif.Props.Directory
/-
C25, C28, C29 with no assumption on the VRF: the directory answers exactly as `Spec.ExactDir` says, which files content under
indices and knows the empty places that look like entries.
-/
namespace Coniks.Props
open Coniks Spec

/-- C25, exact. After every history with fewer than `2^64` updates, for every VRF (names may share indices), every lookup and
every registration get exactly the answer of the index-keyed directory `exactAfter`: the status, the latest STR, the promise if
one is due, and one proof for the name that shows exactly what is found at its index, whatever name and key it is then verified
with; and nothing panics. -/
theorem C25_exact (C : Crypto) (t0 : UInt64) (sk vk : Bytes) (size : Nat) (r₁ r₂ : Bytes) (ops : List DirOp)
    (hlt : dirUpdates ops < 2 ^ 64) (d : Directory) (log : List STR) (h : dirAfter C t0 sk vk size r₁ r₂ ops = some (d, log))
    (n : Bytes) :
    (∃ resp, d.keyLookup C ⟨n⟩ = some resp ∧ ExactAnswer C sk vk n d.latestSTR resp
      ((exactAfter (fun x => (C.vrfProve vk x).1) C.hash ops).lookupAnswer (fun x => (C.vrfProve vk x).1) n)) ∧
    (∀ rnd key, ∃ d' resp, d.register C rnd ⟨n, key⟩ = some (d', resp) ∧ ExactAnswer C sk vk n d.latestSTR resp
      ((exactAfter (fun x => (C.vrfProve vk x).1) C.hash ops).registerAnswer (fun x => (C.vrfProve vk x).1) rnd n key)) := by
  obtain ⟨inv, _⟩ := dirAfter_exact C t0 sk vk size r₁ r₂ ops hlt d log h
  refine ⟨keyLookup_exact inv n, fun rnd key => ?_⟩
  obtain ⟨d', resp, h1, _, h3⟩ := register_exact inv rnd n key
  exact ⟨d', resp, h1, h3⟩

/-- C28, exact. For every name and every existing epoch: `ErrDirectory` if the epoch was evicted; else one proof that shows
exactly what that epoch's snapshot has at the index of the name, the STRs of that epoch and all later ones, and the status that
belongs to the finding. -/
theorem C28_exact (C : Crypto) (t0 : UInt64) (sk vk : Bytes) (size : Nat) (r₁ r₂ : Bytes) (ops : List DirOp)
    (hlt : dirUpdates ops < 2 ^ 64) (d : Directory) (log : List STR) (h : dirAfter C t0 sk vk size r₁ r₂ ops = some (d, log))
    (n : Bytes) (hn : n ≠ []) (e : UInt64) (he : e.toNat ≤ dirUpdates ops) :
    (d.pad.getSTR e = none → d.keyLookupInEpoch C ⟨n, e⟩ = some ⟨ErrDirectory, .none⟩) ∧
    (d.pad.getSTR e ≠ none → ∃ ap s M,
      (exactAfter (fun x => (C.vrfProve vk x).1) C.hash ops).past[e.toNat]? = some M ∧ log[e.toNat]? = some s ∧
      d.keyLookupInEpoch C ⟨n, e⟩ = some ⟨(search M (C.vrfProve vk n).1).code,
        .proof ⟨[some ap], (log.drop e.toNat).map fun s => some s.toDir, none⟩⟩ ∧
      ProofOf C vk n s.core.treeHash ap (search M (C.vrfProve vk n).1)) := by
  obtain ⟨inv, hl⟩ := dirAfter_exact C t0 sk vk size r₁ r₂ ops hlt d log h
  obtain ⟨lo, r⟩ := retrievable inv.pad
  have hlen : e.toNat < log.length := by omega
  constructor
  · intro hg
    have := (getSTR_none_lo r hlen).mp hg
    have hrl := r.lt
    have hle : d.latestSTR.core.epoch.toNat = log.length - 1 := inv.pad.latest_toNat
    have hc : ¬ (n.length = 0 ∨ e > d.latestSTR.core.epoch) := by
      rw [gt_iff_toNat]; simp only [List.length_eq_zero_iff, hn, false_or]; omega
    simp only [Directory.keyLookupInEpoch, if_neg hc, lookupInEpoch_evicted C r n e this]
    rfl
  · intro hg
    have hlo : lo ≤ e.toNat := Nat.le_of_not_lt fun x => hg (r.evicted e x)
    obtain ⟨ap, s, M, g1, g2, g3, g4⟩ := keyLookupInEpoch_exact inv r n hn e hlo hlen
    refine ⟨ap, s, M, g3, g2, ?_, g4⟩
    rw [g1, newKeyLookupInEpochProof, List.map_map]; rfl

/-- C29, exact. For every name and every range that starts at an existing epoch: `ErrDirectory` if its start was evicted; else,
for every epoch of the range that exists, its STR and one proof that shows exactly what that epoch's snapshot has at the index of
the name. -/
theorem C29_exact (C : Crypto) (t0 : UInt64) (sk vk : Bytes) (size : Nat) (r₁ r₂ : Bytes) (ops : List DirOp)
    (hlt : dirUpdates ops < 2 ^ 64) (d : Directory) (log : List STR) (h : dirAfter C t0 sk vk size r₁ r₂ ops = some (d, log))
    (n : Bytes) (hn : n ≠ []) (s t : UInt64) (hs : s.toNat ≤ dirUpdates ops) (hst : s.toNat ≤ t.toNat) :
    (d.pad.getSTR s = none → d.monitor C ⟨n, s, t⟩ = some ⟨ErrDirectory, .none⟩) ∧
    (d.pad.getSTR s ≠ none → ∃ aps : List AuthPath,
      d.monitor C ⟨n, s, t⟩ = some ⟨ReqSuccess, .proof ⟨aps.map some,
        ((log.drop s.toNat).take (min t.toNat (dirUpdates ops) + 1 - s.toNat)).map fun s => some s.toDir, none⟩⟩ ∧
      aps.length = min t.toNat (dirUpdates ops) + 1 - s.toNat ∧
      ∀ j ap, aps[j]? = some ap → ∃ str M, log[s.toNat + j]? = some str ∧
        (exactAfter (fun x => (C.vrfProve vk x).1) C.hash ops).past[s.toNat + j]? = some M ∧
        ProofOf C vk n str.core.treeHash ap (search M (C.vrfProve vk n).1)) := by
  obtain ⟨inv, hl⟩ := dirAfter_exact C t0 sk vk size r₁ r₂ ops hlt d log h
  obtain ⟨lo, r⟩ := retrievable inv.pad
  have hlen : s.toNat < log.length := by omega
  have hsm := inv.pad.small
  have hrl := r.lt
  have hle : d.latestSTR.core.epoch.toNat = log.length - 1 := inv.pad.latest_toNat
  constructor
  · intro hg
    have hev := (getSTR_none_lo r hlen).mp hg
    have hc : ¬ (n.length = 0 ∨ s > d.latestSTR.core.epoch ∨ s > t) := by
      rw [gt_iff_toNat, gt_iff_toNat]; simp only [List.length_eq_zero_iff, hn, false_or]; omega
    have hend : (if t > d.latestSTR.core.epoch then d.latestSTR.core.epoch else t).toNat = min t.toNat (log.length - 1) := by
      split
      · next h => rw [gt_iff_toNat] at h; omega
      · next h => rw [gt_iff_toNat] at h; omega
    have hk : min t.toNat (log.length - 1) + 1 - s.toNat = (min t.toNat (log.length - 1) - s.toNat) + 1 := by omega
    simp only [Directory.monitor, if_neg hc, epochRange_eq, hend]
    rw [hk, monitorLoop_evicted C r _ _ _ hev (by omega)]
    rfl
  · intro hg
    have hlo : lo ≤ s.toNat := Nat.le_of_not_lt fun x => hg (r.evicted s x)
    obtain ⟨aps, g1, g2, g3⟩ := monitor_exact inv r n hn s t hlo hlen hst
    rw [show log.length - 1 = dirUpdates ops by omega] at g1 g2
    refine ⟨aps, ?_, g2, ?_⟩
    · rw [g1, newMonitoringProof, List.map_map]; rfl
    · intro j ap hj
      have hjl : j < aps.length := by
        rcases Nat.lt_or_ge j aps.length with x | x
        · exact x
        · rw [List.getElem?_eq_none x] at hj; cases hj
      have h1 : s.toNat + j < log.length := by omega
      have h2 : s.toNat + j < (exactAfter (fun x => (C.vrfProve vk x).1) C.hash ops).past.length := by rw [inv.len]; exact h1
      exact ⟨_, _, List.getElem?_eq_getElem h1, List.getElem?_eq_getElem h2,
        g3 j ap _ _ hj (List.getElem?_eq_getElem h1) (List.getElem?_eq_getElem h2)⟩

/-! ### the counterexample history of C25: what is really there -/

theorem search_none (i : Bytes) : search (fun _ => none) i = .absent := by
  simp only [search]
  rw [if_neg]
  rintro ⟨L, _, _, ⟨j, _, hj, _⟩, _⟩
  exact hj rfl

theorem file_first (idx hash : Bytes → Bytes) (E : ExactDir) (hE : E.committed = fun _ => none) (r n k : Bytes) (hn : n ≠ [])
    (hk : k ≠ []) (hp : E.promised n = none) : E.step idx hash (.register (some r) ⟨n, k⟩) = E.file idx n k (hash r) := by
  simp only [ExactDir.step]
  rw [if_pos ⟨hn, hk, by rw [hE]; exact search_none _, hp⟩]

/-- Two names are filed; the place of `[0]` is a ghost. -/
theorem deep_exact :
    let E := exactAfter (fun x => (Crypto.deep.vrfProve [2] x).1) Crypto.deep.hash
      [.register (some [1]) ⟨[0x80], [1]⟩, .register (some [1]) ⟨[0xC0], [2]⟩, .update]
    E.committed (ix 0 0x80) = some ⟨[0x80], [1], Crypto.deep.hash [1]⟩ ∧ E.committed (ix 0 0xC0) = some ⟨[0xC0], [2], Crypto.deep.hash [1]⟩ ∧
    E.lookupAnswer (fun x => (Crypto.deep.vrfProve [2] x).1) [0] = (ReqSuccess, some (.ghost, none)) ∧
    E.registerAnswer (fun x => (Crypto.deep.vrfProve [2] x).1) (some [7]) [0] [9] = (ReqNameExisted, some (.ghost, none)) := by
  have hE : exactAfter (fun x => (Crypto.deep.vrfProve [2] x).1) Crypto.deep.hash
      [.register (some [1]) ⟨[0x80], [1]⟩, .register (some [1]) ⟨[0xC0], [2]⟩, .update] =
      (((ExactDir.init.file (fun x => (Crypto.deep.vrfProve [2] x).1) [0x80] [1] (Crypto.deep.hash [1])).file
        (fun x => (Crypto.deep.vrfProve [2] x).1) [0xC0] [2] (Crypto.deep.hash [1])).nextEpoch) := by
    simp only [exactAfter, List.foldl_cons, List.foldl_nil]
    rw [file_first _ _ ExactDir.init rfl [1] [0x80] [1] (by decide) (by decide) rfl,
      file_first _ _ (ExactDir.init.file _ [0x80] [1] _) rfl [1] [0xC0] [2] (by decide) (by decide) (by simp [ExactDir.file, ExactDir.init])]
    rfl
  intro E
  have hc : ∀ i, E.committed i = if i = ix 0 0xC0 then some ⟨[0xC0], [2], Crypto.deep.hash [1]⟩ else if i = ix 0 0x80 then some ⟨[0x80], [1], Crypto.deep.hash [1]⟩ else none := by
    intro i
    simp only [E, hE]
    rfl
  have hg : search E.committed (ix 0 0) = .ghost := by
    have h0 : E.committed (ix 0 0) = none := by rw [hc, if_neg (by decide), if_neg (by decide)]
    simp only [search, h0]
    rw [if_pos]
    refine ⟨249, by decide, by decide, ⟨ix 0 0x80, ix 0 0xC0, ?_, ?_, by decide +kernel, by decide +kernel, by decide +kernel⟩, ?_,
      by decide +kernel⟩
    · show E.committed _ ≠ none; rw [hc, if_neg (by decide), if_pos rfl]; simp
    · show E.committed _ ≠ none; rw [hc, if_pos rfl]; simp
    · intro j hj
      have : j = ix 0 0xC0 ∨ j = ix 0 0x80 := by
        change E.committed j ≠ none at hj
        rw [hc] at hj
        by_cases a : j = ix 0 0xC0
        · exact Or.inl a
        · by_cases b : j = ix 0 0x80
          · exact Or.inr b
          · rw [if_neg a, if_neg b] at hj; exact absurd rfl hj
      rcases this with rfl | rfl <;> decide +kernel
  refine ⟨by rw [hc, if_neg (by decide), if_pos rfl], by rw [hc, if_pos rfl], ?_, ?_⟩
  · simp only [ExactDir.lookupAnswer]
    rw [if_neg (by decide), show (Crypto.deep.vrfProve [2] [0]).1 = ix 0 0 from rfl, hg]
  · simp only [ExactDir.registerAnswer]
    rw [if_neg (by decide), show (Crypto.deep.vrfProve [2] [0]).1 = ix 0 0 from rfl, hg]

/-- In that history the theorem says: a lookup of the unregistered name `[0]` answers `ReqSuccess`, with a proof of inclusion
without a key that verifies with no key and crashes the verifier for the empty one. -/
example (d : Directory) (log : List STR) (h : dirAfter Crypto.deep 5 [1] [2] 10 [3] [4]
      [.register (some [1]) ⟨[0x80], [1]⟩, .register (some [1]) ⟨[0xC0], [2]⟩, .update] = some (d, log)) :
    ∃ ap, d.keyLookup Crypto.deep ⟨[0]⟩ = some ⟨ReqSuccess, .proof ⟨[some ap], [some d.latestSTR], none⟩⟩ ∧
      ap.proofType = some .inclusion ∧ ap.verify Crypto.deep [0] [] d.latestSTR.core.treeHash = none := by
  obtain ⟨⟨resp, h1, h2⟩, _⟩ := C25_exact Crypto.deep 5 [1] [2] 10 [3] [4] _ (by decide) d log h [0]
  rw [deep_exact.2.2.1] at h2
  obtain ⟨ap, rfl, hp⟩ := h2
  exact ⟨ap, h1, hp.shows.1, by rw [hp.shows.2.2]; rfl⟩

/-- Two names with the same index: the second one replaces the first, and then both promises are in force. -/
example :
    let idx : Bytes → Bytes := fun x => (Crypto.deep.vrfProve [2] x).1
    let E := exactAfter idx Crypto.deep.hash [.register (some [1]) ⟨[0x80, 1], [1]⟩, .register (some [1]) ⟨[0x80, 2], [2]⟩]
    E.promised [0x80, 1] = some [1] ∧ E.promised [0x80, 2] = some [2] ∧ E.tree (ix 0 0x80) = some ⟨[0x80, 2], [2], Crypto.deep.hash [1]⟩ := by
  intro idx E
  have hE : E = (ExactDir.init.file idx [0x80, 1] [1] (Crypto.deep.hash [1])).file idx [0x80, 2] [2] (Crypto.deep.hash [1]) := by
    simp only [E, exactAfter, List.foldl_cons, List.foldl_nil]
    rw [file_first _ _ ExactDir.init rfl [1] [0x80, 1] [1] (by decide) (by decide) rfl,
      file_first _ _ (ExactDir.init.file _ [0x80, 1] [1] _) rfl [1] [0x80, 2] [2] (by decide) (by decide)
        (by simp [ExactDir.file, ExactDir.init])]
  rw [hE]
  exact ⟨by simp [ExactDir.file], by simp [ExactDir.file], by simp only [ExactDir.file, show ix 0 0x80 = idx [0x80, 2] by decide +kernel, if_true]⟩

/-- The sample history of C25: its epochs can be retrieved, and the theorem applies to them. -/
example (d : Directory) (log : List STR) (h : dirAfter Crypto.toy 5 [1] [2] 10 [3] [4] sampleDir = some (d, log))
    (hg : d.pad.getSTR 1 ≠ none) :
    ∃ ap s M, d.keyLookupInEpoch Crypto.toy ⟨[0x61], 1⟩ = some ⟨(search M (Crypto.toy.vrfProve [2] [0x61]).1).code,
        .proof ⟨[some ap], (log.drop 1).map fun s => some s.toDir, none⟩⟩ ∧ log[1]? = some s ∧
      ProofOf Crypto.toy [2] [0x61] s.core.treeHash ap (search M (Crypto.toy.vrfProve [2] [0x61]).1) := by
  obtain ⟨ap, s, M, _, h2, h3, h4⟩ := (C28_exact Crypto.toy 5 [1] [2] 10 [3] [4] sampleDir (by decide) d log h [0x61] (by decide) 1
    (by decide)).2 hg
  exact ⟨ap, s, M, h3, h2, h4⟩
end Coniks.Props

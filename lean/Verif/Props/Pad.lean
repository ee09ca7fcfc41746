import Verif.Proofs.Pad
import Verif.Props.Tree
/-
C18, C19, C20, C22: the persistent authenticated dictionary.
-/
namespace Coniks.Props
open Coniks Spec

/-- a history with three updates, overwritten and failed `Set`s -/
def samplePad : List PadOp :=
  [.set (some [1]) [0x61] [1, 2], .update none, .set (some [2]) [0x62] [3], .set none [0x63] [9], .update (some default),
   .set (some [3]) [0x61] [4], .update none]

/-! ### C18 -/

/-- C18. Every history of `Set`s and fewer than 2^64 `Update`s runs, issues one STR per epoch 0, 1, 2, ..., every STR verifies
under the PAD's key and every STR names its predecessor by epoch and by the hash of its signature. -/
theorem C18_signed_hash_chain (C : Crypto) (ad : Policies) (sk vk : Bytes) (len : Nat) (r₁ r₂ : Bytes) (ops : List PadOp)
    (h : numUpdates ops < 2 ^ 64) :
    ∃ p log, padAfter C ad sk vk len r₁ r₂ ops = some (p, log) ∧ log.length = numUpdates ops + 1 ∧
      log[numUpdates ops]? = some p.latest ∧
      (∀ e s, log[e]? = some s →
        s.core.epoch.toNat = e ∧ s.core.previousEpoch.toNat = e - 1 ∧
        C.verify (C.signPub sk) s.serialize s.core.signature = true) ∧
      (∀ e s t, log[e]? = some s → log[e + 1]? = some t →
        t.core.previousEpoch = s.core.epoch ∧ t.core.previousSTRHash = C.hash s.core.signature ∧
        t.core.verifyHashChain C s.core = true) := by
  obtain ⟨p, log, h1, inv, h3, h4, h5⟩ := padAfter_inv C ad sk vk len r₁ r₂ ops h
  have small : ∀ e s, log[e]? = some s → e < 2 ^ 64 := by
    intro e s hs
    have := (List.getElem?_eq_some_iff.mp hs).1
    omega
  refine ⟨p, log, h1, h5, ?_, ?_, ?_⟩
  · have := inv.latest_get; rwa [h5] at this
  · intro e s hs
    have := small e s hs
    refine ⟨?_, ?_, ?_⟩
    · rw [inv.epoch e s hs, ofNat_toNat64 this]
    · rw [inv.prev e s hs, ofNat_toNat64 (by omega)]
    · rw [inv.sig s (List.mem_of_getElem? hs), h3]; exact C.verify_sign _ _
  · intro e s t hs ht
    have e1 : t.core.previousEpoch = s.core.epoch := by rw [inv.prev _ t ht, inv.epoch e s hs, Nat.add_sub_cancel]
    have e2 := inv.chain e s t hs ht
    refine ⟨e1, e2, ?_⟩
    have e3 : t.core.epoch = s.core.epoch + 1 := by
      rw [inv.epoch _ t ht, inv.epoch e s hs, UInt64.ofNat_add]; rfl
    simp [STRCore.verifyHashChain, e1, e2, e3, Crypto.digest]

/-- C18. The STR issued by an `Update` commits to exactly the bindings that the `Set`s before it left: its tree hash is the
canonical hash of them. -/
theorem C18_tree_hash (C : Crypto) (ad : Policies) (sk vk : Bytes) (len : Nat) (r₁ r₂ : Bytes) (ops₁ ops₂ : List PadOp)
    (ad' : Option Policies) (h : numUpdates (ops₁ ++ .update ad' :: ops₂) < 2 ^ 64) (p : PAD) (log : List STR)
    (hp : padAfter C ad sk vk len r₁ r₂ (ops₁ ++ .update ad' :: ops₂) = some (p, log)) :
    ∃ s, log[numUpdates ops₁ + 1]? = some s ∧
      s.core.treeHash =
        treeHash C.hash (C.hash r₁) 256 (bindRun C.hash (treeOpsOf (fun k => (C.vrfProve vk k).1) ops₁)) := by
  rw [show ops₁ ++ PadOp.update ad' :: ops₂ = (ops₁ ++ [.update ad']) ++ ops₂ by simp] at h hp
  obtain ⟨p₁, log₁, ext, h1, inv, h2, h3, h4, _⟩ := padAfter_split C ad sk vk len r₁ r₂ _ _ h p log hp
  have hu : numUpdates (ops₁ ++ [.update ad']) = numUpdates ops₁ + 1 := numUpdates_append _ _
  rw [hu] at h4
  refine ⟨_, h4, ?_⟩
  have hs := inv.snap _ inv.latest_mem
  have hn := inv.nonce _ inv.latest_mem
  rw [hs.core, hs.hash]
  -- the state before the update
  rw [padAfter_append] at h1
  obtain ⟨⟨p₀, log₀⟩, h5, h6⟩ := Option.bind_eq_some_iff.mp h1
  simp only [PAD.runLog, PAD.step, Option.bind_some, Option.some.injEq, Prod.mk.injEq] at h6
  have ht := padAfter_tree C ad sk vk len r₁ r₂ _ _ _ h5
  have hlen : IndexLen 32 (.recompute :: treeOpsOf (fun k => (C.vrfProve vk k).1) ops₁) := by
    intro op hop r i k v e
    rcases List.mem_cons.mp hop with h' | h'
    · rw [h'] at e; cases e
    · exact treeOpsOf_len _ 32 (fun k => C.vrf_length _ _) ops₁ op h' r i k v e
  have hc := C11_hash_canonical C 32 (by decide) r₁ _ hlen _ ht
  have hbr : bindRun C.hash (.recompute :: treeOpsOf (fun k => (C.vrfProve vk k).1) ops₁) =
      bindRun C.hash (treeOpsOf (fun k => (C.vrfProve vk k).1) ops₁) := rfl
  rw [hbr] at hc
  obtain ⟨e1, e2, e3, e4, e5, e6⟩ := evict_fields p₀
  have htr : p₁.latest.tree = (p₀.tree.recomputeHash C).clone := by
    rw [← h6.1]; simp [PAD.update, PAD.updateInternal, newSTR, e1]
  have hi := (treeAfter_inv C 32 (by decide) r₁ _ hlen _ ht).1
  rw [← hs.hash, htr, tree_clone_eq C 256 _ hi]
  exact hc

example : numUpdates samplePad = 3 := by decide
example : ∃ p log, padAfter Crypto.toy default [1] [2] 4 [3] [4] samplePad = some (p, log) ∧ log.length = 4 := by
  obtain ⟨p, log, h1, h2, _⟩ := C18_signed_hash_chain Crypto.toy default [1] [2] 4 [3] [4] samplePad (by decide)
  exact ⟨p, log, h1, h2⟩

/-! ### C19 -/

/-- bounds on the cache carried along a history -/
structure CacheInv (n : Nat) (p : PAD) (log : List STR) : Prop where
  cap : p.cap = n
  upper : p.loadedEpochs.length ≤ n
  lower : min log.length (n - n / 2 + 1) ≤ p.loadedEpochs.length

theorem update_cache (C : Crypto) (n : Nat) (hn : 2 ≤ n) (p : PAD) (log : List STR) (inv : PadInv C p log)
    (hlt : log.length < 2 ^ 64) (ad : Option Policies) (ci : CacheInv n p log) :
    CacheInv n (p.update C ad) (log ++ [(p.update C ad).latest]) := by
  have post := update_spec C p log inv hlt ad
  obtain ⟨lo, l1, l2, l3, l4⟩ := evict_loaded inv
  obtain ⟨c1, c2, c3⟩ := ci
  have h1 := post.cap
  have h2 := post.loadedLen
  rw [c1] at h2 l4
  refine ⟨?_, ?_, ?_⟩
  · rw [h1, c1, appendCap, l4]
    split <;> rw [if_pos (by omega)]
  · rw [h2]; split <;> omega
  · rw [h2, List.length_append, List.length_singleton]; split <;> omega

theorem runLog_cache (C : Crypto) (n : Nat) (hn : 2 ≤ n) (ops : List PadOp) : ∀ (p : PAD) (log : List STR), PadInv C p log →
    CacheInv n p log → log.length + numUpdates ops ≤ 2 ^ 64 → ∀ p' log', p.runLog C log ops = some (p', log') →
    CacheInv n p' log' := by
  induction ops with
  | nil => intro p log _ ci _ p' log' h; simp [PAD.runLog] at h; obtain ⟨rfl, rfl⟩ := h; exact ci
  | cons op ops ih =>
    intro p log inv ci hle p' log' h
    cases op with
    | set rnd k v =>
      obtain ⟨q, h1, h2, _⟩ := pad_set_spec C p log inv rnd k v
      simp only [PAD.runLog, PAD.step, h1, Option.map_some, Option.bind_some, PadOp.issued, List.append_nil] at h
      exact ih q log h2.inv ⟨h2.cap ▸ ci.cap, h2.loaded ▸ ci.upper, h2.loaded ▸ ci.lower⟩ hle p' log' h
    | update ad =>
      simp only [numUpdates] at hle
      have post := update_spec C p log inv (by omega) ad
      simp only [PAD.runLog, PAD.step, Option.bind_some, PadOp.issued] at h
      exact ih _ _ post.inv (update_cache C n hn p log inv (by omega) ad ci) (by simp; omega) p' log' h

/-- C19. With a cache length of `n ≥ 2`, after any history the PAD holds snapshots for exactly the epochs `lo, ..., latest`, at
most `n` of them, and at least the latest `n - n/2 + 1` (or all there are); `GetSTR` of such an epoch is the STR issued for it.
For smaller `n` see `C19_cache`. -/
theorem C19_cache_two (C : Crypto) (ad : Policies) (sk vk : Bytes) (n : Nat) (hn : 2 ≤ n) (r₁ r₂ : Bytes)
    (ops : List PadOp) (h : numUpdates ops < 2 ^ 64) (p : PAD) (log : List STR)
    (hp : padAfter C ad sk vk n r₁ r₂ ops = some (p, log)) :
    ∃ lo, (∀ e : UInt64, (p.snapshots e).isSome = true ↔ lo ≤ e.toNat ∧ e.toNat ≤ numUpdates ops) ∧
      p.loadedEpochs = (List.range' lo (numUpdates ops + 1 - lo)).map UInt64.ofNat ∧
      numUpdates ops + 1 - lo ≤ n ∧ min (numUpdates ops + 1) (n - n / 2 + 1) ≤ numUpdates ops + 1 - lo ∧
      (∀ e : UInt64, lo ≤ e.toNat → e.toNat ≤ numUpdates ops → p.getSTR e = log[e.toNat]?) := by
  obtain ⟨p₀, h1, i0, _, _, _, _, _, _, hc, hl, _⟩ := newPAD_spec C ad sk vk n r₁ r₂
  obtain ⟨p', log', h5, inv, _, _, h9⟩ := padAfter_inv C ad sk vk n r₁ r₂ ops h
  rw [hp] at h5
  simp only [Option.some.injEq, Prod.mk.injEq] at h5
  obtain ⟨rfl, rfl⟩ := h5
  simp only [padAfter, h1] at hp
  have ci := runLog_cache C n hn ops p₀ _ i0 ⟨by rw [hc, if_pos (by omega)], by omega, by simp; omega⟩ (by simp; omega) _ _ hp
  obtain ⟨lo, l1, l2, l3⟩ := inv.loaded
  have hlen : p.loadedEpochs.length = log.length - lo := by rw [l2]; simp
  obtain ⟨c1, c2, c3⟩ := ci
  rw [h9] at l1 l2 hlen c3
  refine ⟨lo, ?_, l2, by omega, by omega, ?_⟩
  · intro e
    rw [l3]
    by_cases hle : lo ≤ e.toNat
    · rw [if_pos hle]
      rw [Option.isSome_iff_ne_none, Ne, List.getElem?_eq_none_iff, h9]
      omega
    · rw [if_neg hle]; simp; omega
  · intro e a1 a2
    unfold PAD.getSTR
    split
    · next hge =>
      rw [ge_iff_le, UInt64.le_iff_toNat_le, inv.latest_toNat] at hge
      rw [← inv.latest_get]; congr 1; omega
    · rw [l3, if_pos a1]

/-- C19 is false for a cache length of 0 or 1: after one `Update` the PAD holds two snapshots (Go's `append` has grown the
slice whose capacity was meant as the limit). -/
theorem C19_tiny_cache_counterexample (C : Crypto) (ad : Policies) (sk vk : Bytes) (n : Nat) (hn : n < 2) (r₁ r₂ : Bytes) :
    ∃ p log, padAfter C ad sk vk n r₁ r₂ [.update none] = some (p, log) ∧ p.loadedEpochs.length = 2 ∧ p.cap = 2 ∧
      (p.snapshots 0).isSome = true ∧ (p.snapshots 1).isSome = true := by
  obtain ⟨p, h1, inv, _, _, _, _, _, _, hc, hl, _⟩ := newPAD_spec C ad sk vk n r₁ r₂
  have hcap : p.cap = 1 := by rw [hc]; split <;> omega
  have post := update_spec C p _ inv (by simp) none
  obtain ⟨lo, l1, l2, l3⟩ := post.inv.loaded
  obtain ⟨lo', m1, m2, m3, m4⟩ := evict_loaded inv
  have hll : (p.update C none).loadedEpochs.length = 2 := by rw [post.loadedLen, hl, hcap]; rfl
  have hlo : lo = 0 := by
    have : (p.update C none).loadedEpochs.length = 2 - lo := by rw [l2]; simp
    omega
  subst hlo
  refine ⟨p.update C none, [p.latest] ++ [(p.update C none).latest], ?_, hll, ?_, ?_, ?_⟩
  · simp [padAfter, h1, PAD.runLog, PAD.step, PadOp.issued]
  · rw [post.cap, m4, hl, hcap]; rfl
  · rw [l3]; rfl
  · rw [l3]; rfl

/-- The cache of a PAD created with length 0 or 1: one snapshot, and two from the first update on. -/
theorem tiny_cache (C : Crypto) (ops : List PadOp) : ∀ (p : PAD) (log : List STR), PadInv C p log →
    ((p.cap = 1 ∧ p.loadedEpochs.length = 1 ∧ log.length = 1) ∨ (p.cap = 2 ∧ p.loadedEpochs.length = 2 ∧ 2 ≤ log.length)) →
    log.length + numUpdates ops ≤ 2 ^ 64 → ∀ p' log', p.runLog C log ops = some (p', log') →
    p'.loadedEpochs.length = min log'.length 2 := by
  induction ops with
  | nil => intro p log _ ci _ p' log' h; simp [PAD.runLog] at h; obtain ⟨rfl, rfl⟩ := h; omega
  | cons op ops ih =>
    intro p log inv ci hle p' log' h
    cases op with
    | set rnd k v =>
      obtain ⟨q, h1, h2, _⟩ := pad_set_spec C p log inv rnd k v
      simp only [PAD.runLog, PAD.step, h1, Option.map_some, Option.bind_some, PadOp.issued, List.append_nil] at h
      exact ih q log h2.inv (by rw [h2.cap, h2.loaded]; exact ci) hle p' log' h
    | update ad =>
      simp only [numUpdates] at hle
      have post := update_spec C p log inv (by omega) ad
      obtain ⟨lo, l1, l2, l3, l4⟩ := evict_loaded inv
      simp only [PAD.runLog, PAD.step, Option.bind_some, PadOp.issued] at h
      refine ih _ _ post.inv ?_ (by simp; omega) p' log' h
      right
      rw [post.cap, post.loadedLen, l4, List.length_append, List.length_singleton]
      rcases ci with ⟨a, b, c⟩ | ⟨a, b, c⟩
      · rw [a, b]; exact ⟨by decide, by decide, by omega⟩
      · rw [a, b]; exact ⟨by decide, by decide, by omega⟩

/-- C19, for every cache length `n`, where `N = max n 2` (a limit below 2 is not respected, `C19_tiny_cache_counterexample`): after
any history the PAD holds snapshots for exactly the epochs `lo, ..., latest`, at most `N` of them, and at least the latest
`N - N/2 + 1` (or all there are); `GetSTR` of such an epoch is the STR issued for it. -/
theorem C19_cache (C : Crypto) (ad : Policies) (sk vk : Bytes) (n : Nat) (r₁ r₂ : Bytes)
    (ops : List PadOp) (h : numUpdates ops < 2 ^ 64) (p : PAD) (log : List STR)
    (hp : padAfter C ad sk vk n r₁ r₂ ops = some (p, log)) :
    ∃ lo, (∀ e : UInt64, (p.snapshots e).isSome = true ↔ lo ≤ e.toNat ∧ e.toNat ≤ numUpdates ops) ∧
      p.loadedEpochs = (List.range' lo (numUpdates ops + 1 - lo)).map UInt64.ofNat ∧
      numUpdates ops + 1 - lo ≤ max n 2 ∧ min (numUpdates ops + 1) (max n 2 - max n 2 / 2 + 1) ≤ numUpdates ops + 1 - lo ∧
      (∀ e : UInt64, lo ≤ e.toNat → e.toNat ≤ numUpdates ops → p.getSTR e = log[e.toNat]?) := by
  rcases Nat.lt_or_ge n 2 with hn | hn
  · rw [show max n 2 = 2 by omega]
    obtain ⟨p₀, h1, i0, _, _, _, _, _, _, hc, hl, _⟩ := newPAD_spec C ad sk vk n r₁ r₂
    obtain ⟨p', log', h5, inv, _, _, h9⟩ := padAfter_inv C ad sk vk n r₁ r₂ ops h
    rw [hp] at h5
    simp only [Option.some.injEq, Prod.mk.injEq] at h5
    obtain ⟨rfl, rfl⟩ := h5
    simp only [padAfter, h1] at hp
    have ci := tiny_cache C ops p₀ _ i0 (Or.inl ⟨by rw [hc]; split <;> omega, hl, rfl⟩) (by simp; omega) _ _ hp
    obtain ⟨lo, l1, l2, l3⟩ := inv.loaded
    have hlen : p.loadedEpochs.length = log.length - lo := by rw [l2]; simp
    rw [h9] at l1 l2 hlen ci
    refine ⟨lo, ?_, l2, by omega, by omega, ?_⟩
    · intro e
      rw [l3]
      by_cases hle : lo ≤ e.toNat
      · rw [if_pos hle]
        rw [Option.isSome_iff_ne_none, Ne, List.getElem?_eq_none_iff, h9]
        omega
      · rw [if_neg hle]; simp; omega
    · intro e a1 a2
      unfold PAD.getSTR
      split
      · next hge =>
        rw [ge_iff_le, UInt64.le_iff_toNat_le, inv.latest_toNat] at hge
        rw [← inv.latest_get]; congr 1; omega
      · rw [l3, if_pos a1]
  · rw [show max n 2 = n by omega]
    exact C19_cache_two C ad sk vk n hn r₁ r₂ ops h p log hp

example : ∃ p log, padAfter Crypto.toy default [1] [2] 2 [3] [4] samplePad = some (p, log) ∧ p.loadedEpochs.length ≤ 2 ∧
    p.getSTR 3 = log[3]? := by
  obtain ⟨p, log, h1, _⟩ := C18_signed_hash_chain Crypto.toy default [1] [2] 2 [3] [4] samplePad (by decide)
  obtain ⟨lo, _, h2, h3, h4, h5⟩ :=
    C19_cache_two Crypto.toy default [1] [2] 2 (by decide) [3] [4] samplePad (by decide) p log h1
  have e : numUpdates samplePad = 3 := by decide
  rw [e] at h3 h4 h5
  have t3 : (3 : UInt64).toNat = 3 := by decide
  refine ⟨p, log, h1, ?_, h5 3 (by omega) (by omega)⟩
  rw [h2, e]; simp; omega

/-! ### C20 -/

/-- C20. Let `p₁` be the PAD after a history, with latest epoch `e`, and `p` the PAD after any further `Set`s and `Update`s. If
`p` can still look up epoch `e`, it gives for `GetSTR` and for every `LookupInEpoch` exactly what `p₁` gave. -/
theorem C20_history_immutable (C : Crypto) (ad : Policies) (sk vk : Bytes) (len : Nat) (r₁ r₂ : Bytes) (ops₁ ops₂ : List PadOp)
    (h : numUpdates (ops₁ ++ ops₂) < 2 ^ 64) (p₁ p : PAD) (log₁ log : List STR)
    (hp₁ : padAfter C ad sk vk len r₁ r₂ ops₁ = some (p₁, log₁))
    (hp : padAfter C ad sk vk len r₁ r₂ (ops₁ ++ ops₂) = some (p, log)) :
    let e := p₁.latest.core.epoch
    e.toNat = numUpdates ops₁ ∧
    (p.getSTR e = none ∨
      (p.getSTR e = p₁.getSTR e ∧ p.getSTR e = some p₁.latest ∧
        ∀ k, p.lookupInEpoch C k e = p₁.lookupInEpoch C k e ∧ p.lookupInEpoch C k e = p₁.lookup C k)) := by
  intro e
  obtain ⟨p', log', ext, h1, inv₁, h2, h3, h4, h5⟩ := padAfter_split C ad sk vk len r₁ r₂ ops₁ ops₂ h p log hp
  rw [hp₁] at h1
  simp only [Option.some.injEq, Prod.mk.injEq] at h1
  obtain ⟨rfl, rfl⟩ := h1
  obtain ⟨p', log', h6, inv, _, _, h7⟩ := padAfter_inv C ad sk vk len r₁ r₂ _ h
  rw [hp] at h6
  simp only [Option.some.injEq, Prod.mk.injEq] at h6
  obtain ⟨rfl, rfl⟩ := h6
  have he : e.toNat = numUpdates ops₁ := by
    rw [show e = p₁.latest.core.epoch from rfl, inv₁.latest_toNat, h3, Nat.add_sub_cancel]
  refine ⟨he, ?_⟩
  have hp1 : p₁.getSTR e = some p₁.latest := by simp [PAD.getSTR, e]
  obtain ⟨lo, l1, _, l3⟩ := getSTR_spec inv
  have hlt : numUpdates ops₁ < log.length := (List.getElem?_eq_some_iff.mp h4).1
  have hget : p.getSTR e = none ∨ p.getSTR e = some p₁.latest := by
    rw [l3, he]
    split
    · right
      rw [← h4, ← inv.latest_get]; congr 1; omega
    · split
      · right; exact h4
      · left; rfl
  rcases hget with hg | hg
  · exact Or.inl hg
  · refine Or.inr ⟨by rw [hg, hp1], hg, fun k => ?_⟩
    have : p.lookupInEpoch C k e = p₁.lookupInEpoch C k e := by
      simp only [PAD.lookupInEpoch, hg, hp1, h5]
    exact ⟨this, this⟩

/-- C20, and when: with cache length `n ≥ 2` the epoch can be looked up at least until `n - n/2` further updates happened. -/
theorem C20_how_long (C : Crypto) (ad : Policies) (sk vk : Bytes) (n : Nat) (hn : 2 ≤ n) (r₁ r₂ : Bytes)
    (ops₁ ops₂ : List PadOp) (h : numUpdates (ops₁ ++ ops₂) < 2 ^ 64) (p₁ p : PAD) (log₁ log : List STR)
    (hp₁ : padAfter C ad sk vk n r₁ r₂ ops₁ = some (p₁, log₁))
    (hp : padAfter C ad sk vk n r₁ r₂ (ops₁ ++ ops₂) = some (p, log)) (hfew : numUpdates ops₂ ≤ n - n / 2) :
    p.getSTR p₁.latest.core.epoch = some p₁.latest := by
  obtain ⟨he, hc⟩ := C20_history_immutable C ad sk vk n r₁ r₂ ops₁ ops₂ h p₁ p log₁ log hp₁ hp
  rcases hc with hc | hc
  · exfalso
    obtain ⟨lo, _, _, h3, h4, h5⟩ := C19_cache_two C ad sk vk n hn r₁ r₂ _ h p log hp
    have hu := numUpdates_append ops₁ ops₂
    have := h5 p₁.latest.core.epoch (by omega) (by omega)
    rw [hc] at this
    obtain ⟨p', log', h6, inv, _, _, h7⟩ := padAfter_inv C ad sk vk n r₁ r₂ _ h
    rw [hp] at h6
    simp only [Option.some.injEq, Prod.mk.injEq] at h6
    obtain ⟨rfl, rfl⟩ := h6
    have := List.getElem?_eq_none_iff.mp this.symm
    omega
  · exact hc.2.1

example (p₁ p : PAD) (log₁ log : List STR)
    (h₁ : padAfter Crypto.toy default [1] [2] 4 [3] [4] (samplePad.take 2) = some (p₁, log₁))
    (h : padAfter Crypto.toy default [1] [2] 4 [3] [4] (samplePad.take 2 ++ samplePad.drop 2) = some (p, log)) :
    p.getSTR p₁.latest.core.epoch = some p₁.latest :=
  C20_how_long Crypto.toy default [1] [2] 4 (by decide) [3] [4] _ _ (by decide) p₁ p log₁ log h₁ h (by decide)


/-! ### C22 -/

theorem treeOpsOf_mem {idx : Bytes → Bytes} {ops : List PadOp} {r : Option Bytes} {i k v : Bytes}
    (h : TreeOp.set r i k v ∈ treeOpsOf idx ops) : i = idx k ∧ PadOp.set r k v ∈ ops := by
  induction ops with
  | nil => simp [treeOpsOf] at h
  | cons o ops ih =>
    cases o with
    | set r' k' v' =>
      simp only [treeOpsOf, List.mem_cons, TreeOp.set.injEq] at h
      rcases h with ⟨rfl, rfl, rfl, rfl⟩ | h
      · exact ⟨rfl, by simp⟩
      · obtain ⟨a, b⟩ := ih h; exact ⟨a, by simp [b]⟩
    | update ad =>
      simp only [treeOpsOf, List.mem_cons, reduceCtorEq, false_or] at h
      obtain ⟨a, b⟩ := ih h; exact ⟨a, by simp [b]⟩

/-- the last value of a name, seen through its index -/
theorem lastSet_treeOpsOf (idx : Bytes → Bytes) (k : Bytes) (ops : List PadOp)
    (inj : ∀ k', IsNamed k' ops → idx k' = idx k → k' = k) :
    (lastSet (idx k) (treeOpsOf idx ops)).map (fun x => x.2) = (lastValue k ops).map (fun v => (k, v)) := by
  induction ops with
  | nil => rfl
  | cons o ops ih =>
    have ih' := ih (fun k' ⟨r, v, h⟩ => inj k' ⟨r, v, List.mem_cons_of_mem _ h⟩)
    cases o with
    | update ad =>
      simp only [treeOpsOf, lastSet, lastValue]
      cases h1 : lastSet (idx k) (treeOpsOf idx ops) with
      | some x => rw [h1] at ih'; cases h2 : lastValue k ops with
        | some y => rw [h2] at ih'; exact ih'
        | none => rw [h2] at ih'; simp at ih'
      | none => rw [h1] at ih'; cases h2 : lastValue k ops with
        | some y => rw [h2] at ih'; simp at ih'
        | none => rfl
    | set r k' v' =>
      simp only [treeOpsOf, lastSet, lastValue]
      cases h1 : lastSet (idx k) (treeOpsOf idx ops) with
      | some x => rw [h1] at ih'; cases h2 : lastValue k ops with
        | some y => rw [h2] at ih'; exact ih'
        | none => rw [h2] at ih'; simp at ih'
      | none =>
        rw [h1] at ih'
        cases h2 : lastValue k ops with
        | some y => rw [h2] at ih'; simp at ih'
        | none =>
          cases r with
          | none => rfl
          | some r =>
            by_cases e : k' = k
            · subst e; simp
            · have : ¬ idx k' = idx k := fun h => e (inj k' ⟨r, v', by simp⟩ h)
              simp [e, this]

/-- C22. After any history, replacing the VRF key and reshuffling (with randomness available) keeps the rest of the PAD, and the
new tree holds exactly the pairs (name, value) of the old one, every name under its new index, where `Get` finds it. `inj`: the
new VRF gives distinct indices to distinct names that were set (collision-freedom of the VRF on those names). -/
theorem C22_reshuffle_preserves (C : Crypto) (ad : Policies) (sk vk : Bytes) (len : Nat) (r₁ r₂ : Bytes) (ops : List PadOp)
    (h : numUpdates ops < 2 ^ 64) (p : PAD) (log : List STR)
    (hp : padAfter C ad sk vk len r₁ r₂ ops = some (p, log)) (vk' rnd : Bytes) (rnds : Nat → Option Bytes)
    (hr : ∀ i, (rnds i).isSome = true)
    (inj : ∀ k k', IsNamed k ops → IsNamed k' ops → (C.vrfProve vk' k).1 = (C.vrfProve vk' k').1 → k = k') :
    ∃ p', ({ p with vrfKey := vk' } : PAD).reshuffle C (some rnd) rnds = some p' ∧
      p' = { p with vrfKey := vk', tree := p'.tree } ∧
      (p'.tree.root.leaves.map fun l => (l.key, l.value)).Perm (p.tree.root.leaves.map fun l => (l.key, l.value)) ∧
      (∀ l ∈ p'.tree.root.leaves, l.index = (C.vrfProve vk' l.key).1) ∧
      (∀ l ∈ p.tree.root.leaves, ∃ ap pn, p'.tree.get (C.vrfProve vk' l.key).1 = some ap ∧
        ap.proofType = some .inclusion ∧ ap.leaf = some pn ∧ pn.value = some l.value) := by
  have ht := padAfter_tree C ad sk vk len r₁ r₂ _ _ _ hp
  have hlen : IndexLen 32 (.recompute :: treeOpsOf (fun k => (C.vrfProve vk k).1) ops) := by
    intro op hop r i k v e
    rcases List.mem_cons.mp hop with h' | h'
    · rw [h'] at e; cases e
    · exact treeOpsOf_len _ 32 (fun k => C.vrf_length _ _) ops op h' r i k v e
  obtain ⟨hi, _, hperm⟩ := treeAfter_inv C 32 (by decide) r₁ _ hlen _ ht
  have named : ∀ b ∈ p.tree.root.bindings, IsNamed b.key ops ∧ b.index = (C.vrfProve vk b.key).1 := by
    intro b hb
    obtain ⟨r, k, v, h1, h2⟩ := (mem_bindRun C.hash _ b).mp (hperm.mem_iff.mp hb)
    have hm := lastSet_mem h1
    rcases List.mem_cons.mp hm with h' | h'
    · cases h'
    · obtain ⟨a, c⟩ := treeOpsOf_mem h'
      have hk : b.key = k := by rw [h2]
      exact ⟨⟨r, v, hk ▸ c⟩, hk ▸ a⟩
  have nd : (p.tree.root.bindings.map fun b => (C.vrfProve vk' b.key).1).Nodup := by
    have base := bindings_nodup hi.wf
    rw [List.Nodup, List.pairwise_map] at base ⊢
    refine List.Pairwise.imp_of_mem ?_ base
    intro a b ha hb hne e
    apply hne
    have := inj _ _ (named a ha).1 (named b hb).1 e
    rw [(named a ha).2, (named b hb).2, this]
  obtain ⟨p', g1, g2, g3, g4, g5, g6⟩ := reshuffle_spec C { p with vrfKey := vk' } hi rnd rnds hr nd
  have perm : (p'.tree.root.leaves.map fun l => (l.key, l.value)).Perm (p.tree.root.leaves.map fun l => (l.key, l.value)) := by
    simpa [Node.bindings, Leaf.binding, Function.comp_def] using g4
  have idx : ∀ l ∈ p'.tree.root.leaves, l.index = (C.vrfProve vk' l.key).1 := by
    intro l hl
    exact g5 l.binding (List.mem_map_of_mem hl)
  refine ⟨p', g1, g6, perm, idx, ?_⟩
  intro l hl
  have : (l.key, l.value) ∈ p'.tree.root.leaves.map fun l => (l.key, l.value) :=
    perm.mem_iff.mpr (List.mem_map_of_mem (f := fun l : Leaf => (l.key, l.value)) hl)
  obtain ⟨l', hl', e⟩ := List.mem_map.mp this
  simp only [Prod.mk.injEq] at e
  have hx := idx l' hl'
  rw [e.1] at hx
  obtain ⟨ap, q, pn, hg, post⟩ := get_spec C 256 p'.tree g2 (C.vrfProve vk' l.key).1 (by rw [toBits_length, C.vrf_length])
  have nodup := bindings_nodup g2.wf
  rcases post.cases with ⟨l2, hl2, e2, rfl⟩ | ⟨h', _⟩ | ⟨h', _⟩
  · have : l2.binding = l'.binding := by
      refine eq_of_nodup_map nodup (List.mem_map_of_mem hl2) (List.mem_map_of_mem hl') ?_
      show l2.index = l'.index
      rw [e2, hx]
    refine ⟨ap, inclNode l2, hg, ?_, post.leaf, ?_⟩
    · simp [AuthPath.proofType, post.leaf, post.lookup, inclNode, e2]
    · have hv : l2.value = l'.value := congrArg Binding.value this
      show some l2.value = _
      rw [hv, e.2]
  · exact absurd hx (h' l' hl')
  · exact absurd hx (h' l' hl')

/-- C22. If moreover the old VRF gives distinct indices to distinct names that were set, the new tree holds for every name
exactly the last value that was successfully set for it. -/
theorem C22_reshuffle_content (C : Crypto) (ad : Policies) (sk vk : Bytes) (len : Nat) (r₁ r₂ : Bytes) (ops : List PadOp)
    (h : numUpdates ops < 2 ^ 64) (p : PAD) (log : List STR)
    (hp : padAfter C ad sk vk len r₁ r₂ ops = some (p, log)) (vk' rnd : Bytes) (rnds : Nat → Option Bytes)
    (hr : ∀ i, (rnds i).isSome = true)
    (inj : ∀ k k', IsNamed k ops → IsNamed k' ops → (C.vrfProve vk' k).1 = (C.vrfProve vk' k').1 → k = k')
    (inj₀ : ∀ k k', IsNamed k ops → IsNamed k' ops → (C.vrfProve vk k).1 = (C.vrfProve vk k').1 → k = k')
    (p' : PAD) (hp' : ({ p with vrfKey := vk' } : PAD).reshuffle C (some rnd) rnds = some p') (k v : Bytes) (hk : IsNamed k ops) :
    (∃ l ∈ p'.tree.root.leaves, l.key = k ∧ l.value = v) ↔ lastValue k ops = some v := by
  obtain ⟨q, g1, _, g3, _, _⟩ := C22_reshuffle_preserves C ad sk vk len r₁ r₂ ops h p log hp vk' rnd rnds hr inj
  rw [hp'] at g1
  simp only [Option.some.injEq] at g1
  subst g1
  have e1 : (∃ l ∈ p'.tree.root.leaves, l.key = k ∧ l.value = v) ↔ (∃ l ∈ p.tree.root.leaves, l.key = k ∧ l.value = v) := by
    have := g3.mem_iff (a := (k, v))
    simpa [List.mem_map] using this
  rw [e1]
  have ht := padAfter_tree C ad sk vk len r₁ r₂ _ _ _ hp
  have hlen : IndexLen 32 (.recompute :: treeOpsOf (fun k => (C.vrfProve vk k).1) ops) := by
    intro op hop r i k v e
    rcases List.mem_cons.mp hop with h' | h'
    · rw [h'] at e; cases e
    · exact treeOpsOf_len _ 32 (fun k => C.vrf_length _ _) ops op h' r i k v e
  obtain ⟨hi, _, hperm⟩ := treeAfter_inv C 32 (by decide) r₁ _ hlen _ ht
  have hls : ∀ i, lastSet i (.recompute :: treeOpsOf (fun k => (C.vrfProve vk k).1) ops) =
      lastSet i (treeOpsOf (fun k => (C.vrfProve vk k).1) ops) := by
    intro i
    simp only [lastSet]
    split
    · next h => exact h.symm
    · next h => exact h.symm
  have hlast := lastSet_treeOpsOf (fun k => (C.vrfProve vk k).1) k ops (fun k' hk' e => inj₀ k' k hk' hk e)
  constructor
  · rintro ⟨l, hl, rfl, rfl⟩
    obtain ⟨r, h1, _⟩ := leaf_mem_iff hperm hl
    rw [hls] at h1
    obtain ⟨a, _⟩ := treeOpsOf_mem (lastSet_mem h1)
    rw [a] at h1
    rw [h1] at hlast
    cases h2 : lastValue l.key ops with
    | none => rw [h2] at hlast; simp at hlast
    | some y => rw [h2] at hlast; simp at hlast; rw [hlast]
  · intro hv
    rw [hv] at hlast
    obtain ⟨⟨r, k2, v2⟩, h1, h2⟩ := Option.map_eq_some_iff.mp hlast
    simp only [Prod.mk.injEq] at h2
    obtain ⟨rfl, rfl⟩ := h2
    have : (⟨_, k2, v2, C.hash r, C.hash (C.hash r ++ k2 ++ v2)⟩ : Binding) ∈ p.tree.root.bindings :=
      hperm.mem_iff.mpr ((mem_bindRun C.hash _ _).mpr ⟨r, k2, v2, (hls _).trans h1, rfl⟩)
    obtain ⟨l, hl, e⟩ := List.mem_map.mp this
    exact ⟨l, hl, congrArg Binding.key e, congrArg Binding.value e⟩


theorem samplePad_named (k : Bytes) (h : IsNamed k samplePad) : k = [0x61] ∨ k = [0x62] := by
  obtain ⟨r, v, h⟩ := h
  simp only [samplePad, List.mem_cons, List.not_mem_nil, or_false, PadOp.set.injEq, reduceCtorEq, false_or, false_and,
    Option.some.injEq] at h
  rcases h with h | h | h
  · exact Or.inl h.2.1
  · exact Or.inr h.2.1
  · exact Or.inl h.2.1

theorem samplePad_inj (vk : Bytes) (hv : (Crypto.toy.vrfProve vk [0x61]).1 ≠ (Crypto.toy.vrfProve vk [0x62]).1) (k k' : Bytes)
    (h : IsNamed k samplePad) (h' : IsNamed k' samplePad)
    (e : (Crypto.toy.vrfProve vk k).1 = (Crypto.toy.vrfProve vk k').1) : k = k' := by
  rcases samplePad_named k h with rfl | rfl <;> rcases samplePad_named k' h' with rfl | rfl
  · rfl
  · exact absurd e hv
  · exact absurd e.symm hv
  · rfl

example (p : PAD) (log : List STR) (hp : padAfter Crypto.toy default [1] [2] 4 [3] [4] samplePad = some (p, log)) :
    ∃ p', ({ p with vrfKey := [9] } : PAD).reshuffle Crypto.toy (some [5]) (fun i => some [UInt8.ofNat i]) = some p' ∧
      ((∃ l ∈ p'.tree.root.leaves, l.key = [0x61] ∧ l.value = [4]) ↔ lastValue [0x61] samplePad = some [4]) ∧
      lastValue [0x61] samplePad = some [4] := by
  have i9 := samplePad_inj [9] (by decide +kernel)
  have i2 := samplePad_inj [2] (by decide +kernel)
  obtain ⟨p', h1, _⟩ := C22_reshuffle_preserves Crypto.toy default [1] [2] 4 [3] [4] samplePad (by decide) p log hp [9] [5]
    (fun i => some [UInt8.ofNat i]) (fun _ => rfl) i9
  exact ⟨p', h1, C22_reshuffle_content Crypto.toy default [1] [2] 4 [3] [4] samplePad (by decide) p log hp [9] [5]
    (fun i => some [UInt8.ofNat i]) (fun _ => rfl) i9 i2 p' h1 _ _ ⟨[1], [1, 2], by simp [samplePad]⟩, by decide⟩

end Coniks.Props

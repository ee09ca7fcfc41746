import Verif.Spec.Pad
import Verif.Proofs.TreeVerify
namespace Coniks
open Spec

/-- A snapshot: its tree is a valid tree with all hashes cached, and its hash is the one in the STR. -/
structure SnapOK (C : Crypto) (s : STR) : Prop where
  inv : TreeInv C 256 s.tree
  cached : s.tree.root.cached
  hash : s.tree.hash = s.tree.root.pureHash C s.tree.nonce
  core : s.core.treeHash = s.tree.hash

structure PadInv (C : Crypto) (p : PAD) (log : List STR) : Prop where
  tree : TreeInv C 256 p.tree
  nonce : ∀ s ∈ log, s.tree.nonce = p.tree.nonce
  last : log.getLast? = some p.latest
  small : log.length ≤ 2 ^ 64
  epoch : ∀ e s, log[e]? = some s → s.core.epoch = UInt64.ofNat e
  prev : ∀ e s, log[e]? = some s → s.core.previousEpoch = UInt64.ofNat (e - 1)
  sig : ∀ s ∈ log, s.core.signature = C.sign p.signKey s.serialize
  chain : ∀ e s t, log[e]? = some s → log[e + 1]? = some t → t.core.previousSTRHash = C.hash s.core.signature
  snap : ∀ s ∈ log, SnapOK C s
  loaded : ∃ lo, lo < log.length ∧ p.loadedEpochs = (List.range' lo (log.length - lo)).map UInt64.ofNat ∧
    ∀ e : UInt64, p.snapshots e = if lo ≤ e.toNat then log[e.toNat]? else none

theorem tree_clone_eq (C : Crypto) (L : Nat) (m : MerkleTree) (inv : TreeInv C L m) :
    (m.recomputeHash C).clone = m.recomputeHash C := by
  obtain ⟨_, _, h, _⟩ := recompute_inv C L m inv
  unfold MerkleTree.clone
  rw [clone_eq _ h]

theorem newSTR_serialize (C : Crypto) (k ad m e ph) :
    (newSTR C k ad m e ph).core.signature = C.sign k (newSTR C k ad m e ph).serialize := rfl

theorem newSTR_snapOK (C : Crypto) (k ad e ph) (m : MerkleTree) (inv : TreeInv C 256 m) :
    SnapOK C (newSTR C k ad (m.recomputeHash C) e ph) := by
  obtain ⟨h1, h2, h3, h4, h5, h6⟩ := recompute_inv C 256 m inv
  exact ⟨h1, h3, by rw [show (newSTR C k ad (m.recomputeHash C) e ph).tree = m.recomputeHash C from rfl, h4, h2, h5], rfl⟩

theorem ofNat_toNat64 {n : Nat} (h : n < 2 ^ 64) : (UInt64.ofNat n).toNat = n := by
  rw [UInt64.toNat_ofNat']; exact Nat.mod_eq_of_lt h

theorem ofNat64_inj {a b : Nat} (ha : a < 2 ^ 64) (hb : b < 2 ^ 64) (h : UInt64.ofNat a = UInt64.ofNat b) : a = b := by
  rw [← ofNat_toNat64 ha, ← ofNat_toNat64 hb, h]

theorem getLast?_getElem? {α} (l : List α) : l.getLast? = l[l.length - 1]? := List.getLast?_eq_getElem?

/-- what `NewPAD` returns -/
theorem newPAD_spec (C : Crypto) (ad : Policies) (signKey vrfKey : Bytes) (len : Nat) (rnd₁ rnd₂ : Bytes) :
    ∃ p, newPAD C ad signKey vrfKey len (some rnd₁) (some rnd₂) = some (some p) ∧ PadInv C p [p.latest] ∧
      p.signKey = signKey ∧ p.vrfKey = vrfKey ∧ p.ad = ad ∧ p.latest.ad = ad ∧ p.tree.root.bindings = [] ∧
      p.latest.tree.root.bindings = [] ∧ p.cap = (if 1 ≤ len then len else 1) ∧ p.loadedEpochs.length = 1 ∧
      p.tree.nonce = C.hash rnd₁ := by
  have h0 : newMerkleTree C (some rnd₁) = some { nonce := C.hash rnd₁, root := newInterior 0 [], hash := [] } := by
    simp [newMerkleTree, Crypto.makeRand, Crypto.digest]
  obtain ⟨i0, b0⟩ := newMerkleTree_inv C 256 (by decide) _ _ h0
  obtain ⟨r1, r2, r3, r4, r5, r6⟩ := recompute_inv C 256 _ i0
  have hcl := tree_clone_eq C 256 _ i0
  refine ⟨PAD.updateInternal C { signKey := signKey, vrfKey := vrfKey, tree := { nonce := C.hash rnd₁, root := newInterior 0 [], hash := [] }, snapshots := fun _ => none, loadedEpochs := [], cap := len, latest := default, ad := ad } none 0 (C.digest [rnd₂]), by simp [newPAD, h0, Crypto.makeRand], ?_, rfl, rfl, rfl, rfl, ?_, ?_, ?_, rfl, ?_⟩
  · simp only [PAD.updateInternal, hcl]
    refine { tree := r1, nonce := ?_, last := rfl, small := by simp, epoch := ?_, prev := ?_, sig := ?_, chain := ?_,
             snap := ?_, loaded := ?_ }
    · intro s hs; simp only [List.mem_singleton] at hs; subst hs; rfl
    · intro e s h
      cases e with
      | zero => simp only [List.getElem?_cons_zero, Option.some.injEq] at h; subst h; rfl
      | succ e => simp at h
    · intro e s h
      cases e with
      | zero => simp only [List.getElem?_cons_zero, Option.some.injEq] at h; subst h; rfl
      | succ e => simp at h
    · intro s hs; simp only [List.mem_singleton] at hs; subst hs; rfl
    · intro e s t _ h; simp at h
    · intro s hs; simp only [List.mem_singleton] at hs; subst hs; exact newSTR_snapOK C _ _ _ _ _ i0
    · refine ⟨0, by simp, by simp [List.range'], ?_⟩
      intro e
      simp only [Nat.zero_le, if_true]
      by_cases he : e = 0
      · subst he; rfl
      · rw [if_neg he, List.getElem?_eq_none]
        simp only [List.length_singleton]
        rcases Nat.eq_zero_or_pos e.toNat with h | h
        · exact absurd (UInt64.toNat_inj.mp (by simpa using h)) he
        · omega
  · simp only [PAD.updateInternal]; rw [r6, b0]
  · simp only [PAD.updateInternal, hcl]
    rw [show (newSTR C signKey ad (MerkleTree.recomputeHash C { nonce := C.hash rnd₁, root := newInterior 0 [], hash := [] })
      0 (C.digest [rnd₂])).tree = MerkleTree.recomputeHash C { nonce := C.hash rnd₁, root := newInterior 0 [], hash := [] } from rfl,
      r6, b0]
  · simp only [PAD.updateInternal, appendCap, List.length_nil]
    split
    · rfl
    · omega
  · simp only [PAD.updateInternal]; exact r2

theorem PadInv.len_pos {C : Crypto} {p : PAD} {log} (inv : PadInv C p log) : 0 < log.length := by
  have := inv.last
  cases log with
  | nil => simp at this
  | cons => simp

theorem PadInv.latest_get {C : Crypto} {p : PAD} {log} (inv : PadInv C p log) : log[log.length - 1]? = some p.latest := by
  rw [← getLast?_getElem?]; exact inv.last

theorem PadInv.latest_mem {C : Crypto} {p : PAD} {log} (inv : PadInv C p log) : p.latest ∈ log :=
  List.mem_of_getElem? inv.latest_get

theorem PadInv.latest_epoch {C : Crypto} {p : PAD} {log} (inv : PadInv C p log) :
    p.latest.core.epoch = UInt64.ofNat (log.length - 1) := inv.epoch _ _ inv.latest_get

theorem PadInv.latest_toNat {C : Crypto} {p : PAD} {log} (inv : PadInv C p log) :
    p.latest.core.epoch.toNat = log.length - 1 := by
  have := inv.len_pos
  have := inv.small
  rw [inv.latest_epoch, ofNat_toNat64 (by omega)]

theorem take_range'_1 (lo n k : Nat) : (List.range' lo n).take k = List.range' lo (min k n) := by
  induction n generalizing lo k with
  | zero => simp
  | succ n ih =>
    cases k with
    | zero => simp
    | succ k => rw [List.range'_succ, List.take_succ_cons, ih, show min (k + 1) (n + 1) = min k n + 1 by omega, List.range'_succ]

/-- the loaded part of the invariant after eviction -/
theorem evict_loaded {C : Crypto} {p : PAD} {log} (inv : PadInv C p log) :
    ∃ lo, lo ≤ log.length ∧ p.evict.loadedEpochs = (List.range' lo (log.length - lo)).map UInt64.ofNat ∧
      (∀ e : UInt64, p.evict.snapshots e = if lo ≤ e.toNat then log[e.toNat]? else none) ∧
      p.evict.loadedEpochs.length =
        (if p.loadedEpochs.length = p.cap then p.loadedEpochs.length - p.cap / 2 else p.loadedEpochs.length) := by
  obtain ⟨lo, h1, h2, h3⟩ := inv.loaded
  have hs := inv.small
  have hlen : p.loadedEpochs.length = log.length - lo := by rw [h2]; simp
  unfold PAD.evict
  split
  · next hc =>
    refine ⟨lo + p.cap / 2, ?_, ?_, ?_, ?_⟩
    · omega
    · simp only [h2, ← List.map_drop, List.drop_range']
      congr 1
      rw [show log.length - lo - p.cap / 2 = log.length - (lo + p.cap / 2) by omega]
      congr 1
      omega
    · intro e
      simp only [h3]
      have hmem : e ∈ p.loadedEpochs.take (p.cap / 2) ↔ lo ≤ e.toNat ∧ e.toNat < lo + p.cap / 2 := by
        rw [h2, ← List.map_take, take_range'_1]
        simp only [List.mem_map, List.mem_range'_1]
        constructor
        · rintro ⟨a, ha, rfl⟩
          rw [ofNat_toNat64 (by omega)]; omega
        · intro ha
          exact ⟨e.toNat, by omega, by simp⟩
      by_cases hm : e ∈ p.loadedEpochs.take (p.cap / 2)
      · rw [if_pos hm]
        have := hmem.mp hm
        rw [if_neg (by omega)]
      · rw [if_neg hm]
        by_cases hl : lo ≤ e.toNat
        · have : ¬ e.toNat < lo + p.cap / 2 := fun h => hm (hmem.mpr ⟨hl, h⟩)
          rw [if_pos hl, if_pos (by omega)]
        · rw [if_neg hl, if_neg (by omega)]
    · simp
  · exact ⟨lo, by omega, h2, h3, rfl⟩

theorem evict_fields (p : PAD) : p.evict.tree = p.tree ∧ p.evict.signKey = p.signKey ∧ p.evict.vrfKey = p.vrfKey ∧
    p.evict.ad = p.ad ∧ p.evict.cap = p.cap ∧ p.evict.latest = p.latest := by
  unfold PAD.evict; split <;> simp

structure UpdatePost (C : Crypto) (p p' : PAD) (log : List STR) (ad : Option Policies) : Prop where
  inv : PadInv C p' (log ++ [p'.latest])
  signKey : p'.signKey = p.signKey
  vrfKey : p'.vrfKey = p.vrfKey
  ad : p'.ad = ad.getD p.ad
  latestAd : p'.latest.ad = p.ad
  bindings : p'.tree.root.bindings = p.tree.root.bindings
  latestBindings : p'.latest.tree.root.bindings = p.tree.root.bindings
  latestTree : p'.latest.tree = p'.tree
  nonce : p'.tree.nonce = p.tree.nonce
  cap : p'.cap = appendCap p.evict.loadedEpochs.length p.cap
  loadedLen : p'.loadedEpochs.length =
    (if p.loadedEpochs.length = p.cap then p.loadedEpochs.length - p.cap / 2 else p.loadedEpochs.length) + 1
  latestEpoch : p'.latest.core.epoch = UInt64.ofNat log.length

theorem update_spec (C : Crypto) (p : PAD) (log : List STR) (inv : PadInv C p log) (hlt : log.length < 2 ^ 64)
    (ad : Option Policies) : UpdatePost C p (p.update C ad) log ad := by
  obtain ⟨e1, e2, e3, e4, e5, e6⟩ := evict_fields p
  obtain ⟨r1, r2, r3, r4, r5, r6⟩ := recompute_inv C 256 _ inv.tree
  have hcl := tree_clone_eq C 256 _ inv.tree
  have hpos := inv.len_pos
  have hep : p.latest.core.epoch + 1 = UInt64.ofNat log.length := by
    apply UInt64.toNat_inj.mp
    rw [UInt64.toNat_add, inv.latest_toNat, ofNat_toNat64 hlt, UInt64.toNat_one, Nat.mod_eq_of_lt (by omega)]
    omega
  have hlat : (p.update C ad).latest =
      newSTR C p.signKey p.ad (p.tree.recomputeHash C) (UInt64.ofNat log.length) (C.hash p.latest.core.signature) := by
    simp only [PAD.update, PAD.updateInternal, e1, e2, e4, hcl, hep, Crypto.digest, List.flatten_cons, List.flatten_nil,
      List.append_nil]
  have hne0 : UInt64.ofNat log.length ≠ 0 := by
    intro h
    have := congrArg UInt64.toNat h
    rw [ofNat_toNat64 hlt] at this
    rw [UInt64.toNat_zero] at this; omega
  have hprevEp : UInt64.ofNat log.length - 1 = UInt64.ofNat (log.length - 1) := by
    rw [← hep, inv.latest_epoch]
    apply UInt64.toNat_inj.mp
    rw [UInt64.toNat_sub_of_le]
    · rw [UInt64.toNat_add, ofNat_toNat64 (by omega), UInt64.toNat_one, Nat.mod_eq_of_lt (by omega)]; omega
    · rw [UInt64.le_iff_toNat_le, UInt64.toNat_add, ofNat_toNat64 (by omega), UInt64.toNat_one, Nat.mod_eq_of_lt (by omega)]; omega
  have htree : (p.update C ad).tree = p.tree.recomputeHash C := by simp [PAD.update, PAD.updateInternal, e1]
  refine { inv := ?_, signKey := ?_, vrfKey := ?_, ad := ?_, latestAd := ?_, bindings := ?_, latestBindings := ?_,
           latestTree := ?_, nonce := ?_, cap := ?_, loadedLen := ?_, latestEpoch := ?_ }
  · have get_old : ∀ e s, (log ++ [(p.update C ad).latest])[e]? = some s →
        log[e]? = some s ∨ (e = log.length ∧ s = (p.update C ad).latest) := by
      intro e s h
      rcases Nat.lt_or_ge e log.length with he | he
      · rw [List.getElem?_append_left he] at h; exact Or.inl h
      · rw [List.getElem?_append_right he] at h
        rcases Nat.eq_zero_or_pos (e - log.length) with h0 | h0
        · rw [h0] at h; simp at h; exact Or.inr ⟨by omega, h.symm⟩
        · rw [List.getElem?_eq_none (by simp; omega)] at h; cases h
    refine { tree := by rw [htree]; exact r1, nonce := ?_, last := by simp, small := by simp; omega, epoch := ?_, prev := ?_,
             sig := ?_, chain := ?_, snap := ?_, loaded := ?_ }
    · intro s hs
      rw [htree, r2]
      rcases List.mem_append.mp hs with h | h
      · exact inv.nonce s h
      · simp only [List.mem_singleton] at h; rw [h, hlat]; exact r2
    · intro e s h
      rcases get_old e s h with h | ⟨rfl, rfl⟩
      · exact inv.epoch e s h
      · rw [hlat]; rfl
    · intro e s h
      rcases get_old e s h with h | ⟨rfl, rfl⟩
      · exact inv.prev e s h
      · rw [hlat]; simp only [newSTR, if_neg hne0]; exact hprevEp
    · intro s hs
      rw [show (p.update C ad).signKey = p.signKey by simp [PAD.update, PAD.updateInternal, e2]]
      rcases List.mem_append.mp hs with h | h
      · exact inv.sig s h
      · simp only [List.mem_singleton] at h; rw [h, hlat]; rfl
    · intro e s t hs ht
      rcases get_old _ _ ht with h | ⟨h, rfl⟩
      · rcases get_old _ _ hs with h' | ⟨h', _⟩
        · exact inv.chain e s t h' h
        · have := (List.getElem?_eq_some_iff.mp h).1; omega
      · rcases get_old _ _ hs with h' | ⟨h', _⟩
        · have : s = p.latest := by
            have := inv.latest_get
            rw [show log.length - 1 = e by omega, h'] at this
            simpa using this
          rw [hlat, this]; rfl
        · omega
    · intro s hs
      rcases List.mem_append.mp hs with h | h
      · exact inv.snap s h
      · simp only [List.mem_singleton] at h; rw [h, hlat]; exact newSTR_snapOK C _ _ _ _ _ inv.tree
    · obtain ⟨lo, l1, l2, l3, l4⟩ := evict_loaded inv
      refine ⟨lo, by simp; omega, ?_, ?_⟩
      · simp only [PAD.update, PAD.updateInternal, l2, hep, List.length_append, List.length_singleton]
        rw [show log.length + 1 - lo = (log.length - lo) + 1 by omega, List.range'_concat, List.map_append]
        simp only [Nat.one_mul, List.map_cons, List.map_nil, show lo + (log.length - lo) = log.length by omega]
      · intro e
        simp only [PAD.update, PAD.updateInternal, hep]
        by_cases he : e = UInt64.ofNat log.length
        · have : e.toNat = log.length := by rw [he, ofNat_toNat64 hlt]
          rw [if_pos he, if_pos (by omega), this, List.getElem?_append_right (by omega)]
          simp [e1, e2, e4]
        · have hne : e.toNat ≠ log.length := by
            intro h; apply he; rw [← h]; simp
          rw [if_neg he, l3]
          by_cases hle : lo ≤ e.toNat
          · rw [if_pos hle, if_pos hle]
            rcases Nat.lt_or_ge e.toNat log.length with h | h
            · rw [List.getElem?_append_left h]
            · rw [List.getElem?_eq_none (by omega), List.getElem?_eq_none (by simp; omega)]
          · rw [if_neg hle, if_neg hle]
  · simp [PAD.update, PAD.updateInternal, e2]
  · simp [PAD.update, PAD.updateInternal, e3]
  · simp [PAD.update, PAD.updateInternal, e4]
  · rw [hlat]; rfl
  · rw [htree]; exact r6
  · rw [hlat]; exact r6
  · rw [hlat, htree]; rfl
  · rw [htree]; exact r2
  · simp [PAD.update, PAD.updateInternal, e5]
  · obtain ⟨lo, l1, l2, l3, l4⟩ := evict_loaded inv
    simp only [PAD.update, PAD.updateInternal, List.length_append, List.length_singleton, l4]
  · rw [hlat]; rfl

structure SetPost (C : Crypto) (p p' : PAD) (log : List STR) : Prop where
  inv : PadInv C p' log
  signKey : p'.signKey = p.signKey
  vrfKey : p'.vrfKey = p.vrfKey
  ad : p'.ad = p.ad
  latest : p'.latest = p.latest
  snapshots : p'.snapshots = p.snapshots
  cap : p'.cap = p.cap
  loaded : p'.loadedEpochs = p.loadedEpochs
  nonce : p'.tree.nonce = p.tree.nonce

theorem index_length (C : Crypto) (p : PAD) (k : Bytes) : (p.index C k).length = 32 := C.vrf_length _ _

theorem PadInv.set_tree {C : Crypto} {p : PAD} {log} (inv : PadInv C p log) (t : MerkleTree) (ht : TreeInv C 256 t)
    (hn : t.nonce = p.tree.nonce) : PadInv C { p with tree := t } log :=
  { tree := ht, nonce := fun s hs => (inv.nonce s hs).trans hn.symm, last := inv.last, small := inv.small,
    epoch := inv.epoch, prev := inv.prev, sig := inv.sig, chain := inv.chain, snap := inv.snap, loaded := inv.loaded }

theorem pad_set_spec (C : Crypto) (p : PAD) (log : List STR) (inv : PadInv C p log) (rnd : Option Bytes) (key value : Bytes) :
    ∃ p', p.set C rnd key value = some (p', rnd.isSome) ∧ SetPost C p p' log ∧
      (rnd = none → p' = p) ∧
      (∀ r, rnd = some r → p'.tree.root.bindings.Perm
        (put ⟨p.index C key, key, value, C.hash r, C.hash (C.hash r ++ key ++ value)⟩ p.tree.root.bindings)) := by
  cases rnd with
  | none =>
    refine ⟨p, by simp [PAD.set, MerkleTree.set, Crypto.newCommit, Crypto.makeRand], ⟨inv, rfl, rfl, rfl, rfl, rfl, rfl, rfl, rfl⟩,
      fun _ => rfl, fun r h => by cases h⟩
  | some r =>
    obtain ⟨m', h1, h2, h3, _, h5⟩ := insertNode_inv C 256 p.tree inv.tree
      { level := 0, key := key, value := value, index := p.index C key,
        commit := { salt := C.hash r, value := C.hash (C.hash r ++ key ++ value) } }
      (by rw [toBits_length, index_length])
    refine ⟨{ p with tree := m' }, ?_, ⟨inv.set_tree m' h2 h3, rfl, rfl, rfl, rfl, rfl, rfl, rfl, h3⟩, (fun h => by cases h), ?_⟩
    · simp only [PAD.set, MerkleTree.set, Crypto.newCommit, Crypto.makeRand, Option.map_some, Crypto.digest, List.flatten_cons,
        List.flatten_nil, List.append_nil]
      simp only [List.append_assoc] at h1
      rw [h1]; rfl
    · intro r' hr
      simp only [Option.some.injEq] at hr
      subst hr
      exact h5

theorem runLog_inv (C : Crypto) (ops : List PadOp) : ∀ (p : PAD) (log : List STR), PadInv C p log →
    log.length + numUpdates ops ≤ 2 ^ 64 →
    ∃ p' log', p.runLog C log ops = some (p', log') ∧ PadInv C p' log' ∧ p'.signKey = p.signKey ∧ p'.vrfKey = p.vrfKey ∧
      (∃ ext, log' = log ++ ext) ∧ log'.length = log.length + numUpdates ops := by
  induction ops with
  | nil => intro p log inv _; exact ⟨p, log, rfl, inv, rfl, rfl, ⟨[], by simp⟩, by simp [numUpdates]⟩
  | cons op ops ih =>
    intro p log inv hle
    cases op with
    | set rnd k v =>
      obtain ⟨p', h1, h2, _⟩ := pad_set_spec C p log inv rnd k v
      obtain ⟨p'', log'', h3, h4, h5, h6, h7, h8⟩ := ih p' log h2.inv hle
      refine ⟨p'', log'', ?_, h4, h5.trans h2.signKey, h6.trans h2.vrfKey, h7, h8⟩
      simp only [PAD.runLog, PAD.step, h1, Option.map_some, Option.bind_some, PadOp.issued, List.append_nil]
      exact h3
    | update ad =>
      simp only [numUpdates] at hle
      have post := update_spec C p log inv (by omega) ad
      obtain ⟨p'', log'', h3, h4, h5, h6, ⟨ext, h7⟩, h8⟩ := ih _ _ post.inv (by simp; omega)
      refine ⟨p'', log'', ?_, h4, h5.trans post.signKey, h6.trans post.vrfKey, ⟨(p.update C ad).latest :: ext, by rw [h7]; simp⟩, ?_⟩
      · simp only [PAD.runLog, PAD.step, Option.bind_some, PadOp.issued]; exact h3
      · rw [h8]; simp [numUpdates]; omega

/-- `GetSTR` in terms of the log -/
theorem getSTR_spec {C : Crypto} {p : PAD} {log} (inv : PadInv C p log) :
    ∃ lo, lo < log.length ∧ p.loadedEpochs.length = log.length - lo ∧
      ∀ e : UInt64, p.getSTR e =
        if log.length - 1 ≤ e.toNat then some p.latest else if lo ≤ e.toNat then log[e.toNat]? else none := by
  obtain ⟨lo, h1, h2, h3⟩ := inv.loaded
  refine ⟨lo, h1, by rw [h2]; simp, fun e => ?_⟩
  unfold PAD.getSTR
  have : e ≥ p.latest.core.epoch ↔ log.length - 1 ≤ e.toNat := by
    rw [ge_iff_le, UInt64.le_iff_toNat_le, inv.latest_toNat]
  by_cases h : log.length - 1 ≤ e.toNat
  · rw [if_pos (this.mpr h), if_pos h]
  · rw [if_neg (fun h' => h (this.mp h')), if_neg h, h3]


theorem numUpdates_append (a b : List PadOp) : numUpdates (a ++ b) = numUpdates a + numUpdates b := by
  induction a with
  | nil => simp [numUpdates]
  | cons o a ih => cases o <;> simp only [List.cons_append, numUpdates] <;> omega

theorem runLog_append (C : Crypto) (a b : List PadOp) : ∀ (p : PAD) (log : List STR),
    p.runLog C log (a ++ b) = (p.runLog C log a).bind fun x => x.1.runLog C x.2 b := by
  induction a with
  | nil => intro p log; rfl
  | cons o a ih =>
    intro p log
    simp only [List.cons_append, PAD.runLog]
    cases p.step C o with
    | none => rfl
    | some x => exact ih x _

theorem padAfter_append (C : Crypto) (ad : Policies) (sk vk : Bytes) (len : Nat) (r₁ r₂ : Bytes) (a b : List PadOp) :
    padAfter C ad sk vk len r₁ r₂ (a ++ b) = (padAfter C ad sk vk len r₁ r₂ a).bind fun x => x.1.runLog C x.2 b := by
  obtain ⟨p, h, _⟩ := newPAD_spec C ad sk vk len r₁ r₂
  simp only [padAfter, h, runLog_append]

/-- everything the invariant says about a history -/
theorem padAfter_inv (C : Crypto) (ad : Policies) (sk vk : Bytes) (len : Nat) (r₁ r₂ : Bytes) (ops : List PadOp)
    (h : numUpdates ops < 2 ^ 64) :
    ∃ p log, padAfter C ad sk vk len r₁ r₂ ops = some (p, log) ∧ PadInv C p log ∧ p.signKey = sk ∧ p.vrfKey = vk ∧
      log.length = numUpdates ops + 1 := by
  obtain ⟨p, h1, h2, h3, h4, _⟩ := newPAD_spec C ad sk vk len r₁ r₂
  obtain ⟨p', log', h5, h6, h7, h8, _, h9⟩ := runLog_inv C ops p _ h2 (by simp; omega)
  refine ⟨p', log', ?_, h6, h7.trans h3, h8.trans h4, ?_⟩
  · simp only [padAfter, h1]; exact h5
  · rw [h9]; simp; omega

/-- the tree of a PAD evolves like a tree -/
theorem runLog_tree (C : Crypto) (ops : List PadOp) : ∀ (p p' : PAD) (log log' : List STR),
    p.runLog C log ops = some (p', log') →
    p.tree.run C (treeOpsOf (fun k => (C.vrfProve p.vrfKey k).1) ops) = some p'.tree := by
  induction ops with
  | nil =>
    intro p p' log log' h
    simp only [PAD.runLog, Option.some.injEq, Prod.mk.injEq] at h
    rw [h.1]; rfl
  | cons op ops ih =>
    intro p p' log log' h
    simp only [PAD.runLog] at h
    obtain ⟨q, h1, h2⟩ := Option.bind_eq_some_iff.mp h
    have hv : q.vrfKey = p.vrfKey ∧
        (treeOpsOf (fun k => (C.vrfProve p.vrfKey k).1) (op :: ops)) =
          (treeOpsOf (fun k => (C.vrfProve p.vrfKey k).1) [op]) ++ treeOpsOf (fun k => (C.vrfProve p.vrfKey k).1) ops ∧
        p.tree.run C (treeOpsOf (fun k => (C.vrfProve p.vrfKey k).1) [op]) = some q.tree := by
      cases op with
      | set r k v =>
        simp only [PAD.step, PAD.set, Option.map_map, Option.map_eq_some_iff] at h1
        obtain ⟨⟨t, ok⟩, h3, h4⟩ := h1
        subst h4
        refine ⟨rfl, rfl, ?_⟩
        simp only [treeOpsOf, MerkleTree.run, MerkleTree.step]
        rw [show (C.vrfProve p.vrfKey k).1 = p.index C k from rfl, h3]; rfl
      | update ad =>
        simp only [PAD.step, Option.some.injEq] at h1
        subst h1
        obtain ⟨e1, e2, e3, e4, e5, e6⟩ := evict_fields p
        refine ⟨?_, rfl, ?_⟩
        · simp [PAD.update, PAD.updateInternal, e3]
        · simp [treeOpsOf, MerkleTree.run, MerkleTree.step, PAD.update, PAD.updateInternal, e1]
    obtain ⟨e1, e2, e3⟩ := hv
    have := ih q p' _ _ h2
    rw [e1] at this
    rw [e2]
    have ra : ∀ (a b : List TreeOp) (m0 : MerkleTree), m0.run C (a ++ b) = (m0.run C a).bind fun m => m.run C b := by
      intro a b
      induction a with
      | nil => intro m0; rfl
      | cons o a ih =>
        intro m0
        simp only [List.cons_append, MerkleTree.run]
        cases m0.step C o with
        | none => rfl
        | some x => exact ih x
    rw [ra, e3]
    exact this

theorem padAfter_tree (C : Crypto) (ad : Policies) (sk vk : Bytes) (len : Nat) (r₁ r₂ : Bytes) (ops : List PadOp)
    (p : PAD) (log : List STR) (h : padAfter C ad sk vk len r₁ r₂ ops = some (p, log)) :
    treeAfter C r₁ (.recompute :: treeOpsOf (fun k => (C.vrfProve vk k).1) ops) = some p.tree := by
  have h0 : newMerkleTree C (some r₁) = some { nonce := C.hash r₁, root := newInterior 0 [], hash := [] } := by
    simp [newMerkleTree, Crypto.makeRand, Crypto.digest]
  simp only [padAfter, newPAD, h0, Crypto.makeRand, Option.map_some] at h
  have := runLog_tree C ops _ _ _ _ h
  simp only [treeAfter, h0, Option.bind_some, MerkleTree.run, MerkleTree.step]
  exact this

theorem treeOpsOf_len (idx : Bytes → Bytes) (n : Nat) (h : ∀ k, (idx k).length = n) (ops : List PadOp) :
    IndexLen n (treeOpsOf idx ops) := by
  intro op hop r i k v e
  induction ops with
  | nil => simp [treeOpsOf] at hop
  | cons o ops ih =>
    cases o with
    | set r' k' v' =>
      simp only [treeOpsOf, List.mem_cons] at hop
      rcases hop with h' | h'
      · rw [h'] at e; cases e; exact h k
      · exact ih h'
    | update ad =>
      simp only [treeOpsOf, List.mem_cons] at hop
      rcases hop with h' | h'
      · rw [h'] at e; cases e
      · exact ih h'

/-- `log` at the position of an `Update` in the middle of a history -/
theorem padAfter_split (C : Crypto) (ad : Policies) (sk vk : Bytes) (len : Nat) (r₁ r₂ : Bytes) (a b : List PadOp)
    (h : numUpdates (a ++ b) < 2 ^ 64) (p : PAD) (log : List STR)
    (hp : padAfter C ad sk vk len r₁ r₂ (a ++ b) = some (p, log)) :
    ∃ p₁ log₁ ext, padAfter C ad sk vk len r₁ r₂ a = some (p₁, log₁) ∧ PadInv C p₁ log₁ ∧ log = log₁ ++ ext ∧
      log₁.length = numUpdates a + 1 ∧ log[numUpdates a]? = some p₁.latest ∧ p.vrfKey = p₁.vrfKey := by
  have hle := numUpdates_append a b
  obtain ⟨p₁, log₁, h1, h2, _, _, h3⟩ := padAfter_inv C ad sk vk len r₁ r₂ a (by omega)
  rw [padAfter_append, h1, Option.bind_some] at hp
  obtain ⟨p', log', h4, _, _, h6, ⟨ext, h5⟩, _⟩ := runLog_inv C b p₁ log₁ h2 (by omega)
  rw [h4] at hp
  simp only [Option.some.injEq, Prod.mk.injEq] at hp
  obtain ⟨rfl, rfl⟩ := hp
  refine ⟨p₁, log₁, ext, h1, h2, h5, h3, ?_, h6⟩
  rw [h5, List.getElem?_append_left (by omega)]
  have := h2.latest_get
  rwa [h3, Nat.add_sub_cancel] at this


theorem eq_of_nodup_map {α β} {f : α → β} {l : List α} (h : (l.map f).Nodup) {a b : α} (ha : a ∈ l) (hb : b ∈ l)
    (e : f a = f b) : a = b := by
  induction l with
  | nil => cases ha
  | cons x l ih =>
    simp only [List.map_cons, List.nodup_cons] at h
    rcases List.mem_cons.mp ha with rfl | ha'
    · rcases List.mem_cons.mp hb with rfl | hb'
      · rfl
      · exact absurd (List.mem_map.mpr ⟨b, hb', e.symm⟩) h.1
    · rcases List.mem_cons.mp hb with rfl | hb'
      · exact absurd (List.mem_map.mpr ⟨a, ha', e⟩) h.1
      · exact ih h.2 ha' hb'

/-! ### reshuffle -/

theorem set_spec (C : Crypto) (t : MerkleTree) (inv : TreeInv C 256 t) (r i k v : Bytes) (hi : i.length = 32) :
    ∃ t', t.set C (some r) i k v = some (t', true) ∧ TreeInv C 256 t' ∧ t'.nonce = t.nonce ∧
      t'.root.bindings.Perm (put ⟨i, k, v, C.hash r, C.hash (C.hash r ++ k ++ v)⟩ t.root.bindings) := by
  obtain ⟨m', h1, h2, h3, _, h5⟩ := insertNode_inv C 256 t inv
    { level := 0, key := k, value := v, index := i, commit := { salt := C.hash r, value := C.hash (C.hash r ++ k ++ v) } }
    (by rw [toBits_length, hi])
  refine ⟨m', ?_, h2, h3, h5⟩
  simp only [MerkleTree.set, Crypto.newCommit, Crypto.makeRand, Option.map_some, Crypto.digest, List.flatten_cons,
    List.flatten_nil, List.append_nil]
  simp only [List.append_assoc] at h1
  rw [h1]; rfl

theorem reshuffleLoop_spec (C : Crypto) (vk : Bytes) (ls : List (Leaf × Option Bytes)) :
    ∀ (t : MerkleTree), TreeInv C 256 t → (∀ x ∈ ls, x.2.isSome = true) →
    (ls.map fun x => (C.vrfProve vk x.1.key).1).Nodup →
    (∀ x ∈ ls, ∀ b ∈ t.root.bindings, b.index ≠ (C.vrfProve vk x.1.key).1) →
    (∀ b ∈ t.root.bindings, b.index = (C.vrfProve vk b.key).1) →
    ∃ t', reshuffleLoop C vk ls t = some t' ∧ TreeInv C 256 t' ∧ t'.nonce = t.nonce ∧
      (t'.root.bindings.map fun b => (b.key, b.value)).Perm
        (ls.map (fun x => (x.1.key, x.1.value)) ++ t.root.bindings.map fun b => (b.key, b.value)) ∧
      (∀ b ∈ t'.root.bindings, b.index = (C.vrfProve vk b.key).1) := by
  induction ls with
  | nil => intro t inv _ _ _ hx; exact ⟨t, rfl, inv, rfl, by simp, hx⟩
  | cons x ls ih =>
    intro t inv hr hnd hfresh hx
    obtain ⟨l, rnd⟩ := x
    have := hr (l, rnd) (by simp)
    obtain ⟨r, rfl⟩ := Option.isSome_iff_exists.mp this
    obtain ⟨t1, h1, h2, h3, h4⟩ := set_spec C t inv r (C.vrfProve vk l.key).1 l.key l.value (C.vrf_length _ _)
    rw [put_of_forall_ne _ _ (fun b hb => hfresh (l, some r) (by simp) b hb)] at h4
    simp only [List.map_cons, List.nodup_cons] at hnd
    obtain ⟨t', g1, g2, g3, g4, g5⟩ := ih t1 h2 (fun x hx' => hr x (by simp [hx'])) hnd.2
      (by
        intro x hx' b hb
        rcases List.mem_cons.mp (h4.mem_iff.mp hb) with rfl | hb'
        · intro e
          exact hnd.1 (List.mem_map.mpr ⟨x, hx', e.symm⟩)
        · exact hfresh x (by simp [hx']) b hb')
      (by
        intro b hb
        rcases List.mem_cons.mp (h4.mem_iff.mp hb) with rfl | hb'
        · rfl
        · exact hx b hb')
    refine ⟨t', ?_, g2, g3.trans h3, ?_, g5⟩
    · simp only [reshuffleLoop, h1]; exact g1
    · refine g4.trans ?_
      have h4' := (h4.map fun b => (b.key, b.value)).append_left (ls.map fun x => (x.1.key, x.1.value))
      refine h4'.trans ?_
      simp only [List.map_cons, List.cons_append]
      exact List.perm_middle

theorem reshuffle_spec (C : Crypto) (p : PAD) (hw : TreeInv C 256 p.tree) (rnd : Bytes) (rnds : Nat → Option Bytes)
    (hr : ∀ i, (rnds i).isSome = true)
    (inj : (p.tree.root.bindings.map fun b => (C.vrfProve p.vrfKey b.key).1).Nodup) :
    ∃ p', p.reshuffle C (some rnd) rnds = some p' ∧ TreeInv C 256 p'.tree ∧ p'.tree.nonce = C.hash rnd ∧
      (p'.tree.root.bindings.map fun b => (b.key, b.value)).Perm (p.tree.root.bindings.map fun b => (b.key, b.value)) ∧
      (∀ b ∈ p'.tree.root.bindings, b.index = (C.vrfProve p.vrfKey b.key).1) ∧ p' = { p with tree := p'.tree } := by
  have h0 : newMerkleTree C (some rnd) = some { nonce := C.hash rnd, root := newInterior 0 [], hash := [] } := by
    simp [newMerkleTree, Crypto.makeRand, Crypto.digest]
  obtain ⟨i0, b0⟩ := newMerkleTree_inv C 256 (by decide) _ _ h0
  have hmap : ∀ {β} (f : Leaf → β), ((p.tree.root.leaves.zipIdx.map fun x => (x.1, rnds x.2)).map fun x => f x.1) =
      p.tree.root.leaves.map f := by
    intro β f
    simp only [List.map_map]
    rw [show (fun x : Leaf × Option Bytes => f x.1) ∘ (fun x : Leaf × Nat => (x.1, rnds x.2)) = f ∘ Prod.fst from rfl,
      ← List.map_map, List.zipIdx_map_fst]
  obtain ⟨t', g1, g2, g3, g4, g5⟩ := reshuffleLoop_spec C p.vrfKey
    (p.tree.root.leaves.zipIdx.map fun x => (x.1, rnds x.2)) _ i0
    (by intro x hx; obtain ⟨y, _, rfl⟩ := List.mem_map.mp hx; exact hr _)
    (by
      rw [hmap (fun l => (C.vrfProve p.vrfKey l.key).1)]
      simpa [Node.bindings, Leaf.binding, Function.comp_def] using inj)
    (by rw [b0]; simp) (by rw [b0]; simp)
  refine ⟨{ p with tree := t' }, ?_, g2, g3, ?_, g5, rfl⟩
  · simp only [PAD.reshuffle, h0, g1]; rfl
  · refine g4.trans ?_
    rw [b0, hmap (fun l => (l.key, l.value))]
    simp only [List.map_nil, List.append_nil, Node.bindings, List.map_map]
    exact List.Perm.refl _

end Coniks

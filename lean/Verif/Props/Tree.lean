import Verif.Proofs.TreeVerify
import Verif.Proofs.Eval
/-
C09 - C12: the Merkle prefix tree as a map with a canonical hash and verifiable lookups.
-/
namespace Coniks.Props
open Coniks Spec

/-! ### concrete material for the examples -/

/-- 32-byte index that starts with `a` and ends with `b`. -/
def ix (a b : UInt8) : Bytes := [a] ++ List.replicate 30 0 ++ [b]

/-- three names, one of them set twice; two indices share 5 bits -/
def sampleOps : List TreeOp :=
  [.set (some [1]) (ix 0x10 0) [0x61] [1, 2], .recompute, .set (some [2]) (ix 0x17 0) [0x62] [3],
   .set none (ix 0x99 0) [0x63] [4], .set (some [3]) (ix 0xF0 9) [0x64] [], .set (some [4]) (ix 0x10 0) [0x61] [5]]

theorem sampleOps_len : IndexLen 32 sampleOps := by
  intro op hop r i k v e
  subst e
  simp only [sampleOps, List.mem_cons, List.not_mem_nil, or_false, TreeOp.set.injEq, reduceCtorEq, false_or] at hop
  rcases hop with ⟨_, rfl, _, _⟩ | ⟨_, rfl, _, _⟩ | ⟨_, rfl, _, _⟩ | ⟨_, rfl, _, _⟩ | ⟨_, rfl, _, _⟩ <;> rfl

theorem sampleOps_spread : Spread 248 sampleOps := by
  have key : ∀ i, IsSet i sampleOps → i = ix 0x10 0 ∨ i = ix 0x17 0 ∨ i = ix 0xF0 9 := by
    rintro i ⟨r, k, v, h⟩
    simp only [sampleOps, List.mem_cons, List.not_mem_nil, or_false, TreeOp.set.injEq, reduceCtorEq, false_or,
      false_and] at h
    rcases h with h | h | h | h <;> simp [h.2.1]
  intro i j hi hj hne
  rcases key i hi with rfl | rfl | rfl <;> rcases key j hj with rfl | rfl | rfl <;>
    first | exact absurd rfl hne | decide +kernel

/-! ### C09 -/

/-- C09. Any history of `Set` and `recomputeHash` calls with indices of one non-zero length runs without a panic
(and terminates: the model is a total function). -/
theorem C09_set_never_panics (C : Crypto) (n : Nat) (hn : 0 < n) (rnd : Bytes) (ops : List TreeOp)
    (h : IndexLen n ops) : ∃ m, treeAfter C rnd ops = some m := by
  obtain ⟨m0, m, h0, h1, _⟩ := run_new C n hn rnd ops h
  exact ⟨m, by rw [treeAfter, h0]; exact h1⟩

/-- C09. ... and no call in between fails other than by the lack of randomness: `Set` reports success exactly when it got
its randomness. -/
theorem C09_set_succeeds (C : Crypto) (n : Nat) (hn : 0 < n) (rnd : Bytes) (ops : List TreeOp) (h : IndexLen n ops)
    (m : MerkleTree) (hm : treeAfter C rnd ops = some m) (r : Option Bytes) (i k v : Bytes) (hi : i.length = n) :
    ∃ m', m.set C r i k v = some (m', r.isSome) := by
  obtain ⟨m0, m1, h0, h1, inv, _⟩ := run_new C n hn rnd ops h
  have : m1 = m := by rw [treeAfter, h0] at hm; simpa using h1.symm.trans hm
  subst this
  cases r with
  | none => exact ⟨m1, rfl⟩
  | some r =>
    obtain ⟨m', e, _⟩ := insertNode_inv C (8 * n) m1 inv
      { level := 0, key := k, value := v, index := i,
        commit := { salt := C.digest [r], value := C.digest [C.digest [r], k, v] } } (toBits_length' hi)
    exact ⟨m', by simp only [MerkleTree.set, Crypto.newCommit, Crypto.makeRand, Option.map_some]; rw [e]; rfl⟩

example : ∃ m, treeAfter Crypto.toy [7] sampleOps = some m := C09_set_never_panics _ 32 (by decide) _ _ sampleOps_len

/-- C09, the boundary: with the empty index (length zero) the very first `Set` panics. -/
theorem C09_empty_index_panics (C : Crypto) (rnd r k v : Bytes) :
    Panics (treeAfter C rnd [.set (some r) [] k v]) := by
  rw [treeAfterE_eq]; rfl

/-- C09, the boundary: indices of different lengths can make `Set` panic (`bits` of the shorter one run out). -/
theorem C09_mixed_lengths_panic (C : Crypto) (rnd r k v : Bytes) :
    Panics (treeAfter C rnd [.set (some r) [0, 0] k v, .set (some r) [0] k v]) := by
  rw [treeAfterE_eq]; rfl

/-! ### C10 -/

theorem treeAfter_inv (C : Crypto) (n : Nat) (hn : 0 < n) (rnd : Bytes) (ops : List TreeOp) (h : IndexLen n ops)
    (m : MerkleTree) (hm : treeAfter C rnd ops = some m) :
    TreeInv C (8 * n) m ∧ m.nonce = C.hash rnd ∧ m.root.bindings.Perm (bindRun C.hash ops) := by
  obtain ⟨m0, m1, h0, h1, inv, hn, hp⟩ := run_new C n hn rnd ops h
  have : m1 = m := by rw [treeAfter, h0] at hm; simpa using h1.symm.trans hm
  exact this ▸ ⟨inv, hn, hp⟩

theorem leaf_mem_iff {C : Crypto} {m : MerkleTree} {ops : List TreeOp}
    (hp : m.root.bindings.Perm (bindRun C.hash ops)) {l : Leaf} (hl : l ∈ m.root.leaves) :
    ∃ r, lastSet l.index ops = some (r, l.key, l.value) ∧ l.commit.salt = C.hash r ∧
      l.commit.value = C.hash (C.hash r ++ l.key ++ l.value) := by
  have hb : l.binding ∈ bindRun C.hash ops := hp.mem_iff.mp (List.mem_map_of_mem hl)
  obtain ⟨r, k, v, h1, h2⟩ := (mem_bindRun C.hash ops _).mp hb
  simp only [Leaf.binding, Binding.mk.injEq, true_and] at h2
  obtain ⟨e1, e2, e3, e4⟩ := h2
  refine ⟨r, ?_, e3, ?_⟩
  · rw [e1, e2]; exact h1
  · rw [e4, e1, e2]

theorem no_leaf_iff {C : Crypto} {m : MerkleTree} {ops : List TreeOp}
    (hp : m.root.bindings.Perm (bindRun C.hash ops)) {i : Bytes} :
    (∀ l ∈ m.root.leaves, l.index ≠ i) ↔ lastSet i ops = none := by
  constructor
  · intro h
    cases hl : lastSet i ops with
    | none => rfl
    | some x =>
      obtain ⟨r, k, v⟩ := x
      have : (⟨i, k, v, C.hash r, C.hash (C.hash r ++ k ++ v)⟩ : Binding) ∈ m.root.bindings :=
        hp.mem_iff.mpr ((mem_bindRun C.hash ops _).mpr ⟨r, k, v, hl, rfl⟩)
      obtain ⟨l, hl1, hl2⟩ := List.mem_map.mp this
      exact absurd (congrArg Binding.index hl2) (h l hl1)
  · intro h l hl e
    obtain ⟨r, h1, _⟩ := leaf_mem_iff hp hl
    rw [e, h] at h1
    simp at h1

/-- Present half of C10. If `i` was set, `Get i` is a proof of inclusion of the last value set, with the commitment to it. -/
theorem C10_get_present (C : Crypto) (n : Nat) (hn : 0 < n) (rnd : Bytes) (ops : List TreeOp) (h : IndexLen n ops)
    (m : MerkleTree) (hm : treeAfter C rnd ops = some m) (i r k v : Bytes) (hset : lastSet i ops = some (r, k, v)) :
    ∃ ap pn, m.get i = some ap ∧ ap.lookupIndex = i ∧ ap.treeNonce = C.hash rnd ∧ ap.proofType = some .inclusion ∧
      ap.leaf = some pn ∧ pn.index = i ∧ pn.value = some v ∧ pn.isEmpty = false ∧
      pn.commitment = some ⟨C.hash r, C.hash (C.hash r ++ k ++ v)⟩ := by
  obtain ⟨inv, hnonce, hp⟩ := treeAfter_inv C n hn rnd ops h m hm
  have hi : i.length = n := h _ (lastSet_mem hset) _ _ _ _ rfl
  obtain ⟨ap, q, pn, hg, post⟩ := get_spec C (8 * n) m inv i (toBits_length' hi)
  have hno : ¬ ∀ l ∈ m.root.leaves, l.index ≠ i := by rw [no_leaf_iff hp, hset]; simp
  rcases post.cases with ⟨l, hl, e, rfl⟩ | ⟨h', _⟩ | ⟨h', _⟩
  · obtain ⟨r', h1, h2, h3⟩ := leaf_mem_iff hp hl
    rw [e, hset] at h1
    simp only [Option.some.injEq, Prod.mk.injEq] at h1
    obtain ⟨rfl, rfl, rfl⟩ := h1
    refine ⟨ap, inclNode l, hg, post.lookup, post.nonce.trans hnonce, ?_, post.leaf, e, rfl, rfl, ?_⟩
    · simp [AuthPath.proofType, post.leaf, post.lookup, inclNode, e]
    · show some l.commit = _
      rw [← h3, ← h2]
  · exact absurd h' hno
  · exact absurd h' hno

/-- Absent half of C10, weak form, no assumption on the indices: `Get` of an index that was never set carries no value. -/
theorem C10_get_absent_no_value (C : Crypto) (n : Nat) (hn : 0 < n) (rnd : Bytes) (ops : List TreeOp) (h : IndexLen n ops)
    (m : MerkleTree) (hm : treeAfter C rnd ops = some m) (i : Bytes) (hi : i.length = n) (hset : lastSet i ops = none) :
    ∃ ap pn, m.get i = some ap ∧ ap.lookupIndex = i ∧ ap.leaf = some pn ∧ pn.value = none ∧
      (∀ c, pn.commitment = some c → c.salt = []) := by
  obtain ⟨inv, hnonce, hp⟩ := treeAfter_inv C n hn rnd ops h m hm
  obtain ⟨ap, q, pn, hg, post⟩ := get_spec C (8 * n) m inv i (toBits_length' hi)
  have hno := (no_leaf_iff hp).mpr hset
  rcases post.cases with ⟨l, hl, e, rfl⟩ | ⟨_, l, _, _, rfl⟩ | ⟨_, rfl, _⟩
  · exact absurd e (hno l hl)
  · exact ⟨ap, _, hg, post.lookup, post.leaf, rfl, by simp [otherNode]⟩
  · exact ⟨ap, _, hg, post.lookup, post.leaf, rfl, by simp [emptyPN]⟩

/-- Absent half of C10 for spread indices; `C10_get_absent_exact` is the statement for all indices, and without `hsp` this one is
false (`C10_deep_prefix_counterexample`). `hsp`: no two indices that were set agree on the first `8 (n-1)` bits
(248 bits for the 32-byte indices of the directory). -/
theorem C10_get_absent_spread (C : Crypto) (n : Nat) (hn : 2 ≤ n) (rnd : Bytes) (ops : List TreeOp) (h : IndexLen n ops)
    (m : MerkleTree) (hm : treeAfter C rnd ops = some m) (i : Bytes) (hi : i.length = n) (hset : lastSet i ops = none)
    (hsp : Spread (8 * (n - 1)) ops) :
    ∃ ap pn, m.get i = some ap ∧ ap.lookupIndex = i ∧ ap.treeNonce = C.hash rnd ∧ ap.proofType = some .absence ∧
      ap.leaf = some pn ∧ pn.value = none := by
  obtain ⟨inv, hnonce, hp⟩ := treeAfter_inv C n (by omega) rnd ops h m hm
  obtain ⟨ap, q, pn, hg, post⟩ := get_spec C (8 * n) m inv i (toBits_length' hi)
  have hno := (no_leaf_iff hp).mpr hset
  have hne : pn.index ≠ i ∧ pn.value = none := by
    rcases post.cases with ⟨l, hl, e, rfl⟩ | ⟨_, l, _, hne, rfl⟩ | ⟨_, hpn, _⟩
    · exact absurd e (hno l hl)
    · exact ⟨hne, rfl⟩
    · refine ⟨fun e => ?_, by rw [hpn]; rfl⟩
      rw [hpn] at e
      obtain ⟨l1, m1, l2, m2, ne, ht⟩ := deep_empty post hn hi hno hpn e
      obtain ⟨r1, s1, _⟩ := leaf_mem_iff hp m1
      obtain ⟨r2, s2, _⟩ := leaf_mem_iff hp m2
      refine hsp _ _ ⟨_, _, _, lastSet_mem s1⟩ ⟨_, _, _, lastSet_mem s2⟩ ne ?_
      rw [← toBits_eq_bitsOf, ← toBits_eq_bitsOf]; exact ht
  refine ⟨ap, pn, hg, post.lookup, post.nonce.trans hnonce, ?_, post.leaf, hne.2⟩
  simp [AuthPath.proofType, post.leaf, post.lookup, Ne.symm hne.1]

/-- The two indices of the counterexample: 31 zero bytes, then 0x80 / 0xC0. -/
def deepA : Bytes := ix 0 0x80
def deepB : Bytes := ix 0 0xC0

/-- C10 is false as stated: with two present indices that share their first 249 bits, `Get` of the all-zero index, which
was never set, looks like a proof of inclusion (for every hash function). -/
theorem C10_deep_prefix_counterexample (C : Crypto) (rnd r : Bytes) :
    let ops : List TreeOp := [.set (some r) deepA [1] [2], .set (some r) deepB [2] [3]]
    IndexLen 32 ops ∧ lastSet (ix 0 0) ops = none ∧
    ∃ m ap, treeAfter C rnd ops = some m ∧ m.get (ix 0 0) = some ap ∧ ap.proofType = some .inclusion := by
  refine ⟨?_, ?_, ?_⟩
  · intro op hop r i k v e
    subst e
    simp only [List.mem_cons, List.not_mem_nil, or_false, TreeOp.set.injEq] at hop
    rcases hop with ⟨_, rfl, _, _⟩ | ⟨_, rfl, _, _⟩ <;> rfl
  · have h1 : deepA ≠ ix 0 0 := by decide +kernel
    have h2 : deepB ≠ ix 0 0 := by decide +kernel
    simp [lastSet, h1, h2]
  · have key : ((treeAfter C rnd [.set (some r) deepA [1] [2], .set (some r) deepB [2] [3]]).bind
        (fun m => (m.get (ix 0 0)).bind AuthPath.proofType)) = some .inclusion := by
      rw [treeAfterE_eq]
      set_option maxRecDepth 1000000 in rfl
    obtain ⟨m, h1, h2⟩ := Option.bind_eq_some_iff.mp key
    obtain ⟨ap, h3, h4⟩ := Option.bind_eq_some_iff.mp h2
    exact ⟨m, ap, h1, h3, h4⟩

example : lastSet (ix 0x10 0) sampleOps = some ([4], [0x61], [5]) := by decide +kernel
example : lastSet (ix 0x99 0) sampleOps = none := by decide +kernel
/-- the hypotheses of `C10_get_present` and `C10_get_absent_spread` are met by the sample -/
example : ∃ m, treeAfter Crypto.toy [7] sampleOps = some m ∧
    (∃ ap pn, m.get (ix 0x10 0) = some ap ∧ ap.proofType = some .inclusion ∧ ap.leaf = some pn ∧ pn.value = some [5]) ∧
    (∃ ap, m.get (ix 0x99 0) = some ap ∧ ap.proofType = some .absence) := by
  obtain ⟨m, hm⟩ := C09_set_never_panics Crypto.toy 32 (by decide) [7] _ sampleOps_len
  obtain ⟨ap, pn, h1, _, _, h2, h3, _, h4, _⟩ := C10_get_present Crypto.toy 32 (by decide) [7] _ sampleOps_len m hm
    (ix 0x10 0) [4] [0x61] [5] (by decide +kernel)
  obtain ⟨ap', pn', h1', _, _, h2', _⟩ := C10_get_absent_spread Crypto.toy 32 (by decide) [7] _ sampleOps_len m hm
    (ix 0x99 0) (by decide) (by decide +kernel) sampleOps_spread
  exact ⟨m, hm, ⟨ap, pn, h1, h2, h3, h4⟩, ⟨ap', h1', h2'⟩⟩

/-! ### C11 -/

/-- C11. The tree hash is the canonical hash of the set of bindings. -/
theorem C11_hash_canonical (C : Crypto) (n : Nat) (hn : 0 < n) (rnd : Bytes) (ops : List TreeOp) (h : IndexLen n ops)
    (m : MerkleTree) (hm : treeAfter C rnd ops = some m) :
    (m.recomputeHash C).hash = treeHash C.hash (C.hash rnd) (8 * n) (bindRun C.hash ops) := by
  obtain ⟨inv, hnonce, hp⟩ := treeAfter_inv C n hn rnd ops h m hm
  obtain ⟨_, _, _, h4, _⟩ := recompute_inv C _ m inv
  rw [h4, hnonce]
  have hi := inv.interior
  have hw := inv.wf
  have ht := inv.tight
  cases hr : m.root with
  | empty => simp [hr, Node.isInterior] at hi
  | leaf => simp [hr, Node.isInterior] at hi
  | interior lv lh rh l r =>
    rw [hr] at hw ht hp
    rw [pureHash_root C _ (8 * n) lv lh rh l r hw ht]
    exact treeHash_perm _ _ _ _ _ hp

theorem subtreeHash_congr (hash : Bytes → Bytes) (nonce : Bytes) (n : Nat) :
    ∀ (p : List Bool) (a b : List Binding),
      a.map (fun x => (x.index, x.commit)) = b.map (fun x => (x.index, x.commit)) →
      subtreeHash hash nonce n p a = subtreeHash hash nonce n p b := by
  have fl : ∀ (f : Bytes → Bool) (a b : List Binding),
      a.map (fun x => (x.index, x.commit)) = b.map (fun x => (x.index, x.commit)) →
      (a.filter fun x => f x.index).map (fun x => (x.index, x.commit)) =
        (b.filter fun x => f x.index).map (fun x => (x.index, x.commit)) := by
    intro f a b h
    have e : ∀ l : List Binding, (l.filter fun x => f x.index).map (fun x => (x.index, x.commit)) =
        (l.map (fun x => (x.index, x.commit))).filter (fun y => f y.1) := by
      intro l; rw [List.filter_map]; rfl
    rw [e, e, h]
  induction n with
  | zero =>
    intro p a b h
    match a, b, h with
    | [], [], _ => rfl
    | [x], [y], h =>
      simp only [List.map_cons, List.map_nil, List.cons.injEq, Prod.mk.injEq, and_true] at h
      rw [subtreeHash, subtreeHash, h.1, h.2]
    | [], _ :: _, h => simp at h
    | _ :: _, [], h => simp at h
    | [_], _ :: _ :: _, h => simp at h
    | _ :: _ :: _, [_], h => simp at h
    | _ :: _ :: _, _ :: _ :: _, _ => rfl
  | succ n ih =>
    intro p a b h
    match a, b, h with
    | [], [], _ => rfl
    | [x], [y], h =>
      simp only [List.map_cons, List.map_nil, List.cons.injEq, Prod.mk.injEq, and_true] at h
      rw [subtreeHash, subtreeHash, h.1, h.2]
    | [], _ :: _, h => simp at h
    | _ :: _, [], h => simp at h
    | [_], _ :: _ :: _, h => simp at h
    | _ :: _ :: _, [_], h => simp at h
    | x :: y :: t, z :: w :: u, h =>
      rw [subtreeHash_two _ _ _ _ _ (by simp), subtreeHash_two _ _ _ _ _ (by simp)]
      rw [ih _ _ _ (fl (fun i => !dirBit i p.length) _ _ h), ih _ _ _ (fl (fun i => dirBit i p.length) _ _ h)]

theorem treeHash_congr (hash : Bytes → Bytes) (nonce : Bytes) (L : Nat) (a b : List Binding)
    (h : (a.map fun x => (x.index, x.commit)).Perm (b.map fun x => (x.index, x.commit))) :
    treeHash hash nonce L a = treeHash hash nonce L b := by
  -- replace every binding by its (index, commit) part
  let strip : Bytes × Bytes → Binding := fun y => ⟨y.1, [], [], [], y.2⟩
  have e : ∀ l : List Binding, treeHash hash nonce L l =
      treeHash hash nonce L ((l.map fun x => (x.index, x.commit)).map strip) := by
    intro l
    have hm : ∀ f : Bytes → Bool, ((l.filter fun x => f x.index)).map (fun x => (x.index, x.commit)) =
        ((((l.map fun x => (x.index, x.commit)).map strip).filter fun x => f x.index)).map
          (fun x => (x.index, x.commit)) := by
      intro f
      simp only [List.filter_map, List.map_map]
      rfl
    unfold treeHash
    rw [subtreeHash_congr hash nonce L [false] _ _ (hm fun i => !dirBit i 0),
      subtreeHash_congr hash nonce L [true] _ _ (hm fun i => dirBit i 0)]
  rw [e a, e b]
  exact treeHash_perm _ _ _ _ _ (h.map strip)

/-- C11. Two histories (any order, any number of intermediate `recomputeHash` calls, failed `Set`s in between) that leave the
same commitments under the same indices give the same tree hash. -/
theorem C11_order_independent (C : Crypto) (n : Nat) (hn : 0 < n) (rnd : Bytes) (ops₁ ops₂ : List TreeOp)
    (h₁ : IndexLen n ops₁) (h₂ : IndexLen n ops₂) (m₁ m₂ : MerkleTree)
    (hm₁ : treeAfter C rnd ops₁ = some m₁) (hm₂ : treeAfter C rnd ops₂ = some m₂)
    (same : ∀ i c, (∃ r k v, lastSet i ops₁ = some (r, k, v) ∧ c = C.hash (C.hash r ++ k ++ v)) ↔
                   (∃ r k v, lastSet i ops₂ = some (r, k, v) ∧ c = C.hash (C.hash r ++ k ++ v))) :
    (m₁.recomputeHash C).hash = (m₂.recomputeHash C).hash := by
  rw [C11_hash_canonical C n hn rnd ops₁ h₁ m₁ hm₁, C11_hash_canonical C n hn rnd ops₂ h₂ m₂ hm₂]
  apply treeHash_congr
  have nd : ∀ ops, ((bindRun C.hash ops).map fun x => (x.index, x.commit)).Nodup := by
    intro ops
    have := bindRun_nodup C.hash ops
    rw [show (bindRun C.hash ops).map Binding.index =
      ((bindRun C.hash ops).map fun x => (x.index, x.commit)).map Prod.fst by simp] at this
    rw [List.Nodup, List.pairwise_map] at this
    exact this.imp fun h e => h (by rw [e])
  have mem : ∀ ops i c, (i, c) ∈ (bindRun C.hash ops).map (fun x => (x.index, x.commit)) ↔
      ∃ r k v, lastSet i ops = some (r, k, v) ∧ c = C.hash (C.hash r ++ k ++ v) := by
    intro ops i c
    constructor
    · intro h
      obtain ⟨b, hb, e⟩ := List.mem_map.mp h
      obtain ⟨r, k, v, h1, h2⟩ := (mem_bindRun C.hash ops b).mp hb
      simp only [Prod.mk.injEq] at e
      obtain ⟨rfl, rfl⟩ := e
      exact ⟨r, k, v, h1, by rw [h2]⟩
    · rintro ⟨r, k, v, h1, rfl⟩
      exact List.mem_map.mpr ⟨⟨i, k, v, C.hash r, C.hash (C.hash r ++ k ++ v)⟩,
        (mem_bindRun C.hash ops _).mpr ⟨r, k, v, h1, rfl⟩, rfl⟩
  refine (List.perm_ext_iff_of_nodup (nd _) (nd _)).mpr ?_
  rintro ⟨i, c⟩
  rw [mem, mem, same]

/-- the sample in another order, without intermediate hashing, satisfies the hypothesis -/
def sampleOps' : List TreeOp :=
  [.set (some [3]) (ix 0xF0 9) [0x64] [], .set (some [4]) (ix 0x10 0) [0x61] [5], .set (some [2]) (ix 0x17 0) [0x62] [3]]

theorem sampleOps'_len : IndexLen 32 sampleOps' := by
  intro op hop r i k v e
  subst e
  simp only [sampleOps', List.mem_cons, List.not_mem_nil, or_false, TreeOp.set.injEq] at hop
  rcases hop with ⟨_, rfl, _, _⟩ | ⟨_, rfl, _, _⟩ | ⟨_, rfl, _, _⟩ <;> rfl

theorem sample_same (i : Bytes) : lastSet i sampleOps = lastSet i sampleOps' := by
  by_cases h1 : ix 0x10 0 = i
  · subst h1; decide +kernel
  by_cases h2 : ix 0x17 0 = i
  · subst h2; decide +kernel
  by_cases h3 : ix 0xF0 9 = i
  · subst h3; decide +kernel
  simp [lastSet, sampleOps, sampleOps', h1, h2, h3]

example (m₁ m₂ : MerkleTree) (h₁ : treeAfter Crypto.toy [7] sampleOps = some m₁)
    (h₂ : treeAfter Crypto.toy [7] sampleOps' = some m₂) :
    (m₁.recomputeHash Crypto.toy).hash = (m₂.recomputeHash Crypto.toy).hash :=
  C11_order_independent Crypto.toy 32 (by decide) [7] _ _ sampleOps_len sampleOps'_len m₁ m₂ h₁ h₂
    (fun i c => by rw [sample_same])

/-! ### C12 -/

theorem run_append (C : Crypto) (a b : List TreeOp) (m0 : MerkleTree) :
    m0.run C (a ++ b) = (m0.run C a).bind fun m => m.run C b := by
  induction a generalizing m0 with
  | nil => rfl
  | cons o a ih =>
    simp only [List.cons_append, MerkleTree.run]
    cases m0.step C o with
    | none => rfl
    | some x => exact ih x

theorem treeAfter_recompute (C : Crypto) (n : Nat) (hn : 0 < n) (rnd : Bytes) (ops : List TreeOp)
    (h : IndexLen n ops) (m : MerkleTree) (hm : treeAfter C rnd (ops ++ [.recompute]) = some m) :
    TreeInv C (8 * n) m ∧ m.nonce = C.hash rnd ∧ m.root.bindings.Perm (bindRun C.hash ops) ∧ m.root.cached ∧
      m.hash = m.root.pureHash C m.nonce := by
  obtain ⟨m1, hm1⟩ := C09_set_never_panics C n hn rnd ops h
  obtain ⟨inv, hnonce, hp⟩ := treeAfter_inv C n hn rnd ops h m1 hm1
  have hm' : m = m1.recomputeHash C := by
    rw [treeAfter] at hm hm1
    cases h0 : newMerkleTree C (some rnd) with
    | none => rw [h0] at hm; simp at hm
    | some m0 =>
      rw [h0] at hm hm1
      simp only [Option.bind_some] at hm hm1
      rw [run_append, hm1] at hm
      simpa [MerkleTree.run, MerkleTree.step] using hm.symm
  obtain ⟨inv', n', cach, hh, ph, bnd⟩ := recompute_inv C _ m1 inv
  rw [hm']
  exact ⟨inv', n'.trans hnonce, by rw [bnd]; exact hp, cach, by rw [hh, n', ph]⟩

/-- C12, inclusion. In a tree whose hash has just been recomputed, the proof for a present index verifies against the
tree hash with the stored key and value. -/
theorem C12_present_verifies (C : Crypto) (n : Nat) (hn : 0 < n) (hs : 8 * n < 2 ^ 32) (rnd : Bytes) (ops : List TreeOp)
    (h : IndexLen n ops) (m : MerkleTree) (hm : treeAfter C rnd (ops ++ [.recompute]) = some m) (i r k v : Bytes)
    (hset : lastSet i ops = some (r, k, v)) :
    ∃ ap, m.get i = some ap ∧ ap.verify C k v m.hash = some (.ok ()) := by
  obtain ⟨inv, hnonce, hp, cach, hh⟩ := treeAfter_recompute C n hn rnd ops h m hm
  have hi : i.length = n := h _ (lastSet_mem hset) _ _ _ _ rfl
  obtain ⟨ap, q, pn, hg, post⟩ := get_spec C (8 * n) m inv i (toBits_length' hi)
  have hno : ¬ ∀ l ∈ m.root.leaves, l.index ≠ i := by rw [no_leaf_iff hp, hset]; simp
  rcases post.cases with ⟨l, hl, e, rfl⟩ | ⟨h', _⟩ | ⟨h', _⟩
  · obtain ⟨r', h1, h2, h3⟩ := leaf_mem_iff hp hl
    rw [e, hset] at h1
    simp only [Option.some.injEq, Prod.mk.injEq] at h1
    obtain ⟨rfl, rfl, rfl⟩ := h1
    refine ⟨ap, hg, ?_⟩
    rw [hh]
    exact verify_incl C _ _ i ap q l post hs (toBits_length' hi) e cach (by rw [h3, h2])
  · exact absurd h' hno
  · exact absurd h' hno

/-- C12, absence, for spread indices; `C12_absent_exact` is the statement for all indices, and without `hsp` this one is false
(`C12_deep_prefix_counterexample`: the verifier panics). -/
theorem C12_absent_verifies_spread (C : Crypto) (n : Nat) (hn : 2 ≤ n) (hs : 8 * n < 2 ^ 32) (rnd : Bytes)
    (ops : List TreeOp) (h : IndexLen n ops) (hsp : Spread (8 * (n - 1)) ops) (m : MerkleTree)
    (hm : treeAfter C rnd (ops ++ [.recompute]) = some m) (i : Bytes) (hi : i.length = n)
    (hset : lastSet i ops = none) (key value : Bytes) :
    ∃ ap, m.get i = some ap ∧ ap.verify C key value m.hash = some (.ok ()) := by
  obtain ⟨inv, hnonce, hp, cach, hh⟩ := treeAfter_recompute C n (by omega) rnd ops h m hm
  obtain ⟨ap, q, pn, hg, post⟩ := get_spec C (8 * n) m inv i (toBits_length' hi)
  have hno := (no_leaf_iff hp).mpr hset
  have hne : pn.index ≠ i ∧ pn.value = none := by
    rcases post.cases with ⟨l, hl, e, rfl⟩ | ⟨_, l, _, hne, rfl⟩ | ⟨_, hpn, _⟩
    · exact absurd e (hno l hl)
    · exact ⟨hne, rfl⟩
    · refine ⟨fun e => ?_, by rw [hpn]; rfl⟩
      rw [hpn] at e
      obtain ⟨l1, m1, l2, m2, ne, ht⟩ := deep_empty post hn hi hno hpn e
      obtain ⟨r1, s1, _⟩ := leaf_mem_iff hp m1
      obtain ⟨r2, s2, _⟩ := leaf_mem_iff hp m2
      refine hsp _ _ ⟨_, _, _, lastSet_mem s1⟩ ⟨_, _, _, lastSet_mem s2⟩ ne ?_
      rw [← toBits_eq_bitsOf, ← toBits_eq_bitsOf]; exact ht
  refine ⟨ap, hg, ?_⟩
  rw [hh]
  exact verify_abs C _ m i ap q pn post hs (toBits_length' hi) hne.1 hne.2 cach key value

/-- C12 is false as stated: the honest proof for the never-set all-zero index makes the verifier panic when two present
indices share their first 249 bits and the looked-up value is empty; with a non-empty value it is rejected. -/
theorem C12_deep_prefix_counterexample (C : Crypto) (rnd r key : Bytes) :
    ∃ m ap, treeAfter C rnd [.set (some r) deepA [1] [2], .set (some r) deepB [2] [3], .recompute] = some m ∧
      m.get (ix 0 0) = some ap ∧ Panics (ap.verify C key [] m.hash) ∧
      ∀ value, value ≠ [] → ap.verify C key value m.hash = some (.error .bindingsDiffer) := by
  have key : ((treeAfter C rnd [.set (some r) deepA [1] [2], .set (some r) deepB [2] [3], .recompute]).bind
      (fun m => (m.get (ix 0 0)).bind fun ap => ap.leaf.map fun l => (ap.lookupIndex, l.index, l.value, l.commitment))) =
        some (ix 0 0, ix 0 0, none, none) := by
    rw [treeAfterE_eq]
    set_option maxRecDepth 1000000 in rfl
  obtain ⟨m, h1, h2⟩ := Option.bind_eq_some_iff.mp key
  obtain ⟨ap, h3, h4⟩ := Option.bind_eq_some_iff.mp h2
  obtain ⟨l, h5, h6⟩ := Option.map_eq_some_iff.mp h4
  simp only [Prod.mk.injEq] at h6
  obtain ⟨e1, e2, e3, e4⟩ := h6
  refine ⟨m, ap, h1, h3, ?_, ?_⟩
  · simp [Panics, AuthPath.verify, h5, e1, e2, e3, e4]
  · intro value hv
    simp [AuthPath.verify, h5, e1, e2, e3, e4, Ne.symm hv]

/-- the sample meets the hypotheses of both halves of C12 -/
example (m : MerkleTree) (hm : treeAfter Crypto.toy [7] (sampleOps ++ [.recompute]) = some m) :
    (∃ ap, m.get (ix 0x10 0) = some ap ∧ ap.verify Crypto.toy [0x61] [5] m.hash = some (.ok ())) ∧
    (∃ ap, m.get (ix 0x99 0) = some ap ∧ ap.verify Crypto.toy [0x61] [5] m.hash = some (.ok ())) :=
  ⟨C12_present_verifies Crypto.toy 32 (by decide) (by decide) [7] _ sampleOps_len m hm (ix 0x10 0) [4] [0x61] [5]
      (by decide +kernel),
   C12_absent_verifies_spread Crypto.toy 32 (by decide) (by decide) [7] _ sampleOps_len sampleOps_spread m hm (ix 0x99 0)
      (by decide) (by decide +kernel) _ _⟩

end Coniks.Props

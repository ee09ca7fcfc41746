import Verif.Proofs.TreeDeep
import Verif.Props.Tree
/-
C10 and C12 without any assumption on the indices: exactly what happens.
-/
namespace Coniks.Props
open Coniks Spec

theorem isSet_iff {i : Bytes} : ∀ {ops : List TreeOp}, IsSet i ops ↔ ∃ x, lastSet i ops = some x := by
  intro ops
  constructor
  · rintro ⟨r, k, v, h⟩
    induction ops with
    | nil => simp at h
    | cons o ops ih =>
      cases hl : lastSet i ops with
      | some x => exact ⟨x, by simp [lastSet, hl]⟩
      | none =>
        rcases List.mem_cons.mp h with rfl | h
        · exact ⟨(r, k, v), by simp [lastSet, hl]⟩
        · obtain ⟨x, hx⟩ := ih h
          rw [hl] at hx; cases hx
  · rintro ⟨⟨r, k, v⟩, h⟩
    exact ⟨r, k, v, lastSet_mem h⟩

theorem isSet_leaf {C : Crypto} {m : MerkleTree} {ops : List TreeOp}
    (hp : m.root.bindings.Perm (bindRun C.hash ops)) {i : Bytes} :
    IsSet i ops ↔ ∃ l ∈ m.root.leaves, l.index = i := by
  rw [isSet_iff]
  constructor
  · rintro ⟨x, hx⟩
    by_cases h : ∃ l ∈ m.root.leaves, l.index = i
    · exact h
    · have := (no_leaf_iff (i := i) hp).mp (fun l hl e => h ⟨l, hl, e⟩)
      rw [hx] at this; cases this
  · rintro ⟨l, hl, rfl⟩
    obtain ⟨r, h, _⟩ := leaf_mem_iff hp hl
    exact ⟨_, h⟩

/-- What `Get` of an absent index returns: the leaf shows another index, or the index itself as an empty branch, the latter
exactly in the deep-empty case. -/
theorem absent_exact (C : Crypto) (n : Nat) (hn : 2 ≤ n) (rnd : Bytes) (ops : List TreeOp) (h : IndexLen n ops)
    (m : MerkleTree) (inv : TreeInv C (8 * n) m) (hp : m.root.bindings.Perm (bindRun C.hash ops)) (i : Bytes)
    (hi : i.length = n) (hset : lastSet i ops = none) (ap : AuthPath) (q : List Bool) (pn : ProofNode)
    (hg : m.get i = some ap) (post : GetPost C (8 * n) m i ap q pn) :
    pn.value = none ∧ (pn.index = i ↔ DeepEmpty n ops i) ∧ (pn.index = i → pn.commitment = none) := by
  have hno := (no_leaf_iff hp).mpr hset
  have hbl : ∀ j, IsSet j ops → (bitsOf j).length = (bitsOf i).length := by
    rintro j ⟨r, k, v, hj⟩
    rw [bitsOf_length, bitsOf_length, hi, h _ hj _ _ _ _ rfl]
  have hil : (bitsOf i).length = 8 * n := by rw [bitsOf_length, hi]
  have hql := post.q_le (toBits_length' hi)
  have hqe : q = (bitsOf i).take q.length := by
    obtain ⟨t, ht⟩ := post.pre
    rw [← toBits_eq_bitsOf, ← ht]; simp
  obtain ⟨b1, b2⟩ := get_bottom C (8 * n) m inv i (toBits_length' hi) ap pn hg post.leaf
  rw [post.plen, toBits_eq_bitsOf] at b1 b2
  have deepTo : DeepEmpty n ops i → (∀ l ∈ m.root.leaves, ¬ q <+: bitsOf l.index) ∧
      8 * (n - 1) < q.length ∧ (bitsOf i).drop q.length = List.replicate (8 * n - q.length) false := by
    rintro ⟨L, h1, h2, ⟨j, k, sj, sk, ne, ej, ek⟩, h4, h5⟩
    have hqL : q.length = L := by
      rcases Nat.lt_trichotomy q.length L with hlt | he | hgt
      · exfalso
        obtain ⟨l1, m1, rfl⟩ := (isSet_leaf hp).mp sj
        obtain ⟨l2, m2, rfl⟩ := (isSet_leaf hp).mp sk
        have pr : ∀ x : List Bool, x.take (L - 1) = (bitsOf i).take (L - 1) → (bitsOf i).take q.length <+: x := by
          intro x e
          have : (bitsOf i).take q.length = x.take q.length := by
            have := congrArg (List.take q.length) e
            rwa [List.take_take, List.take_take, Nat.min_eq_left (by omega), eq_comm] at this
          rw [this]; exact List.take_prefix _ _
        exact ne (congrArg Leaf.index (b1 l1 m1 l2 m2 (by rw [toBits_eq_bitsOf]; exact pr _ ej)
          (by rw [toBits_eq_bitsOf]; exact pr _ ek)))
      · exact he
      · exfalso
        obtain ⟨l1, m1, _, _, _, p1, _⟩ := post.deep (by omega)
        refine h4 l1.index ((isSet_leaf hp).mpr ⟨l1, m1, rfl⟩) ?_
        rw [toBits_eq_bitsOf] at p1
        obtain ⟨t, ht⟩ := p1
        rw [← ht, List.take_append_of_le_length (by simp; omega), List.take_take, Nat.min_eq_left (by omega), hqe,
          List.take_take, Nat.min_eq_left (by omega)]
    refine ⟨fun l hl hpre => ?_, by omega, by rw [hqL]; exact h5⟩
    refine h4 l.index ((isSet_leaf hp).mpr ⟨l, hl, rfl⟩) ?_
    obtain ⟨t, ht⟩ := hpre
    rw [← ht, ← hqL, List.take_append_of_le_length (by simp), List.take_of_length_le (by simp)]
    exact hqe
  rcases post.cases with ⟨l, hl, e, rfl⟩ | ⟨_, l, hl, hne, rfl⟩ | ⟨_, hpn, hdeep⟩
  · exact absurd e (hno l hl)
  · refine ⟨rfl, ⟨fun e => absurd e hne, fun d => ?_⟩, fun e => absurd e hne⟩
    have := (deepTo d).1 l hl
    exact absurd (by rw [← toBits_eq_bitsOf]; exact post.index) this
  · refine ⟨by rw [hpn]; rfl, ?_, fun _ => by rw [hpn]; rfl⟩
    have hq8 : q = (toBits i).take q.length := by rw [toBits_eq_bitsOf]; exact hqe
    have key := toBytes_take_eq i n q.length (by omega) hi hql
    rw [← hq8] at key
    rw [show pn.index = toBytes q by rw [hpn]; rfl]
    constructor
    · intro e
      obtain ⟨k1, k2⟩ := key.mp e
      refine ⟨q.length, k1, hql, ?_, ?_, k2⟩
      · obtain ⟨l1, m1, l2, m2, ne, p1, p2⟩ := hdeep (by omega)
        have pr : ∀ x : List Bool, q.take (q.length - 1) <+: x → x.take (q.length - 1) = (bitsOf i).take (q.length - 1) := by
          intro x hx
          obtain ⟨t, rfl⟩ := hx
          rw [List.take_append_of_le_length (by simp), List.take_of_length_le (by simp)]
          conv => lhs; rw [hqe]
          rw [List.take_take, Nat.min_eq_left]
          · congr 1
            simp; omega
          · simp; omega
        rw [toBits_eq_bitsOf] at p1 p2
        exact ⟨_, _, (isSet_leaf hp).mpr ⟨l1, m1, rfl⟩, (isSet_leaf hp).mpr ⟨l2, m2, rfl⟩, ne, pr _ p1, pr _ p2⟩
      · intro j hj e
        obtain ⟨l, hl, rfl⟩ := (isSet_leaf hp).mp hj
        refine b2 (by rw [hpn]; rfl) l hl ?_
        rw [← e, toBits_eq_bitsOf]; exact List.take_prefix _ _
    · intro d
      exact key.mpr (deepTo d).2

/-- C10, exact, for every history and every index, with no assumption on the indices: `Get` of an index that was never set
looks like inclusion exactly in the deep-empty case (`Spec.DeepEmpty`), and is a proof of absence in every other case. It
never carries a value. -/
theorem C10_get_absent_exact (C : Crypto) (n : Nat) (hn : 2 ≤ n) (rnd : Bytes) (ops : List TreeOp) (h : IndexLen n ops)
    (m : MerkleTree) (hm : treeAfter C rnd ops = some m) (i : Bytes) (hi : i.length = n) (hset : lastSet i ops = none) :
    ∃ ap pn, m.get i = some ap ∧ ap.lookupIndex = i ∧ ap.leaf = some pn ∧ pn.value = none ∧
      (ap.proofType = some .inclusion ↔ DeepEmpty n ops i) ∧ (ap.proofType = some .absence ↔ ¬ DeepEmpty n ops i) := by
  obtain ⟨inv, hnonce, hp⟩ := treeAfter_inv C n (by omega) rnd ops h m hm
  obtain ⟨ap, q, pn, hg, post⟩ := get_spec C (8 * n) m inv i (toBits_length' hi)
  obtain ⟨e1, e2, _⟩ := absent_exact C n hn rnd ops h m inv hp i hi hset ap q pn hg post
  refine ⟨ap, pn, hg, post.lookup, post.leaf, e1, ?_⟩
  simp only [AuthPath.proofType, post.leaf, post.lookup, Option.map_some, Option.some.injEq]
  rw [← e2]
  by_cases e : pn.index = i
  · simp [e]
  · simp [e, Ne.symm e]

/-- C12, exact, for every history and every index that was never set: outside the deep-empty case the proof verifies with any
key and value; in the deep-empty case the verifier panics when it looks for the empty value and reports differing bindings
otherwise. -/
theorem C12_absent_exact (C : Crypto) (n : Nat) (hn : 2 ≤ n) (hs : 8 * n < 2 ^ 32) (rnd : Bytes)
    (ops : List TreeOp) (h : IndexLen n ops) (m : MerkleTree)
    (hm : treeAfter C rnd (ops ++ [.recompute]) = some m) (i : Bytes) (hi : i.length = n)
    (hset : lastSet i ops = none) :
    ∃ ap, m.get i = some ap ∧
      (¬ DeepEmpty n ops i → ∀ key value, ap.verify C key value m.hash = some (.ok ())) ∧
      (DeepEmpty n ops i → ∀ key value, (value = [] → Panics (ap.verify C key value m.hash)) ∧
        (value ≠ [] → ap.verify C key value m.hash = some (.error .bindingsDiffer))) := by
  obtain ⟨inv, hnonce, hp, cach, hh⟩ := treeAfter_recompute C n (by omega) rnd ops h m hm
  obtain ⟨ap, q, pn, hg, post⟩ := get_spec C (8 * n) m inv i (toBits_length' hi)
  obtain ⟨e1, e2, e3⟩ := absent_exact C n hn rnd ops h m inv hp i hi hset ap q pn hg post
  refine ⟨ap, hg, ?_, ?_⟩
  · intro nd key value
    rw [hh]
    exact verify_abs C _ m i ap q pn post hs (toBits_length' hi) (fun e => nd (e2.mp e)) e1 cach key value
  · intro d key value
    have ei := e2.mpr d
    have ec := e3 ei
    constructor
    · intro hv
      subst hv
      simp [Panics, AuthPath.verify, post.leaf, post.lookup, ei, e1, ec]
    · intro hv
      simp [AuthPath.verify, post.leaf, post.lookup, ei, e1, Ne.symm hv]

/-- the sample is not deep-empty anywhere; the counterexample's history is, at the all-zero index -/
example : ¬ DeepEmpty 32 sampleOps (ix 0x99 0) := by
  rintro ⟨L, h1, h2, ⟨j, k, sj, sk, ne, ej, ek⟩, _⟩
  refine sampleOps_spread j k sj sk ne ?_
  have := congrArg (List.take 248) (ej.trans ek.symm)
  rwa [List.take_take, List.take_take, Nat.min_eq_left (by omega)] at this

example (r : Bytes) : DeepEmpty 32 [.set (some r) deepA [1] [2], .set (some r) deepB [2] [3]] (ix 0 0) := by
  refine ⟨249, by decide, by decide, ⟨deepA, deepB, ⟨r, [1], [2], by simp⟩, ⟨r, [2], [3], by simp⟩, by decide +kernel,
    by decide +kernel, by decide +kernel⟩, ?_, by decide +kernel⟩
  rintro j ⟨r', k, v, h⟩
  simp only [List.mem_cons, List.not_mem_nil, or_false, TreeOp.set.injEq] at h
  rcases h with ⟨_, rfl, _⟩ | ⟨_, rfl, _⟩ <;> decide +kernel

end Coniks.Props

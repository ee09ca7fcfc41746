import Verif.Proofs.TreeVerify
import Verif.Spec.Deep
/-
Exactly when `Get` of an absent index looks like inclusion.
-/
namespace Coniks
open Spec

/-- Below the prefix that `Get` walked there is at most one leaf, and none if it found an empty branch. -/
theorem get_bottom (C : Crypto) (L : Nat) (m : MerkleTree) (inv : TreeInv C L m) (i : Bytes)
    (hi : (toBits i).length = L) (ap : AuthPath) (pn : ProofNode) (hg : m.get i = some ap) (hpn : ap.leaf = some pn) :
    (∀ l1 ∈ m.root.leaves, ∀ l2 ∈ m.root.leaves, (toBits i).take ap.prunedTree.length <+: toBits l1.index →
      (toBits i).take ap.prunedTree.length <+: toBits l2.index → l1 = l2) ∧
    (pn.isEmpty = true → ∀ l ∈ m.root.leaves, ¬ (toBits i).take ap.prunedTree.length <+: toBits l.index) := by
  obtain ⟨ps, nd, q, hd, post⟩ := descend_spec C m.nonce L (toBits i) hi m.root [] inv.wf List.nil_prefix
  have hq : q.length = ps.length := by have := post.len; simpa using this
  have hqe : q = (toBits i).take ps.length := by
    obtain ⟨t, ht⟩ := post.pre
    rw [← ht, ← hq]; simp
  cases nd with
  | interior => exact absurd post.bottom (by simp [Node.isInterior])
  | leaf l =>
    have hap : ap.prunedTree = ps ∧ pn.isEmpty = false := by
      simp only [MerkleTree.get, List.length_nil ▸ hd, proofNodeOf] at hg
      split at hg <;> simp only [Option.map_some, Option.some.injEq] at hg <;> subst hg <;>
        simp only [Option.some.injEq] at hpn <;> subst hpn <;> exact ⟨rfl, rfl⟩
    rw [hap.1, ← hqe]
    refine ⟨fun l1 m1 l2 m2 p1 p2 => ?_, fun h => by rw [hap.2] at h; cases h⟩
    have a := post.uniq l1 m1 p1
    have b := post.uniq l2 m2 p2
    simp only [Node.leaves, List.mem_singleton] at a b
    rw [a, b]
  | empty lv idx =>
    have hap : ap.prunedTree = ps := by
      simp only [MerkleTree.get, List.length_nil ▸ hd, proofNodeOf] at hg
      simp only [Option.map_some, Option.some.injEq] at hg
      subst hg; rfl
    rw [hap, ← hqe]
    have no : ∀ l ∈ m.root.leaves, ¬ q <+: toBits l.index := by
      intro l hl hp
      have := post.uniq l hl hp
      simp [Node.leaves] at this
    exact ⟨fun l1 m1 _ _ p1 _ => absurd p1 (no l1 m1), fun _ => no⟩

theorem take_prefix_iff {a b : List Bool} {d : Nat} (hl : a.length = b.length) (hd : d ≤ a.length) :
    a.take d <+: b ↔ b.take d = a.take d := by
  constructor
  · intro h
    obtain ⟨t, rfl⟩ := h
    rw [List.take_append_of_le_length (by simp; omega), List.take_of_length_le (by simp; omega)]
  · intro h
    rw [← h]; exact List.take_prefix _ _

/-- The padded prefix of `L` bits of `i` is `i` itself exactly when `L` reaches into the last byte and the rest is zero. -/
theorem toBytes_take_eq (i : Bytes) (n L : Nat) (hn : 0 < n) (hi : i.length = n) (hL : L ≤ 8 * n) :
    toBytes ((toBits i).take L) = i ↔
      8 * (n - 1) < L ∧ (bitsOf i).drop L = List.replicate (8 * n - L) false := by
  have hlen : (bitsOf i).length = 8 * n := by rw [bitsOf_length, hi]
  rw [toBits_eq_bitsOf]
  constructor
  · intro h
    have h1 := congrArg List.length h
    rw [toBytes_length, List.length_take, hlen, hi] at h1
    refine ⟨by omega, ?_⟩
    have h2 := congrArg bitsOf h
    rw [bitsOf_toBytes, padTo8] at h2
    have h3 := congrArg (List.drop L) h2
    rw [List.drop_append_of_le_length (by simp; omega), List.drop_of_length_le (by simp; omega), List.nil_append] at h3
    rw [← h3]
    congr 1
    simp; omega
  · rintro ⟨h1, h2⟩
    apply bitsOf_inj
    rw [bitsOf_toBytes, padTo8]
    conv => rhs; rw [← List.take_append_drop L (bitsOf i), h2]
    congr 2
    simp; omega

end Coniks

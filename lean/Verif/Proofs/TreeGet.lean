import Verif.Proofs.TreeHash
import Verif.Model.Proof
/-
What `Get` returns, and that the path it returns hashes to the root.
-/
namespace Coniks
open Spec

theorem toArr32_hash {h : Bytes} (hl : h.length = 32) : (toArr32 (some h)).val = h := by
  simp only [toArr32, Option.getD_some]
  rw [List.take_append_of_le_length (by omega), List.take_of_length_le (by omega)]

theorem pureHash_length (C : Crypto) (nonce : Bytes) (n : Node) : (n.pureHash C nonce).length = 32 := by
  cases n <;> simp [Node.pureHash, emptyHash, leafHash, Crypto.digest, C.hash_length]

structure DescendPost (C : Crypto) (nonce : Bytes) (L : Nat) (bits p q : List Bool) (n m : Node) (ps : List Arr32) :
    Prop where
  pre : q <+: bits
  ext : p <+: q
  wf : m.WF L q
  bottom : m.isInterior = false
  len : q.length = p.length + ps.length
  uniq : ∀ l ∈ n.leaves, q <+: toBits l.index → l ∈ m.leaves
  sub : ∀ l ∈ m.leaves, l ∈ n.leaves
  deep : n.tight → (n.isInterior = true → 2 ≤ n.leaves.length) → p.length < q.length →
    ∃ l1 ∈ n.leaves, ∃ l2 ∈ n.leaves, l1.index ≠ l2.index ∧
      q.take (q.length - 1) <+: toBits l1.index ∧ q.take (q.length - 1) <+: toBits l2.index
  deepRoot : n.tight → p.length + 1 < q.length →
    ∃ l1 ∈ n.leaves, ∃ l2 ∈ n.leaves, l1.index ≠ l2.index ∧
      q.take (q.length - 1) <+: toBits l1.index ∧ q.take (q.length - 1) <+: toBits l2.index
  hash : n.cached → n.cacheOK C nonce → ∀ bits' pre, q <+: bits' → pre.length = p.length →
    authPathLoop C bits' (pre ++ ps) q.length (m.pureHash C nonce) =
      authPathLoop C bits' (pre ++ ps) p.length (n.pureHash C nonce)

theorem exists_two_of_nodup {α β} [DecidableEq β] (f : α → β) (l : List α) (h : (l.map f).Nodup) (h2 : 2 ≤ l.length) :
    ∃ a ∈ l, ∃ b ∈ l, f a ≠ f b := by
  match l, h2 with
  | a :: b :: t, _ =>
    refine ⟨a, by simp, b, by simp, ?_⟩
    simp only [List.map_cons, List.nodup_cons, List.mem_cons, not_or] at h
    exact h.1.1

theorem take_pred_snoc {p q : List Bool} {b : Bool} (h : p ++ [b] <+: q) (hl : q.length = p.length + 1) :
    q.take (q.length - 1) = p := by
  have := prefix_eq_of_length h (by simp; omega)
  subst this; simp

theorem descend_spec (C : Crypto) (nonce : Bytes) (L : Nat) (bits : List Bool) (hb : bits.length = L) (n : Node) :
    ∀ p, n.WF L p → p <+: bits →
      ∃ ps m q, descend bits p.length n = some (ps, m) ∧ DescendPost C nonce L bits p q n m ps := by
  induction n with
  | empty level index =>
    intro p hwf hp
    refine ⟨[], .empty level index, p, rfl, ?_⟩
    exact { pre := hp, ext := List.prefix_rfl, wf := hwf, bottom := rfl, len := by simp
            uniq := by simp [Node.leaves], sub := by simp, deep := fun _ _ h => absurd h (by omega)
            deepRoot := fun _ h => absurd h (by omega)
            hash := fun _ _ _ _ _ _ => rfl }
  | leaf l =>
    intro p hwf hp
    refine ⟨[], .leaf l, p, rfl, ?_⟩
    exact { pre := hp, ext := List.prefix_rfl, wf := hwf, bottom := rfl, len := by simp
            uniq := fun x hx _ => hx, sub := fun x hx => hx, deep := fun _ _ h => absurd h (by omega)
            deepRoot := fun _ h => absurd h (by omega)
            hash := fun _ _ _ _ _ _ => rfl }
  | interior level lh rh l r ihl ihr =>
    intro p hwf hp
    have hwf0 := hwf
    obtain ⟨h1, hlt, hl, hr⟩ := hwf
    have hget : ∃ b, bits[p.length]? = some b := ⟨_, List.getElem?_eq_getElem (by omega)⟩
    obtain ⟨b, hgb⟩ := hget
    have hpre' : p ++ [b] <+: bits := prefix_snoc hp hgb
    cases b with
    | true =>
      obtain ⟨ps, m, q, hd, post⟩ := ihr (p ++ [true]) hr hpre'
      refine ⟨toArr32 lh :: ps, m, q, ?_, ?_⟩
      · rw [descend, hgb]
        rw [show (p ++ [true]).length = p.length + 1 by simp] at hd
        simp only [hd, Option.map_some]
      · exact {
          pre := post.pre
          ext := prefix_of_snoc post.ext
          wf := post.wf
          bottom := post.bottom
          len := by have := post.len; simp at *; omega
          uniq := by
            intro x hx hq
            simp only [Node.leaves, List.mem_append] at hx
            rcases hx with hx | hx
            · have d1 := WF.leaf_dir hl x hx
              have d2 := prefix_snoc_get (post.ext.trans hq)
              rw [d1] at d2; simp at d2
            · exact post.uniq x hx hq
          sub := fun x hx => by simp only [Node.leaves, List.mem_append]; exact Or.inr (post.sub x hx)
          deep := by
            intro ht h2 hlt'
            by_cases e : q.length = p.length + 1
            · rw [take_pred_snoc post.ext e]
              obtain ⟨a, ha, c, hc, hac⟩ := exists_two_of_nodup Leaf.index _ (WF.nodup hwf0) (h2 rfl)
              exact ⟨a, ha, c, hc, hac, (WF.leaves_prefix hwf0 a ha).1, (WF.leaves_prefix hwf0 c hc).1⟩
            · obtain ⟨a, ha, c, hc, rest⟩ := post.deep ht.2.2.2 ht.2.2.1 (by simp; omega)
              exact ⟨a, by simp [Node.leaves, ha], c, by simp [Node.leaves, hc], rest⟩
          deepRoot := by
            intro ht hlt'
            obtain ⟨a, ha, c, hc, rest⟩ := post.deep ht.2.2.2 ht.2.2.1 (by simp; omega)
            exact ⟨a, by simp [Node.leaves, ha], c, by simp [Node.leaves, hc], rest⟩
          hash := by
            intro hc hok bits' pre hq hpl
            obtain ⟨c1, c2, c3, c4⟩ := hc
            obtain ⟨o1, o2, o3, o4⟩ := hok
            have hlh : lh = some (l.pureHash C nonce) := by
              cases lh with
              | none => simp at c1
              | some x => rw [(o1 x rfl).1]
            have hb' : bits'[p.length]? = some true := prefix_snoc_get (post.ext.trans hq)
            have := post.hash c4 o4 bits' (pre ++ [toArr32 lh]) hq (by simp [hpl])
            rw [List.append_assoc, List.singleton_append] at this
            rw [this]
            rw [show (p ++ [true]).length = p.length + 1 by simp, authPathLoop, hb']
            have hg : (pre ++ toArr32 lh :: ps)[p.length]? = some (toArr32 lh) := by
              rw [← hpl, List.getElem?_append_right (Nat.le_refl _)]; simp
            rw [hg]
            simp only
            rw [hlh, toArr32_hash (pureHash_length C nonce l)]
            rfl }
    | false =>
      obtain ⟨ps, m, q, hd, post⟩ := ihl (p ++ [false]) hl hpre'
      refine ⟨toArr32 rh :: ps, m, q, ?_, ?_⟩
      · rw [descend, hgb]
        rw [show (p ++ [false]).length = p.length + 1 by simp] at hd
        simp only [hd, Option.map_some]
      · exact {
          pre := post.pre
          ext := prefix_of_snoc post.ext
          wf := post.wf
          bottom := post.bottom
          len := by have := post.len; simp at *; omega
          uniq := by
            intro x hx hq
            simp only [Node.leaves, List.mem_append] at hx
            rcases hx with hx | hx
            · exact post.uniq x hx hq
            · have d1 := WF.leaf_dir hr x hx
              have d2 := prefix_snoc_get (post.ext.trans hq)
              rw [d1] at d2; simp at d2
          sub := fun x hx => by simp only [Node.leaves, List.mem_append]; exact Or.inl (post.sub x hx)
          deep := by
            intro ht h2 hlt'
            by_cases e : q.length = p.length + 1
            · rw [take_pred_snoc post.ext e]
              obtain ⟨a, ha, c, hc, hac⟩ := exists_two_of_nodup Leaf.index _ (WF.nodup hwf0) (h2 rfl)
              exact ⟨a, ha, c, hc, hac, (WF.leaves_prefix hwf0 a ha).1, (WF.leaves_prefix hwf0 c hc).1⟩
            · obtain ⟨a, ha, c, hc, rest⟩ := post.deep ht.2.1 ht.1 (by simp; omega)
              exact ⟨a, by simp [Node.leaves, ha], c, by simp [Node.leaves, hc], rest⟩
          deepRoot := by
            intro ht hlt'
            obtain ⟨a, ha, c, hc, rest⟩ := post.deep ht.2.1 ht.1 (by simp; omega)
            exact ⟨a, by simp [Node.leaves, ha], c, by simp [Node.leaves, hc], rest⟩
          hash := by
            intro hc hok bits' pre hq hpl
            obtain ⟨c1, c2, c3, c4⟩ := hc
            obtain ⟨o1, o2, o3, o4⟩ := hok
            have hrh : rh = some (r.pureHash C nonce) := by
              cases rh with
              | none => simp at c2
              | some x => rw [(o2 x rfl).1]
            have hb' : bits'[p.length]? = some false := prefix_snoc_get (post.ext.trans hq)
            have := post.hash c3 o3 bits' (pre ++ [toArr32 rh]) hq (by simp [hpl])
            rw [List.append_assoc, List.singleton_append] at this
            rw [this]
            rw [show (p ++ [false]).length = p.length + 1 by simp, authPathLoop, hb']
            have hg : (pre ++ toArr32 rh :: ps)[p.length]? = some (toArr32 rh) := by
              rw [← hpl, List.getElem?_append_right (Nat.le_refl _)]; simp
            rw [hg]
            simp only
            rw [hrh, toArr32_hash (pureHash_length C nonce r)]
            rfl }

end Coniks

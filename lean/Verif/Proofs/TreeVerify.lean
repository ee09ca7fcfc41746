import Verif.Proofs.TreeOps
/-
`Get` at the level of whole trees, and completeness of `Verify`.
-/
namespace Coniks
open Spec

theorem prefix_get {α} {q a : List α} (h : q <+: a) {i : Nat} (hi : i < q.length) : a[i]? = some q[i] := by
  obtain ⟨t, rfl⟩ := h
  rw [List.getElem?_append_left hi, List.getElem?_eq_getElem hi]

theorem prefixLoop_aux (a b q : List Bool) (ha : q <+: a) (hb : q <+: b) (n : Nat) :
    ∀ i, i + n = q.length → prefixLoop a b i n = some true := by
  induction n with
  | zero => intro i _; rfl
  | succ n ih =>
    intro i hi
    have h1 : a[i]? = some q[i] := prefix_get ha (by omega)
    have h2 : b[i]? = some q[i] := prefix_get hb (by omega)
    rw [prefixLoop, h1, h2]
    simp only [if_true]
    exact ih (i + 1) (by omega)

theorem prefixLoop_prefix {a b q : List Bool} (ha : q <+: a) (hb : q <+: b) :
    prefixLoop a b 0 q.length = some true := prefixLoop_aux a b q ha hb _ 0 (by omega)

theorem prefix_padTo8 (q : List Bool) : q <+: toBits (toBytes q) := by
  rw [toBits_toBytes, padTo8]; exact List.prefix_append _ _

theorem ofNat_toNat32 {n : Nat} (h : n < 2 ^ 32) : (UInt32.ofNat n).toNat = n := by
  rw [UInt32.toNat_ofNat']; exact Nat.mod_eq_of_lt h

/-- Proof node for an included leaf. -/
def inclNode (l : Leaf) : ProofNode :=
  { level := UInt32.ofNat l.level, index := l.index, value := some l.value, isEmpty := false,
    commitment := some { salt := l.commit.salt, value := l.commit.value } }

/-- Proof node for another leaf. -/
def otherNode (l : Leaf) : ProofNode :=
  { level := UInt32.ofNat l.level, index := l.index, value := none, isEmpty := false,
    commitment := some { salt := [], value := l.commit.value } }

/-- Proof node for an empty branch with prefix `q`. -/
def emptyPN (q : List Bool) : ProofNode :=
  { level := UInt32.ofNat q.length, index := toBytes q, value := none, isEmpty := true, commitment := none }

structure GetPost (C : Crypto) (L : Nat) (m : MerkleTree) (i : Bytes) (ap : AuthPath) (q : List Bool)
    (pn : ProofNode) : Prop where
  nonce : ap.treeNonce = m.nonce
  lookup : ap.lookupIndex = i
  vrf : ap.vrfProof = []
  leaf : ap.leaf = some pn
  pre : q <+: toBits i
  plen : ap.prunedTree.length = q.length
  level : q.length < 2 ^ 32 → pn.level.toNat = q.length
  index : q <+: toBits pn.index
  cases :
    (∃ l ∈ m.root.leaves, l.index = i ∧ pn = inclNode l) ∨
    ((∀ l ∈ m.root.leaves, l.index ≠ i) ∧ ∃ l ∈ m.root.leaves, l.index ≠ i ∧ pn = otherNode l) ∨
    ((∀ l ∈ m.root.leaves, l.index ≠ i) ∧ pn = emptyPN q ∧
      (2 ≤ q.length → ∃ l1 ∈ m.root.leaves, ∃ l2 ∈ m.root.leaves, l1.index ≠ l2.index ∧
        q.take (q.length - 1) <+: toBits l1.index ∧ q.take (q.length - 1) <+: toBits l2.index))
  deep : 2 ≤ q.length → ∃ l1 ∈ m.root.leaves, ∃ l2 ∈ m.root.leaves, l1.index ≠ l2.index ∧
        q.take (q.length - 1) <+: toBits l1.index ∧ q.take (q.length - 1) <+: toBits l2.index
  hash : q.length < 2 ^ 32 → m.root.cached → ap.authPathHash C = some (m.root.pureHash C m.nonce)

theorem get_spec (C : Crypto) (L : Nat) (m : MerkleTree) (inv : TreeInv C L m) (i : Bytes)
    (hi : (toBits i).length = L) :
    ∃ ap q pn, m.get i = some ap ∧ GetPost C L m i ap q pn := by
  obtain ⟨ps, nd, q, hd, post⟩ := descend_spec C m.nonce L (toBits i) hi m.root [] inv.wf List.nil_prefix
  have hq : q.length = ps.length := by have := post.len; simpa using this
  have hashEq : ∀ bits', q <+: bits' → m.root.cached →
      authPathLoop C bits' ps q.length (nd.pureHash C m.nonce) = some (m.root.pureHash C m.nonce) := by
    intro bits' hb hc
    have := post.hash hc inv.cacheOK bits' [] hb rfl
    simpa [authPathLoop] using this
  cases nd with
  | interior => exact absurd post.bottom (by simp [Node.isInterior])
  | leaf l =>
    obtain ⟨w1, w2, w3⟩ := post.wf
    have hmem : l ∈ m.root.leaves := post.sub l (by simp [Node.leaves])
    by_cases e : l.index = i
    · refine ⟨_, q, inclNode l, by simp only [MerkleTree.get, List.length_nil ▸ hd, proofNodeOf, if_pos e]; rfl, ?_⟩
      exact {
        nonce := rfl, lookup := rfl, vrf := rfl, leaf := rfl, pre := post.pre, plen := hq.symm
        level := fun h => by rw [inclNode, w1]; exact ofNat_toNat32 h
        index := w3
        cases := Or.inl ⟨l, hmem, e, rfl⟩
        deep := fun h2 => post.deepRoot inv.tight (by simp; omega)
        hash := fun h hc => by
          have := hashEq (toBits l.index) w3 hc
          simp only [AuthPath.authPathHash, ProofNode.hash, Bool.false_eq_true, if_false]
          rw [w1, ofNat_toNat32 h]
          rw [Node.pureHash, w1] at this
          exact this }
    · refine ⟨_, q, otherNode l, by simp only [MerkleTree.get, List.length_nil ▸ hd, proofNodeOf, if_neg e]; rfl, ?_⟩
      exact {
        nonce := rfl, lookup := rfl, vrf := rfl, leaf := rfl, pre := post.pre, plen := hq.symm
        level := fun h => by rw [otherNode, w1]; exact ofNat_toNat32 h
        index := w3
        cases := Or.inr (Or.inl ⟨fun l' hl' e' => by
          have := post.uniq l' hl' (by rw [e']; exact post.pre)
          simp only [Node.leaves, List.mem_singleton] at this
          exact e (this ▸ e'), l, hmem, e, rfl⟩)
        deep := fun h2 => post.deepRoot inv.tight (by simp; omega)
        hash := fun h hc => by
          have := hashEq (toBits l.index) w3 hc
          simp only [AuthPath.authPathHash, ProofNode.hash, Bool.false_eq_true, if_false]
          rw [w1, ofNat_toNat32 h]
          rw [Node.pureHash, w1] at this
          exact this }
  | empty lv idx =>
    obtain ⟨rfl, rfl⟩ := post.wf
    refine ⟨_, q, emptyPN q, by simp only [MerkleTree.get, List.length_nil ▸ hd, proofNodeOf]; rfl, ?_⟩
    exact {
      nonce := rfl, lookup := rfl, vrf := rfl, leaf := rfl, pre := post.pre, plen := hq.symm
      level := fun h => ofNat_toNat32 h
      index := prefix_padTo8 q
      cases := Or.inr (Or.inr ⟨fun l' hl' e' => by
        have := post.uniq l' hl' (by rw [e']; exact post.pre)
        simp [Node.leaves] at this, rfl, fun h2 => post.deepRoot inv.tight (by simp; omega)⟩)
      deep := fun h2 => post.deepRoot inv.tight (by simp; omega)
      hash := fun h hc => by
        have := hashEq (toBits (toBytes q)) (prefix_padTo8 q) hc
        simp only [AuthPath.authPathHash, ProofNode.hash, if_true]
        rw [ofNat_toNat32 h]
        exact this }

/-- an index of `n` bytes has fewer than 2^32 bits -/
def SmallIndex (n : Nat) : Prop := 8 * n < 2 ^ 32

theorem GetPost.q_le {C : Crypto} {L : Nat} {m i ap q pn} (h : GetPost C L m i ap q pn) (hi : (toBits i).length = L) :
    q.length ≤ L := by
  have := h.pre.length_le
  omega

/-- If the reached node is an empty branch whose padded prefix equals the lookup index, then two different
present indices agree on all but (at most) the last 8 bits. -/
theorem deep_empty {C : Crypto} {n : Nat} {m i ap q pn} (h : GetPost C (8 * n) m i ap q pn) (hn : 2 ≤ n)
    (hi : i.length = n) (hno : ∀ l ∈ m.root.leaves, l.index ≠ i) (hpn : pn = emptyPN q) (e : toBytes q = i) :
    ∃ l1 ∈ m.root.leaves, ∃ l2 ∈ m.root.leaves, l1.index ≠ l2.index ∧
      (toBits l1.index).take (8 * (n - 1)) = (toBits l2.index).take (8 * (n - 1)) := by
  have hl := congrArg List.length e
  rw [toBytes_length, hi] at hl
  rcases h.cases with ⟨l, hl', h1, h2⟩ | ⟨_, l, _, _, h2⟩ | ⟨_, _, h3⟩
  · exact absurd h1 (hno l hl')
  · rw [hpn] at h2; simp [emptyPN, otherNode] at h2
  · obtain ⟨l1, m1, l2, m2, ne, p1, p2⟩ := h3 (by omega)
    refine ⟨l1, m1, l2, m2, ne, ?_⟩
    have key : ∀ x : List Bool, q.take (q.length - 1) <+: x → x.take (8 * (n - 1)) = q.take (8 * (n - 1)) := by
      intro x hx
      obtain ⟨t, rfl⟩ := hx
      rw [List.take_append_of_le_length (by simp; omega), List.take_take]
      congr 1; omega
    rw [key _ p1, key _ p2]

/-- completeness of verification, inclusion -/
theorem verify_incl (C : Crypto) (L : Nat) (m : MerkleTree) (i : Bytes) (ap : AuthPath) (q : List Bool) (l : Leaf)
    (post : GetPost C L m i ap q (inclNode l)) (hL : L < 2 ^ 32) (hi : (toBits i).length = L) (hli : l.index = i)
    (hc : m.root.cached) (hcommit : l.commit.value = C.hash (l.commit.salt ++ l.key ++ l.value)) :
    ap.verify C l.key l.value (m.root.pureHash C m.nonce) = some (.ok ()) := by
  have hq := post.q_le hi
  have hh := post.hash (by omega) hc
  unfold AuthPath.verify
  rw [post.leaf]
  simp only [inclNode, post.lookup, hli, if_true, Option.getD_some]
  have : C.commitVerify { salt := l.commit.salt, value := l.commit.value } [l.key, l.value] = true := by
    simp [Crypto.commitVerify, Crypto.digest, hcommit]
  rw [if_pos this, hh]
  simp

/-- completeness of verification, absence -/
theorem verify_abs (C : Crypto) (L : Nat) (m : MerkleTree) (i : Bytes) (ap : AuthPath) (q : List Bool) (pn : ProofNode)
    (post : GetPost C L m i ap q pn) (hL : L < 2 ^ 32) (hi : (toBits i).length = L) (hne : pn.index ≠ i)
    (hv : pn.value = none) (hc : m.root.cached) (key value : Bytes) :
    ap.verify C key value (m.root.pureHash C m.nonce) = some (.ok ()) := by
  have hq := post.q_le hi
  have hh := post.hash (by omega) hc
  unfold AuthPath.verify
  rw [post.leaf]
  simp only [post.lookup]
  rw [if_neg (fun h => hne h.symm), post.level (by omega), prefixLoop_prefix post.index post.pre, hh]
  simp [hv]

end Coniks

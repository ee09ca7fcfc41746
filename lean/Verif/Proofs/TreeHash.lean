import Verif.Proofs.TreeInv
/-
Hash caching, cloning, and equality with the canonical hash of the set of bindings.
-/
namespace Coniks
open Spec

theorem hashNode_leaves (C : Crypto) (nonce : Bytes) (n : Node) : (n.hashNode C nonce).2.leaves = n.leaves := by
  induction n with
  | empty => rfl
  | leaf => rfl
  | interior lv lh rh l r ihl ihr =>
    cases lh <;> cases rh <;> simp [Node.hashNode, Node.leaves, ihl, ihr]

theorem hashNode_isInterior (C : Crypto) (nonce : Bytes) (n : Node) :
    (n.hashNode C nonce).2.isInterior = n.isInterior := by
  cases n <;> rfl

theorem hashNode_WF (C : Crypto) (nonce : Bytes) (L : Nat) (n : Node) (p : List Bool) (h : n.WF L p) :
    (n.hashNode C nonce).2.WF L p := by
  induction n generalizing p with
  | empty => exact h
  | leaf => exact h
  | interior lv lh rh l r ihl ihr =>
    obtain ⟨h1, h2, h3, h4⟩ := h
    cases lh <;> cases rh <;>
      simp only [Node.hashNode, Node.WF] <;>
      refine ⟨h1, h2, ?_, ?_⟩ <;> first | exact h3 | exact h4 | exact ihl _ h3 | exact ihr _ h4

theorem hashNode_tight (C : Crypto) (nonce : Bytes) (n : Node) (h : n.tight) : (n.hashNode C nonce).2.tight := by
  induction n with
  | empty => exact h
  | leaf => exact h
  | interior lv lh rh l r ihl ihr =>
    obtain ⟨h1, h2, h3, h4⟩ := h
    cases lh <;> cases rh <;>
      simp only [Node.hashNode, Node.tight, hashNode_leaves, hashNode_isInterior] <;>
      refine ⟨h1, ?_, h3, ?_⟩ <;> first | exact h2 | exact h4 | exact ihl h2 | exact ihr h4

theorem hashNode_pure (C : Crypto) (nonce : Bytes) (n : Node) :
    (n.hashNode C nonce).2.pureHash C nonce = n.pureHash C nonce := by
  induction n with
  | empty => rfl
  | leaf => rfl
  | interior lv lh rh l r ihl ihr =>
    cases lh <;> cases rh <;> simp [Node.hashNode, Node.pureHash, ihl, ihr]

theorem hashNode_spec (C : Crypto) (nonce : Bytes) (n : Node) (h : n.cacheOK C nonce) :
    (n.hashNode C nonce).1 = n.pureHash C nonce ∧ (n.hashNode C nonce).2.cached ∧
    (n.hashNode C nonce).2.cacheOK C nonce := by
  induction n with
  | empty => exact ⟨rfl, trivial, trivial⟩
  | leaf => exact ⟨rfl, trivial, trivial⟩
  | interior lv lh rh l r ihl ihr =>
    obtain ⟨h1, h2, h3, h4⟩ := h
    obtain ⟨a1, a2, a3⟩ := ihl h3
    obtain ⟨b1, b2, b3⟩ := ihr h4
    have pl := hashNode_pure C nonce l
    have pr := hashNode_pure C nonce r
    cases lh with
    | none =>
      cases rh with
      | none =>
        refine ⟨by simp [Node.hashNode, Node.pureHash, a1, b1], ?_, ?_⟩
        · exact ⟨rfl, rfl, a2, b2⟩
        · refine ⟨fun h e => ?_, fun h e => ?_, a3, b3⟩
          · cases e; exact ⟨by rw [a1]; exact pl.symm, a2⟩
          · cases e; exact ⟨by simp only [b1]; exact pr.symm, b2⟩
      | some y =>
        obtain ⟨hy, hyc⟩ := h2 y rfl
        refine ⟨by simp [Node.hashNode, Node.pureHash, a1, hy], ?_, ?_⟩
        · exact ⟨rfl, rfl, a2, hyc⟩
        · refine ⟨fun h e => ?_, fun h e => ?_, a3, h4⟩
          · cases e; exact ⟨by rw [a1]; exact pl.symm, a2⟩
          · cases e; exact ⟨hy, hyc⟩
    | some x =>
      obtain ⟨hx, hxc⟩ := h1 x rfl
      cases rh with
      | none =>
        refine ⟨by simp [Node.hashNode, Node.pureHash, b1, hx], ?_, ?_⟩
        · exact ⟨rfl, rfl, hxc, b2⟩
        · refine ⟨fun h e => ?_, fun h e => ?_, h3, b3⟩
          · cases e; exact ⟨hx, hxc⟩
          · cases e; exact ⟨by simp only [b1]; exact pr.symm, b2⟩
      | some y =>
        obtain ⟨hy, hyc⟩ := h2 y rfl
        refine ⟨by simp [Node.hashNode, Node.pureHash, hx, hy], ?_, ?_⟩
        · exact ⟨rfl, rfl, hxc, hyc⟩
        · refine ⟨fun h e => ?_, fun h e => ?_, h3, h4⟩
          · cases e; exact ⟨hx, hxc⟩
          · cases e; exact ⟨hy, hyc⟩

theorem clone_eq (n : Node) (h : n.cached) : n.clone = n := by
  induction n with
  | empty => rfl
  | leaf => rfl
  | interior lv lh rh l r ihl ihr =>
    obtain ⟨h1, h2, h3, h4⟩ := h
    cases lh with
    | none => simp at h1
    | some x =>
      cases rh with
      | none => simp at h2
      | some y => simp [Node.clone, ihl h3, ihr h4]

/-! ### spec lemmas -/

theorem uint32_le32 (n : Nat) : uint32ToBytes (UInt32.ofNat n) = le32 n := by
  unfold uint32ToBytes putUint32LE le32
  simp only [List.map_cons, List.map_nil]
  have key : ∀ a b : UInt8, a.toNat = b.toNat → a = b := fun a b h => UInt8.toNat_inj.mp h
  congr 1
  · apply key; simp [digit256]
  congr 1
  · apply key; simp [digit256, Nat.shiftRight_eq_div_pow]; omega
  congr 1
  · apply key; simp [digit256, Nat.shiftRight_eq_div_pow]; omega
  congr 1
  · apply key; simp [digit256, Nat.shiftRight_eq_div_pow]; omega

theorem byteBits_byteOf8 (a b c d e f g h : Bool) : byteBits (byteOf [a,b,c,d,e,f,g,h]) = [a,b,c,d,e,f,g,h] := by
  revert a b c d e f g h; decide +kernel

theorem byteOf_pad (xs : List Bool) (k : Nat) : byteOf (xs ++ List.replicate k false) = byteOf xs := by
  unfold byteOf
  congr 2
  apply List.map_congr_left
  intro i _
  congr 1
  rw [List.getD_eq_getElem?_getD, List.getD_eq_getElem?_getD]
  by_cases hi : i < xs.length
  · rw [List.getElem?_append_left hi]
  · rw [List.getElem?_append_right (by omega), List.getElem?_eq_none (l := xs) (by omega)]
    rw [List.getElem?_replicate]; split <;> simp

theorem byteBits_byteOf (xs : List Bool) (h : xs.length ≤ 8) :
    byteBits (byteOf xs) = xs ++ List.replicate (8 - xs.length) false := by
  rw [← byteOf_pad xs (8 - xs.length)]
  generalize hy : xs ++ List.replicate (8 - xs.length) false = ys
  have hl : ys.length = 8 := by rw [← hy]; simp; omega
  match ys, hl with
  | [a,b,c,d,e,f,g,i], _ => exact byteBits_byteOf8 a b c d e f g i

theorem bitsOf_pack (p : List Bool) : bitsOf (pack p) = padTo8 p := by
  induction p using pack.induct with
  | case1 => simp [pack, bitsOf, padTo8]
  | case2 b bs ih =>
    rw [pack]
    have e : ∀ x xs, bitsOf (x :: xs) = byteBits x ++ bitsOf xs := by intros; simp [bitsOf]
    rw [e, ih, byteBits_byteOf _ (by simp; omega)]
    have hpos : (b :: bs).length ≠ 0 := by simp
    generalize b :: bs = l at hpos ⊢
    by_cases hl : 8 ≤ l.length
    · have h1 : (l.take 8).length = 8 := by simp; omega
      rw [h1]
      simp only [padTo8]
      have : (l.drop 8).length % 8 = l.length % 8 := by simp; omega
      rw [this]
      simp only [Nat.sub_self, List.replicate_zero, List.append_nil]
      rw [← List.append_assoc, List.take_append_drop]
    · have h1 : l.take 8 = l := List.take_of_length_le (by omega)
      have h2 : l.drop 8 = [] := List.drop_of_length_le (by omega)
      rw [h1, h2]
      simp only [padTo8, List.length_nil, Nat.zero_mod, Nat.sub_zero, Nat.mod_self, List.replicate_zero,
        List.append_nil, List.append_cancel_left_eq]
      congr 1; omega

theorem toBytes_eq_pack (p : List Bool) : toBytes p = pack p := by
  apply bitsOf_inj; rw [bitsOf_toBytes, bitsOf_pack]

theorem emptyHash_eq (C : Crypto) (nonce : Bytes) (p : List Bool) :
    emptyHash C nonce (toBytes p) (UInt32.ofNat p.length) =
      C.hash ([0x45] ++ nonce ++ pack p ++ le32 p.length) := by
  simp [emptyHash, Crypto.digest, emptyTag, uint32_le32, toBytes_eq_pack]

theorem leafHash_eq (C : Crypto) (nonce i c : Bytes) (n : Nat) :
    leafHash C nonce i (UInt32.ofNat n) c = C.hash ([0x4C] ++ nonce ++ i ++ le32 n ++ c) := by
  simp [leafHash, Crypto.digest, leafTag, uint32_le32]

theorem dirBit_of_get {i : Bytes} {d : Nat} {b : Bool} (h : (toBits i)[d]? = some b) : dirBit i d = b := by
  rw [dirBit, ← toBits_eq_bitsOf, List.getD_eq_getElem?_getD, h]; rfl

theorem subtreeHash_two (hash : Bytes → Bytes) (nonce : Bytes) (n : Nat) (p : List Bool) (bs : List Binding)
    (h : 2 ≤ bs.length) :
    subtreeHash hash nonce (n + 1) p bs =
      hash (subtreeHash hash nonce n (p ++ [false]) (bs.filter fun b => !dirBit b.index p.length) ++
            subtreeHash hash nonce n (p ++ [true]) (bs.filter fun b => dirBit b.index p.length)) := by
  match bs, h with
  | a :: b :: t, _ => rw [subtreeHash] <;> simp

theorem filter_split {L : Nat} {p : List Bool} {l r : Node}
    (hl : l.WF L (p ++ [false])) (hr : r.WF L (p ++ [true])) :
    (l.bindings ++ r.bindings).filter (fun b => !dirBit b.index p.length) = l.bindings ∧
    (l.bindings ++ r.bindings).filter (fun b => dirBit b.index p.length) = r.bindings := by
  have dl : ∀ x ∈ l.bindings, dirBit x.index p.length = false :=
    fun x hx => dirBit_of_get (WF.binding_dir hl x hx)
  have dr : ∀ x ∈ r.bindings, dirBit x.index p.length = true :=
    fun x hx => dirBit_of_get (WF.binding_dir hr x hx)
  rw [List.filter_append, List.filter_append]
  constructor
  · rw [List.filter_eq_self.mpr (fun x hx => by simp [dl x hx]),
        List.filter_eq_nil_iff.mpr (fun x hx => by simp [dr x hx]), List.append_nil]
  · rw [List.filter_eq_nil_iff.mpr (fun x hx => by simp [dl x hx]),
        List.filter_eq_self.mpr (fun x hx => by simp [dr x hx]), List.nil_append]

theorem pureHash_eq_subtree (C : Crypto) (nonce : Bytes) (L : Nat) (n : Node) :
    ∀ (p : List Bool) (fuel : Nat), n.WF L p → n.tight → (n.isInterior = true → 2 ≤ n.leaves.length) →
      L ≤ p.length + fuel →
      n.pureHash C nonce = subtreeHash C.hash nonce fuel p n.bindings := by
  induction n with
  | empty level index =>
    intro p fuel hwf _ _ _
    obtain ⟨rfl, rfl⟩ := hwf
    rw [Node.pureHash, emptyHash_eq]
    simp [Node.bindings, Node.leaves, subtreeHash]
  | leaf l =>
    intro p fuel hwf _ _ _
    rw [Node.pureHash, leafHash_eq, hwf.1]
    simp [Node.bindings, Node.leaves, subtreeHash, Leaf.binding]
  | interior level lh rh l r ihl ihr =>
    intro p fuel hwf ht h2 hf
    obtain ⟨h1, hlt, hl, hr⟩ := hwf
    obtain ⟨t1, t2, t3, t4⟩ := ht
    have h2' := h2 rfl
    cases fuel with
    | zero => omega
    | succ fuel =>
      rw [bindings_interior, subtreeHash_two _ _ _ _ _ (by
        rw [List.length_append, bindings_length, bindings_length]
        simpa [Node.leaves] using h2')]
      rw [(filter_split hl hr).1, (filter_split hl hr).2]
      rw [← ihl (p ++ [false]) fuel hl t2 t1 (by simp; omega),
          ← ihr (p ++ [true]) fuel hr t4 t3 (by simp; omega)]
      simp [Node.pureHash, Crypto.digest]

theorem pureHash_root (C : Crypto) (nonce : Bytes) (L : Nat) (lv : Nat) (lh rh : Option Bytes) (l r : Node)
    (hwf : (Node.interior lv lh rh l r).WF L []) (ht : (Node.interior lv lh rh l r).tight) :
    (Node.interior lv lh rh l r).pureHash C nonce =
      treeHash C.hash nonce L (Node.interior lv lh rh l r).bindings := by
  obtain ⟨h1, hlt, hl, hr⟩ := hwf
  obtain ⟨t1, t2, t3, t4⟩ := ht
  have f := filter_split (p := []) hl hr
  simp only [List.length_nil] at f
  rw [bindings_interior, treeHash, f.1, f.2]
  rw [← pureHash_eq_subtree C nonce L l [false] L hl t2 t1 (by simp),
      ← pureHash_eq_subtree C nonce L r [true] L hr t4 t3 (by simp)]
  simp [Node.pureHash, Crypto.digest]

theorem subtreeHash_perm (hash : Bytes → Bytes) (nonce : Bytes) (n : Nat) :
    ∀ (p : List Bool) (a b : List Binding), a.Perm b →
      subtreeHash hash nonce n p a = subtreeHash hash nonce n p b := by
  induction n with
  | zero =>
    intro p a b h
    match a, b, h with
    | [], b, h => rw [List.nil_perm.mp h]
    | [x], b, h => rw [List.singleton_perm.mp h]
    | x :: y :: t, [], h => exact absurd h.length_eq (by simp)
    | x :: y :: t, [z], h => exact absurd h.length_eq (by simp)
    | x :: y :: t, z :: w :: u, h => simp [subtreeHash]
  | succ n ih =>
    intro p a b h
    match a, b, h with
    | [], b, h => rw [List.nil_perm.mp h]
    | [x], b, h => rw [List.singleton_perm.mp h]
    | x :: y :: t, b, h =>
      rw [subtreeHash_two _ _ _ _ _ (by simp), subtreeHash_two _ _ _ _ b (by rw [← h.length_eq]; simp)]
      rw [ih _ _ _ (h.filter _), ih _ _ _ (h.filter _)]

theorem treeHash_perm (hash : Bytes → Bytes) (nonce : Bytes) (L : Nat) (a b : List Binding) (h : a.Perm b) :
    treeHash hash nonce L a = treeHash hash nonce L b := by
  unfold treeHash
  rw [subtreeHash_perm _ _ _ _ _ _ (h.filter _), subtreeHash_perm _ _ _ _ _ _ (h.filter _)]

end Coniks

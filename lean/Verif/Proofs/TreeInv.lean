import Verif.Model.Tree
import Verif.Spec.Tree
import Verif.Proofs.Utils
/-
Invariants of the tree and their preservation by insertion, hashing and cloning.
-/
namespace Coniks
open Spec

def Leaf.binding (l : Leaf) : Binding :=
  { index := l.index, key := l.key, value := l.value, salt := l.commit.salt, commit := l.commit.value }

def Node.bindings (n : Node) : List Binding := n.leaves.map Leaf.binding

/-- Node `n` sits at path `p` in a tree over `L`-bit indices. -/
def Node.WF (L : Nat) : List Bool → Node → Prop
  | p, .empty level index => level = p.length ∧ index = toBytes p
  | p, .leaf l => l.level = p.length ∧ (toBits l.index).length = L ∧ p <+: toBits l.index
  | p, .interior level _ _ l r =>
    level = p.length ∧ p.length < L ∧ Node.WF L (p ++ [false]) l ∧ Node.WF L (p ++ [true]) r

def Node.isInterior : Node → Bool
  | .interior .. => true
  | _ => false

/-- Interior nodes below `n` hold at least two leaves. -/
def Node.tight : Node → Prop
  | .interior _ _ _ l r =>
    (l.isInterior = true → 2 ≤ l.leaves.length) ∧ l.tight ∧ (r.isInterior = true → 2 ≤ r.leaves.length) ∧ r.tight
  | _ => True

/-- Hash of a node computed from scratch. -/
def Node.pureHash (C : Crypto) (nonce : Bytes) : Node → Bytes
  | .empty level index => emptyHash C nonce index (UInt32.ofNat level)
  | .leaf l => leafHash C nonce l.index (UInt32.ofNat l.level) l.commit.value
  | .interior _ _ _ l r => C.digest [l.pureHash C nonce, r.pureHash C nonce]

/-- All caches are filled. -/
def Node.cached : Node → Prop
  | .interior _ lh rh l r => lh.isSome ∧ rh.isSome ∧ l.cached ∧ r.cached
  | _ => True

/-- Every filled cache is right, and everything below a filled cache is filled. -/
def Node.cacheOK (C : Crypto) (nonce : Bytes) : Node → Prop
  | .interior _ lh rh l r =>
    (∀ h, lh = some h → h = l.pureHash C nonce ∧ l.cached) ∧
    (∀ h, rh = some h → h = r.pureHash C nonce ∧ r.cached) ∧
    l.cacheOK C nonce ∧ r.cacheOK C nonce
  | _ => True

/-! ### prefixes -/

theorem prefix_snoc {α} {p l : List α} {b : α} (h : p <+: l) (hb : l[p.length]? = some b) : p ++ [b] <+: l := by
  obtain ⟨t, rfl⟩ := h
  rw [List.getElem?_append_right (Nat.le_refl _)] at hb
  simp at hb
  cases t with
  | nil => simp at hb
  | cons x t => simp at hb; subst hb; exact ⟨t, by simp⟩

theorem prefix_snoc_get {α} {p l : List α} {b : α} (h : p ++ [b] <+: l) : l[p.length]? = some b := by
  obtain ⟨t, rfl⟩ := h
  rw [List.append_assoc, List.getElem?_append_right (Nat.le_refl _)]; simp

theorem prefix_of_snoc {α} {p l : List α} {b : α} (h : p ++ [b] <+: l) : p <+: l :=
  (List.prefix_append p [b]).trans h

theorem prefix_eq_of_length {α} {p l : List α} (h : p <+: l) (hl : l.length ≤ p.length) : p = l :=
  h.eq_of_length_le hl

/-! ### leaves -/

theorem WF.leaves_prefix {L : Nat} {p : List Bool} {n : Node} (h : n.WF L p) :
    ∀ l ∈ n.leaves, p <+: toBits l.index ∧ (toBits l.index).length = L := by
  induction n generalizing p with
  | empty => simp [Node.leaves]
  | leaf l => simp only [Node.leaves, List.mem_singleton, forall_eq]; exact ⟨h.2.2, h.2.1⟩
  | interior level lh rh l r ihl ihr =>
    obtain ⟨_, _, hl, hr⟩ := h
    intro x hx
    simp only [Node.leaves, List.mem_append] at hx
    rcases hx with hx | hx
    · exact ⟨prefix_of_snoc (ihl hl x hx).1, (ihl hl x hx).2⟩
    · exact ⟨prefix_of_snoc (ihr hr x hx).1, (ihr hr x hx).2⟩

theorem WF.leaf_dir {L : Nat} {p : List Bool} {b : Bool} {n : Node} (h : n.WF L (p ++ [b])) :
    ∀ l ∈ n.leaves, (toBits l.index)[p.length]? = some b := fun l hl =>
  prefix_snoc_get (WF.leaves_prefix h l hl).1

theorem WF.nodup {L : Nat} {p : List Bool} {n : Node} (h : n.WF L p) :
    (n.leaves.map Leaf.index).Nodup := by
  induction n generalizing p with
  | empty => simp [Node.leaves]
  | leaf l => simp [Node.leaves]
  | interior level lh rh l r ihl ihr =>
    obtain ⟨_, _, hl, hr⟩ := h
    simp only [Node.leaves, List.map_append, List.nodup_append]
    refine ⟨ihl hl, ihr hr, ?_⟩
    intro a ha b hb hab
    simp only [List.mem_map] at ha hb
    obtain ⟨x, hx, rfl⟩ := ha
    obtain ⟨y, hy, rfl⟩ := hb
    have h1 := WF.leaf_dir hl x hx
    have h2 := WF.leaf_dir hr y hy
    rw [hab, h2] at h1
    simp at h1

theorem bindings_nodup {L : Nat} {p : List Bool} {n : Node} (h : n.WF L p) :
    (n.bindings.map Binding.index).Nodup := by
  have := WF.nodup h
  simpa [Node.bindings, Leaf.binding, Function.comp_def] using this

/-! ### insertion -/

theorem put_of_forall_ne (b : Binding) (bs : List Binding) (h : ∀ x ∈ bs, x.index ≠ b.index) :
    put b bs = b :: bs := by
  unfold put
  rw [List.filter_eq_self.mpr]
  intro x hx
  simpa using h x hx

theorem filter_ne_self (i : Bytes) (bs : List Binding) (h : ∀ x ∈ bs, x.index ≠ i) :
    bs.filter (fun x => x.index != i) = bs := by
  rw [List.filter_eq_self]
  intro x hx
  simpa using h x hx

/-- What insertion establishes about the replacement `n'` of `n` at path `p`. -/
structure InsertPost (C : Crypto) (nonce : Bytes) (L : Nat) (p : List Bool) (toAdd : Leaf) (n n' : Node) : Prop where
  wf : n'.WF L p
  perm : n'.bindings.Perm (put toAdd.binding n.bindings)
  mono : n.leaves.length ≤ n'.leaves.length
  tight : n.tight → n'.tight
  cacheOK : n.cacheOK C nonce → n'.cacheOK C nonce
  notEmpty : n'.isEmpty = false
  two : n'.isInterior = true → (n.isInterior = true → 2 ≤ n.leaves.length) → 2 ≤ n'.leaves.length
  interior : n.isInterior = true → n'.isInterior = true

theorem pushDown_interior (d pb dir cur) : (pushDown d pb dir cur).isInterior = true := by
  unfold pushDown; split <;> rfl

theorem pushDown_bindings (d pb dir cur) : (pushDown d pb dir cur).bindings = [cur.binding] := by
  unfold pushDown; split <;> simp [Node.bindings, Node.leaves, Leaf.binding]

theorem pushDown_tight (d pb dir cur) : (pushDown d pb dir cur).tight := by
  unfold pushDown; split <;> simp [Node.tight, Node.isInterior]

theorem pushDown_cacheOK (C nonce d pb dir cur) : (pushDown d pb dir cur).cacheOK C nonce := by
  unfold pushDown; split <;> simp [Node.cacheOK]

theorem bindings_interior (lv lh rh l r) :
    (Node.interior lv lh rh l r).bindings = l.bindings ++ r.bindings := by
  simp [Node.bindings, Node.leaves]

theorem bindings_length (n : Node) : n.bindings.length = n.leaves.length := by simp [Node.bindings]

theorem isEmpty_bindings {n : Node} (h : n.isEmpty = true) : n.bindings = [] := by
  cases n <;> simp_all [Node.isEmpty, Node.bindings, Node.leaves]

theorem WF.binding_dir {L : Nat} {p : List Bool} {b : Bool} {n : Node} (h : n.WF L (p ++ [b])) :
    ∀ x ∈ n.bindings, (toBits x.index)[p.length]? = some b := by
  intro x hx
  simp only [Node.bindings, List.mem_map] at hx
  obtain ⟨l, hl, rfl⟩ := hx
  exact WF.leaf_dir h l hl

theorem put_append_right (b : Binding) (xs ys ys' : List Binding) (hx : ∀ x ∈ xs, x.index ≠ b.index)
    (h : ys'.Perm (put b ys)) : (xs ++ ys').Perm (put b (xs ++ ys)) := by
  unfold put at *
  rw [List.filter_append, filter_ne_self _ _ hx]
  exact (h.append_left xs).trans List.perm_middle

theorem put_append_left (b : Binding) (xs xs' ys : List Binding) (hy : ∀ x ∈ ys, x.index ≠ b.index)
    (h : xs'.Perm (put b xs)) : (xs' ++ ys).Perm (put b (xs ++ ys)) := by
  unfold put at *
  rw [List.filter_append, filter_ne_self _ ys hy]
  exact h.append_right ys

theorem insertAt_spec (C : Crypto) (nonce : Bytes) (L : Nat) (toAdd : Leaf)
    (hL : (toBits toAdd.index).length = L) (depth : Nat) (n : Node) :
    ∀ p, p.length = depth → p <+: toBits toAdd.index → n.WF L p → n.isEmpty = false →
      ∃ n', insertAt (toBits toAdd.index) toAdd depth n = some n' ∧ InsertPost C nonce L p toAdd n n' := by
  generalize hbits : toBits toAdd.index = bits at *
  induction depth, n using insertAt.induct (bits := bits) (toAdd := toAdd) with
  | case1 depth level index => intro p _ _ _ he; simp [Node.isEmpty] at he
  | case2 depth cur heq =>
    intro p hp hpre hwf _
    refine ⟨.leaf { toAdd with level := cur.level }, by rw [insertAt, if_pos heq], ?_⟩
    obtain ⟨h1, h2, h3⟩ := hwf
    exact {
      wf := ⟨h1, by simpa [hbits] using hL, by simpa [hbits] using hpre⟩
      perm := by
        simp [Node.bindings, Node.leaves, put, Leaf.binding, heq]
      mono := by simp [Node.leaves]
      tight := by simp [Node.tight]
      cacheOK := by simp [Node.cacheOK]
      notEmpty := rfl
      two := by simp [Node.isInterior]
      interior := by simp [Node.isInterior] }
  | case3 depth cur hne hle hnone =>
    intro p hp hpre hwf _
    obtain ⟨h1, h2, h3⟩ := hwf
    exfalso
    rw [getNthBit_eq, List.getElem?_eq_none_iff] at hnone
    apply hne
    apply toBits_inj
    rw [hbits]
    rw [← prefix_eq_of_length h3 (by omega), ← prefix_eq_of_length hpre (by omega)]
  | case4 depth cur hne hle dir hdir ih =>
    intro p hp hpre hwf _
    obtain ⟨h1, h2, h3⟩ := hwf
    have htake : bits.take depth = p := by
      obtain ⟨t, ht⟩ := hpre
      rw [← ht, ← hp]; simp
    rw [getNthBit_eq] at hdir
    have hlt : p.length < L := by
      have := (List.getElem?_eq_some_iff.mp hdir).1; omega
    have hwf' : (pushDown depth (bits.take depth) dir cur).WF L p := by
      have hpre' : p ++ [dir] <+: toBits cur.index := prefix_snoc h3 (by rw [hp]; exact hdir)
      rw [htake]
      unfold pushDown
      cases dir with
      | true => exact ⟨hp.symm, hlt, ⟨by simp [hp], rfl⟩, ⟨by simp [hp], h2, hpre'⟩⟩
      | false => exact ⟨hp.symm, hlt, ⟨by simp [hp], h2, hpre'⟩, ⟨by simp [hp], rfl⟩⟩
    obtain ⟨n', hn', post⟩ := ih p hp hpre hwf' (by unfold pushDown; split <;> rfl)
    refine ⟨n', by rw [insertAt, if_neg hne, if_pos hle, getNthBit_eq, hdir]; exact hn', ?_⟩
    have hb := pushDown_bindings depth (bits.take depth) dir cur
    have hbl : (Node.leaf cur).bindings = [cur.binding] := by simp [Node.bindings, Node.leaves]
    have hlen : n'.leaves.length = 2 := by
      have := post.perm.length_eq
      rw [hb, bindings_length] at this
      rw [this, put_of_forall_ne]
      · rfl
      · intro x hx
        simp only [List.mem_singleton] at hx
        subst hx
        simpa [Leaf.binding] using hne
    exact {
      wf := post.wf
      perm := by rw [hbl, ← hb]; exact post.perm
      mono := by rw [hlen]; simp [Node.leaves]
      tight := fun _ => post.tight (pushDown_tight _ _ _ _)
      cacheOK := fun _ => post.cacheOK (pushDown_cacheOK _ _ _ _ _ _)
      notEmpty := post.notEmpty
      two := fun _ _ => by omega
      interior := by simp [Node.isInterior] }
  | case5 depth cur hne hle =>
    intro p hp hpre hwf _
    have := hpre.length_le
    omega
  | case6 depth level lh rh l r hnone =>
    intro p hp hpre hwf _
    have hlt := hwf.2.1
    rw [List.getElem?_eq_none_iff] at hnone
    omega
  | case7 depth level lh rh l r hsome hemp =>
    intro p hp hpre hwf _
    obtain ⟨h1, h2, h3, h4⟩ := hwf
    refine ⟨.interior level lh none l (.leaf { toAdd with level := depth + 1 }), ?_, ?_⟩
    · rw [insertAt]; split
      · next h => rw [hsome] at h; simp at h
      · rw [if_pos hemp]
      · next h => rw [hsome] at h; simp at h
    have hpre' : p ++ [true] <+: bits := prefix_snoc hpre (by rw [hp]; exact hsome)
    have hperm : ((Node.leaf { toAdd with level := depth + 1 }).bindings).Perm (put toAdd.binding r.bindings) := by
      rw [isEmpty_bindings hemp]; simp [Node.bindings, Node.leaves, put, Leaf.binding]
    have hln : ∀ x ∈ l.bindings, x.index ≠ toAdd.binding.index := by
      intro x hx e
      have hd := WF.binding_dir h3 x hx
      rw [e] at hd
      simp only [Leaf.binding, hbits] at hd
      rw [hp, hsome] at hd; simp at hd
    exact {
      wf := ⟨h1, h2, h3, by simp [hp], by simpa [hbits] using hL, by simpa [hbits] using hpre'⟩
      perm := by
        rw [bindings_interior, bindings_interior]
        exact put_append_right _ _ _ _ hln hperm
      mono := by
        have : r.leaves.length = 0 := by rw [← bindings_length, isEmpty_bindings hemp]; rfl
        simp [Node.leaves]; omega
      tight := fun h => ⟨h.1, h.2.1, by simp [Node.isInterior], by simp [Node.tight]⟩
      cacheOK := fun h => ⟨h.1, by simp, h.2.2.1, by simp [Node.cacheOK]⟩
      notEmpty := rfl
      two := fun _ h => by
        have := h rfl
        have h0 : r.leaves.length = 0 := by rw [← bindings_length, isEmpty_bindings hemp]; rfl
        simp only [Node.leaves, List.length_append] at *; omega
      interior := fun _ => rfl }
  | case8 depth level lh rh l r hsome hemp ih =>
    intro p hp hpre hwf _
    obtain ⟨h1, h2, h3, h4⟩ := hwf
    have hpre' : p ++ [true] <+: bits := prefix_snoc hpre (by rw [hp]; exact hsome)
    obtain ⟨r', hr', post⟩ := ih (p ++ [true]) (by simp [hp]) hpre' h4 (by simpa using hemp)
    refine ⟨.interior level lh none l r', ?_, ?_⟩
    · rw [insertAt]; split
      · next h => rw [hsome] at h; simp at h
      · rw [if_neg hemp, hr']; rfl
      · next h => rw [hsome] at h; simp at h
    have hln : ∀ x ∈ l.bindings, x.index ≠ toAdd.binding.index := by
      intro x hx e
      have hd := WF.binding_dir h3 x hx
      rw [e] at hd
      simp only [Leaf.binding, hbits] at hd
      rw [hp, hsome] at hd; simp at hd
    exact {
      wf := ⟨h1, h2, h3, post.wf⟩
      perm := by
        rw [bindings_interior, bindings_interior]
        exact put_append_right _ _ _ _ hln post.perm
      mono := by have := post.mono; simp [Node.leaves]; omega
      tight := fun h => ⟨h.1, h.2.1, fun hi => post.two hi h.2.2.1, post.tight h.2.2.2⟩
      cacheOK := fun h => ⟨h.1, by simp, h.2.2.1, post.cacheOK h.2.2.2⟩
      notEmpty := rfl
      two := fun _ h => by
        have := h rfl
        have := post.mono
        simp only [Node.leaves, List.length_append] at *; omega
      interior := fun _ => rfl }
  | case9 depth level lh rh l r hsome hemp =>
    intro p hp hpre hwf _
    obtain ⟨h1, h2, h3, h4⟩ := hwf
    refine ⟨.interior level none rh (.leaf { toAdd with level := depth + 1 }) r, ?_, ?_⟩
    · rw [insertAt]; split
      · next h => rw [hsome] at h; simp at h
      · next h => rw [hsome] at h; simp at h
      · rw [if_pos hemp]
    have hpre' : p ++ [false] <+: bits := prefix_snoc hpre (by rw [hp]; exact hsome)
    have hperm : ((Node.leaf { toAdd with level := depth + 1 }).bindings).Perm (put toAdd.binding l.bindings) := by
      rw [isEmpty_bindings hemp]; simp [Node.bindings, Node.leaves, put, Leaf.binding]
    have hrn : ∀ x ∈ r.bindings, x.index ≠ toAdd.binding.index := by
      intro x hx e
      have hd := WF.binding_dir h4 x hx
      rw [e] at hd
      simp only [Leaf.binding, hbits] at hd
      rw [hp, hsome] at hd; simp at hd
    exact {
      wf := ⟨h1, h2, ⟨by simp [hp], by simpa [hbits] using hL, by simpa [hbits] using hpre'⟩, h4⟩
      perm := by
        rw [bindings_interior, bindings_interior]
        exact put_append_left _ _ _ _ hrn hperm
      mono := by
        have : l.leaves.length = 0 := by rw [← bindings_length, isEmpty_bindings hemp]; rfl
        simp [Node.leaves]; omega
      tight := fun h => ⟨by simp [Node.isInterior], by simp [Node.tight], h.2.2⟩
      cacheOK := fun h => ⟨by simp, h.2.1, by simp [Node.cacheOK], h.2.2.2⟩
      notEmpty := rfl
      two := fun _ h => by
        have := h rfl
        have h0 : l.leaves.length = 0 := by rw [← bindings_length, isEmpty_bindings hemp]; rfl
        simp only [Node.leaves, List.length_append] at *; omega
      interior := fun _ => rfl }
  | case10 depth level lh rh l r hsome hemp ih =>
    intro p hp hpre hwf _
    obtain ⟨h1, h2, h3, h4⟩ := hwf
    have hpre' : p ++ [false] <+: bits := prefix_snoc hpre (by rw [hp]; exact hsome)
    obtain ⟨l', hl', post⟩ := ih (p ++ [false]) (by simp [hp]) hpre' h3 (by simpa using hemp)
    refine ⟨.interior level none rh l' r, ?_, ?_⟩
    · rw [insertAt]; split
      · next h => rw [hsome] at h; simp at h
      · next h => rw [hsome] at h; simp at h
      · rw [if_neg hemp, hl']; rfl
    have hrn : ∀ x ∈ r.bindings, x.index ≠ toAdd.binding.index := by
      intro x hx e
      have hd := WF.binding_dir h4 x hx
      rw [e] at hd
      simp only [Leaf.binding, hbits] at hd
      rw [hp, hsome] at hd; simp at hd
    exact {
      wf := ⟨h1, h2, post.wf, h4⟩
      perm := by
        rw [bindings_interior, bindings_interior]
        exact put_append_left _ _ _ _ hrn post.perm
      mono := by have := post.mono; simp [Node.leaves]; omega
      tight := fun h => ⟨fun hi => post.two hi h.1, post.tight h.2.1, h.2.2⟩
      cacheOK := fun h => ⟨by simp, h.2.1, post.cacheOK h.2.2.1, h.2.2.2⟩
      notEmpty := rfl
      two := fun _ h => by
        have := h rfl
        have := post.mono
        simp only [Node.leaves, List.length_append] at *; omega
      interior := fun _ => rfl }

end Coniks

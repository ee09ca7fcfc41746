import Verif.Spec.PathExact
import Verif.Proofs.PathExact
import Verif.Props.Proof
/-
C13, C14, exact: which paths are accepted under a tree hash, given one path that is.
-/
namespace Coniks.Props
open Coniks Spec

theorem climb_bits (C : Crypto) (bits : List Bool) (p : List Arr32) : ∀ (k d : Nat) (h x : Bytes), climb C bits p d k h = some x →
    ∀ j, d ≤ j → j < d + k → j < bits.length ∧ j < p.length := by
  intro k
  induction k with
  | zero => intro d h x _ j a b; omega
  | succ k ih =>
    intro d h x hc j a b
    rw [climb] at hc
    obtain ⟨v, hv, hx⟩ := Option.bind_eq_some_iff.mp hc
    by_cases e : j = d
    · subst e
      obtain ⟨y, hy, _⟩ := Option.map_eq_some_iff.mp hx
      unfold arr at hy
      rcases hb : bits[j]? with _ | c
      · simp [hb] at hy
      rcases hp : p[j]? with _ | q
      · rcases c <;> simp [hb, hp] at hy
      exact ⟨(List.getElem?_eq_some_iff.mp hb).1, (List.getElem?_eq_some_iff.mp hp).1⟩
    · exact ih (d + 1) h v hv j (by omega) (by omega)

theorem climb_total (C : Crypto) (bits : List Bool) (p : List Arr32) (h : Bytes) : ∀ (k d : Nat), d + k ≤ bits.length → d + k ≤ p.length →
    ∃ x, climb C bits p d k h = some x := by
  intro k
  induction k with
  | zero => intro d _ _; exact ⟨h, rfl⟩
  | succ k ih =>
    intro d a b
    obtain ⟨v, hv⟩ := ih (d + 1) (by omega) (by omega)
    rw [climb, hv, Option.bind_some, arr, List.getElem?_eq_getElem (show d < bits.length by omega),
      List.getElem?_eq_getElem (show d < p.length by omega)]
    cases bits[d] <;> exact ⟨_, rfl⟩

/-- the longer climb, from the shorter one -/
theorem climb_to_node (C : Crypto) (bits₁ bits₂ : List Bool) (p₁ p₂ : List Arr32) (m₁ m₂ : Bytes) (k₁ k₂ : Nat) (x : Bytes)
    (hle : k₂ ≤ k₁) (hb : ∀ j, j < k₂ → bits₁[j]? = bits₂[j]?) (hp : ∀ j, j < k₂ → p₁[j]? = p₂[j]?)
    (l1 : k₁ ≤ bits₁.length) (l2 : k₁ ≤ p₁.length)
    (hn : (m₁ :: stepInputs C.hash bits₁ (p₁.map Subtype.val) k₁ (C.hash m₁))[k₁ - k₂]? = some m₂)
    (c : climb C bits₂ p₂ 0 k₂ (C.hash m₂) = some x) : climb C bits₁ p₁ 0 k₁ (C.hash m₁) = some x := by
  have hs := climb_split C bits₁ p₁ (k₁ - k₂) (C.hash m₁) k₂ 0
  rw [show k₂ + (k₁ - k₂) = k₁ by omega, Nat.zero_add] at hs
  obtain ⟨v, hv⟩ := climb_total C bits₁ p₁ (C.hash m₁) (k₁ - k₂) k₂ (by omega) (by omega)
  obtain ⟨y, hy, e⟩ := climb_node C bits₁ p₁ m₁ (k₁ - k₂) k₂ v hv
  rw [show k₂ + (k₁ - k₂) = k₁ by omega, hn, Option.some.injEq] at hy
  rw [hs, hv, Option.bind_some, e, ← hy,
    climb_congr (bits₂ := bits₂) (p₂ := p₂) _ k₂ 0 (fun j _ b => hb j (by omega)) (fun j _ b => hp j (by omega))]
  exact c

theorem hashInputs_eq {C : Crypto} {ap : AuthPath} {l : ProofNode} (hl : ap.leaf = some l) : hashInputs C.hash ap =
    leafInput ap.treeNonce l :: stepInputs C.hash (toBits l.index) (ap.prunedTree.map Subtype.val) l.level.toNat
      (C.hash (leafInput ap.treeNonce l)) := by
  simp [hashInputs, hl, toBits_eq_bitsOf]

/-- acceptance: own checks, and the climb ends in the tree hash -/
theorem verify_iff (C : Crypto) (ap : AuthPath) (k v th : Bytes) : ap.verify C k v th = some (.ok ()) ↔
    ∃ l, ap.leaf = some l ∧ OwnChecks C.hash ap l k v ∧
      climb C (toBits l.index) ap.prunedTree 0 l.level.toNat (C.hash (leafInput ap.treeNonce l)) = some th := by
  constructor
  · intro h
    obtain ⟨l, hl, hh, hc⟩ := verify_ok h
    obtain ⟨c, hk⟩ := authPathHash_climb hl hh
    refine ⟨l, hl, ⟨fun he => ?_, ?_⟩, hk⟩
    · obtain ⟨c', hc'⟩ := c he
      rw [hc']; simp
    · rcases hc with ⟨a, b, c⟩ | ⟨a, b, c⟩
      · exact Or.inl ⟨a.symm, b, c⟩
      · refine Or.inr ⟨Ne.symm a, b, fun j hj => ?_⟩
        have hb := (climb_bits C _ _ _ _ _ _ hk j (by omega) (by omega)).1
        rw [← toBits_eq_bitsOf, ← toBits_eq_bitsOf, ← c j hj]
        exact ⟨_, List.getElem?_eq_getElem hb, List.getElem?_eq_getElem hb⟩
  · rintro ⟨l, hl, ⟨ho, hc⟩, hk⟩
    refine verify_of_ok hl (authPathHash_of_climb hl (fun he => Option.ne_none_iff_exists'.mp (ho he)) hk) ?_
    rcases hc with ⟨a, b, c⟩ | ⟨a, b, c⟩
    · exact Or.inl ⟨a.symm, b, c⟩
    · refine Or.inr ⟨Ne.symm a, b, fun j hj => ?_⟩
      obtain ⟨x, hx, hy⟩ := c j hj
      rw [toBits_eq_bitsOf, toBits_eq_bitsOf, hx, hy]
      exact ⟨rfl, (List.getElem?_eq_some_iff.mp hy).1⟩

theorem own_bits {hash : Bytes → Bytes} {ap : AuthPath} {l : ProofNode} {k v : Bytes} (h : OwnChecks hash ap l k v) :
    ∀ j, j < l.level.toNat → (toBits l.index)[j]? = (toBits ap.lookupIndex)[j]? := by
  intro j hj
  rcases h.2 with ⟨e, _⟩ | ⟨_, _, h⟩
  · rw [e]
  · obtain ⟨x, hx, hy⟩ := h j hj
    rw [toBits_eq_bitsOf, toBits_eq_bitsOf, hx, hy]

/-- C14, exact: let one path for an index be accepted under a tree hash. Another path for that index is accepted under that hash
(for any key and value) if and only if it passes its own checks and one of the two is the upper part of the other - whatever the
lengths, flags and salts in the two paths are, unless the listed hash inputs collide. The contradictions of the counterexamples
are exactly the pairs of different claims this allows: a leaf read with another salt length or flag, or an interior node read as
a leaf. -/
theorem C14_accepts_iff (C : Crypto) (ap₁ ap₂ : AuthPath) (k₁ v₁ k₂ v₂ th : Bytes) (hi : ap₁.lookupIndex = ap₂.lookupIndex)
    (l₂ : ProofNode) (hl₂ : ap₂.leaf = some l₂) (a₂ : ap₂.verify C k₂ v₂ th = some (.ok ()))
    (nc : NoCollision C.hash (hashInputs C.hash ap₁ ++ hashInputs C.hash ap₂)) :
    ap₁.verify C k₁ v₁ th = some (.ok ()) ↔
      ∃ l₁, ap₁.leaf = some l₁ ∧ OwnChecks C.hash ap₁ l₁ k₁ v₁ ∧
        (UpperPart C.hash ap₁ l₁ ap₂ l₂ ∨ (UpperPart C.hash ap₂ l₂ ap₁ l₁ ∧ LongEnough ap₁ l₁)) := by
  obtain ⟨l₂', hl₂', o₂, c₂⟩ := (verify_iff C ap₂ k₂ v₂ th).mp a₂
  rw [hl₂, Option.some.injEq] at hl₂'
  subst hl₂'
  have hb : ∀ l₁, OwnChecks C.hash ap₁ l₁ k₁ v₁ → ∀ j, j < l₁.level.toNat → j < l₂.level.toNat →
      (toBits l₁.index)[j]? = (toBits l₂.index)[j]? := by
    intro l₁ o₁ j h1 h2
    rw [own_bits o₁ j h1, own_bits o₂ j h2, hi]
  rw [verify_iff]
  constructor
  · rintro ⟨l₁, hl₁, o₁, c₁⟩
    refine ⟨l₁, hl₁, o₁, ?_⟩
    have i1 := hashInputs_eq (C := C) hl₁
    have i2 := hashInputs_eq (C := C) hl₂
    obtain ⟨s, n1, n2⟩ := climb_same C _ _ _ _ _ _ _ nc (by rw [i1]; simp) (by rw [i2]; simp)
      l₁.level.toNat l₂.level.toNat 0 th (fun j _ a b => hb l₁ o₁ j (by omega) (by omega))
      (fun y hy => by rw [i1]; simp only [List.mem_append, List.mem_cons]; left; right; simpa using hy)
      (fun y hy => by rw [i2]; simp only [List.mem_append, List.mem_cons]; right; right; simpa using hy) c₁ c₂
    rw [Nat.zero_add, ← i2] at n1
    rw [Nat.zero_add, ← i1] at n2
    by_cases hle : l₁.level.toNat ≤ l₂.level.toNat
    · exact Or.inl ⟨hle, n1 hle, fun j hj => s j (by omega) (by omega) (by omega)⟩
    · refine Or.inr ⟨⟨by omega, n2 (by omega), fun j hj => (s j (by omega) (by omega) (by omega)).symm⟩, ?_⟩
      have := climb_bits C _ _ _ _ _ _ c₁ (l₁.level.toNat - 1) (by omega) (by omega)
      rw [toBits_length] at this
      exact ⟨by omega, by omega⟩
  · rintro ⟨l₁, hl₁, o₁, h⟩
    refine ⟨l₁, hl₁, o₁, ?_⟩
    rcases h with ⟨hle, n, s⟩ | ⟨⟨hle, n, s⟩, le1, le2⟩
    · rw [hashInputs_eq (C := C) hl₂] at n
      exact climb_from_node C _ _ _ _ _ _ _ _ th hle (fun j hj => hb l₁ o₁ j hj (by omega)) s n c₂
    · rw [hashInputs_eq (C := C) hl₁] at n
      exact climb_to_node C _ _ _ _ _ _ _ _ th hle (fun j hj => hb l₁ o₁ j (by omega) hj) (fun j hj => (s j hj).symm)
        (by rw [toBits_length]; exact le2) le1 n c₂

/-- C13, exact: under the hash of an honest tree, a path supplied by anyone is accepted for an index, key and value if and only if
it passes its own checks and is the upper part of the honest path of that index (all of it, or cut at an interior node whose 64
bytes then have to be what the verifier hashes for a leaf), unless the listed hash inputs collide. -/
theorem C13_accepts_iff (C : Crypto) (rnd : Bytes) (ops : List TreeOp) (h : IndexLen 32 ops) (hsp : Spread 208 ops)
    (m : MerkleTree) (hm : treeAfter C rnd (ops ++ [.recompute]) = some m)
    (ap : AuthPath) (k v : Bytes) (hil : ap.lookupIndex.length = 32) (ap' : AuthPath) (hg : m.get ap.lookupIndex = some ap')
    (nc : NoCollision C.hash (hashInputs C.hash ap ++ hashInputs C.hash ap')) :
    ap.verify C k v m.hash = some (.ok ()) ↔
      ∃ l l', ap.leaf = some l ∧ ap'.leaf = some l' ∧ OwnChecks C.hash ap l k v ∧ UpperPart C.hash ap l ap' l' := by
  obtain ⟨inv, hnonce, hp, cach, hh⟩ := treeAfter_recompute C 32 (by decide) rnd ops h m hm
  obtain ⟨ap'', q, pn, hg', post⟩ := get_spec C (8 * 32) m inv ap.lookupIndex (toBits_length' hil)
  rw [hg, Option.some.injEq] at hg'
  subst hg'
  have hq : q.length ≤ 208 := by
    by_cases hlt : q.length ≤ 208
    · exact hlt
    · exfalso
      obtain ⟨l1, m1, l2, m2, ne, p1, p2⟩ := post.deep (by omega)
      obtain ⟨r1, s1, _⟩ := leaf_mem_iff hp m1
      obtain ⟨r2, s2, _⟩ := leaf_mem_iff hp m2
      refine hsp _ _ ⟨_, _, _, lastSet_mem s1⟩ ⟨_, _, _, lastSet_mem s2⟩ ne ?_
      rw [← toBits_eq_bitsOf, ← toBits_eq_bitsOf]
      have key : ∀ x : List Bool, q.take (q.length - 1) <+: x → x.take 208 = q.take 208 := by
        intro x hx
        obtain ⟨t, rfl⟩ := hx
        rw [List.take_append_of_le_length (by simp; omega), List.take_take]
        congr 1; omega
      rw [key _ p1, key _ p2]
  have hlev := post.level (by omega)
  have hash' := post.hash (by omega) cach
  rw [← hh] at hash'
  obtain ⟨hcm, c'⟩ := authPathHash_climb post.leaf hash'
  have hlen : (leafInput ap'.treeNonce pn).length ≠ 64 := by
    have hn : ap'.treeNonce.length = 32 := by rw [post.nonce, hnonce]; exact C.hash_length _
    have lf : ∀ x ∈ m.root.leaves, x.index.length = 32 ∧ x.commit.value.length = 32 := by
      intro x hx
      obtain ⟨r, s1, _, s3⟩ := leaf_mem_iff hp hx
      exact ⟨h _ (lastSet_mem s1) _ _ _ _ rfl, by rw [s3]; exact C.hash_length _⟩
    rcases post.cases with ⟨x, hx, _, e⟩ | ⟨_, x, hx, _, e⟩ | ⟨_, e, _⟩
    · rw [e]
      simp [leafInput, inclNode, hn, lf x hx, uint32ToBytes_len]
    · rw [e]
      simp [leafInput, otherNode, hn, lf x hx, uint32ToBytes_len]
    · rw [e]
      have e2 : (toBytes q).length = (q.length + 7) / 8 := toBytes_length q
      simp only [leafInput, emptyPN, if_true, List.length_append, List.length_singleton, hn, uint32ToBytes_len, e2]
      omega
  have hb : ∀ l, OwnChecks C.hash ap l k v → ∀ j, j < l.level.toNat → j < pn.level.toNat →
      (toBits l.index)[j]? = (toBits pn.index)[j]? := by
    intro l o j h1 h2
    rw [hlev] at h2
    rw [own_bits o j h1, prefix_get post.pre h2, prefix_get post.index h2]
  rw [verify_iff]
  constructor
  · rintro ⟨l, hl, o, c⟩
    refine ⟨l, pn, hl, post.leaf, o, ?_⟩
    have i1 := hashInputs_eq (C := C) hl
    have i2 := hashInputs_eq (C := C) post.leaf
    have m1 : leafInput ap.treeNonce l ∈ hashInputs C.hash ap ++ hashInputs C.hash ap' := by rw [i1]; simp
    have m2 : leafInput ap'.treeNonce pn ∈ hashInputs C.hash ap ++ hashInputs C.hash ap' := by rw [i2]; simp
    have s1 : ∀ y ∈ stepInputs C.hash (toBits l.index) (ap.prunedTree.map Subtype.val) (0 + l.level.toNat)
        (C.hash (leafInput ap.treeNonce l)), y ∈ hashInputs C.hash ap ++ hashInputs C.hash ap' := by
      intro y hy; rw [i1]; simp only [List.mem_append, List.mem_cons]; left; right; simpa using hy
    have s2 : ∀ y ∈ stepInputs C.hash (toBits pn.index) (ap'.prunedTree.map Subtype.val) (0 + pn.level.toNat)
        (C.hash (leafInput ap'.treeNonce pn)), y ∈ hashInputs C.hash ap ++ hashInputs C.hash ap' := by
      intro y hy; rw [i2]; simp only [List.mem_append, List.mem_cons]; right; right; simpa using hy
    have hle : l.level.toNat ≤ pn.level.toNat := by
      have meet := climb_meet C _ _ _ _ _ _ _ nc m1 m2 l.level.toNat pn.level.toNat 0 m.hash
        (fun j _ a b => hb l o j (by omega) (by omega)) s1 s2 c c'
      cases meet with
      | same h _ => omega
      | firstShort h _ => omega
      | secondShort _ e => exact absurd e hlen
    obtain ⟨s, n1, _⟩ := climb_same C _ _ _ _ _ _ _ nc m1 m2 l.level.toNat pn.level.toNat 0 m.hash
      (fun j _ a b => hb l o j (by omega) (by omega)) s1 s2 c c'
    rw [Nat.zero_add, ← i2] at n1
    exact ⟨hle, n1 hle, fun j hj => s j (by omega) (by omega) (by omega)⟩
  · rintro ⟨l, l', hl, hl', o, hle, n, s⟩
    rw [post.leaf, Option.some.injEq] at hl'
    subst hl'
    refine ⟨l, hl, o, ?_⟩
    rw [hashInputs_eq (C := C) post.leaf] at n
    exact climb_from_node C _ _ _ _ _ _ _ _ m.hash hle (fun j hj => hb l o j hj (by omega)) s n c'

/-- the hypotheses of C13_accepts_iff on the sample tree: the honest path of a present index, accepted with the right value and
refused with another one -/
example : ∃ m ap', treeAfter Crypto.toy [7] (sampleOps ++ [.recompute]) = some m ∧ m.get (ix 0x17 0) = some ap' ∧
    ap'.lookupIndex = ix 0x17 0 ∧ ap'.lookupIndex.length = 32 ∧
    NoCollision Crypto.toy.hash (hashInputs Crypto.toy.hash ap' ++ hashInputs Crypto.toy.hash ap') ∧
    ap'.verify Crypto.toy [0x62] [3] m.hash = some (.ok ()) ∧ ap'.verify Crypto.toy [0x62] [4] m.hash ≠ some (.ok ()) := by
  have key : ((treeAfter Crypto.toy [7] (sampleOps ++ [.recompute])).any fun m =>
      ((m.get (ix 0x17 0)).any fun ap' =>
        decide (ap'.lookupIndex = ix 0x17 0 ∧ ap'.lookupIndex.length = 32 ∧
          NoCollision Crypto.toy.hash (hashInputs Crypto.toy.hash ap' ++ hashInputs Crypto.toy.hash ap') ∧
          ap'.verify Crypto.toy [0x62] [3] m.hash = some (.ok ()) ∧
          ap'.verify Crypto.toy [0x62] [4] m.hash ≠ some (.ok ())))) = true := by
    rw [treeAfterE_eq]
    decide +kernel
  obtain ⟨m, h1, h2⟩ := (Option.any_eq_true _ _).mp key
  obtain ⟨ap₁, h3, h4⟩ := (Option.any_eq_true _ _).mp h2
  rw [decide_eq_true_eq] at h4
  exact ⟨m, ap₁, h1, h3, h4⟩

/-- the hypotheses of C14_accepts_iff hold in the first counterexample to C14, for every hash function: the two contradictory
paths are parts of each other -/
example (C : Crypto) (nonce i key v₁ v₂ salt : Bytes) :
    (emptyInclusion C nonce i key v₁ salt).lookupIndex = (emptyInclusion C nonce i key v₂ salt).lookupIndex ∧
    (emptyInclusion C nonce i key v₂ salt).verify C key v₂ (emptyHash C nonce i 0) = some (.ok ()) ∧
    NoCollision C.hash (hashInputs C.hash (emptyInclusion C nonce i key v₁ salt) ++
      hashInputs C.hash (emptyInclusion C nonce i key v₂ salt)) ∧
    ∃ l₁ l₂, (emptyInclusion C nonce i key v₁ salt).leaf = some l₁ ∧ (emptyInclusion C nonce i key v₂ salt).leaf = some l₂ ∧
      UpperPart C.hash (emptyInclusion C nonce i key v₁ salt) l₁ (emptyInclusion C nonce i key v₂ salt) l₂ := by
  refine ⟨rfl, emptyInclusion_verifies C nonce i key v₂ salt, ?_, _, _, rfl, rfl, ?_⟩
  · simp [NoCollision, hashInputs, emptyInclusion, stepInputs, leafInput]
  · simp [UpperPart, hashInputs, emptyInclusion, stepInputs, leafInput]

end Coniks.Props

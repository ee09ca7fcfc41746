import Verif.Model.TreeOps
import Verif.Proofs.TreeGet
namespace Coniks
open Spec

/-- Invariant of every reachable tree over `L`-bit indices. -/
structure TreeInv (C : Crypto) (L : Nat) (m : MerkleTree) : Prop where
  wf : m.root.WF L []
  tight : m.root.tight
  cacheOK : m.root.cacheOK C m.nonce
  interior : m.root.isInterior = true

theorem newMerkleTree_inv (C : Crypto) (L : Nat) (hL : 0 < L) (rnd : Option Bytes) (m : MerkleTree)
    (h : newMerkleTree C rnd = some m) : TreeInv C L m ∧ m.root.bindings = [] := by
  unfold newMerkleTree at h
  cases hr : C.makeRand rnd with
  | none => simp [hr] at h
  | some nonce =>
    simp only [hr, Option.map_some, Option.some.injEq] at h
    subst h
    refine ⟨⟨?_, ?_, ?_, rfl⟩, ?_⟩
    · exact ⟨rfl, hL, ⟨rfl, rfl⟩, ⟨rfl, rfl⟩⟩
    · simp [newInterior, Node.tight, Node.isInterior]
    · simp [newInterior, Node.cacheOK]
    · simp [newInterior, Node.bindings, Node.leaves]

theorem insertNode_inv (C : Crypto) (L : Nat) (m : MerkleTree) (inv : TreeInv C L m) (toAdd : Leaf)
    (hL : (toBits toAdd.index).length = L) :
    ∃ m', m.insertNode toAdd.index toAdd = some m' ∧ TreeInv C L m' ∧ m'.nonce = m.nonce ∧ m'.hash = m.hash ∧
      m'.root.bindings.Perm (put toAdd.binding m.root.bindings) := by
  have he : m.root.isEmpty = false := by
    have := inv.interior
    cases hr : m.root <;> simp_all [Node.isEmpty, Node.isInterior]
  obtain ⟨n', hn', post⟩ := insertAt_spec C m.nonce L toAdd hL 0 m.root [] rfl (List.nil_prefix) inv.wf he
  refine ⟨{ m with root := n' }, by rw [MerkleTree.insertNode, hn']; rfl, ?_, rfl, rfl, post.perm⟩
  exact ⟨post.wf, post.tight inv.tight, post.cacheOK inv.cacheOK, post.interior inv.interior⟩

theorem recompute_inv (C : Crypto) (L : Nat) (m : MerkleTree) (inv : TreeInv C L m) :
    TreeInv C L (m.recomputeHash C) ∧ (m.recomputeHash C).nonce = m.nonce ∧
    (m.recomputeHash C).root.cached ∧
    (m.recomputeHash C).hash = m.root.pureHash C m.nonce ∧
    (m.recomputeHash C).root.pureHash C m.nonce = m.root.pureHash C m.nonce ∧
    (m.recomputeHash C).root.bindings = m.root.bindings := by
  obtain ⟨a, b, c⟩ := hashNode_spec C m.nonce m.root inv.cacheOK
  refine ⟨⟨hashNode_WF C _ L _ _ inv.wf, hashNode_tight C _ _ inv.tight, c, ?_⟩, rfl, b, a, hashNode_pure C _ _, ?_⟩
  · rw [show (m.recomputeHash C).root = (m.root.hashNode C m.nonce).2 from rfl, hashNode_isInterior]; exact inv.interior
  · show ((m.root.hashNode C m.nonce).2.leaves.map _) = _
    rw [hashNode_leaves]; rfl

theorem put_perm {b : Binding} {xs ys : List Binding} (h : xs.Perm ys) : (put b xs).Perm (put b ys) :=
  (h.filter _).cons b

theorem toBits_length' {i : Bytes} {n : Nat} (h : i.length = n) : (toBits i).length = 8 * n := by
  rw [toBits_length, h]

theorem step_inv (C : Crypto) (n : Nat) (m : MerkleTree) (bs : List Binding) (inv : TreeInv C (8 * n) m)
    (hp : m.root.bindings.Perm bs) (op : TreeOp)
    (hlen : ∀ r i k v, op = .set r i k v → i.length = n) :
    ∃ m', m.step C op = some m' ∧ TreeInv C (8 * n) m' ∧ m'.nonce = m.nonce ∧
      m'.root.bindings.Perm (bindStep C.hash bs op) := by
  cases op with
  | recompute =>
    obtain ⟨h1, h2, _, _, _, h6⟩ := recompute_inv C _ m inv
    exact ⟨_, rfl, h1, h2, by rw [h6]; exact hp⟩
  | set rnd i k v =>
    cases rnd with
    | none => exact ⟨m, by simp [MerkleTree.step, MerkleTree.set, Crypto.newCommit, Crypto.makeRand], inv, rfl, hp⟩
    | some r =>
      have hi := hlen (some r) i k v rfl
      obtain ⟨m', h1, h2, h3, _, h4⟩ := insertNode_inv C (8 * n) m inv
        { level := 0, key := k, value := v, index := i,
          commit := { salt := C.hash r, value := C.hash (C.hash r ++ k ++ v) } } (toBits_length' hi)
      refine ⟨m', ?_, h2, h3, h4.trans (put_perm hp)⟩
      simp only [MerkleTree.step, MerkleTree.set, Crypto.newCommit, Crypto.makeRand, Option.map_some,
        Crypto.digest, List.flatten_cons, List.flatten_nil, List.append_nil]
      simp only [List.append_assoc] at h1
      rw [h1]; rfl

theorem run_inv (C : Crypto) (n : Nat) (ops : List TreeOp) :
    ∀ (m : MerkleTree) (bs : List Binding), TreeInv C (8 * n) m → m.root.bindings.Perm bs → IndexLen n ops →
    ∃ m', m.run C ops = some m' ∧ TreeInv C (8 * n) m' ∧ m'.nonce = m.nonce ∧
      m'.root.bindings.Perm (ops.foldl (bindStep C.hash) bs) := by
  induction ops with
  | nil => intro m bs inv hp _; exact ⟨m, rfl, inv, rfl, hp⟩
  | cons op ops ih =>
    intro m bs inv hp hlen
    obtain ⟨m1, s1, i1, n1, p1⟩ := step_inv C n m bs inv hp op (fun r i k v e => hlen op (by simp) r i k v e)
    obtain ⟨m2, s2, i2, n2, p2⟩ := ih m1 _ i1 p1 (fun o ho => hlen o (by simp [ho]))
    exact ⟨m2, by rw [MerkleTree.run, s1]; exact s2, i2, by rw [n2, n1], p2⟩

theorem run_new (C : Crypto) (n : Nat) (hn : 0 < n) (rnd : Bytes) (ops : List TreeOp) (hlen : IndexLen n ops) :
    ∃ m0 m, newMerkleTree C (some rnd) = some m0 ∧ m0.run C ops = some m ∧ TreeInv C (8 * n) m ∧
      m.nonce = C.hash rnd ∧ m.root.bindings.Perm (bindRun C.hash ops) := by
  have h0 : newMerkleTree C (some rnd) = some { nonce := C.hash rnd, root := newInterior 0 [], hash := [] } := by
    simp [newMerkleTree, Crypto.makeRand, Crypto.digest]
  obtain ⟨i0, b0⟩ := newMerkleTree_inv C (8 * n) (by omega) _ _ h0
  obtain ⟨m, h1, h2, h3, h4⟩ := run_inv C n ops _ [] i0 (by rw [b0]) hlen
  exact ⟨_, m, h0, h1, h2, h3, h4⟩

/-! ### the abstract set of bindings -/

theorem mem_put {b x : Binding} {bs : List Binding} : x ∈ put b bs ↔ x = b ∨ (x ∈ bs ∧ x.index ≠ b.index) := by
  simp [put]

theorem put_nodup {b : Binding} {bs : List Binding} (h : (bs.map Binding.index).Nodup) :
    ((put b bs).map Binding.index).Nodup := by
  simp only [put, List.map_cons, List.nodup_cons]
  refine ⟨?_, ?_⟩
  · simp only [List.mem_map, List.mem_filter]
    rintro ⟨x, ⟨_, hx⟩, e⟩
    simp [e] at hx
  · exact h.sublist ((List.filter_sublist).map _)

theorem bindStep_nodup {hash} {bs : List Binding} (h : (bs.map Binding.index).Nodup) (op : TreeOp) :
    ((bindStep hash bs op).map Binding.index).Nodup := by
  cases op with
  | recompute => exact h
  | set r i k v => cases r with
    | none => exact h
    | some r => exact put_nodup h

theorem bindRun_snoc (hash) (ops : List TreeOp) (op : TreeOp) :
    bindRun hash (ops ++ [op]) = bindStep hash (bindRun hash ops) op := by
  simp [bindRun]

theorem lastSet_snoc (i : Bytes) (ops : List TreeOp) (op : TreeOp) :
    lastSet i (ops ++ [op]) =
      match op with
      | .set (some r) j k v => if j = i then some (r, k, v) else lastSet i ops
      | _ => lastSet i ops := by
  induction ops with
  | nil =>
    cases op with
    | recompute => rfl
    | set r j k v => cases r <;> rfl
  | cons o ops ih =>
    cases op with
    | recompute =>
      simp only [List.cons_append, lastSet, ih]
    | set r j k v =>
      cases r with
      | none => simp only [List.cons_append, lastSet, ih]
      | some r =>
        simp only [List.cons_append, lastSet, ih]
        by_cases hji : j = i
        · simp [hji]
        · simp [hji]

/-- snoc induction on histories -/
theorem snoc_induction {α} {P : List α → Prop} (h0 : P []) (h1 : ∀ l a, P l → P (l ++ [a])) (l : List α) : P l := by
  have : ∀ l, P (List.reverse l) := by
    intro l
    induction l with
    | nil => exact h0
    | cons a l ih => rw [List.reverse_cons]; exact h1 _ _ ih
  simpa using this l.reverse

theorem mem_bindRun (hash : Bytes → Bytes) (ops : List TreeOp) (b : Binding) :
    b ∈ bindRun hash ops ↔
      ∃ r k v, lastSet b.index ops = some (r, k, v) ∧
        b = ⟨b.index, k, v, hash r, hash (hash r ++ k ++ v)⟩ := by
  induction ops using snoc_induction with
  | h0 => simp [bindRun, lastSet]
  | h1 ops op ih =>
    rw [bindRun_snoc, lastSet_snoc]
    cases op with
    | recompute => exact ih
    | set r j k v =>
      cases r with
      | none => exact ih
      | some r =>
        simp only [bindStep, mem_put, ih]
        constructor
        · rintro (rfl | ⟨⟨r', k', v', h1, h2⟩, hne⟩)
          · exact ⟨r, k, v, by simp, rfl⟩
          · refine ⟨r', k', v', ?_, h2⟩
            rw [if_neg (by simpa using fun h => hne h.symm)]; exact h1
        · rintro ⟨r', k', v', h1, h2⟩
          split at h1
          · rename_i e
            simp only [Option.some.injEq, Prod.mk.injEq] at h1
            obtain ⟨rfl, rfl, rfl⟩ := h1
            left; rw [h2, e]
          · rename_i e
            exact Or.inr ⟨⟨r', k', v', h1, h2⟩, fun h => e h.symm⟩

theorem bindRun_nodup (hash : Bytes → Bytes) (ops : List TreeOp) : ((bindRun hash ops).map Binding.index).Nodup := by
  induction ops using snoc_induction with
  | h0 => simp [bindRun]
  | h1 ops op ih => rw [bindRun_snoc]; exact bindStep_nodup ih op

theorem lastSet_mem {i : Bytes} {ops : List TreeOp} {r k v : Bytes} (h : lastSet i ops = some (r, k, v)) :
    TreeOp.set (some r) i k v ∈ ops := by
  induction ops with
  | nil => simp [lastSet] at h
  | cons op ops ih =>
    unfold lastSet at h
    cases hl : lastSet i ops with
    | some x =>
      rw [hl] at h
      simp only [Option.some.injEq] at h
      subst h
      exact List.mem_cons_of_mem _ (ih hl)
    | none =>
      rw [hl] at h
      cases op with
      | recompute => simp at h
      | set r' j k' v' =>
        cases r' with
        | none => simp at h
        | some r' =>
          simp only at h
          split at h
          · simp only [Option.some.injEq, Prod.mk.injEq] at h
            obtain ⟨rfl, rfl, rfl⟩ := h
            subst_vars
            simp
          · simp at h

theorem mem_bindRun_isSet {hash} {ops : List TreeOp} {b : Binding} (h : b ∈ bindRun hash ops) : IsSet b.index ops := by
  obtain ⟨r, k, v, h1, _⟩ := (mem_bindRun hash ops b).mp h
  exact ⟨r, k, v, lastSet_mem h1⟩

end Coniks

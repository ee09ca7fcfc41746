import Verif.Model.TreeOps
/-
A structurally recursive twin of `insertAt` (well-founded recursion does not compute in the kernel), proved
equal to it. Only used to evaluate the model on concrete examples.
-/
namespace Coniks

def insertFuel (bits : List Bool) (toAdd : Leaf) : Nat → Nat → Node → Go Node
  | 0, _, _ => none
  | k + 1, depth, n =>
    match n with
    | .empty .. => none
    | .leaf cur =>
      if cur.index = toAdd.index then
        some (.leaf { toAdd with level := cur.level })
      else if depth ≤ bits.length then
        match getNthBit cur.index depth with
        | none => none
        | some direction => insertFuel bits toAdd k depth (pushDown depth (bits.take depth) direction cur)
      else none
    | .interior level lh rh l r =>
      match bits[depth]? with
      | none => none
      | some true =>
        if r.isEmpty then
          some (.interior level lh none l (.leaf { toAdd with level := depth + 1 }))
        else
          (insertFuel bits toAdd k (depth + 1) r).map fun r' => .interior level lh none l r'
      | some false =>
        if l.isEmpty then
          some (.interior level none rh (.leaf { toAdd with level := depth + 1 }) r)
        else
          (insertFuel bits toAdd k (depth + 1) l).map fun l' => .interior level none rh l' r

theorem isLeafNat_le (n : Node) : n.isLeafNat ≤ 1 := by cases n <;> simp [Node.isLeafNat]

theorem pushDown_isLeafNat (d pb dir cur) : (pushDown d pb dir cur).isLeafNat = 0 := by
  unfold pushDown; split <;> rfl

theorem insertFuel_eq (bits : List Bool) (toAdd : Leaf) (depth : Nat) (n : Node) :
    ∀ k, 2 * (bits.length - depth) + n.isLeafNat < k →
      insertFuel bits toAdd k depth n = insertAt bits toAdd depth n := by
  induction depth, n using insertAt.induct (bits := bits) (toAdd := toAdd) with
  | case1 depth level index => intro k hk; cases k with
    | zero => omega
    | succ k => rw [insertAt]; rfl
  | case2 depth cur heq => intro k hk; cases k with
    | zero => omega
    | succ k => rw [insertAt, insertFuel, if_pos heq, if_pos heq]
  | case3 depth cur hne hle hnone => intro k hk; cases k with
    | zero => omega
    | succ k => rw [insertAt, insertFuel, if_neg hne, if_neg hne, if_pos hle, if_pos hle, hnone]
  | case4 depth cur hne hle dir hdir ih => intro k hk; cases k with
    | zero => omega
    | succ k =>
      rw [insertAt, insertFuel, if_neg hne, if_neg hne, if_pos hle, if_pos hle, hdir]
      simp only
      apply ih
      rw [pushDown_isLeafNat]
      simp only [Node.isLeafNat] at hk
      omega
  | case5 depth cur hne hle => intro k hk; cases k with
    | zero => omega
    | succ k => rw [insertAt, insertFuel, if_neg hne, if_neg hne, if_neg hle, if_neg hle]
  | case6 depth level lh rh l r hnone => intro k hk; cases k with
    | zero => omega
    | succ k =>
      have e : insertAt bits toAdd depth (.interior level lh rh l r) = none := by
        rw [insertAt]; split
        · rfl
        · next h => rw [hnone] at h; simp at h
        · next h => rw [hnone] at h; simp at h
      rw [e, insertFuel, hnone]
  | case7 depth level lh rh l r hsome hemp => intro k hk; cases k with
    | zero => omega
    | succ k =>
      have e : insertAt bits toAdd depth (.interior level lh rh l r) =
          some (.interior level lh none l (.leaf { toAdd with level := depth + 1 })) := by
        rw [insertAt]; split
        · next h => rw [hsome] at h; simp at h
        · rw [if_pos hemp]
        · next h => rw [hsome] at h; simp at h
      rw [e, insertFuel, hsome]; simp only [if_pos hemp]
  | case8 depth level lh rh l r hsome hemp ih => intro k hk; cases k with
    | zero => omega
    | succ k =>
      have hlt := (List.getElem?_eq_some_iff.mp hsome).1
      have hl1 := isLeafNat_le r
      simp only [Node.isLeafNat] at hk
      have e : insertAt bits toAdd depth (.interior level lh rh l r) =
          (insertAt bits toAdd (depth + 1) r).map fun r' => .interior level lh none l r' := by
        rw [insertAt]; split
        · next h => rw [hsome] at h; simp at h
        · rw [if_neg hemp]
        · next h => rw [hsome] at h; simp at h
      rw [e, insertFuel, hsome]; simp only [if_neg hemp]; rw [ih k (by omega)]
  | case9 depth level lh rh l r hsome hemp => intro k hk; cases k with
    | zero => omega
    | succ k =>
      have e : insertAt bits toAdd depth (.interior level lh rh l r) =
          some (.interior level none rh (.leaf { toAdd with level := depth + 1 }) r) := by
        rw [insertAt]; split
        · next h => rw [hsome] at h; simp at h
        · next h => rw [hsome] at h; simp at h
        · rw [if_pos hemp]
      rw [e, insertFuel, hsome]; simp only [if_pos hemp]
  | case10 depth level lh rh l r hsome hemp ih => intro k hk; cases k with
    | zero => omega
    | succ k =>
      have hlt := (List.getElem?_eq_some_iff.mp hsome).1
      have hl1 := isLeafNat_le l
      simp only [Node.isLeafNat] at hk
      have e : insertAt bits toAdd depth (.interior level lh rh l r) =
          (insertAt bits toAdd (depth + 1) l).map fun l' => .interior level none rh l' r := by
        rw [insertAt]; split
        · next h => rw [hsome] at h; simp at h
        · next h => rw [hsome] at h; simp at h
        · rw [if_neg hemp]
      rw [e, insertFuel, hsome]; simp only [if_neg hemp]; rw [ih k (by omega)]

/-- `Set` with the computable insertion. -/
def MerkleTree.setE (C : Crypto) (m : MerkleTree) (rnd : Option Bytes) (index key value : Bytes) :
    Go (MerkleTree × Bool) :=
  match C.newCommit rnd [key, value] with
  | none => some (m, false)
  | some c =>
    (insertFuel (toBits index) { level := 0, key := key, value := value, index := index, commit := c }
        (2 * (toBits index).length + 2) 0 m.root).map
      fun root => ({ m with root := root }, true)

theorem setE_eq (C : Crypto) (m : MerkleTree) (rnd : Option Bytes) (index key value : Bytes) :
    m.set C rnd index key value = m.setE C rnd index key value := by
  unfold MerkleTree.set MerkleTree.setE MerkleTree.insertNode
  cases C.newCommit rnd [key, value] with
  | none => rfl
  | some c =>
    simp only
    have := isLeafNat_le m.root
    rw [insertFuel_eq _ _ _ _ _ (by omega)]
    cases insertAt (toBits index) _ 0 m.root <;> rfl

def MerkleTree.stepE (C : Crypto) (m : MerkleTree) : TreeOp → Go MerkleTree
  | .set rnd index key value => (m.setE C rnd index key value).map Prod.fst
  | .recompute => some (m.recomputeHash C)

def MerkleTree.runE (C : Crypto) (m : MerkleTree) : List TreeOp → Go MerkleTree
  | [] => some m
  | op :: ops => (m.stepE C op).bind fun m' => m'.runE C ops

theorem runE_eq (C : Crypto) (ops : List TreeOp) (m : MerkleTree) : m.run C ops = m.runE C ops := by
  induction ops generalizing m with
  | nil => rfl
  | cons op ops ih =>
    have : m.step C op = m.stepE C op := by
      cases op with
      | recompute => rfl
      | set r i k v => simp only [MerkleTree.step, MerkleTree.stepE, setE_eq]
    rw [MerkleTree.run, MerkleTree.runE, this]
    cases m.stepE C op with
    | none => rfl
    | some m' => exact ih m'

def treeAfterE (C : Crypto) (rnd : Bytes) (ops : List TreeOp) : Go MerkleTree :=
  (newMerkleTree C (some rnd)).bind fun m => m.runE C ops

theorem treeAfterE_eq (C : Crypto) (rnd : Bytes) (ops : List TreeOp) : treeAfter C rnd ops = treeAfterE C rnd ops := by
  unfold treeAfter treeAfterE
  congr; funext m; exact runE_eq C ops m

end Coniks

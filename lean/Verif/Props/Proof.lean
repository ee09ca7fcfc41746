import Verif.Proofs.PathSound
import Verif.Props.Tree
/-
C04: commitments. C13 - C16: what an accepted authentication path means.
-/
namespace Coniks.Props
open Coniks Spec

/-! ### C04 -/

/-- C04, opening: what `NewCommit` returns opens to what was committed. -/
theorem C04_commit_opens (C : Crypto) (rnd : Option Bytes) (stuff : List Bytes) (c : Commit)
    (h : C.newCommit rnd stuff = some c) : C.commitVerify c stuff = true := by
  cases rnd with
  | none => simp [Crypto.newCommit, Crypto.makeRand] at h
  | some r =>
    simp only [Crypto.newCommit, Crypto.makeRand, Option.map_some, Option.some.injEq] at h
    subst h
    simp [Crypto.commitVerify]

/-- C04: `NewCommit` fails only for lack of randomness; the salt has 32 bytes. -/
theorem C04_commit_total (C : Crypto) (r : Bytes) (stuff : List Bytes) :
    ∃ c, C.newCommit (some r) stuff = some c ∧ c.salt.length = 32 ∧ c.value.length = 32 :=
  ⟨_, rfl, C.hash_length _, C.hash_length _⟩

/-- C04, binding: one commitment accepted for the same key and two values commits to one value, unless the two hash inputs
collide. -/
theorem C04_commit_binds (C : Crypto) (c : Commit) (k v₁ v₂ : Bytes)
    (h₁ : C.commitVerify c [k, v₁] = true) (h₂ : C.commitVerify c [k, v₂] = true)
    (nc : NoCollision C.hash [c.salt ++ k ++ v₁, c.salt ++ k ++ v₂]) : v₁ = v₂ := by
  simp only [Crypto.commitVerify, Crypto.digest, beq_iff_eq] at h₁ h₂
  have e := nc (c.salt ++ k ++ v₁) (by simp) (c.salt ++ k ++ v₂) (by simp) (by simpa using h₁.symm.trans h₂)
  simpa using e

/-- C04, exactly what a commitment opens to: a commitment made for (key, value) verifies for (key', value') if and only if the two
pairs have the same concatenation, unless the two hash inputs collide. -/
theorem C04_commit_exact (C : Crypto) (r k v k' v' : Bytes) (c : Commit) (h : C.newCommit (some r) [k, v] = some c)
    (nc : NoCollision C.hash [c.salt ++ k ++ v, c.salt ++ k' ++ v']) :
    C.commitVerify c [k', v'] = true ↔ k' ++ v' = k ++ v := by
  have h0 := C04_commit_opens C _ _ _ h
  simp only [Crypto.commitVerify, Crypto.digest, beq_iff_eq, List.flatten_cons, List.flatten_nil, List.append_nil] at h0 ⊢
  constructor
  · intro h'
    have e := nc (c.salt ++ k ++ v) (by simp) (c.salt ++ k' ++ v') (by simp) (by simpa using h0.symm.trans h')
    rw [List.append_assoc, List.append_assoc, List.append_cancel_left_eq] at e
    exact e.symm
  · intro e
    rw [e]; exact h0

/-- C04: a commitment made for (key, value) and accepted for (key', value') with a key of the same length was made for that pair.
The restriction to keys of one length cannot be dropped (`C04_key_value_split_counterexample`). -/
theorem C04_commit_exact_same_length (C : Crypto) (r k v k' v' : Bytes) (c : Commit)
    (h : C.newCommit (some r) [k, v] = some c) (h' : C.commitVerify c [k', v'] = true) (hk : k.length = k'.length)
    (nc : NoCollision C.hash [c.salt ++ k ++ v, c.salt ++ k' ++ v']) : k' = k ∧ v' = v := by
  have h0 := C04_commit_opens C _ _ _ h
  simp only [Crypto.commitVerify, Crypto.digest, beq_iff_eq] at h0 h'
  have e := nc (c.salt ++ k ++ v) (by simp) (c.salt ++ k' ++ v') (by simp) (by simpa using h0.symm.trans h')
  rw [List.append_assoc, List.append_assoc, List.append_cancel_left_eq] at e
  obtain ⟨a, b⟩ := List.append_inj e hk
  exact ⟨a.symm, b.symm⟩

/-- C04 is false without that restriction: key and value are concatenated without a length, so a commitment to ("a","bc") opens
as ("ab","c") for every hash function. -/
theorem C04_key_value_split_counterexample (C : Crypto) (r : Bytes) :
    ∃ c, C.newCommit (some r) [[0x61], [0x62, 0x63]] = some c ∧ C.commitVerify c [[0x61, 0x62], [0x63]] = true :=
  ⟨_, rfl, by simp [Crypto.commitVerify, Crypto.digest]⟩

example : ∃ c, Crypto.toy.newCommit (some [1]) [[0x61], [9]] = some c ∧ Crypto.toy.commitVerify c [[0x61], [9]] = true ∧
    NoCollision Crypto.toy.hash [c.salt ++ [0x61] ++ [9], c.salt ++ [0x61] ++ [8]] := by
  refine ⟨_, rfl, by decide +kernel, ?_⟩
  unfold NoCollision; decide +kernel

/-- of four pairs, the commitment to `("a", [9])` opens to the two with the same concatenation -/
example : ∃ c, Crypto.toy.newCommit (some [1]) [[0x61], [9]] = some c ∧
    ([([0x61], [9]), ([0x61], [8]), ([], [0x61, 9]), ([0x62], [9])] : List (Bytes × Bytes)).map
      (fun p => Crypto.toy.commitVerify c [p.1, p.2]) = [true, false, true, false] :=
  ⟨_, rfl, by decide +kernel⟩

/-! ### C14 -/

/-- C14. PARTIAL: two accepted proofs for one index and one name do not contradict each other, provided both have the shape
honest proofs have (`WellShaped`, `NotConfusable`; `Verify` does not check these) and none of the hash inputs collide. The
counterexamples below show that the code as it is accepts contradictory proofs when the shape conditions are dropped. -/
theorem C14_no_contradiction_partial (C : Crypto) (ap₁ ap₂ : AuthPath) (i k v₁ v₂ th : Bytes)
    (hi₁ : ap₁.lookupIndex = i) (hi₂ : ap₂.lookupIndex = i)
    (a₁ : ap₁.verify C k v₁ th = some (.ok ())) (a₂ : ap₂.verify C k v₂ th = some (.ok ()))
    (w₁ : WellShaped ap₁) (w₂ : WellShaped ap₂) (u₁ : NotConfusable ap₁) (u₂ : NotConfusable ap₂)
    (nc : NoCollision C.hash (hashInputs C.hash ap₁ ++ hashInputs C.hash ap₂))
    (nco : NoCollision C.hash [openInput ap₁ k v₁, openInput ap₂ k v₂]) :
    ap₁.proofType = ap₂.proofType ∧ (ap₁.proofType = some .inclusion → v₁ = v₂) := by
  obtain ⟨l₁, hl₁, h₁, c₁⟩ := verify_ok a₁
  obtain ⟨l₂, hl₂, h₂, c₂⟩ := verify_ok a₂
  have pre : ∀ (ap : AuthPath) (l : ProofNode) (v : Bytes), ap.lookupIndex = i →
      ((ap.lookupIndex = l.index ∧ l.value.getD [] = v ∧
          ∃ c, l.commitment = some c ∧ c.value = C.hash (c.salt ++ k ++ v)) ∨
       (ap.lookupIndex ≠ l.index ∧ l.value = none ∧
          ∀ j, j < l.level.toNat → (toBits l.index)[j]? = (toBits ap.lookupIndex)[j]?)) →
      ∀ j, j < l.level.toNat → (toBits l.index)[j]? = (toBits i)[j]? := by
    rintro ap l v hi (⟨e, _⟩ | ⟨_, _, h⟩) j hj
    · rw [← e, hi]
    · rw [← hi]; exact h j hj
  obtain ⟨e1, e2, e3, e4⟩ := same_leaf C ap₁ ap₂ l₁ l₂ th hl₁ hl₂ h₁ h₂ w₁.nonce w₂.nonce (w₁.user l₁ hl₁) (w₂.user l₂ hl₂)
    (fun h => (w₁.empty l₁ hl₁ h).1) (fun h => (w₂.empty l₂ hl₂ h).1) (fun h _ => u₁ l₁ hl₁ h) (fun h _ => u₂ l₂ hl₂ h)
    (fun j a b => (pre ap₁ l₁ v₁ hi₁ c₁ j a).trans (pre ap₂ l₂ v₂ hi₂ c₂ j b).symm) nc
  have pt : ap₁.proofType = ap₂.proofType := by
    simp [AuthPath.proofType, hl₁, hl₂, hi₁, hi₂, e3]
  refine ⟨pt, fun hincl => ?_⟩
  have hidx₁ : ap₁.lookupIndex = l₁.index := by
    simp only [AuthPath.proofType, hl₁, Option.map_some, Option.some.injEq] at hincl
    by_cases h : ap₁.lookupIndex = l₁.index
    · exact h
    · rw [if_neg h] at hincl; cases hincl
  have hidx₂ : ap₂.lookupIndex = l₂.index := by rw [hi₂, ← hi₁, hidx₁, e3]
  have hne : l₁.isEmpty = false := by
    cases he : l₁.isEmpty with
    | false => rfl
    | true => exact absurd hidx₁.symm (w₁.empty l₁ hl₁ he).2
  rcases c₁ with ⟨_, hv₁, d₁, hd₁, f₁⟩ | ⟨h, _⟩
  case inr => exact absurd hidx₁ h
  rcases c₂ with ⟨_, hv₂, d₂, hd₂, f₂⟩ | ⟨h, _⟩
  · have e5 := e4 hne
    simp only [hd₁, hd₂, Option.map_some, Option.some.injEq] at e5
    have s₁ := w₁.salt l₁ hl₁ hidx₁.symm d₁ hd₁
    have s₂ := w₂.salt l₂ hl₂ hidx₂.symm d₂ hd₂
    have o₁ : openInput ap₁ k v₁ = d₁.salt ++ k ++ v₁ := by simp [openInput, hl₁, hd₁]
    have o₂ : openInput ap₂ k v₂ = d₂.salt ++ k ++ v₂ := by simp [openInput, hl₂, hd₂]
    have := nco _ (List.mem_cons_self) _ (List.mem_cons_of_mem _ List.mem_cons_self) (by rw [o₁, o₂, ← f₁, ← f₂, e5])
    rw [o₁, o₂] at this
    simp only [List.append_assoc] at this
    have := (List.append_inj this (by rw [s₁, s₂])).2
    exact List.append_cancel_left this
  · exact absurd hidx₂ h

/-- Material of the counterexamples: a proof of inclusion of `value` under index `i`, whose leaf is flagged as an empty branch. -/
def emptyInclusion (C : Crypto) (nonce i key value salt : Bytes) : AuthPath :=
  { treeNonce := nonce, prunedTree := [], lookupIndex := i, vrfProof := [],
    leaf := some { level := 0, index := i, value := some value, isEmpty := true,
                   commitment := some ⟨salt, C.hash (salt ++ key ++ value)⟩ } }

theorem emptyInclusion_verifies (C : Crypto) (nonce i key value salt : Bytes) :
    (emptyInclusion C nonce i key value salt).verify C key value (emptyHash C nonce i 0) = some (.ok ()) := by
  simp [emptyInclusion, AuthPath.verify, Crypto.commitVerify, Crypto.digest, AuthPath.authPathHash, ProofNode.hash,
    authPathLoop]

/-- C14 is false as stated (1): the `IsEmpty` flag of the leaf is not checked, so one tree hash supports proofs of inclusion of
any two values for the same index and name, with all lengths right, for every hash function. -/
theorem C14_empty_flag_counterexample (C : Crypto) (nonce i key v₁ v₂ salt : Bytes) :
    ∃ (th : Bytes) (ap₁ ap₂ : AuthPath), ap₁.lookupIndex = i ∧ ap₂.lookupIndex = i ∧
      ap₁.verify C key v₁ th = some (.ok ()) ∧ ap₂.verify C key v₂ th = some (.ok ()) ∧
      ap₁.proofType = some .inclusion ∧ ap₂.proofType = some .inclusion :=
  ⟨_, _, _, rfl, rfl, emptyInclusion_verifies C nonce i key v₁ salt, emptyInclusion_verifies C nonce i key v₂ salt,
    by simp [AuthPath.proofType, emptyInclusion], by simp [AuthPath.proofType, emptyInclusion]⟩

/-- C14 is false as stated (2): the salt has no fixed length, so the same leaf opens to two values for the same name. -/
theorem C14_salt_length_counterexample (C : Crypto) (nonce i salt : Bytes) :
    ∃ (th : Bytes) (ap₁ ap₂ : AuthPath) (l₁ l₂ : ProofNode), ap₁.lookupIndex = i ∧ ap₂.lookupIndex = i ∧
      ap₁.leaf = some l₁ ∧ ap₂.leaf = some l₂ ∧ l₁.isEmpty = false ∧ l₂.isEmpty = false ∧
      ap₁.verify C [0x61] [0x61, 0x62] th = some (.ok ()) ∧ ap₂.verify C [0x61] [0x62] th = some (.ok ()) ∧
      ap₁.proofType = some .inclusion ∧ ap₂.proofType = some .inclusion := by
  let l (s v : Bytes) : ProofNode :=
    { level := 0, index := i, value := some v, isEmpty := false,
      commitment := some ⟨s, C.hash (salt ++ [0x61, 0x61, 0x62])⟩ }
  let ap (s v : Bytes) : AuthPath :=
    { treeNonce := nonce, prunedTree := [], lookupIndex := i, vrfProof := [], leaf := some (l s v) }
  refine ⟨leafHash C nonce i 0 (C.hash (salt ++ [0x61, 0x61, 0x62])), ap salt [0x61, 0x62], ap (salt ++ [0x61]) [0x62],
    l salt [0x61, 0x62], l (salt ++ [0x61]) [0x62], rfl, rfl, rfl, rfl, rfl, rfl, ?_, ?_, ?_, ?_⟩
  · simp [ap, l, AuthPath.verify, Crypto.commitVerify, Crypto.digest, AuthPath.authPathHash, ProofNode.hash, authPathLoop]
  · simp [ap, l, AuthPath.verify, Crypto.commitVerify, Crypto.digest, AuthPath.authPathHash, ProofNode.hash, authPathLoop]
  · simp [ap, l, AuthPath.proofType]
  · simp [ap, l, AuthPath.proofType]

/-- C14 is false as stated (3): interior nodes are hashed without a tag and lengths are not checked, so one tree hash supports a
proof of inclusion (with all lengths right) and a proof of absence of the same index, for every hash function. -/
theorem C14_inclusion_and_absence_counterexample (C : Crypto) (nonce salt key value : Bytes) (hn : nonce.length = 32)
    (hs : salt.length = 32) :
    ∃ (th : Bytes) (ap₁ ap₂ : AuthPath), ap₁.lookupIndex = ix 0x80 0 ∧ ap₂.lookupIndex = ix 0x80 0 ∧ WellShaped ap₁ ∧
      ap₁.verify C key value th = some (.ok ()) ∧ ap₂.verify C key value th = some (.ok ()) ∧
      ap₁.proofType = some .inclusion ∧ ap₂.proofType = some .absence := by
  let p0 : Arr32 := ⟨[0x4C, 0, 0, 0, 0] ++ List.replicate 27 0, by decide⟩
  let c : Bytes := C.hash (salt ++ key ++ value)
  let l₁ : ProofNode := { level := 1, index := ix 0x80 0, value := some value, isEmpty := false, commitment := some ⟨salt, c⟩ }
  let ap₁ : AuthPath := { treeNonce := nonce, prunedTree := [p0], lookupIndex := ix 0x80 0, vrfProof := [], leaf := some l₁ }
  let lh : Bytes := leafHash C nonce (ix 0x80 0) 1 c
  let l₂ : ProofNode := { level := 0, index := [], value := none, isEmpty := false,
                          commitment := some ⟨[], List.replicate 27 0 ++ lh⟩ }
  let ap₂ : AuthPath := { treeNonce := [], prunedTree := [], lookupIndex := ix 0x80 0, vrfProof := [], leaf := some l₂ }
  refine ⟨C.hash (p0.val ++ lh), ap₁, ap₂, rfl, rfl, ?_, ?_, ?_, ?_, ?_⟩
  · refine ⟨hn, ?_, ?_, ?_⟩
    · intro l hl _
      simp only [ap₁, Option.some.injEq] at hl
      subst hl
      refine ⟨(by decide : (ix 0x80 0).length = 32), ?_⟩
      intro d hd
      simp only [l₁, Option.some.injEq] at hd
      subst hd; exact C.hash_length _
    · intro l hl he
      simp only [ap₁, Option.some.injEq] at hl
      subst hl
      simp [l₁] at he
    · intro l hl he d hd
      simp only [ap₁, Option.some.injEq] at hl
      subst hl
      simp only [l₁, Option.some.injEq] at hd
      subst hd; exact hs
  · have hb : (toBits (ix 0x80 0))[0]? = some true := by decide +kernel
    simp [ap₁, l₁, AuthPath.verify, Crypto.commitVerify, Crypto.digest, AuthPath.authPathHash, ProofNode.hash, authPathLoop,
      c, lh, hb]
  · have hne : ix 0x80 0 ≠ [] := by decide
    simp [ap₂, l₂, AuthPath.verify, Crypto.digest, AuthPath.authPathHash, ProofNode.hash, authPathLoop, prefixLoop,
      hne, p0, leafHash, leafTag, uint32ToBytes, putUint32LE]
  · simp [ap₁, l₁, AuthPath.proofType]
  · have hne : ix 0x80 0 ≠ [] := by decide
    simp [ap₂, l₂, AuthPath.proofType, hne]

/-! ### C13 -/

/-- What was hashed to make the commitment stored under `i`. -/
def storedInput (hash : Bytes → Bytes) (i : Bytes) (ops : List TreeOp) : List Bytes :=
  match lastSet i ops with
  | some (r, k, v) => [hash r ++ k ++ v]
  | none => []

/-- C13. PARTIAL: a well-shaped proof supplied by anyone and accepted against the hash of an honest tree tells the truth about the
tree, unless listed hash inputs (those of the proof, and those of the honest proof of the same index) collide. The shape of the
supplied proof is not checked by the code; without it the statement is false (`C13_empty_branch_counterexample`). `hsp`: distinct
set indices differ in their first 208 bits. -/
theorem C13_sound_partial (C : Crypto) (rnd : Bytes) (ops : List TreeOp) (h : IndexLen 32 ops) (hsp : Spread 208 ops)
    (m : MerkleTree) (hm : treeAfter C rnd (ops ++ [.recompute]) = some m)
    (ap : AuthPath) (i k v : Bytes) (hi : ap.lookupIndex = i) (hil : i.length = 32) (w : WellShaped ap)
    (acc : ap.verify C k v m.hash = some (.ok ()))
    (nc : ∀ ap', m.get i = some ap' → NoCollision C.hash (hashInputs C.hash ap ++ hashInputs C.hash ap'))
    (nco : NoCollision C.hash (openInput ap k v :: storedInput C.hash i ops)) :
    (ap.proofType = some .inclusion →
      ∃ r k' v', lastSet i ops = some (r, k', v') ∧ k' ++ v' = k ++ v ∧ (k'.length = k.length → k' = k ∧ v' = v)) ∧
    (ap.proofType = some .absence → lastSet i ops = none) := by
  obtain ⟨inv, hnonce, hp, cach, hh⟩ := treeAfter_recompute C 32 (by decide) rnd ops h m hm
  obtain ⟨ap', q, pn, hg, post⟩ := get_spec C (8 * 32) m inv i (toBits_length' hil)
  have hq : q.length ≤ 208 := by
    by_cases hlt : q.length ≤ 208
    · exact hlt
    · exfalso
      obtain ⟨l1, m1, l2, m2, ne, p1, p2⟩ := post.deep (by omega)
      obtain ⟨r1, s1, _⟩ := leaf_mem_iff hp m1
      obtain ⟨r2, s2, _⟩ := leaf_mem_iff hp m2
      refine hsp _ _ ⟨_, _, _, lastSet_mem s1⟩ ⟨_, _, _, lastSet_mem s2⟩ ne ?_
      rw [← toBits_eq_bitsOf, ← toBits_eq_bitsOf]
      have key : ∀ x : List Bool, q.take (q.length - 1) <+: x → x.take 208 = q.take 208 := by
        intro x hx
        obtain ⟨t, rfl⟩ := hx
        rw [List.take_append_of_le_length (by simp; omega), List.take_take]
        congr 1; omega
      rw [key _ p1, key _ p2]
  have hlev := post.level (by omega)
  have hash' := post.hash (by omega) cach
  rw [← hh] at hash'
  obtain ⟨l, hl, hacc, cases⟩ := verify_ok acc
  -- shape of the honest leaf
  have hu : pn.isEmpty = false → pn.index.length = 32 ∧ ∀ c, pn.commitment = some c → c.value.length = 32 := by
    intro he
    have lf : ∀ x ∈ m.root.leaves, x.index.length = 32 ∧ x.commit.value.length = 32 := by
      intro x hx
      obtain ⟨r, s1, _, s3⟩ := leaf_mem_iff hp hx
      exact ⟨h _ (lastSet_mem s1) _ _ _ _ rfl, by rw [s3]; exact C.hash_length _⟩
    rcases post.cases with ⟨x, hx, _, rfl⟩ | ⟨_, x, hx, _, rfl⟩ | ⟨_, rfl, _⟩
    · exact ⟨(lf x hx).1, fun c hc => by simp only [inclNode, Option.some.injEq] at hc; subst hc; exact (lf x hx).2⟩
    · exact ⟨(lf x hx).1, fun c hc => by simp only [otherNode, Option.some.injEq] at hc; subst hc; exact (lf x hx).2⟩
    · simp [emptyPN] at he
  have hem : pn.isEmpty = true → pn.index.length = (pn.level.toNat + 7) / 8 := by
    intro he
    rcases post.cases with ⟨x, hx, _, rfl⟩ | ⟨_, x, hx, _, rfl⟩ | ⟨_, rfl, _⟩
    · simp [inclNode] at he
    · simp [otherNode] at he
    · rw [hlev]; simp only [emptyPN]; exact toBytes_length q
  have hb : ∀ j, j < l.level.toNat → j < pn.level.toNat → (toBits l.index)[j]? = (toBits pn.index)[j]? := by
    intro j h1 h2
    rw [hlev] at h2
    have e1 : (toBits l.index)[j]? = (toBits i)[j]? := by
      rcases cases with ⟨e, _⟩ | ⟨_, _, h'⟩
      · rw [← e, hi]
      · rw [← hi]; exact h' j h1
    rw [e1, prefix_get post.pre h2, prefix_get post.index h2]
  obtain ⟨e1, e2, e3, e4⟩ := same_leaf C ap ap' l pn m.hash hl post.leaf hacc hash' w.nonce
    (by rw [post.nonce, hnonce]; exact C.hash_length _) (w.user l hl) hu (fun h => (w.empty l hl h).1) hem
    (fun _ hlt => by omega) (fun _ _ => by omega) hb (nc ap' hg)
  refine ⟨fun hinc => ?_, fun habs => ?_⟩
  · have hidx : ap.lookupIndex = l.index := by
      simp only [AuthPath.proofType, hl, Option.map_some, Option.some.injEq] at hinc
      by_cases h : ap.lookupIndex = l.index
      · exact h
      · rw [if_neg h] at hinc; cases hinc
    have hne : l.isEmpty = false := by
      cases he : l.isEmpty with
      | false => rfl
      | true => exact absurd hidx.symm (w.empty l hl he).2
    rcases cases with ⟨_, _, d, hd, f⟩ | ⟨h', _⟩
    · rcases post.cases with ⟨x, hx, ex, rfl⟩ | ⟨_, x, hx, hne', rfl⟩ | ⟨_, rfl, _⟩
      · obtain ⟨r, s1, s2, s3⟩ := leaf_mem_iff hp hx
        rw [ex] at s1
        have e5 := e4 hne
        simp only [hd, inclNode, Option.map_some, Option.some.injEq] at e5
        have o : openInput ap k v = d.salt ++ k ++ v := by simp [openInput, hl, hd]
        have st : storedInput C.hash i ops = [C.hash r ++ x.key ++ x.value] := by simp [storedInput, s1]
        rw [o, st] at nco
        have := nco (d.salt ++ k ++ v) (by simp) (C.hash r ++ x.key ++ x.value) (by simp) (by rw [← f, e5, s3])
        rw [List.append_assoc, List.append_assoc] at this
        have := (List.append_inj this (by rw [w.salt l hl hidx.symm d hd, C.hash_length])).2
        refine ⟨r, x.key, x.value, s1, this.symm, fun hk => ?_⟩
        have := List.append_inj this.symm hk
        exact ⟨this.1, this.2⟩
      · simp only [otherNode] at e3
        exact absurd (e3.symm.trans (hidx.symm.trans hi)) hne'
      · simp [emptyPN, hne] at e1
    · exact absurd hidx h'
  · have hidx : ap.lookupIndex ≠ l.index := by
      intro e
      simp only [AuthPath.proofType, hl, Option.map_some, if_pos e, Option.some.injEq] at habs
      cases habs
    rcases post.cases with ⟨x, hx, ex, rfl⟩ | ⟨h', _⟩ | ⟨h', _⟩
    · simp only [inclNode] at e3
      exact absurd (hi.trans (ex.symm.trans e3.symm)) hidx
    · exact (no_leaf_iff hp).mp h'
    · exact (no_leaf_iff hp).mp h'

/-- The index of the C13 counterexample: the nonce without its first byte, and the byte of the empty branch it falls under. -/
def confusedIndex (nonce : Bytes) : Bytes := nonce.drop 1 ++ [if (toBits (nonce.drop 1)).getD 0 false then 0x80 else 0]

/-- C13 is false as stated: against the honest EMPTY tree, a proof of inclusion of any (key, value) under index
`confusedIndex nonce` is accepted, for every hash function (the verifier checks neither the length of the nonce nor the `IsEmpty`
flag). -/
theorem C13_empty_branch_counterexample (C : Crypto) (rnd key value salt : Bytes) :
    ∃ (m : MerkleTree) (ap : AuthPath), treeAfter C rnd [.recompute] = some m ∧ ap.lookupIndex = confusedIndex (C.hash rnd) ∧
      ap.lookupIndex.length = 32 ∧ ap.proofType = some .inclusion ∧ ap.verify C key value m.hash = some (.ok ()) := by
  have hlen := C.hash_length rnd
  have hc32 : (confusedIndex (C.hash rnd)).length = 32 := by simp [confusedIndex, hlen]
  let N := C.hash rnd
  let e0 : Bytes := emptyHash C N [0] 1
  let e1 : Bytes := emptyHash C N [0x80] 1
  have l0 : e0.length = 32 := C.hash_length _
  have l1 : e1.length = 32 := C.hash_length _
  have hb0 : (toBits (confusedIndex N))[0]? = some ((toBits (N.drop 1)).getD 0 false) := by
    rw [confusedIndex, toBits_eq_bitsOf, toBits_eq_bitsOf, bitsOf, List.flatMap_append, ← bitsOf]
    have : (bitsOf (N.drop 1)).length = 8 * 31 := by rw [← toBits_eq_bitsOf, toBits_length]; simp [N, hlen]
    rw [List.getElem?_append_left (by omega), List.getD_eq_getElem?_getD, List.getElem?_eq_getElem (by omega)]
    rfl
  let sib : Arr32 := if (toBits (N.drop 1)).getD 0 false then ⟨e0, l0⟩ else ⟨e1, l1⟩
  let ap : AuthPath :=
    { treeNonce := N.take 1, prunedTree := [sib], lookupIndex := confusedIndex N, vrfProof := [],
      leaf := some { level := 1, index := confusedIndex N, value := some value, isEmpty := true,
                     commitment := some ⟨salt, C.hash (salt ++ key ++ value)⟩ } }
  have hm : treeAfter C rnd [.recompute] = some
      { nonce := N, root := .interior 0 (some e0) (some e1) (.empty 1 [0]) (.empty 1 [0x80]), hash := C.hash (e0 ++ e1) } := by
    simp [treeAfter, newMerkleTree, Crypto.makeRand, MerkleTree.run, MerkleTree.step, MerkleTree.recomputeHash, newInterior,
      Node.hashNode, Crypto.digest, e0, e1, N]
    have t0 : toBytes [false] = [0] := by decide
    have t1 : toBytes [true] = [0x80] := by decide
    simp [t0, t1]
  refine ⟨_, ap, hm, rfl, hc32, by simp [ap, AuthPath.proofType], ?_⟩
  simp only [ap, AuthPath.verify, if_true, Option.getD_some, Crypto.commitVerify, Crypto.digest, List.flatten_cons,
    List.flatten_nil, List.append_nil, AuthPath.authPathHash, ProofNode.hash]
  rw [if_pos (by simp)]
  have hnode : emptyHash C (N.take 1) (confusedIndex N) 1 =
      if (toBits (N.drop 1)).getD 0 false then e1 else e0 := by
    simp only [emptyHash, Crypto.digest, confusedIndex, List.flatten_cons, List.flatten_nil, e0, e1]
    split <;> (congr 1; simp only [List.append_nil, List.cons_append, List.nil_append, ← List.append_assoc, List.take_append_drop]; simp)
  rw [hnode]
  simp only [show (1 : UInt32).toNat = 1 from rfl, authPathLoop, hb0, List.getElem?_cons_zero, sib]
  cases (toBits (N.drop 1)).getD 0 false <;> simp [Crypto.digest]

/-- C13, C14: the shape conditions are met by every honest proof (so a verifier that checked them would reject no honest one). -/
theorem C13_honest_wellshaped (C : Crypto) (rnd : Bytes) (ops : List TreeOp) (h : IndexLen 32 ops) (hsp : Spread 208 ops)
    (m : MerkleTree) (hm : treeAfter C rnd ops = some m) (i : Bytes) (hi : i.length = 32) :
    ∃ ap, m.get i = some ap ∧ ap.lookupIndex = i ∧ WellShaped ap ∧ NotConfusable ap := by
  obtain ⟨inv, hnonce, hp⟩ := treeAfter_inv C 32 (by decide) rnd ops h m hm
  obtain ⟨ap, q, pn, hg, post⟩ := get_spec C (8 * 32) m inv i (toBits_length' hi)
  have hq : q.length ≤ 208 := by
    by_cases hlt : q.length ≤ 208
    · exact hlt
    · exfalso
      obtain ⟨l1, m1, l2, m2, ne, p1, p2⟩ := post.deep (by omega)
      obtain ⟨r1, s1, _⟩ := leaf_mem_iff hp m1
      obtain ⟨r2, s2, _⟩ := leaf_mem_iff hp m2
      refine hsp _ _ ⟨_, _, _, lastSet_mem s1⟩ ⟨_, _, _, lastSet_mem s2⟩ ne ?_
      rw [← toBits_eq_bitsOf, ← toBits_eq_bitsOf]
      have key : ∀ x : List Bool, q.take (q.length - 1) <+: x → x.take 208 = q.take 208 := by
        intro x hx
        obtain ⟨t, rfl⟩ := hx
        rw [List.take_append_of_le_length (by simp; omega), List.take_take]
        congr 1; omega
      rw [key _ p1, key _ p2]
  have hlev := post.level (by omega)
  have lf : ∀ x ∈ m.root.leaves, x.index.length = 32 ∧ x.commit.value.length = 32 ∧ x.commit.salt.length = 32 := by
    intro x hx
    obtain ⟨r, s1, s2, s3⟩ := leaf_mem_iff hp hx
    exact ⟨h _ (lastSet_mem s1) _ _ _ _ rfl, by rw [s3]; exact C.hash_length _, by rw [s2]; exact C.hash_length _⟩
  refine ⟨ap, hg, post.lookup, ⟨by rw [post.nonce, hnonce]; exact C.hash_length _, ?_, ?_, ?_⟩, ?_⟩
  · intro l hl he
    rw [post.leaf, Option.some.injEq] at hl; subst hl
    rcases post.cases with ⟨x, hx, _, rfl⟩ | ⟨_, x, hx, _, rfl⟩ | ⟨_, rfl, _⟩
    · exact ⟨(lf x hx).1, fun c hc => by simp only [inclNode, Option.some.injEq] at hc; subst hc; exact (lf x hx).2.1⟩
    · exact ⟨(lf x hx).1, fun c hc => by simp only [otherNode, Option.some.injEq] at hc; subst hc; exact (lf x hx).2.1⟩
    · simp [emptyPN] at he
  · intro l hl he
    rw [post.leaf, Option.some.injEq] at hl; subst hl
    rcases post.cases with ⟨x, hx, _, rfl⟩ | ⟨_, x, hx, _, rfl⟩ | ⟨_, rfl, _⟩
    · simp [inclNode] at he
    · simp [otherNode] at he
    · have e : (emptyPN q).index.length = (q.length + 7) / 8 := toBytes_length q
      rw [hlev]
      refine ⟨e, fun e' => ?_⟩
      rw [post.lookup] at e'
      rw [e', hi] at e
      omega
  · intro l hl he c hc
    rw [post.leaf, Option.some.injEq] at hl; subst hl
    rcases post.cases with ⟨x, hx, _, rfl⟩ | ⟨_, x, hx, hne, rfl⟩ | ⟨_, rfl, _⟩
    · simp only [inclNode, Option.some.injEq] at hc; subst hc; exact (lf x hx).2.2
    · rw [post.lookup] at he; exact absurd he hne
    · simp [emptyPN] at hc
  · intro l hl he hr
    rw [post.leaf, Option.some.injEq] at hl; subst hl
    omega

theorem sampleOps_spread208 : Spread 208 sampleOps := by
  have key : ∀ i, IsSet i sampleOps → i = ix 0x10 0 ∨ i = ix 0x17 0 ∨ i = ix 0xF0 9 := by
    rintro i ⟨r, k, v, h⟩
    simp only [sampleOps, List.mem_cons, List.not_mem_nil, or_false, TreeOp.set.injEq, reduceCtorEq, false_or,
      false_and] at h
    rcases h with h | h | h | h <;> simp [h.2.1]
  intro i j hi hj hne
  rcases key i hi with rfl | rfl | rfl <;> rcases key j hj with rfl | rfl | rfl <;>
    first | exact absurd rfl hne | decide +kernel

/-- the sample tree, one present and one absent index: all hypotheses of C13 and C14 hold together -/
example : ∃ m ap₁ ap₂, treeAfter Crypto.toy [7] (sampleOps ++ [.recompute]) = some m ∧
    m.get (ix 0x17 0) = some ap₁ ∧ m.get (ix 0x13 0) = some ap₂ ∧
    ap₁.verify Crypto.toy [0x62] [3] m.hash = some (.ok ()) ∧ ap₂.verify Crypto.toy [] [] m.hash = some (.ok ()) ∧
    NoCollision Crypto.toy.hash (hashInputs Crypto.toy.hash ap₁ ++ hashInputs Crypto.toy.hash ap₁) ∧
    NoCollision Crypto.toy.hash (openInput ap₁ [0x62] [3] :: storedInput Crypto.toy.hash (ix 0x17 0) sampleOps) ∧
    NoCollision Crypto.toy.hash (hashInputs Crypto.toy.hash ap₂ ++ hashInputs Crypto.toy.hash ap₂) := by
  have key : ((treeAfter Crypto.toy [7] (sampleOps ++ [.recompute])).any fun m =>
      ((m.get (ix 0x17 0)).any fun ap₁ => ((m.get (ix 0x13 0)).any fun ap₂ =>
        decide (ap₁.verify Crypto.toy [0x62] [3] m.hash = some (.ok ()) ∧ ap₂.verify Crypto.toy [] [] m.hash = some (.ok ()) ∧
        NoCollision Crypto.toy.hash (hashInputs Crypto.toy.hash ap₁ ++ hashInputs Crypto.toy.hash ap₁) ∧
        NoCollision Crypto.toy.hash (openInput ap₁ [0x62] [3] :: storedInput Crypto.toy.hash (ix 0x17 0) sampleOps) ∧
        NoCollision Crypto.toy.hash (hashInputs Crypto.toy.hash ap₂ ++ hashInputs Crypto.toy.hash ap₂))))) = true := by
    rw [treeAfterE_eq]
    decide +kernel
  obtain ⟨m, h1, h2⟩ := (Option.any_eq_true _ _).mp key
  obtain ⟨ap₁, h3, h4⟩ := (Option.any_eq_true _ _).mp h2
  obtain ⟨ap₂, h5, h6⟩ := (Option.any_eq_true _ _).mp h4
  rw [decide_eq_true_eq] at h6
  exact ⟨m, ap₁, ap₂, h1, h3, h5, h6⟩

/-! ### C15 -/

/-- What a proof must contain for `Verify` not to panic on it. -/
structure Complete (ap : AuthPath) (l : ProofNode) : Prop where
  leaf : ap.leaf = some l
  commitment : l.isEmpty = false ∨ l.index = ap.lookupIndex → l.commitment.isSome
  index : l.level.toNat ≤ 8 * l.index.length
  lookup : l.level.toNat ≤ 8 * ap.lookupIndex.length
  pruned : l.level.toNat ≤ ap.prunedTree.length

theorem authPathLoop_total (C : Crypto) (bits : List Bool) (p : List Arr32) (L : Nat) :
    ∀ h, L ≤ bits.length → L ≤ p.length → authPathLoop C bits p L h ≠ none := by
  induction L with
  | zero => intro h _ _; simp [authPathLoop]
  | succ d ih =>
    intro h hb hp
    rw [authPathLoop, List.getElem?_eq_getElem (show d < bits.length by omega),
      List.getElem?_eq_getElem (show d < p.length by omega)]
    cases bits[d] <;> exact ih _ (by omega) (by omega)

theorem prefixLoop_total (a b : List Bool) (n : Nat) :
    ∀ i, i + n ≤ a.length → i + n ≤ b.length → prefixLoop a b i n ≠ none := by
  induction n with
  | zero => intro i _ _; simp [prefixLoop]
  | succ n ih =>
    intro i ha hb
    rw [prefixLoop, List.getElem?_eq_getElem (show i < a.length by omega), List.getElem?_eq_getElem (show i < b.length by omega)]
    simp only
    split
    · exact ih (i + 1) (by omega) (by omega)
    · simp

/-- C15. PARTIAL: `Verify` does not panic on a proof that has its parts and whose level fits them; the code does not check this
before it dereferences, so the full statement (every proof that can be received) is false, see below. -/
theorem C15_verify_total_partial (C : Crypto) (ap : AuthPath) (l : ProofNode) (h : Complete ap l) (key value th : Bytes) :
    ∃ r, ap.verify C key value th = some r := by
  have hx : ∃ x, ap.authPathHash C = some x := by
    unfold AuthPath.authPathHash
    rw [h.leaf]
    have : ∃ y, l.hash C ap.treeNonce = some y := by
      unfold ProofNode.hash
      cases he : l.isEmpty with
      | true => exact ⟨_, rfl⟩
      | false =>
        have := h.commitment (Or.inl he)
        cases hc : l.commitment with
        | none => simp [hc] at this
        | some c => exact ⟨_, rfl⟩
    obtain ⟨y, hy⟩ := this
    simp only [hy]
    exact Option.ne_none_iff_exists'.mp (authPathLoop_total C _ _ _ _ (by rw [toBits_length]; exact h.index) h.pruned)
  obtain ⟨x, hx⟩ := hx
  unfold AuthPath.verify
  rw [h.leaf]
  simp only [hx]
  split
  · next e =>
    have := h.commitment (Or.inr e.symm)
    split
    · cases hc : l.commitment with
      | none => simp [hc] at this
      | some c => simp only; split <;> (try split) <;> exact ⟨_, rfl⟩
    · exact ⟨_, rfl⟩
  · have := prefixLoop_total (toBits l.index) (toBits ap.lookupIndex) l.level.toNat 0
      (by rw [toBits_length]; have := h.index; omega) (by rw [toBits_length]; have := h.lookup; omega)
    obtain ⟨b, hb⟩ := Option.ne_none_iff_exists'.mp this
    rw [hb]
    cases b with
    | false => exact ⟨_, rfl⟩
    | true => simp only; split <;> (try split) <;> exact ⟨_, rfl⟩

/-- C15: the honest proofs of the tree satisfy the condition, with the exception of C10's deep empty branch. -/
theorem C15_honest_complete (C : Crypto) (rnd : Bytes) (ops : List TreeOp) (h : IndexLen 32 ops) (hsp : Spread 248 ops)
    (m : MerkleTree) (hm : treeAfter C rnd ops = some m) (i : Bytes) (hi : i.length = 32) :
    ∃ ap l, m.get i = some ap ∧ Complete ap l := by
  obtain ⟨inv, hnonce, hp⟩ := treeAfter_inv C 32 (by decide) rnd ops h m hm
  obtain ⟨ap, q, pn, hg, post⟩ := get_spec C (8 * 32) m inv i (toBits_length' hi)
  have hq := post.q_le (toBits_length' hi)
  have hlev := post.level (by omega)
  refine ⟨ap, pn, hg, post.leaf, ?_, ?_, ?_, ?_⟩
  · rintro (he | he)
    · rcases post.cases with ⟨x, hx, _, rfl⟩ | ⟨_, x, hx, _, rfl⟩ | ⟨_, rfl, _⟩
      · rfl
      · rfl
      · simp [emptyPN] at he
    · rcases post.cases with ⟨x, hx, _, rfl⟩ | ⟨_, x, hx, _, rfl⟩ | ⟨hno, hpn, _⟩
      · rfl
      · rfl
      · exfalso
        rw [hpn, post.lookup] at he
        obtain ⟨l1, m1, l2, m2, ne, ht⟩ := deep_empty post (by decide) hi hno hpn he
        obtain ⟨r1, s1, _⟩ := leaf_mem_iff hp m1
        obtain ⟨r2, s2, _⟩ := leaf_mem_iff hp m2
        refine hsp _ _ ⟨_, _, _, lastSet_mem s1⟩ ⟨_, _, _, lastSet_mem s2⟩ ne ?_
        rw [← toBits_eq_bitsOf, ← toBits_eq_bitsOf]; exact ht
  · rw [hlev, ← toBits_length]; exact post.index.length_le
  · rw [hlev, post.lookup, ← toBits_length]; exact post.pre.length_le
  · rw [hlev, post.plen]; omega

/-- C15 is false as stated: `Verify` panics on each of these proofs, which a server can send: no leaf; inclusion without a
commitment; other leaf without a commitment; a level deeper than the pruned tree; a level deeper than the index has bits. -/
theorem C15_panic_counterexamples (C : Crypto) (i key value th : Bytes) (hi : i ≠ []) :
    Panics (AuthPath.verify C ⟨[], [], i, [], none⟩ key value th) ∧
    Panics (AuthPath.verify C ⟨[], [], i, [], some ⟨0, i, some value, false, none⟩⟩ key value th) ∧
    Panics (AuthPath.verify C ⟨[], [], i, [], some ⟨0, [], none, false, none⟩⟩ key value th) ∧
    Panics (AuthPath.verify C ⟨[], [], i, [], some ⟨1, i, some value, true, some ⟨[], C.hash (key ++ value)⟩⟩⟩ key value th) ∧
    Panics (AuthPath.verify C ⟨[], [], i, [], some ⟨1, [], none, true, none⟩⟩ key value th) := by
  refine ⟨rfl, ?_, ?_, ?_, ?_⟩
  · simp [Panics, AuthPath.verify]
  · simp [Panics, AuthPath.verify, hi, prefixLoop, AuthPath.authPathHash, ProofNode.hash]
  · simp [Panics, AuthPath.verify, AuthPath.authPathHash, ProofNode.hash, authPathLoop, Crypto.commitVerify, Crypto.digest]
  · simp [Panics, AuthPath.verify, hi, prefixLoop, toBits]

/-! ### C16 -/

/-- Erase names, values and salts. -/
def redactNode : Node → Node
  | .empty lv i => .empty lv i
  | .leaf l => .leaf { l with key := [], value := [], commit := ⟨[], l.commit.value⟩ }
  | .interior lv a b l r => .interior lv a b (redactNode l) (redactNode r)

def redact (m : MerkleTree) : MerkleTree := { m with root := redactNode m.root }

theorem descend_redact (bits : List Bool) (n : Node) : ∀ d,
    descend bits d (redactNode n) = (descend bits d n).map fun x => (x.1, redactNode x.2) := by
  induction n with
  | empty => intro d; rfl
  | leaf => intro d; rfl
  | interior lv a b l r ihl ihr =>
    intro d
    rw [redactNode, descend, descend]
    rcases hb : bits[d]? with _ | (_ | _)
    · rfl
    · simp only [ihl, Option.map_map]; rfl
    · simp only [ihr, Option.map_map]; rfl

theorem descend_mem (bits : List Bool) (n : Node) : ∀ d ps l, descend bits d n = some (ps, .leaf l) → l ∈ n.leaves := by
  induction n with
  | empty => intro d ps l h; simp [descend] at h
  | leaf x => intro d ps l h; simp only [descend, Option.some.injEq, Prod.mk.injEq, Node.leaf.injEq] at h; simp [Node.leaves, h.2]
  | interior lv a b l r ihl ihr =>
    intro d ps x h
    rw [descend] at h
    rcases hb : bits[d]? with _ | (_ | _) <;> simp only [hb, reduceCtorEq] at h
    · obtain ⟨⟨ps', n'⟩, h1, h2⟩ := Option.map_eq_some_iff.mp h
      simp only [Prod.mk.injEq] at h2
      simp only [Node.leaves, List.mem_append]; left
      exact ihl _ ps' x (by rw [h1, h2.2])
    · obtain ⟨⟨ps', n'⟩, h1, h2⟩ := Option.map_eq_some_iff.mp h
      simp only [Prod.mk.injEq] at h2
      simp only [Node.leaves, List.mem_append]; right
      exact ihr _ ps' x (by rw [h1, h2.2])

/-- C16. In any tree whatsoever, the proof for an index that no leaf has is the proof the tree gives after all names, values
and salts in it have been erased. -/
theorem C16_absence_proof_redacted (m : MerkleTree) (i : Bytes) (h : ∀ l ∈ m.root.leaves, l.index ≠ i) :
    m.get i = (redact m).get i := by
  unfold MerkleTree.get
  simp only [redact, descend_redact]
  cases hd : descend (toBits i) 0 m.root with
  | none => rfl
  | some x =>
    obtain ⟨ps, n⟩ := x
    simp only [Option.map_some]
    cases n with
    | empty => rfl
    | interior => rfl
    | leaf l =>
      have := h l (descend_mem _ _ _ _ _ hd)
      simp only [redactNode, proofNodeOf, if_neg this]

/-- C16. Two trees that differ only in names, values and salts give the same proof of absence. -/
theorem C16_absence_proof_private (m₁ m₂ : MerkleTree) (i : Bytes) (same : redact m₁ = redact m₂)
    (h₁ : ∀ l ∈ m₁.root.leaves, l.index ≠ i) (h₂ : ∀ l ∈ m₂.root.leaves, l.index ≠ i) : m₁.get i = m₂.get i := by
  rw [C16_absence_proof_redacted m₁ i h₁, C16_absence_proof_redacted m₂ i h₂, same]

/-- C16. The proof itself carries no value and no salt (any tree). -/
theorem C16_no_value_no_salt (m : MerkleTree) (i : Bytes) (h : ∀ l ∈ m.root.leaves, l.index ≠ i) (ap : AuthPath)
    (hg : m.get i = some ap) :
    ∃ l, ap.leaf = some l ∧ l.value = none ∧ ∀ c, l.commitment = some c → c.salt = [] := by
  unfold MerkleTree.get at hg
  cases hd : descend (toBits i) 0 m.root with
  | none => simp [hd] at hg
  | some x =>
    obtain ⟨ps, n⟩ := x
    simp only [hd] at hg
    obtain ⟨pn, h1, h2⟩ := Option.map_eq_some_iff.mp hg
    subst h2
    refine ⟨pn, rfl, ?_⟩
    cases n with
    | interior => simp [proofNodeOf] at h1
    | empty => simp only [proofNodeOf, Option.some.injEq] at h1; subst h1; simp
    | leaf l =>
      simp only [proofNodeOf, if_neg (h l (descend_mem _ _ _ _ _ hd)), Option.some.injEq] at h1
      subst h1; simp

/-- two different one-user trees with the same redaction -/
example : redact ⟨[], .interior 0 none none (.leaf ⟨1, [1], [2], ix 1 0, ⟨[3], [9]⟩⟩) (.empty 1 [0x80]), []⟩ =
    redact ⟨[], .interior 0 none none (.leaf ⟨1, [7], [8], ix 1 0, ⟨[4], [9]⟩⟩) (.empty 1 [0x80]), []⟩ := rfl

end Coniks.Props

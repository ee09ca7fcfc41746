import Verif.Proofs.CliSafe
import Verif.Proofs.DirExact
import Verif.Proofs.Pid
import Verif.Proofs.Restart
import Verif.Spec.WireSize
/-
Proofs for C83: how long messages are.
-/
namespace Coniks
open Spec Json

/-! ### strings and numbers -/

theorem escAscii_length (a : UInt8) : (escAscii a).length ≤ 6 := by
  unfold escAscii
  repeat' split
  all_goals simp

/-- a character is written with at most six -/
theorem escAux_length : ∀ (s : Bytes) (m : Bool) (k : Nat), (escAux m k s).length ≤ 6 * s.length
  | [], m, k => by rw [escAux_nil]; simp
  | a :: t, m, k + 1 => by
    cases m with
    | true => have := escAux_length t true k; simp only [escAux, List.length_cons]; omega
    | false => have := escAux_length t false k; simp only [escAux, List.length_cons]; omega
  | a :: t, m, 0 => by
    rw [escAux_zero, escAux.eq_def]
    dsimp only
    split
    · have := escAux_length t true 0; simp only [List.length_append, List.length_cons, List.length_nil]; omega
    · have := escAux_length t true 0
      have := escAscii_length a
      simp only [List.length_append, List.length_cons]; omega
    · split
      · rw [List.length_append]
        refine Nat.le_trans (Nat.add_le_add_left (escAux_length t false _) _) ?_
        simp only [List.length_cons, List.length_nil]; omega
      · rw [List.length_cons]
        refine Nat.le_trans (Nat.add_le_add_right (escAux_length t true _) _) ?_
        simp only [List.length_cons]; omega

theorem quote_le (s : Bytes) : (quote s).length ≤ 6 * s.length + 2 := by
  have := escAux_length s true 0
  simp only [quote, List.length_cons, List.length_append, List.length_nil]; omega

/-- characters that are written as they are -/
def Plain (c : UInt8) : Prop := c < 0x80 ∧ escAscii c = [c]
instance (c : UInt8) : Decidable (Plain c) := by unfold Plain; infer_instance

theorem escAux_plain : ∀ (s : Bytes), (∀ c ∈ s, Plain c) → escAux true 0 s = s
  | [], _ => rfl
  | a :: t, h => by
    obtain ⟨h1, h2⟩ := h a (by simp)
    have h3 : utf8Head (a :: t) = 1 := by unfold utf8Head; exact if_pos h1
    rw [escAux.eq_def]
    dsimp only
    rw [h3]
    show escAscii a ++ escAux true 0 t = a :: t
    rw [h2, escAux_plain t (fun c hc => h c (by simp [hc]))]
    rfl

theorem b64Char_plain (n : Nat) (h : n < 64) : Plain (b64Char n) := by
  have : ∀ n : Fin 64, Plain (b64Char n.val) := by decide
  exact this ⟨n, h⟩

theorem b64Enc_plain : ∀ (b : Bytes), ∀ c ∈ b64Enc b, Plain c
  | [] => by simp [b64Enc]
  | [a] => by
    have ha := a.toNat_lt
    intro c hc
    simp only [b64Enc, List.mem_cons, List.not_mem_nil, or_false] at hc
    rcases hc with rfl | rfl | rfl | rfl
    · exact b64Char_plain _ (by omega)
    · exact b64Char_plain _ (by omega)
    · decide
    · decide
  | [a, b] => by
    have ha := a.toNat_lt
    have hb := b.toNat_lt
    intro c hc
    simp only [b64Enc, List.mem_cons, List.not_mem_nil, or_false] at hc
    rcases hc with rfl | rfl | rfl | rfl
    · exact b64Char_plain _ (by omega)
    · exact b64Char_plain _ (by omega)
    · exact b64Char_plain _ (by omega)
    · decide
  | a :: b :: d :: t => by
    have ha := a.toNat_lt
    have hb := b.toNat_lt
    have hd := d.toNat_lt
    intro c hc
    simp only [b64Enc, List.mem_cons] at hc
    rcases hc with rfl | rfl | rfl | rfl | hc
    · exact b64Char_plain _ (by omega)
    · exact b64Char_plain _ (by omega)
    · exact b64Char_plain _ (by omega)
    · exact b64Char_plain _ (by omega)
    · exact b64Enc_plain t c hc

theorem b64Enc_length : ∀ (b : Bytes), (b64Enc b).length = 4 * ((b.length + 2) / 3)
  | [] => rfl
  | [_] => by simp [b64Enc]
  | [_, _] => by simp [b64Enc]
  | a :: b :: d :: t => by
    have := b64Enc_length t
    simp only [b64Enc, List.length_cons, this]; omega

theorem bytes_length (b : Bytes) : (encBytes b).print.length = 4 * ((b.length + 2) / 3) + 2 := by
  unfold encBytes
  simp only [JVal.print, quote]
  rw [escAux_plain _ (b64Enc_plain b)]
  simp only [List.length_cons, List.length_append, List.length_nil, b64Enc_length]

theorem bytes_le {b : Bytes} {n : Nat} (h : b.length ≤ n) : (encBytes b).print.length ≤ 4 * ((n + 2) / 3) + 2 := by
  rw [bytes_length]; omega

theorem nat_le {n k : Nat} (h : n < 10 ^ (k + 1)) : (encNat n).print.length ≤ k + 1 := by
  show (decNat n).length ≤ k + 1
  by_cases h0 : n = 0
  · subst h0
    have : (decNat 0).length = 1 := by decide
    omega
  · exact (PidProofs.decNat_length (by omega) (k + 1)).mpr h

theorem elems_le_length {c : Nat} : ∀ {xs : List JVal}, (∀ v ∈ xs, v.print.length ≤ c) → (printElems xs).length ≤ (c + 1) * xs.length + 1
  | [], _ => by simp [printElems]
  | x :: xs, h => by
    have h1 := h x (by simp)
    have h2 := elems_le_length (xs := xs) (fun v hv => h v (by simp [hv]))
    simp only [printElems, List.length_cons, List.length_append, Nat.mul_add]; omega

theorem arr_le_length {c : Nat} {xs : List JVal} (h : ∀ v ∈ xs, v.print.length ≤ c) :
    (JVal.arr xs).print.length ≤ (c + 1) * xs.length + 2 := by
  cases xs with
  | nil => simp [JVal.print]
  | cons x xs =>
    have h1 := h x (by simp)
    have h2 := elems_le_length (xs := xs) (fun v hv => h v (by simp [hv]))
    simp only [JVal.print, List.length_cons, List.length_append, Nat.mul_add]; omega

theorem arr32_le (a : Arr32) : (encArr32 a).print.length ≤ 130 := by
  have h := arr_le_length (c := 3) (xs := a.1.map fun b => encNat b.toNat) (fun v hv => by
    obtain ⟨b, _, rfl⟩ := List.mem_map.mp hv
    have := b.toNat_lt
    exact nat_le (k := 2) (by omega))
  rw [List.length_map, a.2] at h
  exact h

theorem pruned_le (p : List Arr32) : (encSlice encArr32 p).print.length ≤ 131 * p.length + 4 := by
  cases p with
  | nil => simp [encSlice, JVal.print]
  | cons x xs =>
    have h := arr_le_length (c := 130) (xs := (x :: xs).map encArr32) (fun v hv => by
      obtain ⟨b, _, rfl⟩ := List.mem_map.mp hv
      exact arr32_le b)
    rw [List.length_map] at h
    exact Nat.le_trans h (by omega)

/-! ### the parts of an answer -/

theorem commit_le {c : Commit} (h1 : c.salt.length ≤ 32) (h2 : c.value.length ≤ 32) : (encCommit c).print.length ≤ 120 := by
  have a := bytes_le h1
  have b := bytes_le h2
  have k1 : (quote (ascii "Salt")).length = 6 := by decide
  have k2 : (quote (ascii "Value")).length = 7 := by decide
  simp only [encCommit, JVal.print, printMember, printMembers, List.length_cons, List.length_append, List.length_nil, k1, k2]
  omega

theorem node_le {n : ProofNode} (h1 : n.index.length ≤ 32) (h2 : ∀ c, n.commitment = some c → c.salt.length ≤ 32 ∧ c.value.length ≤ 32) :
    (encProofNode n).print.length ≤ 250 + (encOptBytes n.value).print.length := by
  have a := bytes_le h1
  have l : (encNat n.level.toNat).print.length ≤ 10 := nat_le (k := 9) (by have := n.level.toNat_lt; omega)
  have e : (JVal.bool n.isEmpty).print.length ≤ 5 := by cases n.isEmpty <;> simp [JVal.print]
  have c : (encPtr encCommit n.commitment).print.length ≤ 120 := by
    cases hc : n.commitment with
    | none => simp [encPtr, JVal.print]
    | some c => exact commit_le (h2 c hc).1 (h2 c hc).2
  have k1 : (quote (ascii "Level")).length = 7 := by decide
  have k2 : (quote (ascii "Index")).length = 7 := by decide
  have k3 : (quote (ascii "Value")).length = 7 := by decide
  have k4 : (quote (ascii "IsEmpty")).length = 9 := by decide
  have k5 : (quote (ascii "Commitment")).length = 12 := by decide
  unfold encProofNode
  rw [JVal.print]
  simp only [printMember, printMembers, List.length_cons, List.length_append, List.length_nil, k1, k2, k3, k4, k5]
  omega

/-- what everything but the levels and the key adds up to -/
theorem path_le {ap : AuthPath} {n : ProofNode} (h1 : ap.treeNonce.length ≤ 32) (h2 : ap.lookupIndex.length ≤ 32) (h3 : ap.vrfProof.length ≤ 96)
    (h4 : ap.leaf = some n) (h5 : (encProofNode n).print.length ≤ 250 + (encOptBytes n.value).print.length) :
    (encAuthPath ap).print.length ≤ 131 * ap.prunedTree.length + 560 + (encOptBytes n.value).print.length := by
  have a := bytes_le h1
  have b := bytes_le h2
  have c := bytes_le h3
  have p := pruned_le ap.prunedTree
  have k1 : (quote (ascii "TreeNonce")).length = 11 := by decide
  have k2 : (quote (ascii "PrunedTree")).length = 12 := by decide
  have k3 : (quote (ascii "LookupIndex")).length = 13 := by decide
  have k4 : (quote (ascii "VrfProof")).length = 10 := by decide
  have k5 : (quote (ascii "Leaf")).length = 6 := by decide
  unfold encAuthPath
  rw [JVal.print, h4]
  simp only [printMember, printMembers, List.length_cons, List.length_append, List.length_nil, k1, k2, k3, k4, k5, encPtr]
  omega

theorem u64_le (x : UInt64) : (encNat x.toNat).print.length ≤ 20 := nat_le (k := 19) (by have := x.toNat_lt; omega)

theorem policies_le {p : Policies} (h : StdPol p) (h1 : p.vrfPublicKey.length ≤ 32) : (encPolicies p).print.length ≤ 160 := by
  have a := bytes_le h1
  have b := u64_le p.epochDeadline
  have v : (JVal.str p.version).print.length = 5 := by rw [h.1]; decide
  have w : (JVal.str p.hashID).print.length = 10 := by rw [h.2]; decide
  have k1 : (quote (ascii "Version")).length = 9 := by decide
  have k2 : (quote (ascii "HashID")).length = 8 := by decide
  have k3 : (quote (ascii "VrfPublicKey")).length = 14 := by decide
  have k4 : (quote (ascii "EpochDeadline")).length = 15 := by decide
  unfold encPolicies
  rw [JVal.print]
  simp only [printMember, printMembers, List.length_cons, List.length_append, List.length_nil, k1, k2, k3, k4]
  omega

theorem str_le {s : STR} (h : StdPol s.ad) (h1 : s.ad.vrfPublicKey.length ≤ 32) (h2 : s.core.treeHash.length ≤ 32)
    (h3 : s.core.previousSTRHash.length ≤ 32) (h4 : s.core.signature.length ≤ 64) : (encSTR s.toDir).print.length ≤ 480 := by
  have a := bytes_le h2
  have b := bytes_le h3
  have c := bytes_le h4
  have d := policies_le h h1
  have e := u64_le s.core.epoch
  have f := u64_le s.core.previousEpoch
  have k1 : (quote (ascii "TreeHash")).length = 10 := by decide
  have k2 : (quote (ascii "Epoch")).length = 7 := by decide
  have k3 : (quote (ascii "PreviousEpoch")).length = 15 := by decide
  have k4 : (quote (ascii "PreviousSTRHash")).length = 17 := by decide
  have k5 : (quote (ascii "Signature")).length = 11 := by decide
  have k6 : (quote (ascii "Policies")).length = 10 := by decide
  unfold encSTR
  rw [JVal.print]
  simp only [printMember, printMembers, List.length_cons, List.length_append, List.length_nil, k1, k2, k3, k4, k5, k6, STR.toDir, encPtr]
  omega

theorem tb_le {t : TB} (h1 : t.index.length ≤ 32) (h2 : t.signature.length ≤ 64) : (encTB t).print.length ≤ 170 + (encBytes t.value).print.length := by
  have a := bytes_le h1
  have b := bytes_le h2
  have k1 : (quote (ascii "Index")).length = 7 := by decide
  have k2 : (quote (ascii "Value")).length = 7 := by decide
  have k3 : (quote (ascii "Signature")).length = 11 := by decide
  unfold encTB
  rw [JVal.print]
  simp only [printMember, printMembers, List.length_cons, List.length_append, List.length_nil, k1, k2, k3]
  omega

theorem decInt_code (e : Int) (h : 100 ≤ e ∧ e ≤ 106) : (encInt e).print.length = 3 := by
  have : ∀ i : Fin 7, (encInt (100 + (i.val : Int))).print.length = 3 := by decide
  obtain ⟨h1, h2⟩ := h
  have := this ⟨(e - 100).toNat, by omega⟩
  rwa [show (100 : Int) + ((e - 100).toNat : Int) = e by omega] at this

/-- the whole answer: one path, one STR, perhaps a promise -/
theorem single_le {ap : AuthPath} {s : DirSTR} {tb : Option TB} {e : ErrorCode} (he : 100 ≤ e ∧ e ≤ 106) (a b c : Nat)
    (h1 : (encAuthPath ap).print.length ≤ a) (h2 : (encSTR s).print.length ≤ b)
    (h3 : ∀ t, tb = some t → (encTB t).print.length ≤ c) :
    (marshalResponse (newSingleProof ap s tb e)).length ≤ a + b + c + 70 := by
  have k := decInt_code e he
  have k1 : (quote (ascii "Error")).length = 7 := by decide
  have k2 : (quote (ascii "DirectoryResponse")).length = 19 := by decide
  have k3 : (quote (ascii "AP")).length = 4 := by decide
  have k4 : (quote (ascii "STR")).length = 5 := by decide
  have k5 : (quote (ascii "TB")).length = 4 := by decide
  unfold marshalResponse encResponse newSingleProof
  dsimp only
  unfold encProof
  cases tb with
  | none =>
    simp only [List.append_nil, encSlice, List.map_cons, List.map_nil, encPtr]
    rw [JVal.print]
    simp only [printMember, printMembers, List.length_cons, List.length_append, List.length_nil, k1, k2]
    rw [JVal.print]
    simp only [printMember, printMembers, List.length_cons, List.length_append, List.length_nil, k3, k4]
    rw [JVal.print, JVal.print]
    simp only [printElems, List.length_cons, List.length_append, List.length_nil, k]
    omega
  | some t =>
    have h3' := h3 t rfl
    simp only [List.cons_append, List.nil_append, encSlice, List.map_cons, List.map_nil, encPtr]
    rw [JVal.print]
    simp only [printMember, printMembers, List.length_cons, List.length_append, List.length_nil, k1, k2]
    rw [JVal.print]
    simp only [printMember, printMembers, List.length_cons, List.length_append, List.length_nil, k3, k4, k5]
    rw [JVal.print, JVal.print]
    simp only [printElems, List.length_cons, List.length_append, List.length_nil, k]
    omega

/-! ### the state of an honest directory -/

/-- what is filed came from registrations: short keys, salts of 32 bytes, indices of registered names -/
structure FiledOK (idx : Bytes → Bytes) (K : Nat) (ns : List Bytes) (E : ExactDir) : Prop where
  committed : ∀ i x, E.committed i = some x → x.key.length ≤ K ∧ x.salt.length = 32 ∧ ∃ n ∈ ns, i = idx n
  tree : ∀ i x, E.tree i = some x → x.key.length ≤ K ∧ x.salt.length = 32 ∧ ∃ n ∈ ns, i = idx n
  promised : ∀ n k, E.promised n = some k → k.length ≤ K

theorem FiledOK.init (idx : Bytes → Bytes) (K : Nat) (ns : List Bytes) : FiledOK idx K ns ExactDir.init :=
  ⟨fun _ _ h => (nomatch h), fun _ _ h => (nomatch h), fun _ _ h => (nomatch h)⟩

theorem FiledOK.step {C : Crypto} {idx : Bytes → Bytes} {K : Nat} {ns : List Bytes} {E : ExactDir} (h : FiledOK idx K ns E) (op : DirOp)
    (hk : ∀ rnd req, op = .register rnd req → req.key.length ≤ K ∧ req.username ∈ ns) : FiledOK idx K ns (E.step idx C.hash op) := by
  cases op with
  | register rnd req =>
    obtain ⟨h1, h2⟩ := hk rnd req rfl
    cases rnd with
    | none => exact h
    | some r =>
      unfold ExactDir.step
      dsimp only
      split
      · refine ⟨h.committed, ?_, ?_⟩
        · intro i x hx
          simp only [ExactDir.file] at hx
          split at hx
          · rename_i hi
            cases hx
            exact ⟨h1, C.hash_length _, _, h2, hi⟩
          · exact h.tree i x hx
        · intro n k hn
          simp only [ExactDir.file] at hn
          split at hn
          · cases hn; exact h1
          · exact h.promised n k hn
      · exact h
  | update => exact ⟨h.tree, h.tree, fun _ _ h => (nomatch h)⟩
  | _ => exact h

theorem FiledOK.after {C : Crypto} {idx : Bytes → Bytes} {K : Nat} {ns : List Bytes} : ∀ (ops : List DirOp) (E : ExactDir), FiledOK idx K ns E →
    (∀ rnd req, .register rnd req ∈ ops → req.key.length ≤ K ∧ req.username ∈ ns) → FiledOK idx K ns (ops.foldl (ExactDir.step idx C.hash) E)
  | [], _, h, _ => h
  | op :: ops, E, h, hk => FiledOK.after (C := C) ops _ (h.step (C := C) op (fun rnd req e => hk rnd req (by rw [e]; simp)))
      (fun rnd req hm => hk rnd req (by simp [hm]))

theorem mem_requestedNames {rnd : Option Bytes} {req : RegistrationRequest} {ops : List DirOp} (h : .register rnd req ∈ ops) :
    req.username ∈ requestedNames ops := List.mem_filterMap.mpr ⟨_, h, rfl⟩

/-- the sizes of everything an answer is made of -/
structure Sized (C : Crypto) (sk vk : Bytes) (K D : Nat) (d : Directory) : Prop where
  skEq : d.pad.signKey = sk
  vkEq : d.pad.vrfKey = vk
  tree : TreeInv C 256 d.pad.latest.tree
  nonce : d.pad.latest.tree.nonce.length ≤ 32
  std : StdPol d.pad.latest.ad
  pub : d.pad.latest.ad.vrfPublicKey.length ≤ 32
  th : d.pad.latest.core.treeHash.length ≤ 32
  prev : d.pad.latest.core.previousSTRHash.length ≤ 32
  sig : d.pad.latest.core.signature.length ≤ 64
  leaves : ∀ l ∈ d.pad.latest.tree.root.leaves, l.index.length ≤ 32 ∧ l.value.length ≤ K ∧ l.commit.salt.length ≤ 32 ∧ l.commit.value.length ≤ 32
  apart : ∀ l₁ ∈ d.pad.latest.tree.root.leaves, ∀ l₂ ∈ d.pad.latest.tree.root.leaves, l₁.index ≠ l₂.index →
    (toBits l₁.index).take D ≠ (toBits l₂.index).take D
  tbs : ∀ n t, d.tbs n = some t → t.index.length ≤ 32 ∧ t.value.length ≤ K ∧ t.signature.length ≤ 64

theorem sized_after {C : Crypto} {t0 : UInt64} {sk vk : Bytes} {size : Nat} {r₁ r₂ : Bytes} {ops : List DirOp} {d : Directory}
    {log : List STR} (h : dirAfter C t0 sk vk size r₁ r₂ ops = some (d, log)) (hlt : dirUpdates ops < 2 ^ 64) {K D : Nat}
    (hv : (C.vrfPub vk).length ≤ 32) (hk : KeysWithin K ops) (hD : PartWithin D (fun n => (C.vrfProve vk n).1) (requestedNames ops)) :
    Sized C sk vk K D d := by
  obtain ⟨inv, hlen⟩ := dirAfter_exact C t0 sk vk size r₁ r₂ ops hlt d log h
  have filed : FiledOK (fun n => (C.vrfProve vk n).1) K (requestedNames ops) (exactAfter (fun n => (C.vrfProve vk n).1) C.hash ops) :=
    FiledOK.after (C := C) ops _ (FiledOK.init _ _ _) (fun rnd req hm => ⟨hk rnd req hm, mem_requestedNames hm⟩)
  have hlat := inv.pad.latest_mem
  have ok := inv.pad.snap _ hlat
  -- the first epoch
  have h0 : ∃ d0, dirAfter C t0 sk vk size r₁ r₂ [] = some (d0, [d0.pad.latest]) ∧ d0.pad.latest.core.previousSTRHash = C.hash r₂ ∧
      d0.pad.latest.tree.nonce = C.hash r₁ := by
    obtain ⟨d0, h0, i0, _, _, _, hn⟩ := new_dir_inv C t0 sk vk size r₁ r₂ []
    refine ⟨d0, by simp only [dirAfter, h0, Option.bind_some, Directory.runLog], ?_, by rw [i0.pad.nonce _ (by simp), hn]⟩
    simp only [newDirectory, newPAD, newMerkleTree, Crypto.makeRand, Crypto.digest, Option.map_some, if_true, Option.some.injEq] at h0
    rw [← h0]
    simp [PAD.updateInternal, newSTR]
  obtain ⟨d0, h0, hp0, hn0⟩ := h0
  obtain ⟨ext, hext⟩ := dirAfter_prefix C t0 sk vk size r₁ r₂ [] ops d log h d0 _ h0
  have hnonce : d.pad.latest.tree.nonce = C.hash r₁ := by
    rw [inv.pad.nonce _ hlat, ← inv.pad.nonce d0.pad.latest (by rw [hext]; simp), hn0]
  have hprev : d.pad.latest.core.previousSTRHash.length = 32 := by
    have hg := inv.pad.latest_get
    cases hl : log.length - 1 with
    | zero =>
      rw [hl, hext] at hg
      simp only [List.cons_append, List.getElem?_cons_zero, Option.some.injEq] at hg
      rw [← hg, hp0]; exact C.hash_length _
    | succ e =>
      rw [hl] at hg
      have he : e < log.length := by omega
      rw [inv.pad.chain e log[e] _ (List.getElem?_eq_getElem he) hg]
      exact C.hash_length _
  obtain ⟨t, ht⟩ := (after_policies h).2.2
  have leaf : ∀ l ∈ d.pad.latest.tree.root.leaves, l.index.length ≤ 32 ∧ l.value.length ≤ K ∧ l.commit.salt.length ≤ 32 ∧
      l.commit.value.length ≤ 32 ∧ ∃ n ∈ requestedNames ops, l.index = (C.vrfProve vk n).1 := by
    intro l hl
    obtain ⟨s1, s2⟩ := inv.latest_holds.sound l.binding (List.mem_map_of_mem hl)
    obtain ⟨f1, f2, n, f3, f4⟩ := filed.committed _ _ s1
    have f4' : l.index = (C.vrfProve vk n).1 := f4
    refine ⟨by rw [f4', C.vrf_length]; exact Nat.le_refl _, f1, Nat.le_of_eq f2, ?_, n, f3, f4'⟩
    rw [show l.commit.value = l.binding.commit from rfl, s2, C.hash_length]; exact Nat.le_refl _
  exact {
    skEq := inv.skEq
    vkEq := inv.vkEq
    tree := ok.inv
    nonce := by rw [hnonce, C.hash_length]; exact Nat.le_refl _
    std := (after_std h).latest
    pub := by rw [ht]; exact hv
    th := by rw [ok.core, ok.hash, pureHash_length]; exact Nat.le_refl _
    prev := Nat.le_of_eq hprev
    sig := by rw [inv.pad.sig _ hlat, C.sign_length]; exact Nat.le_refl _
    leaves := fun l hl => let x := leaf l hl; ⟨x.1, x.2.1, x.2.2.1, x.2.2.2.1⟩
    apart := by
      intro l₁ h1 l₂ h2 hne
      obtain ⟨_, _, _, _, a, ha, ea⟩ := leaf l₁ h1
      obtain ⟨_, _, _, _, b, hb, eb⟩ := leaf l₂ h2
      rw [toBits_eq_bitsOf, toBits_eq_bitsOf, ea, eb]
      rw [ea, eb] at hne
      exact hD a ha b hb hne
    tbs := by
      intro n t ht
      rw [inv.tbs n] at ht
      obtain ⟨k, hk', rfl⟩ := Option.map_eq_some_iff.mp ht
      exact ⟨by rw [show (promise C sk vk d.pad.latest.core.signature n k).index = (C.vrfProve vk n).1 from rfl, C.vrf_length]; exact Nat.le_refl _,
        filed.promised n k hk', by
          rw [show (promise C sk vk d.pad.latest.core.signature n k).signature = C.sign sk _ from rfl, C.sign_length]; exact Nat.le_refl _⟩ }

/-! ### answers -/

/-- the path an answer carries: at most `D` levels; no value unless the name is found -/
theorem path_sized {C : Crypto} {sk vk : Bytes} {K D : Nat} {d : Directory} (z : Sized C sk vk K D d) (hD : 1 ≤ D) {n : Bytes}
    (hp : (C.vrfProve vk n).2.length ≤ 96) {ap : AuthPath} (h : d.pad.lookup C n = some (some ap)) :
    (encAuthPath ap).print.length ≤ 131 * D + 560 + (4 * ((K + 2) / 3) + 4) ∧
    (ap.found = some false → (encAuthPath ap).print.length ≤ 131 * D + 560 + 4) := by
  have hlen : (C.vrfProve d.pad.vrfKey n).1.length = 32 := C.vrf_length _ _
  obtain ⟨ap', q, pn, hget, post⟩ := get_spec C (8 * 32) d.pad.latest.tree z.tree (C.vrfProve d.pad.vrfKey n).1
    (by rw [toBits_length, hlen])
  have hap : ap = { ap' with vrfProof := (C.vrfProve d.pad.vrfKey n).2 } := by
    have : d.pad.getSTR d.pad.latest.core.epoch = some d.pad.latest := by simp [PAD.getSTR]
    simp only [PAD.lookup, PAD.lookupInEpoch, this, hget, Option.map_some, Option.some.injEq] at h
    exact h.symm
  subst hap
  have hq : q.length ≤ 256 := by have := post.pre.length_le; rw [toBits_length, hlen] at this; exact this
  have depth : q.length ≤ D := by
    by_cases h2 : 2 ≤ q.length
    · obtain ⟨l1, m1, l2, m2, hne, p1, p2⟩ := post.deep h2
      refine Decidable.byContradiction fun hgt => ?_
      refine z.apart l1 m1 l2 m2 hne ?_
      have hDq : D ≤ (q.take (q.length - 1)).length := by rw [List.length_take]; omega
      obtain ⟨e1, h1⟩ := p1
      obtain ⟨e2, h2⟩ := p2
      rw [← h1, ← h2, List.take_append_of_le_length hDq, List.take_append_of_le_length hDq]
    · omega
  have idx32 : pn.index.length ≤ 32 ∧ (∀ c, pn.commitment = some c → c.salt.length ≤ 32 ∧ c.value.length ≤ 32) := by
    rcases post.cases with ⟨x, hx, _, rfl⟩ | ⟨_, x, hx, _, rfl⟩ | ⟨_, rfl, _⟩
    · obtain ⟨a, b, c, e⟩ := z.leaves x hx
      exact ⟨a, fun c' hc => by cases hc; exact ⟨c, e⟩⟩
    · obtain ⟨a, b, c, e⟩ := z.leaves x hx
      exact ⟨a, fun c' hc => by cases hc; exact ⟨by simp, e⟩⟩
    · refine ⟨?_, fun c' hc => nomatch hc⟩
      show (toBytes q).length ≤ 32
      rw [toBytes_length]; omega
  have base := path_le (ap := { ap' with vrfProof := (C.vrfProve d.pad.vrfKey n).2 }) (n := pn)
    (by show ap'.treeNonce.length ≤ 32; rw [post.nonce]; exact z.nonce)
    (by show ap'.lookupIndex.length ≤ 32; rw [post.lookup, hlen]; exact Nat.le_refl _)
    (by show (C.vrfProve d.pad.vrfKey n).2.length ≤ 96; rw [z.vkEq]; exact hp) post.leaf (node_le idx32.1 idx32.2)
  have hpl : ({ ap' with vrfProof := (C.vrfProve d.pad.vrfKey n).2 } : AuthPath).prunedTree.length = q.length := post.plen
  rw [hpl] at base
  have nul : (encOptBytes none).print.length = 4 := by decide
  have val : (encOptBytes pn.value).print.length ≤ 4 * ((K + 2) / 3) + 4 := by
    rcases post.cases with ⟨x, hx, _, rfl⟩ | ⟨_, x, hx, _, rfl⟩ | ⟨_, rfl, _⟩
    · obtain ⟨a, b, c, e⟩ := z.leaves x hx
      have := bytes_le b
      exact Nat.le_trans this (by omega)
    · show (encOptBytes none).print.length ≤ _; omega
    · show (encOptBytes none).print.length ≤ _; omega
  refine ⟨by omega, fun hf => ?_⟩
  have hv : pn.value = none := by
    rcases post.cases with ⟨x, hx, hxi, rfl⟩ | ⟨_, x, hx, _, rfl⟩ | ⟨_, rfl, _⟩
    · exfalso
      simp only [AuthPath.found, post.leaf, Option.map_some, Option.some.injEq, beq_eq_false_iff_ne, ne_eq] at hf
      exact hf (post.lookup.trans hxi.symm)
    · rfl
    · rfl
  rw [hv, nul] at base
  omega

/-- the length of the longest answer with keys of at most `K` bytes and paths of at most `D` levels -/
def answerBound (K D : Nat) : Nat := 131 * D + 4 * ((K + 2) / 3) + 1290

theorem error_le (e : ErrorCode) (he : 100 ≤ e ∧ e ≤ 106) : (marshalResponse (newErrorResponse e)).length ≤ 20 := by
  have k := decInt_code e he
  have k1 : (quote (ascii "Error")).length = 7 := by decide
  unfold marshalResponse encResponse newErrorResponse
  dsimp only
  rw [JVal.print]
  simp only [printMember, printMembers, List.length_cons, List.length_append, List.length_nil, k1, k]
  omega

theorem lookup_sized {C : Crypto} {sk vk : Bytes} {K D : Nat} {d : Directory} (z : Sized C sk vk K D d) (hD : 1 ≤ D) {req : KeyLookupRequest}
    (hp : (C.vrfProve vk req.username).2.length ≤ 96) {r : Response} (h : d.keyLookup C req = some r) :
    (marshalResponse r).length ≤ answerBound K D := by
  have hs := str_le z.std z.pub z.th z.prev z.sig
  unfold answerBound
  unfold Directory.keyLookup at h
  split at h
  · cases h; have := error_le ErrMalformedMessage (by decide); omega
  · split at h
    · cases h
    · cases h; have := error_le ErrDirectory (by decide); omega
    · rename_i ap hap
      obtain ⟨p1, p2⟩ := path_sized z hD hp hap
      split at h
      · cases h
      · cases h
        have := single_le (tb := none) (e := ReqSuccess) (by decide) _ _ 0 p1 hs (fun t ht => nomatch ht)
        refine Nat.le_trans this ?_; omega
      · rename_i hf
        have p2 := p2 hf
        split at h
        · rename_i tb htb
          cases h
          have ht : d.tbs req.username = some tb := by
            split at htb
            · exact htb
            · cases htb
          obtain ⟨t1, t2, t3⟩ := z.tbs _ _ ht
          have := single_le (tb := some tb) (e := ReqSuccess) (by decide) _ _ (170 + (4 * ((K + 2) / 3) + 2)) p2 hs (fun t ht => by
            cases ht
            exact Nat.le_trans (tb_le t1 t3) (by have := bytes_le t2; omega))
          refine Nat.le_trans this ?_; omega
        · cases h
          have := single_le (tb := none) (e := ReqNameNotFound) (by decide) _ _ 0 p2 hs (fun t ht => nomatch ht)
          refine Nat.le_trans this ?_; omega

theorem register_sized {C : Crypto} {sk vk : Bytes} {K D : Nat} {d d' : Directory} (z : Sized C sk vk K D d) (hD : 1 ≤ D)
    {rnd : Option Bytes} {req : RegistrationRequest} (hK : req.key.length ≤ K)
    (hp : (C.vrfProve vk req.username).2.length ≤ 96) {r : Response} (h : d.register C rnd req = some (d', r)) :
    (marshalResponse r).length ≤ answerBound K D := by
  have hs := str_le z.std z.pub z.th z.prev z.sig
  unfold answerBound
  unfold Directory.register at h
  split at h
  · cases h; have := error_le ErrMalformedMessage (by decide); omega
  · split at h
    · cases h
    · cases h; have := error_le ErrDirectory (by decide); omega
    · rename_i ap hap
      obtain ⟨p1, p2⟩ := path_sized z hD hp hap
      split at h
      · cases h
      · cases h
        have := single_le (tb := none) (e := ReqNameExisted) (by decide) _ _ 0 p1 hs (fun t ht => nomatch ht)
        refine Nat.le_trans this ?_; omega
      · rename_i hf
        have p2 := p2 hf
        split at h
        · rename_i tb htb
          cases h
          have ht : d.tbs req.username = some tb := by
            split at htb
            · exact htb
            · cases htb
          obtain ⟨t1, t2, t3⟩ := z.tbs _ _ ht
          have := single_le (tb := some tb) (e := ReqNameExisted) (by decide) _ _ (170 + (4 * ((K + 2) / 3) + 2)) p2 hs (fun t ht => by
            cases ht
            exact Nat.le_trans (tb_le t1 t3) (by have := bytes_le t2; omega))
          refine Nat.le_trans this ?_; omega
        · simp only at h
          split at h
          · cases h
          · cases h; have := error_le ErrDirectory (by decide); omega
          · rename_i pad' hset
            cases h
            have hl : pad'.latest = d.pad.latest := by
              unfold PAD.set at hset
              obtain ⟨x, _, hx⟩ := Option.map_eq_some_iff.mp hset
              simp only [Prod.mk.injEq] at hx
              rw [← hx.1]
            have := single_le (ap := ap) (s := pad'.latest.toDir) (tb := if d.useTBs then some (d.newTB C req.username req.key) else none) (e := ReqSuccess) (by decide) _ _
              (170 + (4 * ((K + 2) / 3) + 2)) p2 (by rw [hl]; exact hs) (fun t ht => by
                split at ht
                · cases ht
                  refine Nat.le_trans (tb_le ?_ ?_) (by have := bytes_le hK; exact Nat.add_le_add_left this _)
                  · show (C.vrfProve d.pad.vrfKey req.username).1.length ≤ 32
                    rw [C.vrf_length]; exact Nat.le_refl _
                  · show (C.sign d.pad.signKey _).length ≤ 64
                    rw [C.sign_length]; exact Nat.le_refl _
                · cases ht)
            refine Nat.le_trans this ?_; omega

/-! ### requests -/

theorem lookupMsg_le (n : Bytes) : (createKeyLookupMsg n).length ≤ 6 * n.length + 60 := by
  have k0 : (encInt KeyLookupType).print.length = 1 := by decide
  have k1 : (quote (ascii "Type")).length = 6 := by decide
  have k2 : (quote (ascii "Request")).length = 9 := by decide
  have k3 : (quote (ascii "Username")).length = 10 := by decide
  have k4 : (quote (ascii "Key")).length = 5 := by decide
  have nul : (encOptBytes none).print.length = 4 := by decide
  have q := quote_le n
  unfold createKeyLookupMsg encRequest encRegistration
  rw [JVal.print]
  simp only [printMember, printMembers, List.length_cons, List.length_append, List.length_nil, k0, k1, k2]
  rw [JVal.print]
  simp only [printMember, printMembers, List.length_cons, List.length_append, List.length_nil, k3, k4, nul]
  rw [JVal.print]
  omega

theorem registrationMsg_le (n k : Bytes) : (createRegistrationMsg n (some k)).length ≤ 6 * n.length + 4 * ((k.length + 2) / 3) + 60 := by
  have k0 : (encInt RegistrationType).print.length = 1 := by decide
  have k1 : (quote (ascii "Type")).length = 6 := by decide
  have k2 : (quote (ascii "Request")).length = 9 := by decide
  have k3 : (quote (ascii "Username")).length = 10 := by decide
  have k4 : (quote (ascii "Key")).length = 5 := by decide
  have b := bytes_length k
  have q := quote_le n
  unfold createRegistrationMsg encRequest encRegistration
  rw [JVal.print]
  simp only [printMember, printMembers, List.length_cons, List.length_append, List.length_nil, k0, k1, k2]
  rw [JVal.print]
  simp only [printMember, printMembers, List.length_cons, List.length_append, List.length_nil, k3, k4, encOptBytes]
  rw [JVal.print]
  omega

/-! ### sessions -/

theorem requestedNames_append (a b : List DirOp) : requestedNames (a ++ b) = requestedNames a ++ requestedNames b := by
  simp [requestedNames]

theorem allFit_of {C : Crypto} {t0 : UInt64} {sk vk : Bytes} {size : Nat} {r₁ r₂ : Bytes} {K D N : Nat} (hD : 1 ≤ D)
    (hv : VrfSizes C vk) (hA : answerBound K D ≤ 8192) (hN : 6 * N + 4 * ((K + 2) / 3) + 60 ≤ 8192) : ∀ (ops : List SesOp) (pre : List DirOp) (d : Directory) (log : List STR),
    dirAfter C t0 sk vk size r₁ r₂ pre = some (d, log) → dirUpdates (pre ++ ops.map SesOp.dirOp) < 2 ^ 64 →
    KeysWithin K (pre ++ ops.map SesOp.dirOp) → PartWithin D (fun n => (C.vrfProve vk n).1) (requestedNames (pre ++ ops.map SesOp.dirOp)) →
    NamesWithin N ops → AllFit C d ops = true
  | [], _, _, _, _, _, _, _, _ => rfl
  | op :: ops, pre, d, log, h, hlt, hk, hp, hn => by
    have z : Sized C sk vk K D d := sized_after h (by rw [dirUpdates_append] at hlt; omega) hv.1
      (fun rnd req hm => hk rnd req (List.mem_append_left _ hm))
      (fun a ha b hb => hp a (by rw [requestedNames_append]; exact List.mem_append_left _ ha) b
        (by rw [requestedNames_append]; exact List.mem_append_left _ hb))
    have hreq : requestFits op = true := by
      have := hn op (by simp)
      cases op with
      | dir _ => rfl
      | lookup n k =>
        have := lookupMsg_le n
        simp only [requestFits, decide_eq_true_eq]
        have h6 : n.length ≤ N := hn (.lookup n k) (by simp)
        omega
      | register rnd n k =>
        have := registrationMsg_le n k
        simp only [requestFits, decide_eq_true_eq]
        have h6 : n.length ≤ N := hn (.register rnd n k) (by simp)
        have h7 : k.length ≤ K := hk rnd ⟨n, k⟩ (by simp [SesOp.dirOp])
        omega
    simp only [AllFit, hreq, Bool.true_and]
    cases hs : d.step C op.dirOp with
    | none => rfl
    | some x =>
      obtain ⟨d', r⟩ := x
      obtain ⟨log', h'⟩ := dirAfter_step h hs
      have rest : AllFit C d' ops = true := allFit_of hD hv hA hN ops (pre ++ [op.dirOp]) d' log' h'
        (by simpa [List.append_assoc] using hlt) (by simpa [List.append_assoc] using hk) (by simpa [List.append_assoc] using hp)
        (fun o ho => hn o (by simp [ho]))
      simp only [rest, Bool.and_true]
      cases op with
      | dir _ => cases r <;> rfl
      | lookup n k =>
        cases r with
        | none => rfl
        | some r =>
          simp only [SesOp.dirOp, Directory.step] at hs
          obtain ⟨y, hy, he⟩ := Option.map_eq_some_iff.mp hs
          cases he
          simp only [answerFits, decide_eq_true_eq]
          exact Nat.le_trans (lookup_sized z hD (hv.2 _) hy) hA
      | register rnd n k =>
        cases r with
        | none => rfl
        | some r =>
          simp only [SesOp.dirOp, Directory.step] at hs
          obtain ⟨⟨y1, y2⟩, hy, he⟩ := Option.map_eq_some_iff.mp hs
          cases he
          simp only [answerFits, decide_eq_true_eq]
          exact Nat.le_trans (register_sized z hD (hk rnd ⟨n, k⟩ (by simp [SesOp.dirOp])) (hv.2 _) hy) hA

end Coniks

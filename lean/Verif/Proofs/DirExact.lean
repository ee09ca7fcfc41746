import Verif.Spec.DirExact
import Verif.Proofs.DirReads
import Verif.Proofs.TreeDeep
/-
The directory exactly as it is, for every VRF.
-/
namespace Coniks
open Spec

/-- What `Get` of an absent index returns, in terms of the leaves of the tree. -/
theorem absent_leaves (C : Crypto) (n : Nat) (hn : 2 ≤ n) (m : MerkleTree) (inv : TreeInv C (8 * n) m) (P : Bytes → Prop)
    (hP : ∀ i, P i ↔ ∃ l ∈ m.root.leaves, l.index = i) (i : Bytes)
    (hi : i.length = n) (hset : ¬ P i) (ap : AuthPath) (q : List Bool) (pn : ProofNode)
    (hg : m.get i = some ap) (post : GetPost C (8 * n) m i ap q pn) :
    pn.value = none ∧ (pn.index = i ↔ DeepIn n P i) ∧ (pn.index = i → pn.commitment = none) := by
  have hno : ∀ l ∈ m.root.leaves, l.index ≠ i := fun l hl e => hset ((hP i).mpr ⟨l, hl, e⟩)
  have hil : (bitsOf i).length = 8 * n := by rw [bitsOf_length, hi]
  have hib : (toBits i).length = 8 * n := by rw [toBits_eq_bitsOf]; exact hil
  have hql := post.q_le hib
  have hqe : q = (bitsOf i).take q.length := by
    obtain ⟨t, ht⟩ := post.pre
    rw [← toBits_eq_bitsOf, ← ht]; simp
  obtain ⟨b1, b2⟩ := get_bottom C (8 * n) m inv i hib ap pn hg post.leaf
  rw [post.plen, toBits_eq_bitsOf] at b1 b2
  have deepTo : DeepIn n P i → (∀ l ∈ m.root.leaves, ¬ q <+: bitsOf l.index) ∧
      8 * (n - 1) < q.length ∧ (bitsOf i).drop q.length = List.replicate (8 * n - q.length) false := by
    rintro ⟨L, h1, h2, ⟨j, k, sj, sk, ne, ej, ek⟩, h4, h5⟩
    have hqL : q.length = L := by
      rcases Nat.lt_trichotomy q.length L with hlt | he | hgt
      · exfalso
        obtain ⟨l1, m1, rfl⟩ := (hP _).mp sj
        obtain ⟨l2, m2, rfl⟩ := (hP _).mp sk
        have pr : ∀ x : List Bool, x.take (L - 1) = (bitsOf i).take (L - 1) → (bitsOf i).take q.length <+: x := by
          intro x e
          have : (bitsOf i).take q.length = x.take q.length := by
            have := congrArg (List.take q.length) e
            rwa [List.take_take, List.take_take, Nat.min_eq_left (by omega), eq_comm] at this
          rw [this]; exact List.take_prefix _ _
        exact ne (congrArg Leaf.index (b1 l1 m1 l2 m2 (by rw [toBits_eq_bitsOf]; exact pr _ ej)
          (by rw [toBits_eq_bitsOf]; exact pr _ ek)))
      · exact he
      · exfalso
        obtain ⟨l1, m1, _, _, _, p1, _⟩ := post.deep (by omega)
        refine h4 l1.index ((hP _).mpr ⟨l1, m1, rfl⟩) ?_
        rw [toBits_eq_bitsOf] at p1
        obtain ⟨t, ht⟩ := p1
        rw [← ht, List.take_append_of_le_length (by simp; omega), List.take_take, Nat.min_eq_left (by omega), hqe,
          List.take_take, Nat.min_eq_left (by omega)]
    refine ⟨fun l hl hpre => ?_, by omega, by rw [hqL]; exact h5⟩
    refine h4 l.index ((hP _).mpr ⟨l, hl, rfl⟩) ?_
    obtain ⟨t, ht⟩ := hpre
    rw [← ht, ← hqL, List.take_append_of_le_length (by simp), List.take_of_length_le (by simp)]
    exact hqe
  rcases post.cases with ⟨l, hl, e, rfl⟩ | ⟨_, l, hl, hne, rfl⟩ | ⟨_, hpn, hdeep⟩
  · exact absurd e (hno l hl)
  · refine ⟨rfl, ⟨fun e => absurd e hne, fun d => ?_⟩, fun e => absurd e hne⟩
    have := (deepTo d).1 l hl
    exact absurd (by rw [← toBits_eq_bitsOf]; exact post.index) this
  · refine ⟨by rw [hpn]; rfl, ?_, fun _ => by rw [hpn]; rfl⟩
    have hq8 : q = (toBits i).take q.length := by rw [toBits_eq_bitsOf]; exact hqe
    have key := toBytes_take_eq i n q.length (by omega) hi hql
    rw [← hq8] at key
    rw [show pn.index = toBytes q by rw [hpn]; rfl]
    constructor
    · intro e
      obtain ⟨k1, k2⟩ := key.mp e
      refine ⟨q.length, k1, hql, ?_, ?_, k2⟩
      · obtain ⟨l1, m1, l2, m2, ne, p1, p2⟩ := hdeep (by omega)
        have pr : ∀ x : List Bool, q.take (q.length - 1) <+: x → x.take (q.length - 1) = (bitsOf i).take (q.length - 1) := by
          intro x hx
          obtain ⟨t, rfl⟩ := hx
          rw [List.take_append_of_le_length (by simp), List.take_of_length_le (by simp)]
          conv => lhs; rw [hqe]
          rw [List.take_take, Nat.min_eq_left]
          · congr 1
            simp; omega
          · simp; omega
        rw [toBits_eq_bitsOf] at p1 p2
        exact ⟨_, _, (hP _).mpr ⟨l1, m1, rfl⟩, (hP _).mpr ⟨l2, m2, rfl⟩, ne, pr _ p1, pr _ p2⟩
      · intro j hj e
        obtain ⟨l, hl, rfl⟩ := (hP _).mp hj
        refine b2 (by rw [hpn]; rfl) l hl ?_
        rw [← e, toBits_eq_bitsOf]; exact List.take_prefix _ _
    · intro d
      exact key.mpr (deepTo d).2

/-! ### a tree holds a content -/

structure HoldsI (C : Crypto) (t : MerkleTree) (M : Content) : Prop where
  sound : ∀ b ∈ t.root.bindings, M b.index = some ⟨b.key, b.value, b.salt⟩ ∧ b.commit = C.hash (b.salt ++ b.key ++ b.value)
  complete : ∀ i x, M i = some x → ∃ b ∈ t.root.bindings, b.index = i

theorem HoldsI.of_bindings {C t t' M} (h : HoldsI C t M) (e : t'.root.bindings = t.root.bindings) : HoldsI C t' M :=
  ⟨by rw [e]; exact h.sound, by rw [e]; exact h.complete⟩

theorem HoldsI.put {C : Crypto} {t t' : MerkleTree} {M : Content} (h : HoldsI C t M) (i n v r : Bytes)
    (hp : t'.root.bindings.Perm (Spec.put ⟨i, n, v, C.hash r, C.hash (C.hash r ++ n ++ v)⟩ t.root.bindings)) :
    HoldsI C t' (fun x => if x = i then some ⟨n, v, C.hash r⟩ else M x) := by
  constructor
  · intro b hb
    have hb' := hp.mem_iff.mp hb
    simp only [Spec.put, List.mem_cons, List.mem_filter, bne_iff_ne, ne_eq] at hb'
    rcases hb' with rfl | ⟨hb1, hb2⟩
    · simp
    · rw [if_neg hb2]; exact h.sound b hb1
  · intro x w hx
    by_cases e : x = i
    · subst e
      exact ⟨_, hp.mem_iff.mpr (by rw [Spec.put]; exact List.mem_cons_self ..), rfl⟩
    · simp only [if_neg e] at hx
      obtain ⟨b, hb, h1⟩ := h.complete x w hx
      refine ⟨b, hp.mem_iff.mpr ?_, h1⟩
      simp only [Spec.put, List.mem_cons, List.mem_filter, bne_iff_ne, ne_eq]
      exact Or.inr ⟨hb, by rw [h1]; exact e⟩

/-- lookup in a snapshot -/
theorem snap_exact {C : Crypto} {vk : Bytes} {s : STR} {M : Content} (ok : SnapOK C s) (h : HoldsI C s.tree M) (n : Bytes) :
    ∃ ap, s.tree.get (C.vrfProve vk n).1 = some ap ∧
      ProofOf C vk n s.core.treeHash { ap with vrfProof := (C.vrfProve vk n).2 } (search M (C.vrfProve vk n).1) ∧
      AuthPath.found { ap with vrfProof := (C.vrfProve vk n).2 } =
        some (match search M (C.vrfProve vk n).1 with | .absent => false | _ => true) := by
  generalize hix : (C.vrfProve vk n).1 = i
  have hil : i.length = 32 := by rw [← hix]; exact C.vrf_length _ _
  have hi : (toBits i).length = 256 := by rw [toBits_length, hil]
  obtain ⟨ap, q, pn, hg, post⟩ := get_spec C 256 s.tree ok.inv _ hi
  have hP : ∀ i, (M i ≠ none) ↔ ∃ l ∈ s.tree.root.leaves, l.index = i := by
    intro i
    constructor
    · intro hx
      cases hm : M i with
      | none => exact absurd hm hx
      | some x =>
        obtain ⟨b, hb, hbi⟩ := h.complete i x hm
        obtain ⟨l, hl, rfl⟩ := List.mem_map.mp hb
        exact ⟨l, hl, hbi⟩
    · rintro ⟨l, hl, rfl⟩
      have := (h.sound l.binding (List.mem_map_of_mem hl)).1
      intro e
      rw [show l.binding.index = l.index from rfl, e] at this
      cases this
  refine ⟨ap, hg, ?_⟩
  cases hM : M i with
  | some x =>
    obtain ⟨l0, hl0, he⟩ := (hP i).mp (by rw [hM]; simp)
    rcases post.cases with ⟨l, hl, e, hpn⟩ | ⟨h', _⟩ | ⟨h', _⟩
    · obtain ⟨b1, b2⟩ := h.sound l.binding (List.mem_map_of_mem hl)
      rw [show l.binding.index = i from e, hM] at b1
      simp only [Option.some.injEq] at b1
      subst b1
      have hcv : l.commit.value = C.hash (l.commit.salt ++ l.key ++ l.value) := b2
      have hh := post.hash (by have := post.q_le hi; omega) ok.cached
      have hf : search M i = .entry ⟨l.key, l.value, l.commit.salt⟩ := by simp only [search, hM]; rfl
      rw [hf]
      refine ⟨⟨by rw [hix]; exact post.lookup, rfl, ?_, ?_⟩, ?_⟩
      · simp [AuthPath.proofType, post.leaf, post.lookup, hpn, inclNode, e]
      · refine ⟨pn, post.leaf, by rw [hpn]; rfl, by rw [hpn]; show some l.commit = _; rw [← hcv], ?_⟩
        intro x w
        have hh' : AuthPath.authPathHash C { ap with vrfProof := (C.vrfProve vk n).2 } =
          some (s.tree.root.pureHash C s.tree.nonce) := hh
        unfold AuthPath.verify
        rw [hh', ok.core, ok.hash]
        simp only [post.leaf, hpn, inclNode, post.lookup, e, if_true, Option.getD_some]
        by_cases hw : w = l.value
        · subst hw
          simp only [ne_eq, not_true_eq_false, if_false, if_true]
          simp only [Crypto.commitVerify, Crypto.digest, List.flatten_cons, List.flatten_nil, List.append_nil, hcv,
            List.append_assoc]
          by_cases hc : C.hash (l.commit.salt ++ (x ++ l.value)) = C.hash (l.commit.salt ++ (l.key ++ l.value))
          · simp [hc]
          · simp [hc, Ne.symm hc]
        · rw [if_neg (Ne.symm hw)]
          simp [hw]
      · simp [AuthPath.found, post.leaf, post.lookup, hpn, inclNode, e]
    · exact absurd he (h' l0 hl0)
    · exact absurd he (h' l0 hl0)
  | none =>
    obtain ⟨e1, e2, e3⟩ := absent_leaves C 32 (by decide) s.tree ok.inv (fun j => M j ≠ none) hP i hil (by simp [hM]) ap q pn hg post
    by_cases hd : DeepIn 32 (fun j => M j ≠ none) i
    · have hf : search M i = .ghost := by simp only [search, hM]; rw [if_pos hd]
      have ei := e2.mpr hd
      have ec := e3 ei
      rw [hf]
      refine ⟨⟨by rw [hix]; exact post.lookup, rfl, ?_, ⟨pn, post.leaf, e1⟩, ?_⟩, ?_⟩
      · simp [AuthPath.proofType, post.leaf, post.lookup, ei]
      · intro x w
        by_cases hw : w = []
        · subst hw
          simp [AuthPath.verify, post.leaf, post.lookup, ei, e1, ec]
        · simp [AuthPath.verify, post.leaf, post.lookup, ei, e1, Ne.symm hw, hw]
      · simp [AuthPath.found, post.leaf, post.lookup, ei]
    · have hf : search M i = .absent := by simp only [search, hM]; rw [if_neg hd]
      have ei : pn.index ≠ i := fun e => hd (e2.mp e)
      rw [hf]
      refine ⟨⟨by rw [hix]; exact post.lookup, rfl, ?_, ⟨pn, post.leaf, e1⟩, ?_⟩, ?_⟩
      · simp [AuthPath.proofType, post.leaf, post.lookup, Ne.symm ei]
      · intro x w
        rw [ok.core, ok.hash]
        exact verify_abs C 256 s.tree _ ap q pn post (by decide) hi ei e1 ok.cached x w
      · simp [AuthPath.found, post.leaf, post.lookup, Ne.symm ei]

/-! ### the directory -/

structure ExactInv (C : Crypto) (sk vk : Bytes) (d : Directory) (log : List STR) (E : ExactDir) : Prop where
  pad : PadInv C d.pad log
  skEq : d.pad.signKey = sk
  vkEq : d.pad.vrfKey = vk
  tbsOn : d.useTBs = true
  cur : HoldsI C d.pad.tree E.tree
  len : E.past.length = log.length
  snaps : ∀ (e : Nat) (s : STR) (M : Content), log[e]? = some s → E.past[e]? = some M → HoldsI C s.tree M
  last : E.past.getLast? = some E.committed
  tbs : ∀ n, d.tbs n = (E.promised n).map (promise C sk vk d.pad.latest.core.signature n)

theorem ExactInv.latest_holds {C sk vk d log E} (inv : ExactInv C sk vk d log E) : HoldsI C d.pad.latest.tree E.committed := by
  refine inv.snaps _ _ _ inv.pad.latest_get ?_
  rw [← inv.len, ← getLast?_getElem?]; exact inv.last

theorem new_exact_inv (C : Crypto) (t0 : UInt64) (sk vk : Bytes) (size : Nat) (r₁ r₂ : Bytes) :
    ∃ d, newDirectory C t0 vk sk size true (some r₁) (some r₂) = some d ∧ ExactInv C sk vk d [d.pad.latest] ExactDir.init := by
  obtain ⟨p, h1, h2, h3, h4, h5, h6, h7, h8, _⟩ := newPAD_spec C (newPolicies t0 (C.vrfPub vk)) sk vk size r₁ r₂
  refine ⟨{ pad := p, useTBs := true, tbs := fun _ => none, policies := newPolicies t0 (C.vrfPub vk) }, ?_, ?_⟩
  · simp [newDirectory, h1]
  · refine { pad := h2, skEq := h3, vkEq := h4, tbsOn := rfl, cur := ?_, len := rfl, snaps := ?_, last := rfl, tbs := fun _ => rfl }
    · refine ⟨by rw [h7]; simp, ?_⟩
      intro n v h; simp [ExactDir.init] at h
    · intro e s M hs hM
      cases e with
      | succ e => simp at hs
      | zero =>
        simp only [List.getElem?_cons_zero, Option.some.injEq, ExactDir.init] at hs hM
        subst hs; subst hM
        exact ⟨by rw [h8]; simp, (by intro n v h; cases h)⟩

theorem update_exact_inv {C sk vk d log E} (inv : ExactInv C sk vk d log E) (hlt : log.length < 2 ^ 64) :
    ExactInv C sk vk (d.update C) (log ++ [(d.update C).pad.latest]) E.nextEpoch := by
  have post := update_spec C d.pad log inv.pad hlt (some d.policies)
  refine { pad := post.inv, skEq := post.signKey.trans inv.skEq, vkEq := post.vrfKey.trans inv.vkEq, tbsOn := inv.tbsOn, cur := ?_,
           len := ?_, snaps := ?_, last := ?_, tbs := ?_ }
  · exact inv.cur.of_bindings post.bindings
  · simp [ExactDir.nextEpoch, inv.len]
  · intro e s M hs hM
    simp only [ExactDir.nextEpoch] at hM
    rcases Nat.lt_or_ge e log.length with he | he
    · rw [List.getElem?_append_left he] at hs
      rw [List.getElem?_append_left (by rw [inv.len]; exact he)] at hM
      exact inv.snaps e s M hs hM
    · rw [List.getElem?_append_right he] at hs
      rw [List.getElem?_append_right (by rw [inv.len]; exact he), inv.len] at hM
      rcases Nat.eq_zero_or_pos (e - log.length) with h0 | h0
      · rw [h0] at hs hM
        simp only [List.getElem?_cons_zero, Option.some.injEq] at hs hM
        subst hs; subst hM
        exact inv.cur.of_bindings post.latestBindings
      · rw [List.getElem?_eq_none (by simp; omega)] at hs; cases hs
  · simp [ExactDir.nextEpoch]
  · intro n; simp [Directory.update, ExactDir.nextEpoch]

theorem lookup_exact {C sk vk d log E} (inv : ExactInv C sk vk d log E) (n : Bytes) :
    ∃ ap, d.pad.lookup C n = some (some ap) ∧
      ProofOf C vk n d.latestSTR.core.treeHash ap (search E.committed (C.vrfProve vk n).1) ∧
      ap.found = some (match search E.committed (C.vrfProve vk n).1 with | .absent => false | _ => true) := by
  obtain ⟨ap, h1, h2, h3⟩ := snap_exact (vk := vk) (inv.pad.snap _ inv.pad.latest_mem) inv.latest_holds n
  refine ⟨_, ?_, h2, h3⟩
  simp [PAD.lookup, PAD.lookupInEpoch, PAD.getSTR, inv.vkEq, h1]

theorem newTB_exact {C sk vk d log E} (inv : ExactInv C sk vk d log E) (n k : Bytes) :
    d.newTB C n k = promise C sk vk d.pad.latest.core.signature n k := by
  simp [Directory.newTB, PAD.index, inv.vkEq, promise, PAD.sign, inv.skEq, Directory.latestSTR]

theorem file_exact_inv {C sk vk d log E} (inv : ExactInv C sk vk d log E) (n k r : Bytes) (pad' : PAD)
    (hset : SetPost C d.pad pad' log)
    (hb : pad'.tree.root.bindings.Perm
        (put ⟨d.pad.index C n, n, k, C.hash r, C.hash (C.hash r ++ n ++ k)⟩ d.pad.tree.root.bindings)) :
    ExactInv C sk vk
      { d with pad := pad', tbs := fun x => if x = n then some (promise C sk vk d.pad.latest.core.signature n k) else d.tbs x }
      log (E.file (fun n => (C.vrfProve vk n).1) n k (C.hash r)) := by
  refine { pad := hset.inv, skEq := hset.signKey.trans inv.skEq, vkEq := hset.vrfKey.trans inv.vkEq, tbsOn := inv.tbsOn, cur := ?_,
           len := inv.len, snaps := inv.snaps, last := inv.last, tbs := ?_ }
  · rw [show d.pad.index C n = (C.vrfProve vk n).1 by simp [PAD.index, inv.vkEq]] at hb
    exact inv.cur.put _ n k r hb
  · intro x
    by_cases e : x = n
    · subst e; simp [ExactDir.file, hset.latest]
    · simp [ExactDir.file, hset.latest, e, inv.tbs x]

theorem step_stays {idx hash : Bytes → Bytes} {E : ExactDir} {rnd : Option Bytes} {n k : Bytes}
    (h : rnd = none ∨ ¬ (n ≠ [] ∧ k ≠ [] ∧ search E.committed (idx n) = .absent ∧ E.promised n = none)) :
    E.step idx hash (.register rnd ⟨n, k⟩) = E := by
  cases rnd with
  | none => rfl
  | some r => exact if_neg (h.resolve_left (by simp))

theorem register_exact {C sk vk d log E} (inv : ExactInv C sk vk d log E) (rnd : Option Bytes) (n k : Bytes) :
    ∃ d' resp, d.register C rnd ⟨n, k⟩ = some (d', resp) ∧
      ExactInv C sk vk d' log (E.step (fun n => (C.vrfProve vk n).1) C.hash (.register rnd ⟨n, k⟩)) ∧
      ExactAnswer C sk vk n d.latestSTR resp (E.registerAnswer (fun n => (C.vrfProve vk n).1) rnd n k) := by
  by_cases hmal : n = [] ∨ k = []
  · refine ⟨d, newErrorResponse ErrMalformedMessage, ?_, ?_, ?_⟩
    · have : n.length = 0 ∨ k.length = 0 := by simpa using hmal
      simp only [Directory.register, if_pos this]
    · rw [step_stays]
      · exact inv
      · right
        intro h
        rcases hmal with h' | h'
        · exact h.1 h'
        · exact h.2.1 h'
    · simp only [ExactDir.registerAnswer, if_pos hmal, ExactAnswer]; rfl
  · have hmal' : ¬ (n.length = 0 ∨ k.length = 0) := by simpa using hmal
    have hu : n ≠ [] := fun h => hmal (Or.inl h)
    have hk : k ≠ [] := fun h => hmal (Or.inr h)
    obtain ⟨ap, hl, hpr, hf⟩ := lookup_exact inv n
    have htb := inv.tbs n
    -- the place looks taken
    have taken : ∀ f, search E.committed (C.vrfProve vk n).1 = f → f ≠ .absent →
        ap.found = some true →
        E.registerAnswer (fun n => (C.vrfProve vk n).1) rnd n k = (ReqNameExisted, some (f, none)) →
        ∃ d' resp, d.register C rnd ⟨n, k⟩ = some (d', resp) ∧
          ExactInv C sk vk d' log (E.step (fun n => (C.vrfProve vk n).1) C.hash (.register rnd ⟨n, k⟩)) ∧
          ExactAnswer C sk vk n d.latestSTR resp (E.registerAnswer (fun n => (C.vrfProve vk n).1) rnd n k) := by
      intro f h1 h2 h3 h4
      refine ⟨d, newSingleProof ap d.latestSTR none ReqNameExisted, ?_, ?_, ?_⟩
      · simp only [Directory.register, if_neg hmal', hl, h3]
      · rw [step_stays (.inr fun h => h2 (h1 ▸ h.2.2.1))]
        exact inv
      · rw [h4]; exact ⟨ap, rfl, h1 ▸ hpr⟩
    cases hfd : search E.committed (C.vrfProve vk n).1 with
    | entry en =>
      refine taken _ hfd (by simp) (by rw [hf, hfd]) ?_
      simp only [ExactDir.registerAnswer, if_neg hmal, hfd]
    | ghost =>
      refine taken _ hfd (by simp) (by rw [hf, hfd]) ?_
      simp only [ExactDir.registerAnswer, if_neg hmal, hfd]
    | absent =>
      rw [hfd] at hf hpr
      simp only at hf
      cases hp : E.promised n with
      | some v =>
        rw [hp, Option.map_some] at htb
        refine ⟨d, newSingleProof ap d.latestSTR (some (promise C sk vk d.pad.latest.core.signature n v)) ReqNameExisted, ?_, ?_, ?_⟩
        · simp only [Directory.register, if_neg hmal', hl, hf, inv.tbsOn, if_true, htb]
        · rw [step_stays (.inr fun h => by rw [hp] at h; cases h.2.2.2)]
          exact inv
        · simp only [ExactDir.registerAnswer, if_neg hmal, hfd, hp]
          exact ⟨ap, rfl, hpr⟩
      | none =>
        rw [hp, Option.map_none] at htb
        obtain ⟨pad', hset, post, hnone, hsome⟩ := pad_set_spec C d.pad log inv.pad rnd n k
        cases rnd with
        | none =>
          refine ⟨d, newErrorResponse ErrDirectory, ?_, ?_, ?_⟩
          · simp only [Directory.register, if_neg hmal', hl, hf, inv.tbsOn, if_true, htb, hset, hnone rfl]
            show some (({ d with pad := d.pad, useTBs := true } : Directory), newErrorResponse ErrDirectory) = _
            rw [← inv.tbsOn]
          · rw [step_stays (.inl rfl)]
            exact inv
          · simp only [ExactDir.registerAnswer, if_neg hmal, hfd, hp, Option.isSome_none, Bool.false_eq_true, if_false]
            rfl
        | some r =>
          have hinv := file_exact_inv inv n k r pad' post (hsome r rfl)
          have hls : pad'.latest = d.pad.latest := post.latest
          refine ⟨{ d with pad := pad', tbs := fun x => if x = n then some (promise C sk vk d.pad.latest.core.signature n k) else d.tbs x },
            newSingleProof ap d.latestSTR (some (promise C sk vk d.pad.latest.core.signature n k)) ReqSuccess, ?_, ?_, ?_⟩
          · simp only [Directory.register, if_neg hmal', hl, hf, inv.tbsOn, if_true, htb, hset, Option.isSome_some,
              newTB_exact inv, Directory.latestSTR, hls]
          · simp only [ExactDir.step]
            rw [if_pos ⟨hu, hk, hfd, hp⟩]
            exact hinv
          · simp only [ExactDir.registerAnswer, if_neg hmal, hfd, hp, Option.isSome_some, if_true]
            exact ⟨ap, rfl, hpr⟩

theorem keyLookup_exact {C sk vk d log E} (inv : ExactInv C sk vk d log E) (n : Bytes) :
    ∃ resp, d.keyLookup C ⟨n⟩ = some resp ∧
      ExactAnswer C sk vk n d.latestSTR resp (E.lookupAnswer (fun n => (C.vrfProve vk n).1) n) := by
  by_cases hmal : n = []
  · refine ⟨newErrorResponse ErrMalformedMessage, ?_, ?_⟩
    · simp [Directory.keyLookup, hmal]
    · simp only [ExactDir.lookupAnswer, if_pos hmal, ExactAnswer]; rfl
  · have hmal' : ¬ n.length = 0 := by simpa using hmal
    obtain ⟨ap, hl, hpr, hf⟩ := lookup_exact inv n
    have htb := inv.tbs n
    cases hfd : search E.committed (C.vrfProve vk n).1 with
    | entry en =>
      rw [hfd] at hf hpr
      refine ⟨newSingleProof ap d.latestSTR none ReqSuccess, ?_, ?_⟩
      · simp only [Directory.keyLookup, if_neg hmal', hl, hf]
      · simp only [ExactDir.lookupAnswer, if_neg hmal, hfd]; exact ⟨ap, rfl, hpr⟩
    | ghost =>
      rw [hfd] at hf hpr
      refine ⟨newSingleProof ap d.latestSTR none ReqSuccess, ?_, ?_⟩
      · simp only [Directory.keyLookup, if_neg hmal', hl, hf]
      · simp only [ExactDir.lookupAnswer, if_neg hmal, hfd]; exact ⟨ap, rfl, hpr⟩
    | absent =>
      rw [hfd] at hf hpr
      simp only at hf
      cases hp : E.promised n with
      | some v =>
        rw [hp, Option.map_some] at htb
        refine ⟨newSingleProof ap d.latestSTR (some (promise C sk vk d.pad.latest.core.signature n v)) ReqSuccess, ?_, ?_⟩
        · simp only [Directory.keyLookup, if_neg hmal', hl, hf, inv.tbsOn, if_true, htb]
        · simp only [ExactDir.lookupAnswer, if_neg hmal, hfd, hp]; exact ⟨ap, rfl, hpr⟩
      | none =>
        rw [hp, Option.map_none] at htb
        refine ⟨newSingleProof ap d.latestSTR none ReqNameNotFound, ?_, ?_⟩
        · simp only [Directory.keyLookup, if_neg hmal', hl, hf, inv.tbsOn, if_true, htb]
        · simp only [ExactDir.lookupAnswer, if_neg hmal, hfd, hp]; exact ⟨ap, rfl, hpr⟩

/-! ### whole histories -/

theorem setPolicies_exact {C sk vk d log E} (inv : ExactInv C sk vk d log E) (t : UInt64) :
    ExactInv C sk vk (d.setPolicies t) log E :=
  ⟨inv.pad, inv.skEq, inv.vkEq, inv.tbsOn, inv.cur, inv.len, inv.snaps, inv.last, inv.tbs⟩

theorem exact_step_inv {C sk vk d log E} (inv : ExactInv C sk vk d log E) (op : DirOp)
    (hlt : log.length + dirUpdates [op] ≤ 2 ^ 64) (d' : Directory) (r : Option Response) (h : d.step C op = some (d', r)) :
    ExactInv C sk vk d' (log ++ op.issued d') (E.step (fun n => (C.vrfProve vk n).1) C.hash op) := by
  have same : ∀ {x : Go Response}, (x.map fun r => (d, some r)) = some (d', r) → d' = d := by
    intro x hx
    obtain ⟨y, _, hy⟩ := Option.map_eq_some_iff.mp hx
    exact (congrArg Prod.fst hy).symm
  have keep : ∀ op', op'.issued d = [] → E.step (fun n => (C.vrfProve vk n).1) C.hash op' = E → d' = d →
      ExactInv C sk vk d' (log ++ op'.issued d') (E.step (fun n => (C.vrfProve vk n).1) C.hash op') := by
    intro op' h1 h2 h3
    subst h3
    rw [h1, h2, List.append_nil]; exact inv
  cases op with
  | register rnd req =>
    obtain ⟨d1, resp, h1, h2, _⟩ := register_exact inv rnd req.username req.key
    simp only [Directory.step, h1, Option.map_some, Option.some.injEq, Prod.mk.injEq] at h
    obtain ⟨rfl, rfl⟩ := h
    simp only [DirOp.issued, List.append_nil]
    exact h2
  | keyLookup req => exact keep _ rfl rfl (same h)
  | keyLookupInEpoch req => exact keep _ rfl rfl (same h)
  | monitor req => exact keep _ rfl rfl (same h)
  | getSTRHistory req => exact keep _ rfl rfl (same h)
  | update =>
    simp only [Directory.step, Option.some.injEq, Prod.mk.injEq] at h
    obtain ⟨rfl, rfl⟩ := h
    simp only [dirUpdates] at hlt
    exact update_exact_inv inv (by omega)
  | setPolicies t =>
    simp only [Directory.step, Option.some.injEq, Prod.mk.injEq] at h
    obtain ⟨rfl, rfl⟩ := h
    simp only [DirOp.issued, List.append_nil]
    exact setPolicies_exact inv t

theorem exact_run_inv (C : Crypto) (sk vk : Bytes) (ops : List DirOp) : ∀ d log E, ExactInv C sk vk d log E →
    log.length + dirUpdates ops ≤ 2 ^ 64 → ∀ d' log', d.runLog C log ops = some (d', log') →
    ExactInv C sk vk d' log' (ops.foldl (ExactDir.step (fun n => (C.vrfProve vk n).1) C.hash) E) ∧
      log'.length = log.length + dirUpdates ops := by
  induction ops with
  | nil =>
    intro d log E inv _ d' log' h
    simp only [Directory.runLog, Option.some.injEq, Prod.mk.injEq] at h
    obtain ⟨rfl, rfl⟩ := h
    exact ⟨inv, by simp [dirUpdates]⟩
  | cons op ops ih =>
    intro d log E inv hlt d' log' h
    rw [dirUpdates_cons] at hlt
    simp only [Directory.runLog] at h
    obtain ⟨⟨d1, r⟩, h1, h2⟩ := Option.bind_eq_some_iff.mp h
    have inv1 := exact_step_inv inv op (by omega) d1 r h1
    have hl : (log ++ op.issued d1).length = log.length + dirUpdates [op] := by simp [issued_length]
    obtain ⟨inv2, len2⟩ := ih d1 _ _ inv1 (by omega) d' log' h2
    exact ⟨inv2, by rw [len2, hl, dirUpdates_cons op ops]; omega⟩

theorem dirAfter_exact (C : Crypto) (t0 : UInt64) (sk vk : Bytes) (size : Nat) (r₁ r₂ : Bytes) (ops : List DirOp)
    (hlt : dirUpdates ops < 2 ^ 64) (d : Directory) (log : List STR) (h : dirAfter C t0 sk vk size r₁ r₂ ops = some (d, log)) :
    ExactInv C sk vk d log (exactAfter (fun n => (C.vrfProve vk n).1) C.hash ops) ∧ log.length = dirUpdates ops + 1 := by
  obtain ⟨d0, h0, inv0⟩ := new_exact_inv C t0 sk vk size r₁ r₂
  simp only [dirAfter, h0, Option.bind_some] at h
  obtain ⟨inv, hl⟩ := exact_run_inv C sk vk ops d0 _ _ inv0 (by simp; omega) d log h
  exact ⟨inv, by rw [hl]; simp; omega⟩

/-! ### past epochs -/

theorem lookupInEpoch_exact {C sk vk d log E} (inv : ExactInv C sk vk d log E) {lo : Nat} (r : Retrievable d.pad log lo)
    (n : Bytes) (e : UInt64) (h1 : lo ≤ e.toNat) (h2 : e.toNat < log.length) :
    ∃ ap s M, d.pad.lookupInEpoch C n e = some (some ap) ∧ log[e.toNat]? = some s ∧ E.past[e.toNat]? = some M ∧
      d.pad.getSTR e = some s ∧ ProofOf C vk n s.core.treeHash ap (search M (C.vrfProve vk n).1) ∧
      ap.found = some (match search M (C.vrfProve vk n).1 with | .absent => false | _ => true) := by
  have hs : ∃ s, log[e.toNat]? = some s := ⟨_, List.getElem?_eq_getElem h2⟩
  obtain ⟨s, hs⟩ := hs
  have hM : ∃ M, E.past[e.toNat]? = some M := ⟨_, List.getElem?_eq_getElem (by rw [inv.len]; exact h2)⟩
  obtain ⟨M, hM⟩ := hM
  have hg : d.pad.getSTR e = some s := by rw [r.get e h1 h2, hs]
  obtain ⟨ap, g1, g2, g3⟩ := snap_exact (vk := vk) (inv.pad.snap s (List.mem_of_getElem? hs)) (inv.snaps _ _ _ hs hM) n
  refine ⟨_, s, M, ?_, hs, hM, hg, g2, g3⟩
  simp [PAD.lookupInEpoch, hg, inv.vkEq, g1]

theorem keyLookupInEpoch_exact {C sk vk d log E} (inv : ExactInv C sk vk d log E) {lo : Nat} (r : Retrievable d.pad log lo)
    (n : Bytes) (hn : n ≠ []) (e : UInt64) (h2 : lo ≤ e.toNat) (h3 : e.toNat < log.length) :
    ∃ ap s M, d.keyLookupInEpoch C ⟨n, e⟩ = some (newKeyLookupInEpochProof ap ((log.drop e.toNat).map STR.toDir)
        (search M (C.vrfProve vk n).1).code) ∧
      log[e.toNat]? = some s ∧ E.past[e.toNat]? = some M ∧
      ProofOf C vk n s.core.treeHash ap (search M (C.vrfProve vk n).1) := by
  have hsm := inv.pad.small
  have hpos := inv.pad.len_pos
  have hlt : d.latestSTR.core.epoch.toNat = log.length - 1 := inv.pad.latest_toNat
  have : ¬ (n.length = 0 ∨ e > d.latestSTR.core.epoch) := by
    rw [gt_iff_toNat]; simp only [List.length_eq_zero_iff, hn, false_or]; omega
  obtain ⟨ap, s, M, g1, g2, g3, g4, g5, g6⟩ := lookupInEpoch_exact inv r n e h2 h3
  have hcol : d.collectSTRs (epochRange e d.latestSTR.core.epoch) = some ((log.drop e.toNat).map STR.toDir) := by
    rw [epochRange_eq, hlt, show log.length - 1 + 1 - e.toNat = log.length - e.toNat by omega,
      collect_spec inv.pad r _ _ h2 (by omega), drop_take_all]
  refine ⟨ap, s, M, ?_, g2, g3, g5⟩
  cases hf : search M (C.vrfProve vk n).1 <;> rw [hf] at g6 <;>
    simp only [Directory.keyLookupInEpoch, if_neg this, g1, hcol, g6, Finding.code]

theorem monitorLoop_exact {C sk vk d log E} (inv : ExactInv C sk vk d log E) {lo : Nat} (r : Retrievable d.pad log lo)
    (n : Bytes) (k : Nat) : ∀ s, lo ≤ s → s + k ≤ log.length →
    ∃ aps, d.monitorLoop C n ((List.range' s k).map UInt64.ofNat) = some (some (aps, ((log.drop s).take k).map STR.toDir)) ∧
      aps.length = k ∧
      ∀ j ap s' M, aps[j]? = some ap → log[s + j]? = some s' → E.past[s + j]? = some M →
        ProofOf C vk n s'.core.treeHash ap (search M (C.vrfProve vk n).1) := by
  have hsm := inv.pad.small
  induction k with
  | zero => intro s _ _; exact ⟨[], by simp [Directory.monitorLoop], rfl, by simp⟩
  | succ k ih =>
    intro s h1 h2
    have hlt : s < log.length := by omega
    have hs : (UInt64.ofNat s).toNat = s := ofNat_toNat64 (by omega)
    obtain ⟨ap, st, M, g1, g2, g3, g4, g5, g6⟩ := lookupInEpoch_exact inv r n (UInt64.ofNat s) (by omega) (by omega)
    obtain ⟨aps, i1, i2, i3⟩ := ih (s + 1) (by omega) (by omega)
    rw [hs] at g2 g3
    refine ⟨ap :: aps, ?_, by simp [i2], ?_⟩
    · rw [List.range'_succ, List.map_cons, Directory.monitorLoop, g1, g4]
      simp only [newDirSTR]
      rw [i1, List.drop_eq_getElem_cons hlt, List.take_succ_cons, List.map_cons]
      have : log[s] = st := by rw [List.getElem?_eq_getElem hlt] at g2; simpa using g2
      rw [this]; rfl
    · intro j ap' s' M' a1 a2 a3
      cases j with
      | zero =>
        simp only [List.getElem?_cons_zero, Option.some.injEq] at a1
        rw [Nat.add_zero, g2] at a2
        rw [Nat.add_zero, g3] at a3
        simp only [Option.some.injEq] at a2 a3
        subst a1; subst a2; subst a3
        exact g5
      | succ j =>
        simp only [List.getElem?_cons_succ] at a1
        exact i3 j ap' s' M' a1 (by rw [← a2]; congr 1; omega) (by rw [← a3]; congr 1; omega)

theorem monitor_exact {C sk vk d log E} (inv : ExactInv C sk vk d log E) {lo : Nat} (r : Retrievable d.pad log lo)
    (n : Bytes) (hn : n ≠ []) (s t : UInt64) (h2 : lo ≤ s.toNat) (h3 : s.toNat < log.length) (h4 : s.toNat ≤ t.toNat) :
    ∃ aps, d.monitor C ⟨n, s, t⟩ = some (newMonitoringProof aps
        (((log.drop s.toNat).take (min t.toNat (log.length - 1) + 1 - s.toNat)).map STR.toDir)) ∧
      aps.length = min t.toNat (log.length - 1) + 1 - s.toNat ∧
      ∀ j ap s' M, aps[j]? = some ap → log[s.toNat + j]? = some s' → E.past[s.toNat + j]? = some M →
        ProofOf C vk n s'.core.treeHash ap (search M (C.vrfProve vk n).1) := by
  have hsm := inv.pad.small
  have hpos := inv.pad.len_pos
  have hlt : d.latestSTR.core.epoch.toNat = log.length - 1 := inv.pad.latest_toNat
  have hend : (if t > d.latestSTR.core.epoch then d.latestSTR.core.epoch else t).toNat = min t.toNat (log.length - 1) := by
    split
    · next h => rw [gt_iff_toNat] at h; omega
    · next h => rw [gt_iff_toNat] at h; omega
  have : ¬ (n.length = 0 ∨ s > d.latestSTR.core.epoch ∨ s > t) := by
    rw [gt_iff_toNat, gt_iff_toNat]; simp only [List.length_eq_zero_iff, hn, false_or]; omega
  obtain ⟨aps, g1, g2, g3⟩ := monitorLoop_exact inv r n (min t.toNat (log.length - 1) + 1 - s.toNat) s.toNat h2 (by omega)
  refine ⟨aps, ?_, g2, g3⟩
  simp only [Directory.monitor, if_neg this, epochRange_eq, hend]
  rw [g1]

end Coniks

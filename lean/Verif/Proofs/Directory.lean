import Verif.Spec.Directory
import Verif.Proofs.Pad
namespace Coniks
open Spec

/-! ### a tree holds a map -/

structure TreeHolds (C : Crypto) (idx : Bytes → Bytes) (t : MerkleTree) (M : Bytes → Option Bytes) : Prop where
  sound : ∀ b ∈ t.root.bindings, b.index = idx b.key ∧ M b.key = some b.value ∧ b.commit = C.hash (b.salt ++ b.key ++ b.value)
  complete : ∀ n v, M n = some v → ∃ b ∈ t.root.bindings, b.key = n ∧ b.value = v
  salt : ∀ b ∈ t.root.bindings, b.salt.length = 32

theorem TreeHolds.of_bindings {C idx t t' M} (h : TreeHolds C idx t M) (e : t'.root.bindings = t.root.bindings) :
    TreeHolds C idx t' M := ⟨by rw [e]; exact h.sound, by rw [e]; exact h.complete, by rw [e]; exact h.salt⟩

theorem TreeHolds.congr {C idx t M M'} (h : TreeHolds C idx t M) (e : ∀ n, M n = M' n) : TreeHolds C idx t M' := by
  have : M = M' := funext e
  rwa [← this]

/-- storing a name -/
theorem TreeHolds.put {C : Crypto} {idx : Bytes → Bytes} {t t' : MerkleTree} {M : Bytes → Option Bytes}
    (h : TreeHolds C idx t M) (n v r : Bytes) (inj : ∀ m w, M m = some w → idx m = idx n → m = n)
    (hp : t'.root.bindings.Perm (Spec.put ⟨idx n, n, v, C.hash r, C.hash (C.hash r ++ n ++ v)⟩ t.root.bindings)) :
    TreeHolds C idx t' (fun x => if x = n then some v else M x) := by
  constructor
  · intro b hb
    have hb' := hp.mem_iff.mp hb
    simp only [Spec.put, List.mem_cons, List.mem_filter] at hb'
    rcases hb' with rfl | ⟨hb1, hb2⟩
    · simp
    · obtain ⟨s1, s2, s3⟩ := h.sound b hb1
      have hne : b.key ≠ n := by
        intro e
        have : b.index = idx n := by rw [s1, e]
        simp [this] at hb2
      exact ⟨s1, by simp [hne, s2], s3⟩
  · intro x w hx
    by_cases e : x = n
    · subst e
      simp only [if_true, Option.some.injEq] at hx
      subst hx
      exact ⟨⟨idx x, x, v, C.hash r, C.hash (C.hash r ++ x ++ v)⟩, hp.mem_iff.mpr (by simp [Spec.put]), rfl, rfl⟩
    · simp only [if_neg e] at hx
      obtain ⟨b, hb, h1, h2⟩ := h.complete x w hx
      refine ⟨b, hp.mem_iff.mpr ?_, h1, h2⟩
      simp only [Spec.put, List.mem_cons, List.mem_filter]
      right
      refine ⟨hb, ?_⟩
      simp only [bne_iff_ne, ne_eq]
      intro hi
      rw [(h.sound b hb).1] at hi
      have := inj b.key b.value (h.sound b hb).2.1 hi
      exact e (h1 ▸ this)
  · intro b hb
    have hb' := hp.mem_iff.mp hb
    simp only [Spec.put, List.mem_cons, List.mem_filter] at hb'
    rcases hb' with rfl | ⟨hb1, _⟩
    · exact C.hash_length _
    · exact h.salt b hb1

/-- lookup in a snapshot whose tree holds `M`: present -/
theorem snap_present {C : Crypto} {vk : Bytes} {s : STR} {M : Bytes → Option Bytes} (ok : SnapOK C s)
    (h : TreeHolds C (fun k => (C.vrfProve vk k).1) s.tree M) (n v : Bytes) (hn : M n = some v)
    (inj : ∀ m w, M m = some w → (C.vrfProve vk m).1 = (C.vrfProve vk n).1 → m = n) :
    ∃ ap, s.tree.get (C.vrfProve vk n).1 = some ap ∧
      ProofShows C vk n s.core.treeHash { ap with vrfProof := (C.vrfProve vk n).2 } (some v) ∧
      AuthPath.found { ap with vrfProof := (C.vrfProve vk n).2 } = some true := by
  have hi : (toBits (C.vrfProve vk n).1).length = 256 := by rw [toBits_length, C.vrf_length]
  obtain ⟨ap, q, pn, hg, post⟩ := get_spec C 256 s.tree ok.inv _ hi
  obtain ⟨b, hb, hk, hv⟩ := h.complete n v hn
  have hb3 := h.sound b hb
  obtain ⟨l0, hl0, hl0b⟩ := List.mem_map.mp hb
  have hl0i : l0.index = (C.vrfProve vk n).1 := by
    have : l0.index = b.index := congrArg Binding.index hl0b
    rw [this, hb3.1, hk]
  rcases post.cases with ⟨l, hl, e, hpn⟩ | ⟨h', _⟩ | ⟨h', _⟩
  · have hbl := h.sound l.binding (List.mem_map_of_mem hl)
    have hlk : l.key = n := by
      refine inj l.key l.value hbl.2.1 ?_
      have : l.index = (C.vrfProve vk l.key).1 := hbl.1
      rw [← this, e]
    have hlv : l.value = v := by
      have := hbl.2.1
      rw [show l.binding.key = n from hlk, hn] at this
      exact (Option.some.inj this).symm
    refine ⟨ap, hg, ?_, ?_⟩
    · refine ⟨post.lookup, rfl, ?_, ⟨pn, post.leaf, by rw [hpn]; show some l.value = _; rw [hlv]⟩, ?_⟩
      · simp [AuthPath.proofType, post.leaf, post.lookup, hpn, inclNode, e]
      · intro w hw
        have hwv : w = v := by rcases hw with hw | hw <;> simp at hw; exact hw.symm
        subst hwv
        have := verify_incl C 256 s.tree _ ap q l (hpn ▸ post) (by decide) hi e ok.cached hbl.2.2
        rw [hlk, hlv] at this
        rw [ok.core, ok.hash]
        exact this
    · simp [AuthPath.found, post.leaf, post.lookup, hpn, inclNode, e]
  · exact absurd hl0i (h' l0 hl0)
  · exact absurd hl0i (h' l0 hl0)

/-- lookup in a snapshot whose tree holds `M`: absent; `ns` is a list with all names of `M` and the name looked up -/
theorem snap_absent {C : Crypto} {vk : Bytes} {s : STR} {M : Bytes → Option Bytes} (ok : SnapOK C s)
    (h : TreeHolds C (fun k => (C.vrfProve vk k).1) s.tree M) (n : Bytes) (hn : M n = none)
    (inj : ∀ m w, M m = some w → (C.vrfProve vk m).1 = (C.vrfProve vk n).1 → m = n) :
    ∃ ap l, s.tree.get (C.vrfProve vk n).1 = some ap ∧ ap.lookupIndex = (C.vrfProve vk n).1 ∧ ap.leaf = some l ∧ l.value = none ∧
      ((∀ a b w w', M a = some w → M b = some w' → a ≠ b →
          (bitsOf (C.vrfProve vk a).1).take 248 ≠ (bitsOf (C.vrfProve vk b).1).take 248) →
        ProofShows C vk n s.core.treeHash { ap with vrfProof := (C.vrfProve vk n).2 } none ∧
        AuthPath.found { ap with vrfProof := (C.vrfProve vk n).2 } = some false) := by
  have hi : (toBits (C.vrfProve vk n).1).length = 256 := by rw [toBits_length, C.vrf_length]
  obtain ⟨ap, q, pn, hg, post⟩ := get_spec C 256 s.tree ok.inv _ hi
  have hno : ∀ l ∈ s.tree.root.leaves, l.index ≠ (C.vrfProve vk n).1 := by
    intro l hl e
    have hbl := h.sound l.binding (List.mem_map_of_mem hl)
    have : l.key = n := inj l.key l.value hbl.2.1 (by rw [← e]; exact hbl.1.symm)
    rw [show l.binding.key = n from this, hn] at hbl
    simp at hbl
  have hpv : pn.value = none := by
    rcases post.cases with ⟨l, hl, e, rfl⟩ | ⟨_, l, _, hne, rfl⟩ | ⟨_, hpn, _⟩
    · exact absurd e (hno l hl)
    · rfl
    · rw [hpn]; rfl
  refine ⟨ap, pn, hg, post.lookup, post.leaf, hpv, ?_⟩
  intro spread
  have hne : pn.index ≠ (C.vrfProve vk n).1 := by
    rcases post.cases with ⟨l, hl, e, rfl⟩ | ⟨_, l, _, hne, rfl⟩ | ⟨_, hpn, _⟩
    · exact absurd e (hno l hl)
    · exact hne
    · intro e
      rw [hpn] at e
      obtain ⟨l1, m1, l2, m2, ne, ht⟩ := deep_empty (n := 32) post (by decide) (C.vrf_length _ _) hno hpn e
      have b1 := h.sound l1.binding (List.mem_map_of_mem m1)
      have b2 := h.sound l2.binding (List.mem_map_of_mem m2)
      have i1 : l1.index = (C.vrfProve vk l1.key).1 := b1.1
      have i2 : l2.index = (C.vrfProve vk l2.key).1 := b2.1
      refine spread l1.key l2.key l1.value l2.value b1.2.1 b2.2.1 ?_ ?_
      · intro e'; exact ne (by rw [i1, i2, e'])
      · rw [← i1, ← i2, ← toBits_eq_bitsOf, ← toBits_eq_bitsOf]; exact ht
  refine ⟨⟨post.lookup, rfl, ?_, ⟨pn, post.leaf, hpv⟩, ?_⟩, ?_⟩
  · simp [AuthPath.proofType, post.leaf, post.lookup, Ne.symm hne]
  · intro w _
    rw [ok.core, ok.hash]
    exact verify_abs C 256 s.tree _ ap q pn post (by decide) hi hne hpv ok.cached n w
  · simp [AuthPath.found, post.leaf, post.lookup, Ne.symm hne]

/-! ### the directory -/

structure DirInv (C : Crypto) (sk vk : Bytes) (ns : List Bytes) (d : Directory) (log : List STR) (A : AbsDir) : Prop where
  pad : PadInv C d.pad log
  skEq : d.pad.signKey = sk
  vkEq : d.pad.vrfKey = vk
  tbsOn : d.useTBs = true
  cur : TreeHolds C (fun k => (C.vrfProve vk k).1) d.pad.tree A.merged
  len : A.past.length = log.length
  snaps : ∀ (e : Nat) (s : STR) (M : Bytes → Option Bytes), log[e]? = some s → A.past[e]? = some M → TreeHolds C (fun k => (C.vrfProve vk k).1) s.tree M
  last : A.past.getLast? = some A.committed
  tbs : ∀ n, d.tbs n = (A.pending n).map (promise C sk vk d.pad.latest.core.signature n)
  disj : ∀ n v, A.pending n = some v → A.committed n = none
  names : ∀ n v, A.merged n = some v → n ∈ ns
  mono : ∀ M ∈ A.past, ∀ n v, M n = some v → A.committed n = some v

theorem merged_of_committed {A : AbsDir} (disj : ∀ n v, A.pending n = some v → A.committed n = none) {n v}
    (h : A.committed n = some v) : A.merged n = some v := by
  unfold AbsDir.merged
  cases hp : A.pending n with
  | none => exact h
  | some w => rw [disj n w hp] at h; cases h

theorem DirInv.committed_names {C sk vk ns d log A} (inv : DirInv C sk vk ns d log A) (n v : Bytes)
    (h : A.committed n = some v) : n ∈ ns := inv.names n v (merged_of_committed inv.disj h)

theorem DirInv.latest_holds {C sk vk ns d log A} (inv : DirInv C sk vk ns d log A) :
    TreeHolds C (fun k => (C.vrfProve vk k).1) d.pad.latest.tree A.committed := by
  refine inv.snaps _ _ _ inv.pad.latest_get ?_
  rw [← inv.len, ← getLast?_getElem?]; exact inv.last

theorem spread_inj {idx : Bytes → Bytes} {ns : List Bytes} (h : IndexSpread idx ns) : IndexInj idx ns := by
  intro a ha b hb e
  by_cases hab : a = b
  · exact hab
  · exact absurd (by rw [e]) (h a ha b hb hab)

theorem new_dir_inv (C : Crypto) (t0 : UInt64) (sk vk : Bytes) (size : Nat) (r₁ r₂ : Bytes) (ns : List Bytes) :
    ∃ d, newDirectory C t0 vk sk size true (some r₁) (some r₂) = some d ∧ DirInv C sk vk ns d [d.pad.latest] AbsDir.init ∧
      d.policies = newPolicies t0 (C.vrfPub vk) ∧ d.pad.ad = newPolicies t0 (C.vrfPub vk) ∧
      d.pad.latest.ad = newPolicies t0 (C.vrfPub vk) ∧ d.pad.tree.nonce = C.hash r₁ := by
  obtain ⟨p, h1, h2, h3, h4, h5, h6, h7, h8, h9, h10, h11⟩ := newPAD_spec C (newPolicies t0 (C.vrfPub vk)) sk vk size r₁ r₂
  refine ⟨{ pad := p, useTBs := true, tbs := fun _ => none, policies := newPolicies t0 (C.vrfPub vk) }, ?_, ?_, rfl, h5, h6, h11⟩
  · simp [newDirectory, h1]
  · refine { pad := h2, skEq := h3, vkEq := h4, tbsOn := rfl, cur := ?_, len := rfl, snaps := ?_, last := rfl, tbs := fun _ => rfl,
             disj := ?_, names := ?_, mono := ?_ }
    · refine ⟨by rw [h7]; simp, ?_, by rw [h7]; simp⟩
      intro n v h; simp [AbsDir.merged, AbsDir.init] at h
    · intro e s M hs hM
      cases e with
      | succ e => simp at hs
      | zero =>
        simp only [List.getElem?_cons_zero, Option.some.injEq, AbsDir.init] at hs hM
        subst hs; subst hM
        exact ⟨by rw [h8]; simp, (by intro n v h; cases h), by rw [h8]; simp⟩
    · intro n v h; simp [AbsDir.init] at h
    · intro n v h; simp [AbsDir.merged, AbsDir.init] at h
    · intro M hM n v h
      simp only [AbsDir.init, List.mem_singleton] at hM
      subst hM; cases h

theorem update_dir_inv {C sk vk ns d log A} (inv : DirInv C sk vk ns d log A) (hlt : log.length < 2 ^ 64) :
    DirInv C sk vk ns (d.update C) (log ++ [(d.update C).pad.latest]) A.nextEpoch := by
  have post := update_spec C d.pad log inv.pad hlt (some d.policies)
  have hm : A.nextEpoch.merged = A.merged := by funext n; simp [AbsDir.nextEpoch, AbsDir.merged]
  refine { pad := post.inv, skEq := post.signKey.trans inv.skEq, vkEq := post.vrfKey.trans inv.vkEq, tbsOn := inv.tbsOn, cur := ?_,
           len := ?_, snaps := ?_, last := ?_, tbs := ?_, disj := ?_, names := ?_, mono := ?_ }
  · rw [hm]; exact inv.cur.of_bindings post.bindings
  · simp [AbsDir.nextEpoch, inv.len]
  · intro e s M hs hM
    simp only [AbsDir.nextEpoch] at hM
    rcases Nat.lt_or_ge e log.length with he | he
    · rw [List.getElem?_append_left he] at hs
      rw [List.getElem?_append_left (by rw [inv.len]; exact he)] at hM
      exact inv.snaps e s M hs hM
    · rw [List.getElem?_append_right he] at hs
      rw [List.getElem?_append_right (by rw [inv.len]; exact he), inv.len] at hM
      rcases Nat.eq_zero_or_pos (e - log.length) with h0 | h0
      · rw [h0] at hs hM
        simp only [List.getElem?_cons_zero, Option.some.injEq] at hs hM
        subst hs; subst hM
        exact inv.cur.of_bindings post.latestBindings
      · rw [List.getElem?_eq_none (by simp; omega)] at hs; cases hs
  · simp [AbsDir.nextEpoch]
  · intro n; simp [Directory.update, AbsDir.nextEpoch]
  · intro n v h; simp [AbsDir.nextEpoch] at h
  · intro n v h; rw [hm] at h; exact inv.names n v h
  · intro M hM n v h
    simp only [AbsDir.nextEpoch, List.mem_append, List.mem_singleton] at hM ⊢
    rcases hM with hM | rfl
    · exact merged_of_committed inv.disj (inv.mono M hM n v h)
    · exact h

/-- what `pad.Lookup` gives -/
theorem lookup_eq {C sk vk ns d log A} (inv : DirInv C sk vk ns d log A) (n : Bytes) :
    d.pad.lookup C n = (d.pad.latest.tree.get (C.vrfProve vk n).1).map
      fun ap => some { ap with vrfProof := (C.vrfProve vk n).2 } := by
  simp [PAD.lookup, PAD.lookupInEpoch, PAD.getSTR, inv.vkEq]

/-- the three outcomes of a lookup of a name in the latest snapshot -/
theorem lookup_cases {C sk vk ns d log A} (inv : DirInv C sk vk ns d log A) (n : Bytes)
    (inj : IndexInj (fun k => (C.vrfProve vk k).1) (n :: ns)) :
    ∃ ap, d.pad.lookup C n = some (some ap) ∧
      ((∃ v, A.committed n = some v ∧ ap.found = some true ∧
          ProofShows C vk n d.latestSTR.core.treeHash ap (some v)) ∨
       (A.committed n = none ∧ ap.found = some false ∧ ProofShows C vk n d.latestSTR.core.treeHash ap none) ∨
       (A.committed n = none ∧ (∃ l, ap.leaf = some l ∧ l.value = none) ∧
          ¬ IndexSpread (fun k => (C.vrfProve vk k).1) (n :: ns) ∧ ∃ f, ap.found = some f)) := by
  have ok := inv.pad.snap _ inv.pad.latest_mem
  have hold := inv.latest_holds
  have hinj : ∀ m w, A.committed m = some w → (C.vrfProve vk m).1 = (C.vrfProve vk n).1 → m = n := by
    intro m w hm e
    exact inj m (List.mem_cons_of_mem _ (inv.committed_names m w hm)) n (List.mem_cons_self ..) e
  rw [lookup_eq inv]
  cases hc : A.committed n with
  | some v =>
    obtain ⟨ap, h1, h2, h3⟩ := snap_present ok hold n v hc hinj
    refine ⟨_, by rw [h1]; rfl, Or.inl ⟨v, rfl, h3, h2⟩⟩
  | none =>
    obtain ⟨ap, l, h1, h2, h3, h4, h5⟩ := snap_absent ok hold n hc hinj
    refine ⟨_, by rw [h1]; rfl, Or.inr ?_⟩
    by_cases hs : IndexSpread (fun k => (C.vrfProve vk k).1) (n :: ns)
    · left
      obtain ⟨h6, h7⟩ := h5 (by
        intro a b w w' ha hb hab
        exact hs a (List.mem_cons_of_mem _ (inv.committed_names a w ha)) b
          (List.mem_cons_of_mem _ (inv.committed_names b w' hb)) hab)
      exact ⟨rfl, h7, h6⟩
    · right
      refine ⟨rfl, ⟨l, h3, h4⟩, hs, ?_⟩
      exact ⟨_, by simp [AuthPath.found, h3]; rfl⟩

theorem newTB_eq {C sk vk ns d log A} (inv : DirInv C sk vk ns d log A) (n k : Bytes) :
    d.newTB C n k = promise C sk vk d.pad.latest.core.signature n k := by
  simp [Directory.newTB, PAD.index, inv.vkEq, promise, PAD.sign, inv.skEq, Directory.latestSTR]

theorem add_dir_inv {C sk vk ns d log A} (inv : DirInv C sk vk ns d log A) (n k r : Bytes) (pad' : PAD)
    (hset : SetPost C d.pad pad' log)
    (hb : pad'.tree.root.bindings.Perm
        (put ⟨d.pad.index C n, n, k, C.hash r, C.hash (C.hash r ++ n ++ k)⟩ d.pad.tree.root.bindings))
    (hn : n ∈ ns) (inj : IndexInj (fun k => (C.vrfProve vk k).1) ns) (hm : A.merged n = none) :
    DirInv C sk vk ns
      { d with pad := pad', tbs := fun x => if x = n then some (promise C sk vk d.pad.latest.core.signature n k) else d.tbs x }
      log (A.add n k) := by
  have hpend : A.pending n = none := by
    cases h : A.pending n with
    | none => rfl
    | some v => simp [AbsDir.merged, h] at hm
  have hcom : A.committed n = none := by simpa [AbsDir.merged, hpend] using hm
  have hmer : ∀ x, (A.add n k).merged x = if x = n then some k else A.merged x := by
    intro x
    by_cases e : x = n
    · simp [AbsDir.merged, AbsDir.add, e]
    · simp [AbsDir.merged, AbsDir.add, e]
  refine { pad := hset.inv, skEq := hset.signKey.trans inv.skEq, vkEq := hset.vrfKey.trans inv.vkEq, tbsOn := inv.tbsOn, cur := ?_,
           len := inv.len, snaps := inv.snaps, last := inv.last, tbs := ?_, disj := ?_, names := ?_, mono := inv.mono }
  · have hb' : pad'.tree.root.bindings.Perm
        (put ⟨(fun k => (C.vrfProve vk k).1) n, n, k, C.hash r, C.hash (C.hash r ++ n ++ k)⟩ d.pad.tree.root.bindings) := by
      rw [show d.pad.index C n = (C.vrfProve vk n).1 by simp [PAD.index, inv.vkEq]] at hb
      exact hb
    exact (inv.cur.put n k r (fun m w hmw e => inj m (inv.names m w hmw) n hn e) hb').congr (fun x => (hmer x).symm)
  · intro x
    by_cases e : x = n
    · subst e; simp [AbsDir.add, hset.latest]
    · simp [AbsDir.add, hset.latest, e, inv.tbs x]
  · intro x v h
    by_cases e : x = n
    · subst e; exact hcom
    · simp only [AbsDir.add, if_neg e] at h; exact inv.disj x v h
  · intro x v h
    rw [hmer] at h
    by_cases e : x = n
    · rw [e]; exact hn
    · rw [if_neg e] at h; exact inv.names x v h

/-- everything about `Register` -/
theorem register_spec {C sk vk ns d log A} (inv : DirInv C sk vk ns d log A) (rnd : Option Bytes) (req : RegistrationRequest)
    (hn : req.username ∈ ns) (inj : IndexInj (fun k => (C.vrfProve vk k).1) ns) :
    ∃ d' resp, d.register C rnd req = some (d', resp) ∧
      ((d' = d ∧ (A.step (.register rnd req) = A ∨ ¬ IndexSpread (fun k => (C.vrfProve vk k).1) ns) ∧ resp.error ≠ ReqSuccess) ∨
       (DirInv C sk vk ns d' log (A.add req.username req.key) ∧ A.step (.register rnd req) = A.add req.username req.key ∧
          A.merged req.username = none ∧
          resp.error = ReqSuccess ∧ d'.latestSTR = d.latestSTR ∧ d'.policies = d.policies ∧ d'.pad.ad = d.pad.ad)) ∧
      (req.username ≠ [] → req.key ≠ [] → A.merged req.username ≠ none → resp.error = ReqNameExisted) ∧
      ((A.committed req.username = none ∧ ¬ IndexSpread (fun k => (C.vrfProve vk k).1) ns) ∨
          Answers C sk vk req.username d.latestSTR resp (A.registerAnswer rnd req.username req.key)) := by
  have hsub : IndexInj (fun k => (C.vrfProve vk k).1) (req.username :: ns) := by
    intro a ha b hb e
    have ha' : a ∈ ns := by rcases List.mem_cons.mp ha with h | h; exact h ▸ hn; exact h
    have hb' : b ∈ ns := by rcases List.mem_cons.mp hb with h | h; exact h ▸ hn; exact h
    exact inj a ha' b hb' e
  have hspr : IndexSpread (fun k => (C.vrfProve vk k).1) ns → IndexSpread (fun k => (C.vrfProve vk k).1) (req.username :: ns) := by
    intro h a ha b hb e
    have ha' : a ∈ ns := by rcases List.mem_cons.mp ha with h | h; exact h ▸ hn; exact h
    have hb' : b ∈ ns := by rcases List.mem_cons.mp hb with h | h; exact h ▸ hn; exact h
    exact h a ha' b hb' e
  by_cases hmal : req.username = [] ∨ req.key = []
  · refine ⟨d, newErrorResponse ErrMalformedMessage, ?_, Or.inl ⟨rfl, Or.inl ?_, by decide⟩, ?_, Or.inr ?_⟩
    · have : req.username.length = 0 ∨ req.key.length = 0 := by simpa using hmal
      simp only [Directory.register, if_pos this]
    · simp only [AbsDir.step]
      rw [if_neg]
      intro h
      rcases hmal with h' | h'
      · exact h.1 h'
      · exact h.2.1 h'
    · intro h1 h2
      rcases hmal with h' | h'
      · exact absurd h' h1
      · exact absurd h' h2
    · simp [Answers, AbsDir.registerAnswer, hmal, newErrorResponse]
  · have hmal' : ¬ (req.username.length = 0 ∨ req.key.length = 0) := by simpa using hmal
    have hu : req.username ≠ [] := fun h => hmal (Or.inl h)
    have hk : req.key ≠ [] := fun h => hmal (Or.inr h)
    obtain ⟨ap, hl, hcases⟩ := lookup_cases inv req.username hsub
    -- the case "not found in the tree"
    have notfound : A.committed req.username = none → ap.found = some false →
        ∃ d' resp, d.register C rnd req = some (d', resp) ∧
          ((d' = d ∧ (A.step (.register rnd req) = A ∨ ¬ IndexSpread (fun k => (C.vrfProve vk k).1) ns) ∧ resp.error ≠ ReqSuccess) ∨
           (DirInv C sk vk ns d' log (A.add req.username req.key) ∧
              A.step (.register rnd req) = A.add req.username req.key ∧
              A.merged req.username = none ∧
              resp.error = ReqSuccess ∧ d'.latestSTR = d.latestSTR ∧ d'.policies = d.policies ∧ d'.pad.ad = d.pad.ad)) ∧
          (A.merged req.username ≠ none → resp.error = ReqNameExisted) ∧
          (ProofShows C vk req.username d.latestSTR.core.treeHash ap none →
            Answers C sk vk req.username d.latestSTR resp (A.registerAnswer rnd req.username req.key)) := by
      intro hc hf
      have htb := inv.tbs req.username
      cases hp : A.pending req.username with
      | some v =>
        rw [hp, Option.map_some] at htb
        refine ⟨d, newSingleProof ap d.latestSTR (some (promise C sk vk d.pad.latest.core.signature req.username v)) ReqNameExisted,
          ?_, Or.inl ⟨rfl, Or.inl ?_, by simp [newSingleProof, ReqNameExisted, ReqSuccess]⟩, fun _ => rfl, ?_⟩
        · simp only [Directory.register, if_neg hmal', hl, hf, inv.tbsOn, if_true, htb]
        · simp [AbsDir.step, AbsDir.merged, hp]
        · intro hs
          simp only [Answers, AbsDir.registerAnswer, if_neg hmal, hc, hp]
          rw [if_neg (by decide)]
          exact ⟨ap, rfl, hs⟩
      | none =>
        rw [hp, Option.map_none] at htb
        have hm : A.merged req.username = none := by simp [AbsDir.merged, hp, hc]
        obtain ⟨pad', hset, post, hnone, hsome⟩ := pad_set_spec C d.pad log inv.pad rnd req.username req.key
        cases rnd with
        | none =>
          refine ⟨d, newErrorResponse ErrDirectory, ?_, Or.inl ⟨rfl, Or.inl ?_, by decide⟩, fun h => absurd hm h, ?_⟩
          · simp only [Directory.register, if_neg hmal', hl, hf, inv.tbsOn, if_true, htb, hset, hnone rfl]
            show some (({ d with pad := d.pad, useTBs := true } : Directory), newErrorResponse ErrDirectory) = _
            rw [← inv.tbsOn]
          · simp [AbsDir.step]
          · intro _
            simp only [Answers, AbsDir.registerAnswer, if_neg hmal, hc, hp]
            simp [newErrorResponse]
        | some r =>
          have hinv := add_dir_inv inv req.username req.key r pad' post (hsome r rfl) hn inj hm
          have hls : pad'.latest = d.pad.latest := post.latest
          refine ⟨_, newSingleProof ap d.latestSTR (some (promise C sk vk d.pad.latest.core.signature req.username req.key)) ReqSuccess,
            ?_, Or.inr ⟨hinv, ?_, hm, rfl, ?_, rfl, post.ad⟩, fun h => absurd hm h, ?_⟩
          · simp only [Directory.register, if_neg hmal', hl, hf, inv.tbsOn, if_true, htb, hset, Option.isSome_some,
              newTB_eq inv, Directory.latestSTR, hls]
          · simp [AbsDir.step, hu, hk, hm]
          · simp [Directory.latestSTR, hls]
          · intro hs
            simp only [Answers, AbsDir.registerAnswer, if_neg hmal, hc, hp, Option.isSome_some, if_true]
            rw [if_neg (by decide)]
            exact ⟨ap, rfl, hs⟩
    rcases hcases with ⟨v, hc, hf, hs⟩ | ⟨hc, hf, hs⟩ | ⟨hc, ⟨l, hl1, hl2⟩, hns, f, hf⟩
    · refine ⟨d, newSingleProof ap d.latestSTR none ReqNameExisted, ?_, Or.inl ⟨rfl, Or.inl ?_, by simp [newSingleProof, ReqNameExisted, ReqSuccess]⟩,
        fun _ _ _ => rfl, Or.inr ?_⟩
      · simp only [Directory.register, if_neg hmal', hl, hf]
      · have := merged_of_committed inv.disj hc
        simp [AbsDir.step, this]
      · simp only [Answers, AbsDir.registerAnswer, if_neg hmal, hc]
        rw [if_neg (by decide)]
        exact ⟨ap, rfl, hs⟩
    · obtain ⟨d', resp, h1, h2, h3, h4⟩ := notfound hc hf
      exact ⟨d', resp, h1, h2, fun _ _ => h3, Or.inr (h4 hs)⟩
    · have hns' : ¬ IndexSpread (fun k => (C.vrfProve vk k).1) ns := fun h => hns (hspr h)
      cases f with
      | true =>
        refine ⟨d, newSingleProof ap d.latestSTR none ReqNameExisted, ?_, Or.inl ⟨rfl, Or.inr hns', by simp [newSingleProof, ReqNameExisted, ReqSuccess]⟩,
          fun _ _ _ => rfl, Or.inl ⟨hc, hns'⟩⟩
        simp only [Directory.register, if_neg hmal', hl, hf]
      | false =>
        obtain ⟨d', resp, h1, h2, h3, h4⟩ := notfound hc hf
        exact ⟨d', resp, h1, h2, fun _ _ => h3, Or.inl ⟨hc, hns'⟩⟩


/-- everything about `KeyLookup` -/
theorem keyLookup_spec {C sk vk ns d log A} (inv : DirInv C sk vk ns d log A) (req : KeyLookupRequest)
    (inj : IndexInj (fun k => (C.vrfProve vk k).1) (req.username :: ns)) :
    ∃ resp, d.keyLookup C req = some resp ∧
      ((A.committed req.username = none ∧ ¬ IndexSpread (fun k => (C.vrfProve vk k).1) (req.username :: ns) ∧
          ∃ ap tb l, resp.resp = .proof ⟨[some ap], [some d.latestSTR], tb⟩ ∧ ap.leaf = some l ∧ l.value = none ∧
            (tb = none ∨ ∃ v, A.pending req.username = some v ∧
              tb = some (promise C sk vk d.latestSTR.core.signature req.username v))) ∨
        Answers C sk vk req.username d.latestSTR resp (A.lookupAnswer req.username)) := by
  by_cases hmal : req.username = []
  · refine ⟨newErrorResponse ErrMalformedMessage, ?_, Or.inr ?_⟩
    · simp [Directory.keyLookup, hmal]
    · simp [Answers, AbsDir.lookupAnswer, hmal, newErrorResponse]
  · have hmal' : ¬ req.username.length = 0 := by simpa using hmal
    obtain ⟨ap, hl, hcases⟩ := lookup_cases inv req.username inj
    have htb := inv.tbs req.username
    rcases hcases with ⟨v, hc, hf, hs⟩ | ⟨hc, hf, hs⟩ | ⟨hc, ⟨l, hl1, hl2⟩, hns, f, hf⟩
    · refine ⟨newSingleProof ap d.latestSTR none ReqSuccess, ?_, Or.inr ?_⟩
      · simp only [Directory.keyLookup, if_neg hmal', hl, hf]
      · simp only [Answers, AbsDir.lookupAnswer, if_neg hmal, hc]
        rw [if_neg (by decide)]
        exact ⟨ap, rfl, hs⟩
    · cases hp : A.pending req.username with
      | some v =>
        rw [hp, Option.map_some] at htb
        refine ⟨newSingleProof ap d.latestSTR (some (promise C sk vk d.pad.latest.core.signature req.username v)) ReqSuccess, ?_,
          Or.inr ?_⟩
        · simp only [Directory.keyLookup, if_neg hmal', hl, hf, inv.tbsOn, if_true, htb]
        · simp only [Answers, AbsDir.lookupAnswer, if_neg hmal, hc, hp]
          rw [if_neg (by decide)]
          exact ⟨ap, rfl, hs⟩
      | none =>
        rw [hp, Option.map_none] at htb
        refine ⟨newSingleProof ap d.latestSTR none ReqNameNotFound, ?_, Or.inr ?_⟩
        · simp only [Directory.keyLookup, if_neg hmal', hl, hf, inv.tbsOn, if_true, htb]
        · simp only [Answers, AbsDir.lookupAnswer, if_neg hmal, hc, hp]
          rw [if_neg (by decide)]
          exact ⟨ap, rfl, hs⟩
    · cases f with
      | true =>
        refine ⟨newSingleProof ap d.latestSTR none ReqSuccess, ?_, Or.inl ⟨hc, hns, ap, none, l, rfl, hl1, hl2, Or.inl rfl⟩⟩
        simp only [Directory.keyLookup, if_neg hmal', hl, hf]
      | false =>
        cases hp : A.pending req.username with
        | some v =>
          rw [hp, Option.map_some] at htb
          refine ⟨newSingleProof ap d.latestSTR (some (promise C sk vk d.pad.latest.core.signature req.username v)) ReqSuccess, ?_,
            Or.inl ⟨hc, hns, ap, _, l, rfl, hl1, hl2, Or.inr ⟨v, rfl, rfl⟩⟩⟩
          simp only [Directory.keyLookup, if_neg hmal', hl, hf, inv.tbsOn, if_true, htb]
        | none =>
          rw [hp, Option.map_none] at htb
          refine ⟨newSingleProof ap d.latestSTR none ReqNameNotFound, ?_,
            Or.inl ⟨hc, hns, ap, none, l, rfl, hl1, hl2, Or.inl rfl⟩⟩
          simp only [Directory.keyLookup, if_neg hmal', hl, hf, inv.tbsOn, if_true, htb]

/-! ### whole histories -/

/-- later abstract states only add to earlier ones -/
structure Extends (A A' : AbsDir) : Prop where
  merged : ∀ n v, A.merged n = some v → A'.merged n = some v
  past : ∃ ext, A'.past = A.past ++ ext ∧ ∀ M ∈ ext, ∀ n v, A.merged n = some v → M n = some v

theorem Extends.refl (A : AbsDir) : Extends A A := ⟨fun _ _ h => h, [], by simp, by simp⟩

theorem Extends.trans {A B D : AbsDir} (h : Extends A B) (h' : Extends B D) : Extends A D := by
  obtain ⟨m1, e1, p1, q1⟩ := h
  obtain ⟨m2, e2, p2, q2⟩ := h'
  refine ⟨fun n v x => m2 n v (m1 n v x), e1 ++ e2, by rw [p2, p1, List.append_assoc], ?_⟩
  intro M hM n v x
  rcases List.mem_append.mp hM with h | h
  · exact q1 M h n v x
  · exact q2 M h n v (m1 n v x)

theorem Extends.add {A : AbsDir} {n k : Bytes} (h : A.merged n = none) : Extends A (A.add n k) := by
  refine ⟨?_, [], by simp [AbsDir.add], by simp⟩
  intro x v hx
  have hne : x ≠ n := by intro e; rw [e, h] at hx; cases hx
  unfold AbsDir.merged at hx ⊢
  simp only [AbsDir.add, if_neg hne]
  exact hx

theorem Extends.next (A : AbsDir) : Extends A A.nextEpoch := by
  refine ⟨?_, [A.merged], rfl, ?_⟩
  · intro n v h; simpa [AbsDir.merged, AbsDir.nextEpoch] using h
  · intro M hM n v h; simp only [List.mem_singleton] at hM; rw [hM]; exact h

theorem setPolicies_inv {C sk vk ns d log A} (inv : DirInv C sk vk ns d log A) (t : UInt64) :
    DirInv C sk vk ns (d.setPolicies t) log A := ⟨inv.pad, inv.skEq, inv.vkEq, inv.tbsOn, inv.cur, inv.len, inv.snaps, inv.last, inv.tbs,
      inv.disj, inv.names, inv.mono⟩

/-- one call -/
theorem dir_step_inv {C sk vk ns d log A} (inv : DirInv C sk vk ns d log A) (op : DirOp)
    (hn : ∀ n ∈ regNames [op], n ∈ ns) (inj : IndexInj (fun k => (C.vrfProve vk k).1) ns)
    (hlt : log.length + dirUpdates [op] ≤ 2 ^ 64) (d' : Directory) (r : Option Response) (h : d.step C op = some (d', r)) :
    ∃ A', DirInv C sk vk ns d' (log ++ op.issued d') A' ∧ Extends A A' ∧
      (IndexSpread (fun k => (C.vrfProve vk k).1) ns → A' = A.step op) := by
  have same : ∀ {x : Go Response}, (x.map fun r => (d, some r)) = some (d', r) → d' = d := by
    intro x hx
    obtain ⟨y, _, hy⟩ := Option.map_eq_some_iff.mp hx
    exact (congrArg Prod.fst hy).symm
  have keep : ∀ op', op'.issued d = [] → A.step op' = A → d' = d →
      ∃ A', DirInv C sk vk ns d' (log ++ op'.issued d') A' ∧ Extends A A' ∧
        (IndexSpread (fun k => (C.vrfProve vk k).1) ns → A' = A.step op') := by
    intro op' h1 h2 h3
    subst h3
    exact ⟨A, by rw [h1, List.append_nil]; exact inv, Extends.refl A, fun _ => h2.symm⟩
  cases op with
  | register rnd req =>
    obtain ⟨d1, resp, h1, h2, _⟩ := register_spec inv rnd req (hn _ (by simp [regNames])) inj
    simp only [Directory.step, h1, Option.map_some, Option.some.injEq, Prod.mk.injEq] at h
    obtain ⟨rfl, rfl⟩ := h
    simp only [DirOp.issued, List.append_nil]
    rcases h2 with ⟨rfl, h3, _⟩ | ⟨h3, h4, h5, _⟩
    · refine ⟨A, inv, Extends.refl A, ?_⟩
      intro hs
      rcases h3 with h3 | h3
      · exact h3.symm
      · exact absurd hs h3
    · exact ⟨_, h3, Extends.add h5, fun _ => h4.symm⟩
  | keyLookup req => exact keep _ rfl rfl (same h)
  | keyLookupInEpoch req => exact keep _ rfl rfl (same h)
  | monitor req => exact keep _ rfl rfl (same h)
  | getSTRHistory req => exact keep _ rfl rfl (same h)
  | update =>
    simp only [Directory.step, Option.some.injEq, Prod.mk.injEq] at h
    obtain ⟨rfl, rfl⟩ := h
    simp only [dirUpdates] at hlt
    exact ⟨_, update_dir_inv inv (by omega), Extends.next A, fun _ => rfl⟩
  | setPolicies t =>
    simp only [Directory.step, Option.some.injEq, Prod.mk.injEq] at h
    obtain ⟨rfl, rfl⟩ := h
    simp only [DirOp.issued, List.append_nil]
    exact ⟨A, setPolicies_inv inv t, Extends.refl A, fun _ => rfl⟩

theorem regNames_cons (op : DirOp) (ops : List DirOp) : regNames (op :: ops) = regNames [op] ++ regNames ops := by
  cases op <;> simp [regNames]

theorem dirUpdates_cons (op : DirOp) (ops : List DirOp) : dirUpdates (op :: ops) = dirUpdates [op] + dirUpdates ops := by
  cases op <;> simp [dirUpdates]; omega

theorem regNames_append (a b : List DirOp) : regNames (a ++ b) = regNames a ++ regNames b := by
  induction a with
  | nil => simp [regNames]
  | cons o a ih => rw [List.cons_append, regNames_cons, ih, regNames_cons o a, List.append_assoc]

theorem dirUpdates_append (a b : List DirOp) : dirUpdates (a ++ b) = dirUpdates a + dirUpdates b := by
  induction a with
  | nil => simp [dirUpdates]
  | cons o a ih => rw [List.cons_append, dirUpdates_cons, ih, dirUpdates_cons o a]; omega

theorem issued_length (op : DirOp) (d : Directory) : (op.issued d).length = dirUpdates [op] := by
  cases op <;> simp [DirOp.issued, dirUpdates]

theorem dir_run_inv (C : Crypto) (sk vk : Bytes) (ns : List Bytes) (inj : IndexInj (fun k => (C.vrfProve vk k).1) ns)
    (ops : List DirOp) : ∀ d log A, DirInv C sk vk ns d log A → (∀ n ∈ regNames ops, n ∈ ns) →
    log.length + dirUpdates ops ≤ 2 ^ 64 → ∀ d' log', d.runLog C log ops = some (d', log') →
    ∃ A', DirInv C sk vk ns d' log' A' ∧ Extends A A' ∧
      (IndexSpread (fun k => (C.vrfProve vk k).1) ns → A' = ops.foldl AbsDir.step A) ∧
      log'.length = log.length + dirUpdates ops ∧ ∃ ext, log' = log ++ ext := by
  induction ops with
  | nil =>
    intro d log A inv _ _ d' log' h
    simp only [Directory.runLog, Option.some.injEq, Prod.mk.injEq] at h
    obtain ⟨rfl, rfl⟩ := h
    exact ⟨A, inv, Extends.refl A, fun _ => rfl, by simp [dirUpdates], [], by simp⟩
  | cons op ops ih =>
    intro d log A inv hn hlt d' log' h
    rw [dirUpdates_cons] at hlt
    simp only [Directory.runLog] at h
    obtain ⟨⟨d1, r⟩, h1, h2⟩ := Option.bind_eq_some_iff.mp h
    obtain ⟨A1, inv1, ext1, st1⟩ := dir_step_inv inv op (fun n hn' => hn n (by rw [regNames_cons]; simp [hn'])) inj (by omega)
      d1 r h1
    have hl : (log ++ op.issued d1).length = log.length + dirUpdates [op] := by simp [issued_length]
    obtain ⟨A2, inv2, ext2, st2, len2, e2⟩ := ih d1 _ A1 inv1 (fun n hn' => hn n (by rw [regNames_cons]; simp [hn'])) (by omega)
      d' log' h2
    refine ⟨A2, inv2, ext1.trans ext2, ?_, ?_, ?_⟩
    · intro hs; rw [st2 hs, st1 hs]; rfl
    · rw [len2, hl, dirUpdates_cons op ops]; omega
    · obtain ⟨e, he⟩ := e2; exact ⟨op.issued d1 ++ e, by rw [he, List.append_assoc]⟩

theorem dir_runLog_append (C : Crypto) (a b : List DirOp) : ∀ (d : Directory) (log : List STR),
    d.runLog C log (a ++ b) = (d.runLog C log a).bind fun x => x.1.runLog C x.2 b := by
  induction a with
  | nil => intro d log; rfl
  | cons o a ih =>
    intro d log
    simp only [List.cons_append, Directory.runLog]
    cases d.step C o with
    | none => rfl
    | some x => exact ih x.1 _

theorem dirAfter_append (C : Crypto) (t0 : UInt64) (sk vk : Bytes) (size : Nat) (r₁ r₂ : Bytes) (a b : List DirOp) :
    dirAfter C t0 sk vk size r₁ r₂ (a ++ b) = (dirAfter C t0 sk vk size r₁ r₂ a).bind fun x => x.1.runLog C x.2 b := by
  simp only [dirAfter]
  cases newDirectory C t0 vk sk size true (some r₁) (some r₂) with
  | none => rfl
  | some d => simp only [Option.bind_some]; exact dir_runLog_append C a b d _

/-- the invariant after a history; `ns` any list of names with all registered ones -/
theorem dirAfter_inv (C : Crypto) (t0 : UInt64) (sk vk : Bytes) (size : Nat) (r₁ r₂ : Bytes) (ops : List DirOp) (ns : List Bytes)
    (hn : ∀ n ∈ regNames ops, n ∈ ns) (inj : IndexInj (fun k => (C.vrfProve vk k).1) ns) (hlt : dirUpdates ops < 2 ^ 64)
    (d : Directory) (log : List STR) (h : dirAfter C t0 sk vk size r₁ r₂ ops = some (d, log)) :
    ∃ A, DirInv C sk vk ns d log A ∧
      (IndexSpread (fun k => (C.vrfProve vk k).1) ns → A = absAfter ops) ∧ log.length = dirUpdates ops + 1 := by
  obtain ⟨d0, h0, inv0, _⟩ := new_dir_inv C t0 sk vk size r₁ r₂ ns
  simp only [dirAfter, h0, Option.bind_some] at h
  obtain ⟨A, inv, _, st, hl, _⟩ := dir_run_inv C sk vk ns inj ops d0 _ _ inv0 hn (by simp; omega) d log h
  exact ⟨A, inv, st, by rw [hl]; simp; omega⟩

/-- the invariant in the middle and at the end of a history -/
theorem dirAfter_split (C : Crypto) (t0 : UInt64) (sk vk : Bytes) (size : Nat) (r₁ r₂ : Bytes) (a b : List DirOp) (ns : List Bytes)
    (hn : ∀ n ∈ regNames (a ++ b), n ∈ ns) (inj : IndexInj (fun k => (C.vrfProve vk k).1) ns) (hlt : dirUpdates (a ++ b) < 2 ^ 64)
    (d : Directory) (log : List STR) (h : dirAfter C t0 sk vk size r₁ r₂ (a ++ b) = some (d, log)) :
    ∃ d₁ log₁ A₁ A, dirAfter C t0 sk vk size r₁ r₂ a = some (d₁, log₁) ∧ d₁.runLog C log₁ b = some (d, log) ∧
      DirInv C sk vk ns d₁ log₁ A₁ ∧ DirInv C sk vk ns d log A ∧ Extends A₁ A ∧ log₁.length = dirUpdates a + 1 ∧
      log.length = dirUpdates (a ++ b) + 1 ∧ ∃ ext, log = log₁ ++ ext := by
  rw [dirUpdates_append] at hlt ⊢
  rw [dirAfter_append] at h
  obtain ⟨⟨d₁, log₁⟩, h1, h2⟩ := Option.bind_eq_some_iff.mp h
  rw [regNames_append] at hn
  obtain ⟨A₁, inv₁, _, hl₁⟩ := dirAfter_inv C t0 sk vk size r₁ r₂ a ns (fun n hn' => hn n (by simp [hn'])) inj (by omega) d₁ log₁ h1
  obtain ⟨A, inv, ext, _, hl, he⟩ := dir_run_inv C sk vk ns inj b d₁ log₁ A₁ inv₁ (fun n hn' => hn n (by simp [hn'])) (by omega)
    d log h2
  exact ⟨d₁, log₁, A₁, A, h1, h2, inv₁, inv, ext, hl₁, by omega, he⟩

/-! ### which keys an answer shows -/

theorem register_keys {C sk vk ns d log A} (inv : DirInv C sk vk ns d log A) (rnd : Option Bytes) (req : RegistrationRequest)
    (inj : IndexInj (fun k => (C.vrfProve vk k).1) (req.username :: ns)) (v : Bytes) (hv : A.merged req.username = some v)
    (d' : Directory) (resp : Response) (h : d.register C rnd req = some (d', resp)) :
    d' = d ∧ (∀ k ∈ keysShown resp, k = v) ∧ (req.username ≠ [] → req.key ≠ [] → resp.error = ReqNameExisted) := by
  by_cases hmal : req.username.length = 0 ∨ req.key.length = 0
  · simp only [Directory.register, if_pos hmal, Option.some.injEq, Prod.mk.injEq] at h
    obtain ⟨rfl, rfl⟩ := h
    refine ⟨rfl, by simp [keysShown, newErrorResponse], fun h1 h2 => ?_⟩
    rcases hmal with e | e
    · exact absurd (List.length_eq_zero_iff.mp e) h1
    · exact absurd (List.length_eq_zero_iff.mp e) h2
  · obtain ⟨ap, hl, hcases⟩ := lookup_cases inv req.username inj
    have htb := inv.tbs req.username
    have pend : A.committed req.username = none → A.pending req.username = some v := by
      intro hc
      unfold AbsDir.merged at hv
      cases hp : A.pending req.username with
      | some w => rw [hp] at hv; exact hv
      | none => rw [hp] at hv; rw [hc] at hv; cases hv
    simp only [Directory.register, if_neg hmal, hl] at h
    rcases hcases with ⟨w, hc, hf, hs⟩ | ⟨hc, hf, hs⟩ | ⟨hc, ⟨l, hl1, hl2⟩, hns, f, hf⟩
    · have hw : w = v := by have := merged_of_committed inv.disj hc; rw [hv] at this; simpa using this.symm
      simp only [hf, Option.some.injEq, Prod.mk.injEq] at h
      obtain ⟨rfl, rfl⟩ := h
      obtain ⟨l, h1, h2⟩ := hs.value
      refine ⟨rfl, ?_, fun _ _ => rfl⟩
      simp [keysShown, newSingleProof, h1, h2, hw]
    · rw [pend hc, Option.map_some] at htb
      simp only [hf, inv.tbsOn, if_true, htb, Option.some.injEq, Prod.mk.injEq] at h
      obtain ⟨rfl, rfl⟩ := h
      obtain ⟨l, h1, h2⟩ := hs.value
      refine ⟨rfl, ?_, fun _ _ => rfl⟩
      simp [keysShown, newSingleProof, h1, h2, promise]
    · rw [pend hc, Option.map_some] at htb
      cases f with
      | true =>
        simp only [hf, Option.some.injEq, Prod.mk.injEq] at h
        obtain ⟨rfl, rfl⟩ := h
        exact ⟨rfl, by simp [keysShown, newSingleProof, hl1, hl2], fun _ _ => rfl⟩
      | false =>
        simp only [hf, inv.tbsOn, if_true, htb, Option.some.injEq, Prod.mk.injEq] at h
        obtain ⟨rfl, rfl⟩ := h
        exact ⟨rfl, by simp [keysShown, newSingleProof, hl1, hl2, promise], fun _ _ => rfl⟩

theorem keyLookup_keys {C sk vk ns d log A} (inv : DirInv C sk vk ns d log A) (req : KeyLookupRequest)
    (inj : IndexInj (fun k => (C.vrfProve vk k).1) (req.username :: ns)) (v : Bytes) (hv : A.merged req.username = some v)
    (resp : Response) (h : d.keyLookup C req = some resp) : ∀ k ∈ keysShown resp, k = v := by
  obtain ⟨resp', h', hc⟩ := keyLookup_spec inv req inj
  rw [h] at h'
  simp only [Option.some.injEq] at h'
  subst h'
  rcases hc with ⟨hc, _, ap, tb, l, h1, h2, h3, h4⟩ | ha
  · have hp : A.pending req.username = some v := by
      unfold AbsDir.merged at hv
      cases hp : A.pending req.username with
      | some w => rw [hp] at hv; exact hv
      | none => rw [hp] at hv; rw [hc] at hv; cases hv
    rcases h4 with rfl | ⟨w, hw, rfl⟩
    · simp [keysShown, h1, h2, h3]
    · rw [hp] at hw
      simp only [Option.some.injEq] at hw
      simp [keysShown, h1, h2, h3, promise, hw]
  · unfold Answers at ha
    split at ha
    · rw [ha]; simp [keysShown]
    · obtain ⟨ap, e, hs⟩ := ha
      obtain ⟨l, h1, h2⟩ := hs.value
      have : ∀ k, (AbsDir.lookupAnswer A req.username).2.1 = some k ∨ (AbsDir.lookupAnswer A req.username).2.2 = some k → k = v := by
        intro k hk
        unfold AbsDir.lookupAnswer at hk
        unfold AbsDir.merged at hv
        split at hk
        · simp at hk
        · cases hc : A.committed req.username with
          | some w =>
            rw [hc] at hk hv
            simp only [Option.some.injEq, reduceCtorEq, or_false] at hk
            cases hp : A.pending req.username with
            | some w' => rw [inv.disj _ _ hp] at hc; cases hc
            | none => rw [hp] at hv; simp only [Option.some.injEq] at hv; rw [← hk, hv]
          | none =>
            rw [hc] at hk hv
            cases hp : A.pending req.username with
            | some w => rw [hp] at hk hv; simp at hk hv; rw [← hk, hv]
            | none => rw [hp] at hv; cases hv
      intro k hk
      rw [e] at hk
      simp only [keysShown, List.filterMap_cons, id_eq, List.filterMap_nil, h1, h2, List.mem_append] at hk
      apply this
      rcases hk with hk | hk
      · left
        cases hq : (AbsDir.lookupAnswer A req.username).2.1 with
        | none => rw [hq] at hk; simp at hk
        | some x => rw [hq] at hk; simp at hk; rw [hk]
      · right
        cases hq : (AbsDir.lookupAnswer A req.username).2.2 with
        | none => rw [hq] at hk; simp at hk
        | some x => rw [hq] at hk; simp [promise] at hk; rw [hk]

end Coniks

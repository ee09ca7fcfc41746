import Verif.Spec.Disclosure
/-
Erasing what belongs to other users commutes with everything a directory does.
-/
namespace Coniks
open Spec

section
variable (K : Bytes → Prop) [DecidablePred K]

/-- erase name, value and salt of a leaf that is not at one of the places `K` -/
def hideLeaf (l : Leaf) : Leaf :=
  if K l.index then l else { l with key := [], value := [], commit := ⟨[], l.commit.value⟩ }

def hideNode : Node → Node
  | .empty lv i => .empty lv i
  | .leaf l => .leaf (hideLeaf K l)
  | .interior lv a b l r => .interior lv a b (hideNode l) (hideNode r)

def hideTree (m : MerkleTree) : MerkleTree := { m with root := hideNode K m.root }

def hideSTR (s : STR) : STR := { s with tree := hideTree K s.tree }

def hidePAD (p : PAD) : PAD :=
  { p with tree := hideTree K p.tree, snapshots := fun e => (p.snapshots e).map (hideSTR K), latest := hideSTR K p.latest }

def hideDir (U : List Bytes) (d : Directory) : Directory :=
  { d with
    pad := hidePAD K d.pad
    tbs := fun n => (d.tbs n).map fun t => if n ∈ U then t else { t with value := [], signature := [] } }

def hidePN (pn : ProofNode) : ProofNode :=
  { pn with value := pn.value.map fun _ => [], commitment := pn.commitment.map fun c => ⟨[], c.value⟩ }

def hideAP (ap : AuthPath) : AuthPath := if K ap.lookupIndex then ap else { ap with leaf := ap.leaf.map hidePN }

@[simp] theorem hideLeaf_index (l : Leaf) : (hideLeaf K l).index = l.index := by unfold hideLeaf; split <;> rfl
@[simp] theorem hideLeaf_level (l : Leaf) : (hideLeaf K l).level = l.level := by unfold hideLeaf; split <;> rfl
@[simp] theorem hideLeaf_commit (l : Leaf) : (hideLeaf K l).commit.value = l.commit.value := by unfold hideLeaf; split <;> rfl
@[simp] theorem hideLeaf_at (l : Leaf) (lv : Nat) :
    Leaf.mk lv (hideLeaf K l).key (hideLeaf K l).value l.index (hideLeaf K l).commit = hideLeaf K ⟨lv, l.key, l.value, l.index, l.commit⟩ := by
  by_cases h : K l.index <;> simp [hideLeaf, h]

@[simp] theorem hideNode_isEmpty (n : Node) : (hideNode K n).isEmpty = n.isEmpty := by cases n <;> rfl

theorem hideNode_hash (C : Crypto) (nonce : Bytes) (n : Node) :
    (hideNode K n).hashNode C nonce = ((n.hashNode C nonce).1, hideNode K (n.hashNode C nonce).2) := by
  induction n with
  | empty => rfl
  | leaf l => simp [hideNode, Node.hashNode]
  | interior lv a b l r ihl ihr =>
    simp only [hideNode, Node.hashNode, ihl, ihr]
    cases a <;> cases b <;> rfl

theorem hideNode_clone (n : Node) : (hideNode K n).clone = hideNode K n.clone := by
  induction n with
  | empty => rfl
  | leaf l => rfl
  | interior lv a b l r ihl ihr => simp only [hideNode, Node.clone, ihl, ihr]

theorem hideNode_pushDown (depth : Nat) (pre : List Bool) (dir : Bool) (cur : Leaf) :
    pushDown depth pre dir (hideLeaf K cur) = hideNode K (pushDown depth pre dir cur) := by
  unfold pushDown
  cases dir <;> simp [hideNode, hideLeaf_at]

theorem hideNode_insert (bits : List Bool) (a : Leaf) (depth : Nat) (n : Node) :
    insertAt bits (hideLeaf K a) depth (hideNode K n) = (insertAt bits a depth n).map (hideNode K) := by
  fun_induction insertAt bits a depth n with
  | case1 => simp [hideNode, insertAt]
  | case2 depth cur h => simp [hideNode, insertAt, h, hideLeaf_at]
  | case3 depth cur h h2 h3 => simp [hideNode, insertAt, h, h2, h3]
  | case4 depth cur h h2 dir h3 ih =>
    rw [hideNode, insertAt]
    simp only [hideLeaf_index, h, h2, h3, if_false, if_true, hideNode_pushDown]
    exact ih
  | case5 depth cur h h2 => simp [hideNode, insertAt, h, h2]
  | case6 depth lv lh rh l r h => rw [hideNode, insertAt]; split <;> simp_all
  | case7 depth lv lh rh l r h he =>
    rw [hideNode, insertAt]
    split <;> rename_i hb <;> rw [h] at hb <;> cases hb
    simp [he, hideNode, hideLeaf_at]
  | case8 depth lv lh rh l r h he ih =>
    rw [hideNode, insertAt]
    split <;> rename_i hb <;> rw [h] at hb <;> cases hb
    simp only [hideNode_isEmpty, he, if_false, ih, Option.map_map]
    rfl
  | case9 depth lv lh rh l r h he =>
    rw [hideNode, insertAt]
    split <;> rename_i hb <;> rw [h] at hb <;> cases hb
    simp [he, hideNode, hideLeaf_at]
  | case10 depth lv lh rh l r h he ih =>
    rw [hideNode, insertAt]
    split <;> rename_i hb <;> rw [h] at hb <;> cases hb
    simp only [hideNode_isEmpty, he, if_false, ih, Option.map_map]
    rfl

theorem hideNode_descend (bits : List Bool) (n : Node) : ∀ d,
    descend bits d (hideNode K n) = (descend bits d n).map fun x => (x.1, hideNode K x.2) := by
  induction n with
  | empty => intro d; rfl
  | leaf => intro d; rfl
  | interior lv a b l r ihl ihr =>
    intro d
    rw [hideNode, descend, descend]
    rcases hb : bits[d]? with _ | (_ | _)
    · rfl
    · simp only [ihl, Option.map_map]; rfl
    · simp only [ihr, Option.map_map]; rfl

theorem hideTree_get (m : MerkleTree) (i : Bytes) : (hideTree K m).get i = (m.get i).map (hideAP K) := by
  unfold MerkleTree.get
  simp only [hideTree, hideNode_descend]
  cases descend (toBits i) 0 m.root with
  | none => rfl
  | some x =>
    obtain ⟨ps, n⟩ := x
    simp only [Option.map_some]
    cases n with
    | empty lv j => simp only [hideNode, proofNodeOf, Option.map_some, hideAP]; split <;> rfl
    | interior => rfl
    | leaf l =>
      simp only [hideNode, proofNodeOf, hideLeaf_index]
      by_cases hl : l.index = i
      · by_cases hk : K i
        · simp [hl, hk, hideAP, hideLeaf]
        · simp [hl, hk, hideAP, hideLeaf, hidePN]
      · by_cases hk : K i
        · simp [hl, hk, hideAP]
        · simp [hl, hk, hideAP, hidePN]

theorem hideTree_recompute (C : Crypto) (m : MerkleTree) : (hideTree K m).recomputeHash C = hideTree K (m.recomputeHash C) := by
  simp only [MerkleTree.recomputeHash, hideTree, hideNode_hash]

theorem hideTree_clone (m : MerkleTree) : (hideTree K m).clone = hideTree K m.clone := by
  simp only [MerkleTree.clone, hideTree, hideNode_clone]

theorem hideSTR_new (C : Crypto) (key : Bytes) (ad : Policies) (m : MerkleTree) (e : UInt64) (ph : Bytes) :
    newSTR C key ad (hideTree K m) e ph = hideSTR K (newSTR C key ad m e ph) := rfl

theorem hidePAD_update (C : Crypto) (p : PAD) (ad : Option Policies) : (hidePAD K p).update C ad = hidePAD K (p.update C ad) := by
  have hev : (hidePAD K p).evict = hidePAD K p.evict := by
    unfold PAD.evict
    by_cases hc : p.loadedEpochs.length = p.cap
    · have hc' : (hidePAD K p).loadedEpochs.length = (hidePAD K p).cap := hc
      rw [if_pos hc', if_pos hc]
      simp only [hidePAD, PAD.mk.injEq, true_and, and_true]
      funext e
      by_cases he : e ∈ p.loadedEpochs.take (p.cap / 2) <;> simp [he]
    · have hc' : ¬ (hidePAD K p).loadedEpochs.length = (hidePAD K p).cap := hc
      rw [if_neg hc', if_neg hc]
  have hint : ∀ (q : PAD) (a : Option Policies) (e : UInt64) (ph : Bytes),
      (hidePAD K q).updateInternal C a e ph = hidePAD K (q.updateInternal C a e ph) := by
    intro q a e ph
    simp only [PAD.updateInternal, hidePAD, hideTree_recompute, hideTree_clone, hideSTR_new, PAD.mk.injEq, true_and, and_true]
    funext x
    by_cases hx : x = e <;> simp [hx]
  unfold PAD.update
  rw [hev, hint]
  rfl

theorem hidePAD_getSTR (p : PAD) (e : UInt64) : (hidePAD K p).getSTR e = (p.getSTR e).map (hideSTR K) := by
  unfold PAD.getSTR
  simp only [hidePAD]
  show (if e ≥ p.latest.core.epoch then _ else _) = _
  split <;> rfl

theorem hidePAD_lookupInEpoch (C : Crypto) (p : PAD) (key : Bytes) (e : UInt64) :
    (hidePAD K p).lookupInEpoch C key e = (p.lookupInEpoch C key e).map fun o => o.map (hideAP K) := by
  unfold PAD.lookupInEpoch
  rw [hidePAD_getSTR]
  cases p.getSTR e with
  | none => rfl
  | some s =>
    simp only [Option.map_some]
    show ((hideTree K s.tree).get _).map _ = _
    rw [hideTree_get]
    simp only [Option.map_map]
    congr 1
    funext ap
    simp only [Function.comp, hideAP, Option.map_some]
    split <;> rfl

theorem hideAP_found (ap : AuthPath) : (hideAP K ap).found = ap.found := by
  unfold hideAP AuthPath.found
  split
  · rfl
  · simp only [Option.map_map]; rfl

theorem newDirSTR_hide (o : Option STR) : newDirSTR (o.map (hideSTR K)) = newDirSTR o := by cases o <;> rfl

theorem hidePAD_own (C : Crypto) (p : PAD) (key : Bytes) (e : UInt64) (hk : K (C.vrfProve p.vrfKey key).1) :
    (hidePAD K p).lookupInEpoch C key e = p.lookupInEpoch C key e := by
  rw [hidePAD_lookupInEpoch]
  unfold PAD.lookupInEpoch
  cases p.getSTR e with
  | none => rfl
  | some s =>
    simp only [Option.map_map]
    unfold MerkleTree.get
    cases descend (toBits (C.vrfProve p.vrfKey key).1) 0 s.tree.root with
    | none => rfl
    | some x =>
      simp only [Option.map_map]
      congr 1
      funext pn
      simp [Function.comp, hideAP, hk]

theorem hidePAD_set (C : Crypto) (p : PAD) (rnd : Option Bytes) (name key : Bytes) (hk : K (C.vrfProve p.vrfKey name).1) :
    (hidePAD K p).set C rnd name key = (p.set C rnd name key).map fun x => (hidePAD K x.1, x.2) := by
  unfold PAD.set MerkleTree.set
  cases C.newCommit rnd [name, key] with
  | none => rfl
  | some c =>
    show (((hideTree K p.tree).insertNode (p.index C name) _).map _).map _ = _
    have hl : (⟨0, name, key, p.index C name, c⟩ : Leaf) = hideLeaf K ⟨0, name, key, p.index C name, c⟩ := by
      exact (if_pos hk).symm
    show (((hideTree K p.tree).insertNode (p.index C name) ⟨0, name, key, p.index C name, c⟩).map _).map _ = _
    simp only [MerkleTree.insertNode, hideTree]
    rw [hl, hideNode_insert, ← hl]
    simp only [Option.map_map]
    rfl

theorem hideDir_collect (U : List Bytes) (d : Directory) (eps : List UInt64) :
    (hideDir K U d).collectSTRs eps = d.collectSTRs eps := by
  induction eps with
  | nil => rfl
  | cons e es ih =>
    have h2 : newDirSTR ((hideDir K U d).pad.getSTR e) = newDirSTR (d.pad.getSTR e) := by
      show newDirSTR ((hidePAD K d.pad).getSTR e) = _
      rw [hidePAD_getSTR, newDirSTR_hide]
    simp only [Directory.collectSTRs, ih, h2]

theorem hideDir_monitorLoop (C : Crypto) (U : List Bytes) (d : Directory) (name : Bytes) (hk : K (C.vrfProve d.pad.vrfKey name).1)
    (eps : List UInt64) : (hideDir K U d).monitorLoop C name eps = d.monitorLoop C name eps := by
  induction eps with
  | nil => rfl
  | cons e es ih =>
    have h1 : (hideDir K U d).pad.lookupInEpoch C name e = d.pad.lookupInEpoch C name e := hidePAD_own K C d.pad name e hk
    have h2 : newDirSTR ((hideDir K U d).pad.getSTR e) = newDirSTR (d.pad.getSTR e) := by
      show newDirSTR ((hidePAD K d.pad).getSTR e) = _
      rw [hidePAD_getSTR, newDirSTR_hide]
    simp only [Directory.monitorLoop, ih, h1, h2]

theorem hideDir_lookup (C : Crypto) (U : List Bytes) (d : Directory) (name : Bytes) (hk : K (C.vrfProve d.pad.vrfKey name).1) :
    (hideDir K U d).pad.lookup C name = d.pad.lookup C name := hidePAD_own K C d.pad name _ hk

theorem hideDir_latest (U : List Bytes) (d : Directory) : (hideDir K U d).latestSTR = d.latestSTR := rfl

theorem hideDir_tbs (U : List Bytes) (d : Directory) (name : Bytes) (hn : name ∈ U) : (hideDir K U d).tbs name = d.tbs name := by
  show (d.tbs name).map _ = _
  cases d.tbs name <;> simp [hn]

theorem hideDir_register (C : Crypto) (U : List Bytes) (d : Directory) (rnd : Option Bytes) (req : RegistrationRequest)
    (hn : req.username ∈ U) (hk : K (C.vrfProve d.pad.vrfKey req.username).1) :
    (hideDir K U d).register C rnd req = (d.register C rnd req).map fun x => (hideDir K U x.1, x.2) := by
  unfold Directory.register
  rw [hideDir_lookup K C U d _ hk, hideDir_tbs K U d _ hn]
  have hset : (hideDir K U d).pad.set C rnd req.username req.key =
      (d.pad.set C rnd req.username req.key).map fun x => (hidePAD K x.1, x.2) := hidePAD_set K C d.pad rnd _ _ hk
  have hu : (hideDir K U d).useTBs = d.useTBs := rfl
  have htb : (hideDir K U d).newTB C req.username req.key = d.newTB C req.username req.key := rfl
  rw [hset, hu, htb, hideDir_latest]
  split
  · rfl
  · cases d.pad.lookup C req.username with
    | none => rfl
    | some o =>
      cases o with
      | none => rfl
      | some ap =>
        dsimp only
        cases ap.found with
        | none => rfl
        | some b =>
          cases b with
          | true => rfl
          | false =>
            dsimp only
            cases (if d.useTBs = true then d.tbs req.username else none) with
            | some t => rfl
            | none =>
              dsimp only
              cases d.pad.set C rnd req.username req.key with
              | none => rfl
              | some x =>
                obtain ⟨p', ok⟩ := x
                cases ok with
                | false => rfl
                | true =>
                  cases d.useTBs with
                  | false => rfl
                  | true =>
                    simp only [Option.map_some, Option.some.injEq, Prod.mk.injEq, if_true, hideDir, Directory.mk.injEq, true_and]
                    refine ⟨⟨?_, trivial⟩, rfl⟩
                    funext n
                    by_cases h : n = req.username
                    · subst h; simp [hn]
                    · simp [h]

/-- two registrations of somebody else's name that have the same commitment -/
theorem hideDir_other (C : Crypto) (U : List Bytes) (d₁ d₂ : Directory) (same : hideDir K U d₁ = hideDir K U d₂)
    (name k₁ k₂ r₁ r₂ : Bytes) (hU : name ∉ U) (hk : ¬ K (C.vrfProve d₁.pad.vrfKey name).1) (he : k₁ = [] ↔ k₂ = [])
    (hc : C.hash (C.hash r₁ ++ name ++ k₁) = C.hash (C.hash r₂ ++ name ++ k₂)) :
    ((d₁.register C (some r₁) ⟨name, k₁⟩).map fun x => hideDir K U x.1) =
      (d₂.register C (some r₂) ⟨name, k₂⟩).map fun x => hideDir K U x.1 := by
  have key : ∀ (d : Directory) (k r : Bytes), ¬ K (C.vrfProve d.pad.vrfKey name).1 →
      ((d.register C (some r) ⟨name, k⟩).map fun x => hideDir K U x.1) =
        if name.length = 0 ∨ k.length = 0 then some (hideDir K U d)
        else (((hideDir K U d).pad.lookup C name).bind fun o => match o with
          | none => some (hideDir K U d)
          | some ap => ap.found.bind fun f =>
            if f then some (hideDir K U d)
            else if (if d.useTBs then (hideDir K U d).tbs name else none).isSome then some (hideDir K U d)
            else ((hideDir K U d).pad.tree.insertNode (d.pad.index C name)
                ⟨0, [], [], d.pad.index C name, ⟨[], C.hash (C.hash r ++ name ++ k)⟩⟩).map fun t =>
              ({ hideDir K U d with
                 pad := { (hideDir K U d).pad with tree := t }
                 tbs := if d.useTBs then fun n => if n = name then some ⟨d.pad.index C name, [], []⟩ else (hideDir K U d).tbs n
                   else (hideDir K U d).tbs } : Directory)) := by
    intro d k r hkd
    unfold Directory.register
    dsimp only
    split
    · rfl
    · have hl : (hideDir K U d).pad.lookup C name = (d.pad.lookup C name).map fun o => o.map (hideAP K) :=
        hidePAD_lookupInEpoch K C d.pad name _
      rw [hl]
      cases d.pad.lookup C name with
      | none => rfl
      | some o =>
        cases o with
        | none => rfl
        | some ap =>
          simp only [Option.map_some, Option.bind_some, hideAP_found]
          cases ap.found with
          | none => rfl
          | some b =>
            cases b with
            | true => rfl
            | false =>
              have ht : (if d.useTBs = true then (hideDir K U d).tbs name else none).isSome =
                  (if d.useTBs = true then d.tbs name else none).isSome := by
                split
                · show ((d.tbs name).map _).isSome = _
                  cases d.tbs name <;> rfl
                · rfl
              simp only [Option.bind_some, ht, if_false, Bool.false_eq_true]
              cases (if d.useTBs = true then d.tbs name else none) with
              | some t => rfl
              | none =>
                simp only [Option.isSome_none, if_false, Bool.false_eq_true]
                have hd : C.digest (C.digest [r] :: [name, k]) = C.hash (C.hash r ++ name ++ k) := by
                  simp [Crypto.digest]
                have hset : d.pad.set C (some r) name k =
                    (d.pad.tree.insertNode (d.pad.index C name)
                      ⟨0, name, k, d.pad.index C name, ⟨C.digest [r], C.hash (C.hash r ++ name ++ k)⟩⟩).map fun t =>
                      ({ d.pad with tree := t }, true) := by
                  unfold PAD.set MerkleTree.set Crypto.newCommit Crypto.makeRand
                  simp only [Option.map_some, Option.map_map, hd]
                  rfl
                have hins : (hideDir K U d).pad.tree.insertNode (d.pad.index C name)
                    ⟨0, [], [], d.pad.index C name, ⟨[], C.hash (C.hash r ++ name ++ k)⟩⟩ =
                    (d.pad.tree.insertNode (d.pad.index C name)
                      ⟨0, name, k, d.pad.index C name, ⟨C.digest [r], C.hash (C.hash r ++ name ++ k)⟩⟩).map (hideTree K) := by
                  have hlf : (⟨0, [], [], d.pad.index C name, ⟨[], C.hash (C.hash r ++ name ++ k)⟩⟩ : Leaf) =
                      hideLeaf K ⟨0, name, k, d.pad.index C name, ⟨C.digest [r], C.hash (C.hash r ++ name ++ k)⟩⟩ :=
                    (if_neg hkd).symm
                  rw [hlf]
                  show (hideTree K d.pad.tree).insertNode _ _ = _
                  simp only [MerkleTree.insertNode, hideTree]
                  rw [hideNode_insert]
                  simp only [Option.map_map]
                  rfl
                rw [hset, hins]
                cases d.pad.tree.insertNode (d.pad.index C name)
                      ⟨0, name, k, d.pad.index C name, ⟨C.digest [r], C.hash (C.hash r ++ name ++ k)⟩⟩ with
                | none => rfl
                | some t =>
                  simp only [Option.map_some, Option.some.injEq]
                  cases hub : d.useTBs with
                  | false =>
                    simp only [hideDir, hidePAD, hub, if_false, Bool.false_eq_true]
                  | true =>
                    simp only [if_true, hideDir, hidePAD, hub, Directory.mk.injEq, true_and, and_true]
                    funext n
                    by_cases h : n = name
                    · subst h; simp [hU]; rfl
                    · simp [h]
  have hv : d₁.pad.vrfKey = d₂.pad.vrfKey := by
    have h := congrArg (fun d : Directory => d.pad.vrfKey) same
    exact h
  have hu : d₁.useTBs = d₂.useTBs := by
    have h := congrArg (fun d : Directory => d.useTBs) same
    exact h
  have hi : d₁.pad.index C name = d₂.pad.index C name := by unfold PAD.index; rw [hv]
  have hz : k₁.length = 0 ↔ k₂.length = 0 := by simpa using he
  rw [key d₁ k₁ r₁ hk, key d₂ k₂ r₂ (hv ▸ hk), same, hu, hi, hc]
  simp only [hz]

theorem hideDir_update (C : Crypto) (U : List Bytes) (d : Directory) : (hideDir K U d).update C = hideDir K U (d.update C) := by
  unfold Directory.update
  simp only [hideDir, hidePAD_update, Option.map_none]

/-- what a call that the users `U` see does to the directory, and its answer, do not depend on what is erased -/
theorem hideDir_step (C : Crypto) (U : List Bytes) (d : Directory) (hK : ∀ u ∈ U, K (C.vrfProve d.pad.vrfKey u).1) (op : DirOp)
    (hs : seenBy U op = true) :
    (hideDir K U d).step C op = (d.step C op).map fun x => (hideDir K U x.1, x.2) := by
  cases op with
  | register rnd req =>
    have hn : req.username ∈ U := of_decide_eq_true hs
    simp only [Directory.step, hideDir_register K C U d rnd req hn (hK _ hn), Option.map_map]
    rfl
  | keyLookup req =>
    have hn : req.username ∈ U := of_decide_eq_true hs
    have : (hideDir K U d).keyLookup C req = d.keyLookup C req := by
      unfold Directory.keyLookup
      rw [hideDir_lookup K C U d _ (hK _ hn), hideDir_tbs K U d _ hn]
      rfl
    simp only [Directory.step, this, Option.map_map]
    rfl
  | keyLookupInEpoch req =>
    have hn : req.username ∈ U := of_decide_eq_true hs
    have : (hideDir K U d).keyLookupInEpoch C req = d.keyLookupInEpoch C req := by
      unfold Directory.keyLookupInEpoch
      have h1 : (hideDir K U d).pad.lookupInEpoch C req.username req.epoch = d.pad.lookupInEpoch C req.username req.epoch :=
        hidePAD_own K C d.pad _ _ (hK _ hn)
      rw [h1, hideDir_latest, hideDir_collect]
    simp only [Directory.step, this, Option.map_map]
    rfl
  | monitor req =>
    have hn : req.username ∈ U := of_decide_eq_true hs
    have : (hideDir K U d).monitor C req = d.monitor C req := by
      unfold Directory.monitor
      simp only [hideDir_latest, hideDir_monitorLoop K C U d _ (hK _ hn)]
      rfl
    simp only [Directory.step, this, Option.map_map]
    rfl
  | getSTRHistory req =>
    have : (hideDir K U d).getSTRHistory req = d.getSTRHistory req := by
      unfold Directory.getSTRHistory
      simp only [hideDir_latest, hideDir_collect]
      rfl
    simp only [Directory.step, this, Option.map_map]
    rfl
  | update => simp only [Directory.step, hideDir_update]; rfl
  | setPolicies t => rfl
/-! ### erasing twice, and calls that the users do not see -/

theorem hideLeaf_idem (l : Leaf) : hideLeaf K (hideLeaf K l) = hideLeaf K l := by
  by_cases h : K l.index <;> simp [hideLeaf, h]

theorem hideNode_idem (n : Node) : hideNode K (hideNode K n) = hideNode K n := by
  induction n with
  | empty => rfl
  | leaf l => simp only [hideNode, hideLeaf_idem]
  | interior lv a b l r ihl ihr => simp only [hideNode, ihl, ihr]

theorem hideTree_idem (m : MerkleTree) : hideTree K (hideTree K m) = hideTree K m := by
  simp only [hideTree, hideNode_idem]

theorem hideSTR_idem (s : STR) : hideSTR K (hideSTR K s) = hideSTR K s := by
  simp only [hideSTR, hideTree_idem]

theorem hidePAD_idem (p : PAD) : hidePAD K (hidePAD K p) = hidePAD K p := by
  simp only [hidePAD, hideTree_idem, hideSTR_idem, PAD.mk.injEq, true_and, and_true]
  funext e
  cases p.snapshots e <;> simp [hideSTR_idem]

theorem hideTBs_idem (U : List Bytes) (n : Bytes) (o : Option TB) :
    (o.map fun t : TB => if n ∈ U then t else { t with value := [], signature := [] }).map
      (fun t : TB => if n ∈ U then t else { t with value := [], signature := [] }) =
      o.map fun t : TB => if n ∈ U then t else { t with value := [], signature := [] } := by
  cases o with
  | none => rfl
  | some t => by_cases h : n ∈ U <;> simp [h]

theorem hideDir_idem (U : List Bytes) (d : Directory) : hideDir K U (hideDir K U d) = hideDir K U d := by
  simp only [hideDir, hidePAD_idem, hideTBs_idem]

theorem hidePAD_set' (C : Crypto) (p : PAD) (rnd : Option Bytes) (name key : Bytes) :
    ((hidePAD K p).set C rnd name key).map (fun x => (hidePAD K x.1, x.2)) =
      (p.set C rnd name key).map fun x => (hidePAD K x.1, x.2) := by
  unfold PAD.set MerkleTree.set
  cases C.newCommit rnd [name, key] with
  | none =>
    simp only [Option.map_some]
    congr 2
    exact hidePAD_idem K p
  | some c =>
    have hins : ∀ n : Node, (insertAt (toBits (p.index C name)) ⟨0, name, key, p.index C name, c⟩ 0 (hideNode K n)).map (hideNode K) =
        (insertAt (toBits (p.index C name)) ⟨0, name, key, p.index C name, c⟩ 0 n).map (hideNode K) := by
      intro n
      rw [← hideNode_insert, hideNode_idem, hideNode_insert]
    show ((((hideTree K p.tree).insertNode (p.index C name) ⟨0, name, key, p.index C name, c⟩).map _).map _).map _ = _
    simp only [MerkleTree.insertNode, Option.map_map]
    have h := hins p.tree.root
    have e1 : (hideTree K p.tree).root = hideNode K p.tree.root := rfl
    rw [e1]
    cases h1 : insertAt (toBits (p.index C name)) ⟨0, name, key, p.index C name, c⟩ 0 (hideNode K p.tree.root) with
    | none =>
      cases h2 : insertAt (toBits (p.index C name)) ⟨0, name, key, p.index C name, c⟩ 0 p.tree.root with
      | none => rfl
      | some y => rw [h1, h2] at h; cases h
    | some x =>
      cases h2 : insertAt (toBits (p.index C name)) ⟨0, name, key, p.index C name, c⟩ 0 p.tree.root with
      | none => rw [h1, h2] at h; cases h
      | some y =>
        rw [h1, h2] at h
        have h3 : hideNode K x = hideNode K y := Option.some.inj h
        simp only [Option.map_some, Function.comp, Option.some.injEq, Prod.mk.injEq, and_true]
        simp only [hidePAD, hideTree, h3, hideSTR, hideNode_idem, PAD.mk.injEq, true_and, and_true]
        funext e
        cases p.snapshots e <;> simp [hideSTR_idem]

/-- erasing before a registration of any name changes nothing of what is left when one erases afterwards -/
theorem hideDir_register' (C : Crypto) (U : List Bytes) (d : Directory) (rnd : Option Bytes) (req : RegistrationRequest) :
    (((hideDir K U d).register C rnd req).map fun x => hideDir K U x.1) =
      (d.register C rnd req).map fun x => hideDir K U x.1 := by
  unfold Directory.register
  have hl : (hideDir K U d).pad.lookup C req.username = (d.pad.lookup C req.username).map fun o => o.map (hideAP K) :=
    hidePAD_lookupInEpoch K C d.pad req.username _
  have hu : (hideDir K U d).useTBs = d.useTBs := rfl
  have htb : (hideDir K U d).newTB C req.username req.key = d.newTB C req.username req.key := rfl
  rw [hl, hu, htb, hideDir_latest]
  split
  · simp only [Option.map_some, hideDir_idem]
  · cases d.pad.lookup C req.username with
    | none => rfl
    | some o =>
      cases o with
      | none => simp only [Option.map_some, Option.map_none, hideDir_idem]
      | some ap =>
        simp only [Option.map_some, hideAP_found]
        cases ap.found with
        | none => rfl
        | some b =>
          cases b with
          | true => simp only [Option.map_some, hideDir_idem]
          | false =>
            dsimp only
            have ht : (if d.useTBs = true then (hideDir K U d).tbs req.username else none) =
                (if d.useTBs = true then d.tbs req.username else none).map
                  fun t : TB => if req.username ∈ U then t else { t with value := [], signature := [] } := by
              split <;> rfl
            rw [ht]
            cases (if d.useTBs = true then d.tbs req.username else none) with
            | some t => simp only [Option.map_some, hideDir_idem]
            | none =>
              simp only [Option.map_none]
              have hset : ((hideDir K U d).pad.set C rnd req.username req.key).map (fun x => (hidePAD K x.1, x.2)) =
                  (d.pad.set C rnd req.username req.key).map fun x => (hidePAD K x.1, x.2) := hidePAD_set' K C d.pad rnd _ _
              cases h1 : (hideDir K U d).pad.set C rnd req.username req.key with
              | none =>
                cases h2 : d.pad.set C rnd req.username req.key with
                | none => rfl
                | some y => rw [h1, h2] at hset; cases hset
              | some x =>
                cases h2 : d.pad.set C rnd req.username req.key with
                | none => rw [h1, h2] at hset; cases hset
                | some y =>
                  rw [h1, h2] at hset
                  obtain ⟨px, ox⟩ := x
                  obtain ⟨py, oy⟩ := y
                  simp only [Option.map_some, Option.some.injEq, Prod.mk.injEq] at hset
                  obtain ⟨h3, rfl⟩ := hset
                  cases ox with
                  | false =>
                    simp only [Option.map_some, hideDir, h3, hideTBs_idem]
                  | true =>
                    cases hub : d.useTBs with
                    | false =>
                      simp only [Option.map_some, hideDir, h3, hub, hideTBs_idem, if_false, Bool.false_eq_true]
                    | true =>
                      simp only [Option.map_some, hideDir, h3, hub, if_true, Option.some.injEq, Directory.mk.injEq, true_and, and_true]
                      funext n
                      by_cases h : n = req.username
                      · simp [h]
                      · simp only [if_neg h, hideTBs_idem]

theorem hideDir_monitorLoop' (C : Crypto) (U : List Bytes) (d : Directory) (name : Bytes) (eps : List UInt64) :
    (hideDir K U d).monitorLoop C name eps =
      (d.monitorLoop C name eps).map fun o => o.map fun x => (x.1.map (hideAP K), x.2) := by
  induction eps with
  | nil => rfl
  | cons e es ih =>
    have h1 : (hideDir K U d).pad.lookupInEpoch C name e = (d.pad.lookupInEpoch C name e).map fun o => o.map (hideAP K) :=
      hidePAD_lookupInEpoch K C d.pad name e
    have h2 : newDirSTR ((hideDir K U d).pad.getSTR e) = newDirSTR (d.pad.getSTR e) := by
      show newDirSTR ((hidePAD K d.pad).getSTR e) = _
      rw [hidePAD_getSTR, newDirSTR_hide]
    simp only [Directory.monitorLoop, ih, h1, h2]
    cases d.pad.lookupInEpoch C name e with
    | none => rfl
    | some o =>
      cases o with
      | none => rfl
      | some ap =>
        simp only [Option.map_some]
        cases newDirSTR (d.pad.getSTR e) with
        | none => rfl
        | some s =>
          simp only
          cases d.monitorLoop C name es with
          | none => rfl
          | some o => cases o <;> rfl

/-- any call: what is left of the directory after erasing depends only on what was left before -/
theorem hideDir_step' (C : Crypto) (U : List Bytes) (d : Directory) (op : DirOp) :
    (((hideDir K U d).step C op).map fun x => hideDir K U x.1) = (d.step C op).map fun x => hideDir K U x.1 := by
  cases op with
  | register rnd req =>
    simp only [Directory.step, Option.map_map]
    exact hideDir_register' K C U d rnd req
  | keyLookup req =>
    simp only [Directory.step, Option.map_map, Function.comp_def, hideDir_idem]
    unfold Directory.keyLookup
    have hl : (hideDir K U d).pad.lookup C req.username = (d.pad.lookup C req.username).map fun o => o.map (hideAP K) :=
      hidePAD_lookupInEpoch K C d.pad req.username _
    have ht : (if (hideDir K U d).useTBs = true then (hideDir K U d).tbs req.username else none) =
        (if d.useTBs = true then d.tbs req.username else none).map
          fun t : TB => if req.username ∈ U then t else { t with value := [], signature := [] } := by
      show (if d.useTBs = true then (hideDir K U d).tbs req.username else none) = _
      split <;> rfl
    rw [hl, ht]
    split
    · rfl
    · cases d.pad.lookup C req.username with
      | none => rfl
      | some o =>
        cases o with
        | none => rfl
        | some ap =>
          simp only [Option.map_some, hideAP_found]
          cases ap.found with
          | none => rfl
          | some b =>
            cases b with
            | true => rfl
            | false => cases (if d.useTBs = true then d.tbs req.username else none) <;> rfl
  | keyLookupInEpoch req =>
    simp only [Directory.step, Option.map_map, Function.comp_def, hideDir_idem]
    unfold Directory.keyLookupInEpoch
    have hl : (hideDir K U d).pad.lookupInEpoch C req.username req.epoch =
        (d.pad.lookupInEpoch C req.username req.epoch).map fun o => o.map (hideAP K) :=
      hidePAD_lookupInEpoch K C d.pad req.username _
    rw [hl, hideDir_latest, hideDir_collect]
    split
    · rfl
    · cases d.pad.lookupInEpoch C req.username req.epoch with
      | none => rfl
      | some o =>
        cases o with
        | none => rfl
        | some ap =>
          simp only [Option.map_some, hideAP_found]
          cases d.collectSTRs (epochRange req.epoch d.latestSTR.core.epoch) with
          | none => rfl
          | some ss =>
            simp only
            cases ap.found with
            | none => rfl
            | some b => cases b <;> rfl
  | monitor req =>
    simp only [Directory.step, Option.map_map, Function.comp_def, hideDir_idem]
    unfold Directory.monitor
    rw [hideDir_latest]
    split
    · rfl
    · simp only [hideDir_monitorLoop']
      cases d.monitorLoop C req.username (epochRange req.startEpoch
        (if req.endEpoch > d.latestSTR.core.epoch then d.latestSTR.core.epoch else req.endEpoch)) with
      | none => rfl
      | some o => cases o <;> rfl
  | getSTRHistory req =>
    have : (hideDir K U d).getSTRHistory req = d.getSTRHistory req := by
      unfold Directory.getSTRHistory
      simp only [hideDir_latest, hideDir_collect]
      rfl
    simp only [Directory.step, this, Option.map_map, Function.comp_def, hideDir_idem]
  | update => simp only [Directory.step, hideDir_update, Option.map_some, hideDir_idem]
  | setPolicies t =>
    simp only [Directory.step, Option.map_some]
    have h : hideDir K U ((hideDir K U d).setPolicies t) = hideDir K U (d.setPolicies t) := by
      simp only [hideDir, Directory.setPolicies, hidePAD_idem, hideTBs_idem]
    rw [h]
end

theorem step_vrfKey {C : Crypto} {d d' : Directory} {op : DirOp} {r : Option Response} (h : d.step C op = some (d', r)) :
    d'.pad.vrfKey = d.pad.vrfKey := by
  cases op with
  | keyLookup _ | keyLookupInEpoch _ | monitor _ | getSTRHistory _ =>
    obtain ⟨_, _, h2⟩ := Option.map_eq_some_iff.mp h
    simp only [Prod.mk.injEq] at h2
    rw [← h2.1]
  | setPolicies t =>
    simp only [Directory.step, Option.some.injEq, Prod.mk.injEq] at h
    rw [← h.1]; rfl
  | update =>
    simp only [Directory.step, Option.some.injEq, Prod.mk.injEq] at h
    rw [← h.1]
    show (d.pad.evict.updateInternal C _ _ _).vrfKey = _
    show d.pad.evict.vrfKey = _
    unfold PAD.evict
    split <;> rfl
  | register rnd req =>
    obtain ⟨⟨d2, r2⟩, h1, h2⟩ := Option.map_eq_some_iff.mp h
    simp only [Prod.mk.injEq] at h2
    rw [← h2.1]
    have hset : ∀ {p ok}, d.pad.set C rnd req.username req.key = some (p, ok) → p.vrfKey = d.pad.vrfKey := by
      intro p ok hp
      obtain ⟨x, _, hx⟩ := Option.map_eq_some_iff.mp hp
      simp only [Prod.mk.injEq] at hx
      rw [← hx.1]
    unfold Directory.register at h1
    split at h1
    · cases h1; rfl
    · split at h1
      · cases h1
      · cases h1; rfl
      · split at h1
        · cases h1
        · cases h1; rfl
        · split at h1
          · cases h1; rfl
          · simp only at h1
            split at h1
            · cases h1
            · next hs => cases h1; exact hset hs
            · next hs => cases h1; exact hset hs

/-- the places of the users `U` in the tree -/
def Places (C : Crypto) (vk : Bytes) (U : List Bytes) (i : Bytes) : Prop := ∃ u ∈ U, (C.vrfProve vk u).1 = i

instance (C : Crypto) (vk : Bytes) (U : List Bytes) : DecidablePred (Places C vk U) := fun i => by
  unfold Places; infer_instance

theorem toldTo_same (C : Crypto) (vk : Bytes) (U : List Bytes) (ops₁ ops₂ : List DirOp)
    (h : AlikeHistories C vk U ops₁ ops₂) : ∀ d₁ d₂ : Directory, d₁.pad.vrfKey = vk → d₂.pad.vrfKey = vk →
    hideDir (Places C vk U) U d₁ = hideDir (Places C vk U) U d₂ → toldTo C U d₁ ops₁ = toldTo C U d₂ ops₂ := by
  induction h with
  | nil => intro d₁ d₂ _ _ _; rfl
  | @cons o₁ o₂ l₁ l₂ ho _ ih =>
    intro d₁ d₂ hv₁ hv₂ same
    have hst : ((d₁.step C o₁).map fun x => hideDir (Places C vk U) U x.1) =
        (d₂.step C o₂).map fun x => hideDir (Places C vk U) U x.1 := by
      cases ho with
      | same => rw [← hideDir_step', same, hideDir_step']
      | other name k₁ k₂ r₁ r₂ ours empty comm =>
        simp only [Directory.step, Option.map_map]
        refine hideDir_other (Places C vk U) C U d₁ d₂ same name k₁ k₂ r₁ r₂ (fun hm => ours name hm rfl) ?_ empty comm
        rw [hv₁]
        rintro ⟨u, hu, hi⟩
        exact ours u hu hi
    have hseen : seenBy U o₁ = seenBy U o₂ ∧ (seenBy U o₁ = true → o₁ = o₂) := by
      cases ho with
      | same => exact ⟨rfl, fun _ => rfl⟩
      | other name k₁ k₂ r₁ r₂ ours empty comm =>
        refine ⟨rfl, fun hs => ?_⟩
        exact absurd rfl (ours name (of_decide_eq_true hs))
    have hans : seenBy U o₁ = true → (d₁.step C o₁).map (fun x => x.2) = (d₂.step C o₂).map fun x => x.2 := by
      intro hs
      have he := hseen.2 hs
      subst he
      have own : ∀ d : Directory, d.pad.vrfKey = vk → ∀ u ∈ U, Places C vk U (C.vrfProve d.pad.vrfKey u).1 :=
        fun d hv u hu => ⟨u, hu, by rw [hv]⟩
      have e₁ := congrArg (Option.map fun x : Directory × Option Response => x.2)
        (hideDir_step (Places C vk U) C U d₁ (own d₁ hv₁) o₁ hs)
      have e₂ := congrArg (Option.map fun x : Directory × Option Response => x.2)
        (hideDir_step (Places C vk U) C U d₂ (own d₂ hv₂) o₁ hs)
      rw [same, e₂] at e₁
      simpa only [Option.map_map, Function.comp_def] using e₁.symm
    simp only [toldTo]
    cases h1 : d₁.step C o₁ with
    | none =>
      cases h2 : d₂.step C o₂ with
      | none => rfl
      | some y => rw [h1, h2] at hst; cases hst
    | some x =>
      cases h2 : d₂.step C o₂ with
      | none => rw [h1, h2] at hst; cases hst
      | some y =>
        rw [h1, h2] at hst
        have hh : hideDir (Places C vk U) U x.1 = hideDir (Places C vk U) U y.1 := Option.some.inj hst
        simp only [Option.bind_some]
        rw [ih x.1 y.1 ((step_vrfKey h1).trans hv₁) ((step_vrfKey h2).trans hv₂) hh, ← hseen.1]
        cases hs : seenBy U o₁ with
        | false => rfl
        | true =>
          have := hans hs
          rw [h1, h2] at this
          have h3 : x.2 = y.2 := Option.some.inj this
          simp only [if_true, h3]

end Coniks

import Verif.Spec.Refs
/-
A directory on pointers and a directory on values, side by side. `f` says how much of a temporary binding is compared.
-/
namespace Coniks
open Spec

/-- the STR at address `a` is `s` -/
def IsSTR (m : Mem) (a : Nat) (s : STR) : Prop :=
  ∃ x, m.strs[a]? = some x ∧ x.core = s.core ∧ x.tree = s.tree ∧ m.pols[x.ad]? = some s.ad

/-- both nil, or the same STR -/
def IsSTRo (m : Mem) : Option Nat → Option STR → Prop
  | none, none => True
  | some a, some s => IsSTR m a s
  | _, _ => False

/-- the TB at address `a` is `t`, as far as `f` shows -/
def IsTB (f : TB → TB) (m : Mem) (a : Nat) (t : TB) : Prop := ∃ t', m.readTB a = some t' ∧ f t' = f t

/-- both nil, or the same TB -/
def IsTBo (f : TB → TB) (m : Mem) : Option Nat → Option TB → Prop
  | none, none => True
  | some a, some t => IsTB f m a t
  | _, _ => False

/-- the directory `d` on pointers represents the directory `D` on values -/
structure RRel (f : TB → TB) (d : RDir) (D : Directory) : Prop where
  signKey : D.pad.signKey = d.pad.signKey
  vrfKey : D.pad.vrfKey = d.pad.vrfKey
  tree : D.pad.tree = d.pad.tree
  loaded : D.pad.loadedEpochs = d.pad.loadedEpochs
  cap : D.pad.cap = d.pad.cap
  snapshots : ∀ e, IsSTRo d.mem (d.pad.snapshots e) (D.pad.snapshots e)
  latest : IsSTR d.mem d.pad.latest D.pad.latest
  ad : d.mem.pols[d.pad.ad]? = some D.pad.ad
  policies : d.mem.pols[d.policies]? = some D.policies
  useTBs : D.useTBs = d.useTBs
  tbs : ∀ n, IsTBo f d.mem (d.tbs n) (D.tbs n)

/-- nothing that was in the memory `m` is gone or changed in `m'`, as far as `f` shows -/
structure MemExt (f : TB → TB) (m m' : Mem) : Prop where
  pols : ∀ (a : Nat) x, m.pols[a]? = some x → m'.pols[a]? = some x
  strs : ∀ (a : Nat) x, m.strs[a]? = some x → m'.strs[a]? = some x
  tbs : ∀ (a : Nat) x, m.tbs[a]? = some x → m'.tbs[a]? = some x
  bufs : ∀ (a : Nat) v, m.bufs[a]? = some v → ∃ v', m'.bufs[a]? = some v' ∧ ∀ i s, f ⟨i, v', s⟩ = f ⟨i, v, s⟩

theorem MemExt.refl (f : TB → TB) (m : Mem) : MemExt f m m := ⟨fun _ _ h => h, fun _ _ h => h, fun _ _ h => h, fun _ v h => ⟨v, h, fun _ _ => rfl⟩⟩

theorem MemExt.trans {f : TB → TB} {a b c : Mem} (h : MemExt f a b) (k : MemExt f b c) : MemExt f a c := by
  refine ⟨fun i x e => k.pols i x (h.pols i x e), fun i x e => k.strs i x (h.strs i x e), fun i x e => k.tbs i x (h.tbs i x e), ?_⟩
  intro i v e
  obtain ⟨v1, e1, g1⟩ := h.bufs i v e
  obtain ⟨v2, e2, g2⟩ := k.bufs i v1 e1
  exact ⟨v2, e2, fun x y => (g2 x y).trans (g1 x y)⟩

theorem getElem?_append_some {α : Type} {l : List α} {x : α} {i : Nat} (r : List α) (h : l[i]? = some x) : (l ++ r)[i]? = some x := by
  rw [List.getElem?_append_left (by rw [List.getElem?_eq_some_iff] at h; exact h.1)]; exact h

theorem IsSTR.ext {f : TB → TB} {m m' : Mem} {a : Nat} {s : STR} (e : MemExt f m m') (h : IsSTR m a s) : IsSTR m' a s := by
  obtain ⟨x, h1, h2, h3, h4⟩ := h
  exact ⟨x, e.strs _ _ h1, h2, h3, e.pols _ _ h4⟩

theorem IsSTRo.ext {f : TB → TB} {m m' : Mem} {a : Option Nat} {s : Option STR} (e : MemExt f m m') (h : IsSTRo m a s) : IsSTRo m' a s := by
  cases a <;> cases s <;> first | trivial | exact IsSTR.ext e h | exact h.elim

theorem readTB_ext {f : TB → TB} {m m' : Mem} {a : Nat} {t : TB} (e : MemExt f m m') (h : m.readTB a = some t) :
    ∃ t', m'.readTB a = some t' ∧ f t' = f t := by
  unfold Mem.readTB at h
  cases hx : m.tbs[a]? with
  | none => rw [hx] at h; cases h
  | some x =>
    rw [hx] at h
    cases hv : m.bufs[x.value]? with
    | none => simp only [hv, Option.map_none] at h; cases h
    | some v =>
      simp only [hv, Option.map_some, Option.some.injEq] at h
      obtain ⟨v', e1, g⟩ := e.bufs _ _ hv
      refine ⟨⟨x.index, v', x.signature⟩, ?_, ?_⟩
      · simp only [Mem.readTB, e.tbs _ _ hx, e1, Option.map_some]
      · rw [g, ← h]

theorem IsTB.ext {f : TB → TB} {m m' : Mem} {a : Nat} {t : TB} (e : MemExt f m m') (h : IsTB f m a t) : IsTB f m' a t := by
  obtain ⟨t1, h1, h2⟩ := h
  obtain ⟨t2, h3, h4⟩ := readTB_ext e h1
  exact ⟨t2, h3, h4.trans h2⟩

theorem IsTBo.ext {f : TB → TB} {m m' : Mem} {a : Option Nat} {t : Option TB} (e : MemExt f m m') (h : IsTBo f m a t) : IsTBo f m' a t := by
  cases a <;> cases t <;> first | trivial | exact IsTB.ext e h | exact h.elim

/-! ### Reading answers -/

/-- the answer `r`, read in `m`, is `v`, as far as `f` shows of its TB -/
def RReads (f : TB → TB) (m : Mem) (r : RResponse) (v : Response) : Prop := ∃ v', r.read m = some v' ∧ mapTB f v' = mapTB f v

theorem readSTR_ext {f : TB → TB} {m m' : Mem} {s : RDirSTR} {x : DirSTR} (e : MemExt f m m') (h : m.readSTR s = some x) : m'.readSTR s = some x := by
  unfold Mem.readSTR at h ⊢
  cases h1 : m.strs[s.str]? with
  | none => simp only [h1] at h; cases h
  | some y =>
    cases h2 : m.pols[s.policies]? with
    | none => simp only [h1, h2] at h; cases h
    | some p =>
      simp only [h1, h2] at h
      simp only [e.strs _ _ h1, e.pols _ _ h2, h]

theorem readSTRs_ext {f : TB → TB} {m m' : Mem} (e : MemExt f m m') : ∀ {ss : List RDirSTR} {xs : List DirSTR}, m.readSTRs ss = some xs →
    m'.readSTRs ss = some xs := by
  intro ss
  induction ss with
  | nil => intro xs h; exact h
  | cons s ss ih =>
    intro xs h
    unfold Mem.readSTRs at h ⊢
    cases h1 : m.readSTR s with
    | none => simp only [h1] at h; cases h
    | some y =>
      cases h2 : m.readSTRs ss with
      | none => simp only [h1, h2] at h; cases h
      | some ys =>
        simp only [h1, h2] at h
        simp only [readSTR_ext e h1, ih h2, h]

theorem read_ext {f : TB → TB} {m m' : Mem} {r : RResponse} {v : Response} (e : MemExt f m m') (h : r.read m = some v) :
    ∃ v', r.read m' = some v' ∧ mapTB f v' = mapTB f v := by
  obtain ⟨er, b⟩ := r
  unfold RResponse.read at h ⊢
  cases b with
  | none => exact ⟨v, h, rfl⟩
  | history ss =>
    dsimp only at h ⊢
    cases h1 : m.readSTRs ss with
    | none => rw [h1] at h; cases h
    | some xs => rw [h1] at h; rw [readSTRs_ext e h1]; exact ⟨v, h, rfl⟩
  | proof aps ss tb =>
    cases tb with
    | none =>
      dsimp only at h ⊢
      cases h1 : m.readSTRs ss with
      | none => rw [h1] at h; cases h
      | some xs => rw [h1] at h; rw [readSTRs_ext e h1]; exact ⟨v, h, rfl⟩
    | some a =>
      dsimp only at h ⊢
      cases h1 : m.readSTRs ss with
      | none => simp only [h1] at h; cases h
      | some xs =>
        cases h2 : m.readTB a with
        | none => simp only [h1, h2] at h; cases h
        | some t =>
          simp only [h1, h2, Option.some.injEq] at h
          obtain ⟨t', h3, h4⟩ := readTB_ext e h2
          rw [readSTRs_ext e h1]
          simp only [h3]
          refine ⟨_, rfl, ?_⟩
          rw [← h]
          simp only [mapTB, Option.map_some, h4]

theorem RReads.ext {f : TB → TB} {m m' : Mem} {r : RResponse} {v : Response} (e : MemExt f m m') (h : RReads f m r v) : RReads f m' r v := by
  obtain ⟨v1, h1, h2⟩ := h
  obtain ⟨v2, h3, h4⟩ := read_ext e h1
  exact ⟨v2, h3, h4.trans h2⟩

/-! ### The operations of the PAD -/

theorem IsSTR.epoch {m : Mem} {a : Nat} {s : STR} (h : IsSTR m a s) : ∃ x, m.strs[a]? = some x ∧ x.core = s.core := by
  obtain ⟨x, h1, h2, _⟩ := h; exact ⟨x, h1, h2⟩

theorem getSTR_sim {f : TB → TB} {d : RDir} {D : Directory} (R : RRel f d D) (ep : UInt64) :
    ∃ a, d.pad.getSTR d.mem ep = some a ∧ IsSTRo d.mem a (D.pad.getSTR ep) := by
  obtain ⟨x, h1, h2⟩ := R.latest.epoch
  unfold RPAD.getSTR PAD.getSTR
  rw [h1]
  dsimp only
  rw [h2]
  split
  · exact ⟨_, rfl, R.latest⟩
  · exact ⟨_, rfl, R.snapshots ep⟩

theorem lookupInEpoch_sim {f : TB → TB} {d : RDir} {D : Directory} (R : RRel f d D) (C : Crypto) (name : Bytes) (ep : UInt64) :
    d.pad.lookupInEpoch C d.mem name ep = D.pad.lookupInEpoch C name ep := by
  obtain ⟨a, h1, h2⟩ := getSTR_sim R ep
  unfold RPAD.lookupInEpoch PAD.lookupInEpoch
  rw [h1]
  cases a with
  | none =>
    cases hs : D.pad.getSTR ep with
    | none => rfl
    | some s => rw [hs] at h2; exact h2.elim
  | some a =>
    cases hs : D.pad.getSTR ep with
    | none => rw [hs] at h2; exact h2.elim
    | some s =>
      rw [hs] at h2
      obtain ⟨x, k1, k2, k3, k4⟩ := h2
      dsimp only
      rw [k1]
      dsimp only
      rw [k3, R.vrfKey]

theorem lookup_sim {f : TB → TB} {d : RDir} {D : Directory} (R : RRel f d D) (C : Crypto) (name : Bytes) :
    d.pad.lookup C d.mem name = D.pad.lookup C name := by
  obtain ⟨x, h1, h2⟩ := R.latest.epoch
  unfold RPAD.lookup PAD.lookup
  rw [h1]
  dsimp only
  rw [h2, lookupInEpoch_sim R]

theorem newDirSTR_sim {m : Mem} {a : Option Nat} {s : Option STR} (h : IsSTRo m a s) :
    match m.newDirSTR a, newDirSTR s with
    | none, none => True
    | some x, some y => m.readSTR x = some y
    | _, _ => False := by
  cases a with
  | none =>
    cases s with
    | none => trivial
    | some s => exact h.elim
  | some a =>
    cases s with
    | none => exact h.elim
    | some s =>
      obtain ⟨x, h1, h2, h3, h4⟩ := h
      simp only [Mem.newDirSTR, h1, newDirSTR, Mem.readSTR, h4, h2]

theorem latestSTR_sim {f : TB → TB} {d : RDir} {D : Directory} (R : RRel f d D) : ∃ x, d.latestSTR = some x ∧ d.mem.readSTR x = some D.latestSTR := by
  obtain ⟨x, h1, h2, h3, h4⟩ := R.latest
  refine ⟨⟨d.pad.latest, x.ad⟩, ?_, ?_⟩
  · simp only [RDir.latestSTR, Mem.newDirSTR, h1]
  · simp only [Mem.readSTR, h1, h4, h2, Directory.latestSTR]

theorem latestEpoch_sim {f : TB → TB} {d : RDir} {D : Directory} (R : RRel f d D) : d.latestEpoch = some D.latestSTR.core.epoch := by
  obtain ⟨x, h1, h2⟩ := R.latest.epoch
  simp only [RDir.latestEpoch, h1, Option.map_some, h2, Directory.latestSTR]

theorem IsSTR_new (m : Mem) (s : STR) (ad : Nat) (h : m.pols[ad]? = some s.ad) :
    IsSTR { m with strs := m.strs ++ [{ core := s.core, tree := s.tree, ad := ad }] } m.strs.length s := by
  refine ⟨{ core := s.core, tree := s.tree, ad := ad }, ?_, rfl, rfl, h⟩
  show (m.strs ++ [_])[m.strs.length]? = _
  rw [List.getElem?_append_right (Nat.le_refl _), Nat.sub_self]; rfl

theorem newSTR_ad (C : Crypto) (k : Bytes) (p : Policies) (t : MerkleTree) (e : UInt64) (h : Bytes) : (newSTR C k p t e h).ad = p := rfl

/-- an update of the PAD -/
theorem update_sim {f : TB → TB} {d : RDir} {D : Directory} (R : RRel f d D) (C : Crypto) :
    ∃ d', d.update C = some d' ∧ RRel f d' (D.update C) ∧ MemExt f d.mem d'.mem ∧ d'.mem.bufs = d.mem.bufs := by
  obtain ⟨x, h1, h2⟩ := R.latest.epoch
  have hev : ∀ e, IsSTRo d.mem (d.pad.evict.snapshots e) (D.pad.evict.snapshots e) := by
    intro e
    unfold RPAD.evict PAD.evict
    rw [R.loaded, R.cap]
    split
    · dsimp only
      split
      · trivial
      · exact R.snapshots e
    · exact R.snapshots e
  have hel : D.pad.evict.loadedEpochs = d.pad.evict.loadedEpochs := by
    unfold RPAD.evict PAD.evict
    rw [R.loaded, R.cap]
    split
    · rfl
    · exact R.loaded
  have e1 : d.pad.evict.signKey = d.pad.signKey := by unfold RPAD.evict; split <;> rfl
  have e2 : d.pad.evict.vrfKey = d.pad.vrfKey := by unfold RPAD.evict; split <;> rfl
  have e3 : d.pad.evict.tree = d.pad.tree := by unfold RPAD.evict; split <;> rfl
  have e4 : d.pad.evict.cap = d.pad.cap := by unfold RPAD.evict; split <;> rfl
  have e5 : d.pad.evict.ad = d.pad.ad := by unfold RPAD.evict; split <;> rfl
  have g1 : D.pad.evict.signKey = D.pad.signKey := by unfold PAD.evict; split <;> rfl
  have g2 : D.pad.evict.vrfKey = D.pad.vrfKey := by unfold PAD.evict; split <;> rfl
  have g3 : D.pad.evict.tree = D.pad.tree := by unfold PAD.evict; split <;> rfl
  have g4 : D.pad.evict.cap = D.pad.cap := by unfold PAD.evict; split <;> rfl
  have g5 : D.pad.evict.ad = D.pad.ad := by unfold PAD.evict; split <;> rfl
  unfold RDir.update RPAD.update
  rw [h1]
  dsimp only
  unfold RPAD.updateInternal Mem.newSTR
  rw [e5, R.ad]
  dsimp only
  refine ⟨_, rfl, ?_, ?_⟩
  · have ext : MemExt f d.mem { d.mem with strs := d.mem.strs ++
        [{ core := (newSTR C d.pad.evict.signKey D.pad.ad (d.pad.evict.tree.recomputeHash C).clone (x.core.epoch + 1) (C.digest [x.core.signature])).core,
           tree := (newSTR C d.pad.evict.signKey D.pad.ad (d.pad.evict.tree.recomputeHash C).clone (x.core.epoch + 1) (C.digest [x.core.signature])).tree,
           ad := d.pad.ad }] } :=
      ⟨fun _ _ h => h, fun _ _ h => getElem?_append_some _ h, fun _ _ h => h, fun _ v h => ⟨v, h, fun _ _ => rfl⟩⟩
    have hnew : IsSTR { d.mem with strs := d.mem.strs ++
        [{ core := (newSTR C d.pad.evict.signKey D.pad.ad (d.pad.evict.tree.recomputeHash C).clone (x.core.epoch + 1) (C.digest [x.core.signature])).core,
           tree := (newSTR C d.pad.evict.signKey D.pad.ad (d.pad.evict.tree.recomputeHash C).clone (x.core.epoch + 1) (C.digest [x.core.signature])).tree,
           ad := d.pad.ad }] } d.mem.strs.length
        (newSTR C D.pad.evict.signKey D.pad.evict.ad (D.pad.evict.tree.recomputeHash C).clone (D.pad.latest.core.epoch + 1)
          (C.digest [D.pad.latest.core.signature])) := by
      have hn := IsSTR_new d.mem (newSTR C d.pad.evict.signKey D.pad.ad (d.pad.evict.tree.recomputeHash C).clone (x.core.epoch + 1)
        (C.digest [x.core.signature])) d.pad.ad R.ad
      have hq : newSTR C D.pad.evict.signKey D.pad.evict.ad (D.pad.evict.tree.recomputeHash C).clone (D.pad.latest.core.epoch + 1)
          (C.digest [D.pad.latest.core.signature]) =
        newSTR C d.pad.evict.signKey D.pad.ad (d.pad.evict.tree.recomputeHash C).clone (x.core.epoch + 1) (C.digest [x.core.signature]) := by
        rw [g1, g3, g5, e1, e3, R.signKey, R.tree, h2]
      rw [hq]
      exact hn
    constructor
    · show D.pad.evict.signKey = d.pad.evict.signKey
      rw [g1, e1, R.signKey]
    · show D.pad.evict.vrfKey = d.pad.evict.vrfKey
      rw [g2, e2, R.vrfKey]
    · show D.pad.evict.tree.recomputeHash C = d.pad.evict.tree.recomputeHash C
      rw [g3, e3, R.tree]
    · show D.pad.evict.loadedEpochs ++ [D.pad.latest.core.epoch + 1] = d.pad.evict.loadedEpochs ++ [x.core.epoch + 1]
      rw [hel, h2]
    · show appendCap D.pad.evict.loadedEpochs.length D.pad.evict.cap = appendCap d.pad.evict.loadedEpochs.length d.pad.evict.cap
      rw [hel, g4, e4, R.cap]
    · intro e
      by_cases he : e = x.core.epoch + 1
      · have he' : e = D.pad.latest.core.epoch + 1 := by rw [← h2]; exact he
        have q1 : (if e = x.core.epoch + 1 then some d.mem.strs.length else d.pad.evict.snapshots e) = some d.mem.strs.length := if_pos he
        have q2 : (D.update C).pad.snapshots e = some (D.update C).pad.latest := if_pos he'
        dsimp only
        rw [q1, q2]
        exact hnew
      · have he' : ¬ e = D.pad.latest.core.epoch + 1 := by rw [← h2]; exact he
        have q1 : (if e = x.core.epoch + 1 then some d.mem.strs.length else d.pad.evict.snapshots e) = d.pad.evict.snapshots e := if_neg he
        have q2 : (D.update C).pad.snapshots e = D.pad.evict.snapshots e := if_neg he'
        dsimp only
        rw [q1, q2]
        exact (hev e).ext ext
    · exact hnew
    · exact R.policies
    · exact R.policies
    · exact R.useTBs
    · intro n; trivial
  · exact ⟨⟨fun _ _ h => h, fun _ _ h => getElem?_append_some _ h, fun _ _ h => h, fun _ v h => ⟨v, h, fun _ _ => rfl⟩⟩, rfl⟩

/-- a change of policies -/
theorem setPolicies_sim {f : TB → TB} {d : RDir} {D : Directory} (R : RRel f d D) (t : UInt64) :
    ∃ d', d.setPolicies t = some d' ∧ RRel f d' (D.setPolicies t) ∧ MemExt f d.mem d'.mem ∧ d'.mem.bufs = d.mem.bufs := by
  unfold RDir.setPolicies
  rw [R.policies]
  dsimp only
  have ext : MemExt f d.mem { d.mem with pols := d.mem.pols ++ [newPolicies t D.policies.vrfPublicKey] } :=
    ⟨fun _ _ h => getElem?_append_some _ h, fun _ _ h => h, fun _ _ h => h, fun _ v h => ⟨v, h, fun _ _ => rfl⟩⟩
  refine ⟨_, rfl, ?_, ext, rfl⟩
  constructor
  · exact R.signKey
  · exact R.vrfKey
  · exact R.tree
  · exact R.loaded
  · exact R.cap
  · exact fun e => (R.snapshots e).ext ext
  · exact R.latest.ext ext
  · exact ext.pols _ _ R.ad
  · show (d.mem.pols ++ [newPolicies t D.policies.vrfPublicKey])[d.mem.pols.length]? = _
    rw [List.getElem?_append_right (Nat.le_refl _), Nat.sub_self]; rfl
  · exact R.useTBs
  · exact fun n => (R.tbs n).ext ext

theorem new_sim (f : TB → TB) (C : Crypto) (m : Mem) (t0 : UInt64) (vk sk : Bytes) (size : Nat) (u : Bool) (r₁ r₂ : Option Bytes) :
    match newRDir C m t0 vk sk size u r₁ r₂, newDirectory C t0 vk sk size u r₁ r₂ with
    | none, none => True
    | some d, some D => RRel f d D ∧ d.mem.bufs = m.bufs
    | _, _ => False := by
  unfold newRDir newDirectory
  cases u with
  | false => trivial
  | true =>
    rw [if_pos rfl, if_pos rfl]
    dsimp only
    unfold Mem.newPAD newPAD
    cases newMerkleTree C r₁ with
    | none => trivial
    | some tree =>
      dsimp only
      cases C.makeRand r₂ with
      | none => trivial
      | some ph =>
        dsimp only
        have hp : (m.pols ++ [newPolicies t0 (C.vrfPub vk)])[m.pols.length]? = some (newPolicies t0 (C.vrfPub vk)) := by
          rw [List.getElem?_append_right (Nat.le_refl _), Nat.sub_self]; rfl
        unfold RPAD.updateInternal Mem.newSTR
        dsimp only
        rw [hp]
        dsimp only [Option.map_some]
        refine ⟨?_, rfl⟩
        have hn := IsSTR_new { m with pols := m.pols ++ [newPolicies t0 (C.vrfPub vk)] }
          (newSTR C sk (newPolicies t0 (C.vrfPub vk)) (tree.recomputeHash C).clone 0 ph) m.pols.length hp
        constructor
        · rfl
        · rfl
        · rfl
        · rfl
        · rfl
        · intro e
          by_cases he : e = 0
          · subst he; exact hn
          · dsimp only [PAD.updateInternal]
            rw [if_neg he, if_neg he]
            trivial
        · exact hn
        · exact hp
        · exact hp
        · rfl
        · intro n; trivial

/-! ### The request handlers -/

theorem single_sim {f : TB → TB} {m : Mem} {x : RDirSTR} {s : DirSTR} {tb : Option Nat} {t : Option TB} (h : m.readSTR x = some s)
    (ht : IsTBo f m tb t) (ap : AuthPath) (e : ErrorCode) :
    RReads f m { error := e, body := .proof [ap] [x] tb } (newSingleProof ap s t e) := by
  have hs : m.readSTRs [x] = some [s] := by simp only [Mem.readSTRs, h]
  cases tb with
  | none =>
    cases t with
    | some t => exact ht.elim
    | none => exact ⟨newSingleProof ap s none e, by simp only [RResponse.read, hs]; rfl, rfl⟩
  | some a =>
    cases t with
    | none => exact ht.elim
    | some t =>
      obtain ⟨t', h1, h2⟩ := ht
      refine ⟨newSingleProof ap s (some t') e, by simp only [RResponse.read, hs, h1]; rfl, ?_⟩
      simp only [mapTB, newSingleProof, Option.map_some, h2]

theorem error_sim (f : TB → TB) (m : Mem) (e : ErrorCode) : RReads f m (rErrorResponse e) (newErrorResponse e) := ⟨_, rfl, rfl⟩

/-- answers of the two directories to a call that only reads -/
def ReadSim (f : TB → TB) (m : Mem) : Go RResponse → Go Response → Prop
  | none, none => True
  | some r, some v => RReads f m r v
  | _, _ => False

theorem useTB_sim {f : TB → TB} {d : RDir} {D : Directory} (R : RRel f d D) (n : Bytes) :
    IsTBo f d.mem (if d.useTBs then d.tbs n else none) (if D.useTBs then D.tbs n else none) := by
  rw [R.useTBs]
  split
  · exact R.tbs n
  · trivial

theorem keyLookup_sim {f : TB → TB} {d : RDir} {D : Directory} (R : RRel f d D) (C : Crypto) (req : KeyLookupRequest) :
    ReadSim f d.mem (d.keyLookup C req) (D.keyLookup C req) := by
  obtain ⟨x, l1, l2⟩ := latestSTR_sim R
  unfold RDir.keyLookup Directory.keyLookup
  rw [lookup_sim R]
  by_cases hu : req.username.length = 0
  · rw [if_pos hu, if_pos hu]; exact error_sim f _ _
  · rw [if_neg hu, if_neg hu]
    cases D.pad.lookup C req.username with
    | none => trivial
    | some o =>
      cases o with
      | none => exact error_sim f _ _
      | some ap =>
        dsimp only
        cases ap.found with
        | none => trivial
        | some b =>
          cases b with
          | true => dsimp only; rw [l1]; exact single_sim (t := none) (tb := none) l2 trivial ap _
          | false =>
            dsimp only
            have ht := useTB_sim R req.username
            generalize (if d.useTBs then d.tbs req.username else none) = a at ht ⊢
            generalize (if D.useTBs then D.tbs req.username else none) = t at ht ⊢
            cases a with
            | none =>
              cases t with
              | some t => exact ht.elim
              | none => dsimp only; rw [l1]; exact single_sim (t := none) (tb := none) l2 trivial ap _
            | some a =>
              cases t with
              | none => exact ht.elim
              | some t => dsimp only; rw [l1]; exact single_sim (t := some t) (tb := some a) l2 ht ap _

theorem collect_sim {f : TB → TB} {d : RDir} {D : Directory} (R : RRel f d D) (eps : List UInt64) :
    match d.collectSTRs eps, D.collectSTRs eps with
    | none, none => True
    | some xs, some ys => d.mem.readSTRs xs = some ys
    | _, _ => False := by
  induction eps with
  | nil => rfl
  | cons ep eps ih =>
    obtain ⟨a, h1, h2⟩ := getSTR_sim R ep
    have h3 := newDirSTR_sim h2
    unfold RDir.collectSTRs Directory.collectSTRs
    rw [h1]
    dsimp only
    generalize d.mem.newDirSTR a = x at h3 ⊢
    generalize newDirSTR (D.pad.getSTR ep) = y at h3 ⊢
    cases x with
    | none =>
      cases y with
      | none => trivial
      | some y => exact h3.elim
    | some x =>
      cases y with
      | none => exact h3.elim
      | some y =>
        dsimp only at h3 ⊢
        generalize d.collectSTRs eps = xs at ih ⊢
        generalize D.collectSTRs eps = ys at ih ⊢
        cases xs with
        | none =>
          cases ys with
          | none => trivial
          | some ys => exact ih.elim
        | some xs =>
          cases ys with
          | none => exact ih.elim
          | some ys =>
            dsimp only [Option.map_some] at ih ⊢
            simp only [Mem.readSTRs, h3, ih]

theorem many_sim {f : TB → TB} {m : Mem} {xs : List RDirSTR} {ys : List DirSTR} (h : m.readSTRs xs = some ys) (aps : List AuthPath) (e : ErrorCode) :
    RReads f m { error := e, body := .proof aps xs none } { error := e, resp := .proof { ap := aps.map some, str := ys.map some, tb := none } } :=
  ⟨_, by simp only [RResponse.read, h]; rfl, rfl⟩

theorem keyLookupInEpoch_sim {f : TB → TB} {d : RDir} {D : Directory} (R : RRel f d D) (C : Crypto) (req : KeyLookupInEpochRequest) :
    ReadSim f d.mem (d.keyLookupInEpoch C req) (D.keyLookupInEpoch C req) := by
  unfold RDir.keyLookupInEpoch Directory.keyLookupInEpoch
  rw [latestEpoch_sim R]
  dsimp only
  by_cases hu : req.username.length = 0 ∨ req.epoch > D.latestSTR.core.epoch
  · rw [if_pos hu, if_pos hu]; exact error_sim f _ _
  · rw [if_neg hu, if_neg hu, lookupInEpoch_sim R]
    cases D.pad.lookupInEpoch C req.username req.epoch with
    | none => trivial
    | some o =>
      cases o with
      | none => exact error_sim f _ _
      | some ap =>
        dsimp only
        have hc := collect_sim R (epochRange req.epoch D.latestSTR.core.epoch)
        generalize d.collectSTRs _ = xs at hc ⊢
        generalize D.collectSTRs _ = ys at hc ⊢
        cases xs with
        | none =>
          cases ys with
          | none => trivial
          | some ys => exact hc.elim
        | some xs =>
          cases ys with
          | none => exact hc.elim
          | some ys =>
            dsimp only at hc ⊢
            cases ap.found with
            | none => trivial
            | some b => cases b <;> exact many_sim hc [ap] _

theorem monitorLoop_sim {f : TB → TB} {d : RDir} {D : Directory} (R : RRel f d D) (C : Crypto) (n : Bytes) (eps : List UInt64) :
    match d.monitorLoop C n eps, D.monitorLoop C n eps with
    | none, none => True
    | some none, some none => True
    | some (some (as, xs)), some (some (bs, ys)) => as = bs ∧ d.mem.readSTRs xs = some ys
    | _, _ => False := by
  induction eps with
  | nil => exact ⟨rfl, rfl⟩
  | cons ep eps ih =>
    obtain ⟨a, h1, h2⟩ := getSTR_sim R ep
    have h3 := newDirSTR_sim h2
    unfold RDir.monitorLoop Directory.monitorLoop
    rw [lookupInEpoch_sim R, h1]
    cases D.pad.lookupInEpoch C n ep with
    | none => trivial
    | some o =>
      cases o with
      | none => trivial
      | some ap =>
        dsimp only
        generalize d.mem.newDirSTR a = x at h3 ⊢
        generalize newDirSTR (D.pad.getSTR ep) = y at h3 ⊢
        cases x with
        | none =>
          cases y with
          | none => trivial
          | some y => exact h3.elim
        | some x =>
          cases y with
          | none => exact h3.elim
          | some y =>
            dsimp only at h3 ⊢
            generalize d.monitorLoop C n eps = xs at ih ⊢
            generalize D.monitorLoop C n eps = ys at ih ⊢
            rcases xs with _ | _ | ⟨as, xs⟩ <;> rcases ys with _ | _ | ⟨bs, ys⟩ <;>
              first
              | trivial
              | exact ih.elim
              | (dsimp only at ih ⊢
                 refine ⟨by rw [ih.1], ?_⟩
                 simp only [Mem.readSTRs, h3, ih.2])

theorem monitor_sim {f : TB → TB} {d : RDir} {D : Directory} (R : RRel f d D) (C : Crypto) (req : MonitoringRequest) :
    ReadSim f d.mem (d.monitor C req) (D.monitor C req) := by
  unfold RDir.monitor Directory.monitor
  rw [latestEpoch_sim R]
  dsimp only
  by_cases hu : req.username.length = 0 ∨ req.startEpoch > D.latestSTR.core.epoch ∨ req.startEpoch > req.endEpoch
  · rw [if_pos hu, if_pos hu]; exact error_sim f _ _
  · rw [if_neg hu, if_neg hu]
    have hc := monitorLoop_sim R C req.username
      (epochRange req.startEpoch (if req.endEpoch > D.latestSTR.core.epoch then D.latestSTR.core.epoch else req.endEpoch))
    generalize d.monitorLoop C _ _ = xs at hc ⊢
    generalize D.monitorLoop C _ _ = ys at hc ⊢
    rcases xs with _ | _ | ⟨as, xs⟩ <;> rcases ys with _ | _ | ⟨bs, ys⟩ <;>
      first
      | trivial
      | exact hc.elim
      | exact error_sim f _ _
      | (dsimp only at hc ⊢
         rw [hc.1]
         exact many_sim hc.2 bs _)

theorem history_sim {f : TB → TB} {d : RDir} {D : Directory} (R : RRel f d D) (req : STRHistoryRequest) :
    ReadSim f d.mem (d.getSTRHistory req) (D.getSTRHistory req) := by
  unfold RDir.getSTRHistory Directory.getSTRHistory
  rw [latestEpoch_sim R]
  dsimp only
  by_cases hu : req.startEpoch > D.latestSTR.core.epoch ∨ req.endEpoch < req.startEpoch
  · rw [if_pos hu, if_pos hu]; exact error_sim f _ _
  · rw [if_neg hu, if_neg hu]
    have hc := collect_sim R (epochRange req.startEpoch (if req.endEpoch > D.latestSTR.core.epoch then D.latestSTR.core.epoch else req.endEpoch))
    generalize d.collectSTRs _ = xs at hc ⊢
    generalize D.collectSTRs _ = ys at hc ⊢
    cases xs with
    | none =>
      cases ys with
      | none => trivial
      | some ys => exact hc.elim
    | some xs =>
      cases ys with
      | none => exact hc.elim
      | some ys =>
        dsimp only [Option.map_some] at hc ⊢
        exact ⟨_, by simp only [RResponse.read, hc]; rfl, rfl⟩

/-- results of the two directories of a call that may write -/
def WriteSim (f : TB → TB) (m : Mem) : Go (RDir × RResponse) → Go (Directory × Response) → Prop
  | none, none => True
  | some (d, r), some (D, v) => RRel f d D ∧ MemExt f m d.mem ∧ d.mem.bufs = m.bufs ∧ RReads f d.mem r v
  | _, _ => False

theorem RRel.setTree {f : TB → TB} {d : RDir} {D : Directory} (R : RRel f d D) (t : MerkleTree) :
    RRel f { d with pad := { d.pad with tree := t } } { D with pad := { D.pad with tree := t } } := by
  constructor
  · exact R.signKey
  · exact R.vrfKey
  · rfl
  · exact R.loaded
  · exact R.cap
  · exact R.snapshots
  · exact R.latest
  · exact R.ad
  · exact R.policies
  · exact R.useTBs
  · exact R.tbs

theorem RRel.grow {f : TB → TB} {d : RDir} {D : Directory} (R : RRel f d D) {m : Mem} (ext : MemExt f d.mem m) :
    RRel f { d with mem := m } D := by
  constructor
  · exact R.signKey
  · exact R.vrfKey
  · exact R.tree
  · exact R.loaded
  · exact R.cap
  · exact fun e => (R.snapshots e).ext ext
  · exact R.latest.ext ext
  · exact ext.pols _ _ R.ad
  · exact ext.pols _ _ R.policies
  · exact R.useTBs
  · exact fun n => (R.tbs n).ext ext

theorem register_sim {f : TB → TB} {d : RDir} {D : Directory} (R : RRel f d D) (C : Crypto) (rnd : Option Bytes) (n : Bytes) (a : Nat) (k : Bytes)
    (hk : d.mem.bufs[a]? = some k) : WriteSim f d.mem (d.register C rnd n a) (D.register C rnd ⟨n, k⟩) := by
  obtain ⟨x, l1, l2⟩ := latestSTR_sim R
  unfold RDir.register Directory.register
  rw [hk]
  dsimp only
  by_cases hu : n.length = 0 ∨ k.length = 0
  · rw [if_pos hu, if_pos hu]; exact ⟨R, MemExt.refl _ _, rfl, error_sim f _ _⟩
  · rw [if_neg hu, if_neg hu, lookup_sim R]
    cases D.pad.lookup C n with
    | none => trivial
    | some o =>
      cases o with
      | none => exact ⟨R, MemExt.refl _ _, rfl, error_sim f _ _⟩
      | some ap =>
        dsimp only
        cases ap.found with
        | none => trivial
        | some b =>
          cases b with
          | true =>
            dsimp only; rw [l1]
            exact ⟨R, MemExt.refl _ _, rfl, single_sim (t := none) (tb := none) l2 trivial ap _⟩
          | false =>
            dsimp only
            have ht := useTB_sim R n
            generalize (if d.useTBs then d.tbs n else none) = o at ht ⊢
            generalize (if D.useTBs then D.tbs n else none) = t at ht ⊢
            cases o with
            | some o =>
              cases t with
              | none => exact ht.elim
              | some t =>
                dsimp only; rw [l1]
                exact ⟨R, MemExt.refl _ _, rfl, single_sim (t := some t) (tb := some o) l2 ht ap _⟩
            | none =>
              cases t with
              | some t => exact ht.elim
              | none =>
                dsimp only
                obtain ⟨y, y1, y2⟩ := R.latest.epoch
                have hset : d.pad.set C rnd n k = (D.pad.tree.set C rnd (D.pad.index C n) n k).map fun z => ({ d.pad with tree := z.1 }, z.2) := by
                  unfold RPAD.set PAD.index
                  rw [R.tree, R.vrfKey]
                unfold PAD.set
                rw [hset]
                by_cases hb : d.useTBs
                · have hB : D.useTBs := by rw [R.useTBs]; exact hb
                  rw [if_pos hb, if_pos hB]
                  have htb : d.newTB C n a = some ({ d.mem with tbs := d.mem.tbs ++
                      [{ index := (D.newTB C n k).index, value := a, signature := (D.newTB C n k).signature }] }, d.mem.tbs.length) := by
                    simp only [RDir.newTB, y1, hk, Directory.newTB, PAD.index, PAD.sign, Directory.latestSTR, R.vrfKey, R.signKey, y2]
                  rw [htb]
                  dsimp only [Option.map_some]
                  have ext : MemExt f d.mem { d.mem with tbs := d.mem.tbs ++
                      [{ index := (D.newTB C n k).index, value := a, signature := (D.newTB C n k).signature }] } :=
                    ⟨fun _ _ h => h, fun _ _ h => h, fun _ _ h => getElem?_append_some _ h, fun _ v h => ⟨v, h, fun _ _ => rfl⟩⟩
                  cases hs : D.pad.tree.set C rnd (D.pad.index C n) n k with
                  | none => trivial
                  | some z =>
                    obtain ⟨t, ok⟩ := z
                    cases ok with
                    | false =>
                      dsimp only [Option.map_some]
                      exact ⟨(R.grow ext).setTree t, ext, rfl, error_sim f _ _⟩
                    | true =>
                      dsimp only [Option.map_some]
                      have R' : RRel f { d with
                          mem := { d.mem with tbs := d.mem.tbs ++
                            [{ index := (D.newTB C n k).index, value := a, signature := (D.newTB C n k).signature }] }
                          pad := { d.pad with tree := t }
                          tbs := fun n' => if n' = n then some d.mem.tbs.length else d.tbs n' }
                        { D with pad := { D.pad with tree := t }, tbs := fun n' => if n' = n then some (D.newTB C n k) else D.tbs n' } := by
                        have R1 := (R.grow ext).setTree t
                        constructor
                        · exact R1.signKey
                        · exact R1.vrfKey
                        · exact R1.tree
                        · exact R1.loaded
                        · exact R1.cap
                        · exact R1.snapshots
                        · exact R1.latest
                        · exact R1.ad
                        · exact R1.policies
                        · exact R1.useTBs
                        · intro n'
                          dsimp only
                          split
                          · refine ⟨D.newTB C n k, ?_, rfl⟩
                            simp only [Mem.readTB, List.getElem?_append_right (Nat.le_refl _), Nat.sub_self, List.getElem?_cons_zero, hk, Option.map_some]
                            rfl
                          · exact R1.tbs n'
                      obtain ⟨x', k1, k2⟩ := latestSTR_sim R'
                      rw [k1]
                      refine ⟨R', ext, rfl, single_sim (t := some (D.newTB C n k)) (tb := some d.mem.tbs.length) k2 ?_ ap _⟩
                      have := R'.tbs n
                      simpa using this
                · have hB : ¬ D.useTBs := by rw [R.useTBs]; exact hb
                  rw [if_neg hb, if_neg hB]
                  dsimp only
                  cases hs : D.pad.tree.set C rnd (D.pad.index C n) n k with
                  | none => trivial
                  | some z =>
                    obtain ⟨t, ok⟩ := z
                    cases ok with
                    | false =>
                      dsimp only [Option.map_some]
                      exact ⟨R.setTree t, MemExt.refl _ _, rfl, error_sim f _ _⟩
                    | true =>
                      dsimp only [Option.map_some]
                      obtain ⟨x', k1, k2⟩ := latestSTR_sim (R.setTree t)
                      have k1' : RDir.latestSTR { mem := d.mem, pad := { d.pad with tree := t }, useTBs := d.useTBs, tbs := d.tbs, policies := d.policies } = some x' := k1
                      rw [k1']
                      exact ⟨R.setTree t, MemExt.refl _ _, rfl, single_sim (t := none) (tb := none) k2 trivial ap _⟩

/-! ### Histories -/

/-- `f` shows no more of a TB than the operation leaves unchanged -/
def Hides (f : TB → TB) (op : ROp) : Prop := ∀ a b, op = .write a b → ∀ i s v w, f ⟨i, v, s⟩ = f ⟨i, w, s⟩

theorem write_ext {f : TB → TB} (m : Mem) (a : Nat) (b : Bytes) (h : ∀ i s v w, f ⟨i, v, s⟩ = f ⟨i, w, s⟩) :
    MemExt f m { m with bufs := m.bufs.set a b } := by
  refine ⟨fun _ _ h => h, fun _ _ h => h, fun _ _ h => h, fun i v hv => ?_⟩
  have hlt := (List.getElem?_eq_some_iff.mp hv).1
  refine ⟨(m.bufs.set a b)[i]'(by rw [List.length_set]; exact hlt), ?_, fun _ _ => h _ _ _ _⟩
  show (m.bufs.set a b)[i]? = _
  rw [List.getElem?_eq_getElem]

theorem run_sim {f : TB → TB} (C : Crypto) : ∀ (ops : List ROp) {d : RDir} {D : Directory}, RRel f d D → (∀ op ∈ ops, Hides f op) →
    KeysExist d.mem.bufs.length ops →
    match d.run C ops, valueAnswers C D (plainCalls d.mem.bufs ops) with
    | none, none => True
    | some (d', rs), some vs => MemExt f d.mem d'.mem ∧ rs.length = vs.length ∧
        ∀ (i : Nat) (r : RResponse) (v : Response), rs[i]? = some r → vs[i]? = some v → RReads f d'.mem r v
    | _, _ => False := by
  intro ops
  induction ops with
  | nil => intro d D R _ _; exact ⟨MemExt.refl _ _, rfl, fun i r v h => by simp at h⟩
  | cons op ops ih =>
    intro d D R hh hk
    have hh' : ∀ op ∈ ops, Hides f op := fun o ho => hh o (List.mem_cons_of_mem _ ho)
    -- a call without an answer
    have quiet : ∀ {d1 : RDir} {D1 : Directory}, RRel f d1 D1 → MemExt f d.mem d1.mem → d.step C op = some (d1, none) →
        KeysExist d1.mem.bufs.length ops →
        valueAnswers C D (plainCalls d.mem.bufs (op :: ops)) = valueAnswers C D1 (plainCalls d1.mem.bufs ops) →
        match d.run C (op :: ops), valueAnswers C D (plainCalls d.mem.bufs (op :: ops)) with
        | none, none => True
        | some (d', rs), some vs => MemExt f d.mem d'.mem ∧ rs.length = vs.length ∧
            ∀ (i : Nat) (r : RResponse) (v : Response), rs[i]? = some r → vs[i]? = some v → RReads f d'.mem r v
        | _, _ => False := by
      intro d1 D1 R1 ext hst hk1 hv
      have hi := ih R1 hh' hk1
      rw [hv]
      simp only [RDir.run, hst, Option.bind_some]
      generalize d1.run C ops = o at hi ⊢
      generalize valueAnswers C D1 (plainCalls d1.mem.bufs ops) = vs at hi ⊢
      cases o with
      | none =>
        cases vs with
        | none => trivial
        | some vs => exact hi.elim
      | some o =>
        cases vs with
        | none => exact hi.elim
        | some vs =>
          obtain ⟨d', rs⟩ := o
          dsimp only [Option.map_some] at hi ⊢
          exact ⟨ext.trans hi.1, hi.2⟩
    -- a call with an answer
    have answer : ∀ {d1 : RDir} {D1 : Directory} {r : RResponse} {v : Response} (vop : DirOp), RRel f d1 D1 → MemExt f d.mem d1.mem →
        d.step C op = some (d1, some r) → D.step C vop = some (D1, some v) → RReads f d1.mem r v → KeysExist d1.mem.bufs.length ops →
        plainCalls d.mem.bufs (op :: ops) = vop :: plainCalls d1.mem.bufs ops →
        match d.run C (op :: ops), valueAnswers C D (plainCalls d.mem.bufs (op :: ops)) with
        | none, none => True
        | some (d', rs), some vs => MemExt f d.mem d'.mem ∧ rs.length = vs.length ∧
            ∀ (i : Nat) (r : RResponse) (v : Response), rs[i]? = some r → vs[i]? = some v → RReads f d'.mem r v
        | _, _ => False := by
      intro d1 D1 r v vop R1 ext hst hvt hr hk1 hp
      have hi := ih R1 hh' hk1
      rw [hp]
      simp only [RDir.run, hst, Option.bind_some, valueAnswers, hvt]
      generalize d1.run C ops = o at hi ⊢
      generalize valueAnswers C D1 (plainCalls d1.mem.bufs ops) = vs at hi ⊢
      cases o with
      | none =>
        cases vs with
        | none => trivial
        | some vs => exact hi.elim
      | some o =>
        cases vs with
        | none => exact hi.elim
        | some vs =>
          obtain ⟨d', rs⟩ := o
          dsimp only [Option.map_some, Option.toList_some] at hi ⊢
          refine ⟨ext.trans hi.1, by simp [hi.2.1], ?_⟩
          intro i r' v' h1 h2
          cases i with
          | zero => simp at h1 h2; subst h1; subst h2; exact hr.ext hi.1
          | succ i => simp at h1 h2; exact hi.2.2 i r' v' h1 h2
    -- a call that panics
    have panic : ∀ (vop : DirOp), d.step C op = none → D.step C vop = none → (∃ b, plainCalls d.mem.bufs (op :: ops) = vop :: plainCalls b ops) →
        match d.run C (op :: ops), valueAnswers C D (plainCalls d.mem.bufs (op :: ops)) with
        | none, none => True
        | some (d', rs), some vs => MemExt f d.mem d'.mem ∧ rs.length = vs.length ∧
            ∀ (i : Nat) (r : RResponse) (v : Response), rs[i]? = some r → vs[i]? = some v → RReads f d'.mem r v
        | _, _ => False := by
      intro vop hst hvt hp
      obtain ⟨b, hp⟩ := hp
      rw [hp]
      simp only [RDir.run, hst, Option.bind_none, valueAnswers, hvt]
    -- reads
    have reads : ∀ (vop : DirOp) {o : Go RResponse} {w : Go Response}, ReadSim f d.mem o w → d.step C op = o.map (fun r => (d, some r)) →
        D.step C vop = w.map (fun v => (D, some v)) → KeysExist d.mem.bufs.length ops → plainCalls d.mem.bufs (op :: ops) = vop :: plainCalls d.mem.bufs ops →
        match d.run C (op :: ops), valueAnswers C D (plainCalls d.mem.bufs (op :: ops)) with
        | none, none => True
        | some (d', rs), some vs => MemExt f d.mem d'.mem ∧ rs.length = vs.length ∧
            ∀ (i : Nat) (r : RResponse) (v : Response), rs[i]? = some r → vs[i]? = some v → RReads f d'.mem r v
        | _, _ => False := by
      intro vop o w hs hst hvt hk1 hp
      cases o with
      | none =>
        cases w with
        | none => exact panic vop hst hvt ⟨_, hp⟩
        | some w => exact hs.elim
      | some o =>
        cases w with
        | none => exact hs.elim
        | some w => exact answer vop R (MemExt.refl _ _) hst hvt hs hk1 hp
    cases op with
    | buffer b =>
      have ext : MemExt f d.mem { d.mem with bufs := d.mem.bufs ++ [b] } :=
        ⟨fun _ _ h => h, fun _ _ h => h, fun _ _ h => h, fun _ v h => ⟨v, getElem?_append_some _ h, fun _ _ => rfl⟩⟩
      refine quiet (R.grow ext) ext rfl ?_ rfl
      show KeysExist (d.mem.bufs ++ [b]).length ops
      rw [List.length_append]; exact hk
    | write a b =>
      have ext := write_ext d.mem a b (hh (.write a b) List.mem_cons_self a b rfl)
      refine quiet (R.grow ext) ext rfl ?_ rfl
      show KeysExist (d.mem.bufs.set a b).length ops
      rw [List.length_set]; exact hk
    | register rnd n k =>
      obtain ⟨hk1, hk2⟩ : k < d.mem.bufs.length ∧ KeysExist d.mem.bufs.length ops := hk
      have hkey : d.mem.bufs[k]? = some d.mem.bufs[k] := List.getElem?_eq_getElem hk1
      have hs := register_sim R C rnd n k _ hkey
      have hp : plainCalls d.mem.bufs (.register rnd n k :: ops) = .register rnd ⟨n, d.mem.bufs[k]⟩ :: plainCalls d.mem.bufs ops := by
        simp only [plainCalls, hkey, Option.getD_some]
      cases h1 : d.register C rnd n k with
      | none =>
        cases h2 : D.register C rnd ⟨n, d.mem.bufs[k]⟩ with
        | none => exact panic (.register rnd ⟨n, d.mem.bufs[k]⟩) (by simp only [RDir.step, h1, Option.map_none]) (by simp only [Directory.step, h2, Option.map_none]) ⟨_, hp⟩
        | some y => rw [h1, h2] at hs; exact hs.elim
      | some x =>
        cases h2 : D.register C rnd ⟨n, d.mem.bufs[k]⟩ with
        | none => rw [h1, h2] at hs; exact hs.elim
        | some y =>
          rw [h1, h2] at hs
          obtain ⟨d1, r⟩ := x
          obtain ⟨D1, v⟩ := y
          obtain ⟨s1, s2, hb, s3⟩ := hs
          refine answer (.register rnd ⟨n, d.mem.bufs[k]⟩) s1 s2 (by simp only [RDir.step, h1, Option.map_some]) (by simp only [Directory.step, h2, Option.map_some]) s3
            (by rw [hb]; exact hk2) (by rw [hb]; exact hp)
    | keyLookup req => exact reads (.keyLookup req) (keyLookup_sim R C req) rfl rfl hk rfl
    | keyLookupInEpoch req => exact reads (.keyLookupInEpoch req) (keyLookupInEpoch_sim R C req) rfl rfl hk rfl
    | monitor req => exact reads (.monitor req) (monitor_sim R C req) rfl rfl hk rfl
    | getSTRHistory req => exact reads (.getSTRHistory req) (history_sim R req) rfl rfl hk rfl
    | update =>
      obtain ⟨d1, h1, R1, ext, hb⟩ := update_sim R C
      refine quiet R1 ext (by simp only [RDir.step, h1, Option.map_some]) (by rw [hb]; exact hk) ?_
      rw [hb]
      simp only [plainCalls, valueAnswers, Directory.step, Option.bind_some, Option.toList_none, List.nil_append, Option.map_id']
    | setPolicies t =>
      obtain ⟨d1, h1, R1, ext, hb⟩ := setPolicies_sim R t
      refine quiet R1 ext (by simp only [RDir.step, h1, Option.map_some]) (by rw [hb]; exact hk) ?_
      rw [hb]
      simp only [plainCalls, valueAnswers, Directory.step, Option.bind_some, Option.toList_none, List.nil_append, Option.map_id']

end Coniks

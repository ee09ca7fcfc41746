import Verif.Proofs.Heap
import Verif.Proofs.TreeHash
/-
Cached hashes: below a cached hash everything is cached. So after `recomputeHash` everything is.
-/
namespace Coniks
open Spec

/-- Under a cached hash, everything is cached. -/
def Node.mono : Node → Prop
  | .interior _ lh rh l r => (lh.isSome → l.cached) ∧ (rh.isSome → r.cached) ∧ l.mono ∧ r.mono
  | _ => True

theorem hashNode_cached (C : Crypto) (nonce : Bytes) : ∀ n : Node, n.mono → (n.hashNode C nonce).2.cached
  | .empty .., _ => trivial
  | .leaf _, _ => trivial
  | .interior lv lh rh l r, h => by
    obtain ⟨h1, h2, h3, h4⟩ := h
    cases lh <;> cases rh <;> simp only [Node.hashNode, Node.cached, Option.isSome_some, true_and]
    · exact ⟨hashNode_cached C nonce l h3, hashNode_cached C nonce r h4⟩
    · exact ⟨hashNode_cached C nonce l h3, h2 rfl⟩
    · exact ⟨h1 rfl, hashNode_cached C nonce r h4⟩
    · exact ⟨h1 rfl, h2 rfl⟩

theorem mono_of_cached : ∀ n : Node, n.cached → n.mono
  | .empty .., _ => trivial
  | .leaf _, _ => trivial
  | .interior lv lh rh l r, h => by
    obtain ⟨h1, h2, h3, h4⟩ := h
    exact ⟨fun _ => h3, fun _ => h4, mono_of_cached l h3, mono_of_cached r h4⟩

theorem clone_cached : ∀ n : Node, n.clone.cached
  | .empty .. => trivial
  | .leaf _ => trivial
  | .interior lv lh rh l r => ⟨rfl, rfl, clone_cached l, clone_cached r⟩

theorem pushDown_mono (d pb dir cur) : (pushDown d pb dir cur).mono := by
  cases dir <;> simp [pushDown, Node.mono]

theorem insertAt_mono (bits : List Bool) (toAdd : Leaf) (depth : Nat) (n : Node) :
    n.mono → ∀ n', insertAt bits toAdd depth n = some n' → n'.mono := by
  induction depth, n using insertAt.induct (bits := bits) (toAdd := toAdd) with
  | case1 depth lv ix => intro _ n' h; unfold insertAt at h; exact (nomatch h)
  | case2 depth cur hidx => intro _ n' h; unfold insertAt at h; simp only [hidx, if_true] at h; cases h; trivial
  | case3 depth cur hidx hd hg => intro _ n' h; unfold insertAt at h; simp [hidx, hd, hg] at h
  | case4 depth cur hidx hd dir hg ih =>
    intro _ n' h
    unfold insertAt at h
    simp only [hidx, if_false, hd, if_true, hg] at h
    exact ih (pushDown_mono _ _ _ _) n' h
  | case5 depth cur hidx hd => intro _ n' h; unfold insertAt at h; simp [hidx, hd] at h
  | case6 depth lv lh rh l r hb =>
    intro _ n' h
    unfold insertAt at h
    split at h <;> simp_all
  | case7 depth lv lh rh l r hb he =>
    intro hm n' h
    obtain ⟨h1, h2, h3, h4⟩ := hm
    rw [insertAt_true hb, if_pos he] at h
    cases h
    exact ⟨h1, fun h => (nomatch h), h3, trivial⟩
  | case8 depth lv lh rh l r hb he ih =>
    intro hm n' h
    obtain ⟨h1, h2, h3, h4⟩ := hm
    rw [insertAt_true hb, if_neg he] at h
    obtain ⟨r', hr, rfl⟩ := Option.map_eq_some_iff.mp h
    exact ⟨h1, fun h => (nomatch h), h3, ih h4 r' hr⟩
  | case9 depth lv lh rh l r hb he =>
    intro hm n' h
    obtain ⟨h1, h2, h3, h4⟩ := hm
    rw [insertAt_false hb, if_pos he] at h
    cases h
    exact ⟨fun h => (nomatch h), h2, trivial, h4⟩
  | case10 depth lv lh rh l r hb he ih =>
    intro hm n' h
    obtain ⟨h1, h2, h3, h4⟩ := hm
    rw [insertAt_false hb, if_neg he] at h
    obtain ⟨l', hr, rfl⟩ := Option.map_eq_some_iff.mp h
    exact ⟨fun h => (nomatch h), h2, ih h3 l' hr, h4⟩

theorem set_mono (C : Crypto) {t : MerkleTree} (hm : t.root.mono) {rnd : Option Bytes} {index key value : Bytes} {p : MerkleTree × Bool}
    (h : t.set C rnd index key value = some p) : p.1.root.mono := by
  simp only [MerkleTree.set] at h
  split at h
  · cases h; exact hm
  · obtain ⟨m, h1, rfl⟩ := Option.map_eq_some_iff.mp h
    obtain ⟨r, h2, rfl⟩ := Option.map_eq_some_iff.mp h1
    exact insertAt_mono _ _ _ _ hm _ h2

theorem valueStep_mono (C : Crypto) {ts ts' : List MerkleTree} {op : WOp} (h : valueStep C ts op = some ts')
    (hm : ∀ t ∈ ts, t.root.mono) : ∀ t ∈ ts', t.root.mono := by
  cases op with
  | new rnd =>
    simp only [valueStep, newMerkleTree] at h
    cases hr : C.makeRand rnd with
    | none => rw [hr] at h; simp only [Option.map_none] at h; cases h; exact hm
    | some n =>
      rw [hr] at h; simp only [Option.map_some] at h; cases h
      intro t ht
      rcases List.mem_append.mp ht with g | g
      · exact hm t g
      · simp only [List.mem_singleton] at g; subst g; simp [newInterior, Node.mono]
  | set j rnd index key value =>
    simp only [valueStep] at h
    split at h
    · exact (nomatch h)
    · rename_i t0 h0
      obtain ⟨p, hp, rfl⟩ := Option.map_eq_some_iff.mp h
      intro t ht
      rcases List.mem_or_eq_of_mem_set ht with g | g
      · exact hm t g
      · subst g; exact set_mono C (hm t0 (List.mem_of_getElem? h0)) hp
  | recompute j =>
    obtain ⟨t0, h0, rfl⟩ := Option.map_eq_some_iff.mp h
    intro t ht
    rcases List.mem_or_eq_of_mem_set ht with g | g
    · exact hm t g
    · subst g
      exact mono_of_cached _ (hashNode_cached C _ _ (hm t0 (List.mem_of_getElem? h0)))
  | clone j =>
    obtain ⟨t0, h0, rfl⟩ := Option.map_eq_some_iff.mp h
    intro t ht
    rcases List.mem_append.mp ht with g | g
    · exact hm t g
    · simp only [List.mem_singleton] at g; subst g; exact mono_of_cached _ (clone_cached _)

theorem valueRun_mono (C : Crypto) : ∀ (ops : List WOp) {ts ts' : List MerkleTree}, valueRun C ts ops = some ts' →
    (∀ t ∈ ts, t.root.mono) → ∀ (i : Nat) t, ts'[i]? = some t → t.root.mono
  | [], ts, ts', h, hm, i, t, ht => by cases h; exact hm t (List.mem_of_getElem? ht)
  | op :: ops, ts, ts', h, hm, i, t, ht => by
    simp only [valueRun] at h
    obtain ⟨ts1, h1, h2⟩ := Option.bind_eq_some_iff.mp h
    exact valueRun_mono C ops h2 (valueStep_mono C h1 hm) i t ht

theorem toArr32_clone (lh : Option Bytes) : toArr32 (some (lh.getD [])) = toArr32 lh := by cases lh <;> rfl

theorem descend_clone (bits : List Bool) : ∀ (n : Node) (depth : Nat),
    descend bits depth n.clone = descend bits depth n
  | .empty .., _ => rfl
  | .leaf _, _ => rfl
  | .interior lv lh rh l r, depth => by
    simp only [Node.clone, descend, toArr32_clone, descend_clone bits l, descend_clone bits r]

theorem clone_get (t : MerkleTree) (idx : Bytes) : t.clone.get idx = t.get idx := by
  simp only [MerkleTree.get, MerkleTree.clone, descend_clone]

/-- calls on one tree only -/
theorem valueRun_onTree (C : Crypto) (i : Nat) : ∀ (later : List TreeOp) {ts : List MerkleTree} {t : MerkleTree}, ts[i]? = some t →
    match valueRun C ts (later.map fun op => match op with
      | .set rnd index key value => WOp.set i rnd index key value
      | .recompute => WOp.recompute i) with
    | none => t.run C later = none
    | some ts' => ts'[i]? = t.run C later
  | [], ts, t, h => by simpa [valueRun, MerkleTree.run] using h
  | op :: later, ts, t, h => by
    have ilt := (List.getElem?_eq_some_iff.mp h).1
    cases op with
    | recompute =>
      simp only [List.map_cons, valueRun, valueStep, h, Option.map_some, Option.bind_some, MerkleTree.run, MerkleTree.step]
      exact valueRun_onTree C i later (List.getElem?_set_self ilt)
    | set rnd index key value =>
      simp only [List.map_cons, valueRun, valueStep, h, MerkleTree.run, MerkleTree.step]
      cases t.set C rnd index key value with
      | none => rfl
      | some p =>
        simp only [Option.map_some, Option.bind_some]
        exact valueRun_onTree C i later (List.getElem?_set_self ilt)

end Coniks

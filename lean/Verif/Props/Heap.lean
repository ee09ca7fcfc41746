import Verif.Proofs.Heap
import Verif.Proofs.HeapMono
import Verif.Proofs.TreeHash
import Verif.Proofs.Eval
/-
C17: a tree and its clones share no memory that either changes.
-/
namespace Coniks.Props
open Coniks Spec

/-- C17. The pointer-level code computes exactly what it would if every tree were an independent value: it panics iff the
computation on values does, and every `Get` and every `hash` of every tree is that of the value. -/
theorem C17_refines_values (C : Crypto) (ops : List WOp) :
    match valueRun C [] ops with
    | none => emptyWorld.run C ops = none
    | some ts => ∃ w, emptyWorld.run C ops = some w ∧ w.trees.length = ts.length ∧
        ∀ (i : Nat) (t : MerkleTree), ts[i]? = some t → (∀ idx, w.get i idx = t.get idx) ∧ w.hash i = some t.hash := by
  have := run_refines C ops emptyWorld_inv
  cases h : valueRun C [] ops with
  | none => rw [h] at this; exact this
  | some ts =>
    rw [h] at this
    obtain ⟨w, fps, e, inv⟩ := this
    refine ⟨w, e, inv.len, fun i t ht => ⟨fun idx => ?_, ?_⟩⟩
    · rw [get_refines inv, ht]; rfl
    · rw [hash_refines inv, ht]; rfl

/-- C17. In every state of the memory reached by any calls, whatever is then done to other trees (clones of `i`, the tree `i` was
cloned from, or unrelated ones), or cloned from `i`, leaves every `Get` and the hash of tree `i` as they were. -/
theorem C17_isolation (C : Crypto) (ops ops' : List WOp) (w w' : HWorld) (i : Nat)
    (h : emptyWorld.run C ops = some w) (h' : w.run C ops' = some w') (hi : i < w.trees.length) (hun : ∀ op ∈ ops', ¬ Touches i op) :
    (∀ idx, w'.get i idx = w.get i idx) ∧ w'.hash i = w.hash i := by
  have r1 := run_refines C ops emptyWorld_inv
  cases hv : valueRun C [] ops with
  | none => rw [hv] at r1; rw [r1] at h; exact (nomatch h)
  | some ts =>
    rw [hv] at r1
    obtain ⟨w1, fps, e, inv⟩ := r1
    rw [h] at e; cases e
    have r2 := run_refines C ops' inv
    cases hv' : valueRun C ts ops' with
    | none => rw [hv'] at r2; rw [r2] at h'; exact (nomatch h')
    | some ts' =>
      rw [hv'] at r2
      obtain ⟨w2, fps', e, inv'⟩ := r2
      rw [h'] at e; cases e
      have hu := valueRun_untouched C ops' hv' hun (by rw [← inv.len]; exact hi)
      exact ⟨fun idx => by rw [get_refines inv', get_refines inv, hu], by rw [hash_refines inv', hash_refines inv, hu]⟩

/-- `TreeOp`s as calls on tree `i`. -/
def onTree (i : Nat) : TreeOp → WOp
  | .set rnd index key value => .set i rnd index key value
  | .recompute => .recompute i

/-- C17. A clone has the hash of the original and answers every `Get` as the original does. -/
theorem C17_clone_equal (C : Crypto) (ops : List WOp) (w w' : HWorld) (i : Nat) (h : emptyWorld.run C ops = some w)
    (hc : w.step C (.clone i) = some w') :
    w'.trees.length = w.trees.length + 1 ∧ i < w.trees.length ∧
    (∀ idx, w'.get w.trees.length idx = w.get i idx) ∧ w'.hash w.trees.length = w.hash i := by
  have r1 := run_refines C ops emptyWorld_inv
  cases hv : valueRun C [] ops with
  | none => rw [hv] at r1; rw [r1] at h; exact (nomatch h)
  | some ts =>
    rw [hv] at r1
    obtain ⟨w1, fps, e, inv⟩ := r1
    rw [h] at e; cases e
    have r2 := step_refines C inv (.clone i)
    simp only [valueStep] at r2
    cases hi : ts[i]? with
    | none => rw [hi] at r2; simp only [Option.map_none] at r2; rw [r2] at hc; exact (nomatch hc)
    | some t =>
      rw [hi] at r2
      simp only [Option.map_some] at r2
      obtain ⟨w2, fps', e, inv'⟩ := r2
      rw [hc] at e; cases e
      have hl : (ts ++ [t.clone])[w.trees.length]? = some t.clone := by rw [inv.len]; simp
      refine ⟨by rw [inv'.len, inv.len]; simp, by rw [inv.len]; exact (List.getElem?_eq_some_iff.mp hi).1, fun idx => ?_, ?_⟩
      · rw [get_refines inv', get_refines inv, hl, hi]
        simp only [Option.bind_some]
        exact clone_get t idx
      · rw [hash_refines inv', hash_refines inv, hl, hi]
        rfl

/-- C17. A clone taken when the hashes are up to date (right after `recomputeHash`) behaves as the original from then on: after the
same calls on the original and on the clone, either way round, hashes and results of `Get` are the same. -/
theorem C17_clone_behaves (C : Crypto) (ops : List WOp) (w w' wi wj : HWorld) (i : Nat) (later : List TreeOp)
    (h : emptyWorld.run C ops = some w) (hc : w.run C [.recompute i, .clone i] = some w')
    (hi : w'.run C (later.map (onTree i)) = some wi) (hj : w'.run C (later.map (onTree w.trees.length)) = some wj) :
    (∀ idx, wj.get w.trees.length idx = wi.get i idx) ∧ wj.hash w.trees.length = wi.hash i := by
  have r1 := run_refines C ops emptyWorld_inv
  cases hv : valueRun C [] ops with
  | none => rw [hv] at r1; rw [r1] at h; exact (nomatch h)
  | some ts =>
    rw [hv] at r1
    obtain ⟨w1, fps, e, inv⟩ := r1
    rw [h] at e; cases e
    have mono := valueRun_mono C ops hv (by simp)
    have r2 := run_refines C [.recompute i, .clone i] inv
    cases hti : ts[i]? with
    | none => simp [valueRun, valueStep, hti] at r2; rw [r2] at hc; exact (nomatch hc)
    | some t =>
      have ilt := (List.getElem?_eq_some_iff.mp hti).1
      have ht1 : (ts.set i (t.recomputeHash C))[i]? = some (t.recomputeHash C) := List.getElem?_set_self ilt
      have hcl : (t.recomputeHash C).clone = t.recomputeHash C := by
        have : (t.recomputeHash C).root.cached := hashNode_cached C t.nonce t.root (mono i t hti)
        simp only [MerkleTree.clone, clone_eq _ this]
      have hts : valueRun C ts [.recompute i, .clone i] = some (ts.set i (t.recomputeHash C) ++ [t.recomputeHash C]) := by
        simp only [valueRun, valueStep, hti, Option.map_some, Option.bind_some, ht1, hcl]
      rw [hts] at r2
      obtain ⟨w2, fps', e, inv'⟩ := r2
      rw [hc] at e; cases e
      have gi : (ts.set i (t.recomputeHash C) ++ [t.recomputeHash C])[i]? = some (t.recomputeHash C) := by
        rw [List.getElem?_append_left (by rw [List.length_set]; exact ilt), ht1]
      have gj : (ts.set i (t.recomputeHash C) ++ [t.recomputeHash C])[w.trees.length]? = some (t.recomputeHash C) := by
        rw [inv.len]; simp
      have ri := run_refines C (later.map (onTree i)) inv'
      have rj := run_refines C (later.map (onTree w.trees.length)) inv'
      have vi := valueRun_onTree C i later gi
      have vj := valueRun_onTree C w.trees.length later gj
      change match valueRun C _ (later.map (onTree i)) with | none => _ | some ts' => _ at vi
      change match valueRun C _ (later.map (onTree w.trees.length)) with | none => _ | some ts' => _ at vj
      revert ri rj vi vj
      cases valueRun C (ts.set i (t.recomputeHash C) ++ [t.recomputeHash C]) (later.map (onTree i)) with
      | none => intro ri; rw [ri] at hi; exact (nomatch hi)
      | some tsi =>
        cases valueRun C (ts.set i (t.recomputeHash C) ++ [t.recomputeHash C]) (later.map (onTree w.trees.length)) with
        | none => intro ri rj; rw [rj] at hj; exact (nomatch hj)
        | some tsj =>
          intro ri rj vi vj
          obtain ⟨wi', fi, ei, invi⟩ := ri
          obtain ⟨wj', fj, ej, invj⟩ := rj
          rw [hi] at ei; cases ei
          rw [hj] at ej; cases ej
          simp only at vi vj
          exact ⟨fun idx => by rw [get_refines invj, get_refines invi, vi, vj],
            by rw [hash_refines invj, hash_refines invi, vi, vj]⟩

/-- C17. The restriction to up-to-date hashes is needed: `clone` turns a missing cached hash into an empty one, so `recomputeHash` on a
clone of a new tree gives the digest of two empty strings, whatever the nonce. -/
theorem C17_stale_clone (C : Crypto) (rnd : Bytes) (w : HWorld)
    (h : emptyWorld.run C [.new (some rnd), .clone 0, .recompute 1] = some w) : w.hash 1 = some (C.digest [[], []]) := by
  have r := run_refines C [.new (some rnd), .clone 0, .recompute 1] emptyWorld_inv
  cases hr : C.makeRand (some rnd) with
  | none => simp [HWorld.run, HWorld.step, hr, emptyWorld] at h
  | some n =>
    have : valueRun C [] [.new (some rnd), .clone 0, .recompute 1] =
        some [⟨n, newInterior 0 [], []⟩, (⟨n, (newInterior 0 []).clone, []⟩ : MerkleTree).recomputeHash C] := by
      simp [valueRun, valueStep, newMerkleTree, hr, MerkleTree.clone]
    rw [this] at r
    obtain ⟨w', fps, e, inv⟩ := r
    rw [h] at e; cases e
    rw [hash_refines inv]
    rfl

/- A concrete run meets the hypotheses: a tree with two entries, a clone of it, and then a change to the original only. The clone
still answers as before, the original does not. -/
example : ((emptyWorld.run Crypto.toy [.new (some [7]), .set 0 (some [1]) [0x80] [1] [2], .set 0 (some [2]) [0xC0] [3] [4],
      .recompute 0, .clone 0]).bind fun w =>
    (w.run Crypto.toy [.set 0 (some [3]) [0x80] [1] [9], .recompute 0]).map fun w' =>
      decide (1 < w.trees.length) && decide (w'.get 1 [0x80] = w.get 1 [0x80]) && decide (w'.get 0 [0x80] ≠ w.get 0 [0x80]) &&
      decide (w'.hash 1 = w.hash 1) && decide (w'.hash 0 ≠ w.hash 0)) = some true := by
  decide +kernel

end Coniks.Props

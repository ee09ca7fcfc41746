import Verif.Spec.Heap
import Mathlib.Data.List.Perm.Subperm
/-
The pointer-level operations compute what the value-level operations of `Model/Tree.lean` compute, and write only to the nodes of the
tree they are called on and to fresh memory.
-/
namespace Coniks

/-- The memory contains the tree `t` at address `a`, with parent pointer `par`; `fp` are the addresses of its nodes, all different. -/
def Repr (h : Heap) : Node → Option Nat → Nat → List Nat → Prop
  | .empty lv ix, par, a, fp => h[a]? = some (.empty par lv ix) ∧ fp = [a]
  | .leaf l, par, a, fp => h[a]? = some (.leaf par l) ∧ fp = [a]
  | .interior lv lh rh l r, par, a, fp => ∃ la ra fl fr,
      h[a]? = some (.interior par lv lh rh (some la) (some ra)) ∧ Repr h l (some a) la fl ∧ Repr h r (some a) ra fr ∧
      fp = a :: (fl ++ fr) ∧ a ∉ fl ∧ a ∉ fr ∧ ∀ x ∈ fl, x ∉ fr

/-- number of nodes -/
def Node.size : Node → Nat
  | .empty .. => 1
  | .leaf _ => 1
  | .interior _ _ _ l r => 1 + l.size + r.size

theorem Repr.root_mem {h : Heap} {t : Node} {par a fp} (r : Repr h t par a fp) : a ∈ fp := by
  cases t <;> simp only [Repr] at r
  · rw [r.2]; exact List.mem_singleton_self _
  · rw [r.2]; exact List.mem_singleton_self _
  · obtain ⟨_, _, _, _, _, _, _, e, _⟩ := r
    rw [e]; exact List.mem_cons_self

theorem Repr.lt {h : Heap} : ∀ {t : Node} {par a fp}, Repr h t par a fp → ∀ x ∈ fp, x < h.length
  | .empty .., _, a, _, r, x, hx => by
    simp only [Repr] at r
    rw [r.2, List.mem_singleton] at hx
    subst hx
    exact (List.getElem?_eq_some_iff.mp r.1).1
  | .leaf _, _, a, _, r, x, hx => by
    simp only [Repr] at r
    rw [r.2, List.mem_singleton] at hx
    subst hx
    exact (List.getElem?_eq_some_iff.mp r.1).1
  | .interior .., _, a, _, r, x, hx => by
    simp only [Repr] at r
    obtain ⟨la, ra, fl, fr, e, rl, rr, ef, _⟩ := r
    rw [ef, List.mem_cons, List.mem_append] at hx
    rcases hx with rfl | hx | hx
    · exact (List.getElem?_eq_some_iff.mp e).1
    · exact Repr.lt rl x hx
    · exact Repr.lt rr x hx

theorem Repr.frame {h h' : Heap} : ∀ {t : Node} {par a fp}, Repr h t par a fp → (∀ x ∈ fp, h'[x]? = h[x]?) → Repr h' t par a fp
  | .empty .., _, a, _, r, hf => by
    have m := r.root_mem
    simp only [Repr] at r ⊢
    exact ⟨by rw [hf _ m]; exact r.1, r.2⟩
  | .leaf _, _, a, _, r, hf => by
    have m := r.root_mem
    simp only [Repr] at r ⊢
    exact ⟨by rw [hf _ m]; exact r.1, r.2⟩
  | .interior .., _, a, _, r, hf => by
    have m := r.root_mem
    simp only [Repr] at r ⊢
    obtain ⟨la, ra, fl, fr, e, rl, rr, ef, d1, d2, d3⟩ := r
    refine ⟨la, ra, fl, fr, by rw [hf _ m]; exact e, rl.frame fun x hx => hf x ?_, rr.frame fun x hx => hf x ?_, ef, d1, d2, d3⟩
    · rw [ef]; simp [hx]
    · rw [ef]; simp [hx]

theorem Repr.size_eq {h : Heap} : ∀ {t : Node} {par a fp}, Repr h t par a fp → fp.length = t.size
  | .empty .., _, _, _, r => by simp only [Repr] at r; rw [r.2]; rfl
  | .leaf _, _, _, _, r => by simp only [Repr] at r; rw [r.2]; rfl
  | .interior .., _, _, _, r => by
    simp only [Repr] at r
    obtain ⟨la, ra, fl, fr, e, rl, rr, ef, _⟩ := r
    rw [ef]
    simp only [List.length_cons, List.length_append, Node.size, rl.size_eq, rr.size_eq]
    omega

theorem Repr.nodup {h : Heap} : ∀ {t : Node} {par a fp}, Repr h t par a fp → fp.Nodup
  | .empty .., _, _, _, r => by simp only [Repr] at r; rw [r.2]; simp
  | .leaf _, _, _, _, r => by simp only [Repr] at r; rw [r.2]; simp
  | .interior .., _, _, _, r => by
    simp only [Repr] at r
    obtain ⟨la, ra, fl, fr, e, rl, rr, ef, d1, d2, d3⟩ := r
    rw [ef, List.nodup_cons, List.nodup_append]
    refine ⟨by simp [d1, d2], rl.nodup, rr.nodup, ?_⟩
    intro x hx y hy e
    subst e
    exact d3 x hx hy

theorem Repr.size_le {h : Heap} {t : Node} {par a fp} (r : Repr h t par a fp) : t.size ≤ h.length := by
  rw [← r.size_eq, ← List.length_range (n := h.length)]
  exact (List.subperm_of_subset r.nodup fun x hx => List.mem_range.mpr (r.lt x hx)).length_le

/-- `newInteriorNode` -/
theorem newInterior_repr (h : Heap) (par : Option Nat) (lv : Nat) (pb : List Bool) :
    Repr (h.newInterior par lv pb).1 (newInterior lv pb) par (h.length + 2) [h.length + 2, h.length, h.length + 1] ∧
    ∀ x < h.length, (h.newInterior par lv pb).1[x]? = h[x]? := by
  constructor
  · simp only [newInterior, Heap.newInterior, Repr]
    refine ⟨h.length, h.length + 1, [h.length], [h.length + 1], ?_, ⟨?_, rfl⟩, ⟨?_, rfl⟩, rfl, ?_, ?_, ?_⟩
    · rw [List.getElem?_append_right (by omega)]; simp
    · rw [List.getElem?_append_right (by omega)]; simp
    · rw [List.getElem?_append_right (by omega)]; simp
    · simp
    · simp
    · simp
  · intro x hx
    simp only [Heap.newInterior]
    rw [List.getElem?_append_left hx]

/-- `clone` -/
theorem clone_repr : ∀ (t : Node) (fuel : Nat) (h : Heap) (par0 par : Option Nat) (a : Nat) (fp : List Nat), Repr h t par0 a fp →
    t.size ≤ fuel → ∃ a' h' fp', Heap.clone fuel h par a = some (a', h') ∧ Repr h' t.clone par a' fp' ∧
      (∀ x < h.length, h'[x]? = h[x]?) ∧ (∀ x ∈ fp', h.length ≤ x) ∧ h.length < h'.length
  | .empty lv ix, 0, _, _, _, _, _, _, hs => by simp [Node.size] at hs
  | .empty lv ix, fuel + 1, h, par0, par, a, fp, r, hs => by
    simp only [Repr] at r
    refine ⟨h.length, h ++ [.empty par lv ix], [h.length], by simp only [Heap.clone, r.1], ?_, ?_, by simp, by simp⟩
    · simp [Node.clone, Repr]
    · intro x hx; rw [List.getElem?_append_left hx]
  | .leaf l, 0, _, _, _, _, _, _, hs => by simp [Node.size] at hs
  | .leaf l, fuel + 1, h, par0, par, a, fp, r, hs => by
    simp only [Repr] at r
    refine ⟨h.length, h ++ [.leaf par l], [h.length], by simp only [Heap.clone, r.1], ?_, ?_, by simp, by simp⟩
    · simp [Node.clone, Repr]
    · intro x hx; rw [List.getElem?_append_left hx]
  | .interior lv lh rh l rt, 0, _, _, _, _, _, _, hs => by simp only [Node.size] at hs; omega
  | .interior lv lh rh l rt, fuel + 1, h, par0, par, a, fp, rp, hs => by
    have hlt := rp.lt
    simp only [Repr] at rp
    obtain ⟨la, ra, fl, fr, e, rl, rr, ef, d1, d2, d3⟩ := rp
    simp only [Node.size] at hs
    have h1 : ∀ c : Cell, ∀ x < h.length, (h ++ [c])[x]? = h[x]? := fun c x hx => List.getElem?_append_left hx
    obtain ⟨l', h2, fl', el, rl', frl, gel, lenl⟩ := clone_repr l fuel
      (h ++ [.interior par lv (some (lh.getD [])) (some (rh.getD [])) none none]) (some a) (some h.length) la fl
      (rl.frame fun x hx => h1 _ x (rl.lt x hx)) (by omega)
    simp only [List.length_append, List.length_singleton] at frl gel lenl
    have hset : ∀ c : Cell, ∀ x, x ≠ h.length → (h2.set h.length c)[x]? = h2[x]? := fun c x hx => by
      rw [List.getElem?_set_ne (Ne.symm hx)]
    obtain ⟨r', h4, fr', er, rr', frr, ger, lenr⟩ := clone_repr rt fuel
      (h2.set h.length (.interior par lv (some (lh.getD [])) (some (rh.getD [])) (some l') none)) (some a) (some h.length) ra fr
      (rr.frame fun x hx => by
        have := rr.lt x hx
        rw [hset _ x (by omega), frl x (by omega), h1 _ x this]) (by omega)
    simp only [List.length_set] at frr ger lenr
    refine ⟨h.length, h4.set h.length (.interior par lv (some (lh.getD [])) (some (rh.getD [])) (some l') (some r')),
      h.length :: (fl' ++ fr'), ?_, ?_, ?_, ?_, ?_⟩
    · simp only [Heap.clone, e, Option.bind_eq_bind, Option.bind_some, el, er]
    · simp only [Node.clone, Repr]
      refine ⟨l', r', fl', fr', ?_, rl'.frame fun x hx => ?_, rr'.frame fun x hx => ?_, rfl, ?_, ?_, ?_⟩
      · rw [List.getElem?_set_self (by omega)]
      · have a1 := gel x hx
        have a2 := rl'.lt x hx
        rw [List.getElem?_set_ne (by omega), frr x a2, hset _ x (by omega)]
      · have a1 := ger x hx
        rw [List.getElem?_set_ne (by omega)]
      · intro hx; have := gel _ hx; omega
      · intro hx; have := ger _ hx; omega
      · intro x hx hy; have := rl'.lt x hx; have := ger x hy; omega
    · intro x hx
      rw [List.getElem?_set_ne (by omega), frr x (by omega), hset _ x (by omega), frl x (by omega), h1 _ x hx]
    · intro x hx
      simp only [List.mem_cons, List.mem_append] at hx
      rcases hx with rfl | hx | hx
      · exact Nat.le_refl _
      · have := gel x hx; omega
      · have := ger x hx; omega
    · rw [List.length_set]; omega

/-- `hash` -/
theorem hash_repr (C : Crypto) (nonce : Bytes) : ∀ (t : Node) (fuel : Nat) (h : Heap) (par : Option Nat) (a : Nat) (fp : List Nat),
    Repr h t par a fp → t.size ≤ fuel → ∃ h', Heap.hashNode C nonce fuel h a = some ((t.hashNode C nonce).1, h') ∧
      Repr h' (t.hashNode C nonce).2 par a fp ∧ (∀ x, x ∉ fp → h'[x]? = h[x]?) ∧ h'.length = h.length
  | .empty lv ix, 0, _, _, _, _, _, hs => by simp [Node.size] at hs
  | .empty lv ix, fuel + 1, h, par, a, fp, r, hs => by
    have r' := r
    simp only [Repr] at r
    exact ⟨h, by simp only [Heap.hashNode, r.1, Node.hashNode], r', fun _ _ => rfl, rfl⟩
  | .leaf l, 0, _, _, _, _, _, hs => by simp [Node.size] at hs
  | .leaf l, fuel + 1, h, par, a, fp, r, hs => by
    have r' := r
    simp only [Repr] at r
    exact ⟨h, by simp only [Heap.hashNode, r.1, Node.hashNode], r', fun _ _ => rfl, rfl⟩
  | .interior lv lh rh l rt, 0, _, _, _, _, _, hs => by simp only [Node.size] at hs; omega
  | .interior lv lh rh l rt, fuel + 1, h, par, a, fp, rp, hs => by
    have hlt := rp.lt a rp.root_mem
    simp only [Repr] at rp
    obtain ⟨la, ra, fl, fr, e, rl, rr, ef, d1, d2, d3⟩ := rp
    simp only [Node.size] at hs
    -- the left half
    have left : ∃ h1, (match lh with
        | some x => some (x, h)
        | none => do
          let (x, h) ← Heap.hashNode C nonce fuel h la
          some (x, h.set a (.interior par lv (some x) rh (some la) (some ra)))) =
          some ((match lh with | some x => (x, l) | none => l.hashNode C nonce).1, h1) ∧
        h1[a]? = some (.interior par lv (some (match lh with | some x => (x, l) | none => l.hashNode C nonce).1) rh (some la) (some ra)) ∧
        Repr h1 (match lh with | some x => (x, l) | none => l.hashNode C nonce).2 (some a) la fl ∧
        (∀ x, x ∉ fl → x ≠ a → h1[x]? = h[x]?) ∧ h1.length = h.length := by
      cases lh with
      | some x => exact ⟨h, rfl, e, rl, fun _ _ _ => rfl, rfl⟩
      | none =>
        obtain ⟨h', eh, rh', fh, lenh⟩ := hash_repr C nonce l fuel h (some a) la fl rl (by omega)
        refine ⟨h'.set a (.interior par lv (some (l.hashNode C nonce).1) rh (some la) (some ra)),
          by simp only [eh, Option.bind_eq_bind, Option.bind_some], ?_, ?_, ?_, ?_⟩
        · rw [List.getElem?_set_self (by omega)]
        · refine rh'.frame fun x hx => ?_
          rw [List.getElem?_set_ne (fun e : a = x => d1 (by rw [e]; exact hx))]
        · intro x hx hxa
          rw [List.getElem?_set_ne (Ne.symm hxa), fh x hx]
        · rw [List.length_set, lenh]
    obtain ⟨h1, e1, c1, rl1, f1, len1⟩ := left
    generalize hL : (match lh with | some x => (x, l) | none => l.hashNode C nonce) = LR at *
    have rr1 : Repr h1 rt (some a) ra fr := rr.frame fun x hx => f1 x (fun hl => d3 x hl hx) (fun e => d2 (e ▸ hx))
    have right : ∃ h2, (match rh with
        | some x => some (x, h1)
        | none => do
          let (x, h) ← Heap.hashNode C nonce fuel h1 ra
          some (x, h.set a (.interior par lv (some LR.1) (some x) (some la) (some ra)))) =
          some ((match rh with | some x => (x, rt) | none => rt.hashNode C nonce).1, h2) ∧
        h2[a]? = some (.interior par lv (some LR.1) (some (match rh with | some x => (x, rt) | none => rt.hashNode C nonce).1)
          (some la) (some ra)) ∧
        Repr h2 (match rh with | some x => (x, rt) | none => rt.hashNode C nonce).2 (some a) ra fr ∧
        (∀ x, x ∉ fr → x ≠ a → h2[x]? = h1[x]?) ∧ h2.length = h1.length := by
      cases rh with
      | some x => exact ⟨h1, rfl, c1, rr1, fun _ _ _ => rfl, rfl⟩
      | none =>
        obtain ⟨h', eh, rh', fh, lenh⟩ := hash_repr C nonce rt fuel h1 (some a) ra fr rr1 (by omega)
        refine ⟨h'.set a (.interior par lv (some LR.1) (some (rt.hashNode C nonce).1) (some la) (some ra)),
          by simp only [eh, Option.bind_eq_bind, Option.bind_some], ?_, ?_, ?_, ?_⟩
        · rw [List.getElem?_set_self (by omega)]
        · refine rh'.frame fun x hx => ?_
          rw [List.getElem?_set_ne (fun e : a = x => d2 (by rw [e]; exact hx))]
        · intro x hx hxa
          rw [List.getElem?_set_ne (Ne.symm hxa), fh x hx]
        · rw [List.length_set, lenh]
    obtain ⟨h2, e2, c2, rr2, f2, len2⟩ := right
    generalize hR : (match rh with | some x => (x, rt) | none => rt.hashNode C nonce) = RR at *
    have hval : (Node.interior lv lh rh l rt).hashNode C nonce =
        (C.digest [LR.1, RR.1], .interior lv (some LR.1) (some RR.1) LR.2 RR.2) := by
      rw [← hL, ← hR]; cases lh <;> cases rh <;> rfl
    rw [hval]
    refine ⟨h2, ?_, ?_, ?_, by omega⟩
    · cases lh with
      | some x =>
        simp only [Option.some.injEq, Prod.mk.injEq] at e1
        obtain ⟨e1, e1'⟩ := e1
        subst e1'
        cases rh with
        | some y =>
          simp only [Option.some.injEq, Prod.mk.injEq] at e2
          rw [← e1, ← e2.1, ← e2.2]
          simp only [Heap.hashNode, e, Option.bind_eq_bind, Option.bind_some]
        | none =>
          cases hq : Heap.hashNode C nonce fuel h ra with
          | none => rw [hq] at e2; exact (nomatch e2)
          | some q =>
            rw [hq] at e2
            simp only [Option.bind_eq_bind, Option.bind_some, Option.some.injEq, Prod.mk.injEq] at e2
            rw [← e2.1, ← e2.2, ← e1]
            simp only [Heap.hashNode, e, Option.bind_eq_bind, Option.bind_some, hq]
      | none =>
        cases hp : Heap.hashNode C nonce fuel h la with
        | none => rw [hp] at e1; exact (nomatch e1)
        | some q1 =>
          rw [hp] at e1
          simp only [Option.bind_eq_bind, Option.bind_some, Option.some.injEq, Prod.mk.injEq] at e1
          cases rh with
          | some y =>
            simp only [Option.some.injEq, Prod.mk.injEq] at e2
            rw [← e2.1, ← e2.2, ← e1.2, ← e1.1]
            simp only [Heap.hashNode, e, Option.bind_eq_bind, Option.bind_some, hp]
          | none =>
            cases hq : Heap.hashNode C nonce fuel h1 ra with
            | none => rw [hq] at e2; exact (nomatch e2)
            | some q =>
              rw [hq] at e2
              simp only [Option.bind_eq_bind, Option.bind_some, Option.some.injEq, Prod.mk.injEq] at e2
              obtain ⟨e1a, e1b⟩ := e1
              rw [← e1b] at hq
              rw [← e2.1, ← e2.2, ← e1a]
              simp only [Heap.hashNode, e, Option.bind_eq_bind, Option.bind_some, hp, hq]
    · simp only [Repr]
      exact ⟨la, ra, fl, fr, c2, rl1.frame fun x hx => f2 x (d3 x hx) (fun e => d1 (e ▸ hx)), rr2, ef, d1, d2, d3⟩
    · intro x hx
      rw [ef] at hx
      simp only [List.mem_cons, List.mem_append, not_or] at hx
      rw [f2 x hx.2.2 hx.1, f1 x hx.2.1 hx.1]

/-- What the loop of `insertNode` does at an interior node. -/
def InsOK (bits : List Bool) (ta depth : Nat) : Prop :=
  ∀ (h : Heap) (t : Node) (par : Option Nat) (a : Nat) (fp : List Nat) (fuel : Nat) (pa : Option Nat) (add : Leaf),
    (∃ lv lh rh l r, t = .interior lv lh rh l r) → Repr h t par a fp → h[ta]? = some (.leaf pa add) → ta ∉ fp →
    2 * (bits.length - depth) + 1 ≤ fuel →
    match insertAt bits add depth t with
    | none => Heap.insertLoop bits ta fuel h depth a = none
    | some t' => ∃ h' fp', Heap.insertLoop bits ta fuel h depth a = some h' ∧ Repr h' t' par a fp' ∧
        (∀ x < h.length, x ∉ fp → x ≠ ta → h'[x]? = h[x]?) ∧ (∀ x ∈ fp', x ∈ fp ∨ x = ta ∨ h.length ≤ x) ∧
        h.length ≤ h'.length

/-- The loop at a non-empty child of the node at `a`, whose cell is `mk` of the pointer to the child. -/
theorem insert_child (bits : List Bool) (ta depth : Nat) (IH : InsOK bits ta depth) (h : Heap) (c : Node) (ca : Nat) (fc : List Nat)
    (a : Nat) (mk : Nat → Cell) (rc : Repr h c (some a) ca fc) (hne : c.isEmpty = false) (ha : h[a]? = some (mk ca)) (hac : a ∉ fc)
    (hat : a ≠ ta) (htc : ta ∉ fc) (pa : Option Nat) (add : Leaf) (hta : h[ta]? = some (.leaf pa add)) (hd : depth ≤ bits.length)
    (fuel : Nat) (hf : 2 * (bits.length - depth) + 2 ≤ fuel)
    (hmk : ∃ pp pl plh prh pleft pright, mk ca = .interior pp pl plh prh pleft pright ∧
      ∀ new, (if pleft = some ca then Cell.interior pp pl plh prh (some new) pright
        else Cell.interior pp pl plh prh pleft (some new)) = mk new) :
    match insertAt bits add depth c with
    | none => Heap.insertLoop bits ta fuel h depth ca = none
    | some c' => ∃ h' ca' fc', Heap.insertLoop bits ta fuel h depth ca = some h' ∧ Repr h' c' (some a) ca' fc' ∧
        h'[a]? = some (mk ca') ∧ (∀ x < h.length, x ∉ fc → x ≠ ta → x ≠ a → h'[x]? = h[x]?) ∧
        (∀ x ∈ fc', x ∈ fc ∨ x = ta ∨ h.length ≤ x) ∧ h.length ≤ h'.length := by
  have alt : a < h.length := (List.getElem?_eq_some_iff.mp ha).1
  have talt : ta < h.length := (List.getElem?_eq_some_iff.mp hta).1
  cases c with
  | empty lv ix => exact (nomatch hne)
  | interior lv lh rh l r =>
    have := IH h _ (some a) ca fc fuel pa add ⟨_, _, _, _, _, rfl⟩ rc hta htc (by omega)
    cases hi : insertAt bits add depth (.interior lv lh rh l r) with
    | none => rw [hi] at this; exact this
    | some t' =>
      rw [hi] at this
      obtain ⟨h', fp', e, r', fr, mem, len⟩ := this
      exact ⟨h', ca, fp', e, r', by rw [fr a alt hac hat, ha], fun x hx h1 h2 _ => fr x hx h1 h2, mem, len⟩
  | leaf cur =>
    obtain ⟨fuel, rfl⟩ : ∃ k, fuel = k + 1 := ⟨fuel - 1, by omega⟩
    obtain ⟨rc1, rc2⟩ := rc
    subst rc2
    have calt : ca < h.length := (List.getElem?_eq_some_iff.mp rc1).1
    simp only [List.mem_singleton] at hac htc
    unfold insertAt Heap.insertLoop
    simp only [hta, rc1]
    by_cases hidx : cur.index = add.index
    · simp only [hidx, if_true]
      refine ⟨_, ca, [ca], rfl, ?_, ?_, ?_, by simp, by simp⟩
      · simp only [Repr, and_true]
        rw [List.getElem?_set_self (by rw [List.length_set]; exact calt)]
      · rw [List.getElem?_set_ne (Ne.symm hac), List.getElem?_set_ne (Ne.symm hat), ha]
      · intro x hx h1 h2 h3
        simp only [List.mem_singleton] at h1
        rw [List.getElem?_set_ne (Ne.symm h1), List.getElem?_set_ne (Ne.symm h2)]
    · simp only [hidx, if_false, hd, if_true]
      cases hg : getNthBit cur.index depth with
      | none => rfl
      | some dir =>
        simp only
        obtain ⟨rn, fn⟩ := newInterior_repr h (some a) depth (bits.take depth)
        have hl2 : (h.newInterior (some a) depth (bits.take depth)).1.length = h.length + 3 := by simp [Heap.newInterior]
        have hn2 : (h.newInterior (some a) depth (bits.take depth)).2 = h.length + 2 := rfl
        simp only [newInterior, Repr] at rn
        obtain ⟨la, ra, fl, fr, nc, ⟨nl, rfl⟩, ⟨nr, rfl⟩, efp, _⟩ := rn
        simp only [List.cons_append, List.nil_append, List.cons.injEq, true_and, and_true] at efp
        obtain ⟨rfl, rfl⟩ := efp
        generalize (h.newInterior (some a) depth (bits.take depth)) = p at *
        obtain ⟨h2, new⟩ := p
        simp only at nc nl nr fn hl2 hn2
        subst hn2
        simp only
        obtain ⟨pp, pl, plh, prh, pleft, pright, emk, hnew⟩ := hmk
        have e4 : ∀ c1 c2, ((h2.set (h.length + 2) c1).set ca c2)[a]? = some (mk ca) := by
          intro c1 c2
          rw [List.getElem?_set_ne (Ne.symm hac), List.getElem?_set_ne (by omega), fn a alt, ha]
        rw [e4, emk]
        simp only
        rw [hnew (h.length + 2)]
        -- the memory after the new node is linked in
        generalize h5 : ((h2.set (h.length + 2) (if dir = true then
            Cell.interior (some a) depth none none (some (h.length + 2 - 2)) (some ca)
            else Cell.interior (some a) depth none none (some ca) (some (h.length + 2 - 1)))).set ca
              (.leaf (some (h.length + 2)) { cur with level := depth + 1 })).set a (mk (h.length + 2)) = H5
        have len5 : H5.length = h.length + 3 := by rw [← h5]; simp [hl2]
        have ga : H5[a]? = some (mk (h.length + 2)) := by
          rw [← h5, List.getElem?_set_self]
          simp only [List.length_set]; omega
        have gc : H5[ca]? = some (.leaf (some (h.length + 2)) { cur with level := depth + 1 }) := by
          rw [← h5, List.getElem?_set_ne hac, List.getElem?_set_self]
          simp only [List.length_set]; omega
        have gn : H5[h.length + 2]? = some (if dir = true then
            Cell.interior (some a) depth none none (some h.length) (some ca)
            else Cell.interior (some a) depth none none (some ca) (some (h.length + 1))) := by
          rw [← h5, List.getElem?_set_ne (by omega), List.getElem?_set_ne (by omega), List.getElem?_set_self]
          · simp
          · omega
        have go : ∀ x, x ≠ a → x ≠ ca → x ≠ h.length + 2 → H5[x]? = h2[x]? := by
          intro x h1 h2 h3
          rw [← h5, List.getElem?_set_ne (Ne.symm h1), List.getElem?_set_ne (Ne.symm h2), List.getElem?_set_ne (Ne.symm h3)]
        have gta : H5[ta]? = some (.leaf pa add) := by
          rw [go ta (Ne.symm hat) htc (by omega), fn ta talt, hta]
        have rp : ∃ fp5, Repr H5 (pushDown depth (bits.take depth) dir cur) (some a) (h.length + 2) fp5 ∧ ta ∉ fp5 ∧
            a ∉ fp5 ∧ (∀ x ∈ fp5, x = ca ∨ h.length ≤ x) := by
          cases dir with
          | true =>
            refine ⟨[h.length + 2, h.length, ca], ?_, ?_, ?_, ?_⟩
            · simp only [pushDown, if_true, Repr]
              refine ⟨h.length, ca, [h.length], [ca], by rw [gn]; rfl, ⟨?_, rfl⟩, ⟨gc, rfl⟩, rfl, by simp, by simp; omega,
                by simp; omega⟩
              rw [go _ (by omega) (by omega) (by omega)]; exact nl
            · simp only [List.mem_cons, List.not_mem_nil, or_false]; omega
            · simp only [List.mem_cons, List.not_mem_nil, or_false]; omega
            · simp only [List.mem_cons, List.not_mem_nil, or_false]; intro x hx; omega
          | false =>
            refine ⟨[h.length + 2, ca, h.length + 1], ?_, ?_, ?_, ?_⟩
            · simp only [pushDown, Bool.false_eq_true, if_false, Repr]
              refine ⟨ca, h.length + 1, [ca], [h.length + 1], by rw [gn]; rfl, ⟨gc, rfl⟩, ⟨?_, rfl⟩, rfl, by simp; omega, by simp,
                by simp; omega⟩
              rw [go _ (by omega) (by omega) (by omega)]; exact nr
            · simp only [List.mem_cons, List.not_mem_nil, or_false]; omega
            · simp only [List.mem_cons, List.not_mem_nil, or_false]; omega
            · simp only [List.mem_cons, List.not_mem_nil, or_false]; intro x hx; omega
        obtain ⟨fp5, rp, t5, a5, m5⟩ := rp
        have hint : ∃ lv lh rh l r, pushDown depth (bits.take depth) dir cur = .interior lv lh rh l r := by
          cases dir <;> exact ⟨_, _, _, _, _, rfl⟩
        have := IH H5 _ (some a) (h.length + 2) fp5 fuel pa add hint rp gta t5 (by omega)
        cases hi : insertAt bits add depth (pushDown depth (bits.take depth) dir cur) with
        | none => rw [hi] at this; exact this
        | some t' =>
          rw [hi] at this
          obtain ⟨h', fp', e, r', fr, mem, len⟩ := this
          refine ⟨h', h.length + 2, fp', e, r', ?_, ?_, ?_, by omega⟩
          · rw [fr a (by omega) a5 hat, ga]
          · intro x hx h1 h2' h3
            simp only [List.mem_singleton] at h1
            have hx5 : x ∉ fp5 := fun hm => by rcases m5 x hm with g | g <;> omega
            rw [fr x (by omega) hx5 h2', go x h3 h1 (by omega), fn x hx]
          · intro x hx
            rcases mem x hx with g | g | g
            · rcases m5 x g with g | g
              · left; simp [g]
              · right; right; exact g
            · right; left; exact g
            · right; right; omega

theorem isEmpty_repr {h : Heap} {t : Node} {par a fp} (r : Repr h t par a fp) : h.isEmpty (some a) = some t.isEmpty := by
  cases t <;> simp only [Repr] at r
  · simp only [Heap.isEmpty, r.1, Node.isEmpty]
  · simp only [Heap.isEmpty, r.1, Node.isEmpty]
  · obtain ⟨_, _, _, _, e, _⟩ := r
    simp only [Heap.isEmpty, e, Node.isEmpty]

theorem insertAt_true {bits : List Bool} {add : Leaf} {depth lv : Nat} {lh rh : Option Bytes} {l r : Node}
    (hb : bits[depth]? = some true) : insertAt bits add depth (.interior lv lh rh l r) =
      if r.isEmpty then some (.interior lv lh none l (.leaf { add with level := depth + 1 }))
      else (insertAt bits add (depth + 1) r).map fun r' => .interior lv lh none l r' := by
  conv_lhs => unfold insertAt
  split
  · rename_i h1; rw [hb] at h1; exact (nomatch h1)
  · rfl
  · rename_i h1; rw [hb] at h1; exact (nomatch h1)

theorem insertAt_false {bits : List Bool} {add : Leaf} {depth lv : Nat} {lh rh : Option Bytes} {l r : Node}
    (hb : bits[depth]? = some false) : insertAt bits add depth (.interior lv lh rh l r) =
      if l.isEmpty then some (.interior lv none rh (.leaf { add with level := depth + 1 }) r)
      else (insertAt bits add (depth + 1) l).map fun l' => .interior lv none rh l' r := by
  conv_lhs => unfold insertAt
  split
  · rename_i h1; rw [hb] at h1; exact (nomatch h1)
  · rename_i h1; rw [hb] at h1; exact (nomatch h1)
  · rfl

theorem insert_repr (bits : List Bool) (ta : Nat) : ∀ n depth, bits.length - depth = n → InsOK bits ta depth := by
  intro n
  induction n with
  | zero =>
    intro depth hn h t par a fp fuel pa add ⟨lv, lh, rh, l, r, ht⟩ rp hta htf hf
    subst ht
    have hb : bits[depth]? = none := List.getElem?_eq_none_iff.mpr (by omega)
    obtain ⟨fuel, rfl⟩ : ∃ k, fuel = k + 1 := ⟨fuel - 1, by omega⟩
    simp only [Repr] at rp
    obtain ⟨la, ra, fl, fr, e, _⟩ := rp
    have : insertAt bits add depth (.interior lv lh rh l r) = none := by
      unfold insertAt; split <;> simp_all
    rw [this]
    simp only [Heap.insertLoop, hta, e, hb]
  | succ n ih =>
    intro depth hn h t par a fp fuel pa add ⟨lv, lh, rh, l, r, ht⟩ rp hta htf hf
    subst ht
    have IH : InsOK bits ta (depth + 1) := ih (depth + 1) (by omega)
    obtain ⟨fuel, rfl⟩ : ∃ k, fuel = k + 1 := ⟨fuel - 1, by omega⟩
    have alt := rp.lt a rp.root_mem
    have taa : a ≠ ta := fun e => htf (e ▸ rp.root_mem)
    have talt : ta < h.length := (List.getElem?_eq_some_iff.mp hta).1
    simp only [Repr] at rp
    obtain ⟨la, ra, fl, fr, e, rl, rr, ef, d1, d2, d3⟩ := rp
    have htl : ta ∉ fl := fun hm => htf (by rw [ef]; simp [hm])
    have htr : ta ∉ fr := fun hm => htf (by rw [ef]; simp [hm])
    have hlr : la ≠ ra := fun e => d3 la rl.root_mem (e ▸ rr.root_mem)
    have hfr : ∀ (c : Cell) (x : Nat), x ≠ a → (h.set a c)[x]? = h[x]? := fun c x hx => List.getElem?_set_ne (Ne.symm hx)
    obtain ⟨b, hb⟩ : ∃ b, bits[depth]? = some b := ⟨_, List.getElem?_eq_getElem (by omega)⟩
    cases b with
    | true =>
      · rw [insertAt_true hb]
        unfold Heap.insertLoop
        simp only [hta, e, hb, isEmpty_repr rr]
        cases hre : r.isEmpty with
        | true =>
          simp only [if_true]
          refine ⟨_, a :: (fl ++ [ta]), rfl, ?_, ?_, ?_, by simp⟩
          · simp only [Repr]
            refine ⟨la, ta, fl, [ta], ?_, rl.frame fun x hx => ?_, ⟨?_, rfl⟩, rfl, d1, by simp; exact taa, fun x hx => ?_⟩
            · rw [List.getElem?_set_ne (Ne.symm taa), List.getElem?_set_self alt]
            · rw [List.getElem?_set_ne (fun e : ta = x => htl (e ▸ hx)), hfr _ x (fun e => d1 (e ▸ hx))]
            · rw [List.getElem?_set_self (by simp; exact talt)]
            · simp only [List.mem_singleton]; exact fun e => htl (e ▸ hx)
          · intro x hx h1 h2
            rw [List.getElem?_set_ne (Ne.symm h2), hfr _ x (fun e' => h1 (by rw [ef]; simp [e']))]
          · intro x hx
            rw [ef]
            simp only [List.mem_cons, List.mem_append, List.not_mem_nil, or_false] at hx ⊢
            rcases hx with g | g | g
            · exact Or.inl (Or.inl g)
            · exact Or.inl (Or.inr (Or.inl g))
            · exact Or.inr (Or.inl g)
        | false =>
          simp only [Bool.false_eq_true, if_false]
          have := insert_child bits ta (depth + 1) IH (h.set a (.interior par lv lh none (some la) (some ra))) r ra fr a
            (fun x => .interior par lv lh none (some la) (some x))
            (rr.frame fun x hx => hfr _ x (fun e => d2 (e ▸ hx))) hre (List.getElem?_set_self alt) d2 taa htr pa add
            (by rw [hfr _ ta (Ne.symm taa)]; exact hta) (by omega) fuel (by omega)
            ⟨_, _, _, _, _, _, rfl, fun new => by simp [hlr]⟩
          cases hi : insertAt bits add (depth + 1) r with
          | none => rw [hi] at this; simpa using this
          | some t' =>
            rw [hi] at this
            obtain ⟨h', ra', fr', e', r', ha', f', m', len'⟩ := this
            simp only [Option.map_some]
            rw [List.length_set] at f' len' m'
            refine ⟨h', a :: (fl ++ fr'), e', ?_, ?_, ?_, len'⟩
            · simp only [Repr]
              refine ⟨la, ra', fl, fr', ha', rl.frame fun x hx => ?_, r', rfl, d1, fun hm => ?_, fun x hx hm => ?_⟩
              · rw [f' x (rl.lt x hx) (d3 x hx) (fun e => htl (e ▸ hx)) (fun e => d1 (e ▸ hx)), hfr _ x (fun e => d1 (e ▸ hx))]
              · rcases m' a hm with g | g | g
                · exact d2 g
                · exact taa g
                · omega
              · rcases m' x hm with g | g | g
                · exact d3 x hx g
                · exact htl (g ▸ hx)
                · have := rl.lt x hx; omega
            · intro x hx h1 h2
              have hxa : x ≠ a := fun e' => h1 (by rw [ef]; simp [e'])
              rw [f' x hx (fun hm => h1 (by rw [ef]; simp [hm])) h2 hxa, hfr _ x hxa]
            · intro x hx
              rw [ef]
              simp only [List.mem_cons, List.mem_append] at hx ⊢
              rcases hx with g | g | g
              · exact Or.inl (Or.inl g)
              · exact Or.inl (Or.inr (Or.inl g))
              · rcases m' x g with g | g | g
                · exact Or.inl (Or.inr (Or.inr g))
                · exact Or.inr (Or.inl g)
                · exact Or.inr (Or.inr g)
    | false =>
      · rw [insertAt_false hb]
        unfold Heap.insertLoop
        simp only [hta, e, hb, isEmpty_repr rl]
        cases hre : l.isEmpty with
        | true =>
          simp only [if_true]
          refine ⟨_, a :: ([ta] ++ fr), rfl, ?_, ?_, ?_, by simp⟩
          · simp only [Repr]
            refine ⟨ta, ra, [ta], fr, ?_, ⟨?_, rfl⟩, rr.frame fun x hx => ?_, rfl, by simp; exact taa, d2, fun x hx => ?_⟩
            · rw [List.getElem?_set_ne (Ne.symm taa), List.getElem?_set_self alt]
            · rw [List.getElem?_set_self (by simp; exact talt)]
            · rw [List.getElem?_set_ne (fun e : ta = x => htr (e ▸ hx)), hfr _ x (fun e => d2 (e ▸ hx))]
            · simp only [List.mem_singleton] at hx; rw [hx]; exact htr
          · intro x hx h1 h2
            rw [List.getElem?_set_ne (Ne.symm h2), hfr _ x (fun e' => h1 (by rw [ef]; simp [e']))]
          · intro x hx
            rw [ef]
            simp only [List.mem_cons, List.mem_append, List.not_mem_nil, or_false] at hx ⊢
            rcases hx with g | g | g
            · exact Or.inl (Or.inl g)
            · exact Or.inr (Or.inl g)
            · exact Or.inl (Or.inr (Or.inr g))
        | false =>
          simp only [Bool.false_eq_true, if_false]
          have := insert_child bits ta (depth + 1) IH (h.set a (.interior par lv none rh (some la) (some ra))) l la fl a
            (fun x => .interior par lv none rh (some x) (some ra))
            (rl.frame fun x hx => hfr _ x (fun e => d1 (e ▸ hx))) hre (List.getElem?_set_self alt) d1 taa htl pa add
            (by rw [hfr _ ta (Ne.symm taa)]; exact hta) (by omega) fuel (by omega)
            ⟨_, _, _, _, _, _, rfl, fun new => by simp⟩
          cases hi : insertAt bits add (depth + 1) l with
          | none => rw [hi] at this; simpa using this
          | some t' =>
            rw [hi] at this
            obtain ⟨h', la', fl', e', l', ha', f', m', len'⟩ := this
            simp only [Option.map_some]
            rw [List.length_set] at f' len' m'
            refine ⟨h', a :: (fl' ++ fr), e', ?_, ?_, ?_, len'⟩
            · simp only [Repr]
              refine ⟨la', ra, fl', fr, ha', l', rr.frame fun x hx => ?_, rfl, fun hm => ?_, d2, fun x hm hx => ?_⟩
              · rw [f' x (rr.lt x hx) (fun hl => d3 x hl hx) (fun e => htr (e ▸ hx)) (fun e => d2 (e ▸ hx)),
                  hfr _ x (fun e => d2 (e ▸ hx))]
              · rcases m' a hm with g | g | g
                · exact d1 g
                · exact taa g
                · omega
              · rcases m' x hm with g | g | g
                · exact d3 x g hx
                · exact htr (g ▸ hx)
                · have := rr.lt x hx; omega
            · intro x hx h1 h2
              have hxa : x ≠ a := fun e' => h1 (by rw [ef]; simp [e'])
              rw [f' x hx (fun hm => h1 (by rw [ef]; simp [hm])) h2 hxa, hfr _ x hxa]
            · intro x hx
              rw [ef]
              simp only [List.mem_cons, List.mem_append] at hx ⊢
              rcases hx with g | g | g
              · exact Or.inl (Or.inl g)
              · rcases m' x g with g | g | g
                · exact Or.inl (Or.inr (Or.inl g))
                · exact Or.inr (Or.inl g)
                · exact Or.inr (Or.inr g)
              · exact Or.inl (Or.inr (Or.inr g))

theorem descend_repr {h : Heap} : ∀ {t : Node} {par a fp}, Repr h t par a fp → ∀ (bits : List Bool) (depth : Nat),
    h.descend (bits.drop depth) (some a) = descend bits depth t
  | .empty .., _, _, _, r, bits, depth => by
    simp only [Repr] at r
    unfold Heap.descend; simp only [r.1, descend]
  | .leaf .., _, _, _, r, bits, depth => by
    simp only [Repr] at r
    unfold Heap.descend; simp only [r.1, descend]
  | .interior lv lh rh l rt, _, _, _, r, bits, depth => by
    simp only [Repr] at r
    obtain ⟨la, ra, fl, fr, e, rl, rr, _⟩ := r
    unfold Heap.descend
    simp only [e, descend]
    cases hb : bits[depth]? with
    | none =>
      rw [List.drop_eq_nil_of_le (List.getElem?_eq_none_iff.mp hb)]
    | some b =>
      obtain ⟨hlt, eb⟩ := List.getElem?_eq_some_iff.mp hb
      rw [List.drop_eq_getElem_cons hlt, eb]
      cases b with
      | true => simp only [descend_repr rr bits (depth + 1)]
      | false => simp only [descend_repr rl bits (depth + 1)]

open Spec

/-- The memory holds the trees `ts`, no two of which share a node. -/
structure HeapInv (w : HWorld) (ts : List MerkleTree) (fps : Nat → List Nat) : Prop where
  len : w.trees.length = ts.length
  repr : ∀ (i : Nat) (t : MerkleTree), ts[i]? = some t → ∃ ht, w.trees[i]? = some ht ∧ ht.nonce = t.nonce ∧ ht.hash = t.hash ∧
    Repr w.heap t.root none ht.root (fps i) ∧ ∃ lv lh rh l r, t.root = .interior lv lh rh l r
  disj : ∀ i j, i < ts.length → j < ts.length → i ≠ j → ∀ x ∈ fps i, x ∉ fps j

theorem insertAt_interior {bits : List Bool} {add : Leaf} {depth lv : Nat} {lh rh : Option Bytes} {l r t' : Node}
    (h : insertAt bits add depth (.interior lv lh rh l r) = some t') : ∃ lv lh rh l r, t' = .interior lv lh rh l r := by
  cases hb : bits[depth]? with
  | none =>
    exfalso
    have : insertAt bits add depth (.interior lv lh rh l r) = none := by
      unfold insertAt; split <;> simp_all
    rw [this] at h; exact (nomatch h)
  | some b =>
    cases b with
    | true =>
      rw [insertAt_true hb] at h
      split at h
      · cases h; exact ⟨_, _, _, _, _, rfl⟩
      · obtain ⟨r', _, rfl⟩ := Option.map_eq_some_iff.mp h; exact ⟨_, _, _, _, _, rfl⟩
    | false =>
      rw [insertAt_false hb] at h
      split at h
      · cases h; exact ⟨_, _, _, _, _, rfl⟩
      · obtain ⟨r', _, rfl⟩ := Option.map_eq_some_iff.mp h; exact ⟨_, _, _, _, _, rfl⟩

/-- adding a tree in fresh memory -/
theorem HeapInv.push {w : HWorld} {ts : List MerkleTree} {fps : Nat → List Nat} (inv : HeapInv w ts fps) (h' : Heap) (t : MerkleTree)
    (root : Nat) (fp : List Nat) (hr : Repr h' t.root none root fp) (hint : ∃ lv lh rh l r, t.root = .interior lv lh rh l r)
    (hold : ∀ x < w.heap.length, h'[x]? = w.heap[x]?) (hfresh : ∀ x ∈ fp, w.heap.length ≤ x) :
    ∃ fps', HeapInv ⟨h', w.trees ++ [⟨t.nonce, root, t.hash⟩]⟩ (ts ++ [t]) fps' := by
  refine ⟨fun i => if i < ts.length then fps i else fp, ⟨by simp [inv.len], ?_, ?_⟩⟩
  · intro i t' ht
    by_cases hi : i < ts.length
    · rw [List.getElem?_append_left hi] at ht
      obtain ⟨ht', e1, e2, e3, e4, e5⟩ := inv.repr i t' ht
      refine ⟨ht', by rw [List.getElem?_append_left (by rw [inv.len]; exact hi)]; exact e1, e2, e3, ?_, e5⟩
      simp only [hi, if_true]
      exact e4.frame fun x hx => hold x (e4.lt x hx)
    · rw [List.getElem?_append_right (by omega)] at ht
      have hi0 : i = ts.length := by
        have := (List.getElem?_eq_some_iff.mp ht).1
        simp at this; omega
      subst hi0
      simp only [Nat.sub_self, List.getElem?_cons_zero, Option.some.injEq] at ht
      subst ht
      refine ⟨⟨t.nonce, root, t.hash⟩, ?_, rfl, rfl, ?_, hint⟩
      · rw [List.getElem?_append_right (by rw [inv.len]; exact Nat.le_refl _), inv.len]; simp
      · simpa using hr
  · intro i j hi hj hij x hx
    simp only [List.length_append, List.length_singleton] at hi hj
    have old : ∀ k, k < ts.length → ∀ y ∈ fps k, y < w.heap.length := by
      intro k hk y hy
      obtain ⟨ht', _, _, _, e4, _⟩ := inv.repr k ts[k] (List.getElem?_eq_getElem hk)
      exact e4.lt y hy
    by_cases hi' : i < ts.length <;> by_cases hj' : j < ts.length <;> simp only [hi', hj', if_true, if_false] at hx ⊢
    · exact inv.disj i j hi' hj' hij x hx
    · intro hy
      have := old i hi' x hx
      have := hfresh x hy
      omega
    · intro hy
      have := old j hj' x hy
      have := hfresh x hx
      omega
    · omega

/-- changing one tree, within its nodes and fresh memory -/
theorem HeapInv.update {w : HWorld} {ts : List MerkleTree} {fps : Nat → List Nat} (inv : HeapInv w ts fps) (i : Nat) (h' : Heap)
    (t' : MerkleTree) (ht ht' : HTree) (fp : List Nat) (hi : i < ts.length) (hg : w.trees[i]? = some ht)
    (hn : ht'.nonce = t'.nonce) (hh : ht'.hash = t'.hash)
    (hr : Repr h' t'.root none ht'.root fp) (hint : ∃ lv lh rh l r, t'.root = .interior lv lh rh l r)
    (hold : ∀ x < w.heap.length, x ∉ fps i → h'[x]? = w.heap[x]?) (hfresh : ∀ x ∈ fp, x ∈ fps i ∨ w.heap.length ≤ x) :
    ∃ fps', HeapInv ⟨h', w.trees.set i ht'⟩ (ts.set i t') fps' := by
  have old : ∀ k, k < ts.length → ∀ y ∈ fps k, y < w.heap.length := by
    intro k hk y hy
    obtain ⟨ht', _, _, _, e4, _⟩ := inv.repr k ts[k] (List.getElem?_eq_getElem hk)
    exact e4.lt y hy
  refine ⟨fun k => if k = i then fp else fps k, ⟨by simp [inv.len], ?_, ?_⟩⟩
  · intro k t hk
    by_cases hki : k = i
    · subst hki
      rw [List.getElem?_set_self hi] at hk
      cases hk
      refine ⟨ht', ?_, hn, hh, by simpa using hr, hint⟩
      rw [List.getElem?_set_self (by rw [inv.len]; exact hi)]
    · rw [List.getElem?_set_ne (Ne.symm hki)] at hk
      obtain ⟨hk', e1, e2, e3, e4, e5⟩ := inv.repr k t hk
      refine ⟨hk', ?_, e2, e3, ?_, e5⟩
      · rw [List.getElem?_set_ne (Ne.symm hki)]; exact e1
      · simp only [hki, if_false]
        have klt : k < ts.length := (List.getElem?_eq_some_iff.mp hk).1
        exact e4.frame fun x hx => hold x (e4.lt x hx) (inv.disj k i klt hi hki x hx)
  · intro j k hj hk hjk x hx
    rw [List.length_set] at hj hk
    by_cases hji : j = i <;> by_cases hki : k = i <;> simp only [hji, hki, if_true, if_false] at hx ⊢
    · omega
    · intro hy
      rcases hfresh x hx with g | g
      · exact inv.disj i k hi hk (by omega) x g hy
      · have := old k hk x hy; omega
    · intro hy
      rcases hfresh x hy with g | g
      · exact inv.disj j i hj hi hji x hx g
      · have := old j hj x hx; omega
    · exact inv.disj j k hj hk hjk x hx

theorem step_refines (C : Crypto) {w : HWorld} {ts : List MerkleTree} {fps : Nat → List Nat} (inv : HeapInv w ts fps) (op : WOp) :
    match valueStep C ts op with
    | none => w.step C op = none
    | some ts' => ∃ w' fps', w.step C op = some w' ∧ HeapInv w' ts' fps' := by
  have hnone : ∀ i : Nat, ts[i]? = none → w.trees[i]? = none := by
    intro i hi
    rw [List.getElem?_eq_none_iff] at hi ⊢
    rw [inv.len]; exact hi
  cases op with
  | new rnd =>
    simp only [valueStep, HWorld.step, newMerkleTree]
    cases hr : C.makeRand rnd with
    | none => exact ⟨w, fps, rfl, inv⟩
    | some nonce =>
      simp only [Option.map_some]
      obtain ⟨r, f⟩ := newInterior_repr w.heap none 0 []
      obtain ⟨fps', inv'⟩ := inv.push (w.heap.newInterior none 0 []).1 ⟨nonce, newInterior 0 [], []⟩ (w.heap.length + 2) _ r
        ⟨_, _, _, _, _, rfl⟩ f (by intro x hx; simp at hx; omega)
      exact ⟨_, fps', rfl, inv'⟩
  | set i rnd index key value =>
    simp only [valueStep, HWorld.step, Option.bind_eq_bind]
    cases hi : ts[i]? with
    | none => simp only [hnone i hi]; rfl
    | some t =>
      obtain ⟨ht, e1, e2, e3, e4, e5⟩ := inv.repr i t hi
      have hlt : i < ts.length := (List.getElem?_eq_some_iff.mp hi).1
      simp only [e1, Option.bind_some, MerkleTree.set]
      cases hc : C.newCommit rnd [key, value] with
      | none =>
        simp only [Option.map_some]
        refine ⟨w, fps, rfl, ?_⟩
        have : ts.set i t = ts := by
          apply List.ext_getElem?
          intro k
          by_cases hk : k = i
          · subst hk; rw [List.getElem?_set_self hlt, hi]
          · rw [List.getElem?_set_ne (Ne.symm hk)]
        rw [this]; exact inv
      | some c =>
        simp only [MerkleTree.insertNode]
        generalize hl : ({ level := 0, key := key, value := value, index := index, commit := c } : Leaf) = add
        have old := e4.lt
        have hrep : Repr (w.heap ++ [.leaf none add]) t.root none ht.root (fps i) :=
          e4.frame fun x hx => List.getElem?_append_left (old x hx)
        have := insert_repr (toBits index) w.heap.length _ 0 rfl (w.heap ++ [.leaf none add]) t.root none ht.root (fps i)
          (2 * (toBits index).length + 2) none add e5 hrep (by simp) (fun hm => by have := old _ hm; omega) (by omega)
        cases hins : insertAt (toBits index) add 0 t.root with
        | none => rw [hins] at this; simp only [this, Option.map_none]; rfl
        | some root' =>
          rw [hins] at this
          obtain ⟨h', fp', e, r', f', m', len'⟩ := this
          simp only [e, Option.map_some, Option.bind_some]
          rw [List.length_append, List.length_singleton] at f' m' len'
          obtain ⟨lv, lh, rh, l, r, er⟩ := e5
          rw [er] at hins
          obtain ⟨fps', inv'⟩ := inv.update i h' { t with root := root' } ht ht fp' hlt e1 e2 e3 r' (insertAt_interior hins)
            (fun x hx hxf => by
              rw [f' x (by omega) hxf (by omega), List.getElem?_append_left hx])
            (fun x hx => by
              rcases m' x hx with g | g | g
              · exact Or.inl g
              · right; omega
              · right; omega)
          refine ⟨_, fps', rfl, ?_⟩
          have hset : w.trees.set i ht = w.trees := by
            apply List.ext_getElem?
            intro k
            by_cases hk : k = i
            · subst hk; rw [List.getElem?_set_self (by rw [inv.len]; exact hlt), e1]
            · rw [List.getElem?_set_ne (Ne.symm hk)]
          rw [hset] at inv'
          exact inv'
  | recompute i =>
    simp only [valueStep, HWorld.step, Option.bind_eq_bind]
    cases hi : ts[i]? with
    | none => simp only [hnone i hi]; rfl
    | some t =>
      obtain ⟨ht, e1, e2, e3, e4, e5⟩ := inv.repr i t hi
      have hlt : i < ts.length := (List.getElem?_eq_some_iff.mp hi).1
      have hsz := e4.size_le
      obtain ⟨h', e, r', f', len'⟩ := hash_repr C t.nonce t.root w.heap.fuel w.heap none ht.root (fps i) e4 (by unfold Heap.fuel; omega)
      simp only [e1, Option.bind_some, Option.map_some, e2, e]
      obtain ⟨lv, lh, rh, l, r, er⟩ := e5
      obtain ⟨fps', inv'⟩ := inv.update i h' (t.recomputeHash C) ht { ht with hash := (t.root.hashNode C t.nonce).1 } (fps i) hlt e1
        (by simp only [MerkleTree.recomputeHash, e2]) rfl r' (by rw [MerkleTree.recomputeHash, er]; exact ⟨_, _, _, _, _, rfl⟩)
        (fun x _ hxf => f' x hxf) (fun x hx => Or.inl hx)
      have : ({ ht with hash := (t.root.hashNode C t.nonce).1 } : HTree) = { nonce := t.nonce, root := ht.root, hash := (t.root.hashNode C t.nonce).1 } := by rw [← e2]
      rw [this] at inv'
      exact ⟨_, fps', rfl, inv'⟩
  | clone i =>
    simp only [valueStep, HWorld.step, Option.bind_eq_bind]
    cases hi : ts[i]? with
    | none => simp only [hnone i hi]; rfl
    | some t =>
      obtain ⟨ht, e1, e2, e3, e4, e5⟩ := inv.repr i t hi
      have hsz := e4.size_le
      obtain ⟨a', h', fp', e, r', f', ge', _⟩ := clone_repr t.root w.heap.fuel w.heap none none ht.root (fps i) e4
        (by unfold Heap.fuel; omega)
      simp only [e1, Option.bind_some, Option.map_some, e]
      obtain ⟨lv, lh, rh, l, r, er⟩ := e5
      obtain ⟨fps', inv'⟩ := inv.push h' t.clone a' fp' r' (by rw [MerkleTree.clone, er]; exact ⟨_, _, _, _, _, rfl⟩) f' ge'
      refine ⟨_, fps', rfl, ?_⟩
      simp only [MerkleTree.clone, ← e2, ← e3] at inv' ⊢
      exact inv'

theorem run_refines (C : Crypto) : ∀ (ops : List WOp) {w : HWorld} {ts : List MerkleTree} {fps : Nat → List Nat}, HeapInv w ts fps →
    match valueRun C ts ops with
    | none => w.run C ops = none
    | some ts' => ∃ w' fps', w.run C ops = some w' ∧ HeapInv w' ts' fps'
  | [], w, ts, fps, inv => ⟨w, fps, rfl, inv⟩
  | op :: ops, w, ts, fps, inv => by
    have := step_refines C inv op
    simp only [valueRun, HWorld.run]
    cases hs : valueStep C ts op with
    | none => rw [hs] at this; simp only [this]; rfl
    | some ts' =>
      rw [hs] at this
      obtain ⟨w', fps', e, inv'⟩ := this
      simp only [e, Option.bind_some]
      exact run_refines C ops inv'

theorem get_refines {w : HWorld} {ts : List MerkleTree} {fps : Nat → List Nat} (inv : HeapInv w ts fps) (i : Nat) (idx : Bytes) :
    w.get i idx = (ts[i]?).bind fun t => t.get idx := by
  cases hi : ts[i]? with
  | none =>
    have : w.trees[i]? = none := by
      rw [List.getElem?_eq_none_iff] at hi ⊢
      rw [inv.len]; exact hi
    simp only [HWorld.get, this]; rfl
  | some t =>
    obtain ⟨ht, e1, e2, e3, e4, e5⟩ := inv.repr i t hi
    have := descend_repr e4 (toBits idx) 0
    simp only [List.drop_zero] at this
    simp only [HWorld.get, e1, Option.bind_eq_bind, Option.bind_some, this, MerkleTree.get, e2]
    cases descend (toBits idx) 0 t.root <;> rfl

theorem hash_refines {w : HWorld} {ts : List MerkleTree} {fps : Nat → List Nat} (inv : HeapInv w ts fps) (i : Nat) :
    w.hash i = (ts[i]?).map MerkleTree.hash := by
  cases hi : ts[i]? with
  | none =>
    have : w.trees[i]? = none := by
      rw [List.getElem?_eq_none_iff] at hi ⊢
      rw [inv.len]; exact hi
    simp only [HWorld.hash, this, Option.map_none]
  | some t =>
    obtain ⟨ht, e1, e2, e3, e4, e5⟩ := inv.repr i t hi
    simp only [HWorld.hash, e1, Option.map_some, e3]

theorem emptyWorld_inv : HeapInv emptyWorld [] (fun _ => []) :=
  ⟨rfl, fun i t h => by simp at h, fun i j h => by simp at h⟩

/-- A value-level call that does not touch tree `i` leaves it as it is. -/
theorem valueStep_untouched (C : Crypto) {ts ts' : List MerkleTree} {op : WOp} (h : valueStep C ts op = some ts') {i : Nat}
    (ht : ¬ Touches i op) (hi : i < ts.length) : ts'[i]? = ts[i]? := by
  cases op with
  | new rnd =>
    simp only [valueStep] at h
    split at h
    · cases h; rfl
    · cases h; rw [List.getElem?_append_left hi]
  | set j rnd index key value =>
    simp only [valueStep] at h
    split at h
    · exact (nomatch h)
    · obtain ⟨p, _, rfl⟩ := Option.map_eq_some_iff.mp h
      rw [List.getElem?_set_ne ht]
  | recompute j =>
    simp only [valueStep] at h
    obtain ⟨p, _, rfl⟩ := Option.map_eq_some_iff.mp h
    rw [List.getElem?_set_ne ht]
  | clone j =>
    simp only [valueStep] at h
    obtain ⟨p, _, rfl⟩ := Option.map_eq_some_iff.mp h
    rw [List.getElem?_append_left hi]

theorem valueStep_length (C : Crypto) {ts ts' : List MerkleTree} {op : WOp} (h : valueStep C ts op = some ts') :
    ts.length ≤ ts'.length := by
  cases op with
  | new rnd =>
    simp only [valueStep] at h
    split at h <;> cases h <;> simp
  | set j rnd index key value =>
    simp only [valueStep] at h
    split at h
    · exact (nomatch h)
    · obtain ⟨p, _, rfl⟩ := Option.map_eq_some_iff.mp h; simp
  | recompute j =>
    obtain ⟨p, _, rfl⟩ := Option.map_eq_some_iff.mp h; simp
  | clone j =>
    obtain ⟨p, _, rfl⟩ := Option.map_eq_some_iff.mp h; simp

theorem valueRun_untouched (C : Crypto) {i : Nat} : ∀ (ops : List WOp) {ts ts' : List MerkleTree}, valueRun C ts ops = some ts' →
    (∀ op ∈ ops, ¬ Touches i op) → i < ts.length → ts'[i]? = ts[i]?
  | [], ts, ts', h, _, _ => by cases h; rfl
  | op :: ops, ts, ts', h, ht, hi => by
    simp only [valueRun] at h
    obtain ⟨ts1, h1, h2⟩ := Option.bind_eq_some_iff.mp h
    have := valueStep_length C h1
    rw [valueRun_untouched C ops h2 (fun o ho => ht o (List.mem_cons_of_mem _ ho)) (by omega),
      valueStep_untouched C h1 (ht op List.mem_cons_self) hi]

theorem valueRun_append (C : Crypto) : ∀ (a b : List WOp) (ts : List MerkleTree),
    valueRun C ts (a ++ b) = (valueRun C ts a).bind fun ts' => valueRun C ts' b
  | [], b, ts => rfl
  | op :: a, b, ts => by
    simp only [List.cons_append, valueRun]
    cases valueStep C ts op with
    | none => rfl
    | some ts' => simp only [Option.bind_some, valueRun_append C a b]

theorem run_append (C : Crypto) : ∀ (a b : List WOp) (w : HWorld), w.run C (a ++ b) = (w.run C a).bind fun w' => w'.run C b
  | [], b, w => rfl
  | op :: a, b, w => by
    simp only [List.cons_append, HWorld.run]
    cases w.step C op with
    | none => rfl
    | some w' => simp only [Option.bind_some, run_append C a b]

end Coniks

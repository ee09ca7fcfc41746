import Verif.Proofs.PathSound
/-
Two authentication paths under one tree hash, whatever their shape.
-/
namespace Coniks
open Spec

theorem climb_input_at (C : Crypto) (bits p) (k : Nat) : ∀ (d : Nat) (h v x : Bytes),
    climb C bits p (d + 1) k h = some v → arr C bits p d v = some x →
      (stepInputs C.hash bits (p.map Subtype.val) (d + 1 + k) h)[k]? = some x := by
  induction k with
  | zero =>
    intro d h v x hv hx
    simp only [climb, Option.some.injEq] at hv
    subst hv
    have e := (arr_spec hx).1
    simp only [Nat.add_zero, stepInputs, ← e, List.getElem?_cons_zero]
  | succ k ih =>
    intro d h v x hv hx
    rw [climb_snoc] at hv
    obtain ⟨y, hy, hy'⟩ := Option.bind_eq_some_iff.mp hv
    obtain ⟨z, hz, rfl⟩ := Option.map_eq_some_iff.mp hy
    have := ih d (C.hash z) v x hy' hx
    have e := (arr_spec hz).1
    rw [show d + 1 + (k + 1) = (d + 1 + k) + 1 by omega]
    simp only [stepInputs, ← e, List.getElem?_cons_succ]
    exact this

/-- the node at depth `d`, on the way up from depth `d + k` -/
theorem climb_node (C : Crypto) (bits p) (m : Bytes) : ∀ (k d : Nat) (v : Bytes), climb C bits p d k (C.hash m) = some v →
    ∃ y, (m :: stepInputs C.hash bits (p.map Subtype.val) (d + k) (C.hash m))[k]? = some y ∧ v = C.hash y := by
  intro k
  cases k with
  | zero =>
    intro d v h
    simp only [climb, Option.some.injEq] at h
    exact ⟨m, rfl, h.symm⟩
  | succ k =>
    intro d v h
    rw [climb] at h
    obtain ⟨w, hw, hx⟩ := Option.bind_eq_some_iff.mp h
    obtain ⟨y, hy, rfl⟩ := Option.map_eq_some_iff.mp hx
    refine ⟨y, ?_, rfl⟩
    rw [List.getElem?_cons_succ, show d + (k + 1) = d + 1 + k by omega]
    exact climb_input_at C bits p k d _ w y hw hy

theorem climb_split (C : Crypto) (bits p) (k : Nat) (h : Bytes) : ∀ (n d : Nat),
    climb C bits p d (n + k) h = (climb C bits p (d + n) k h).bind (climb C bits p d n) := by
  intro n
  induction n with
  | zero =>
    intro d
    simp only [Nat.zero_add, Nat.add_zero]
    cases climb C bits p d k h with
    | none => rfl
    | some v => rfl
  | succ n ih =>
    intro d
    rw [show n + 1 + k = n + k + 1 by omega, climb, ih (d + 1), show d + 1 + n = d + (n + 1) by omega]
    cases climb C bits p (d + (n + 1)) k h with
    | none => rfl
    | some v => rfl

theorem arr_congr {C : Crypto} {bits₁ bits₂ : List Bool} {p₁ p₂ : List Arr32} {d : Nat} (hb : bits₁[d]? = bits₂[d]?) (hp : p₁[d]? = p₂[d]?)
    (v : Bytes) : arr C bits₁ p₁ d v = arr C bits₂ p₂ d v := by
  simp only [arr, hb, hp]

theorem climb_congr {C : Crypto} {bits₁ bits₂ : List Bool} {p₁ p₂ : List Arr32} (h : Bytes) : ∀ (k d : Nat),
    (∀ j, d ≤ j → j < d + k → bits₁[j]? = bits₂[j]?) → (∀ j, d ≤ j → j < d + k → p₁[j]? = p₂[j]?) →
    climb C bits₁ p₁ d k h = climb C bits₂ p₂ d k h := by
  intro k
  induction k with
  | zero => intro d _ _; rfl
  | succ k ih =>
    intro d hb hp
    rw [climb, climb, ih (d + 1) (fun j a b => hb j (by omega) (by omega)) (fun j a b => hp j (by omega) (by omega))]
    congr
    funext v
    rw [arr_congr (hb d (by omega) (by omega)) (hp d (by omega) (by omega))]

/-- two climbs to the same hash meet: the shorter one starts at a node of the longer one, and above it they have the same siblings -/
theorem climb_same (C : Crypto) (bits₁ bits₂ : List Bool) (p₁ p₂ : List Arr32) (m₁ m₂ : Bytes) (S : List Bytes)
    (nc : NoCollision C.hash S) (h₁ : m₁ ∈ S) (h₂ : m₂ ∈ S) :
    ∀ (k₁ k₂ d : Nat) (x : Bytes),
      (∀ j, d ≤ j → j < d + k₁ → j < d + k₂ → bits₁[j]? = bits₂[j]?) →
      (∀ y ∈ stepInputs C.hash bits₁ (p₁.map Subtype.val) (d + k₁) (C.hash m₁), y ∈ S) →
      (∀ y ∈ stepInputs C.hash bits₂ (p₂.map Subtype.val) (d + k₂) (C.hash m₂), y ∈ S) →
      climb C bits₁ p₁ d k₁ (C.hash m₁) = some x → climb C bits₂ p₂ d k₂ (C.hash m₂) = some x →
      (∀ j, d ≤ j → j < d + k₁ → j < d + k₂ → p₁[j]? = p₂[j]?) ∧
      (k₁ ≤ k₂ → (m₂ :: stepInputs C.hash bits₂ (p₂.map Subtype.val) (d + k₂) (C.hash m₂))[k₂ - k₁]? = some m₁) ∧
      (k₂ ≤ k₁ → (m₁ :: stepInputs C.hash bits₁ (p₁.map Subtype.val) (d + k₁) (C.hash m₁))[k₁ - k₂]? = some m₂) := by
  have l32 : ∀ {bits p d k m v}, climb C bits p d k (C.hash m) = some v → v.length = 32 := by
    intro bits p d k m v h
    obtain ⟨y, rfl⟩ := climb_isHash C _ _ _ _ _ _ h
    exact C.hash_length _
  intro k₁
  induction k₁ with
  | zero =>
    intro k₂ d x _ s₁ s₂ c₁ c₂
    simp only [climb, Option.some.injEq] at c₁
    obtain ⟨y, hy, e⟩ := climb_node C bits₂ p₂ m₂ k₂ d x c₂
    have hyS : y ∈ S := by
      rcases List.mem_cons.mp (List.mem_of_getElem? hy) with g | g
      · rw [g]; exact h₂
      · exact s₂ y g
    have : m₁ = y := nc _ h₁ _ hyS (c₁.trans e)
    refine ⟨fun j a b => by omega, fun _ => by rw [this]; simpa using hy, fun hle => ?_⟩
    have hk : k₂ = 0 := by omega
    subst hk
    simp only [List.getElem?_cons_zero, Option.some.injEq] at hy
    simp [this, hy]
  | succ k₁ ih =>
    intro k₂ d x hb s₁ s₂ c₁ c₂
    cases k₂ with
    | zero =>
      simp only [climb, Option.some.injEq] at c₂
      obtain ⟨y, hy, e⟩ := climb_node C bits₁ p₁ m₁ (k₁ + 1) d x c₁
      have hyS : y ∈ S := by
        rcases List.mem_cons.mp (List.mem_of_getElem? hy) with g | g
        · rw [g]; exact h₁
        · exact s₁ y g
      have : m₂ = y := nc _ h₂ _ hyS (c₂.trans e)
      exact ⟨fun j a b c => by omega, fun hle => by omega, fun _ => by rw [this]; simpa using hy⟩
    | succ k₂ =>
      rw [climb] at c₁ c₂
      obtain ⟨v₁, hv₁, hx₁⟩ := Option.bind_eq_some_iff.mp c₁
      obtain ⟨y₁, hy₁, rfl⟩ := Option.map_eq_some_iff.mp hx₁
      have hmem₁ := s₁ y₁ (by rw [show d + (k₁ + 1) = d + 1 + k₁ by omega]; exact climb_input_mem C _ _ _ _ _ _ _ hv₁ hy₁)
      obtain ⟨v₂, hv₂, hx₂⟩ := Option.bind_eq_some_iff.mp c₂
      obtain ⟨y₂, hy₂, e₂⟩ := Option.map_eq_some_iff.mp hx₂
      have hmem₂ := s₂ y₂ (by rw [show d + (k₂ + 1) = d + 1 + k₂ by omega]; exact climb_input_mem C _ _ _ _ _ _ _ hv₂ hy₂)
      have hy : y₂ = y₁ := nc _ hmem₂ _ hmem₁ e₂
      have hd := hb d (by omega) (by omega) (by omega)
      have hvp : v₁ = v₂ ∧ p₁[d]? = p₂[d]? := by
        have l1 := l32 hv₁
        have l2 := l32 hv₂
        simp only [arr, hd] at hy₁
        simp only [arr] at hy₂
        cases hb2 : bits₂[d]? with
        | none => rw [hb2] at hy₁; cases hy₁
        | some b =>
          rw [hb2] at hy₁ hy₂
          cases hp1 : p₁[d]? with
          | none => rw [hp1] at hy₁; cases b <;> cases hy₁
          | some a₁ =>
            cases hp2 : p₂[d]? with
            | none => rw [hp2] at hy₂; cases b <;> cases hy₂
            | some a₂ =>
              rw [hp1] at hy₁
              rw [hp2] at hy₂
              cases b with
              | true =>
                simp only [Option.some.injEq] at hy₁ hy₂
                rw [← hy₁, ← hy₂] at hy
                have := List.append_inj hy (by rw [a₁.property, a₂.property])
                exact ⟨this.2.symm, by rw [Subtype.ext this.1]⟩
              | false =>
                simp only [Option.some.injEq] at hy₁ hy₂
                rw [← hy₁, ← hy₂] at hy
                have := List.append_inj hy (by rw [l1, l2])
                exact ⟨this.1.symm, by rw [Subtype.ext this.2]⟩
      obtain ⟨hv, hp⟩ := hvp
      have e1 : d + 1 + k₁ = d + (k₁ + 1) := by omega
      have e2 : d + 1 + k₂ = d + (k₂ + 1) := by omega
      obtain ⟨i1, i2, i3⟩ := ih k₂ (d + 1) v₁ (fun j a b c => hb j (by omega) (by omega) (by omega)) (by rw [e1]; exact s₁)
        (by rw [e2]; exact s₂) hv₁ (hv ▸ hv₂)
      rw [e1, e2] at i1
      rw [e2] at i2
      rw [e1] at i3
      refine ⟨fun j a b c => ?_, fun hle => ?_, fun hle => ?_⟩
      · by_cases hj : j = d
        · subst hj; exact hp
        · exact i1 j (by omega) b c
      · rw [show k₂ + 1 - (k₁ + 1) = k₂ - k₁ by omega]; exact i2 (by omega)
      · rw [show k₁ + 1 - (k₂ + 1) = k₁ - k₂ by omega]; exact i3 (by omega)

/-- the other way round: a climb that starts at a node of another and has its siblings ends in the same hash -/
theorem climb_from_node (C : Crypto) (bits₁ bits₂ : List Bool) (p₁ p₂ : List Arr32) (m₁ m₂ : Bytes) (k₁ k₂ : Nat) (x : Bytes)
    (hle : k₁ ≤ k₂) (hb : ∀ j, j < k₁ → bits₁[j]? = bits₂[j]?) (hp : ∀ j, j < k₁ → p₁[j]? = p₂[j]?)
    (hn : (m₂ :: stepInputs C.hash bits₂ (p₂.map Subtype.val) k₂ (C.hash m₂))[k₂ - k₁]? = some m₁)
    (c : climb C bits₂ p₂ 0 k₂ (C.hash m₂) = some x) : climb C bits₁ p₁ 0 k₁ (C.hash m₁) = some x := by
  rw [climb_congr (bits₂ := bits₂) (p₂ := p₂) _ k₁ 0 (fun j _ b => hb j (by omega)) (fun j _ b => hp j (by omega))]
  have hs := climb_split C bits₂ p₂ (k₂ - k₁) (C.hash m₂) k₁ 0
  rw [show k₁ + (k₂ - k₁) = k₂ by omega, c, Nat.zero_add] at hs
  obtain ⟨v, hv, hx⟩ := Option.bind_eq_some_iff.mp hs.symm
  obtain ⟨y, hy, e⟩ := climb_node C bits₂ p₂ m₂ (k₂ - k₁) k₁ v hv
  rw [show k₁ + (k₂ - k₁) = k₂ by omega, hn, Option.some.injEq] at hy
  rw [hy, ← e]
  exact hx

/-- the hash of a path from its climb -/
theorem authPathHash_of_climb {C : Crypto} {ap : AuthPath} {l : ProofNode} {x : Bytes} (hl : ap.leaf = some l)
    (hc : l.isEmpty = false → ∃ c, l.commitment = some c)
    (h : climb C (toBits l.index) ap.prunedTree 0 l.level.toNat (C.hash (leafInput ap.treeNonce l)) = some x) :
    ap.authPathHash C = some x := by
  unfold AuthPath.authPathHash
  simp only [hl]
  rw [← h, ← loop_eq_climb]
  cases he : l.isEmpty with
  | true => simp [ProofNode.hash, he, leafInput, emptyHash, Crypto.digest, emptyTag]
  | false =>
    obtain ⟨c, hc⟩ := hc he
    simp [ProofNode.hash, he, leafInput, hc, leafHash, Crypto.digest, leafTag]

theorem prefixLoop_of {a b : List Bool} (n : Nat) : ∀ i, (∀ j, i ≤ j → j < i + n → a[j]? = b[j]? ∧ j < b.length) →
    prefixLoop a b i n = some true := by
  induction n with
  | zero => intro i _; rfl
  | succ n ih =>
    intro i h
    obtain ⟨h1, h2⟩ := h i (by omega) (by omega)
    rw [prefixLoop, h1, List.getElem?_eq_getElem h2]
    simp only [if_true]
    exact ih (i + 1) fun j a b => h j (by omega) (by omega)

theorem verify_of_ok {C : Crypto} {ap : AuthPath} {key value th : Bytes} {l : ProofNode} (hl : ap.leaf = some l) (hh : ap.authPathHash C = some th)
    (hk : (ap.lookupIndex = l.index ∧ l.value.getD [] = value ∧ ∃ c, l.commitment = some c ∧ c.value = C.hash (c.salt ++ key ++ value)) ∨
       (ap.lookupIndex ≠ l.index ∧ l.value = none ∧
          ∀ j, j < l.level.toNat → (toBits l.index)[j]? = (toBits ap.lookupIndex)[j]? ∧ j < (toBits ap.lookupIndex).length)) :
    ap.verify C key value th = some (.ok ()) := by
  unfold AuthPath.verify
  simp only [hl, hh, if_true]
  rcases hk with ⟨h1, h2, c, h3, h4⟩ | ⟨h1, h2, h3⟩
  · rw [if_pos h1, if_pos h2, h3]
    have : C.commitVerify c [key, value] = true := by simp [Crypto.commitVerify, Crypto.digest, h4]
    simp only [this, if_true]
  · rw [if_neg h1, prefixLoop_of _ 0 fun j _ b => h3 j (by omega)]
    simp [h2]

end Coniks

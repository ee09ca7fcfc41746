import Verif.Proofs.TreeVerify
import Verif.Spec.Paths
namespace Coniks
open Spec

/-- bytes hashed at depth `d` -/
def arr (C : Crypto) (bits : List Bool) (p : List Arr32) (d : Nat) (v : Bytes) : Go Bytes :=
  match bits[d]?, p[d]? with
  | some true, some x => some (x.val ++ v)
  | some false, some x => some (v ++ x.val)
  | _, _ => none

/-- climbing from depth `d + k` to depth `d` -/
def climb (C : Crypto) (bits : List Bool) (p : List Arr32) : Nat → Nat → Bytes → Go Bytes
  | _, 0, h => some h
  | d, k + 1, h => (climb C bits p (d + 1) k h).bind fun v => (arr C bits p d v).map C.hash

theorem authPathLoop_succ (C : Crypto) (bits p d h) :
    authPathLoop C bits p (d + 1) h = ((arr C bits p d h).map C.hash).bind (authPathLoop C bits p d) := by
  rw [authPathLoop, arr]
  rcases hb : bits[d]? with _ | (_ | _) <;> rcases hp : p[d]? with _ | x <;> simp [Crypto.digest]

/-- climbing one more step at the bottom -/
theorem climb_snoc (C : Crypto) (bits p) (k : Nat) : ∀ (d : Nat) (h : Bytes),
    climb C bits p d (k + 1) h = ((arr C bits p (d + k) h).map C.hash).bind (climb C bits p d k) := by
  induction k with
  | zero => intro d h; simp only [climb, Option.bind_some, Nat.add_zero]; cases arr C bits p d h <;> rfl
  | succ k ih =>
    intro d h
    rw [climb, ih (d + 1) h, show d + 1 + k = d + (k + 1) by omega]
    cases arr C bits p (d + (k + 1)) h with
    | none => rfl
    | some x => rfl

theorem loop_eq_climb (C : Crypto) (bits p) (L : Nat) : ∀ h, authPathLoop C bits p L h = climb C bits p 0 L h := by
  induction L with
  | zero => intro h; rfl
  | succ L ih =>
    intro h
    rw [authPathLoop_succ, climb_snoc, Nat.zero_add]
    congr; funext x; exact ih x

theorem arr_spec {C : Crypto} {bits p d v x} (h : arr C bits p d v = some x) :
    x = (if bits.getD d false then ((p.map Subtype.val).getD d []) ++ v else v ++ ((p.map Subtype.val).getD d [])) ∧
    ∃ b s, bits[d]? = some b ∧ s.length = 32 ∧ x = if b then s ++ v else v ++ s := by
  rw [arr] at h
  simp only [List.getD_eq_getElem?_getD, List.getElem?_map]
  rcases hb : bits[d]? with _ | (_ | _) <;> rcases hp : p[d]? with _ | y <;> simp [hb, hp] at h
  · subst h; exact ⟨by simp, false, y.val, by simp, y.property, by simp⟩
  · subst h; exact ⟨by simp, true, y.val, by simp, y.property, by simp⟩

/-- what is hashed on the climb is listed in `stepInputs` -/
theorem climb_input_mem (C : Crypto) (bits p) (k : Nat) : ∀ (d : Nat) (h v x : Bytes),
    climb C bits p (d + 1) k h = some v → arr C bits p d v = some x →
      x ∈ stepInputs C.hash bits (p.map Subtype.val) (d + 1 + k) h := by
  induction k with
  | zero =>
    intro d h v x hv hx
    simp only [climb, Option.some.injEq] at hv
    subst hv
    have e := (arr_spec hx).1
    simp only [Nat.add_zero, stepInputs, ← e, List.mem_cons, true_or]
  | succ k ih =>
    intro d h v x hv hx
    rw [climb_snoc] at hv
    obtain ⟨y, hy, hy'⟩ := Option.bind_eq_some_iff.mp hv
    obtain ⟨z, hz, rfl⟩ := Option.map_eq_some_iff.mp hy
    have := ih d (C.hash z) v x hy' hx
    have e := (arr_spec hz).1
    rw [show d + 1 + (k + 1) = (d + 1 + k) + 1 by omega]
    simp only [stepInputs, ← e, List.mem_cons]
    exact Or.inr this

/-- a climb ends in a hash -/
theorem climb_isHash (C : Crypto) (bits p d k m v) (h : climb C bits p d k (C.hash m) = some v) : ∃ y, v = C.hash y := by
  cases k with
  | zero => exact ⟨m, by simpa [climb] using h.symm⟩
  | succ k =>
    rw [climb] at h
    obtain ⟨w, _, hw⟩ := Option.bind_eq_some_iff.mp h
    obtain ⟨z, _, rfl⟩ := Option.map_eq_some_iff.mp hw
    exact ⟨z, rfl⟩

/-- Outcome of comparing two paths that end in the same hash. -/
inductive Meet (C : Crypto) (L₁ L₂ : Nat) (m₁ m₂ : Bytes) : Prop
  | same (h : L₁ = L₂) (e : m₁ = m₂)
  | firstShort (h : L₁ < L₂) (e : m₁.length = 64)
  | secondShort (h : L₂ < L₁) (e : m₂.length = 64)

theorem climb_meet (C : Crypto) (bits₁ bits₂ : List Bool) (p₁ p₂ : List Arr32) (m₁ m₂ : Bytes) (S : List Bytes)
    (nc : NoCollision C.hash S) (h₁ : m₁ ∈ S) (h₂ : m₂ ∈ S) :
    ∀ (k₁ k₂ d : Nat) (x : Bytes),
      (∀ j, d ≤ j → j < d + k₁ → j < d + k₂ → bits₁[j]? = bits₂[j]?) →
      (∀ y ∈ stepInputs C.hash bits₁ (p₁.map Subtype.val) (d + k₁) (C.hash m₁), y ∈ S) →
      (∀ y ∈ stepInputs C.hash bits₂ (p₂.map Subtype.val) (d + k₂) (C.hash m₂), y ∈ S) →
      climb C bits₁ p₁ d k₁ (C.hash m₁) = some x → climb C bits₂ p₂ d k₂ (C.hash m₂) = some x →
      Meet C (d + k₁) (d + k₂) m₁ m₂ := by
  have len64 : ∀ {bits p d v y}, arr C bits p d v = some y → v.length = 32 → y.length = 64 := by
    intro bits p d v y h hv
    obtain ⟨_, b, s, _, hs, rfl⟩ := arr_spec h
    split <;> simp [hs, hv]
  have l32 : ∀ {bits p d k m v}, climb C bits p d k (C.hash m) = some v → v.length = 32 := by
    intro bits p d k m v h
    obtain ⟨y, rfl⟩ := climb_isHash C _ _ _ _ _ _ h
    exact C.hash_length _
  intro k₁
  induction k₁ with
  | zero =>
    intro k₂ d x _ _ s₂ c₁ c₂
    simp only [climb, Option.some.injEq] at c₁
    cases k₂ with
    | zero =>
      simp only [climb, Option.some.injEq] at c₂
      exact .same rfl (nc _ h₁ _ h₂ (c₁.trans c₂.symm))
    | succ k₂ =>
      rw [climb] at c₂
      obtain ⟨v, hv, hx⟩ := Option.bind_eq_some_iff.mp c₂
      obtain ⟨y, hy, rfl⟩ := Option.map_eq_some_iff.mp hx
      have hmem := s₂ y (by rw [show d + (k₂ + 1) = d + 1 + k₂ by omega]; exact climb_input_mem C _ _ _ _ _ _ _ hv hy)
      have : m₁ = y := nc _ h₁ _ hmem c₁
      exact .firstShort (by omega) (this ▸ len64 hy (l32 hv))
  | succ k₁ ih =>
    intro k₂ d x hb s₁ s₂ c₁ c₂
    rw [climb] at c₁
    obtain ⟨v₁, hv₁, hx₁⟩ := Option.bind_eq_some_iff.mp c₁
    obtain ⟨y₁, hy₁, rfl⟩ := Option.map_eq_some_iff.mp hx₁
    have hmem₁ := s₁ y₁ (by rw [show d + (k₁ + 1) = d + 1 + k₁ by omega]; exact climb_input_mem C _ _ _ _ _ _ _ hv₁ hy₁)
    cases k₂ with
    | zero =>
      simp only [climb, Option.some.injEq] at c₂
      have : m₂ = y₁ := nc _ h₂ _ hmem₁ c₂
      exact .secondShort (by omega) (this ▸ len64 hy₁ (l32 hv₁))
    | succ k₂ =>
      rw [climb] at c₂
      obtain ⟨v₂, hv₂, hx₂⟩ := Option.bind_eq_some_iff.mp c₂
      obtain ⟨y₂, hy₂, e₂⟩ := Option.map_eq_some_iff.mp hx₂
      have hmem₂ := s₂ y₂ (by rw [show d + (k₂ + 1) = d + 1 + k₂ by omega]; exact climb_input_mem C _ _ _ _ _ _ _ hv₂ hy₂)
      have hy : y₂ = y₁ := nc _ hmem₂ _ hmem₁ e₂
      have hv : v₁ = v₂ := by
        obtain ⟨_, b₁, t₁, hb₁, ht₁, ha₁⟩ := arr_spec hy₁
        obtain ⟨_, b₂, t₂, hb₂, ht₂, ha₂⟩ := arr_spec hy₂
        have hbb : b₁ = b₂ := by
          have := hb d (by omega) (by omega) (by omega)
          rw [hb₁, hb₂] at this; simpa using this
        subst hbb
        rw [hy, ha₁] at ha₂
        cases b₁ with
        | true => exact (List.append_inj ha₂ (by rw [ht₁, ht₂])).2
        | false => exact (List.append_inj ha₂ (by rw [l32 hv₁, l32 hv₂])).1
      have e1 : d + 1 + k₁ = d + (k₁ + 1) := by omega
      have e2 : d + 1 + k₂ = d + (k₂ + 1) := by omega
      have := ih k₂ (d + 1) v₁ (fun j a b c => hb j (by omega) (by omega) (by omega)) (by rw [e1]; exact s₁)
        (by rw [e2]; exact s₂) hv₁ (hv ▸ hv₂)
      rw [e1, e2] at this
      exact this

theorem prefixLoop_true {a b : List Bool} (n : Nat) : ∀ i, prefixLoop a b i n = some true →
    ∀ j, i ≤ j → j < i + n → a[j]? = b[j]? ∧ j < a.length := by
  induction n with
  | zero => intro i _ j h1 h2; omega
  | succ n ih =>
    intro i h j h1 h2
    rw [prefixLoop] at h
    rcases ha : a[i]? with _ | x <;> rcases hb : b[i]? with _ | y <;> simp only [ha, hb, reduceCtorEq] at h
    have hxy : x = y := by
      by_cases hxy : x = y
      · exact hxy
      · rw [if_neg hxy] at h; simp at h
    rw [if_pos hxy] at h
    subst hxy
    by_cases e : j = i
    · subst e; exact ⟨by rw [ha, hb], (List.getElem?_eq_some_iff.mp ha).1⟩
    · exact ih (i + 1) h j (by omega) (by omega)

/-- What acceptance by `Verify` means, unfolded. -/
theorem verify_ok {C : Crypto} {ap : AuthPath} {key value th : Bytes} (h : ap.verify C key value th = some (.ok ())) :
    ∃ l, ap.leaf = some l ∧ ap.authPathHash C = some th ∧
      ((ap.lookupIndex = l.index ∧ l.value.getD [] = value ∧
          ∃ c, l.commitment = some c ∧ c.value = C.hash (c.salt ++ key ++ value)) ∨
       (ap.lookupIndex ≠ l.index ∧ l.value = none ∧
          ∀ j, j < l.level.toNat → (toBits l.index)[j]? = (toBits ap.lookupIndex)[j]?)) := by
  unfold AuthPath.verify at h
  cases hl : ap.leaf with
  | none => simp [hl] at h
  | some l =>
    simp only [hl] at h
    refine ⟨l, rfl, ?_⟩
    have hc : ∀ {x : Go (Except VerifyErr Unit)}, x = (match ap.authPathHash C with
        | none => none
        | some h => if th = h then some (Except.ok ()) else some (Except.error VerifyErr.unequalTreeHashes)) →
        x = some (.ok ()) → ap.authPathHash C = some th := by
      intro x e hx
      cases ha : ap.authPathHash C with
      | none => rw [ha] at e; rw [hx] at e; simp at e
      | some y =>
        rw [ha] at e; rw [hx] at e
        simp only at e
        split at e
        · next hh => rw [hh]
        · simp at e
    split at h
    · next he =>
      split at h
      · next hv =>
        cases hcm : l.commitment with
        | none => simp [hcm] at h
        | some c =>
          simp only [hcm] at h
          split at h
          · next hcv =>
            refine ⟨hc rfl h, Or.inl ⟨he, hv, c, rfl, ?_⟩⟩
            simpa [Crypto.commitVerify, Crypto.digest] using hcv
          · simp at h
      · simp at h
    · next he =>
      cases hp : prefixLoop (toBits l.index) (toBits ap.lookupIndex) 0 l.level.toNat with
      | none => simp [hp] at h
      | some b =>
        cases b with
        | false => simp [hp] at h
        | true =>
          simp only [hp] at h
          split at h
          · simp at h
          · next hv =>
            refine ⟨hc rfl h, Or.inr ⟨he, by simpa using hv, ?_⟩⟩
            intro j hj
            exact (prefixLoop_true _ 0 hp j (by omega) (by omega)).1

/-- `authPathHash` as a climb -/
theorem authPathHash_climb {C : Crypto} {ap : AuthPath} {l : ProofNode} {x : Bytes} (hl : ap.leaf = some l)
    (h : ap.authPathHash C = some x) :
    (l.isEmpty = false → ∃ c, l.commitment = some c) ∧
    climb C (toBits l.index) ap.prunedTree 0 l.level.toNat (C.hash (leafInput ap.treeNonce l)) = some x := by
  unfold AuthPath.authPathHash at h
  simp only [hl] at h
  cases hh : l.hash C ap.treeNonce with
  | none => simp [hh] at h
  | some y =>
    simp only [hh] at h
    rw [loop_eq_climb] at h
    unfold ProofNode.hash at hh
    cases he : l.isEmpty with
    | true =>
      simp only [he, if_true, Option.some.injEq] at hh
      refine ⟨by simp, ?_⟩
      rw [← h, ← hh]
      simp [leafInput, he, emptyHash, Crypto.digest, emptyTag]
    | false =>
      simp only [he, Bool.false_eq_true, if_false] at hh
      cases hc : l.commitment with
      | none => simp [hc] at hh
      | some c =>
        simp only [hc, Option.some.injEq] at hh
        refine ⟨fun _ => ⟨c, rfl⟩, ?_⟩
        rw [← h, ← hh]
        simp [leafInput, he, hc, leafHash, Crypto.digest, leafTag]

theorem uint32ToBytes_len (x : UInt32) : (uint32ToBytes x).length = 4 := rfl

/-- two well-shaped proofs of the same index that end in the same hash have the same leaf (tag, index and commitment) -/
theorem same_leaf (C : Crypto) (ap₁ ap₂ : AuthPath) (l₁ l₂ : ProofNode) (x : Bytes)
    (hl₁ : ap₁.leaf = some l₁) (hl₂ : ap₂.leaf = some l₂)
    (h₁ : ap₁.authPathHash C = some x) (h₂ : ap₂.authPathHash C = some x)
    (w₁n : ap₁.treeNonce.length = 32) (w₂n : ap₂.treeNonce.length = 32)
    (w₁u : l₁.isEmpty = false → l₁.index.length = 32 ∧ ∀ c, l₁.commitment = some c → c.value.length = 32)
    (w₂u : l₂.isEmpty = false → l₂.index.length = 32 ∧ ∀ c, l₂.commitment = some c → c.value.length = 32)
    (w₁e : l₁.isEmpty = true → l₁.index.length = (l₁.level.toNat + 7) / 8)
    (w₂e : l₂.isEmpty = true → l₂.index.length = (l₂.level.toNat + 7) / 8)
    (n₁ : l₁.isEmpty = true → l₁.level.toNat < l₂.level.toNat → ¬ (209 ≤ l₁.level.toNat ∧ l₁.level.toNat ≤ 216))
    (n₂ : l₂.isEmpty = true → l₂.level.toNat < l₁.level.toNat → ¬ (209 ≤ l₂.level.toNat ∧ l₂.level.toNat ≤ 216))
    (hb : ∀ j, j < l₁.level.toNat → j < l₂.level.toNat → (toBits l₁.index)[j]? = (toBits l₂.index)[j]?)
    (nc : NoCollision C.hash (hashInputs C.hash ap₁ ++ hashInputs C.hash ap₂)) :
    l₁.isEmpty = l₂.isEmpty ∧ l₁.level.toNat = l₂.level.toNat ∧ l₁.index = l₂.index ∧
      (l₁.isEmpty = false → l₁.commitment.map Commit.value = l₂.commitment.map Commit.value) := by
  obtain ⟨c₁, k₁⟩ := authPathHash_climb hl₁ h₁
  obtain ⟨c₂, k₂⟩ := authPathHash_climb hl₂ h₂
  have inp : ∀ (ap : AuthPath) (l : ProofNode), ap.leaf = some l → hashInputs C.hash ap =
      leafInput ap.treeNonce l :: stepInputs C.hash (toBits l.index) (ap.prunedTree.map Subtype.val) l.level.toNat
        (C.hash (leafInput ap.treeNonce l)) := by
    intro ap l hl; simp [hashInputs, hl, toBits_eq_bitsOf]
  have meet := climb_meet C _ _ _ _ _ _ _ nc (by rw [inp _ _ hl₁]; simp) (by rw [inp _ _ hl₂]; simp)
    l₁.level.toNat l₂.level.toNat 0 x (fun j _ a b => hb j (by omega) (by omega))
    (fun y hy => by rw [inp _ _ hl₁]; simp only [List.mem_append, List.mem_cons]; left; right; simpa using hy)
    (fun y hy => by rw [inp _ _ hl₂]; simp only [List.mem_append, List.mem_cons]; right; right; simpa using hy)
    k₁ k₂
  have lenE : ∀ {n : Bytes} {l : ProofNode}, n.length = 32 → l.isEmpty = true → l.index.length = (l.level.toNat + 7) / 8 →
      (leafInput n l).length = 37 + (l.level.toNat + 7) / 8 := by
    intro n l hn he hi
    simp only [leafInput, he, if_true, List.length_append, List.length_singleton, hn, hi, uint32ToBytes_len]; omega
  have lenU : ∀ {n : Bytes} {l : ProofNode} {c : Commit}, n.length = 32 → l.isEmpty = false → l.index.length = 32 →
      l.commitment = some c → c.value.length = 32 → (leafInput n l).length = 101 := by
    intro n l c hn he hi hc hcl
    simp [leafInput, he, hn, hi, hc, hcl, uint32ToBytes_len]
  cases meet with
  | firstShort h e =>
    exfalso
    cases he : l₁.isEmpty with
    | true =>
      rw [lenE w₁n he (w₁e he)] at e
      exact n₁ he (by omega) (by omega)
    | false =>
      obtain ⟨c, hc⟩ := c₁ he
      rw [lenU w₁n he (w₁u he).1 hc ((w₁u he).2 c hc)] at e
      omega
  | secondShort h e =>
    exfalso
    cases he : l₂.isEmpty with
    | true =>
      rw [lenE w₂n he (w₂e he)] at e
      exact n₂ he (by omega) (by omega)
    | false =>
      obtain ⟨c, hc⟩ := c₂ he
      rw [lenU w₂n he (w₂u he).1 hc ((w₂u he).2 c hc)] at e
      omega
  | same h e =>
    have hlev : l₁.level.toNat = l₂.level.toNat := by omega
    cases he₁ : l₁.isEmpty with
    | true =>
      cases he₂ : l₂.isEmpty with
      | false => simp [leafInput, he₁, he₂] at e
      | true =>
        refine ⟨rfl, hlev, ?_, by simp⟩
        simp only [leafInput, he₁, he₂, if_true, List.append_assoc, List.cons_append, List.nil_append,
          List.cons.injEq, true_and] at e
        have e1 := (List.append_inj e (by rw [w₁n, w₂n])).2
        exact (List.append_inj e1 (by rw [w₁e he₁, w₂e he₂, hlev])).1
    | false =>
      cases he₂ : l₂.isEmpty with
      | true => simp [leafInput, he₁, he₂] at e
      | false =>
        obtain ⟨d₁, hd₁⟩ := c₁ he₁
        obtain ⟨d₂, hd₂⟩ := c₂ he₂
        simp only [leafInput, he₁, he₂, Bool.false_eq_true, if_false, List.append_assoc, List.cons_append,
          List.nil_append, List.cons.injEq, true_and, hd₁, hd₂, Option.map_some, Option.getD_some] at e
        have e1 := (List.append_inj e (by rw [w₁n, w₂n])).2
        have e2 := List.append_inj e1 (by rw [(w₁u he₁).1, (w₂u he₂).1])
        have e3 := (List.append_inj e2.2 (by rw [uint32ToBytes_len, uint32ToBytes_len])).2
        exact ⟨rfl, hlev, e2.1, fun _ => by simp [hd₁, hd₂, e3]⟩

end Coniks

import Verif.Spec.Mitm
import Verif.Proofs.DirPad
import Verif.Proofs.Client
import Verif.Proofs.PathSound
import Verif.Props.Str
namespace Coniks
open Spec Props

/-! ### comparing a received path with the honest one -/

/-- Outcome of comparing a path with an honest one that ends in the same hash. -/
inductive MeetH (L₁ L₂ : Nat) (m₁ m₂ : Bytes) (steps₂ : List Bytes) : Prop
  | same (h : L₁ = L₂) (e : m₁ = m₂)
  | firstShort (h : L₁ < L₂) (e : m₁.length = 64) (mem : m₁ ∈ steps₂)
  | secondShort (h : L₂ < L₁) (e : m₂.length = 64)

theorem climb_meetH (C : Crypto) (bits₁ bits₂ : List Bool) (p₁ p₂ : List Arr32) (m₁ m₂ : Bytes) (S : List Bytes)
    (nc : NoCollision C.hash S) (h₁ : m₁ ∈ S) (h₂ : m₂ ∈ S) :
    ∀ (k₁ k₂ d : Nat) (x : Bytes),
      (∀ j, d ≤ j → j < d + k₁ → j < d + k₂ → bits₁[j]? = bits₂[j]?) →
      (∀ y ∈ stepInputs C.hash bits₁ (p₁.map Subtype.val) (d + k₁) (C.hash m₁), y ∈ S) →
      (∀ y ∈ stepInputs C.hash bits₂ (p₂.map Subtype.val) (d + k₂) (C.hash m₂), y ∈ S) →
      climb C bits₁ p₁ d k₁ (C.hash m₁) = some x → climb C bits₂ p₂ d k₂ (C.hash m₂) = some x →
      MeetH (d + k₁) (d + k₂) m₁ m₂ (stepInputs C.hash bits₂ (p₂.map Subtype.val) (d + k₂) (C.hash m₂)) := by
  have len64 : ∀ {bits p d v y}, arr C bits p d v = some y → v.length = 32 → y.length = 64 := by
    intro bits p d v y h hv
    obtain ⟨_, b, s, _, hs, rfl⟩ := arr_spec h
    split <;> simp [hs, hv]
  have l32 : ∀ {bits p d k m v}, climb C bits p d k (C.hash m) = some v → v.length = 32 := by
    intro bits p d k m v h
    obtain ⟨y, rfl⟩ := climb_isHash C _ _ _ _ _ _ h
    exact C.hash_length _
  intro k₁
  induction k₁ with
  | zero =>
    intro k₂ d x _ _ s₂ c₁ c₂
    simp only [climb, Option.some.injEq] at c₁
    cases k₂ with
    | zero =>
      simp only [climb, Option.some.injEq] at c₂
      exact .same rfl (nc _ h₁ _ h₂ (c₁.trans c₂.symm))
    | succ k₂ =>
      rw [climb] at c₂
      obtain ⟨v, hv, hx⟩ := Option.bind_eq_some_iff.mp c₂
      obtain ⟨y, hy, rfl⟩ := Option.map_eq_some_iff.mp hx
      have hmem0 : y ∈ stepInputs C.hash bits₂ (p₂.map Subtype.val) (d + (k₂ + 1)) (C.hash m₂) := by
        rw [show d + (k₂ + 1) = d + 1 + k₂ by omega]; exact climb_input_mem C _ _ _ _ _ _ _ hv hy
      have hmem := s₂ y hmem0
      have : m₁ = y := nc _ h₁ _ hmem c₁
      exact .firstShort (by omega) (this ▸ len64 hy (l32 hv)) (this ▸ hmem0)
  | succ k₁ ih =>
    intro k₂ d x hb s₁ s₂ c₁ c₂
    rw [climb] at c₁
    obtain ⟨v₁, hv₁, hx₁⟩ := Option.bind_eq_some_iff.mp c₁
    obtain ⟨y₁, hy₁, rfl⟩ := Option.map_eq_some_iff.mp hx₁
    have hmem₁ := s₁ y₁ (by rw [show d + (k₁ + 1) = d + 1 + k₁ by omega]; exact climb_input_mem C _ _ _ _ _ _ _ hv₁ hy₁)
    cases k₂ with
    | zero =>
      simp only [climb, Option.some.injEq] at c₂
      have : m₂ = y₁ := nc _ h₂ _ hmem₁ c₂
      exact .secondShort (by omega) (this ▸ len64 hy₁ (l32 hv₁))
    | succ k₂ =>
      rw [climb] at c₂
      obtain ⟨v₂, hv₂, hx₂⟩ := Option.bind_eq_some_iff.mp c₂
      obtain ⟨y₂, hy₂, e₂⟩ := Option.map_eq_some_iff.mp hx₂
      have hmem₂ := s₂ y₂ (by rw [show d + (k₂ + 1) = d + 1 + k₂ by omega]; exact climb_input_mem C _ _ _ _ _ _ _ hv₂ hy₂)
      have hy : y₂ = y₁ := nc _ hmem₂ _ hmem₁ e₂
      have hv : v₁ = v₂ := by
        obtain ⟨_, b₁, t₁, hb₁, ht₁, ha₁⟩ := arr_spec hy₁
        obtain ⟨_, b₂, t₂, hb₂, ht₂, ha₂⟩ := arr_spec hy₂
        have hbb : b₁ = b₂ := by
          have := hb d (by omega) (by omega) (by omega)
          rw [hb₁, hb₂] at this; simpa using this
        subst hbb
        rw [hy, ha₁] at ha₂
        cases b₁ with
        | true => exact (List.append_inj ha₂ (by rw [ht₁, ht₂])).2
        | false => exact (List.append_inj ha₂ (by rw [l32 hv₁, l32 hv₂])).1
      have e1 : d + 1 + k₁ = d + (k₁ + 1) := by omega
      have e2 : d + 1 + k₂ = d + (k₂ + 1) := by omega
      have := ih k₂ (d + 1) v₁ (fun j a b c => hb j (by omega) (by omega) (by omega)) (by rw [e1]; exact s₁)
        (by rw [e2]; exact s₂) hv₁ (hv ▸ hv₂)
      rw [e1, e2] at this
      exact this

/-- the tree hash of an accepted proof has 32 bytes -/
theorem verify_hash_length {C : Crypto} {ap : AuthPath} {k v th : Bytes} (h : ap.verify C k v th = some (.ok ())) : th.length = 32 := by
  obtain ⟨l, hl, hh, _⟩ := verify_ok h
  obtain ⟨_, hc⟩ := authPathHash_climb hl hh
  obtain ⟨y, rfl⟩ := climb_isHash C _ _ _ _ _ _ hc
  exact C.hash_length _

theorem hashInputs_of {C : Crypto} {ap : AuthPath} {l : ProofNode} (hl : ap.leaf = some l) : hashInputs C.hash ap =
      leafInput ap.treeNonce l :: stepInputs C.hash (toBits l.index) (ap.prunedTree.map Subtype.val) l.level.toNat
        (C.hash (leafInput ap.treeNonce l)) := by
  simp [hashInputs, hl, toBits_eq_bitsOf]

/-- What the honest lookup of a name in a snapshot gives. -/
structure HonestLeaf (C : Crypto) (vk n : Bytes) (s : STR) (M : Bytes → Option Bytes) (ap : AuthPath) (pn : ProofNode) : Prop where
  lookup : ap.lookupIndex = (C.vrfProve vk n).1
  leaf : ap.leaf = some pn
  hash : ap.authPathHash C = some s.core.treeHash
  nonce : ap.treeNonce = s.tree.nonce
  level : pn.level.toNat ≤ 208
  path : ∀ j, j < pn.level.toNat → (toBits (C.vrfProve vk n).1)[j]? = (toBits pn.index)[j]?
  user : pn.isEmpty = false → pn.index.length = 32 ∧ ∀ c, pn.commitment = some c → c.value.length = 32
  empty : pn.isEmpty = true → pn.index.length = (pn.level.toNat + 7) / 8 ∧ pn.index ≠ (C.vrfProve vk n).1 ∧ M n = none
  found : pn.index = (C.vrfProve vk n).1 → ∃ c v, pn.commitment = some c ∧ pn.value = some v ∧ M n = some v ∧ c.salt.length = 32 ∧
    c.value = C.hash (c.salt ++ n ++ v)
  other : pn.index ≠ (C.vrfProve vk n).1 → M n = none ∧ pn.value = none

theorem honest_leaf {C : Crypto} {vk : Bytes} {s : STR} {M : Bytes → Option Bytes} {ns : List Bytes} (ok : SnapOK C s)
    (h : TreeHolds C (fun k => (C.vrfProve vk k).1) s.tree M) (names : ∀ n v, M n = some v → n ∈ ns) (n : Bytes)
    (sp : IndexSpreadAt 208 (fun k => (C.vrfProve vk k).1) (n :: ns)) :
    ∃ ap pn, s.tree.get (C.vrfProve vk n).1 = some ap ∧ HonestLeaf C vk n s M ap pn := by
  have inj : ∀ m w, M m = some w → (C.vrfProve vk m).1 = (C.vrfProve vk n).1 → m = n := by
    intro m w hm e
    by_cases hmn : m = n
    · exact hmn
    · exact absurd (by simp only [e]) (sp m (List.mem_cons_of_mem _ (names m w hm)) n (List.mem_cons_self ..) hmn)
  have hi : (toBits (C.vrfProve vk n).1).length = 256 := by rw [toBits_length, C.vrf_length]
  obtain ⟨ap, q, pn, hg, post⟩ := get_spec C 256 s.tree ok.inv _ hi
  have hq : q.length ≤ 208 := by
    by_cases hlt : q.length ≤ 208
    · exact hlt
    · exfalso
      obtain ⟨l1, m1, l2, m2, ne, p1, p2⟩ := post.deep (by omega)
      obtain ⟨a1, a2, _⟩ := h.sound l1.binding (List.mem_map_of_mem m1)
      obtain ⟨b1, b2, _⟩ := h.sound l2.binding (List.mem_map_of_mem m2)
      have hne : l1.binding.key ≠ l2.binding.key := fun e => ne (by
        have : l1.binding.index = l2.binding.index := by rw [a1, b1, e]
        exact this)
      refine sp _ (List.mem_cons_of_mem _ (names _ _ a2)) _ (List.mem_cons_of_mem _ (names _ _ b2)) hne ?_
      have key : ∀ x : List Bool, q.take (q.length - 1) <+: x → x.take 208 = q.take 208 := by
        intro x hx
        obtain ⟨t, rfl⟩ := hx
        rw [List.take_append_of_le_length (by simp; omega), List.take_take]
        congr 1; omega
      have e1 : (C.vrfProve vk l1.binding.key).1 = l1.index := a1.symm
      have e2 : (C.vrfProve vk l2.binding.key).1 = l2.index := b1.symm
      simp only [e1, e2]
      rw [← toBits_eq_bitsOf, ← toBits_eq_bitsOf, key _ p1, key _ p2]
  have hlev := post.level (by omega)
  have hidxlen : ∀ l ∈ s.tree.root.leaves, l.index.length = 32 := by
    intro l hl
    have := (h.sound l.binding (List.mem_map_of_mem hl)).1
    rw [show l.binding.index = l.index from rfl] at this
    rw [this]; exact C.vrf_length _ _
  have hcom : ∀ l ∈ s.tree.root.leaves, l.commit.value.length = 32 := by
    intro l hl
    have := (h.sound l.binding (List.mem_map_of_mem hl)).2.2
    rw [show l.binding.commit = l.commit.value from rfl] at this
    rw [this]; exact C.hash_length _
  have hno : (∀ l ∈ s.tree.root.leaves, l.index ≠ (C.vrfProve vk n).1) → M n = none := by
    intro hno
    cases hM : M n with
    | none => rfl
    | some v =>
      exfalso
      obtain ⟨b, hb, hk, _⟩ := h.complete n v hM
      obtain ⟨l, hl, rfl⟩ := List.mem_map.mp hb
      have := (h.sound l.binding hb).1
      rw [hk] at this
      exact hno l hl this
  refine ⟨ap, pn, hg, ⟨post.lookup, post.leaf, by rw [ok.core, ok.hash]; exact post.hash (by omega) ok.cached, post.nonce, by omega,
    ?_, ?_, ?_, ?_, ?_⟩⟩
  · intro j hj
    rw [hlev] at hj
    rw [prefix_get post.pre hj, prefix_get post.index hj]
  · intro he
    rcases post.cases with ⟨l, hl, _, rfl⟩ | ⟨_, l, hl, _, rfl⟩ | ⟨_, rfl, _⟩
    · exact ⟨hidxlen l hl, fun c hc => by simp only [inclNode, Option.some.injEq] at hc; subst hc; exact hcom l hl⟩
    · exact ⟨hidxlen l hl, fun c hc => by simp only [otherNode, Option.some.injEq] at hc; subst hc; exact hcom l hl⟩
    · simp [emptyPN] at he
  · intro he
    rcases post.cases with ⟨l, hl, _, rfl⟩ | ⟨_, l, hl, _, rfl⟩ | ⟨hn, rfl, _⟩
    · simp [inclNode] at he
    · simp [otherNode] at he
    · have e : (emptyPN q).index.length = (q.length + 7) / 8 := toBytes_length q
      refine ⟨by rw [hlev]; exact e, fun e' => ?_, hno hn⟩
      rw [e', C.vrf_length] at e
      omega
  · intro e
    rcases post.cases with ⟨l, hl, _, rfl⟩ | ⟨_, l, hl, hne, rfl⟩ | ⟨hn, rfl, _⟩
    · obtain ⟨a1, a2, a3⟩ := h.sound l.binding (List.mem_map_of_mem hl)
      have hk : l.key = n := by
        refine inj l.key l.value a2 ?_
        have : l.index = (C.vrfProve vk l.key).1 := a1
        rw [← this]; exact e
      refine ⟨_, _, rfl, rfl, ?_, h.salt l.binding (List.mem_map_of_mem hl), ?_⟩
      · rw [← hk]; exact a2
      · rw [← hk]; exact a3
    · exact absurd e hne
    · have e2 : (emptyPN q).index.length = (q.length + 7) / 8 := toBytes_length q
      rw [e, C.vrf_length] at e2
      omega
  · intro e
    rcases post.cases with ⟨l, hl, he, rfl⟩ | ⟨hn, l, hl, hne, rfl⟩ | ⟨hn, rfl, _⟩
    · exact absurd he e
    · exact ⟨hno hn, rfl⟩
    · exact ⟨hno hn, rfl⟩

/-- A proof of inclusion of any shape that verifies under an honest snapshot opens the honest commitment of that name. -/
theorem mitm_incl {C : Crypto} {vk n : Bytes} {s : STR} {M : Bytes → Option Bytes} {ap' : AuthPath} {pn : ProofNode}
    (hon : HonestLeaf C vk n s M ap' pn) (hN : s.tree.nonce.length = 32) (ap : AuthPath) (v : Bytes)
    (hi : ap.lookupIndex = (C.vrfProve vk n).1) (acc : ap.verify C n v s.core.treeHash = some (.ok ()))
    (l : ProofNode) (hl : ap.leaf = some l) (hidx : ap.lookupIndex = l.index)
    (nw : NoWindow C.hash ap')
    (nc : NoCollision C.hash (openInput ap n v :: openInput ap' n (pn.value.getD []) :: (hashInputs C.hash ap ++ hashInputs C.hash ap'))) :
    ∃ c c' v', l.commitment = some c ∧ pn.commitment = some c' ∧ pn.value = some v' ∧ M n = some v' ∧ c'.salt.length = 32 ∧
      c.salt ++ n ++ v = c'.salt ++ n ++ v' := by
  obtain ⟨l', hl', hacc, cs⟩ := verify_ok acc
  rw [hl] at hl'
  simp only [Option.some.injEq] at hl'
  subst hl'
  have cs' : l.value.getD [] = v ∧ ∃ c, l.commitment = some c ∧ c.value = C.hash (c.salt ++ n ++ v) := by
    rcases cs with ⟨_, h⟩ | ⟨ne, _⟩
    · exact h
    · exact absurd hidx ne
  obtain ⟨hv, c, hc, f⟩ := cs'
  have hil : l.index.length = 32 := by rw [← hidx, hi]; exact C.vrf_length _ _
  obtain ⟨c₁, k₁⟩ := authPathHash_climb hl hacc
  obtain ⟨c₂, k₂⟩ := authPathHash_climb hon.leaf hon.hash
  have nc' : NoCollision C.hash (hashInputs C.hash ap ++ hashInputs C.hash ap') :=
    fun a ha b hb e => nc a (by simp only [List.mem_cons]; exact .inr (.inr ha)) b (by simp only [List.mem_cons]; exact .inr (.inr hb)) e
  have hb : ∀ j, j < l.level.toNat → j < pn.level.toNat → (toBits l.index)[j]? = (toBits pn.index)[j]? := by
    intro j _ h2
    rw [← hidx, hi]; exact hon.path j h2
  have meet := climb_meetH C _ _ _ _ _ _ _ nc' (by rw [hashInputs_of hl]; simp) (by rw [hashInputs_of hon.leaf]; simp)
    l.level.toNat pn.level.toNat 0 s.core.treeHash (fun j _ a b => hb j (by omega) (by omega))
    (fun y hy => by rw [hashInputs_of hl]; simp only [List.mem_append, List.mem_cons]; left; right; simpa using hy)
    (fun y hy => by rw [hashInputs_of hon.leaf]; simp only [List.mem_append, List.mem_cons]; right; right; simpa using hy)
    k₁ k₂
  have inE : l.isEmpty = true → ap'.lookupIndex <:+: leafInput ap.treeNonce l := by
    intro he
    rw [hon.lookup, ← hi, hidx]
    simp only [leafInput, he, if_true]
    exact ⟨[0x45] ++ ap.treeNonce, uint32ToBytes l.level, rfl⟩
  cases meet with
  | firstShort h e mem =>
    exfalso
    cases he : l.isEmpty with
    | true =>
      refine nw _ ?_ (inE he)
      simp only [nodeBytes, hon.leaf, List.mem_append]
      right
      rw [← toBits_eq_bitsOf]
      simpa using mem
    | false =>
      have : (leafInput ap.treeNonce l).length = 69 + ap.treeNonce.length := by
        simp [leafInput, he, hil, hc, f, C.hash_length, uint32ToBytes_len]; omega
      omega
  | secondShort h e =>
    exfalso
    cases he : pn.isEmpty with
    | true =>
      have := (hon.empty he).1
      have hlen : (leafInput ap'.treeNonce pn).length = 37 + (pn.level.toNat + 7) / 8 := by
        simp only [leafInput, he, if_true, List.length_append, List.length_singleton, hon.nonce, hN, this, uint32ToBytes_len]; omega
      have := hon.level
      omega
    | false =>
      obtain ⟨c', hc'⟩ := c₂ he
      have : (leafInput ap'.treeNonce pn).length = 69 + ap'.treeNonce.length := by
        simp [leafInput, he, (hon.user he).1, hc', (hon.user he).2 c' hc', uint32ToBytes_len]; omega
      omega
  | same h e =>
    cases he : l.isEmpty with
    | true =>
      cases he' : pn.isEmpty with
      | false => simp [leafInput, he, he'] at e
      | true =>
        exfalso
        refine nw (leafInput ap'.treeNonce pn) ?_ (e ▸ inE he)
        simp [nodeBytes, hon.leaf, he']
    | false =>
      cases he' : pn.isEmpty with
      | true => simp [leafInput, he, he'] at e
      | false =>
        obtain ⟨d', hd'⟩ := c₂ he'
        simp only [leafInput, he, he', Bool.false_eq_true, if_false, hc, hd', Option.map_some, Option.getD_some] at e
        obtain ⟨e1, e2⟩ := List.append_inj' e (by rw [f, C.hash_length, (hon.user he').2 d' hd'])
        obtain ⟨e3, _⟩ := List.append_inj' e1 (by rw [uint32ToBytes_len, uint32ToBytes_len])
        obtain ⟨_, e4⟩ := List.append_inj' e3 (by rw [hil, (hon.user he').1])
        obtain ⟨c', v', g1, g2, g3, g4, g5⟩ := hon.found (by rw [← e4, ← hidx, hi])
        refine ⟨c, c', v', hc, g1, g2, g3, g4, ?_⟩
        rw [g1, Option.some.injEq] at hd'
        subst hd'
        have o1 : openInput ap n v = c.salt ++ n ++ v := by simp [openInput, hl, hc]
        have o2 : openInput ap' n (pn.value.getD []) = c'.salt ++ n ++ v' := by simp [openInput, hon.leaf, g1, g2]
        rw [o1, o2] at nc
        exact nc _ (by simp) _ (by simp) (by rw [← f, e2, g5])

/-- A well-shaped proof of absence that verifies under an honest snapshot tells the truth. -/
theorem mitm_absent {C : Crypto} {vk n : Bytes} {s : STR} {M : Bytes → Option Bytes} {ap' : AuthPath} {pn : ProofNode}
    (hon : HonestLeaf C vk n s M ap' pn) (hN : s.tree.nonce.length = 32) (ap : AuthPath) (v : Bytes)
    (hi : ap.lookupIndex = (C.vrfProve vk n).1) (acc : ap.verify C n v s.core.treeHash = some (.ok ())) (w : WellShaped ap)
    (l : ProofNode) (hl : ap.leaf = some l) (hidx : ap.lookupIndex ≠ l.index)
    (nc : NoCollision C.hash (hashInputs C.hash ap ++ hashInputs C.hash ap')) : M n = none := by
  obtain ⟨l', hl', hacc, cs⟩ := verify_ok acc
  rw [hl] at hl'
  simp only [Option.some.injEq] at hl'
  subst hl'
  rcases cs with ⟨e, _⟩ | ⟨_, _, hb'⟩
  · exact absurd e hidx
  have hb : ∀ j, j < l.level.toNat → j < pn.level.toNat → (toBits l.index)[j]? = (toBits pn.index)[j]? := by
    intro j h1 h2
    rw [hb' j h1, hi]; exact hon.path j h2
  have hlev := hon.level
  obtain ⟨_, _, e3, _⟩ := same_leaf C ap ap' l pn s.core.treeHash hl hon.leaf hacc hon.hash w.nonce (by rw [hon.nonce, hN])
    (w.user l hl) hon.user (fun h => (w.empty l hl h).1) (fun h => (hon.empty h).1)
    (fun _ hlt => by omega) (fun _ _ => by omega) hb nc
  exact (hon.other (by rw [← e3, ← hi]; exact fun e => hidx e.symm)).1

/-! ### the tree nonce of a directory -/

theorem runLog_nonce (C : Crypto) (ops : List PadOp) : ∀ (p : PAD) (log : List STR), PadInv C p log →
    log.length + numUpdates ops ≤ 2 ^ 64 → ∀ p' log', p.runLog C log ops = some (p', log') → p'.tree.nonce = p.tree.nonce := by
  induction ops with
  | nil =>
    intro p log _ _ p' log' h
    simp only [PAD.runLog, Option.some.injEq, Prod.mk.injEq] at h
    rw [h.1]
  | cons op ops ih =>
    intro p log inv hle p' log' h
    cases op with
    | set rnd k v =>
      obtain ⟨q, h1, h2, _⟩ := pad_set_spec C p log inv rnd k v
      simp only [PAD.runLog, PAD.step, h1, Option.map_some, Option.bind_some, PadOp.issued, List.append_nil] at h
      exact (ih q log h2.inv hle p' log' h).trans h2.nonce
    | update ad =>
      simp only [numUpdates] at hle
      have post := update_spec C p log inv (by omega) ad
      simp only [PAD.runLog, PAD.step, Option.bind_some, PadOp.issued] at h
      exact (ih _ _ post.inv (by simp; omega) p' log' h).trans post.nonce

theorem dirAfter_nonce (C : Crypto) (t0 : UInt64) (sk vk : Bytes) (size : Nat) (r₁ r₂ : Bytes) (ops : List DirOp)
    (hlt : dirUpdates ops < 2 ^ 64) (d : Directory) (log : List STR) (h : dirAfter C t0 sk vk size r₁ r₂ ops = some (d, log)) :
    ∀ s ∈ log, s.tree.nonce.length = 32 := by
  intro s hs
  obtain ⟨inv, _⟩ := dirAfter_padInv C t0 sk vk size r₁ r₂ ops hlt d log h
  obtain ⟨pops, h1, h2⟩ := dirAfter_pad C t0 sk vk size r₁ r₂ ops d log h
  obtain ⟨p, h3, h4, _, _, _, _, _, _, _, _, h5⟩ := newPAD_spec C (newPolicies t0 (C.vrfPub vk)) sk vk size r₁ r₂
  simp only [padAfter, h3] at h1
  have := runLog_nonce C pops p _ h4 (by simp; omega) _ _ h1
  rw [inv.nonce s hs, this, h5]
  exact C.hash_length _

/-! ### the policies in the STRs, prefixes of the log -/

theorem runLog_keys (C : Crypto) (vkp : Bytes) (ops : List DirOp) : ∀ (d : Directory) (log : List STR) d' log',
    d.runLog C log ops = some (d', log') → (∃ t, d.policies = newPolicies t vkp) → (∃ t, d.pad.ad = newPolicies t vkp) →
    (∀ s ∈ log, ∃ t, s.ad = newPolicies t vkp) → (∃ ext, log' = log ++ ext) ∧ ∀ s ∈ log', ∃ t, s.ad = newPolicies t vkp := by
  induction ops with
  | nil =>
    intro d log d' log' h _ _ hl
    simp only [Directory.runLog, Option.some.injEq, Prod.mk.injEq] at h
    obtain ⟨rfl, rfl⟩ := h
    exact ⟨⟨[], by simp⟩, hl⟩
  | cons op ops ih =>
    intro d log d' log' h ⟨t, hp⟩ ha hl
    simp only [Directory.runLog] at h
    obtain ⟨⟨d1, r⟩, h1, h2⟩ := Option.bind_eq_some_iff.mp h
    obtain ⟨p1, p2, p3⟩ := step_policies h1
    have hiss : ∀ s ∈ op.issued d1, op = .update ∧ s = d1.pad.latest := by
      intro s hs
      cases op <;> simp [DirOp.issued] at hs
      exact ⟨rfl, hs⟩
    obtain ⟨⟨ext, he⟩, hx⟩ := ih d1 _ d' log' h2 ⟨_, p1 t vkp hp⟩ (by
      by_cases hu : op = .update
      · exact ⟨t, by rw [(p3 hu).2.1, hp]⟩
      · rw [(p2 hu).1]; exact ha) (by
      intro s hs
      rcases List.mem_append.mp hs with hs | hs
      · exact hl s hs
      · obtain ⟨hu, rfl⟩ := hiss s hs
        rw [(p3 hu).2.2]; exact ha)
    exact ⟨⟨op.issued d1 ++ ext, by rw [he, List.append_assoc]⟩, hx⟩

theorem dirAfter_keys (C : Crypto) (t0 : UInt64) (sk vk : Bytes) (size : Nat) (r₁ r₂ : Bytes) (ops : List DirOp)
    (d : Directory) (log : List STR) (h : dirAfter C t0 sk vk size r₁ r₂ ops = some (d, log)) :
    ∀ s ∈ log, ∃ t, s.ad = newPolicies t (C.vrfPub vk) := by
  obtain ⟨d0, h0, _, h1, h2, h3, _⟩ := new_dir_inv C t0 sk vk size r₁ r₂ []
  simp only [dirAfter, h0, Option.bind_some] at h
  exact (runLog_keys C _ ops d0 _ d log h ⟨_, h1⟩ ⟨_, h2⟩ (by intro s hs; rw [List.mem_singleton.mp hs]; exact ⟨_, h3⟩)).2

theorem dirAfter_prefix (C : Crypto) (t0 : UInt64) (sk vk : Bytes) (size : Nat) (r₁ r₂ : Bytes) (a b : List DirOp)
    (d : Directory) (log : List STR) (h : dirAfter C t0 sk vk size r₁ r₂ (a ++ b) = some (d, log)) (d₁ : Directory) (log₁ : List STR)
    (h₁ : dirAfter C t0 sk vk size r₁ r₂ a = some (d₁, log₁)) : ∃ ext, log = log₁ ++ ext := by
  rw [dirAfter_append, h₁] at h
  have : ∀ (ops : List DirOp) (d : Directory) (log : List STR) d' log', d.runLog C log ops = some (d', log') → ∃ ext, log' = log ++ ext := by
    intro ops
    induction ops with
    | nil =>
      intro d log d' log' h
      simp only [Directory.runLog, Option.some.injEq, Prod.mk.injEq] at h
      exact ⟨[], by simp [h.2]⟩
    | cons op ops ih =>
      intro d log d' log' h
      simp only [Directory.runLog] at h
      obtain ⟨⟨d1, r⟩, h1, h2⟩ := Option.bind_eq_some_iff.mp h
      obtain ⟨ext, he⟩ := ih d1 _ d' log' h2
      exact ⟨op.issued d1 ++ ext, by rw [he, List.append_assoc]⟩
  exact this b d₁ log₁ d log h

theorem set_keeps {C : Crypto} {p p' : PAD} {rnd : Option Bytes} {k v : Bytes} {ok : Bool} (h : p.set C rnd k v = some (p', ok)) :
    p'.latest = p.latest := by
  unfold PAD.set at h
  obtain ⟨⟨t, ok'⟩, _, h⟩ := Option.map_eq_some_iff.mp h
  simp only [Prod.mk.injEq] at h
  rw [← h.1]

/-- the promise in the answer to a successful registration -/
theorem register_success {C : Crypto} {d d' : Directory} {rnd : Option Bytes} {n k : Bytes} {df : DirectoryProof} {tb : TB}
    (h : d.register C rnd ⟨n, k⟩ = some (d', ⟨ReqSuccess, .proof df⟩)) (ht : df.tb = some tb) : tb = d.newTB C n k := by
  unfold Directory.register at h
  split at h
  · simp [newErrorResponse] at h
  · split at h
    · nomatch h
    · simp [newErrorResponse] at h
    · split at h
      · nomatch h
      · simp [newSingleProof, ReqNameExisted, ReqSuccess] at h
      · split at h
        · simp [newSingleProof, ReqNameExisted, ReqSuccess] at h
        · simp only at h
          split at h
          · nomatch h
          · simp [newErrorResponse] at h
          · simp only [newSingleProof, Option.some.injEq, Prod.mk.injEq, Response.mk.injEq, DirectoryResponse.proof.injEq, true_and] at h
            rw [← h.2] at ht
            simp only at ht
            split at ht
            · exact (Option.some.inj ht).symm
            · nomatch ht

structure PromiseFacts (C : Crypto) (sk vk : Bytes) (log : List STR) (strSig n : Bytes) (tb : TB) : Prop where
  index : tb.index = (C.vrfProve vk n).1
  str : ∃ t ∈ log, strSig = t.core.signature
  len : strSig.length = 64

theorem promise_facts {C : Crypto} {t0 : UInt64} {sk vk : Bytes} {size : Nat} {r₁ r₂ : Bytes} {ops : List DirOp}
    (hlt : dirUpdates ops < 2 ^ 64) {d : Directory} {log : List STR} (h : dirAfter C t0 sk vk size r₁ r₂ ops = some (d, log))
    {strSig n : Bytes} {tb : TB} (hp : PromiseMade C t0 sk vk size r₁ r₂ ops strSig n tb) : PromiseFacts C sk vk log strSig n tb := by
  obtain ⟨a, rnd, k, b, da, la, d', ap, rfl, ha, hr, rfl⟩ := hp
  rw [dirUpdates_append] at hlt
  obtain ⟨inv, _, _, hv⟩ := dirAfter_padInv C t0 sk vk size r₁ r₂ a (by omega) da la ha
  obtain ⟨ext, rfl⟩ := dirAfter_prefix C t0 sk vk size r₁ r₂ a _ d log h da la ha
  have htb := register_success hr rfl
  refine ⟨?_, ⟨da.pad.latest, List.mem_append_left _ inv.latest_mem, rfl⟩, ?_⟩
  · rw [htb]
    show (C.vrfProve da.pad.vrfKey n).1 = _
    rw [hv]
  · show (da.pad.latest.core.signature).length = 64
    rw [inv.sig _ inv.latest_mem]; exact C.sign_length _ _

/-! ### what the client holds is genuine -/

/-- `s` has the signed bytes and the signature of the STR number `e` of the log. -/
def Genuine (log : List STR) (e : Nat) (s : DirSTR) : Prop :=
  ∃ t, log[e]? = some t ∧ s.serialize = some t.serialize ∧ s.core.signature = t.core.signature ∧ s.core.epoch = t.core.epoch

theorem serialize_take8 {s : DirSTR} {m : Bytes} (h : s.serialize = some m) : m.take 8 = ulongToBytes s.core.epoch := by
  unfold DirSTR.serialize at h
  obtain ⟨p, _, rfl⟩ := Option.map_eq_some_iff.mp h
  simp only [STRCore.serializeInternal, List.append_assoc]
  exact List.take_left' (ulong_length _)

theorem str_serialize_dir (t : STR) : (STR.toDir t).serialize = some t.serialize := rfl

theorem genuine_step {C : Crypto} {t0 : UInt64} {sk vk : Bytes} {size : Nat} {r₁ r₂ : Bytes} {ops : List DirOp}
    (hlt : dirUpdates ops < 2 ^ 64) {d : Directory} {log : List STR} (h : dirAfter C t0 sk vk size r₁ r₂ ops = some (d, log))
    (free : EpochFree log) {held s : DirSTR} {e : Nat} (g : Genuine log e held)
    (link : Successor C (C.signPub sk) held s)
    (unf : ∀ m, s.serialize = some m → C.verify (C.signPub sk) m s.core.signature = true →
      WasSigned C t0 sk vk size r₁ r₂ ops log m s.core.signature) : ∃ e', Genuine log e' s := by
  obtain ⟨inv, hlen, _, _⟩ := dirAfter_padInv C t0 sk vk size r₁ r₂ ops hlt d log h
  obtain ⟨t, ht, _, _, ge⟩ := g
  obtain ⟨⟨m, hm, hv⟩, lk⟩ := link
  have hel : e < log.length := (List.getElem?_eq_some_iff.mp ht).1
  have hep : s.core.epoch = UInt64.ofNat (e + 1) := by
    rw [lk.epoch, ge, inv.epoch e t ht]
    simp [UInt64.ofNat_add]
  rcases unf m hm hv with ⟨t', ht', rfl, hsig⟩ | ⟨strSig, n, tb, hp, rfl, _⟩
  · obtain ⟨e', he'⟩ := List.getElem?_of_mem ht'
    have he'l : e' < log.length := (List.getElem?_eq_some_iff.mp he').1
    have h8 := serialize_take8 hm
    have h8' := serialize_take8 (str_serialize_dir t')
    have heq : s.core.epoch = t'.core.epoch := ulong_inj (h8.symm.trans h8')
    exact ⟨e', t', he', hm, hsig, heq⟩
  · exfalso
    have pf := promise_facts hlt h hp
    obtain ⟨t', ht', rfl⟩ := pf.str
    refine free t' ht' (e + 1) (by omega) ?_
    have h8 := serialize_take8 hm
    rw [List.append_assoc, List.take_append_of_le_length (by rw [pf.len]; omega)] at h8
    rw [h8, hep]

/-- what `HandleResponse` does to the client's key, its policy and the STR it holds -/
theorem handle_frame {C : Crypto} {cc cc' : Client} {ty : Int} {msg : Response} {uname : Bytes} {key : Option Bytes} {e : Option ErrorCode}
    (h : cc.handleResponse C ty msg uname key = some (cc', e)) :
    cc'.aud.signKey = cc.aud.signKey ∧ cc'.useTBs = cc.useTBs ∧ (cc'.aud.verified = cc.aud.verified ∨
      ∃ df s rest, msg.resp = .proof df ∧ df.str = some s :: rest ∧ cc'.aud.verified = s ∧ Successor C cc.aud.signKey cc.aud.verified s) := by
  rcases handle_cases h with ⟨_, rfl⟩ | ⟨df, s, rest, hr, hs, _, _, hch, hend⟩
  · exact ⟨rfl, rfl, .inl rfl⟩
  · have hf : cc'.aud = cc.aud.update s ∧ cc'.useTBs = cc.useTBs := by
      rcases hend with ⟨_, rfl⟩ | ⟨_, _, cc2, hu, rfl⟩
      · exact ⟨rfl, rfl⟩
      · obtain ⟨a, _, b⟩ := updateTBs_only hu
        exact ⟨a, b⟩
    rw [hf.1, hf.2]
    refine ⟨rfl, rfl, ?_⟩
    rcases hch with rfl | hl
    · exact .inl rfl
    · exact .inr ⟨df, s, rest, hr, hs, rfl, hl⟩

theorem genuine_calls {C : Crypto} {t0 : UInt64} {sk vk : Bytes} {size : Nat} {r₁ r₂ : Bytes} {ops : List DirOp}
    (hlt : dirUpdates ops < 2 ^ 64) {d : Directory} {log : List STR} (h : dirAfter C t0 sk vk size r₁ r₂ ops = some (d, log))
    (free : EpochFree log) (calls : List ClientCall) : ∀ (cc cc' : Client), clientAfter C cc calls = some cc' →
    cc.aud.signKey = C.signPub sk → cc.useTBs = true → (∃ e, Genuine log e cc.aud.verified) →
    (∀ x ∈ calls, Unforged C (C.signPub sk) (WasSigned C t0 sk vk size r₁ r₂ ops log) x.msg) →
    cc'.aud.signKey = C.signPub sk ∧ cc'.useTBs = true ∧ ∃ e, Genuine log e cc'.aud.verified := by
  induction calls with
  | nil =>
    intro cc cc' hc hk ht g _
    simp only [clientAfter, Option.some.injEq] at hc
    subst hc
    exact ⟨hk, ht, g⟩
  | cons c cs ih =>
    intro cc cc' hc hk ht g unf
    simp only [clientAfter] at hc
    obtain ⟨⟨c1, e⟩, h1, h2⟩ := Option.bind_eq_some_iff.mp hc
    refine ih c1 cc' h2 ?_ ?_ ?_ (fun x hx => unf x (List.mem_cons_of_mem _ hx))
    · exact (handle_frame h1).1.trans hk
    · exact (handle_frame h1).2.1.trans ht
    · obtain ⟨e0, g⟩ := g
      rcases (handle_frame h1).2.2 with hs | ⟨df, s, rest, hr, hs, hv, link⟩
      · exact ⟨e0, by rw [hs]; exact g⟩
      · rw [hv]
        rw [hk] at link
        exact genuine_step hlt h free g link ((unf c (List.mem_cons_self ..)) df s rest hr hs).1

/-! ### the fields of the STRs in the log -/

theorem dirAfter_prevHash (C : Crypto) (t0 : UInt64) (sk vk : Bytes) (size : Nat) (r₁ r₂ : Bytes) (ops : List DirOp)
    (hlt : dirUpdates ops < 2 ^ 64) (d : Directory) (log : List STR) (h : dirAfter C t0 sk vk size r₁ r₂ ops = some (d, log)) :
    ∀ t ∈ log, t.core.previousSTRHash.length = 32 := by
  intro t ht
  obtain ⟨inv, _⟩ := dirAfter_padInv C t0 sk vk size r₁ r₂ ops hlt d log h
  obtain ⟨e, he⟩ := List.getElem?_of_mem ht
  cases e with
  | succ e =>
    have hel : e < log.length := by have := (List.getElem?_eq_some_iff.mp he).1; omega
    rw [inv.chain e log[e] t (List.getElem?_eq_getElem hel) he]
    exact C.hash_length _
  | zero =>
    have h0 : ∃ d0, dirAfter C t0 sk vk size r₁ r₂ [] = some (d0, [d0.pad.latest]) ∧ d0.pad.latest.core.previousSTRHash = C.hash r₂ := by
      obtain ⟨d0, h0, _⟩ := new_dir_inv C t0 sk vk size r₁ r₂ []
      refine ⟨d0, by simp only [dirAfter, h0, Option.bind_some, Directory.runLog], ?_⟩
      simp only [newDirectory, newPAD, newMerkleTree, Crypto.makeRand, Crypto.digest, Option.map_some, if_true, Option.some.injEq] at h0
      rw [← h0]
      simp [PAD.updateInternal, newSTR]
    obtain ⟨d0, h0, hp⟩ := h0
    obtain ⟨ext, rfl⟩ := dirAfter_prefix C t0 sk vk size r₁ r₂ [] ops d log h d0 _ h0
    simp only [List.cons_append, List.nil_append, List.getElem?_cons_zero, Option.some.injEq] at he
    rw [← he, hp]
    exact C.hash_length _

/-- a field-wise reading of equal signed bytes -/
theorem signed_fields {s : DirSTR} {p : Policies} {t : STR} (hp : s.policies = some p) (h : s.serialize = some t.serialize) :
    s.core.epoch = t.core.epoch ∧ (s.core.epoch > 0 → s.core.previousEpoch = t.core.previousEpoch) ∧
    p.epochDeadline = t.ad.epochDeadline ∧
    (s.core.treeHash.length = t.core.treeHash.length → s.core.treeHash = t.core.treeHash) ∧
    (p.vrfPublicKey.length = t.ad.vrfPublicKey.length → p.vrfPublicKey = t.ad.vrfPublicKey) ∧
    (s.core.treeHash.length = t.core.treeHash.length → p.vrfPublicKey.length = t.ad.vrfPublicKey.length →
      s.core.previousSTRHash.length = t.core.previousSTRHash.length →
      s.core.previousSTRHash = t.core.previousSTRHash ∧ p.version ++ p.hashID = t.ad.version ++ t.ad.hashID) := by
  obtain ⟨h1, h2, h3, h4⟩ := C05_numbers_always s (STR.toDir t) p t.ad hp rfl h
  refine ⟨h1, h2, h3, ?_, ?_, ?_⟩
  · intro hl
    simp only [List.append_assoc] at h4
    exact (List.append_inj h4 hl).1
  · intro hl
    exact (List.append_inj' h4 hl).2
  · intro l1 l2 l3
    obtain ⟨h5, _⟩ := List.append_inj' h4 l2
    simp only [List.append_assoc] at h5
    obtain ⟨_, h6⟩ := List.append_inj h5 l1
    exact List.append_inj h6 l3

/-! ### honest answers -/

/-- the STR and the promise in the answer to a registration, and the promises afterwards -/
theorem register_answer {C : Crypto} {d d' : Directory} {rnd : Option Bytes} {req : RegistrationRequest} {resp : Response}
    (h : d.register C rnd req = some (d', resp)) :
    d'.pad.latest = d.pad.latest ∧
    (∀ df, resp.resp = .proof df → ∃ ap, df.ap = [some ap] ∧ df.str = [some d.latestSTR] ∧ ∀ tb, df.tb = some tb → d'.tbs req.username = some tb) ∧
    (∀ n tb, d'.tbs n = some tb → d.tbs n = some tb ∨
      n = req.username ∧ ∃ ap, resp = ⟨ReqSuccess, .proof ⟨[some ap], [some d.latestSTR], some tb⟩⟩) := by
  unfold Directory.register at h
  have stay : ∀ {r : Response}, some (d, r) = some (d', resp) →
      (∀ df, r.resp = .proof df → ∃ ap, df.ap = [some ap] ∧ df.str = [some d.latestSTR] ∧ ∀ tb, df.tb = some tb → d.tbs req.username = some tb) →
      d'.pad.latest = d.pad.latest ∧
    (∀ df, resp.resp = .proof df → ∃ ap, df.ap = [some ap] ∧ df.str = [some d.latestSTR] ∧ ∀ tb, df.tb = some tb → d'.tbs req.username = some tb) ∧
    (∀ n tb, d'.tbs n = some tb → d.tbs n = some tb ∨
      n = req.username ∧ ∃ ap, resp = ⟨ReqSuccess, .proof ⟨[some ap], [some d.latestSTR], some tb⟩⟩) := by
    intro r hr g
    simp only [Option.some.injEq, Prod.mk.injEq] at hr
    obtain ⟨rfl, rfl⟩ := hr
    exact ⟨rfl, g, fun n tb hn => .inl hn⟩
  split at h
  · exact stay h (by intro df hd; nomatch hd)
  · split at h
    · nomatch h
    · exact stay h (by intro df hd; nomatch hd)
    · next ap _ =>
      split at h
      · nomatch h
      · exact stay h (by
          intro df hd
          simp only [newSingleProof, DirectoryResponse.proof.injEq] at hd
          subst hd
          exact ⟨ap, rfl, rfl, (by intro tb hd; nomatch hd)⟩)
      · split at h
        · next tb htb =>
          exact stay h (by
            intro df hd
            simp only [newSingleProof, DirectoryResponse.proof.injEq] at hd
            subst hd
            refine ⟨ap, rfl, rfl, fun t ht => ?_⟩
            simp only [Option.some.injEq] at ht
            subst ht
            split at htb
            · exact htb
            · nomatch htb)
        · simp only at h
          split at h
          · nomatch h
          · next pad' hs =>
            simp only [Option.some.injEq, Prod.mk.injEq] at h
            obtain ⟨rfl, rfl⟩ := h
            exact ⟨set_keeps hs, (by intro df hd; nomatch hd), fun n tb hn => .inl hn⟩
          · next pad' hs =>
            have hk := set_keeps hs
            simp only [Option.some.injEq, Prod.mk.injEq] at h
            obtain ⟨rfl, rfl⟩ := h
            refine ⟨hk, ?_, ?_⟩
            · intro df hd
              simp only [newSingleProof, DirectoryResponse.proof.injEq] at hd
              subst hd
              refine ⟨ap, rfl, by simp only [Directory.latestSTR, hk], fun tb htb => ?_⟩
              simp only at htb ⊢
              rw [htb]; simp
            · intro n tb hn
              simp only at hn
              by_cases hu : d.useTBs = true
              · rw [if_pos hu] at hn ⊢
                simp only at hn
                by_cases hnu : n = req.username
                · rw [if_pos hnu, Option.some.injEq] at hn
                  right
                  refine ⟨hnu, ap, ?_⟩
                  rw [← hn]
                  simp only [newSingleProof, Directory.latestSTR, hk]
                · rw [if_neg hnu] at hn; exact .inl hn
              · rw [if_neg hu] at hn; exact .inl hn

theorem lookup_answer {C : Crypto} {d : Directory} {req : KeyLookupRequest} {resp : Response}
    (h : d.keyLookup C req = some resp) (df : DirectoryProof) (hd : resp.resp = .proof df) :
    ∃ ap, df.ap = [some ap] ∧ df.str = [some d.latestSTR] ∧ ∀ tb, df.tb = some tb → d.tbs req.username = some tb := by
  unfold Directory.keyLookup at h
  split at h
  · cases h; nomatch hd
  · split at h
    · nomatch h
    · cases h; nomatch hd
    · next ap _ =>
      split at h
      · nomatch h
      · cases h; cases hd; exact ⟨ap, rfl, rfl, (by intro tb hd; nomatch hd)⟩
      · split at h
        · next tb htb =>
          cases h; cases hd
          refine ⟨ap, rfl, rfl, fun t ht => ?_⟩
          cases ht
          split at htb
          · exact htb
          · nomatch htb
        · cases h; cases hd; exact ⟨ap, rfl, rfl, (by intro tb hd; nomatch hd)⟩

theorem promise_extend {C : Crypto} {t0 : UInt64} {sk vk : Bytes} {size : Nat} {r₁ r₂ : Bytes} {ops : List DirOp} {g n : Bytes} {tb : TB}
    (h : PromiseMade C t0 sk vk size r₁ r₂ ops g n tb) (more : List DirOp) : PromiseMade C t0 sk vk size r₁ r₂ (ops ++ more) g n tb := by
  obtain ⟨a, rnd, k, b, d, log, d', ap, rfl, h⟩ := h
  exact ⟨a, rnd, k, b ++ more, d, log, d', ap, by simp, h⟩

/-- every promise the directory remembers was made for the latest STR -/
theorem promises_made (C : Crypto) (t0 : UInt64) (sk vk : Bytes) (size : Nat) (r₁ r₂ : Bytes) (l : List DirOp) :
    ∀ ops, ops.reverse = l → ∀ d log, dirAfter C t0 sk vk size r₁ r₂ ops = some (d, log) → ∀ n tb, d.tbs n = some tb →
      PromiseMade C t0 sk vk size r₁ r₂ ops d.pad.latest.core.signature n tb := by
  induction l with
  | nil =>
    intro ops hr d log h n tb htb
    rw [List.reverse_eq_nil_iff] at hr
    subst hr
    obtain ⟨d0, h0, inv, _⟩ := new_dir_inv C t0 sk vk size r₁ r₂ []
    simp only [dirAfter, h0, Option.bind_some, Directory.runLog, Option.some.injEq, Prod.mk.injEq] at h
    obtain ⟨rfl, _⟩ := h
    rw [inv.tbs n] at htb
    simp [AbsDir.init] at htb
  | cons op l ih =>
    intro ops hr d log h n tb htb
    have : ops = l.reverse ++ [op] := by rw [← List.reverse_reverse ops, hr]; simp
    subst this
    rw [dirAfter_append] at h
    obtain ⟨⟨d1, log1⟩, h1, h2⟩ := Option.bind_eq_some_iff.mp h
    simp only [Directory.runLog] at h2
    obtain ⟨⟨d2, r⟩, h3, h4⟩ := Option.bind_eq_some_iff.mp h2
    simp only [Option.some.injEq, Prod.mk.injEq] at h4
    obtain ⟨rfl, _⟩ := h4
    have old := ih l.reverse (by simp) d1 log1 h1 n tb
    have same : ∀ {x : Go Response}, (x.map fun r => (d1, some r)) = some (d2, r) → d2 = d1 := by
      intro x hx
      obtain ⟨y, _, hy⟩ := Option.map_eq_some_iff.mp hx
      exact (congrArg Prod.fst hy).symm
    cases op with
    | register rnd req =>
      obtain ⟨⟨d3, resp⟩, h5, h6⟩ := Option.map_eq_some_iff.mp h3
      simp only [Prod.mk.injEq] at h6
      obtain ⟨rfl, _⟩ := h6
      obtain ⟨g1, _, g3⟩ := register_answer h5
      rw [g1]
      rcases g3 n tb htb with ho | ⟨rfl, ap, rfl⟩
      · exact promise_extend (old ho) _
      · exact ⟨l.reverse, rnd, req.key, [], d1, log1, d3, ap, by simp, h1, h5, rfl⟩
    | keyLookup req => rw [same h3] at htb ⊢; exact promise_extend (old htb) _
    | keyLookupInEpoch req => rw [same h3] at htb ⊢; exact promise_extend (old htb) _
    | monitor req => rw [same h3] at htb ⊢; exact promise_extend (old htb) _
    | getSTRHistory req => rw [same h3] at htb ⊢; exact promise_extend (old htb) _
    | setPolicies t =>
      simp only [Directory.step, Option.some.injEq, Prod.mk.injEq] at h3
      rw [← h3.1] at htb ⊢
      exact promise_extend (old htb) _
    | update =>
      simp only [Directory.step, Option.some.injEq, Prod.mk.injEq] at h3
      rw [← h3.1] at htb
      simp [Directory.update] at htb

end Coniks

import Verif.Spec.Split
import Verif.Props.Auditor
import Verif.Props.ClientSafety
import Verif.Props.Session
/-
C51: split views. What two clients of one directory, however malicious, can be made to believe.
-/
namespace Coniks.Props
open Coniks Spec

theorem treeSays_of {msg : Response} {ap : AuthPath} {str : DirSTR} {tb : Option TB} {leaf : ProofNode} (hc : Carries msg ap str tb)
    (hl : ap.leaf = some leaf) : treeSays msg = some (if ap.lookupIndex = leaf.index then some (leaf.value.getD []) else none) := by
  obtain ⟨_, _, h⟩ := hc
  simp [treeSays, h, hl]

theorem proofInputs_of {C : Crypto} {msg : Response} {ap : AuthPath} {str : DirSTR} {tb : Option TB} {name : Bytes} {leaf : ProofNode}
    (hc : Carries msg ap str tb) (hl : ap.leaf = some leaf) :
    proofInputs C msg name = openInput ap name (leaf.value.getD []) :: hashInputs C.hash ap := by
  obtain ⟨_, _, h⟩ := hc
  simp [proofInputs, h, hl]

theorem noColl_sub {h : Bytes → Bytes} {l l' : List Bytes} (nc : NoCollision h l) (hs : ∀ x ∈ l', x ∈ l) : NoCollision h l' :=
  fun a ha b hb e => nc a (hs a ha) b (hs b hb) e

/-- C51, PARTIAL. Two clients ask for the same name and accept the answers they get, with or without an expectation, as registration or
lookup. If they then hold STRs with the same content, the proofs say the same about the tree: the same key, or absence. The rest of the claim
is false: the proofs must be shaped like honest ones, which the client does not check (see the counterexample). Hash collisions among what
the two clients hashed, and two VRF values for one name, are excluded by hypothesis. -/
theorem C51_same_str_same_view_partial (C : Crypto) (c₁ c₂ c₁' c₂' : Client) (t₁ : c₁.useTBs = true) (t₂ : c₂.useTBs = true)
    (ty₁ ty₂ : Int) (m₁ m₂ : Response) (name : Bytes) (k₁ k₂ : Option Bytes)
    (h₁ : c₁.handleResponse C ty₁ m₁ name k₁ = some (c₁', none)) (h₂ : c₂.handleResponse C ty₂ m₂ name k₂ = some (c₂', none))
    (same : SameSTR c₁'.aud.verified c₂'.aud.verified)
    (s₁ : ShapedProof m₁) (s₂ : ShapedProof m₂)
    (uniq : ∀ pol, c₁'.aud.verified.policies = some pol → VrfAgree C pol.vrfPublicKey name m₁ m₂)
    (nc : NoCollision C.hash (proofInputs C m₁ name ++ proofInputs C m₂ name)) :
    ∃ view, treeSays m₁ = some view ∧ treeSays m₂ = some view ∧
      ∀ v, view = some v → (∀ k, k₁ = some k → k = v) ∧ (∀ k, k₂ = some k → k = v) := by
  obtain ⟨ap₁, str₁, tb₁, l₁, p₁, car₁, v₁, _, pol₁, vrf₁, leaf₁, in₁, _, ab₁⟩ := C34_acceptance C c₁ c₁' t₁ ty₁ m₁ name k₁ h₁
  obtain ⟨ap₂, str₂, tb₂, l₂, p₂, car₂, v₂, _, pol₂, vrf₂, leaf₂, in₂, _, ab₂⟩ := C34_acceptance C c₂ c₂' t₂ ty₂ m₂ name k₂ h₂
  rw [v₁, v₂] at same
  rw [v₁] at uniq
  have hp : p₁ = p₂ := by
    have := same.policies
    rw [pol₁, pol₂] at this
    exact Option.some.inj this
  subst hp
  have hidx : ap₁.lookupIndex = ap₂.lookupIndex := uniq p₁ pol₁ _ _ _ _ _ _ car₁ car₂ vrf₁ vrf₂
  obtain ⟨w₁, u₁⟩ := s₁ _ _ _ car₁
  obtain ⟨w₂, u₂⟩ := s₂ _ _ _ car₂
  have ver : ∀ (ap : AuthPath) (l : ProofNode) (th : Bytes) (k : Option Bytes),
      (ap.lookupIndex = l.index → ap.verify C name (l.value.getD []) th = some (.ok ()) ∧ ∀ x, k = some x → l.value.getD [] = x) →
      (ap.lookupIndex ≠ l.index → l.value = none ∧ ∀ v, ap.verify C name v th = some (.ok ())) →
      ap.verify C name (l.value.getD []) th = some (.ok ()) := by
    intro ap l th k a b
    by_cases e : ap.lookupIndex = l.index
    · exact (a e).1
    · exact (b e).2 _
  have a₁ := ver ap₁ l₁ str₁.core.treeHash k₁ in₁ ab₁
  have a₂ := ver ap₂ l₂ str₂.core.treeHash k₂ in₂ ab₂
  rw [← same.treeHash] at a₂
  rw [proofInputs_of car₁ leaf₁, proofInputs_of car₂ leaf₂] at nc
  obtain ⟨ht, hv⟩ := C14_no_contradiction_partial C ap₁ ap₂ ap₂.lookupIndex name _ _ _ hidx rfl a₁ a₂ w₁ w₂ u₁ u₂
    (noColl_sub nc (by intro x hx; rcases List.mem_append.mp hx with h | h <;> simp [h]))
    (noColl_sub nc (by
      intro x hx
      rcases List.mem_cons.mp hx with h | h
      · simp [h]
      · rw [List.mem_singleton.mp h]; simp))
  have pt : ∀ (ap : AuthPath) (l : ProofNode), ap.leaf = some l →
      ap.proofType = some (if ap.lookupIndex = l.index then .inclusion else .absence) := by
    intro ap l h; simp [AuthPath.proofType, h]
  rw [pt _ _ leaf₁, pt _ _ leaf₂] at ht
  rw [pt _ _ leaf₁] at hv
  refine ⟨_, treeSays_of car₁ leaf₁, ?_, ?_⟩
  · rw [treeSays_of car₂ leaf₂]
    by_cases e₁ : ap₁.lookupIndex = l₁.index
    · by_cases e₂ : ap₂.lookupIndex = l₂.index
      · rw [if_pos e₁] at hv
        rw [if_pos e₁, if_pos e₂, hv rfl]
      · rw [if_pos e₁, if_neg e₂] at ht; nomatch ht
    · by_cases e₂ : ap₂.lookupIndex = l₂.index
      · rw [if_neg e₁, if_pos e₂] at ht; nomatch ht
      · rw [if_neg e₁, if_neg e₂]
  · intro v hview
    by_cases e₁ : ap₁.lookupIndex = l₁.index
    · rw [if_pos e₁] at hview hv
      have e₂ : ap₂.lookupIndex = l₂.index := by
        by_cases e₂ : ap₂.lookupIndex = l₂.index
        · exact e₂
        · rw [if_pos e₁, if_neg e₂] at ht; nomatch ht
      have hv := hv rfl
      have hview := Option.some.inj hview
      exact ⟨fun k hk => ((in₁ e₁).2 k hk).symm.trans hview, fun k hk => ((in₂ e₂).2 k hk).symm.trans (hv.symm.trans hview)⟩
    · rw [if_neg e₁] at hview; nomatch hview

/-- as `C32_forward_chain`, with the STRs among those held -/
theorem held_chain (C : Crypto) (calls : List ClientCall) : ∀ (cc cc' : Client), clientAfter C cc calls = some cc' →
    ∃ l : List DirSTR, l[0]? = some cc.aud.verified ∧ l.getLast? = some cc'.aud.verified ∧ Chain C cc.aud.signKey l ∧
      l.length ≤ calls.length + 1 ∧ ∀ s ∈ l, s ∈ heldSTRs C cc calls := by
  induction calls with
  | nil => intro cc cc' h; cases h; exact ⟨[cc.aud.verified], rfl, rfl, chain_single _ _ _, by simp, fun s h => h⟩
  | cons c cs ih =>
    intro cc cc' h
    obtain ⟨⟨c1, e⟩, h1, h2⟩ := Option.bind_eq_some_iff.mp h
    obtain ⟨hk, hs⟩ := C32_one_call C cc c1 c.ty c.msg c.uname c.key e h1
    obtain ⟨l, g1, g2, g3, g5, g6⟩ := ih c1 cc' h2
    rw [hk] at g3
    have hh : heldSTRs C cc (c :: cs) = cc.aud.verified :: heldSTRs C c1 cs := by simp [heldSTRs, h1]
    rw [hh]
    rcases hs with hs | hs
    · exact ⟨l, by rw [g1, hs], g2, g3, by simp; omega, fun s h => List.mem_cons_of_mem _ (g6 s h)⟩
    · cases l with
      | nil => simp at g1
      | cons x r =>
        simp only [List.getElem?_cons_zero, Option.some.injEq] at g1
        subst g1
        refine ⟨cc.aud.verified :: c1.aud.verified :: r, rfl, ?_, (chain_cons ..).mpr ⟨hs, g3⟩, by simpa using g5, ?_⟩
        · rw [List.getLast?_cons_cons]; exact g2
        · intro s hs'
          rcases List.mem_cons.mp hs' with h | h
          · rw [h]; exact List.mem_cons_self
          · exact List.mem_cons_of_mem _ (g6 s h)

/-- C51, over time, PARTIAL in the same way. Two clients accept answers for the same name in the same epoch, go on for any number of calls, and
end with the same STR. Then the two answers said the same, however long ago they were: a directory that showed them different keys can never
again show them one STR (as far as the STRs have regular lengths, C41). -/
theorem C51_forever_partial (C : Crypto) (c₁ c₂ c₁' c₂' f₁ f₂ : Client) (t₁ : c₁.useTBs = true) (t₂ : c₂.useTBs = true)
    (ty₁ ty₂ : Int) (m₁ m₂ : Response) (name : Bytes) (k₁ k₂ : Option Bytes) (later₁ later₂ : List ClientCall)
    (hkey : c₁'.aud.signKey = c₂'.aud.signKey)
    (h₁ : c₁.handleResponse C ty₁ m₁ name k₁ = some (c₁', none)) (h₂ : c₂.handleResponse C ty₂ m₂ name k₂ = some (c₂', none))
    (hep : c₁'.aud.verified.core.epoch = c₂'.aud.verified.core.epoch)
    (g₁ : clientAfter C c₁' later₁ = some f₁) (g₂ : clientAfter C c₂' later₂ = some f₂) (hend : f₁.aud.verified = f₂.aud.verified)
    (n₁ : later₁.length < 2 ^ 64) (n₂ : later₂.length < 2 ^ 64)
    (sg : ∀ s ∈ heldSTRs C c₁' later₁ ++ heldSTRs C c₂' later₂, Signed C c₁'.aud.signKey s ∧ Regular s)
    (nc' : NoCollision C.hash ((heldSTRs C c₁' later₁ ++ heldSTRs C c₂' later₂).map fun s => s.core.signature))
    (bind : SigBinding C c₁'.aud.signKey (heldSTRs C c₁' later₁ ++ heldSTRs C c₂' later₂))
    (s₁ : ShapedProof m₁) (s₂ : ShapedProof m₂)
    (uniq : ∀ pol, c₁'.aud.verified.policies = some pol → VrfAgree C pol.vrfPublicKey name m₁ m₂)
    (nc : NoCollision C.hash (proofInputs C m₁ name ++ proofInputs C m₂ name)) :
    SameSTR c₁'.aud.verified c₂'.aud.verified ∧
    ∃ view, treeSays m₁ = some view ∧ treeSays m₂ = some view ∧
      ∀ v, view = some v → (∀ k, k₁ = some k → k = v) ∧ (∀ k, k₂ = some k → k = v) := by
  obtain ⟨l₁, a1, a2, a3, a4, a5⟩ := held_chain C later₁ c₁' f₁ g₁
  obtain ⟨l₂, b1, b2, b3, b4, b5⟩ := held_chain C later₂ c₂' f₂ g₂
  rw [← hkey] at b3
  have p1 : 0 < l₁.length := (List.getElem?_eq_some_iff.mp a1).1
  have p2 : 0 < l₂.length := (List.getElem?_eq_some_iff.mp b1).1
  have e1 : l₁[l₁.length - 1]? = some f₁.aud.verified := by rw [List.getLast?_eq_getElem?] at a2; exact a2
  have e2 : l₂[l₂.length - 1]? = some f₁.aud.verified := by rw [List.getLast?_eq_getElem?] at b2; rw [hend]; exact b2
  have x1 := chain_epoch a3 0 (l₁.length - 1) _ _ a1 (by rw [Nat.zero_add]; exact e1)
  have x2 := chain_epoch b3 0 (l₂.length - 1) _ _ b1 (by rw [Nat.zero_add]; exact e2)
  have hlen : l₁.length = l₂.length := by
    rw [x1, hep] at x2
    have := congrArg UInt64.toNat ((UInt64.add_right_inj _).mp x2)
    rw [UInt64.toNat_ofNat_of_lt' (by unfold UInt64.size; omega), UInt64.toNat_ofNat_of_lt' (by unfold UInt64.size; omega)] at this
    omega
  have hsub : ∀ s ∈ l₁ ++ l₂, s ∈ heldSTRs C c₁' later₁ ++ heldSTRs C c₂' later₂ := by
    intro s hs
    rcases List.mem_append.mp hs with h | h
    · exact List.mem_append_left _ (a5 s h)
    · exact List.mem_append_right _ (b5 s h)
  have same : SameSTR c₁'.aud.verified c₂'.aud.verified := by
    refine C41_same_past_partial C c₁'.aud.signKey l₁ l₂ a3 b3 (fun s hs => (sg s (hsub s hs)).1) (fun s hs => (sg s (hsub s hs)).2)
      (noColl_sub nc' ?_) (fun a ha b hb => bind a (hsub a ha) b (hsub b hb)) (l₁.length - 1) (l₂.length - 1) _ e1 e2 (l₁.length - 1) _ _ (by omega) (by omega)
      (by rw [Nat.sub_self]; exact a1) (by rw [hlen, Nat.sub_self]; exact b1)
    intro x hx
    obtain ⟨s, hs, rfl⟩ := List.mem_map.mp hx
    exact List.mem_map.mpr ⟨s, hsub s hs, rfl⟩
  exact ⟨same, C51_same_str_same_view_partial C c₁ c₂ c₁' c₂' t₁ t₂ ty₁ ty₂ m₁ m₂ name k₁ k₂ h₁ h₂ same s₁ s₂ uniq nc⟩

/-- C51, promises: if two clients hold promises of different keys for one name, then no two answers that show the name in the tree make both
accept a lookup under one STR: at least one client notices. -/
theorem C51_split_promise_noticed_partial (C : Crypto) (c₁ c₂ c₁' c₂' : Client) (t₁ : c₁.useTBs = true) (t₂ : c₂.useTBs = true)
    (m₁ m₂ : Response) (name : Bytes) (k₁ k₂ : Option Bytes) (p₁ p₂ : TB) (hp₁ : c₁.tbs name = some p₁) (hp₂ : c₂.tbs name = some p₂)
    (hne : p₁.value ≠ p₂.value)
    (h₁ : c₁.handleResponse C KeyLookupType m₁ name k₁ = some (c₁', none))
    (h₂ : c₂.handleResponse C KeyLookupType m₂ name k₂ = some (c₂', none))
    (v₁ v₂ : Bytes) (in₁ : treeSays m₁ = some (some v₁)) (in₂ : treeSays m₂ = some (some v₂))
    (s₁ : ShapedProof m₁) (s₂ : ShapedProof m₂)
    (uniq : ∀ pol, c₁'.aud.verified.policies = some pol → VrfAgree C pol.vrfPublicKey name m₁ m₂)
    (nc : NoCollision C.hash (proofInputs C m₁ name ++ proofInputs C m₂ name)) :
    ¬ SameSTR c₁'.aud.verified c₂'.aud.verified := by
  intro same
  obtain ⟨view, w1, w2, _⟩ := C51_same_str_same_view_partial C c₁ c₂ c₁' c₂' t₁ t₂ _ _ m₁ m₂ name k₁ k₂ h₁ h₂ same s₁ s₂ uniq nc
  have val : ∀ (c c' : Client) (ht : c.useTBs = true) (m : Response) (k : Option Bytes) (p : TB) (v : Bytes), c.tbs name = some p →
      c.handleResponse C KeyLookupType m name k = some (c', none) → treeSays m = some (some v) → v = p.value := by
    intro c c' ht m k p v hp h hv
    obtain ⟨ap, str, tb, l, _, car, _, _, _, _, hl, _⟩ := C34_acceptance C c c' ht _ m name k h
    rw [treeSays_of car hl] at hv
    by_cases e : ap.lookupIndex = l.index
    · rw [if_pos e] at hv
      have := (C36_fulfilled_partial C c c' ht m name k h p hp ap str tb l car hl e).2.1
      rw [← this]; simpa using hv.symm
    · rw [if_neg e] at hv; simp at hv
  have x1 := val c₁ c₁' t₁ m₁ k₁ p₁ v₁ hp₁ h₁ in₁
  have x2 := val c₂ c₂' t₂ m₂ k₂ p₂ v₂ hp₂ h₂ in₂
  rw [in₁] at w1
  rw [in₂] at w2
  apply hne
  rw [← x1, ← x2]
  have := w1.trans w2.symm
  simpa using this

/-! ### concrete cases -/

/-- a computable form of the shape conditions -/
def shapedB (msg : Response) : Bool :=
  match msg.resp with
  | .proof ⟨some ap :: _, some _ :: _, _⟩ =>
    match ap.leaf with
    | none => decide (ap.treeNonce.length = 32)
    | some l => decide (ap.treeNonce.length = 32 ∧
        (l.isEmpty = false → l.index.length = 32 ∧ ∀ c ∈ l.commitment.toList, c.value.length = 32) ∧
        (l.isEmpty = true → (l.index.length = (l.level.toNat + 7) / 8 ∧ l.index ≠ ap.lookupIndex) ∧ ¬ (209 ≤ l.level.toNat ∧ l.level.toNat ≤ 216)) ∧
        (l.index = ap.lookupIndex → ∀ c ∈ l.commitment.toList, c.salt.length = 32))
  | _ => false

theorem shaped_of {msg : Response} (h : shapedB msg = true) : ShapedProof msg := by
  rintro ap str tb ⟨aps, strs, hm⟩
  unfold shapedB at h
  rw [hm] at h
  simp only at h
  cases hl : ap.leaf with
  | none =>
    rw [hl] at h
    refine ⟨⟨of_decide_eq_true h, ?_, ?_, ?_⟩, ?_⟩
    all_goals intro l hl'; rw [hl] at hl'; nomatch hl'
  | some l =>
    rw [hl] at h
    obtain ⟨h1, h2, h3, h4⟩ := of_decide_eq_true h
    refine ⟨⟨h1, ?_, ?_, ?_⟩, ?_⟩
    · intro l' e he; rw [hl] at e; cases e
      exact ⟨(h2 he).1, fun c hc => (h2 he).2 c (by simp [hc])⟩
    · intro l' e he; rw [hl] at e; cases e
      exact (h3 he).1
    · intro l' e he c hc; rw [hl] at e; cases e
      exact h4 he c (by simp [hc])
    · intro l' e he; rw [hl] at e; cases e
      exact (h3 he).2

theorem toy_vrfAgree (pk name : Bytes) (m₁ m₂ : Response) : VrfAgree Crypto.toy pk name m₁ m₂ := by
  intro ap₁ ap₂ _ _ _ _ _ _ h₁ h₂
  have h₁ : (ap₁.lookupIndex == toyHash (pk ++ name) && ap₁.vrfProof.length == 96) = true := h₁
  have h₂ : (ap₂.lookupIndex == toyHash (pk ++ name) && ap₂.vrfProof.length == 96) = true := h₂
  rw [Bool.and_eq_true, beq_iff_eq] at h₁ h₂
  rw [h₁.1, h₂.1]

instance (s : DirSTR) : Decidable (Regular s) :=
  decidable_of_iff (s.core.treeHash.length = 32 ∧ s.core.previousSTRHash.length = 32 ∧
    ∃ p ∈ s.policies, p.version.length = versionString.length ∧ p.hashID.length = hashIDString.length)
    ⟨fun ⟨a, b, p, h, c⟩ => ⟨a, b, p, h, c⟩, fun ⟨a, b, p, h, c⟩ => ⟨a, b, p, h, c⟩⟩

/-- The signature on an STR is what the key `[1]` makes of it. -/
def toySigned (s : DirSTR) : Bool := s.serialize.any fun m => s.core.signature == Crypto.toy.sign [1] m

theorem signed_of_toySigned {s : DirSTR} (h : toySigned s = true) : Signed Crypto.toy (Crypto.toy.signPub [1]) s := by
  unfold toySigned at h
  cases hs : s.serialize with
  | none => rw [hs] at h; nomatch h
  | some m =>
    rw [hs] at h
    have h : (s.core.signature == Crypto.toy.sign [1] m) = true := h
    rw [beq_iff_eq] at h
    exact ⟨m, hs, by rw [h]; exact Crypto.toy.verify_sign [1] m⟩

/-- the hypotheses of `C51_forever_partial` (so also of `C51_same_str_same_view_partial`) are met: after alice has registered, one client looks her
up with an expectation and the other tries to register her name, in epoch 1; in epoch 2 both look her up -/
example : ∃ (c₁ c₂ c₁' c₂' f₁ f₂ : Client) (m₁ m₂ : Response) (later : List ClientCall),
    c₁.handleResponse Crypto.toy KeyLookupType m₁ [0x61] (some [9, 9]) = some (c₁', none) ∧
    c₂.handleResponse Crypto.toy RegistrationType m₂ [0x61] none = some (c₂', none) ∧
    clientAfter Crypto.toy c₁' later = some f₁ ∧ clientAfter Crypto.toy c₂' later = some f₂ ∧ f₁.aud.verified = f₂.aud.verified ∧
    f₁.aud.verified.core.epoch = 2 ∧ ShapedProof m₁ ∧ ShapedProof m₂ ∧
    (∀ pol, c₁'.aud.verified.policies = some pol → VrfAgree Crypto.toy pol.vrfPublicKey [0x61] m₁ m₂) ∧
    NoCollision Crypto.toy.hash (proofInputs Crypto.toy m₁ [0x61] ++ proofInputs Crypto.toy m₂ [0x61]) ∧
    c₁'.aud.signKey = Crypto.toy.signPub [1] ∧ c₂'.aud.signKey = Crypto.toy.signPub [1] ∧
    (∀ s ∈ heldSTRs Crypto.toy c₁' later ++ heldSTRs Crypto.toy c₂' later, Signed Crypto.toy (Crypto.toy.signPub [1]) s ∧ Regular s) ∧
    NoCollision Crypto.toy.hash ((heldSTRs Crypto.toy c₁' later ++ heldSTRs Crypto.toy c₂' later).map fun s => s.core.signature) ∧
    SigBinding Crypto.toy (Crypto.toy.signPub [1]) (heldSTRs Crypto.toy c₁' later ++ heldSTRs Crypto.toy c₂' later) ∧
    treeSays m₁ = some (some [9, 9]) := by
  have key : ((dirAfter Crypto.toy 5 [1] [2] 10 [3] [4] []).bind fun x =>
      (dirAfter Crypto.toy 5 [1] [2] 10 [3] [4] toyOps).bind fun y =>
      (dirAfter Crypto.toy 5 [1] [2] 10 [3] [4] (toyOps ++ [.update])).bind fun z =>
      (y.1.keyLookup Crypto.toy ⟨[0x61]⟩).bind fun m₁ =>
      (y.1.register Crypto.toy (some [5]) ⟨[0x61], [1]⟩).bind fun m₂ =>
      (z.1.keyLookup Crypto.toy ⟨[0x61]⟩).bind fun m₃ =>
      ((toyClient x.1.latestSTR).handleResponse Crypto.toy KeyLookupType m₁ [0x61] (some [9, 9])).bind fun c₁ =>
      ((toyClient x.1.latestSTR).handleResponse Crypto.toy RegistrationType m₂.2 [0x61] none).bind fun c₂ =>
      (clientAfter Crypto.toy c₁.1 [⟨KeyLookupType, m₃, [0x61], none⟩]).bind fun f₁ =>
      (clientAfter Crypto.toy c₂.1 [⟨KeyLookupType, m₃, [0x61], none⟩]).map fun f₂ =>
      decide (c₁.2 = none ∧ c₂.2 = none ∧ f₁.aud.verified = f₂.aud.verified ∧ f₁.aud.verified.core.epoch = 2 ∧
        shapedB m₁ = true ∧ shapedB m₂.2 = true ∧
        NoCollision Crypto.toy.hash (proofInputs Crypto.toy m₁ [0x61] ++ proofInputs Crypto.toy m₂.2 [0x61]) ∧
        (c₁.1.aud.signKey = Crypto.toy.signPub [1] ∧ c₂.1.aud.signKey = Crypto.toy.signPub [1]) ∧
        (∀ s ∈ heldSTRs Crypto.toy c₁.1 [⟨KeyLookupType, m₃, [0x61], none⟩] ++ heldSTRs Crypto.toy c₂.1 [⟨KeyLookupType, m₃, [0x61], none⟩],
          toySigned s = true ∧ Regular s) ∧
        NoCollision Crypto.toy.hash ((heldSTRs Crypto.toy c₁.1 [⟨KeyLookupType, m₃, [0x61], none⟩] ++
          heldSTRs Crypto.toy c₂.1 [⟨KeyLookupType, m₃, [0x61], none⟩]).map fun s => s.core.signature) ∧
        (∀ a ∈ heldSTRs Crypto.toy c₁.1 [⟨KeyLookupType, m₃, [0x61], none⟩] ++ heldSTRs Crypto.toy c₂.1 [⟨KeyLookupType, m₃, [0x61], none⟩],
          ∀ b ∈ heldSTRs Crypto.toy c₁.1 [⟨KeyLookupType, m₃, [0x61], none⟩] ++ heldSTRs Crypto.toy c₂.1 [⟨KeyLookupType, m₃, [0x61], none⟩],
          a.core.signature = b.core.signature → a.serialize = b.serialize) ∧
        treeSays m₁ = some (some [9, 9]))) = some true := by
    rw [dirAfterE_eq, dirAfterE_eq, dirAfterE_eq]; simp only [registerE_eq]; decide +kernel
  obtain ⟨x, _, key⟩ := Option.bind_eq_some_iff.mp key
  obtain ⟨y, _, key⟩ := Option.bind_eq_some_iff.mp key
  obtain ⟨z, _, key⟩ := Option.bind_eq_some_iff.mp key
  obtain ⟨m₁, _, key⟩ := Option.bind_eq_some_iff.mp key
  obtain ⟨m₂, _, key⟩ := Option.bind_eq_some_iff.mp key
  obtain ⟨m₃, _, key⟩ := Option.bind_eq_some_iff.mp key
  obtain ⟨⟨c₁, e₁⟩, g1, key⟩ := Option.bind_eq_some_iff.mp key
  obtain ⟨⟨c₂, e₂⟩, g2, key⟩ := Option.bind_eq_some_iff.mp key
  obtain ⟨f₁, g3, key⟩ := Option.bind_eq_some_iff.mp key
  obtain ⟨f₂, g4, key⟩ := Option.map_eq_some_iff.mp key
  obtain ⟨rfl, rfl, k1, k2, k3, k4, k5, ⟨k6, k6'⟩, k7, k8, k9, k10⟩ := of_decide_eq_true key
  exact ⟨_, _, c₁, c₂, f₁, f₂, m₁, m₂.2, _, g1, g2, g3, g4, k1, k2, shaped_of k3, shaped_of k4, fun _ _ => toy_vrfAgree _ _ _ _, k5, k6, k6',
    fun s hs => ⟨signed_of_toySigned (k7 s hs).1, (k7 s hs).2⟩, k8, fun a ha b hb e _ _ => k9 a ha b hb e, k10⟩

/-- the hypotheses of `C51_split_promise_noticed_partial` are met: a directory forks, promises one name to two clients with different keys and
keeps both promises -/
example : ∃ (c₁ c₂ c₁' c₂' : Client) (m₁ m₂ : Response) (p₁ p₂ : TB), c₁.tbs [0x61] = some p₁ ∧ c₂.tbs [0x61] = some p₂ ∧
    p₁.value ≠ p₂.value ∧ c₁.handleResponse Crypto.toy KeyLookupType m₁ [0x61] none = some (c₁', none) ∧
    c₂.handleResponse Crypto.toy KeyLookupType m₂ [0x61] none = some (c₂', none) ∧
    treeSays m₁ = some (some [9, 9]) ∧ treeSays m₂ = some (some [7]) ∧ ShapedProof m₁ ∧ ShapedProof m₂ ∧
    (∀ pol, c₁'.aud.verified.policies = some pol → VrfAgree Crypto.toy pol.vrfPublicKey [0x61] m₁ m₂) ∧
    NoCollision Crypto.toy.hash (proofInputs Crypto.toy m₁ [0x61] ++ proofInputs Crypto.toy m₂ [0x61]) := by
  have key : ((dirAfter Crypto.toy 5 [1] [2] 10 [3] [4] []).bind fun x =>
      (x.1.register Crypto.toy (some [5]) ⟨[0x61], [9, 9]⟩).bind fun y₁ => (x.1.register Crypto.toy (some [5]) ⟨[0x61], [7]⟩).bind fun y₂ =>
      ((toyClient x.1.latestSTR).handleResponse Crypto.toy RegistrationType y₁.2 [0x61] (some [9, 9])).bind fun c₁ =>
      ((toyClient x.1.latestSTR).handleResponse Crypto.toy RegistrationType y₂.2 [0x61] (some [7])).bind fun c₂ =>
      (c₁.1.tbs [0x61]).bind fun p₁ => (c₂.1.tbs [0x61]).bind fun p₂ =>
      (dirAfter Crypto.toy 5 [1] [2] 10 [3] [4] [.register (some [5]) ⟨[0x61], [9, 9]⟩, .update]).bind fun z₁ =>
      (dirAfter Crypto.toy 5 [1] [2] 10 [3] [4] [.register (some [5]) ⟨[0x61], [7]⟩, .update]).bind fun z₂ =>
      (z₁.1.keyLookup Crypto.toy ⟨[0x61]⟩).bind fun m₁ => (z₂.1.keyLookup Crypto.toy ⟨[0x61]⟩).bind fun m₂ =>
      (c₁.1.handleResponse Crypto.toy KeyLookupType m₁ [0x61] none).bind fun c₁' =>
      (c₂.1.handleResponse Crypto.toy KeyLookupType m₂ [0x61] none).map fun c₂' =>
      decide (c₁'.2 = none ∧ c₂'.2 = none ∧ p₁.value ≠ p₂.value ∧ treeSays m₁ = some (some [9, 9]) ∧ treeSays m₂ = some (some [7]) ∧
        shapedB m₁ = true ∧ shapedB m₂ = true ∧
        NoCollision Crypto.toy.hash (proofInputs Crypto.toy m₁ [0x61] ++ proofInputs Crypto.toy m₂ [0x61]))) = some true := by
    rw [dirAfterE_eq, dirAfterE_eq, dirAfterE_eq]; simp only [registerE_eq]; decide +kernel
  obtain ⟨x, _, key⟩ := Option.bind_eq_some_iff.mp key
  obtain ⟨y₁, _, key⟩ := Option.bind_eq_some_iff.mp key
  obtain ⟨y₂, _, key⟩ := Option.bind_eq_some_iff.mp key
  obtain ⟨⟨c₁, _⟩, _, key⟩ := Option.bind_eq_some_iff.mp key
  obtain ⟨⟨c₂, _⟩, _, key⟩ := Option.bind_eq_some_iff.mp key
  obtain ⟨p₁, h1, key⟩ := Option.bind_eq_some_iff.mp key
  obtain ⟨p₂, h2, key⟩ := Option.bind_eq_some_iff.mp key
  obtain ⟨z₁, _, key⟩ := Option.bind_eq_some_iff.mp key
  obtain ⟨z₂, _, key⟩ := Option.bind_eq_some_iff.mp key
  obtain ⟨m₁, _, key⟩ := Option.bind_eq_some_iff.mp key
  obtain ⟨m₂, _, key⟩ := Option.bind_eq_some_iff.mp key
  obtain ⟨⟨c₁', e₁⟩, h3, key⟩ := Option.bind_eq_some_iff.mp key
  obtain ⟨⟨c₂', e₂⟩, h4, key⟩ := Option.map_eq_some_iff.mp key
  obtain ⟨rfl, rfl, k1, k2, k3, k4, k5, k6⟩ := of_decide_eq_true key
  exact ⟨c₁, c₂, c₁', c₂', m₁, m₂, p₁, p₂, h1, h2, k1, h3, h4, k2, k3, shaped_of k4, shaped_of k5, fun _ _ => toy_vrfAgree _ _ _ _, k6⟩

/-! ### the limits -/

/-- C51 is false as stated: nothing in a response commits a directory to one key. For every scheme, a directory can issue an STR, a proper
successor of any STR `prev`, and two lookup answers under it such that one client (which expects the key `k₁`) accepts the one and another (which
expects `k₂`) the other. The leaf is flagged as an empty branch, which the client does not look at. -/
theorem C51_empty_flag_counterexample (C : Crypto) (sk vk nonce salt name k₁ k₂ : Bytes) (t : UInt64) (prev : DirSTR)
    (hu : C.vrfUsable name = true) (cc : Client) (hcc : newClient prev true (C.signPub sk) = some cc) :
    ∃ (str : DirSTR) (m₁ m₂ : Response) (c₁ c₂ : Client), Successor C (C.signPub sk) prev str ∧
      cc.handleResponse C KeyLookupType m₁ name (some k₁) = some (c₁, none) ∧
      cc.handleResponse C KeyLookupType m₂ name (some k₂) = some (c₂, none) ∧
      c₁.aud.verified = str ∧ c₂.aud.verified = str ∧ treeSays m₁ = some (some k₁) ∧ treeSays m₂ = some (some k₂) := by
  let i := (C.vrfProve vk name).1
  let pol := newPolicies t (C.vrfPub vk)
  let core : STRCore := ⟨emptyHash C nonce i 0, prev.core.epoch + 1, prev.core.epoch, C.hash prev.core.signature, []⟩
  let str : DirSTR := ⟨{ core with signature := C.sign sk (core.serializeInternal ++ pol.serialize) }, some pol⟩
  let ap (v : Bytes) : AuthPath := { emptyInclusion C nonce i name v salt with vrfProof := (C.vrfProve vk name).2 }
  let msg (v : Bytes) : Response := ⟨ReqSuccess, .proof ⟨[some (ap v)], [some str], none⟩⟩
  have hs : Successor C (C.signPub sk) prev str := ⟨⟨_, rfl, C.verify_sign _ _⟩, ⟨rfl, rfl, rfl⟩⟩
  have hver : ∀ v, (ap v).verify C name v str.core.treeHash = some (.ok ()) := by
    intro v
    have := emptyInclusion_verifies C nonce i name v salt
    exact this
  have acc : ∀ v, ∃ c, cc.handleResponse C KeyLookupType (msg v) name (some v) = some (c, none) ∧ c.aud.verified = str := by
    intro v
    simp only [newClient, if_true, Option.some.injEq] at hcc
    subst hcc
    let c' : Client :=
      { aud := ⟨C.signPub sk, str⟩, useTBs := true, bindings := fun m => if m = name then some none else none, tbs := fun _ => none }
    refine ⟨c', (C34_accept_iff C _ rfl KeyLookupType _ name (some v) c').mpr ⟨ap v, str, none, _, .inclusion, pol, ⟨[], [], rfl⟩,
      ⟨.inr hs, rfl, ?_, .inr ⟨rfl, .inr rfl⟩, rfl, C.vrf_complete vk name hu, hver v⟩, ?_, ?_, rfl, rfl, fun _ => rfl, fun _ _ => rfl, ?_,
      fun _ _ => rfl, fun _ _ => rfl⟩, rfl⟩
    · simp [ap, emptyInclusion]
    · rintro ⟨h, _⟩; nomatch h
    · intro _ _ p hp; nomatch hp
    · rintro ⟨h, _⟩; nomatch h
  obtain ⟨c₁, a1, a2⟩ := acc k₁
  obtain ⟨c₂, b1, b2⟩ := acc k₂
  refine ⟨str, msg k₁, msg k₂, c₁, c₂, hs, a1, b1, a2, b2, ?_, ?_⟩
  · simp [treeSays, msg, ap, emptyInclusion]
  · simp [treeSays, msg, ap, emptyInclusion]

example : ∃ cc, newClient toy0 true (Crypto.toy.signPub [1]) = some cc ∧ Crypto.toy.vrfUsable [0x61] = true := ⟨_, rfl, rfl⟩

/-- C51 is false for promises: an honest directory, asked twice from the same state, can promise one name to two clients, under one STR and with
honest proofs of absence. Both accept and hold their promise. Only the next epoch can show the difference (`C51_split_promise_noticed_partial`). -/
theorem C51_two_promises_counterexample (C : Crypto) (t0 : UInt64) (sk vk : Bytes) (size : Nat) (r₁ r₂ rnd name k₁ k₂ : Bytes)
    (hn : name ≠ []) (h₁ : k₁ ≠ []) (h₂ : k₂ ≠ []) (hu : C.vrfUsable name = true) :
    ∃ (d d₁ d₂ : Directory) (log : List STR) (m₁ m₂ : Response) (cc c₁ c₂ : Client) (p₁ p₂ : TB),
      dirAfter C t0 sk vk size r₁ r₂ [] = some (d, log) ∧ newClient d.latestSTR true (C.signPub sk) = some cc ∧
      d.register C (some rnd) ⟨name, k₁⟩ = some (d₁, m₁) ∧ d.register C (some rnd) ⟨name, k₂⟩ = some (d₂, m₂) ∧
      cc.handleResponse C RegistrationType m₁ name (some k₁) = some (c₁, none) ∧
      cc.handleResponse C RegistrationType m₂ name (some k₂) = some (c₂, none) ∧
      c₁.aud.verified = d.latestSTR ∧ c₂.aud.verified = d.latestSTR ∧
      c₁.tbs name = some p₁ ∧ p₁.value = k₁ ∧ c₂.tbs name = some p₂ ∧ p₂.value = k₂ := by
  obtain ⟨d, g0, inv, _, _, hpol, _⟩ := new_dir_inv C t0 sk vk size r₁ r₂ [name]
  have one : ∀ a ∈ [name], ∀ b ∈ [name], a ≠ b → False := by
    intro a ha b hb e
    rw [List.mem_singleton.mp ha, List.mem_singleton.mp hb] at e; exact e rfl
  have spread : IndexSpread (fun k => (C.vrfProve vk k).1) [name] := fun a ha b hb e => (one a ha b hb e).elim
  have ans : ∀ k, k ≠ [] → ∃ d' m c p, d.register C (some rnd) ⟨name, k⟩ = some (d', m) ∧
      ({ aud := newAudState (C.signPub sk) d.latestSTR, bindings := fun _ => none, useTBs := true, tbs := fun _ => none } : Client).handleResponse C
        RegistrationType m name (some k) = some (c, none) ∧ c.aud.verified = d.latestSTR ∧ c.tbs name = some p ∧ p.value = k := by
    intro k hk
    obtain ⟨d', m, a1, _, _, a2⟩ := register_spec inv (some rnd) ⟨name, k⟩ (List.mem_singleton.mpr rfl) (spread_inj spread)
    have a2 : Answers C sk vk name d.latestSTR m (AbsDir.init.registerAnswer (some rnd) name k) := by
      rcases a2 with ⟨_, h⟩ | h
      · exact absurd spread h
      · exact h
    have hans : AbsDir.init.registerAnswer (some rnd) name k = (ReqSuccess, none, some k) := by
      simp [AbsDir.registerAnswer, AbsDir.init, hn, hk]
    rw [hans] at a2
    unfold Answers at a2
    rw [if_neg (show ¬ (ReqSuccess = ErrMalformedMessage ∨ ReqSuccess = ErrDirectory) by decide)] at a2
    obtain ⟨ap, hm, hs⟩ := a2
    obtain ⟨c, b1, b2⟩ := @honest_promise C
      { aud := newAudState (C.signPub sk) d.latestSTR, bindings := fun _ => none, useTBs := true, tbs := fun _ => none }
      sk vk name k RegistrationType ReqSuccess (some k) d.latestSTR (newPolicies t0 (C.vrfPub vk)) ap hu rfl rfl
      (by rw [← hpol]; rfl) rfl (.inl rfl) (.inl ⟨rfl, .inr rfl⟩) hs
    have hv : verdict (some k) (ReqSuccess, none, some k) = none := by
      unfold verdict; rw [if_neg (show ¬ (ReqSuccess = ErrMalformedMessage ∨ ReqSuccess = ErrDirectory) by decide)]; simp
    rw [hv] at b1
    have hm' : m = ⟨ReqSuccess, .proof ⟨[some ap], [some d.latestSTR], some (promise C sk vk d.latestSTR.core.signature name k)⟩⟩ := hm
    rw [← hm'] at b1
    obtain ⟨ap', str', tb', leaf, ty, pol, ⟨x, y, car⟩, ck, _, _, k1, _, _, _, k5, _⟩ := (C34_accept_iff C _ rfl _ m name _ c).mp b1
    rw [hm'] at car
    simp only [DirectoryResponse.proof.injEq, DirectoryProof.mk.injEq, List.cons.injEq, Option.some.injEq] at car
    obtain ⟨⟨rfl, _⟩, ⟨rfl, _⟩, rfl⟩ := car
    have hty : ty = .absence := by
      rcases ck.status with ⟨_, h | ⟨_, h⟩⟩ | ⟨h, _⟩
      · rw [hm'] at h; exact absurd h (show ReqSuccess ≠ ReqNameExisted by decide)
      · exact h
      · exact absurd h (by decide)
    exact ⟨d', m, c, _, a1, b1, by rw [k1], k5 ⟨hty, .inl rfl⟩, rfl⟩
  obtain ⟨d₁, m₁, c₁, p₁, a1, a2, a3, a4, a5⟩ := ans k₁ h₁
  obtain ⟨d₂, m₂, c₂, p₂, b1, b2, b3, b4, b5⟩ := ans k₂ h₂
  exact ⟨d, d₁, d₂, [d.pad.latest], m₁, m₂, _, c₁, c₂, p₁, p₂, by simp [dirAfter, g0, Directory.runLog], rfl, a1, b1, a2, b2, a3, b3, a4, a5,
    b4, b5⟩

end Coniks.Props

import Verif.Proofs.Auditor
import Verif.Spec.Client
/-
Lemmas about the client.
-/
namespace Coniks
open Spec

theorem audit_one (C : Crypto) (a : AudState) (x : Option DirSTR) : a.auditDirectory C [x] = a.checkSTRAgainstVerified C x := by
  simp only [AudState.auditDirectory, List.length_nil, gt_iff_lt, Nat.lt_irrefl, if_false]
  cases a.checkSTRAgainstVerified C x with
  | none => rfl
  | some o => cases o <;> rfl

/-- the effect of `updateSTR` -/
theorem updateSTR_spec {C : Crypto} {cc cc' : Client} {ty : Int} {df : DirectoryProof} {e : Option ErrorCode}
    (h : cc.updateSTR C ty df = some (cc', e)) :
    (ty = RegistrationType ∨ ty = KeyLookupType) ∧
    ((e ≠ none ∧ cc' = cc) ∨
     (e = none ∧ ∃ s rest, df.str = some s :: rest ∧ cc' = { cc with aud := cc.aud.update s } ∧
        (s = cc.aud.verified ∨ Successor C cc.aud.signKey cc.aud.verified s))) := by
  unfold Client.updateSTR at h
  split at h
  · next hty =>
    refine ⟨hty, ?_⟩
    split at h
    · nomatch h
    · next x rest hs =>
      split at h
      · nomatch h
      · simp only [Option.some.injEq, Prod.mk.injEq] at h
        left; exact ⟨by rw [← h.2]; simp, h.1.symm⟩
      · next hok =>
        rw [audit_one] at hok
        obtain ⟨t, ht, hs'⟩ := (check_ok C cc.aud x).mp hok
        subst ht
        simp only [Option.some.injEq, Prod.mk.injEq] at h
        right; exact ⟨h.2.symm, t, rest, hs, h.1.symm, hs'⟩
  · nomatch h

theorem updateSTR_ok {C : Crypto} {cc : Client} {ty : Int} {df : DirectoryProof} {s : DirSTR} {rest : List (Option DirSTR)}
    (hty : ty = RegistrationType ∨ ty = KeyLookupType) (hs : df.str = some s :: rest)
    (hc : s = cc.aud.verified ∨ Successor C cc.aud.signKey cc.aud.verified s) :
    cc.updateSTR C ty df = some ({ cc with aud := cc.aud.update s }, none) := by
  unfold Client.updateSTR
  rw [if_pos hty, hs]
  simp only [audit_one, (check_ok C cc.aud (some s)).mpr ⟨s, rfl, hc⟩]

theorem verifyAuthPath_ok (C : Crypto) (uname : Bytes) (key : Option Bytes) (ap : AuthPath) (str : DirSTR) (leaf : ProofNode)
    (hl : ap.leaf = some leaf) :
    verifyAuthPath C uname key ap str = some none ↔ ∃ pol, str.policies = some pol ∧
      C.vrfVerify pol.vrfPublicKey uname ap.lookupIndex ap.vrfProof = true ∧
      ap.verify C uname (match key with | some k => k | none => leaf.value.getD []) str.core.treeHash = some (.ok ()) := by
  unfold verifyAuthPath
  cases hp : str.policies with
  | none => simp
  | some pol =>
    simp only [Option.some.injEq, exists_eq_left']
    by_cases hv : C.vrfVerify pol.vrfPublicKey uname ap.lookupIndex ap.vrfProof = true
    · rw [if_pos hv]
      simp only [hv, true_and]
      have hk : expectedKey key ap = some (match key with | some k => k | none => leaf.value.getD []) := by
        cases key with
        | some k => rfl
        | none => simp [expectedKey, hl]
      rw [hk]
      generalize (match key with | some k => k | none => leaf.value.getD []) = kk
      simp only
      cases ap.verify C uname kk str.core.treeHash with
      | none => simp
      | some r =>
        cases r with
        | ok u => simp
        | error e => cases e <;> simp
    · simp [hv]

theorem first_iff (df : DirectoryProof) (ap : AuthPath) (str : DirSTR) :
    df.first = some (ap, str) ↔ ∃ aps strs, df.ap = some ap :: aps ∧ df.str = some str :: strs := by
  unfold DirectoryProof.first
  constructor
  · intro h
    split at h
    · next a aps s strs h1 h2 =>
      simp only [Option.some.injEq, Prod.mk.injEq] at h
      obtain ⟨rfl, rfl⟩ := h
      exact ⟨_, _, h1, h2⟩
    · nomatch h
  · rintro ⟨aps, strs, h1, h2⟩
    rw [h1, h2]

theorem proofType_iff (ap : AuthPath) (t : ProofType) :
    ap.proofType = some t ↔ ∃ leaf, ap.leaf = some leaf ∧ t = if ap.lookupIndex = leaf.index then .inclusion else .absence := by
  unfold AuthPath.proofType
  cases ap.leaf with
  | none => simp
  | some l => simp [eq_comm]

/-- the request checks with their status table, for a client that uses TBs -/
theorem checkConsistency_ok (C : Crypto) (cc : Client) (ty : Int) (code : ErrorCode) (df : DirectoryProof) (uname : Bytes)
    (key : Option Bytes) (htb : cc.useTBs = true) :
    cc.checkConsistency C ty code df uname key = some none ↔ ∃ ap str leaf t pol,
      df.first = some (ap, str) ∧ ap.leaf = some leaf ∧ t = (if ap.lookupIndex = leaf.index then ProofType.inclusion else .absence) ∧
      StatusFits ty code t ∧ str.policies = some pol ∧ C.vrfVerify pol.vrfPublicKey uname ap.lookupIndex ap.vrfProof = true ∧
      ap.verify C uname (match key with | some k => k | none => leaf.value.getD []) str.core.treeHash = some (.ok ()) := by
  have hreg : ∀ t : ProofType, ((code = ReqNameExisted ∧ t = .inclusion) ∨ (code = ReqNameExisted ∧ t = .absence ∧ cc.useTBs = true) ∨
      (code = ReqSuccess ∧ t = .absence)) ↔ StatusFits RegistrationType code t := by
    intro t
    have : RegistrationType ≠ KeyLookupType := by decide
    simp only [StatusFits, htb, this, true_and, false_and, or_false, and_true]
    cases t <;> simp
  have hlk : ∀ t : ProofType, ((code = ReqNameNotFound ∧ t = .absence) ∨ (code = ReqSuccess ∧ t = .inclusion) ∨
      (code = ReqSuccess ∧ t = .absence ∧ cc.useTBs = true)) ↔ StatusFits KeyLookupType code t := by
    intro t
    have : KeyLookupType ≠ RegistrationType := by decide
    simp only [StatusFits, htb, this, true_and, false_and, false_or, and_true]
    cases t <;> simp
  have main : ∀ ty', (∀ t : ProofType, StatusFits ty' code t ∨ ¬ StatusFits ty' code t) → ∀ P : ProofType → Prop, (∀ t, P t ↔ StatusFits ty' code t) →
      ∀ [DecidablePred P],
      (match df.first with
        | none => (none : Go (Option ErrorCode))
        | some (ap, str) =>
          match ap.proofType with
          | none => none
          | some t => if P t then verifyAuthPath C uname key ap str else some (some ErrMalformedMessage)) = some none ↔
      ∃ ap str leaf t pol,
      df.first = some (ap, str) ∧ ap.leaf = some leaf ∧ t = (if ap.lookupIndex = leaf.index then ProofType.inclusion else .absence) ∧
      StatusFits ty' code t ∧ str.policies = some pol ∧ C.vrfVerify pol.vrfPublicKey uname ap.lookupIndex ap.vrfProof = true ∧
      ap.verify C uname (match key with | some k => k | none => leaf.value.getD []) str.core.treeHash = some (.ok ()) := by
    intro ty' _ P hP _
    cases hf : df.first with
    | none => simp
    | some x =>
      obtain ⟨ap, str⟩ := x
      simp only [Option.some.injEq, Prod.mk.injEq]
      cases hl : ap.leaf with
      | none =>
        simp only [AuthPath.proofType, hl, Option.map_none]
        refine ⟨fun h => (nomatch h), ?_⟩
        rintro ⟨_, _, _, _, _, ⟨rfl, rfl⟩, h, _⟩
        rw [hl] at h; nomatch h
      | some leaf =>
        simp only [AuthPath.proofType, hl, Option.map_some]
        by_cases hs : P (if ap.lookupIndex = leaf.index then ProofType.inclusion else .absence)
        · rw [if_pos hs, verifyAuthPath_ok C uname key ap str leaf hl]
          constructor
          · rintro ⟨pol, h1, h2, h3⟩
            exact ⟨ap, str, leaf, _, pol, ⟨rfl, rfl⟩, hl, rfl, (hP _).mp hs, h1, h2, h3⟩
          · rintro ⟨_, _, leaf', _, pol, ⟨rfl, rfl⟩, h, rfl, _, h1, h2, h3⟩
            rw [hl] at h; cases h
            exact ⟨pol, h1, h2, h3⟩
        · rw [if_neg hs]
          refine ⟨fun h => (by simp at h), ?_⟩
          rintro ⟨_, _, leaf', _, pol, ⟨rfl, rfl⟩, h, rfl, h', _⟩
          rw [hl] at h; cases h
          exact absurd ((hP _).mpr h') hs
  unfold Client.checkConsistency
  by_cases h1 : ty = RegistrationType
  · subst h1
    rw [if_pos rfl]
    exact main RegistrationType (fun t => Classical.em _) _ hreg
  · rw [if_neg h1]
    by_cases h2 : ty = KeyLookupType
    · subst h2
      rw [if_pos rfl]
      exact main KeyLookupType (fun t => Classical.em _) _ hlk
    · rw [if_neg h2]
      refine ⟨fun h => (nomatch h), ?_⟩
      rintro ⟨_, _, _, t, _, _, _, _, h, _⟩
      rcases h with ⟨h, _⟩ | ⟨h, _⟩
      · exact absurd h h1
      · exact absurd h h2

theorem returnedPromise_ok (C : Crypto) (cc : Client) (ap : AuthPath) (str : DirSTR) (tb : Option TB) (key : Option Bytes) (t : TB) :
    cc.verifyReturnedPromise C ap str tb key = .ok t ↔
      tb = some t ∧ GoodPromise C cc.aud.signKey str.core.signature ap.lookupIndex key t := by
  unfold Client.verifyReturnedPromise
  cases tb with
  | none => simp
  | some x =>
    simp only [Option.some.injEq]
    by_cases h1 : cc.aud.verify C (x.serialize str.core.signature) x.signature = true
    · rw [if_pos h1]
      by_cases h2 : x.index = ap.lookupIndex
      · rw [if_pos h2]
        cases key with
        | none =>
          simp only [Except.ok.injEq]
          constructor
          · rintro rfl; exact ⟨rfl, h1, h2, fun k h => nomatch h⟩
          · exact fun h => h.1
        | some k =>
          simp only
          by_cases h3 : x.value = k
          · rw [if_pos h3]
            simp only [Except.ok.injEq]
            constructor
            · rintro rfl; exact ⟨rfl, h1, h2, fun k' h => by cases h; exact h3⟩
            · exact fun h => h.1
          · rw [if_neg h3]
            refine ⟨fun h => (nomatch h), ?_⟩
            rintro ⟨rfl, h⟩; exact absurd (h.value k rfl) h3
      · rw [if_neg h2]
        refine ⟨fun h => (nomatch h), ?_⟩
        rintro ⟨rfl, h⟩; exact absurd h.index h2
    · rw [if_neg h1]
      refine ⟨fun h => (nomatch h), ?_⟩
      rintro ⟨rfl, h⟩; exact absurd h.signed h1

theorem fulfilled_ok (cc : Client) (uname : Bytes) (ap : AuthPath) (leaf : ProofNode) (hl : ap.leaf = some leaf) :
    cc.verifyFulfilledPromise uname ap = some none ↔ ∀ tb, cc.tbs uname = some tb → ap.lookupIndex = tb.index ∧ leaf.value.getD [] = tb.value := by
  unfold Client.verifyFulfilledPromise
  cases hc : cc.tbs uname with
  | none => simp
  | some tb =>
    simp only [Option.some.injEq, forall_eq', hl]
    by_cases h1 : ap.lookupIndex = tb.index
    · simp only [h1, not_true, if_false, true_and, ne_eq]
      by_cases h2 : leaf.value.getD [] = tb.value
      · simp [h2]
      · simp [h2]
    · simp [h1]

/-- an error of `updateTBs` leaves the client alone -/
theorem updateTBs_err {C : Crypto} {cc cc' : Client} {ty : Int} {code : ErrorCode} {df : DirectoryProof} {uname : Bytes}
    {key : Option Bytes} {e : ErrorCode} (h : cc.updateTBs C ty code df uname key = some (cc', some e)) : cc' = cc := by
  unfold Client.updateTBs at h
  split at h
  · simp at h
  · split at h
    · nomatch h
    · split at h
      · nomatch h
      · have hret : ∀ ap str, ∀ x : Client × Option ErrorCode, cc.takePromise C ap str df.tb uname key = x → x.2 ≠ none → x.1 = cc := by
          rintro ap str x rfl h
          unfold Client.takePromise at h ⊢
          split
          · rfl
          · next h' => simp [h'] at h
        split at h
        · split at h
          · have := Option.some.inj h
            exact (congrArg Prod.fst this).symm.trans (hret _ _ _ rfl (by rw [this]; simp))
          · simp at h
        · split at h
          · split at h
            · split at h
              · nomatch h
              · simp only [Option.some.injEq, Prod.mk.injEq] at h; exact h.1.symm
              · simp at h
            · split at h
              · have := Option.some.inj h
                exact (congrArg Prod.fst this).symm.trans (hret _ _ _ rfl (by rw [this]; simp))
              · simp at h
          · nomatch h

/-- `updateTBs` only touches the promises -/
theorem updateTBs_only {C : Crypto} {cc cc' : Client} {ty : Int} {code : ErrorCode} {df : DirectoryProof} {uname : Bytes}
    {key : Option Bytes} {e : Option ErrorCode} (h : cc.updateTBs C ty code df uname key = some (cc', e)) :
    cc'.aud = cc.aud ∧ cc'.bindings = cc.bindings ∧ cc'.useTBs = cc.useTBs := by
  unfold Client.updateTBs at h
  split at h
  · simp only [Option.some.injEq, Prod.mk.injEq] at h; rw [← h.1]; simp
  · split at h
    · nomatch h
    · split at h
      · nomatch h
      · have hret : ∀ ap str, ∀ x : Client × Option ErrorCode, cc.takePromise C ap str df.tb uname key = x →
            x.1.aud = cc.aud ∧ x.1.bindings = cc.bindings ∧ x.1.useTBs = cc.useTBs := by
          rintro ap str x rfl
          unfold Client.takePromise
          split <;> simp
        have fin : ∀ {x : Client × Option ErrorCode}, some x = some (cc', e) →
            (x.1.aud = cc.aud ∧ x.1.bindings = cc.bindings ∧ x.1.useTBs = cc.useTBs) →
            cc'.aud = cc.aud ∧ cc'.bindings = cc.bindings ∧ cc'.useTBs = cc.useTBs := by
          intro x hx h'
          have := congrArg Prod.fst (Option.some.inj hx)
          simp only at this
          rw [← this]; exact h'
        split at h
        · split at h
          · exact fin h (hret _ _ _ rfl)
          · exact fin h ⟨rfl, rfl, rfl⟩
        · split at h
          · split at h
            · split at h
              · nomatch h
              · exact fin h ⟨rfl, rfl, rfl⟩
              · exact fin h ⟨rfl, rfl, rfl⟩
            · split at h
              · exact fin h (hret _ _ _ rfl)
              · exact fin h ⟨rfl, rfl, rfl⟩
          · nomatch h

/-- the promises afterwards, when `updateTBs` succeeds -/
theorem updateTBs_ok (C : Crypto) (cc : Client) (ty : Int) (code : ErrorCode) (df : DirectoryProof) (uname : Bytes) (key : Option Bytes)
    (htb : cc.useTBs = true) (ap : AuthPath) (str : DirSTR) (leaf : ProofNode) (t : ProofType) (hf : df.first = some (ap, str))
    (hl : ap.leaf = some leaf) (ht : t = if ap.lookupIndex = leaf.index then .inclusion else .absence) (hst : StatusFits ty code t)
    (cc' : Client) :
    cc.updateTBs C ty code df uname key = some (cc', none) ↔
      (Promised ty code t ∧ ∃ tb, df.tb = some tb ∧ GoodPromise C cc.aud.signKey str.core.signature ap.lookupIndex key tb ∧
        cc' = { cc with tbs := fun n => if n = uname then some tb else cc.tbs n }) ∨
      (ty = KeyLookupType ∧ code = ReqSuccess ∧ t = .inclusion ∧
        (∀ tb, cc.tbs uname = some tb → ap.lookupIndex = tb.index ∧ leaf.value.getD [] = tb.value) ∧
        cc' = { cc with tbs := fun n => if n = uname then none else cc.tbs n }) ∨
      (¬ Promised ty code t ∧ ¬ (ty = KeyLookupType ∧ t = .inclusion) ∧ cc' = cc) := by
  have hpt : ap.proofType = some t := (proofType_iff ap t).mpr ⟨leaf, hl, ht⟩
  have htyp : ty = RegistrationType ∨ ty = KeyLookupType := by
    rcases hst with h | h
    · exact .inl h.1
    · exact .inr h.1
  have hne : RegistrationType ≠ KeyLookupType := by decide
  have hne' : KeyLookupType ≠ RegistrationType := by decide
  have hnf : ReqNameNotFound ≠ ReqSuccess := by decide
  have hret : (some (cc.takePromise C ap str df.tb uname key) : Go _) = some (cc', none) ↔ ∃ tb, df.tb = some tb ∧ GoodPromise C cc.aud.signKey str.core.signature ap.lookupIndex key tb ∧
        cc' = { cc with tbs := fun n => if n = uname then some tb else cc.tbs n } := by
    have key' := returnedPromise_ok C cc ap str df.tb key
    unfold Client.takePromise
    cases hv : cc.verifyReturnedPromise C ap str df.tb key with
    | error e =>
      rw [hv] at key'
      simp only [Option.some.injEq, Prod.mk.injEq, reduceCtorEq, and_false, false_iff, not_exists]
      rintro tb ⟨h1, h2, _⟩
      exact nomatch (key' tb).mpr ⟨h1, h2⟩
    | ok tb =>
      rw [hv] at key'
      simp only [Option.some.injEq, Prod.mk.injEq, and_true]
      obtain ⟨h1, h2⟩ := (key' tb).mp rfl
      constructor
      · rintro rfl; exact ⟨tb, h1, h2, rfl⟩
      · rintro ⟨tb', h3, _, h4⟩
        rw [h1] at h3; cases h3; exact h4.symm
  unfold Client.updateTBs
  rw [if_neg (by simp [htb]), hf]
  simp only [hpt]
  rcases htyp with rfl | rfl
  · rw [if_pos rfl]
    by_cases ha : t = .absence
    · rw [if_pos ha, hret]
      constructor
      · intro h; exact .inl ⟨⟨ha, .inl rfl⟩, h⟩
      · rintro (⟨_, h⟩ | ⟨h, _⟩ | ⟨h, _⟩)
        · exact h
        · exact absurd h hne
        · exact absurd ⟨ha, .inl rfl⟩ h
    · rw [if_neg ha]
      simp only [Option.some.injEq, Prod.mk.injEq, and_true]
      constructor
      · rintro rfl; exact .inr (.inr ⟨fun h => ha h.1, fun h => hne h.1, rfl⟩)
      · rintro (⟨h, _⟩ | ⟨h, _⟩ | ⟨_, _, h⟩)
        · exact absurd h.1 ha
        · exact absurd h hne
        · exact h.symm
  · rw [if_neg hne', if_pos rfl]
    by_cases h1 : code = ReqSuccess ∧ t = .inclusion
    · rw [if_pos h1]
      have hff := fulfilled_ok cc uname ap leaf hl
      cases hv : cc.verifyFulfilledPromise uname ap with
      | none =>
        rw [hv] at hff
        refine ⟨fun h => (nomatch h), ?_⟩
        rintro (⟨h, _⟩ | ⟨_, _, _, h, _⟩ | ⟨_, h, _⟩)
        · have := h.1; rw [h1.2] at this; nomatch this
        · exact nomatch hff.mpr h
        · exact absurd ⟨rfl, h1.2⟩ h
      | some o =>
        rw [hv] at hff
        cases o with
        | some e =>
          refine ⟨fun h => (by simp at h), ?_⟩
          rintro (⟨h, _⟩ | ⟨_, _, _, h, _⟩ | ⟨_, h, _⟩)
          · have := h.1; rw [h1.2] at this; nomatch this
          · exact nomatch hff.mpr h
          · exact absurd ⟨rfl, h1.2⟩ h
        | none =>
          simp only [Option.some.injEq, Prod.mk.injEq, and_true]
          constructor
          · rintro rfl; exact .inr (.inl ⟨trivial, h1.1, h1.2, hff.mp rfl, rfl⟩)
          · rintro (⟨h, _⟩ | ⟨_, _, _, _, h⟩ | ⟨_, h, _⟩)
            · have := h.1; rw [h1.2] at this; nomatch this
            · exact h.symm
            · exact absurd ⟨trivial, h1.2⟩ h
    · rw [if_neg h1]
      by_cases h2 : code = ReqSuccess ∧ t = .absence
      · rw [if_pos h2, hret]
        constructor
        · intro h; exact .inl ⟨⟨h2.2, .inr h2.1⟩, h⟩
        · rintro (⟨_, h⟩ | ⟨_, _, h, _⟩ | ⟨h, _⟩)
          · exact h
          · rw [h2.2] at h; nomatch h
          · exact absurd ⟨h2.2, .inr h2.1⟩ h
      · rw [if_neg h2]
        simp only [Option.some.injEq, Prod.mk.injEq, and_true]
        have hns : code ≠ ReqSuccess := by
          intro h
          cases t with
          | absence => exact h2 ⟨h, rfl⟩
          | inclusion => exact h1 ⟨h, rfl⟩
        have hta : t ≠ .inclusion := by
          intro h
          rcases hst with ⟨h', _⟩ | ⟨_, ⟨_, h'⟩ | h'⟩
          · exact hne' h'
          · rw [h] at h'; nomatch h'
          · exact hns h'
        constructor
        · rintro rfl
          refine .inr (.inr ⟨?_, fun h => hta h.2, rfl⟩)
          rintro ⟨_, h | h⟩
          · exact hne' h
          · exact hns h
        · rintro (⟨⟨_, h | h⟩, _⟩ | ⟨_, h, _⟩ | ⟨_, _, h⟩)
          · exact absurd h hne'
          · exact absurd h hns
          · exact absurd h hns
          · exact h.symm

/-- all non-panicking ends of `HandleResponse` -/
theorem handle_cases {C : Crypto} {cc cc' : Client} {ty : Int} {msg : Response} {uname : Bytes} {key : Option Bytes} {e : Option ErrorCode}
    (h : cc.handleResponse C ty msg uname key = some (cc', e)) :
    (e ≠ none ∧ cc' = cc) ∨
    (∃ df s rest, msg.resp = .proof df ∧ df.str = some s :: rest ∧ (ty = RegistrationType ∨ ty = KeyLookupType) ∧
      msg.validate = some none ∧
      (s = cc.aud.verified ∨ Successor C cc.aud.signKey cc.aud.verified s) ∧
      ((e ≠ none ∧ cc' = { cc with aud := cc.aud.update s }) ∨
       (e = none ∧ Client.checkConsistency C { cc with aud := cc.aud.update s } ty msg.error df uname key = some none ∧
        ∃ cc2, Client.updateTBs C { cc with aud := cc.aud.update s } ty msg.error df uname key = some (cc2, none) ∧
          cc' = { cc2 with bindings := fun n => if n = uname then some msg.getKey else cc2.bindings n }))) := by
  unfold Client.handleResponse at h
  split at h
  · nomatch h
  · simp only [Option.some.injEq, Prod.mk.injEq] at h
    left; exact ⟨by rw [← h.2]; simp, h.1.symm⟩
  · next hval =>
    split at h
    · split at h
      · next df hr =>
        split at h
        · nomatch h
        · next c1 e1 hu =>
          simp only [Option.some.injEq, Prod.mk.injEq] at h
          rcases (updateSTR_spec hu).2 with ⟨_, g⟩ | ⟨g, _⟩
          · left; exact ⟨by rw [← h.2]; simp, by rw [← h.1, g]⟩
          · nomatch g
        · next c1 hu =>
          obtain ⟨hty, g⟩ := updateSTR_spec hu
          rcases g with ⟨g, _⟩ | ⟨_, s, rest, hs, hc1, hchain⟩
          · exact absurd rfl g
          · right
            subst hc1
            refine ⟨df, s, rest, hr, hs, hty, hval, hchain, ?_⟩
            split at h
            · nomatch h
            · simp only [Option.some.injEq, Prod.mk.injEq] at h
              left; exact ⟨by rw [← h.2]; simp, h.1.symm⟩
            · next hcc =>
              split at h
              · nomatch h
              · next c2 e2 hut =>
                simp only [Option.some.injEq, Prod.mk.injEq] at h
                left
                refine ⟨by rw [← h.2]; simp, ?_⟩
                rw [← h.1]; exact updateTBs_err hut
              · next c2 hut =>
                simp only [Option.some.injEq, Prod.mk.injEq] at h
                right
                exact ⟨h.2.symm, hcc, c2, hut, h.1.symm⟩
      · simp only [Option.some.injEq, Prod.mk.injEq] at h
        left; exact ⟨by rw [← h.2]; simp, h.1.symm⟩
    · nomatch h

end Coniks

import Verif.Spec.CrashClient
import Verif.Props.ClientSafety
import Verif.Props.ProofExact
/-
C37, exactly: which responses crash the client.
-/
namespace Coniks.Props
open Coniks Spec

theorem errorsSet_iff (e : ErrorCode) : errorsSet e = true ↔ Fatal e := by
  simp [errorsSet, Fatal, or_assoc]

theorem check_panics (C : Crypto) (a : AudState) (s : DirSTR) :
    a.checkSTRAgainstVerified C (some s) = none ↔ s.core.epoch = a.verified.core.epoch + 1 ∧ s.policies = none := by
  simp only [AudState.checkSTRAgainstVerified]
  by_cases h1 : s.core.epoch = a.verified.core.epoch
  · rw [if_pos h1]
    simp only [reduceCtorEq, false_iff]
    rintro ⟨h2, _⟩
    rw [h1] at h2
    have h3 := congrArg UInt64.toNat h2
    rw [UInt64.toNat_add] at h3
    have h4 := a.verified.core.epoch.toNat_lt
    have h5 : (1 : UInt64).toNat = 1 := rfl
    omega
  · rw [if_neg h1]
    by_cases h2 : s.core.epoch = a.verified.core.epoch + 1
    · rw [if_pos h2]
      simp only [h2, true_and]
      unfold AudState.verifySTRConsistency
      cases hs : s.serialize with
      | none =>
        simp only [true_iff]
        simpa [DirSTR.serialize] using hs
      | some m =>
        simp only
        have hp : s.policies ≠ none := by
          intro hp; simp [DirSTR.serialize, hp] at hs
        simp only [hp, iff_false]
        split
        · split <;> simp
        · simp
    · rw [if_neg h2]; simp [h2]

theorem verifyAuthPath_panics (C : Crypto) (uname : Bytes) (key : Option Bytes) (a : AuthPath) (l : ProofNode) (hl : a.leaf = some l) (s : DirSTR) :
    verifyAuthPath C uname key a s = none ↔ s.policies = none ∨
      ∃ pol, s.policies = some pol ∧ C.vrfVerify pol.vrfPublicKey uname a.lookupIndex a.vrfProof = true ∧
        CrashesVerifier C.hash a uname (key.getD (l.value.getD [])) := by
  unfold verifyAuthPath
  cases s.policies with
  | none => simp
  | some pol =>
    simp only [reduceCtorEq, Option.some.injEq, exists_eq_left', false_or]
    split
    · rename_i hv
      have hk : expectedKey key a = some (key.getD (l.value.getD [])) := by
        cases key with
        | none => simp [expectedKey, hl]
        | some k => rfl
      rw [hk]
      simp only [hv, true_and]
      rw [← C15_verify_panics_iff C a uname _ s.core.treeHash]
      unfold Panics
      cases a.verify C uname (key.getD (l.value.getD [])) s.core.treeHash with
      | none => simp
      | some r =>
        cases r with
        | error e => cases e <;> simp
        | ok _ => simp
    · rename_i hv; simp [hv]

theorem status_iff {ty : Int} {code : ErrorCode} {t : ProofType} :
    StatusFits ty code t ↔
    (ty = RegistrationType ∧ ((code = ReqNameExisted ∧ t = .inclusion) ∨ (code = ReqNameExisted ∧ t = .absence) ∨ (code = ReqSuccess ∧ t = .absence))) ∨
    (ty = KeyLookupType ∧ ((code = ReqNameNotFound ∧ t = .absence) ∨ (code = ReqSuccess ∧ t = .inclusion) ∨ (code = ReqSuccess ∧ t = .absence))) := by
  unfold StatusFits
  cases t <;> simp

/-- the consistency check of a client with TBs, given a path with a leaf -/
theorem consistency_panics (C : Crypto) (cc : Client) (htb : cc.useTBs = true) (ty : Int) (hty : ty = RegistrationType ∨ ty = KeyLookupType)
    (code : ErrorCode) (a : AuthPath) (aps : List (Option AuthPath)) (s : DirSTR) (strs : List (Option DirSTR)) (tb : Option TB) (uname : Bytes)
    (key : Option Bytes) :
    cc.checkConsistency C ty code ⟨some a :: aps, some s :: strs, tb⟩ uname key = none ↔
      a.leaf = none ∨ ∃ l, a.leaf = some l ∧ StatusFits ty code (if a.lookupIndex = l.index then .inclusion else .absence) ∧
        (s.policies = none ∨ ∃ pol, s.policies = some pol ∧ C.vrfVerify pol.vrfPublicKey uname a.lookupIndex a.vrfProof = true ∧
          CrashesVerifier C.hash a uname (key.getD (l.value.getD []))) := by
  have hne : KeyLookupType ≠ RegistrationType := by decide
  unfold Client.checkConsistency Client.verifyRegistration Client.verifyKeyLookup
  simp only [DirectoryProof.first]
  cases hl : a.leaf with
  | none =>
    have : a.proofType = none := by simp [AuthPath.proofType, hl]
    rcases hty with rfl | rfl
    · simp [this]
    · simp [this, hne]
  | some l =>
    have hpt : a.proofType = some (if a.lookupIndex = l.index then .inclusion else .absence) := by
      simp only [AuthPath.proofType, hl, Option.map_some]
    rw [hpt]
    simp only [reduceCtorEq, Option.some.injEq, exists_eq_left', false_or]
    rw [← verifyAuthPath_panics C uname key a l hl s, status_iff]
    generalize (if a.lookupIndex = l.index then ProofType.inclusion else .absence) = t
    rcases hty with rfl | rfl
    · simp only [if_true, htb, and_true, true_and, hne.symm, false_and, or_false]
      split
      · rename_i h; simp [h]
      · rename_i h; simp [h]
    · simp only [hne, if_false, htb, and_true, true_and, if_true, false_and, false_or]
      split
      · rename_i h; simp [h]
      · rename_i h; simp [h]

/-- after a passed consistency check the update of the TBs does not crash -/
theorem updateTBs_total (C : Crypto) (cc : Client) (ty : Int) (hty : ty = RegistrationType ∨ ty = KeyLookupType) (code : ErrorCode)
    (a : AuthPath) (aps : List (Option AuthPath)) (s : DirSTR) (strs : List (Option DirSTR)) (tb : Option TB) (uname : Bytes) (key : Option Bytes)
    (l : ProofNode) (hl : a.leaf = some l) : ∃ r, cc.updateTBs C ty code ⟨some a :: aps, some s :: strs, tb⟩ uname key = some r := by
  have hne : KeyLookupType ≠ RegistrationType := by decide
  have hpt : a.proofType = some (if a.lookupIndex = l.index then .inclusion else .absence) := by
    simp only [AuthPath.proofType, hl, Option.map_some]
  unfold Client.updateTBs
  split
  · exact ⟨_, rfl⟩
  · simp only [DirectoryProof.first, hpt]
    generalize (if a.lookupIndex = l.index then ProofType.inclusion else .absence) = t
    rcases hty with rfl | rfl
    · rw [if_pos rfl]
      split <;> exact ⟨_, rfl⟩
    · rw [if_neg hne, if_pos rfl]
      split
      · have : ∃ r, cc.verifyFulfilledPromise uname a = some r := by
          unfold Client.verifyFulfilledPromise
          split
          · exact ⟨_, rfl⟩
          · split
            · exact ⟨_, rfl⟩
            · rw [hl]
              simp only
              split <;> exact ⟨_, rfl⟩
        obtain ⟨r, hr⟩ := this
        rw [hr]
        cases r <;> exact ⟨_, rfl⟩
      · split <;> exact ⟨_, rfl⟩

theorem consistency_nil_path (C : Crypto) (cc : Client) (ty : Int) (code : ErrorCode) (aps : List (Option AuthPath)) (s : Option DirSTR)
    (strs : List (Option DirSTR)) (tb : Option TB) (uname : Bytes) (key : Option Bytes) :
    cc.checkConsistency C ty code ⟨none :: aps, s :: strs, tb⟩ uname key = none := by
  unfold Client.checkConsistency Client.verifyRegistration Client.verifyKeyLookup
  simp only [DirectoryProof.first]
  split
  · rfl
  · split <;> rfl

/-- C37, exact: for a client that uses TBs (the only kind `New` makes), `HandleResponse` panics on exactly the responses of
`Spec.CrashesClient`. -/
theorem C37_panics_iff (C : Crypto) (cc : Client) (htb : cc.useTBs = true) (ty : Int) (msg : Response) (uname : Bytes) (key : Option Bytes) :
    Panics (cc.handleResponse C ty msg uname key) ↔ CrashesClient C cc ty msg uname key := by
  obtain ⟨code, resp⟩ := msg
  unfold CrashesClient
  simp only
  by_cases he : errorsSet code = true
  · simp only [(errorsSet_iff code).mp he, not_true, false_and, iff_false]
    simp [Panics, Client.handleResponse, Response.validate, he]
  · have hnf : ¬ Fatal code := fun h => he ((errorsSet_iff code).mpr h)
    simp only [hnf, not_false_iff, true_and]
    have he' : errorsSet code = false := by simpa using he
    cases resp with
    | none => simp [Panics, Client.handleResponse, Response.validate, he']
    | nilProof => simp [Panics, Client.handleResponse, Response.validate, he']
    | nilHistory => simp [Panics, Client.handleResponse, Response.validate, he']
    | other => simp [Panics, Client.handleResponse, Response.validate, he']
    | history l =>
      simp only [reduceCtorEq, DirectoryResponse.history.injEq, false_or, exists_eq_left', false_and, exists_false, or_false]
      cases l with
      | nil => simp [Panics, Client.handleResponse, Response.validate, he']
      | cons x l =>
        simp only [Panics, Client.handleResponse, Response.validate, he', Bool.false_eq_true, if_false, List.length_cons, Nat.add_eq_zero_iff,
          Nat.succ_ne_self, and_false, ne_eq, reduceCtorEq, not_false_iff, true_and, List.mem_cons, List.not_mem_nil, or_false]
        split
        · rename_i h; simp [h]
        · rename_i h; simp [h]
    | proof df =>
      simp only [reduceCtorEq, false_and, exists_false, false_or, DirectoryResponse.proof.injEq]
      obtain ⟨aps, strs, tb⟩ := df
      simp only [DirectoryProof.mk.injEq]
      cases aps with
      | nil => simp [Panics, Client.handleResponse, Response.validate, he']
      | cons ap aps =>
        cases strs with
        | nil => simp [Panics, Client.handleResponse, Response.validate, he']
        | cons str strs =>
          have hex : (∃ ap' aps' str' strs' tb', (ap :: aps = ap' :: aps' ∧ str :: strs = str' :: strs' ∧ tb = tb') ∧
              (ty ∉ [RegistrationType, KeyLookupType] ∨ CrashingParts C cc ty code uname key ap' str')) ↔
              (ty ∉ [RegistrationType, KeyLookupType] ∨ CrashingParts C cc ty code uname key ap str) := by
            constructor
            · rintro ⟨_, _, _, _, _, ⟨h1, h2, _⟩, h⟩
              cases h1; cases h2; exact h
            · intro h; exact ⟨_, _, _, _, _, ⟨rfl, rfl, rfl⟩, h⟩
          rw [hex]
          simp only [Panics, Client.handleResponse, Response.validate, he', Bool.false_eq_true, if_false, List.length_cons, Nat.add_eq_zero_iff,
            Nat.succ_ne_self, and_false, or_false]
          by_cases hty : ty = RegistrationType ∨ ty = KeyLookupType
          · have hmem : ty = RegistrationType ∨ ty = KeyLookupType ∨ ty = KeyLookupInEpochType ∨ ty = MonitoringType := by
              rcases hty with h | h
              · exact .inl h
              · exact .inr (.inl h)
            have hnot : ¬ ty ∉ [RegistrationType, KeyLookupType] := fun h => h (by simpa using hty)
            simp only [if_pos hmem, hnot, false_or]
            unfold CrashingParts
            cases str with
            | none =>
              simp [Client.updateSTR, hty, audit_one, AudState.checkSTRAgainstVerified]
            | some s =>
              simp only [reduceCtorEq, Option.some.injEq, exists_eq_left', false_or]
              by_cases hp : s.core.epoch = cc.aud.verified.core.epoch + 1 ∧ s.policies = none
              · have := (check_panics C cc.aud s).mpr hp
                simp [Client.updateSTR, hty, audit_one, this, hp]
              · have hnp : cc.aud.checkSTRAgainstVerified C (some s) ≠ none := fun h => hp ((check_panics C cc.aud s).mp h)
                simp only [hp, false_or]
                by_cases hok : s = cc.aud.verified ∨ Successor C cc.aud.signKey cc.aud.verified s
                · rw [updateSTR_ok hty rfl hok]
                  simp only [hok, true_and]
                  cases ap with
                  | none => simp [consistency_nil_path]
                  | some a =>
                    simp only [reduceCtorEq, Option.some.injEq, exists_eq_left', false_or]
                    have hcp := consistency_panics C { cc with aud := cc.aud.update s } htb ty hty code a aps s strs tb uname key
                    rw [← hcp]
                    cases hc : Client.checkConsistency C { cc with aud := cc.aud.update s } ty code ⟨some a :: aps, some s :: strs, tb⟩ uname key with
                    | none => simp
                    | some r =>
                      cases r with
                      | some e => simp
                      | none =>
                        simp only [reduceCtorEq, iff_false]
                        have hleaf : a.leaf ≠ none := fun h => by
                          rw [hcp.mpr (.inl h)] at hc; exact nomatch hc
                        obtain ⟨l, hl⟩ := Option.ne_none_iff_exists'.mp hleaf
                        obtain ⟨⟨c2, e2⟩, hr⟩ := updateTBs_total C { cc with aud := cc.aud.update s } ty hty code a aps s strs tb uname key l hl
                        rw [hr]
                        cases e2 <;> simp
                · simp only [hok, false_and, iff_false]
                  unfold Client.updateSTR
                  rw [if_pos hty]
                  simp only [audit_one]
                  cases hcs : cc.aud.checkSTRAgainstVerified C (some s) with
                  | none => exact absurd hcs hnp
                  | some r =>
                    cases r with
                    | some e => simp
                    | none =>
                      obtain ⟨t, ht, h⟩ := (check_ok C cc.aud (some s)).mp hcs
                      cases ht
                      exact absurd h hok
          · have hnot : ty ∉ [RegistrationType, KeyLookupType] := by simpa using hty
            simp only [hnot, not_false_iff, true_or, iff_true]
            split
            · simp [Client.updateSTR, hty]
            · rfl


/-! ### `CheckEquivocation` -/

theorem consistency_none_iff (C : Crypto) (a : AudState) (prev : Option DirSTR) (s : DirSTR) :
    a.verifySTRConsistency C prev s = none ↔ s.policies = none ∨ prev = none ∧ Signed C a.signKey s := by
  unfold AudState.verifySTRConsistency Signed
  cases hs : s.serialize with
  | none =>
    have : s.policies = none := by simpa [DirSTR.serialize] using hs
    simp [this]
  | some m =>
    have hp : s.policies ≠ none := by
      intro hp; simp [DirSTR.serialize, hp] at hs
    simp only [Option.some.injEq, exists_eq_left', hp, false_or]
    by_cases hv : a.verify C m s.core.signature = true
    · rw [if_pos hv]
      have hv : C.verify a.signKey m s.core.signature = true := hv
      cases prev with
      | none => simp [hv]
      | some p => simp only [reduceCtorEq, false_and, iff_false]; split <;> simp
    · rw [if_neg hv]
      have hv : ¬ C.verify a.signKey m s.core.signature = true := hv
      simp [hv]

theorem consistency_of_nil (C : Crypto) (a : AudState) (s : DirSTR) : a.verifySTRConsistency C none s ≠ some none := by
  unfold AudState.verifySTRConsistency
  cases s.serialize with
  | none => simp
  | some m => simp only; split <;> simp

/-- a range after a non-nil STR crashes exactly at an STR without policies after a chain -/
theorem range_panics (C : Crypto) (a : AudState) (l : List (Option DirSTR)) : ∀ s : DirSTR,
    a.verifySTRRange C (some s) l = none ↔
      ∃ (r : List DirSTR) (t : DirSTR) (rest : List (Option DirSTR)), l = r.map some ++ some t :: rest ∧ Chain C a.signKey (s :: r) ∧ t.policies = none := by
  induction l with
  | nil =>
    intro s
    simp [AudState.verifySTRRange]
  | cons x l ih =>
    intro s
    cases x with
    | none =>
      simp only [AudState.verifySTRRange, reduceCtorEq, false_iff]
      rintro ⟨r, t, rest, h, _⟩
      cases r <;> simp at h
    | some u =>
      simp only [AudState.verifySTRRange]
      cases hc : a.verifySTRConsistency C (some s) u with
      | none =>
        have := (consistency_none_iff C a (some s) u).mp hc
        simp only [reduceCtorEq, false_and, or_false] at this
        simp only [true_iff]
        exact ⟨[], u, l, rfl, chain_single _ _ _, this⟩
      | some e =>
        have hpol : u.policies ≠ none := fun h => by
          rw [(consistency_none_iff C a (some s) u).mpr (.inl h)] at hc; exact nomatch hc
        cases e with
        | some e =>
          simp only [reduceCtorEq, false_iff]
          rintro ⟨r, t, rest, h, hch, hp⟩
          cases r with
          | nil =>
            simp only [List.map_nil, List.nil_append, List.cons.injEq, Option.some.injEq] at h
            exact hpol (h.1 ▸ hp)
          | cons v r =>
            simp only [List.map_cons, List.cons_append, List.cons.injEq, Option.some.injEq] at h
            obtain ⟨rfl, _⟩ := h
            have := (range_ok C a [some u] s).mpr ⟨[u], rfl, fun j a b h1 h2 => hch j a b (by
              cases j with
              | zero => exact h1
              | succ j => simp at h2) (by
              cases j with
              | zero => exact h2
              | succ j => simp at h2)⟩
            simp [AudState.verifySTRRange, hc] at this
        | none =>
          simp only
          rw [ih u]
          have hsucc : Successor C a.signKey s u := by
            obtain ⟨r, h1, h2⟩ := (range_ok C a [some u] s).mp (by simp [AudState.verifySTRRange, hc])
            cases r with
            | nil => simp at h1
            | cons v r =>
              simp only [List.map_cons, List.cons.injEq, Option.some.injEq] at h1
              exact h2 0 s u rfl (by rw [h1.1]; rfl)
          constructor
          · rintro ⟨r, t, rest, rfl, hch, hp⟩
            refine ⟨u :: r, t, rest, rfl, ?_, hp⟩
            intro j x y h1 h2
            cases j with
            | zero =>
              simp only [List.getElem?_cons_zero, List.getElem?_cons_succ, Option.some.injEq] at h1 h2
              subst h1; subst h2; exact hsucc
            | succ j => exact hch j x y h1 h2
          · rintro ⟨r, t, rest, h, hch, hp⟩
            cases r with
            | nil =>
              simp only [List.map_nil, List.nil_append, List.cons.injEq, Option.some.injEq] at h
              exact absurd (h.1 ▸ hp) hpol
            | cons v r =>
              simp only [List.map_cons, List.cons_append, List.cons.injEq, Option.some.injEq] at h
              obtain ⟨rfl, h⟩ := h
              exact ⟨r, t, rest, h, fun j x y h1 h2 => hch (j + 1) x y h1 h2, hp⟩

/-- C37, exact: `CheckEquivocation` panics on exactly the responses of `Spec.CrashesEquivocation`. -/
theorem C37_equivocation_panics_iff (C : Crypto) (cc : Client) (msg : Response) :
    Panics (cc.checkEquivocation C msg) ↔ CrashesEquivocation C cc msg := by
  obtain ⟨code, resp⟩ := msg
  unfold CrashesEquivocation
  simp only
  by_cases he : errorsSet code = true
  · simp only [(errorsSet_iff code).mp he, not_true, false_and, iff_false]
    simp [Panics, Client.checkEquivocation, Response.validate, he]
  · have hnf : ¬ Fatal code := fun h => he ((errorsSet_iff code).mpr h)
    have he' : errorsSet code = false := by simpa using he
    simp only [hnf, not_false_iff, true_and]
    cases resp with
    | none => simp [Panics, Client.checkEquivocation, Response.validate, he']
    | nilProof => simp [Panics, Client.checkEquivocation, Response.validate, he']
    | nilHistory => simp [Panics, Client.checkEquivocation, Response.validate, he']
    | other => simp [Panics, Client.checkEquivocation, Response.validate, he']
    | proof df =>
      simp only [reduceCtorEq, false_and, exists_false, false_or, DirectoryResponse.proof.injEq, exists_eq_left', or_false, and_false]
      obtain ⟨aps, strs, tb⟩ := df
      cases aps <;> cases strs <;> simp [Panics, Client.checkEquivocation, Response.validate, he']
    | history l =>
      simp only [reduceCtorEq, false_and, exists_false, false_or, DirectoryResponse.history.injEq]
      cases l with
      | nil => simp [Panics, Client.checkEquivocation, Response.validate, he']
      | cons s rest =>
        have hv : Response.validate ⟨code, .history (s :: rest)⟩ = some none := by simp [Response.validate, he']
        unfold Panics Client.checkEquivocation
        rw [hv]
        simp only
        cases rest with
        | nil =>
          simp only [List.length_nil, gt_iff_lt, Nat.lt_irrefl, if_false, List.getLast_singleton]
          cases s with
          | none => simp [AudState.checkSTRAgainstVerified]
          | some s =>
            rw [check_panics]
            constructor
            · rintro ⟨h1, h2⟩
              exact .inr (.inl ⟨s, rfl, h1, h2⟩)
            · rintro (h | ⟨t, h, h1, h2⟩ | ⟨_, _, h, _⟩ | ⟨c, t, rest, h0, h, _⟩)
              · simp at h
              · simp only [List.cons.injEq, Option.some.injEq, and_true] at h
                subst h; exact ⟨h1, h2⟩
              · simp at h
              · exfalso
                have := congrArg List.length h
                cases c with
                | nil => exact h0 rfl
                | cons _ _ => simp at this
        | cons x rest =>
          have hlen : (x :: rest).length > 0 := by simp
          rw [if_pos hlen]
          -- if the range is fine the last STR is there and has policies
          have hlast : cc.aud.verifySTRRange C s (x :: rest) = some none →
              cc.aud.checkSTRAgainstVerified C ((s :: x :: rest).getLast (by simp)) ≠ none := by
            intro hr hn
            have hex : ∃ s', cc.aud.verifySTRRange C (some s') (x :: rest) = some none := by
              cases s with
              | some s' => exact ⟨s', hr⟩
              | none =>
                exfalso
                cases x with
                | none => simp [AudState.verifySTRRange] at hr
                | some u =>
                  simp only [AudState.verifySTRRange] at hr
                  cases hc : cc.aud.verifySTRConsistency C none u with
                  | none => rw [hc] at hr; simp at hr
                  | some e =>
                    cases e with
                    | none => exact consistency_of_nil C cc.aud u hc
                    | some e => rw [hc] at hr; simp at hr
            obtain ⟨s', hr'⟩ := hex
            obtain ⟨r, h1, h2⟩ := (range_ok C cc.aud _ s').mp hr'
            have hg : (s :: x :: rest).getLast? = (x :: rest).getLast? := by simp
            have hr0 : r ≠ [] := by
              rintro rfl; simp at h1
            obtain ⟨r', t, rfl⟩ : ∃ r' t, r = r' ++ [t] := ⟨r.dropLast, r.getLast hr0, (List.dropLast_concat_getLast hr0).symm⟩
            have hgl : (s :: x :: rest).getLast (by simp) = some t := by
              have := List.getLast?_eq_some_getLast (l := s :: x :: rest) (by simp)
              have h3 : (x :: rest).getLast? = some (some t) := by rw [h1]; simp
              rw [hg, h3] at this
              exact (Option.some.inj this).symm
            rw [hgl, check_panics] at hn
            have : Signed C cc.aud.signKey t := by
              have h3 : (s' :: (r' ++ [t]))[r'.length + 1]? = some t := by simp
              have h4 : (s' :: (r' ++ [t]))[r'.length]? = some ((s' :: (r' ++ [t]))[r'.length]'(by simp; omega)) := List.getElem?_eq_getElem _
              exact (h2 r'.length _ t h4 h3).1
            obtain ⟨m, hm, _⟩ := this
            simp [DirSTR.serialize, hn.2] at hm
          refine Iff.trans (b := cc.aud.verifySTRRange C s (x :: rest) = none) ?_ ?_
          · cases hr : cc.aud.verifySTRRange C s (x :: rest) with
            | none => simp
            | some r =>
              cases r with
              | some e => simp
              | none => simp only [reduceCtorEq, iff_false]; exact hlast hr
          cases s with
          | none =>
            cases x with
            | none =>
              simp only [AudState.verifySTRRange, reduceCtorEq, false_iff]
              rintro (h | ⟨t, h, _⟩ | ⟨_, _, h, _⟩ | ⟨c, t, rest, h0, h, _⟩)
              · simp at h
              · simp at h
              · simp at h
              · cases c with
                | nil => exact h0 rfl
                | cons _ _ => simp at h
            | some u =>
              have : cc.aud.verifySTRRange C none (some u :: rest) = none ↔ u.policies = none ∨ Signed C cc.aud.signKey u := by
                simp only [AudState.verifySTRRange]
                cases hc : cc.aud.verifySTRConsistency C none u with
                | none =>
                  have := (consistency_none_iff C cc.aud none u).mp hc
                  simpa using this
                | some e =>
                  have hno : ¬ (u.policies = none ∨ Signed C cc.aud.signKey u) := fun h => by
                    rw [(consistency_none_iff C cc.aud none u).mpr (by simpa using h)] at hc; exact nomatch hc
                  cases e with
                  | some e => simp [hno]
                  | none => exact absurd hc (consistency_of_nil C cc.aud u)
              rw [this]
              constructor
              · intro h; exact .inr (.inr (.inl ⟨u, rest, rfl, h⟩))
              · rintro (h | ⟨t, h, _⟩ | ⟨u', r', h, h'⟩ | ⟨c, t, rest, h0, h, _⟩)
                · simp at h
                · simp at h
                · simp only [List.cons.injEq, Option.some.injEq, true_and] at h
                  rw [h.1]; exact h'
                · cases c with
                  | nil => exact absurd rfl h0
                  | cons _ _ => simp at h
          | some s =>
            rw [range_panics]
            constructor
            · rintro ⟨r, t, rest', h, hch, hp⟩
              exact .inr (.inr (.inr ⟨s :: r, t, rest', by simp, by rw [h]; simp, hch, hp⟩))
            · rintro (h | ⟨t, h, _⟩ | ⟨u', r', h, h'⟩ | ⟨c, t, rest', h0, h, hch, hp⟩)
              · simp at h
              · simp at h
              · simp at h
              · cases c with
                | nil => exact absurd rfl h0
                | cons v c =>
                  simp only [List.map_cons, List.cons_append, List.cons.injEq, Option.some.injEq] at h
                  obtain ⟨rfl, h⟩ := h
                  exact ⟨c, t, rest', h, hch, hp⟩

/-- Any client of the sample: a proof whose path has no leaf crashes it, if it comes with the STR the client has; a bare status code, an
empty proof and a path with an STR of a far epoch do not. -/
example (C : Crypto) (cc : Client) (n : Bytes) (key : Option Bytes) :
    CrashesClient C cc KeyLookupType ⟨100, .proof ⟨[some ⟨[], [], [], [], none⟩], [some cc.aud.verified], none⟩⟩ n key ∧
    CrashesClient C cc KeyLookupType ⟨100, .nilProof⟩ n key ∧
    ¬ CrashesClient C cc KeyLookupType ⟨100, .none⟩ n key ∧
    ¬ CrashesClient C cc KeyLookupType ⟨106, .nilProof⟩ n key ∧
    ¬ CrashesClient C cc KeyLookupType ⟨100, .proof ⟨[], [none], none⟩⟩ n key ∧
    CrashesEquivocation C cc ⟨100, .history [none]⟩ ∧ ¬ CrashesEquivocation C cc ⟨100, .history []⟩ := by
  have nf : ¬ Fatal 100 := by unfold Fatal; decide
  have ff : Fatal 106 := by unfold Fatal; decide
  refine ⟨⟨nf, .inr (.inr (.inr (.inr ⟨_, _, _, _, _, rfl, .inr (.inr ⟨_, rfl, .inr ⟨.inl rfl, .inr ⟨_, rfl, .inl rfl⟩⟩⟩)⟩)))⟩,
    ⟨nf, .inl rfl⟩, ?_, fun h => h.1 ff, ?_, ⟨nf, .inr (.inr (.inr (.inr (.inl rfl))))⟩, ?_⟩
  · rintro ⟨_, h | h | h | ⟨_, h, _⟩ | ⟨_, _, _, _, _, h, _⟩⟩ <;> cases h
  · rintro ⟨_, h | h | h | ⟨_, h, _⟩ | ⟨_, _, _, _, _, h, _⟩⟩ <;> cases h
  · rintro ⟨_, h | h | h | ⟨_, h, _⟩ | h | ⟨_, h, _⟩ | ⟨_, _, h, _⟩ | ⟨c, _, _, _, h, _⟩⟩
    iterate 7 cases h
    simp at h

end Coniks.Props

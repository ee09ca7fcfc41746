import Verif.Spec.Verdict
import Verif.Props.ClientCrash
/-
Lemmas for C74: the code of each refusal.
-/
namespace Coniks
open Spec Props
open Classical

theorem str_reason {C : Crypto} {a : AudState} {s : DirSTR} {r : Option ErrorCode}
    (h : a.checkSTRAgainstVerified C (some s) = some r) : r = strReason C a.signKey a.verified s := by
  have hne : ∀ x : UInt64, x ≠ x + 1 := by
    intro x h
    have := congrArg (fun y => y - x) h
    simp only [UInt64.sub_self] at this
    rw [UInt64.add_comm, UInt64.add_sub_cancel] at this
    exact absurd this (by decide)
  unfold AudState.checkSTRAgainstVerified at h
  unfold strReason
  simp only at h
  by_cases h1 : s.core.epoch = a.verified.core.epoch
  · rw [if_pos h1] at h
    unfold AudState.compareWithVerified at h
    by_cases h2 : s = a.verified
    · rw [if_pos h2]; rw [if_pos h2.symm] at h; exact (Option.some.inj h).symm
    · rw [if_neg h2, if_pos (by rw [h1]; exact hne _)]
      rw [if_neg (fun e => h2 e.symm)] at h
      exact (Option.some.inj h).symm
  · have h2 : s ≠ a.verified := by rintro rfl; exact h1 rfl
    rw [if_neg h1] at h
    rw [if_neg h2]
    by_cases h3 : s.core.epoch = a.verified.core.epoch + 1
    · rw [if_pos h3] at h
      rw [if_neg (by simpa using h3)]
      rcases consistency_cases C a (some a.verified) s with ⟨_, g⟩ | ⟨g1, g2, g3⟩ | ⟨g1, g2, _⟩ | ⟨q, g1, g2, g3, g4⟩ | ⟨q, g1, g2, g3⟩
      · rw [g] at h; exact nomatch h
      · rw [g3] at h; rw [if_pos g2]; exact (Option.some.inj h).symm
      · exact nomatch g2
      · cases g1
        rw [g4] at h
        rw [if_neg (by simpa using g2), if_pos g3]; exact (Option.some.inj h).symm
      · cases g1
        rw [g3] at h
        rw [if_neg (by simpa using g2.1), if_neg (by simpa using g2.2)]; exact (Option.some.inj h).symm
    · rw [if_neg h3] at h
      rw [if_pos h3]; exact (Option.some.inj h).symm

/-- the loop as the recomputation of the specification -/
theorem loop_climbFrom {C : Crypto} {bits : List Bool} {p : List Arr32} : ∀ (d : Nat) (h x : Bytes), authPathLoop C bits p d h = some x →
    x = climbFrom C.hash bits (p.map Subtype.val) d h
  | 0, h, x, e => by simp only [authPathLoop, Option.some.injEq] at e; exact e.symm
  | d + 1, h, x, e => by
    rw [authPathLoop] at e
    rw [climbFrom]
    split at e
    · rename_i b q hb hq
      rw [loop_climbFrom d _ x e]
      simp only [List.getD_eq_getElem?_getD, hb, List.getElem?_map, hq, Option.map_some, Option.getD_some, if_true, Crypto.digest,
        List.flatten_cons, List.flatten_nil, List.append_nil]
    · rename_i b q hb hq
      rw [loop_climbFrom d _ x e]
      simp only [List.getD_eq_getElem?_getD, hb, List.getElem?_map, hq, Option.map_some, Option.getD_some, Bool.false_eq_true, if_false, Crypto.digest,
        List.flatten_cons, List.flatten_nil, List.append_nil]
    · exact nomatch e

theorem root_eq {C : Crypto} {ap : AuthPath} {l : ProofNode} {x : Bytes} (hl : ap.leaf = some l) (h : ap.authPathHash C = some x) :
    x = rootOf C.hash ap l := by
  unfold AuthPath.authPathHash at h
  rw [hl] at h
  simp only at h
  split at h
  · exact nomatch h
  · rename_i y hy
    rw [loop_climbFrom _ _ _ h, toBits_eq_bitsOf]
    unfold rootOf
    congr 1
    unfold ProofNode.hash at hy
    unfold leafInput
    split at hy
    · rename_i he
      rw [if_pos he]
      simp only [Option.some.injEq] at hy
      rw [← hy]
      simp [emptyHash, Crypto.digest, emptyTag]
    · rename_i he
      rw [if_neg he]
      split at hy
      · exact nomatch hy
      · rename_i c hc
        simp only [Option.some.injEq] at hy
        rw [← hy, hc]
        simp [leafHash, Crypto.digest, leafTag]

/-- the code for an error of `Verify` (protocol/client/consistencychecks.go:218-231) -/
def codeOf : Except VerifyErr Unit → Option ErrorCode
  | .ok _ => none
  | .error .bindingsDiffer => some CheckBindingsDiffer
  | .error .unverifiableCommitment => some CheckBadCommitment
  | .error .indicesMismatch => some CheckBadLookupIndex
  | .error .unequalTreeHashes => some CheckBadAuthPath

theorem path_reason {C : Crypto} {ap : AuthPath} {l : ProofNode} {n k th : Bytes} {r : Except VerifyErr Unit} (hl : ap.leaf = some l)
    (h : ap.verify C n k th = some r) : codeOf r = pathReason C.hash ap l n k th := by
  unfold AuthPath.verify at h
  rw [hl] at h
  simp only at h
  unfold pathReason
  have hc : (match ap.authPathHash C with
      | none => none
      | some h => if th = h then some (Except.ok ()) else some (.error VerifyErr.unequalTreeHashes)) = some r →
      codeOf r = if rootOf C.hash ap l ≠ th then some CheckBadAuthPath else none := by
    intro h
    split at h
    · exact nomatch h
    · rename_i x hx
      have := root_eq hl hx
      subst this
      split at h
      · rename_i e; cases h; rw [if_neg (by simpa using e.symm)]; rfl
      · rename_i e; cases h; rw [if_pos (fun e' => e e'.symm)]; rfl
  by_cases h1 : ap.lookupIndex = l.index
  · rw [if_pos h1] at h ⊢
    by_cases h2 : l.value.getD [] = k
    · rw [if_pos h2] at h
      rw [if_neg (by simpa using h2)]
      split at h
      · exact nomatch h
      · rename_i c hc'
        by_cases h3 : C.commitVerify c [n, k] = true
        · rw [if_pos h3] at h
          rw [if_neg, hc h]
          intro hall
          apply hall c hc'
          unfold Crypto.commitVerify at h3
          rw [eq_of_beq h3]
          simp [Crypto.digest]
        · rw [if_neg h3] at h
          cases h
          rw [if_pos]
          · rfl
          · intro c' hc'' e
            rw [hc'] at hc''
            cases hc''
            apply h3
            unfold Crypto.commitVerify
            rw [e]
            simp [Crypto.digest]
    · rw [if_neg h2] at h
      rw [if_pos h2]; cases h; rfl
  · rw [if_neg h1] at h ⊢
    rw [toBits_eq_bitsOf, toBits_eq_bitsOf] at h
    obtain ⟨p1, p2, p3, p4⟩ := prefixLoop_agree (a := bitsOf l.index) (b := bitsOf ap.lookupIndex) l.level.toNat 0
    have hd : DifferEarly l.index ap.lookupIndex l.level.toNat ↔
        ¬ ∀ j, 0 ≤ j → j < 0 + l.level.toNat → ∀ x y, (bitsOf l.index)[j]? = some x → (bitsOf ap.lookupIndex)[j]? = some y → x = y := by
      unfold DifferEarly
      constructor
      · rintro ⟨j, x, y, hj, hx, hy, hxy⟩ hall
        exact hxy (hall j (Nat.zero_le _) (by omega) x y hx hy)
      · intro hall
        apply Classical.byContradiction
        intro hno
        apply hall
        intro j _ hj x y hx hy
        apply Classical.byContradiction
        intro hxy
        exact hno ⟨j, x, y, by omega, hx, hy, hxy⟩
    split at h
    · exact nomatch h
    · rename_i hp
      cases h
      rw [if_pos (hd.mpr (p4 hp))]; rfl
    · rename_i hp
      rw [if_neg (fun hx => hd.mp hx (p3 hp))]
      cases hv : l.value with
      | none =>
        rw [hv] at h
        rw [if_neg (by simp)]
        exact hc h
      | some v =>
        rw [hv] at h
        rw [if_pos (by simp)]
        simp only [Option.isSome_some, if_true, Option.some.injEq] at h
        rw [← h]; rfl

theorem authPath_reason {C : Crypto} {n : Bytes} {key : Option Bytes} {ap : AuthPath} {str : DirSTR} {l : ProofNode} {e : Option ErrorCode}
    (hl : ap.leaf = some l) (h : verifyAuthPath C n key ap str = some e) :
    ∃ pol, str.policies = some pol ∧ e = if C.vrfVerify pol.vrfPublicKey n ap.lookupIndex ap.vrfProof = false then some CheckBadVRFProof
      else pathReason C.hash ap l n (key.getD (l.value.getD [])) str.core.treeHash := by
  unfold verifyAuthPath at h
  split at h
  · exact nomatch h
  · rename_i pol hp
    refine ⟨pol, hp, ?_⟩
    by_cases hv : C.vrfVerify pol.vrfPublicKey n ap.lookupIndex ap.vrfProof = true
    · rw [if_pos hv] at h
      rw [if_neg (by simp [hv])]
      have hk : expectedKey key ap = some (key.getD (l.value.getD [])) := by
        cases key <;> simp [expectedKey, hl]
      rw [hk] at h
      simp only at h
      cases hr : ap.verify C n (key.getD (l.value.getD [])) str.core.treeHash with
      | none => rw [hr] at h; exact nomatch h
      | some r =>
        rw [hr] at h
        rw [← path_reason hl hr]
        cases r with
        | ok u => cases h; rfl
        | error x => cases x <;> (cases h; rfl)
    · rw [if_neg hv] at h
      rw [if_pos (by simpa using hv)]
      exact (Option.some.inj h).symm

theorem promise_reason (C : Crypto) (cc : Client) (ap : AuthPath) (str : DirSTR) (tb : Option TB) (n : Bytes) (key : Option Bytes) :
    (cc.takePromise C ap str tb n key).2 = promiseReason C cc.aud.signKey str.core.signature ap.lookupIndex key tb := by
  unfold Client.takePromise Client.verifyReturnedPromise promiseReason
  cases tb with
  | none => rfl
  | some tb =>
    dsimp only
    rw [show C.verify cc.aud.signKey (str.core.signature ++ tb.index ++ tb.value) tb.signature =
      cc.aud.verify C (tb.serialize str.core.signature) tb.signature by simp [TB.serialize, AudState.verify]]
    cases h1 : cc.aud.verify C (tb.serialize str.core.signature) tb.signature with
    | false => simp
    | true =>
      by_cases h2 : tb.index = ap.lookupIndex
      · cases key with
        | none => simp [h2]
        | some k => by_cases h3 : tb.value = k <;> simp [h2, h3]
      · simp [h2]

theorem kept_reason {cc : Client} {n : Bytes} {ap : AuthPath} {l : ProofNode} {e : Option ErrorCode} (hl : ap.leaf = some l)
    (h : cc.verifyFulfilledPromise n ap = some e) : e = keptReason (cc.tbs n) ap.lookupIndex (l.value.getD []) := by
  unfold Client.verifyFulfilledPromise at h
  unfold keptReason
  cases hp : cc.tbs n with
  | none => rw [hp] at h; rw [if_neg (by simp)]; exact (Option.some.inj h).symm
  | some p =>
    rw [hp, hl] at h
    simp only [Option.some.injEq, exists_eq_left'] at h ⊢
    by_cases h1 : ap.lookupIndex = p.index
    · rw [if_neg (by simpa using h1)] at h
      by_cases h2 : l.value.getD [] = p.value
      · rw [if_neg (by simpa using h2)] at h
        rw [if_neg (by simp [h1, h2])]; exact (Option.some.inj h).symm
      · rw [if_pos h2] at h
        rw [if_pos (.inr h2)]; exact (Option.some.inj h).symm
    · rw [if_pos h1] at h
      rw [if_pos (.inl h1)]; exact (Option.some.inj h).symm

/-- the consistency check of a client with TBs -/
theorem consistency_reason {C : Crypto} {cc : Client} (htb : cc.useTBs = true) {ty : Int} (hty : ty = RegistrationType ∨ ty = KeyLookupType)
    {code : ErrorCode} {ap : AuthPath} {aps : List (Option AuthPath)} {s : DirSTR} {strs : List (Option DirSTR)} {tb : Option TB} {n : Bytes}
    {key : Option Bytes} {l : ProofNode} (hl : ap.leaf = some l) {e : Option ErrorCode}
    (h : cc.checkConsistency C ty code ⟨some ap :: aps, some s :: strs, tb⟩ n key = some e) :
    (¬ StatusFits ty code (kindOf ap l) ∧ e = some ErrMalformedMessage) ∨
    (StatusFits ty code (kindOf ap l) ∧ ∃ pol, s.policies = some pol ∧
      e = if C.vrfVerify pol.vrfPublicKey n ap.lookupIndex ap.vrfProof = false then some CheckBadVRFProof
        else pathReason C.hash ap l n (key.getD (l.value.getD [])) s.core.treeHash) := by
  have hne : KeyLookupType ≠ RegistrationType := by decide
  unfold Client.checkConsistency Client.verifyRegistration Client.verifyKeyLookup at h
  simp only [DirectoryProof.first, AuthPath.proofType, hl, Option.map_some] at h
  rw [show (if ap.lookupIndex = l.index then ProofType.inclusion else .absence) = kindOf ap l from rfl] at h
  rw [status_iff]
  generalize kindOf ap l = t at h ⊢
  rcases hty with rfl | rfl
  · simp only [if_true, htb, and_true] at h
    simp only [true_and, hne.symm, false_and, or_false]
    split at h
    · rename_i hs; exact .inr ⟨hs, authPath_reason hl h⟩
    · rename_i hs; exact .inl ⟨hs, (Option.some.inj h).symm⟩
  · simp only [hne, if_false, if_true, htb, and_true] at h
    simp only [true_and, hne, false_and, false_or]
    split at h
    · rename_i hs; exact .inr ⟨hs, authPath_reason hl h⟩
    · rename_i hs; exact .inl ⟨hs, (Option.some.inj h).symm⟩

theorem updateTBs_reason {C : Crypto} {cc cc' : Client} (htb : cc.useTBs = true) {ty : Int} (hty : ty = RegistrationType ∨ ty = KeyLookupType)
    {code : ErrorCode} {ap : AuthPath} {aps : List (Option AuthPath)} {s : DirSTR} {strs : List (Option DirSTR)} {tb : Option TB} {n : Bytes}
    {key : Option Bytes} {l : ProofNode} (hl : ap.leaf = some l) (hs : StatusFits ty code (kindOf ap l)) {e : Option ErrorCode}
    (h : cc.updateTBs C ty code ⟨some ap :: aps, some s :: strs, tb⟩ n key = some (cc', e)) :
    e = if Promised ty code (kindOf ap l) then promiseReason C cc.aud.signKey s.core.signature ap.lookupIndex key tb
      else if ty = KeyLookupType ∧ kindOf ap l = .inclusion then keptReason (cc.tbs n) ap.lookupIndex (l.value.getD [])
      else none := by
  have hne : KeyLookupType ≠ RegistrationType := by decide
  unfold Client.updateTBs at h
  simp only [htb, Bool.true_eq_false, if_false, DirectoryProof.first, AuthPath.proofType, hl, Option.map_some] at h
  rw [show (if ap.lookupIndex = l.index then ProofType.inclusion else .absence) = kindOf ap l from rfl] at h
  rw [status_iff] at hs
  unfold Promised
  generalize kindOf ap l = t at h hs ⊢
  have tk : ∀ {c e}, (some (cc.takePromise C ap s tb n key) : Go _) = some (c, e) →
      e = promiseReason C cc.aud.signKey s.core.signature ap.lookupIndex key tb := by
    intro c e h
    rw [← promise_reason C cc ap s tb n key, Option.some.inj h]
  rcases hty with rfl | rfl
  · simp only [if_true] at h
    cases t with
    | absence =>
      rw [if_pos ⟨rfl, .inl rfl⟩]
      rw [if_pos rfl] at h
      exact tk h
    | inclusion =>
      rw [if_neg (by simp), if_neg (by simp [hne.symm])]
      rw [if_neg (by simp)] at h
      simp only [Option.some.injEq, Prod.mk.injEq] at h
      exact h.2.symm
  · simp only [hne, if_false, if_true] at h
    simp only [true_and, hne, false_and, false_or] at hs ⊢
    cases t with
    | absence =>
      simp only [reduceCtorEq, and_false, if_false, and_true, or_false, false_or, true_and] at h hs ⊢
      by_cases hc : code = ReqSuccess
      · rw [if_pos hc] at h ⊢; exact tk h
      · rw [if_neg hc] at h ⊢
        simp only [Option.some.injEq, Prod.mk.injEq] at h; exact h.2.symm
    | inclusion =>
      simp only [reduceCtorEq, and_false, and_true, or_false, false_or, false_and, if_false] at h hs ⊢
      rw [if_pos hs] at h
      split at h
      · exact nomatch h
      · rename_i e' hv
        simp only [Option.some.injEq, Prod.mk.injEq] at h
        rw [← kept_reason hl hv]; simp [h.2]
      · rename_i hv
        simp only [Option.some.injEq, Prod.mk.injEq] at h
        rw [← kept_reason hl hv]; simp [h.2]

theorem handle_reason {C : Crypto} {cc cc' : Client} (htb : cc.useTBs = true) {ty : Int} {msg : Response} {n : Bytes} {key : Option Bytes}
    {e : Option ErrorCode} (h : cc.handleResponse C ty msg n key = some (cc', e)) : e = reason C cc ty msg n key := by
  obtain ⟨code, resp⟩ := msg
  unfold Client.handleResponse at h
  unfold reason
  simp only at h ⊢
  by_cases hf : Fatal code
  · rw [if_pos hf]
    rw [show Response.validate ⟨code, resp⟩ = some (some code) by
      simp [Response.validate, (errorsSet_iff code).mpr hf]] at h
    simp only [Option.some.injEq, Prod.mk.injEq] at h
    exact h.2.symm
  · rw [if_neg hf]
    have hf' : errorsSet code = false := by
      cases hx : errorsSet code with
      | false => rfl
      | true => exact absurd ((errorsSet_iff code).mp hx) hf
    have hv : ∀ x, Response.validate ⟨code, x⟩ = (match x with
      | .none => some (some ErrMalformedMessage)
      | .nilProof => none
      | .nilHistory => none
      | .proof p => if p.str.length = 0 ∨ p.ap.length = 0 then some (some ErrMalformedMessage) else some none
      | .history strs => if strs.length = 0 then some (some ErrMalformedMessage) else some none
      | .other => none) := by intro x; simp only [Response.validate, hf', Bool.false_eq_true, if_false]; cases x <;> rfl
    rw [hv] at h
    cases resp with
    | none => simp only [Option.some.injEq, Prod.mk.injEq] at h; exact h.2.symm
    | nilProof => exact nomatch h
    | nilHistory => exact nomatch h
    | other => exact nomatch h
    | history l =>
      dsimp only at h ⊢
      split at h
      · exact nomatch h
      · rename_i e' he'
        split at he'
        · cases he'; simp only [Option.some.injEq, Prod.mk.injEq] at h; exact h.2.symm
        · cases he'
      · split at h
        · simp only [Option.some.injEq, Prod.mk.injEq] at h; exact h.2.symm
        · exact nomatch h
    | proof df =>
      obtain ⟨aps, strs, tb⟩ := df
      cases aps with
      | nil =>
        simp only [List.length_nil, or_true, if_true, Option.some.injEq, Prod.mk.injEq] at h
        rw [← h.2]
      | cons ap aps =>
        cases strs with
        | nil =>
          simp only [List.length_nil, true_or, if_true, Option.some.injEq, Prod.mk.injEq] at h
          rw [← h.2]
          cases ap <;> rfl
        | cons str strs =>
          simp only [List.length_cons, Nat.add_eq_zero_iff, Nat.succ_ne_self, and_false, or_self, if_false] at h
          split at h
          · cases hu : cc.updateSTR C ty ⟨ap :: aps, str :: strs, tb⟩ with
            | none => rw [hu] at h; exact nomatch h
            | some x =>
              obtain ⟨c1, e1⟩ := x
              rw [hu] at h
              -- the STR
              have hty := (updateSTR_spec hu).1
              cases str with
              | none =>
                unfold Client.updateSTR at hu
                rw [if_pos hty] at hu
                simp [AudState.auditDirectory, AudState.checkSTRAgainstVerified] at hu
              | some s =>
                have hs : e1 = strReason C cc.aud.signKey cc.aud.verified s ∧ c1.aud.signKey = cc.aud.signKey ∧ c1.useTBs = cc.useTBs ∧ c1.tbs = cc.tbs := by
                  unfold Client.updateSTR at hu
                  rw [if_pos hty] at hu
                  simp only [AudState.auditDirectory, List.length_nil, Nat.lt_irrefl, gt_iff_lt, if_false] at hu
                  cases hc : cc.aud.checkSTRAgainstVerified C (some s) with
                  | none => rw [hc] at hu; exact nomatch hu
                  | some r =>
                    rw [hc] at hu
                    rw [← str_reason hc]
                    cases r with
                    | none =>
                      simp only [Option.some.injEq, Prod.mk.injEq] at hu
                      rw [← hu.1, ← hu.2]
                      exact ⟨rfl, rfl, rfl, rfl⟩
                    | some r =>
                      simp only [Option.some.injEq, Prod.mk.injEq] at hu
                      rw [← hu.1, ← hu.2]
                      exact ⟨rfl, rfl, rfl, rfl⟩
                obtain ⟨hs1, hs2, hs3, hs4⟩ := hs
                cases e1 with
                | some x =>
                  simp only [Option.some.injEq, Prod.mk.injEq] at h
                  cases ap with
                  | none => dsimp only; rw [← hs1, h.2]
                  | some ap => dsimp only; rw [← hs1, Option.some_or, h.2]
                | none =>
                  dsimp only at h
                  cases ap with
                  | none => rw [consistency_nil_path] at h; exact nomatch h
                  | some ap =>
                    dsimp only
                    rw [← hs1, Option.none_or]
                    cases hl : ap.leaf with
                    | none =>
                      have : c1.checkConsistency C ty code ⟨some ap :: aps, some s :: strs, tb⟩ n key = none := by
                        unfold Client.checkConsistency Client.verifyRegistration Client.verifyKeyLookup
                        simp only [DirectoryProof.first, AuthPath.proofType, hl, Option.map_none]
                        split
                        · rfl
                        · split <;> rfl
                      rw [this] at h; exact nomatch h
                    | some l =>
                      cases hcc : c1.checkConsistency C ty code ⟨some ap :: aps, some s :: strs, tb⟩ n key with
                      | none => rw [hcc] at h; exact nomatch h
                      | some e2 =>
                        rw [hcc] at h
                        have htb1 : c1.useTBs = true := by rw [hs3]; exact htb
                        rcases consistency_reason htb1 hty hl hcc with ⟨g1, g2⟩ | ⟨g1, pol, g2, g3⟩
                        · subst g2
                          simp only [Option.some.injEq, Prod.mk.injEq] at h
                          rw [← h.2]
                          cases s.policies with
                          | none => rfl
                          | some pol => dsimp only; rw [if_pos g1]
                        · rw [g2]
                          dsimp only
                          rw [if_neg (by simpa using g1)]
                          by_cases hvv : C.vrfVerify pol.vrfPublicKey n ap.lookupIndex ap.vrfProof = false
                          · rw [if_pos hvv] at g3 ⊢
                            subst g3
                            simp only [Option.some.injEq, Prod.mk.injEq] at h
                            exact h.2.symm
                          · rw [if_neg hvv] at g3 ⊢
                            rw [← g3]
                            cases e2 with
                            | some x =>
                              simp only [Option.some.injEq, Prod.mk.injEq] at h
                              rw [Option.some_or]; exact h.2.symm
                            | none =>
                              rw [Option.none_or]
                              dsimp only at h
                              cases hut : c1.updateTBs C ty code ⟨some ap :: aps, some s :: strs, tb⟩ n key with
                              | none => rw [hut] at h; exact nomatch h
                              | some y =>
                                obtain ⟨c2, e3⟩ := y
                                rw [hut] at h
                                have h3 := updateTBs_reason htb1 hty hl g1 hut
                                rw [hs2, hs4] at h3
                                rw [← h3]
                                cases e3 with
                                | some x => simp only [Option.some.injEq, Prod.mk.injEq] at h; exact h.2.symm
                                | none => simp only [Option.some.injEq, Prod.mk.injEq] at h; exact h.2.symm
          · exact nomatch h

theorem range_reason {C : Crypto} {a : AudState} : ∀ (rest : List (Option DirSTR)) (prev : Option DirSTR) (e : Option ErrorCode),
    a.verifySTRRange C prev rest = some e → e = rangeReason C a.signKey prev rest
  | [], _, e, h => by simp only [AudState.verifySTRRange, Option.some.injEq] at h; exact h.symm
  | none :: _, _, e, h => by simp only [AudState.verifySTRRange, Option.some.injEq] at h; exact h.symm
  | some s :: rest, prev, e, h => by
    rw [AudState.verifySTRRange] at h
    rw [rangeReason]
    rcases consistency_cases C a prev s with ⟨_, g⟩ | ⟨g1, g2, g3⟩ | ⟨_, _, g⟩ | ⟨q, g1, g2, g3, g4⟩ | ⟨q, g1, g2, g3⟩
    · rw [g] at h; exact nomatch h
    · rw [g3] at h
      rw [if_pos g2]; exact (Option.some.inj h).symm
    · rw [g] at h; exact nomatch h
    · rw [g4] at h
      rw [if_neg (by simpa using g2), if_pos]
      · exact (Option.some.inj h).symm
      · rintro ⟨p, hp, hl⟩
        rw [g1] at hp; cases hp; exact g3 hl
    · rw [g3] at h
      rw [if_neg (by simpa using g2.1), if_neg]
      · exact range_reason rest _ _ h
      · exact fun hn => hn ⟨q, g1, g2.2⟩

theorem audit_reason {C : Crypto} {a : AudState} {strs : List (Option DirSTR)} {e : Option ErrorCode} (h : a.auditDirectory C strs = some e) :
    e = auditReason C a.signKey a.verified strs := by
  cases strs with
  | nil => simp only [AudState.auditDirectory, Option.some.injEq] at h; exact h.symm
  | cons s rest =>
    rw [AudState.auditDirectory] at h
    cases s with
    | none => exact nomatch h
    | some s =>
      unfold auditReason
      dsimp only
      cases hc : a.checkSTRAgainstVerified C (some s) with
      | none => rw [hc] at h; exact nomatch h
      | some r =>
        rw [hc] at h
        rw [← str_reason hc]
        cases r with
        | some r => exact (Option.some.inj h).symm
        | none =>
          dsimp only at h
          rw [Option.none_or]
          split at h
          · exact range_reason rest _ _ h
          · rename_i hl
            have : rest = [] := List.eq_nil_of_length_eq_zero (by omega)
            subst this
            exact (Option.some.inj h).symm

theorem range_some {C : Crypto} {a : AudState} : ∀ (rest : List (Option DirSTR)) (prev : Option DirSTR), a.verifySTRRange C prev rest = some none →
    none ∉ rest
  | [], _, _ => by simp
  | none :: _, _, h => by simp [AudState.verifySTRRange] at h
  | some s :: rest, prev, h => by
    rw [AudState.verifySTRRange] at h
    split at h
    · exact nomatch h
    · exact nomatch (Option.some.inj h)
    · have := range_some rest _ h
      simp [this]

theorem equiv_reason {C : Crypto} {cc : Client} {msg : Response} {e : Option ErrorCode} (h : cc.checkEquivocation C msg = some e) :
    e = equivReason C cc msg := by
  obtain ⟨code, resp⟩ := msg
  unfold Client.checkEquivocation at h
  unfold equivReason
  simp only at h ⊢
  by_cases hf : Fatal code
  · rw [if_pos hf]
    rw [show Response.validate ⟨code, resp⟩ = some (some code) by
      simp [Response.validate, (errorsSet_iff code).mpr hf]] at h
    exact (Option.some.inj h).symm
  · rw [if_neg hf]
    have hf' : errorsSet code = false := by
      cases hx : errorsSet code with
      | false => rfl
      | true => exact absurd ((errorsSet_iff code).mp hx) hf
    cases resp with
    | none => simp only [Response.validate, hf', Bool.false_eq_true, if_false] at h; exact (Option.some.inj h).symm
    | nilProof => simp only [Response.validate, hf', Bool.false_eq_true, if_false] at h; exact nomatch h
    | nilHistory => simp only [Response.validate, hf', Bool.false_eq_true, if_false] at h; exact nomatch h
    | other => simp only [Response.validate, hf', Bool.false_eq_true, if_false] at h; exact nomatch h
    | proof df =>
      simp only [Response.validate, hf', Bool.false_eq_true, if_false] at h
      split at h
      · exact nomatch h
      · rename_i hx; split at hx
        · cases hx; exact (Option.some.inj h).symm
        · exact nomatch hx
      · exact nomatch h
    | history l =>
      cases l with
      | nil => simp only [Response.validate, hf', Bool.false_eq_true, if_false, List.length_nil, if_true] at h; exact (Option.some.inj h).symm
      | cons s rest =>
        simp only [Response.validate, hf', Bool.false_eq_true, if_false, List.length_cons, Nat.add_eq_zero_iff, Nat.succ_ne_self, and_false] at h
        have hrng : ∀ x, (if rest.length > 0 then cc.aud.verifySTRRange C s rest else some none) = some x →
            x = rangeReason C cc.aud.signKey s rest ∧ (x = none → none ∉ rest) := by
          intro x hx
          split at hx
          · exact ⟨range_reason rest s x hx, fun hn => by subst hn; exact range_some rest s hx⟩
          · rename_i hl
            have : rest = [] := List.eq_nil_of_length_eq_zero (by omega)
            subst this
            exact ⟨(Option.some.inj hx).symm, fun _ => by simp⟩
        generalize hg : (if rest.length > 0 then cc.aud.verifySTRRange C s rest else some none) = g at h hrng
        cases g with
        | none => exact nomatch h
        | some x =>
          obtain ⟨h1, h2⟩ := hrng x rfl
          dsimp only
          rw [← h1]
          cases x with
          | some x => exact (Option.some.inj h).symm
          | none =>
            dsimp only at h
            rw [Option.none_or, List.getLast?_eq_some_getLast (by simp)]
            cases hlast : (s :: rest).getLast (by simp) with
            | none => rw [hlast] at h; exact nomatch h
            | some t =>
              rw [hlast] at h
              exact str_reason h

end Coniks

import Verif.Proofs.Verdict
import Verif.Props.Client
/-
C74: every refusal states its true reason.
-/
namespace Coniks.Props
open Coniks Spec

/-- C74. `HandleResponse`, for a client that uses TBs (the only kind `New` makes): it returns the code `e` (or nil) exactly if the response is not one
that crashes it (C37) and `e` is what is wrong with the response (`Spec.reason`). -/
theorem C74_reason (C : Crypto) (cc : Client) (htb : cc.useTBs = true) (ty : Int) (msg : Response) (n : Bytes) (key : Option Bytes)
    (e : Option ErrorCode) :
    (∃ cc', cc.handleResponse C ty msg n key = some (cc', e)) ↔ ¬ CrashesClient C cc ty msg n key ∧ e = reason C cc ty msg n key := by
  rw [← C37_panics_iff C cc htb]
  constructor
  · rintro ⟨cc', h⟩
    exact ⟨by rw [Panics, h]; simp, handle_reason htb h⟩
  · rintro ⟨h, rfl⟩
    cases hx : cc.handleResponse C ty msg n key with
    | none => exact absurd hx h
    | some x => exact ⟨x.1, by rw [← handle_reason htb hx]⟩

/-- C74. The same for `CheckEquivocation`. -/
theorem C74_equivocation (C : Crypto) (cc : Client) (msg : Response) (e : Option ErrorCode) :
    cc.checkEquivocation C msg = some e ↔ ¬ CrashesEquivocation C cc msg ∧ e = equivReason C cc msg := by
  rw [← C37_equivocation_panics_iff C cc]
  constructor
  · intro h; exact ⟨by rw [Panics, h]; simp, equiv_reason h⟩
  · rintro ⟨h, rfl⟩
    cases hx : cc.checkEquivocation C msg with
    | none => exact absurd hx h
    | some x => rw [← equiv_reason hx]

/-- C74. And for `AuditDirectory`: if it returns, it returns what is wrong with the range. -/
theorem C74_audit (C : Crypto) (a : AudState) (strs : List (Option DirSTR)) (e : Option ErrorCode) (h : a.auditDirectory C strs = some e) :
    e = auditReason C a.signKey a.verified strs := audit_reason h

/-- C74, as a caller reads it: `CheckBrokenPromise` is returned only if every other check of a lookup passed (the chain, the VRF, the path) and the tree
holds another key or another index for the name than the directory promised; and then it is returned. -/
theorem C74_broken_promise (C : Crypto) (cc : Client) (htb : cc.useTBs = true) (ty : Int) (msg : Response) (n : Bytes) (key : Option Bytes) :
    (∃ cc', cc.handleResponse C ty msg n key = some (cc', some CheckBrokenPromise)) ↔
      ∃ ap str tb l pol p, Carries msg ap str tb ∧ Checks C cc ty msg n key ap str l .inclusion pol ∧ ty = KeyLookupType ∧
        cc.tbs n = some p ∧ (ap.lookupIndex ≠ p.index ∨ l.value.getD [] ≠ p.value) := by
  have hne : KeyLookupType ≠ RegistrationType := by decide
  constructor
  · rintro ⟨cc', h⟩
    have hstr : ∀ {pk held s}, strReason C pk held s ≠ some CheckBrokenPromise := by
      intro pk held s g
      unfold strReason at g
      repeat' split at g
      all_goals first | (cases g; done) | (exact absurd (Option.some.inj g) (by decide))
    unfold Client.handleResponse at h
    split at h
    · exact nomatch h
    · rename_i e he
      simp only [Option.some.injEq, Prod.mk.injEq] at h
      rw [h.2] at he
      unfold Response.validate at he
      repeat' split at he
      all_goals first | (cases he; done) | skip
      all_goals simp only [Option.some.injEq] at he
      · rename_i hx; rw [he] at hx; exact absurd hx (by decide)
      all_goals exact absurd he (by decide)
    · split at h
      · split at h
        · rename_i df hr
          split at h
          · exact nomatch h
          · rename_i c1 e hu
            simp only [Option.some.injEq, Prod.mk.injEq] at h
            rw [h.2] at hu
            unfold Client.updateSTR at hu
            split at hu
            · split at hu
              · exact nomatch hu
              · rename_i s _ _
                rw [audit_one] at hu
                cases s with
                | none => exact nomatch hu
                | some s =>
                  split at hu
                  · exact nomatch hu
                  · rename_i e' ha
                    simp only [Option.some.injEq, Prod.mk.injEq] at hu
                    rw [hu.2] at ha
                    exact absurd (str_reason ha).symm hstr
                  · exact nomatch (Option.some.inj hu)
            · exact nomatch hu
          · rename_i c1 hu
            obtain ⟨hty, g⟩ := updateSTR_spec hu
            rcases g with ⟨g, _⟩ | ⟨_, s, rest, hs, hc1, hchain⟩
            · exact absurd rfl g
            · subst hc1
              split at h
              · exact nomatch h
              · rename_i e hcc
                simp only [Option.some.injEq, Prod.mk.injEq] at h
                rw [h.2] at hcc
                obtain ⟨apl, strl, tb⟩ := df
                dsimp only at hs
                subst hs
                have hnone : ∀ {x : Go (Option ErrorCode)}, x = none → x ≠ some (some CheckBrokenPromise) := by intro x hx; rw [hx]; simp
                rcases apl with _ | ⟨ap, aps⟩
                · refine absurd hcc (hnone ?_)
                  unfold Client.checkConsistency Client.verifyRegistration Client.verifyKeyLookup
                  simp [DirectoryProof.first]
                cases ap with
                | none =>
                  refine absurd hcc (hnone ?_)
                  unfold Client.checkConsistency Client.verifyRegistration Client.verifyKeyLookup
                  simp [DirectoryProof.first]
                | some ap =>
                  cases hl : ap.leaf with
                  | none =>
                    refine absurd hcc (hnone ?_)
                    unfold Client.checkConsistency Client.verifyRegistration Client.verifyKeyLookup
                    simp [DirectoryProof.first, AuthPath.proofType, hl]
                  | some l =>
                    rcases consistency_reason (cc := { cc with aud := cc.aud.update s }) htb hty hl hcc with ⟨_, g⟩ | ⟨_, pol, _, g⟩
                    · exact absurd (Option.some.inj g) (by decide)
                    · unfold pathReason at g
                      repeat' split at g
                      all_goals first | (cases g; done) | (exact absurd (Option.some.inj g) (by decide))
              · rename_i hcc
                obtain ⟨ap, str, l, t, pol, hf, hl, ht, hst, hp, hv, hpath⟩ := (checkConsistency_ok _ _ _ _ _ _ _ htb).mp hcc
                split at h
                · exact nomatch h
                · rename_i c2 e2 hut
                  simp only [Option.some.injEq, Prod.mk.injEq] at h
                  rw [h.2] at hut
                  obtain ⟨apl, strl, tb⟩ := df
                  obtain ⟨aps, strs, h1, h2⟩ := (first_iff _ _ _).mp hf
                  dsimp only at h1 h2 hs
                  subst h1; subst h2
                  obtain ⟨rfl, rfl⟩ : str = s ∧ strs = rest := by simpa using hs
                  have g := updateTBs_reason (cc := { cc with aud := cc.aud.update str }) htb hty hl (by rw [kindOf, ← ht]; exact hst) hut
                  rw [show kindOf ap l = t from ht.symm] at g
                  split at g
                  · exfalso
                    unfold promiseReason at g
                    repeat' split at g
                    all_goals first | (cases g; done) | (exact absurd (Option.some.inj g) (by decide))
                  · split at g
                    · rename_i hin
                      unfold keptReason at g
                      split at g
                      · rename_i hk
                        obtain ⟨p, hp1, hp2⟩ := hk
                        refine ⟨ap, str, tb, l, pol, p, ⟨aps, strs, hr⟩, ⟨hchain, hl, ?_, ?_, hp, hv, hpath⟩, hin.1, hp1, hp2⟩
                        · exact hin.2.symm.trans ht
                        · exact hin.2 ▸ hst
                      · cases g
                    · cases g
                · exact nomatch (Prod.mk.inj (Option.some.inj h)).2
        · simp only [Option.some.injEq, Prod.mk.injEq] at h
          exact absurd h.2 (by decide)
      · exact nomatch h
  · rintro ⟨ap, str, tb, l, pol, p, ⟨aps, strs, hr⟩, hck, rfl, hp, hbad⟩
    have hcode : msg.error = ReqSuccess := by
      rcases hck.status with ⟨g, _⟩ | ⟨_, ⟨_, g⟩ | g⟩
      · exact absurd g hne
      · exact nomatch g
      · exact g
    have hkind := hck.type_eq
    have hval : msg.validate = some none := by
      unfold Response.validate
      rw [hcode, hr]; rfl
    unfold Client.handleResponse
    rw [hval, hr]
    dsimp only
    rw [if_pos (.inr (.inl rfl)), updateSTR_ok (.inr rfl) rfl hck.chain]
    dsimp only
    rw [(checkConsistency_ok C { cc with aud := cc.aud.update str } KeyLookupType msg.error ⟨some ap :: aps, some str :: strs, tb⟩ n key htb).mpr ⟨ap, str, l, .inclusion, pol, rfl, hck.leaf_eq, hck.type_eq, hck.status, hck.pol_eq, hck.vrf, hck.path⟩]
    dsimp only
    have hf : Client.verifyFulfilledPromise { cc with aud := cc.aud.update str } n ap = some (some CheckBrokenPromise) := by
      unfold Client.verifyFulfilledPromise
      simp only [hp, hck.leaf_eq]
      by_cases h1 : ap.lookupIndex = p.index
      · have h2 : l.value.getD [] ≠ p.value := hbad.resolve_left (fun g => g h1)
        rw [if_neg (by simpa using h1), if_pos h2]
      · rw [if_pos h1]
    have hu : Client.updateTBs C { cc with aud := cc.aud.update str } KeyLookupType msg.error ⟨some ap :: aps, some str :: strs, tb⟩ n key =
        some ({ cc with aud := cc.aud.update str }, some CheckBrokenPromise) := by
      unfold Client.updateTBs
      rw [if_neg (by simp [htb])]
      simp only [if_false, DirectoryProof.first, AuthPath.proofType, hck.leaf_eq, Option.map_some, hne, if_true, ← hkind,
        hcode, and_self, hf]
    rw [hu]
    exact ⟨_, rfl⟩

/-- C74, the state a refusal leaves: the client holds the offered STR if nothing is wrong with that, whatever else is wrong with the response; else it is
unchanged. -/
theorem C74_state (C : Crypto) (cc cc' : Client) (ty : Int) (msg : Response) (n : Bytes) (key : Option Bytes) (e : ErrorCode)
    (h : cc.handleResponse C ty msg n key = some (cc', some e)) :
    (∀ ap aps str strs tb, ¬ Fatal msg.error → msg.resp = .proof ⟨ap :: aps, some str :: strs, tb⟩ →
      strReason C cc.aud.signKey cc.aud.verified str = none → cc' = { cc with aud := { cc.aud with verified := str } }) ∧
    ((¬ ∃ ap aps str strs tb, ¬ Fatal msg.error ∧ msg.resp = .proof ⟨ap :: aps, some str :: strs, tb⟩ ∧
      strReason C cc.aud.signKey cc.aud.verified str = none) → cc' = cc) := by
  have hchain : ∀ s, strReason C cc.aud.signKey cc.aud.verified s = none ↔
      (s = cc.aud.verified ∨ Successor C cc.aud.signKey cc.aud.verified s) := by
    intro s
    unfold strReason
    constructor
    · intro g
      by_cases h1 : s = cc.aud.verified
      · exact .inl h1
      · rw [if_neg h1] at g
        by_cases h2 : s.core.epoch = cc.aud.verified.core.epoch + 1
        · rw [if_neg (by simpa using h2)] at g
          by_cases h3 : Signed C cc.aud.signKey s
          · rw [if_neg (by simpa using h3)] at g
            by_cases h4 : Linked C cc.aud.verified s
            · exact .inr ⟨h3, h4⟩
            · rw [if_pos h4] at g; exact nomatch g
          · rw [if_pos h3] at g; exact nomatch g
        · rw [if_pos h2] at g; exact nomatch g
    · rintro (g | ⟨h3, h4⟩)
      · rw [if_pos g]
      · split
        · rfl
        · simp [h4.epoch, h3, h4]
  refine ⟨?_, ?_⟩
  · intro ap aps str strs tb hf hr hs
    have hval : msg.validate = some none := by
      unfold Response.validate
      rw [if_neg (by rw [errorsSet_iff]; exact hf), hr]
      simp
    unfold Client.handleResponse at h
    rw [hval, hr] at h
    dsimp only at h
    split at h
    · cases hu : cc.updateSTR C ty ⟨ap :: aps, some str :: strs, tb⟩ with
      | none => rw [hu] at h; exact nomatch h
      | some x =>
        rw [hu] at h
        have hty := (updateSTR_spec (show _ = some (x.1, x.2) from hu)).1
        rw [updateSTR_ok hty rfl ((hchain str).mp hs)] at hu
        rw [← Option.some.inj hu] at h
        dsimp only at h
        split at h
        · exact nomatch h
        · simp only [Option.some.injEq, Prod.mk.injEq] at h; exact h.1.symm
        · split at h
          · exact nomatch h
          · rename_i hut
            simp only [Option.some.injEq, Prod.mk.injEq] at h
            rw [← h.1]; exact updateTBs_err hut
          · exact nomatch (Prod.mk.inj (Option.some.inj h)).2
    · exact nomatch h
  · intro hn
    rcases handle_cases h with ⟨_, g⟩ | ⟨df, s, rest, hr, hs, _, hval, hc, _⟩
    · exact g
    · refine absurd ?_ hn
      obtain ⟨apl, strl, tb⟩ := df
      dsimp only at hs
      subst hs
      unfold Response.validate at hval
      rw [hr] at hval
      split at hval
      · exact nomatch (Option.some.inj hval)
      · rename_i hf
        rcases apl with _ | ⟨ap, aps⟩
        · simp at hval
        · exact ⟨ap, aps, s, rest, tb, by rw [← errorsSet_iff]; exact hf, hr, (hchain s).mpr hc⟩

set_option synthInstance.maxSize 1000 in
/-- a client that was promised `[1]` for alice and is shown `[2]` in the next epoch's tree complains of a broken promise; had it expected `[1]` it would
complain of the key; asked about bob, of the VRF; and a client that misses an epoch complains of the STR: the equations of `C74_reason` and both sides
of `C74_broken_promise` for four refusals -/
example : ∃ (r₁ r₂ r₃ : Response) (c₀ c₁ : Client), c₀.useTBs = true ∧ c₁.useTBs = true ∧
    c₀.handleResponse Crypto.toy RegistrationType r₁ [0x61] (some [1]) = some (c₁, none) ∧
    reason Crypto.toy c₁ KeyLookupType r₂ [0x61] none = some CheckBrokenPromise ∧
    reason Crypto.toy c₁ KeyLookupType r₂ [0x61] (some [1]) = some CheckBindingsDiffer ∧
    reason Crypto.toy c₁ KeyLookupType r₂ [0x62] none = some CheckBadVRFProof ∧
    reason Crypto.toy c₁ KeyLookupType r₃ [0x61] none = some CheckBadSTR ∧
    ∃ ap str tb l pol p, Carries r₂ ap str tb ∧ Checks Crypto.toy c₁ KeyLookupType r₂ [0x61] none ap str l .inclusion pol ∧
      c₁.tbs [0x61] = some p ∧ l.value.getD [] ≠ p.value ∧ ap.lookupIndex = p.index := by
  have key : ((dirAfter Crypto.toy 5 [1] [2] 10 [3] [4] [.register (some [5]) ⟨[0x61], [2]⟩, .update]).bind fun y =>
      (dirAfter Crypto.toy 5 [1] [2] 10 [3] [4] [.register (some [5]) ⟨[0x61], [2]⟩, .update, .update]).bind fun w =>
      (dirAfter Crypto.toy 5 [1] [2] 10 [3] [4] []).bind fun z =>
      (z.1.register Crypto.toy (some [5]) ⟨[0x61], [1]⟩).bind fun x =>
      ((toyClient z.1.latestSTR).handleResponse Crypto.toy RegistrationType x.2 [0x61] (some [1])).bind fun c₁ =>
      (y.1.keyLookup Crypto.toy ⟨[0x61]⟩).bind fun r₂ =>
      (w.1.keyLookup Crypto.toy ⟨[0x61]⟩).bind fun r₃ =>
      (Client.handleResponse Crypto.toy c₁.1 KeyLookupType r₂ [0x61] none).bind fun e1 =>
      (Client.handleResponse Crypto.toy c₁.1 KeyLookupType r₂ [0x61] (some [1])).bind fun e2 =>
      (Client.handleResponse Crypto.toy c₁.1 KeyLookupType r₂ [0x62] none).bind fun e3 =>
      (Client.handleResponse Crypto.toy c₁.1 KeyLookupType r₃ [0x61] none).map fun e4 =>
      (c₁.2, c₁.1.useTBs, e1.2, e2.2, e3.2, e4.2, (c₁.1.tbs [0x61]).map (fun p => (p.index = (match r₂.resp with
        | .proof ⟨some ap :: _, _, _⟩ => ap.lookupIndex | _ => []) : Bool)))) =
      (some (none, true, some CheckBrokenPromise, some CheckBindingsDiffer, some CheckBadVRFProof, some CheckBadSTR, some true) :
        Option (Option ErrorCode × Bool × Option ErrorCode × Option ErrorCode × Option ErrorCode × Option ErrorCode × Option Bool)) := by
    rw [dirAfterE_eq, dirAfterE_eq, dirAfterE_eq]; simp only [registerE_eq]; decide +kernel
  obtain ⟨y, h1, key⟩ := Option.bind_eq_some_iff.mp key
  obtain ⟨w, h2, key⟩ := Option.bind_eq_some_iff.mp key
  obtain ⟨z, h3, key⟩ := Option.bind_eq_some_iff.mp key
  obtain ⟨x, h4, key⟩ := Option.bind_eq_some_iff.mp key
  obtain ⟨⟨c₁, e₁⟩, h5, key⟩ := Option.bind_eq_some_iff.mp key
  obtain ⟨r₂, h6, key⟩ := Option.bind_eq_some_iff.mp key
  obtain ⟨r₃, h7, key⟩ := Option.bind_eq_some_iff.mp key
  obtain ⟨⟨d1, f1⟩, g1, key⟩ := Option.bind_eq_some_iff.mp key
  obtain ⟨⟨d2, f2⟩, g2, key⟩ := Option.bind_eq_some_iff.mp key
  obtain ⟨⟨d3, f3⟩, g3, key⟩ := Option.bind_eq_some_iff.mp key
  obtain ⟨⟨d4, f4⟩, g4, key⟩ := Option.map_eq_some_iff.mp key
  simp only [Prod.mk.injEq] at key
  obtain ⟨rfl, ku, rfl, rfl, rfl, rfl, k7⟩ := key
  obtain ⟨ap, str, tb, l, pol, p, hcar, hck, _, hp, hbad⟩ := (C74_broken_promise Crypto.toy c₁ ku KeyLookupType r₂ [0x61] none).mp ⟨d1, g1⟩
  have hix : ap.lookupIndex = p.index := by
    obtain ⟨aps, strs, hr⟩ := hcar
    rw [hp, hr] at k7
    exact (by simpa using Option.some.inj k7 : p.index = ap.lookupIndex).symm
  exact ⟨x.2, r₂, r₃, toyClient z.1.latestSTR, c₁, rfl, ku, h5, (handle_reason ku g1).symm, (handle_reason ku g2).symm, (handle_reason ku g3).symm,
    (handle_reason ku g4).symm, ap, str, tb, l, pol, p, hcar, hck, hp, hbad.resolve_left (fun g => g hix), hix⟩

end Coniks.Props

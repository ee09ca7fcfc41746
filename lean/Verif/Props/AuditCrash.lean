import Verif.Spec.CrashAudit
import Verif.Props.ClientCrash
import Verif.Props.Verdict
import Verif.Props.AuditLog
import Verif.Props.Wire
/-
C88: which directories can crash an auditor, exactly; and C74 for AuditDirectory, exactly.
-/
namespace Coniks.Props
open Coniks Spec Json

/-- C88, exact: `AuditDirectory` panics on exactly the ranges of `Spec.CrashesAudit`. -/
theorem C88_audit_panics_iff (C : Crypto) (a : AudState) (strs : List (Option DirSTR)) :
    Panics (a.auditDirectory C strs) ↔ CrashesAudit C a.signKey a.verified strs := by
  unfold Panics CrashesAudit
  cases strs with
  | nil =>
    simp only [AudState.auditDirectory, reduceCtorEq, false_iff]
    rintro (⟨_, h⟩ | ⟨_, _, h, _⟩ | ⟨c, _, _, h, _⟩)
    · exact nomatch h
    · exact nomatch h
    · cases c <;> simp at h
  | cons x rest =>
    cases x with
    | none =>
      simp only [AudState.auditDirectory, AudState.checkSTRAgainstVerified, true_iff]
      exact .inl ⟨rest, rfl⟩
    | some s =>
      simp only [AudState.auditDirectory, List.cons.injEq, reduceCtorEq, false_and, exists_false, false_or, Option.some.injEq]
      cases hc : a.checkSTRAgainstVerified C (some s) with
      | none =>
        simp only [true_iff]
        obtain ⟨h1, h2⟩ := (check_panics C a s).mp hc
        exact .inl ⟨s, rest, ⟨rfl, rfl⟩, h1, h2⟩
      | some e =>
        have hno : ¬ (s.core.epoch = a.verified.core.epoch + 1 ∧ s.policies = none) := fun h => by
          rw [(check_panics C a s).mpr h] at hc; exact nomatch hc
        cases e with
        | some e =>
          simp only [reduceCtorEq, false_iff]
          rintro (⟨s', r, ⟨rfl, rfl⟩, h⟩ | ⟨c, t, r, h, hcont, hp⟩)
          · exact hno h
          · cases c with
            | nil => obtain ⟨⟨y, hy, _⟩, _⟩ := hcont; simp at hy
            | cons u c =>
              simp only [List.map_cons, List.cons_append, List.cons.injEq, Option.some.injEq] at h
              obtain ⟨rfl, _⟩ := h
              obtain ⟨⟨y, hy, hy'⟩, _⟩ := hcont
              simp only [List.getElem?_cons_zero, Option.some.injEq] at hy
              have := (check_ok C a (some s)).mpr ⟨s, rfl, hy ▸ hy'⟩
              rw [hc] at this
              exact nomatch this
        | none =>
          obtain ⟨s', h0, hs⟩ := (check_ok C a (some s)).mp hc
          have h0 : s = s' := Option.some.inj h0
          subst h0
          simp only
          have hif : (if rest.length > 0 then a.verifySTRRange C (some s) rest else some none) = a.verifySTRRange C (some s) rest := by
            cases rest <;> simp [AudState.verifySTRRange]
          rw [hif, range_panics]
          constructor
          · rintro ⟨r, t, rest', rfl, hch, hp⟩
            exact .inr ⟨s :: r, t, rest', rfl, ⟨⟨s, rfl, hs⟩, hch⟩, hp⟩
          · rintro (⟨s', r, ⟨rfl, rfl⟩, h⟩ | ⟨c, t, r, h, hcont, hp⟩)
            · exact absurd h hno
            · cases c with
              | nil => obtain ⟨⟨y, hy, _⟩, _⟩ := hcont; simp at hy
              | cons u c =>
                simp only [List.map_cons, List.cons_append, List.cons.injEq, Option.some.injEq] at h
                obtain ⟨rfl, rfl⟩ := h
                exact ⟨c, t, r, rfl, hcont.2, hp⟩

/-- C74 for `AuditDirectory`, exact: it returns the code `e` (or nil) exactly if the range is not one that crashes it and `e` is what is wrong
with it. -/
theorem C74_audit_exact (C : Crypto) (a : AudState) (strs : List (Option DirSTR)) (e : Option ErrorCode) :
    a.auditDirectory C strs = some e ↔ ¬ CrashesAudit C a.signKey a.verified strs ∧ e = auditReason C a.signKey a.verified strs := by
  rw [← C88_audit_panics_iff]
  constructor
  · intro h; exact ⟨by rw [Panics, h]; simp, C74_audit C a strs e h⟩
  · rintro ⟨h, rfl⟩
    cases hx : a.auditDirectory C strs with
    | none => exact absurd hx h
    | some x => rw [← C74_audit C a strs x hx]

theorem insertRange_panics (l : List (Option DirSTR)) : ∀ h : DirHistory, h.insertRange l = none ↔ none ∈ l := by
  induction l with
  | nil => intro h; simp [DirHistory.insertRange]
  | cons x l ih =>
    intro h
    cases x with
    | none => simp [DirHistory.insertRange]
    | some s => simp [DirHistory.insertRange, ih]

theorem dirId_eq (C : Crypto) (s : DirSTR) (he : s.core.epoch = 0) : computeDirectoryIdentity C s = some (dirId C s) := by
  simp [computeDirectoryIdentity, he, dirId, Crypto.digest]

/-- C88, exact: a call on an audit log panics in exactly the cases of `Spec.CrashesAuditor`. -/
theorem C88_log_panics_iff (C : Crypto) (l : AuditLog) (op : LogOp) : Panics (logStep C l op) ↔ CrashesAuditor C l op := by
  unfold Panics
  cases op with
  | init addr pk snaps =>
    simp only [logStep, CrashesAuditor]
    cases snaps with
    | nil => simp [AuditLog.initHistory]
    | cons x rest =>
      cases x with
      | none => simp [AuditLog.initHistory]
      | some s =>
        simp only [AuditLog.initHistory, List.cons.injEq, reduceCtorEq, false_and, exists_false, false_or, Option.some.injEq]
        by_cases he : s.core.epoch = 0
        · rw [if_neg (by simpa using he), dirId_eq C s he]
          simp only
          cases hl : l (dirId C s) with
          | some h =>
            simp only [reduceCtorEq, false_iff]
            rintro ⟨s', r, ⟨rfl, rfl⟩, _, h2, _⟩
            rw [hl] at h2; exact nomatch h2
          | none =>
            simp only
            cases hi : (newDirectoryHistory addr pk s).insertRange rest with
            | none =>
              simp only [true_iff]
              exact ⟨s, rest, ⟨rfl, rfl⟩, he, hl, (insertRange_panics _ _).mp hi⟩
            | some h =>
              simp only [reduceCtorEq, false_iff]
              rintro ⟨s', r, ⟨rfl, rfl⟩, _, _, h3⟩
              rw [(insertRange_panics _ _).mpr h3] at hi; exact nomatch hi
        · rw [if_pos he]
          simp only [reduceCtorEq, false_iff]
          rintro ⟨s', r, ⟨rfl, rfl⟩, h1, _⟩
          exact he h1
  | audit id msg =>
    simp only [logStep, CrashesAuditor, AuditLog.audit]
    cases hl : l id with
    | none => simp
    | some h =>
      simp only [Option.map_eq_none_iff, Option.some.injEq, exists_eq_left']
      obtain ⟨code, resp⟩ := msg
      unfold CrashesLog
      simp only
      by_cases he : errorsSet code = true
      · simp only [(errorsSet_iff code).mp he, not_true, false_and, iff_false]
        simp [DirHistory.audit, Response.validate, he]
      · have hnf : ¬ Fatal code := fun h => he ((errorsSet_iff code).mpr h)
        have he' : errorsSet code = false := by simpa using he
        simp only [hnf, not_false_iff, true_and]
        cases resp with
        | none => simp [DirHistory.audit, Response.validate, he']
        | nilProof => simp [DirHistory.audit, Response.validate, he']
        | nilHistory => simp [DirHistory.audit, Response.validate, he']
        | other => simp [DirHistory.audit, Response.validate, he']
        | proof df =>
          simp only [reduceCtorEq, false_and, exists_false, false_or, DirectoryResponse.proof.injEq, exists_eq_left', or_false]
          obtain ⟨aps, strs, tb⟩ := df
          cases aps <;> cases strs <;> simp [DirHistory.audit, Response.validate, he']
        | history strs =>
          simp only [reduceCtorEq, false_and, exists_false, false_or, DirectoryResponse.history.injEq, exists_eq_left']
          rw [← C88_audit_panics_iff]
          unfold Panics
          cases strs with
          | nil => simp [DirHistory.audit, Response.validate, he', AudState.auditDirectory]
          | cons x rest =>
            have hv : Response.validate ⟨code, .history (x :: rest)⟩ = some none := by simp [Response.validate, he']
            unfold DirHistory.audit
            rw [hv]
            simp only
            cases hx : h.aud.auditDirectory C (x :: rest) with
            | none => simp
            | some e =>
              cases e with
              | some e => simp
              | none =>
                simp only [Option.map_eq_none_iff, reduceCtorEq, iff_false]
                obtain ⟨m, hm, _⟩ := (audit_ok C h.aud (x :: rest)).mp hx
                rw [hm, insertRange_panics]
                simp

/-- C88 in the cases in which it holds: an audit returns for every message that carries a history of STRs with their policies, or an error code
that ends the audit, or nothing; `InitHistory` returns for every list of STRs. -/
theorem C88_total_partial (C : Crypto) (l : AuditLog) (op : LogOp)
    (h : match op with
      | .init _ _ snaps => none ∉ snaps
      | .audit _ msg => Fatal msg.error ∨ msg.resp = .none ∨ ∃ strs : List DirSTR, msg.resp = .history (strs.map some) ∧ ∀ s ∈ strs, s.policies ≠ none) :
    ∃ x, logStep C l op = some x := by
  cases hx : logStep C l op with
  | some x => exact ⟨x, rfl⟩
  | none =>
    exfalso
    have hcr := (C88_log_panics_iff C l op).mp hx
    cases op with
    | init addr pk snaps =>
      rcases hcr with ⟨r, rfl⟩ | ⟨s, r, rfl, _, _, h4⟩
      · exact h (by simp)
      · exact h (by simp [h4])
    | audit id msg =>
      obtain ⟨hh, _, hnf, hr⟩ := hcr
      rcases h with h | h | ⟨strs, h, hp⟩
      · exact hnf h
      · rw [h] at hr; simp at hr
      · rw [h] at hr
        simp only [reduceCtorEq, false_and, exists_false, false_or, DirectoryResponse.history.injEq, exists_eq_left'] at hr
        rcases hr with ⟨r, h1⟩ | ⟨s, r, h1, _, h2⟩ | ⟨c, s, r, h1, _, h2⟩
        · cases strs <;> simp at h1
        · have : some s ∈ strs.map some := by rw [h1]; simp
          obtain ⟨y, hy, hy'⟩ := List.mem_map.mp this
          exact hp y hy (by rw [Option.some.inj hy']; exact h2)
        · have : some s ∈ strs.map some := by rw [h1]; simp
          obtain ⟨y, hy, hy'⟩ := List.mem_map.mp this
          exact hp y hy (by rw [Option.some.inj hy']; exact h2)

/-- C88 for honest directories: no answer that a directory of this code gives to a request for its STR history crashes any auditor, whatever the
auditor knows. -/
theorem C88_honest (C : Crypto) (t0 : UInt64) (sk vk : Bytes) (size : Nat) (r₁ r₂ : Bytes) (ops : List DirOp)
    (hlt : dirUpdates ops < 2 ^ 64) (d : Directory) (log : List STR) (h : dirAfter C t0 sk vk size r₁ r₂ ops = some (d, log))
    (req : STRHistoryRequest) (resp : Response) (hr : d.getSTRHistory req = some resp) (l : AuditLog) (id : Arr32) :
    ∃ x, l.audit C id resp = some x := by
  refine C88_total_partial C l (.audit id resp) ?_
  simp only
  obtain ⟨s, t⟩ := req
  obtain ⟨h1, h2, h3⟩ := C30_history C t0 sk vk size r₁ r₂ ops hlt d log h s t
  by_cases hb : dirUpdates ops < s.toNat ∨ t.toNat < s.toNat
  · rw [h1 hb] at hr
    rw [← Option.some.inj hr]
    exact .inr (.inl rfl)
  · by_cases hg : d.pad.getSTR s = none
    · have := h3 (by omega) (by omega) hg
      rw [Panics, hr] at this; exact nomatch this
    · obtain ⟨strs, e, _, _, hall⟩ := h2 (by omega) (by omega) hg
      rw [e] at hr
      rw [← Option.some.inj hr]
      refine .inr (.inr ⟨strs, rfl, fun x hx => ?_⟩)
      obtain ⟨j, hj⟩ := List.getElem?_of_mem hx
      obtain ⟨y, _, hy⟩ := Option.map_eq_some_iff.mp (hall j x hj).2
      rw [← hy]; simp [STR.toDir]

/-- C88 does not hold in general: whoever answers an auditor (a directory, or anybody between them: no signature is needed) crashes it with a nil STR,
with the bare number of the next epoch, with a nil payload, or with the answer to another request; the log of all directories is lost. -/
theorem C88_crash_counterexample (C : Crypto) (l : AuditLog) (id : Arr32) (h : DirHistory) (hl : l id = some h) :
    Panics (l.audit C id ⟨ReqSuccess, .history [none]⟩) ∧
    Panics (l.audit C id ⟨ReqSuccess, .history [some ⟨⟨[], h.aud.verified.core.epoch + 1, 0, [], []⟩, none⟩]⟩) ∧
    Panics (l.audit C id ⟨ReqSuccess, .nilHistory⟩) ∧
    ∀ (ap : Option AuthPath) (str : Option DirSTR) (tb : Option TB), Panics (l.audit C id ⟨ReqSuccess, .proof ⟨[ap], [str], tb⟩⟩) := by
  have hnf : ¬ Fatal ReqSuccess := by unfold Fatal; decide
  have key : ∀ resp, (resp = .nilProof ∨ resp = .nilHistory ∨ resp = .other ∨
   (∃ df, resp = .proof df ∧ df.ap ≠ [] ∧ df.str ≠ []) ∨
   ∃ strs, resp = .history strs ∧ CrashesAudit C h.aud.signKey h.aud.verified strs) → Panics (l.audit C id ⟨ReqSuccess, resp⟩) := fun resp hr =>
    (C88_log_panics_iff C l (.audit id ⟨ReqSuccess, resp⟩)).mpr ⟨h, hl, hnf, hr⟩
  refine ⟨key _ ?_, key _ ?_, key _ ?_, fun ap str tb => key _ ?_⟩
  · exact .inr (.inr (.inr (.inr ⟨_, rfl, .inl ⟨[], rfl⟩⟩)))
  · exact .inr (.inr (.inr (.inr ⟨_, rfl, .inr (.inl ⟨_, [], rfl, rfl, rfl⟩)⟩)))
  · exact .inr (.inl rfl)
  · exact .inr (.inr (.inr (.inl ⟨_, rfl, by simp, by simp⟩)))

/-- C88, the same from the wire: bytes that `UnmarshalResponse` decodes (as the answer to a request for STRs) and that then crash the audit. -/
theorem C88_wire_counterexample (C : Crypto) (l : AuditLog) (id : Arr32) (h : DirHistory) (hl : l id = some h) :
    ∀ text ∈ [ascii "{\"Error\":100,\"DirectoryResponse\":null}", ascii "{\"Error\":100,\"DirectoryResponse\":{\"STR\":[null]}}",
        ascii "{\"Error\":100,\"DirectoryResponse\":{\"STR\":[null,{\"Epoch\":1}]}}"],
      ∃ w, unmarshalResponse STRType text = some w ∧ Panics (l.audit C id w.toResponse) := by
  have hnf : ¬ Fatal (100 : Int) := by unfold Fatal; decide
  have key : ∀ resp, (resp = .nilHistory ∨ ∃ strs, resp = .history strs ∧ CrashesAudit C h.aud.signKey h.aud.verified strs) →
      Panics (l.audit C id ⟨(100 : Int), resp⟩) := fun resp hr =>
    (C88_log_panics_iff C l (.audit id ⟨(100 : Int), resp⟩)).mpr ⟨h, hl, hnf, by
      rcases hr with hr | hr
      · exact .inr (.inl hr)
      · exact .inr (.inr (.inr (.inr hr)))⟩
  have u1 : unmarshalResponse STRType (ascii "{\"Error\":100,\"DirectoryResponse\":null}") = some ⟨100, .nilHistory⟩ := by decide +kernel
  have u2 : unmarshalResponse STRType (ascii "{\"Error\":100,\"DirectoryResponse\":{\"STR\":[null]}}") = some ⟨100, .history [none]⟩ := by decide +kernel
  have u3 : unmarshalResponse STRType (ascii "{\"Error\":100,\"DirectoryResponse\":{\"STR\":[null,{\"Epoch\":1}]}}") =
      some ⟨100, .history [none, some ⟨some ⟨[], 1, 0, [], []⟩, none⟩]⟩ := by decide +kernel
  intro text ht
  simp only [List.mem_cons, List.not_mem_nil, or_false] at ht
  rcases ht with rfl | rfl | rfl
  · exact ⟨_, u1, key _ (.inl rfl)⟩
  · exact ⟨_, u2, key _ (.inr ⟨_, rfl, .inl ⟨[], rfl⟩⟩)⟩
  · exact ⟨_, u3, key _ (.inr ⟨_, rfl, .inl ⟨_, rfl⟩⟩)⟩

/-- an auditor that knows a directory: `C88_crash_counterexample` and `C88_wire_counterexample` apply -/
example : ∃ (l : AuditLog) (h : DirHistory), l (dirId Crypto.toy toy0) = some h ∧ h.aud.verified = toy0 :=
  ⟨newAuditLog.set (dirId Crypto.toy toy0) (newDirectoryHistory [] toyPK toy0), newDirectoryHistory [] toyPK toy0, by simp [AuditLog.set], rfl⟩

/-- the third case of `CrashesAudit`: the directory's own chain, ended by an STR without policies -/
example : CrashesAudit Crypto.toy toyPK toy0 [some toy0, some toy1, some ⟨toy2.core, none⟩] :=
  .inr (.inr ⟨[toy0, toy1], ⟨toy2.core, none⟩, [], rfl, by
    have h : ({ signKey := toyPK, verified := toy0 } : AudState).auditDirectory Crypto.toy [some toy0, some toy1] = some none := by decide +kernel
    obtain ⟨m, hm, hc⟩ := (audit_ok _ _ _).mp h
    have : m = [toy0, toy1] := by
      match m, hm with
      | [x, y], hm => simp only [List.map_cons, List.map_nil, List.cons.injEq, Option.some.injEq, and_true] at hm; rw [← hm.1, ← hm.2]
    rw [this] at hc; exact hc, rfl⟩)

/-- a message that meets the hypotheses of `C88_total_partial`, and is audited -/
example : (∀ s ∈ [toy0, toy1], s.policies ≠ none) ∧
    ((newAuditLog.set (dirId Crypto.toy toy0) (newDirectoryHistory [] toyPK toy0)).audit Crypto.toy (dirId Crypto.toy toy0)
      ⟨ReqSuccess, .history [some toy0, some toy1]⟩).map (fun x => x.2) = some none := by decide +kernel

end Coniks.Props

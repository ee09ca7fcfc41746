import Verif.Proofs.AuditLog
import Verif.Props.Auditor
/-
C42, C43, C44: the audit log.
-/
namespace Coniks.Props
open Coniks Spec

/-! ### C42 -/

/-- C42: a directory is initialised with a valid chain `H0` starting at epoch 0. After any further calls `a` (on any directories, with any
messages) the log reports for it exactly a chain `Ha` that extends `H0` and covers epochs 0, 1, 2, ...; after still further calls `b` it
reports exactly an extension of `Ha`. (Fewer than 2^64 STRs in total.) -/
theorem C42_append_only (C : Crypto) (l₀ l₁ : AuditLog) (addr pk : Bytes) (s : DirSTR) (H0 : List DirSTR) (hs : H0[0]? = some s)
    (he : s.core.epoch = 0) (hc : Chain C pk H0) (hi : l₀.initHistory C addr pk (H0.map some) = some (l₁, none))
    (a b : List LogOp) (hsm : H0.length + strsFor (dirId C s) (a ++ b) < 2 ^ 64)
    (la lb : AuditLog) (ha : logAfter C l₁ a = some la) (hb : logAfter C la b = some lb) :
    ∃ Ha Hb, H0 <+: Ha ∧ Ha <+: Hb ∧
      Chain C pk Ha ∧ (∀ (j : Nat) t, Ha[j]? = some t → t.core.epoch.toNat = j) ∧ ReportsExactly la (dirId C s) Ha ∧
      Chain C pk Hb ∧ (∀ (j : Nat) t, Hb[j]? = some t → t.core.epoch.toNat = j) ∧ ReportsExactly lb (dirId C s) Hb := by
  cases H0 with
  | nil => simp at hs
  | cons x r =>
    simp only [List.getElem?_cons_zero, Option.some.injEq] at hs
    subst hs
    have happ : ∀ a b, strsFor (dirId C x) (a ++ b) = strsFor (dirId C x) a + strsFor (dirId C x) b := by
      intro a b
      induction a with
      | nil => simp [strsFor]
      | cons op a ih => rw [List.cons_append, strsFor_cons, ih, strsFor_cons (ops := a)]; omega
    rw [happ] at hsm
    simp only [List.length_cons] at hsm
    obtain ⟨h1, g1, g2, g3⟩ := initHistory_hist he hc (by omega) hi
    obtain ⟨h2, e2, k1, k2, k3, k4⟩ := logAfter_hist a g1 g2 ha (by simp; omega)
    obtain ⟨h3, e3, m1, m2, m3, m4⟩ := logAfter_hist b k1 k2 hb (by simp; omega)
    refine ⟨_, _, ⟨e2, rfl⟩, ⟨e3, rfl⟩, ?_, k2.epochs, k2.reports la _ k1, ?_, m2.epochs, m2.reports lb _ m1⟩
    · have := k2.chain; rw [k3, g3] at this; exact this
    · have := m2.chain; rw [m3, k3, g3] at this; exact this

/-- C42: every STR of an accepted audit is reported afterwards for its epoch. -/
theorem C42_accepted_is_reported (C : Crypto) (l₀ l₁ : AuditLog) (addr pk : Bytes) (s : DirSTR) (H0 : List DirSTR) (hs : H0[0]? = some s)
    (he : s.core.epoch = 0) (hc : Chain C pk H0) (hi : l₀.initHistory C addr pk (H0.map some) = some (l₁, none))
    (a : List LogOp) (msg : Response) (hsm : H0.length + strsFor (dirId C s) (a ++ [.audit (dirId C s) msg]) < 2 ^ 64)
    (la lb : AuditLog) (ha : logAfter C l₁ a = some la) (hb : la.audit C (dirId C s) msg = some (lb, none)) :
    ∃ strs, msg.resp = .history strs ∧
      ∀ x ∈ strs, ∃ t : DirSTR, x = some t ∧ lb.getObservedSTRs ⟨dirId C s, t.core.epoch, t.core.epoch⟩ = ⟨ReqSuccess, .history [some t]⟩ := by
  cases H0 with
  | nil => simp at hs
  | cons x r =>
    simp only [List.getElem?_cons_zero, Option.some.injEq] at hs
    subst hs
    have happ : ∀ a b, strsFor (dirId C x) (a ++ b) = strsFor (dirId C x) a + strsFor (dirId C x) b := by
      intro a b
      induction a with
      | nil => simp [strsFor]
      | cons op a ih => rw [List.cons_append, strsFor_cons, ih, strsFor_cons (ops := a)]; omega
    rw [happ] at hsm
    simp only [List.length_cons] at hsm
    obtain ⟨h1, g1, g2, g3⟩ := initHistory_hist he hc (by omega) hi
    obtain ⟨h2, e2, k1, k2, k3, k4⟩ := logAfter_hist a g1 g2 ha (by simp; omega)
    simp only [AuditLog.audit, k1] at hb
    obtain ⟨⟨h', e⟩, n1, n2⟩ := Option.map_eq_some_iff.mp hb
    simp only [Prod.mk.injEq] at n2
    have hn : ∀ strs, msg.resp = .history strs → strs.length ≤ strsFor (dirId C x) [.audit (dirId C x) msg] := by
      intro strs hr
      simp [strsFor, hr]
    rcases audit_hist k2 msg e n1 _ hn (by simp; omega) with ⟨q, _⟩ | ⟨_, ext, q1, q2, q3, strs, q4, q5⟩
    · exact absurd n2.2 q
    · refine ⟨strs, q4, ?_⟩
      intro y hy
      obtain ⟨t, ht, rfl⟩ := q5 y hy
      refine ⟨t, rfl, ?_⟩
      obtain ⟨j, hj⟩ := List.getElem?_of_mem ht
      have hep := q1.epochs j t hj
      have hlt := (List.getElem?_eq_some_iff.mp hj).1
      have hrep := (q1.reports lb (dirId C x) (by rw [← n2.1]; simp [AuditLog.set]) t.core.epoch t.core.epoch).1
        ⟨Nat.le_refl _, by omega⟩
      rw [hrep, hep, show j + 1 - j = 1 by omega]
      congr 2
      apply List.ext_getElem?
      intro i
      rw [List.getElem?_map, List.getElem?_take]
      cases i with
      | zero => rw [if_pos (by omega), List.getElem?_drop, Nat.add_zero, hj]; rfl
      | succ i => simp

/-- C42 depends on the initial history being valid, which `InitHistory` does not check: it accepts a history with a gap, and then
reports nil STRs for epochs in it. -/
theorem C42_unchecked_init_counterexample : ∃ l₁, newAuditLog.initHistory Crypto.toy [] toyPK [some toy0, some toy2] = some (l₁, none) ∧
    l₁.getObservedSTRs ⟨dirId Crypto.toy toy0, 0, 2⟩ = ⟨ReqSuccess, .history [some toy0, none, some toy2]⟩ := by
  have key : (newAuditLog.initHistory Crypto.toy [] toyPK [some toy0, some toy2]).map (fun x =>
      (x.2, x.1.getObservedSTRs ⟨dirId Crypto.toy toy0, 0, 2⟩)) =
      some (none, ⟨ReqSuccess, .history [some toy0, none, some toy2]⟩) := by decide +kernel
  obtain ⟨⟨l, e⟩, h1, h2⟩ := Option.map_eq_some_iff.mp key
  simp only [Prod.mk.injEq] at h2
  exact ⟨l, by rw [h1, h2.1], h2.2⟩

theorem toy_init : ∃ l₁, newAuditLog.initHistory Crypto.toy [] toyPK ([toy0].map some) = some (l₁, none) := ⟨_, rfl⟩

/-- a run meeting the hypotheses: initialise with epoch 0, audit 0..1 (accepted), 1 again with a bad range (refused), then 2 -/
example : ((newAuditLog.initHistory Crypto.toy [] toyPK [some toy0]).bind fun x => (logAfter Crypto.toy x.1
      [.audit (dirId Crypto.toy toy0) ⟨ReqSuccess, .history [some toy0, some toy1]⟩,
       .audit (dirId Crypto.toy toy0) ⟨ReqSuccess, .history [some toy1, some toy1]⟩,
       .audit (dirId Crypto.toy toy0) ⟨ReqSuccess, .history [some toy2]⟩]).map fun l => l.getObservedSTRs ⟨dirId Crypto.toy toy0, 0, 2⟩) =
    some ⟨ReqSuccess, .history [some toy0, some toy1, some toy2]⟩ := by decide +kernel

/-! ### C43 -/

/-- C43: calls about other directories do not change what is reported for `id`. -/
theorem C43_isolation (C : Crypto) (id : Arr32) (ops : List LogOp) (hops : ∀ op ∈ ops, op.about C ≠ some id) :
    ∀ l l', logAfter C l ops = some l' →
      l' id = l id ∧ ∀ s t, l'.getObservedSTRs ⟨id, s, t⟩ = l.getObservedSTRs ⟨id, s, t⟩ := by
  have rep : ∀ l l' : AuditLog, l' id = l id → ∀ s t, l'.getObservedSTRs ⟨id, s, t⟩ = l.getObservedSTRs ⟨id, s, t⟩ := by
    intro l l' h s t
    simp [AuditLog.getObservedSTRs, h]
  have key : ∀ l l', logAfter C l ops = some l' → l' id = l id := by
    induction ops with
    | nil => intro l l' h; cases h; rfl
    | cons op ops ih =>
      intro l l' h
      obtain ⟨⟨l1, e⟩, h1, h2⟩ := Option.bind_eq_some_iff.mp h
      rw [ih (fun o ho => hops o (List.mem_cons_of_mem _ ho)) l1 l' h2]
      have hop := hops op (List.mem_cons_self ..)
      cases op with
      | init addr pk snaps =>
        simp only [logStep, AuditLog.initHistory] at h1
        split at h1
        · simp only [Option.some.injEq, Prod.mk.injEq] at h1; rw [← h1.1]
        · nomatch h1
        · next s rest =>
          split at h1
          · simp only [Option.some.injEq, Prod.mk.injEq] at h1; rw [← h1.1]
          · next he =>
            simp only [computeDirectoryIdentity, if_neg he] at h1
            split at h1
            · simp only [Option.some.injEq, Prod.mk.injEq] at h1; rw [← h1.1]
            · split at h1
              · nomatch h1
              · simp only [Option.some.injEq, Prod.mk.injEq] at h1
                rw [← h1.1]
                have : id ≠ (⟨C.digest [s.core.signature], C.hash_length _⟩ : Arr32) := by
                  intro hh
                  refine hop ?_
                  simp only [LogOp.about, Option.some.injEq]
                  rw [hh]; apply Subtype.ext; simp [dirId, Crypto.digest]
                simp only [AuditLog.set, if_neg this]
      | audit id' msg =>
        have hne : id ≠ id' := fun h => hop (by rw [LogOp.about, h])
        simp only [logStep, AuditLog.audit] at h1
        split at h1
        · simp only [Option.some.injEq, Prod.mk.injEq] at h1; rw [← h1.1]
        · obtain ⟨x, _, h4⟩ := Option.map_eq_some_iff.mp h1
          simp only [Prod.mk.injEq] at h4
          rw [← h4.1]; simp only [AuditLog.set, if_neg hne]
  intro l l' h
  exact ⟨key l l' h, rep l l' (key l l' h)⟩

/-- C43: a directory that is known (some earlier initial STR with the same signature hash) is not initialised again: the call returns
ErrAuditLog and the log stays as it is. A directory not yet known is accepted whenever its snapshots are there. -/
theorem C43_no_reinit (C : Crypto) (l : AuditLog) (addr pk : Bytes) (s : DirSTR) (rest : List (Option DirSTR)) (he : s.core.epoch = 0) :
    (l (dirId C s) ≠ none → l.initHistory C addr pk (some s :: rest) = some (l, some ErrAuditLog)) ∧
    (l (dirId C s) = none → (∀ x ∈ rest, x ≠ none) → ∃ l', l.initHistory C addr pk (some s :: rest) = some (l', none) ∧
      l' (dirId C s) ≠ none) := by
  have hid : (⟨C.digest [s.core.signature], C.hash_length _⟩ : Arr32) = dirId C s := by
    apply Subtype.ext; simp [dirId, Crypto.digest]
  constructor
  · intro h
    simp only [AuditLog.initHistory, he, ne_eq, not_true, if_false, computeDirectoryIdentity, hid]
    cases hl : l (dirId C s) with
    | none => exact absurd hl h
    | some x => rfl
  · intro h hr
    simp only [AuditLog.initHistory, he, ne_eq, not_true, if_false, computeDirectoryIdentity, hid, h]
    have : ∀ (rest : List (Option DirSTR)), (∀ x ∈ rest, x ≠ none) → ∀ h : DirHistory, ∃ h', h.insertRange rest = some h' := by
      intro rest
      induction rest with
      | nil => intro _ h; exact ⟨h, rfl⟩
      | cons x r ih =>
        intro hx h
        cases x with
        | none => exact absurd rfl (hx none (List.mem_cons_self ..))
        | some t => exact ih (fun y hy => hx y (List.mem_cons_of_mem _ hy)) _
    obtain ⟨h', hh⟩ := this rest hr (newDirectoryHistory addr pk s)
    rw [hh]
    exact ⟨_, rfl, by simp [AuditLog.set]⟩

/-- C43: no history that begins after epoch 0, and no empty one, initialises a directory: the call returns ErrMalformedMessage and the log
stays as it is. (With `C43_no_reinit` these are all the outcomes of a call whose snapshots are there.) -/
theorem C43_init_refused (C : Crypto) (l : AuditLog) (addr pk : Bytes) :
    l.initHistory C addr pk [] = some (l, some ErrMalformedMessage) ∧
    ∀ (s : DirSTR) (rest : List (Option DirSTR)), s.core.epoch ≠ 0 → l.initHistory C addr pk (some s :: rest) = some (l, some ErrMalformedMessage) :=
  ⟨rfl, fun s rest he => by simp [AuditLog.initHistory, he]⟩

/-- C43: what is not known is reported as unknown, and an audit of it is refused as unknown and changes nothing. -/
theorem C43_unknown (C : Crypto) (l : AuditLog) (id : Arr32) (h : l id = none) :
    (∀ s t, l.getObservedSTRs ⟨id, s, t⟩ = ⟨ReqUnknownDirectory, .none⟩) ∧
    ∀ msg, l.audit C id msg = some (l, some ReqUnknownDirectory) :=
  ⟨fun s t => by simp [AuditLog.getObservedSTRs, h, newErrorResponse], fun msg => by simp only [AuditLog.audit, h]⟩

/-- a second directory, initialised and then asked about the first -/
example : ((newAuditLog.initHistory Crypto.toy [] toyPK [some toy0]).bind fun x =>
    ((x.1.initHistory Crypto.toy [] toyPK [some (toySTR 0 0 [1] [])]).map fun y =>
      (y.2, y.1.getObservedSTRs ⟨dirId Crypto.toy toy0, 0, 0⟩))) = some (none, ⟨ReqSuccess, .history [some toy0]⟩) ∧
    (LogOp.init [] toyPK [some (toySTR 0 0 [1] [])]).about Crypto.toy ≠ some (dirId Crypto.toy toy0) := by decide +kernel

/-! ### C44 -/

/-- C44: a call that returns an error leaves the log as it was. -/
theorem C44_error_no_change (C : Crypto) (l l' : AuditLog) (op : LogOp) (e : ErrorCode) (h : logStep C l op = some (l', some e)) :
    l' = l := by
  cases op with
  | init addr pk snaps =>
    simp only [logStep, AuditLog.initHistory] at h
    split at h
    · simp only [Option.some.injEq, Prod.mk.injEq] at h; exact h.1.symm
    · nomatch h
    · split at h
      · simp only [Option.some.injEq, Prod.mk.injEq] at h; exact h.1.symm
      · split at h
        · nomatch h
        · split at h
          · simp only [Option.some.injEq, Prod.mk.injEq] at h; exact h.1.symm
          · split at h
            · nomatch h
            · simp at h
  | audit id msg =>
    simp only [logStep, AuditLog.audit] at h
    split at h
    · simp only [Option.some.injEq, Prod.mk.injEq] at h; exact h.1.symm
    · next hst hl =>
      obtain ⟨⟨h', e'⟩, h1, h2⟩ := Option.map_eq_some_iff.mp h
      simp only [Prod.mk.injEq] at h2
      obtain ⟨h2, rfl⟩ := h2
      have : h' = hst := by
        unfold DirHistory.audit at h1
        split at h1
        · nomatch h1
        · simp only [Option.some.injEq, Prod.mk.injEq] at h1; exact h1.1.symm
        · split at h1
          · split at h1
            · nomatch h1
            · simp only [Option.some.injEq, Prod.mk.injEq] at h1; exact h1.1.symm
            · obtain ⟨_, _, h3⟩ := Option.map_eq_some_iff.mp h1
              simp at h3
          · nomatch h1
      rw [← h2, this, set_self _ _ _ hl]

/-- C44, when an error is returned: an audit of a known directory is refused exactly when the message carries an error code or its range is
no continuation (for messages that carry a range whose first STR is there and whose STRs have policies, so that nothing panics). -/
theorem C44_audit_refused_iff (C : Crypto) (l : AuditLog) (id : Arr32) (h : DirHistory) (hl : l id = some h) (code : ErrorCode)
    (strs : List (Option DirSTR)) (h0 : strs[0]? ≠ some none) (hp : ∀ t, some t ∈ strs → t.policies ≠ none) :
    (∃ l' e, l.audit C id ⟨code, .history strs⟩ = some (l', some e)) ↔
      errorsSet code = true ∨ ¬ ∃ m : List DirSTR, strs = m.map some ∧ Continues C h.aud.signKey h.aud.verified m := by
  have hins : ∀ (m : List DirSTR) (h : DirHistory), ∃ h', h.insertRange (m.map some) = some h' := by
    intro m
    induction m with
    | nil => intro h; exact ⟨h, rfl⟩
    | cons x r ih => intro h; exact ih _
  simp only [AuditLog.audit, hl, DirHistory.audit, Response.validate]
  by_cases hc : errorsSet code = true
  · simp [hc]
  · rw [if_neg hc]
    simp only [hc, false_or]
    by_cases hbad : ∃ m : List DirSTR, strs = m.map some ∧ Continues C h.aud.signKey h.aud.verified m
    · have hne : strs.length ≠ 0 := by
        obtain ⟨m, rfl, ⟨s, hs, _⟩, _⟩ := hbad
        cases m with
        | nil => simp at hs
        | cons => simp
      rw [if_neg hne]
      have hok := (audit_ok C h.aud strs).mpr hbad
      simp only [hok]
      have hbad' := hbad
      obtain ⟨m, rfl, _⟩ := hbad'
      obtain ⟨h', hh⟩ := hins m h
      simp only [hh, hbad, Option.map_some, not_true]
      simp
    · by_cases hz : strs.length = 0
      · simp [hz, hbad]
      · rw [if_neg hz]
        obtain ⟨e, he, _⟩ := C39_audit_rejects C h.aud strs h0 hp hbad
        simp [he, hbad]

/-- a refused audit: epoch 2 offered to an auditor at epoch 0 -/
example : ((newAuditLog.initHistory Crypto.toy [] toyPK [some toy0]).bind fun x =>
    (x.1.audit Crypto.toy (dirId Crypto.toy toy0) ⟨ReqSuccess, .history [some toy2]⟩).map fun y => y.2) = some (some CheckBadSTR) := by
  decide +kernel

end Coniks.Props

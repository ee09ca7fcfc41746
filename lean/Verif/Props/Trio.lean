import Verif.Proofs.Trio
import Verif.Props.SessionExact
import Verif.Proofs.Mitm
/-
C85: an honest directory, an auditor that follows it and a user who asks both.
-/
namespace Coniks.Props
open Coniks Spec

/-- The beginning: a directory after the history `pre` of calls; an auditor that was given (`InitHistory`) its first `a + 1` STRs and its
public key and keeps them under the identity `id`; a user created (`New`) with the public key and the STR of epoch `e`. -/
structure TrioStart (C : Crypto) (t0 : UInt64) (sk vk : Bytes) (size : Nat) (r₁ r₂ : Bytes) (pre : List DirOp) (a e : Nat) (id : Arr32)
    (T : Trio) : Prop where
  all : ∃ (log : List STR) (first s : STR) (before : AuditLog) (addr : Bytes),
    dirAfter C t0 sk vk size r₁ r₂ pre = some (T.dir, log) ∧ log[0]? = some first ∧ id = dirId C first.toDir ∧ a < log.length ∧
    before.initHistory C addr (C.signPub sk) ((log.take (a + 1)).map fun s => some s.toDir) = some (T.log, none) ∧
    log[e]? = some s ∧ newClient s.toDir true (C.signPub sk) = some T.user

/-- there is such a beginning whenever there is such a directory -/
theorem start_exists {C : Crypto} {t0 : UInt64} {sk vk : Bytes} {size : Nat} {r₁ r₂ : Bytes} {pre : List DirOp} {d : Directory}
    {log : List STR} (h : dirAfter C t0 sk vk size r₁ r₂ pre = some (d, log)) (hlt : dirUpdates pre + 1 < 2 ^ 64) {a e : Nat}
    (ha : a < log.length) (he : e < log.length) :
    ∃ id T, T.dir = d ∧ TrioStart C t0 sk vk size r₁ r₂ pre a e id T := by
  obtain ⟨inv, hl⟩ := dirAfter_exact C t0 sk vk size r₁ r₂ pre (by omega) d log h
  obtain ⟨f, rest, hf⟩ : ∃ f rest, log = f :: rest := by
    cases log with
    | nil => simp at ha
    | cons f rest => exact ⟨f, rest, rfl⟩
  have h2 : log[0]? = some f := by rw [hf]; rfl
  have he0 : f.toDir.core.epoch = 0 := by rw [show f.toDir.core = f.core from rfl, inv.pad.epoch _ _ h2]; rfl
  have hm : ((log.take (a + 1)).map fun s => some s.toDir) = some f.toDir :: ((rest.take a).map STR.toDir).map some := by
    rw [hf, List.take_succ_cons]; simp [Function.comp_def]
  have hc : Chain C (C.signPub sk) (f.toDir :: (rest.take a).map STR.toDir) := by
    have := @strPart_chain C d.pad log inv.pad 0 (a + 1)
    unfold strPart at this
    rw [List.drop_zero, hf, List.take_succ_cons, List.map_cons, inv.skEq] at this
    exact this
  obtain ⟨h', g1, _⟩ := Hist.insertRange _ (newHistory_hist C [] (C.signPub sk) f.toDir he0) hc
    (by rw [List.length_map, List.length_take]; rw [hf] at hl; simp at hl ⊢; omega)
  refine ⟨dirId C f.toDir, ⟨d, newAuditLog.set ⟨C.digest [f.toDir.core.signature], C.hash_length _⟩ h',
    { aud := newAudState (C.signPub sk) log[e].toDir, tbs := fun _ => none, useTBs := true, bindings := fun _ => none }⟩, rfl,
    ⟨log, f, log[e], newAuditLog, [], h, h2, rfl, ha, ?_, List.getElem?_eq_getElem he, ?_⟩⟩
  · rw [hm]
    simp only [AuditLog.initHistory, he0, ne_eq, not_true, if_false, computeDirectoryIdentity, newAuditLog, g1]
  · simp [newClient]

theorem start_inv {C : Crypto} {t0 : UInt64} {sk vk : Bytes} {size : Nat} {r₁ r₂ : Bytes} {pre : List DirOp} {a e : Nat} {id : Arr32}
    {T : Trio} (h : TrioStart C t0 sk vk size r₁ r₂ pre a e id T) (hlt : dirUpdates pre + 1 < 2 ^ 64) :
    ∃ log, TrioInv C t0 sk vk size r₁ r₂ id pre T log
      ⟨⟨exactAfter (fun n => (C.vrfProve vk n).1) C.hash pre, dirUpdates pre - e, fun _ => none⟩, dirUpdates pre, a⟩ ∧ e ≤ dirUpdates pre := by
  obtain ⟨log, first, s, before, addr, h1, h2, h3, h4, h5, h6, h7⟩ := h.all
  obtain ⟨inv, hl⟩ := dirAfter_exact C t0 sk vk size r₁ r₂ pre (by omega) T.dir log h1
  have he := (List.getElem?_eq_some_iff.mp h6).1
  simp only [newClient, if_true, Option.some.injEq] at h7
  refine ⟨log, ⟨h1, ⟨inv, ?_, ?_, ⟨s, ?_, ?_⟩, ?_, after_policies h1⟩, rfl, hl, ?_, ?_⟩, by omega⟩
  · rw [← h7]
  · rw [← h7]; rfl
  · show log.reverse[dirUpdates pre - e]? = some s
    rw [List.getElem?_reverse (by omega), ← h6]
    congr 1; omega
  · rw [← h7]; rfl
  · intro n
    rw [← h7]
    exact ⟨rfl, fun p hp => (nomatch hp)⟩
  · show a ≤ dirUpdates pre
    omega
  · obtain ⟨f, rest, hf⟩ : ∃ f rest, log = f :: rest := by
      cases log with
      | nil => simp at h2
      | cons f rest => exact ⟨f, rest, rfl⟩
    have hff : f = first := by rw [hf] at h2; simpa using h2
    subst hff
    have hm : ((log.take (a + 1)).map fun s => some s.toDir) = (f.toDir :: (rest.take a).map STR.toDir).map some := by
      rw [hf, List.take_succ_cons]; simp [Function.comp_def]
    have hm2 : (log.take (a + 1)).map STR.toDir = f.toDir :: (rest.take a).map STR.toDir := by
      rw [hf, List.take_succ_cons]; rfl
    have hc : Chain C (C.signPub sk) (f.toDir :: (rest.take a).map STR.toDir) := by
      have := @strPart_chain C T.dir.pad log inv.pad 0 (a + 1)
      unfold strPart at this
      rw [List.drop_zero, hm2, inv.skEq] at this
      exact this
    rw [hm] at h5
    have he0 : f.toDir.core.epoch = 0 := by
      rw [show f.toDir.core = f.core from rfl, inv.pad.epoch _ _ h2]; rfl
    obtain ⟨hh, g1, g2, g3⟩ := initHistory_hist he0 hc
      (by rw [List.length_map, List.length_take]; rw [hf] at hl; simp at hl; omega) h5
    refine ⟨hh, ?_, ?_, g3⟩
    · rw [h3]; exact g1
    · show Hist C hh ((log.take (a + 1)).map STR.toDir)
      rw [hm2]; exact g2

/-- C85, exactly, for every cryptography, every history before, every number of STRs the auditor begins with, every epoch the user begins
with, and every interleaving of calls of others at the directory, lookups and registrations of the user, audits and checks: everything
that `HandleResponse`, `Audit` and `CheckEquivocation` return, or that somebody crashes, is what `Table.run` says. At the end the auditor
reports exactly the first `seen + 1` STRs of the directory, and the user holds the STR of epoch `now - lag`. (Cache length at least 2.) -/
theorem C85_exact (C : Crypto) (t0 : UInt64) (sk vk : Bytes) (size : Nat) (hsz : 2 ≤ size) (r₁ r₂ : Bytes) (pre : List DirOp) (a e : Nat)
    (id : Arr32) (T : Trio) (h : TrioStart C t0 sk vk size r₁ r₂ pre a e id T) (evs : List TrioOp)
    (hlt : dirUpdates (pre ++ evs.flatMap TrioOp.dirOps) + 1 < 2 ^ 64) :
    match Table.run (fun n => (C.vrfProve vk n).1) C.hash (vrfOk C vk) size
      ⟨⟨exactAfter (fun n => (C.vrfProve vk n).1) C.hash pre, dirUpdates pre - e, fun _ => none⟩, dirUpdates pre, a⟩ evs with
    | none => T.run C id evs = none
    | some (res, B) => ∃ (T' : Trio) (log : List STR), T.run C id evs = some (res, T') ∧
        dirAfter C t0 sk vk size r₁ r₂ (pre ++ evs.flatMap TrioOp.dirOps) = some (T'.dir, log) ∧
        B.now = dirUpdates (pre ++ evs.flatMap TrioOp.dirOps) ∧ B.seen ≤ B.now ∧
        ReportsExactly T'.log id ((log.take (B.seen + 1)).map STR.toDir) ∧
        (log[B.now - B.meet.lag]?).map STR.toDir = some T'.user.aud.verified := by
  obtain ⟨log, i, _⟩ := start_inv h (by rw [dirUpdates_append] at hlt; omega)
  have hs := trio_run hsz evs i hlt
  generalize Table.run (fun n => (C.vrfProve vk n).1) C.hash (vrfOk C vk) size
      ⟨⟨exactAfter (fun n => (C.vrfProve vk n).1) C.hash pre, dirUpdates pre - e, fun _ => none⟩, dirUpdates pre, a⟩ evs = m at hs
  cases m with
  | none => exact hs
  | some x =>
    obtain ⟨res, B⟩ := x
    obtain ⟨T', log', e1, i'⟩ := hs
    obtain ⟨hh, g1, g2, _⟩ := i'.hist
    obtain ⟨y, u1, u2⟩ := i'.user
    refine ⟨T', log', e1, i'.after, i'.now, i'.seen, g2.reports T'.log id g1, ?_⟩
    unfold Table.user at u1
    rw [u1, u2]; rfl

/-- what a run that does not crash ends in -/
theorem run_inv {C : Crypto} {t0 : UInt64} {sk vk : Bytes} {size : Nat} (hsz : 2 ≤ size) {r₁ r₂ : Bytes} {pre : List DirOp} {a e : Nat}
    {id : Arr32} {T : Trio} (h : TrioStart C t0 sk vk size r₁ r₂ pre a e id T) {evs : List TrioOp}
    (hlt : dirUpdates (pre ++ evs.flatMap TrioOp.dirOps) + 1 < 2 ^ 64) {res : List (Option ErrorCode)} {T' : Trio}
    (hr : T.run C id evs = some (res, T')) :
    ∃ log B, TrioInv C t0 sk vk size r₁ r₂ id (pre ++ evs.flatMap TrioOp.dirOps) T' log B := by
  obtain ⟨log, i, _⟩ := start_inv h (by rw [dirUpdates_append] at hlt; omega)
  have hs := trio_run hsz evs i hlt
  generalize Table.run (fun n => (C.vrfProve vk n).1) C.hash (vrfOk C vk) size
      ⟨⟨exactAfter (fun n => (C.vrfProve vk n).1) C.hash pre, dirUpdates pre - e, fun _ => none⟩, dirUpdates pre, a⟩ evs = m at hs
  cases m with
  | none => rw [show T.run C id evs = none from hs] at hr; cases hr
  | some x =>
    obtain ⟨res', B⟩ := x
    obtain ⟨T'', log', e1, i'⟩ := hs
    rw [hr] at e1
    cases e1
    exact ⟨log', B, i'⟩

/-- the latest epochs of auditor and user -/
theorem TrioInv.epochs {C t0 sk vk size r₁ r₂ id ops T log B} (i : TrioInv C t0 sk vk size r₁ r₂ id ops T log B)
    (hlt : dirUpdates ops + 1 < 2 ^ 64) {h : DirHistory} (hl : T.log id = some h) :
    h.aud.verified.core.epoch.toNat = B.seen ∧ T.user.aud.verified.core.epoch.toNat = B.user ∧ T.dir.latestSTR.core.epoch.toNat = B.now ∧
    (log[B.seen]?).map STR.toDir = some h.aud.verified := by
  obtain ⟨h', g1, H, _⟩ := i.hist
  rw [hl] at g1
  cases g1
  obtain ⟨y, u1, u2⟩ := i.user
  have hlen := i.len
  have hnow := i.now
  have hseen := i.seen
  have h1 := H.lastAt
  rw [List.length_map, List.length_take, show min (B.seen + 1) log.length - 1 = B.seen by omega] at h1
  refine ⟨H.epochs _ _ h1, ?_, ?_, ?_⟩
  · have hb := (List.getElem?_eq_some_iff.mp u1).1
    rw [u2, show y.toDir.core = y.core from rfl, i.ses.dir.pad.epoch _ _ u1, ofNat_toNat64 (by omega)]
  · have : T.dir.latestSTR.core.epoch.toNat = log.length - 1 := i.ses.dir.pad.latest_toNat
    omega
  · rw [← h1, List.getElem?_map, List.getElem?_take, if_pos (by omega)]

/-- C85: what a check says, in terms of the epoch `u` of the user's STR and the latest epoch `v` of the auditor's: after every run that did
not crash, for every range, the check returns `ErrMalformedMessage` if the auditor has not got that far (or the range is empty), nil if the
range ends at `u` or `u + 1`, and `CheckBadSTR`, the evidence of equivocation, in all other cases. -/
theorem C85_check (C : Crypto) (t0 : UInt64) (sk vk : Bytes) (size : Nat) (hsz : 2 ≤ size) (r₁ r₂ : Bytes) (pre : List DirOp) (a e : Nat)
    (id : Arr32) (T : Trio) (h : TrioStart C t0 sk vk size r₁ r₂ pre a e id T) (evs : List TrioOp)
    (hlt : dirUpdates (pre ++ evs.flatMap TrioOp.dirOps) + 1 < 2 ^ 64) (res : List (Option ErrorCode)) (T' : Trio)
    (hr : T.run C id evs = some (res, T')) :
    ∃ hist, T'.log id = some hist ∧ ∀ s t : UInt64, T'.user.checkEquivocation C (T'.log.getObservedSTRs ⟨id, s, t⟩) =
      some (checkSays hist.aud.verified.core.epoch.toNat T'.user.aud.verified.core.epoch.toNat s.toNat t.toNat) := by
  obtain ⟨log, B, i⟩ := run_inv hsz h hlt hr
  obtain ⟨hist, hl, _⟩ := i.hist
  refine ⟨hist, hl, fun s t => ?_⟩
  obtain ⟨e1, e2, _⟩ := TrioInv.epochs i hlt hl
  have hs := trio_step hsz i (.check s t) (by simp only [TrioOp.dirOps, List.append_nil]; exact hlt)
  simp only [Table.step] at hs
  obtain ⟨T'', log'', g1, _⟩ := hs
  simp only [Trio.step] at g1
  obtain ⟨x, k1, k2⟩ := Option.map_eq_some_iff.mp g1
  simp only [Prod.mk.injEq, List.cons.injEq, and_true] at k2
  rw [k1, k2.1, e1, e2]

/-- C85, beginning anew: after every run that did not crash, a user who makes a new client from the newest STR of the directory is in the newest epoch: every check is
answered as `checkSays` says for that epoch (nil for the ranges that end there, once the auditor has got that far), and no lookup is refused because of the STR, however long
the user had been away. -/
theorem C85_anew (C : Crypto) (t0 : UInt64) (sk vk : Bytes) (size : Nat) (hsz : 2 ≤ size) (r₁ r₂ : Bytes) (pre : List DirOp) (a e : Nat)
    (id : Arr32) (T : Trio) (h : TrioStart C t0 sk vk size r₁ r₂ pre a e id T) (evs : List TrioOp)
    (hlt : dirUpdates (pre ++ evs.flatMap TrioOp.dirOps) + 1 < 2 ^ 64) (res : List (Option ErrorCode)) (T' : Trio)
    (hr : T.run C id evs = some (res, T')) :
    ∃ T'' hist, T'.step C id .join = some ([], T'') ∧ T''.dir = T'.dir ∧ T''.log = T'.log ∧ T'.log id = some hist ∧
      (∀ s t : UInt64, T''.user.checkEquivocation C (T''.log.getObservedSTRs ⟨id, s, t⟩) =
        some (checkSays hist.aud.verified.core.epoch.toNat T'.dir.latestSTR.core.epoch.toNat s.toNat t.toNat)) ∧
      ∀ n key r T3, T''.step C id (.ses (.lookup n key)) = some (r, T3) → r ≠ [some CheckBadSTR] := by
  obtain ⟨log, B, i⟩ := run_inv hsz h hlt hr
  obtain ⟨hist, hl, _⟩ := i.hist
  obtain ⟨e1, _, e3, _⟩ := TrioInv.epochs i hlt hl
  have hs := trio_step hsz i .join (by simp only [TrioOp.dirOps, List.append_nil]; exact hlt)
  simp only [Table.step] at hs
  obtain ⟨T'', log', g1, i'⟩ := hs
  have hd : T''.dir = T'.dir ∧ T''.log = T'.log := by
    simp only [Trio.step] at g1
    obtain ⟨x, _, k2⟩ := Option.map_eq_some_iff.mp g1
    rw [← (Prod.mk.inj k2).2]
    exact ⟨rfl, rfl⟩
  have hlt' : dirUpdates ((pre ++ evs.flatMap TrioOp.dirOps) ++ TrioOp.join.dirOps) + 1 < 2 ^ 64 := by simp only [TrioOp.dirOps, List.append_nil]; exact hlt
  refine ⟨T'', hist, g1, hd.1, hd.2, hl, fun s t => ?_, ?_⟩
  · have hc := trio_step hsz i' (.check s t) (by simp only [TrioOp.dirOps, List.append_nil] at hlt' ⊢; exact hlt')
    simp only [Table.step] at hc
    obtain ⟨T3, _, k1, _⟩ := hc
    simp only [Trio.step] at k1
    obtain ⟨x, k2, k3⟩ := Option.map_eq_some_iff.mp k1
    simp only [Prod.mk.injEq, List.cons.injEq, and_true] at k3
    rw [k2, k3.1, e1, e3]
    rfl
  · intro n key r T3 hstep hbad
    have hc := trio_step hsz i' (.ses (.lookup n key)) (by
      rw [dirUpdates_append]
      exact hlt')
    simp only [Table.step] at hc
    unfold Meeting.hear at hc
    split at hc
    · next code he =>
      simp only [Option.map_some] at hc
      obtain ⟨_, _, k1, _⟩ := hc
      rw [hstep] at k1
      have hx := (Prod.mk.inj (Option.some.inj k1)).1
      rw [hbad] at hx
      have hcode : code = CheckBadSTR := by simpa using hx.symm
      unfold ExactDir.lookupAnswer at he
      split at he
      · simp only [Prod.mk.injEq] at he
        rw [← he.1] at hcode
        cases hcode
      · split at he <;> cases he
    · next code f prom he =>
      rw [if_neg (show ¬ 2 ≤ 0 by decide)] at hc
      cases hq : clientSays C.hash (vrfOk C vk) true ((fun _ => none : Bytes → Option Bytes) n) n key f prom with
      | none =>
        rw [hq, Option.map_none, Option.map_none] at hc
        rw [show T''.step C id (.ses (.lookup n key)) = none from hc] at hstep
        cases hstep
      | some x =>
        rw [hq, Option.map_some, Option.map_some] at hc
        obtain ⟨_, _, k1, _⟩ := hc
        rw [hstep] at k1
        have hx := (Prod.mk.inj (Option.some.inj k1)).1
        rw [hbad] at hx
        have hx1 : x.1 = some CheckBadSTR := by simpa using hx.symm
        unfold clientSays at hq
        repeat' split at hq
        all_goals first
          | (rw [← Option.some.inj hq] at hx1; simp [CheckBadVRFProof, CheckBadSTR, CheckBindingsDiffer, CheckBadCommitment, CheckBrokenPromise] at hx1; done)
          | (cases hq; done)

/-- C85, no false alarm for a user who asks for a range that ends at its own epoch: nil if the auditor knows that epoch (and the range
is not empty), else `ErrMalformedMessage`; never `CheckBadSTR`. -/
theorem C85_no_false_alarm (C : Crypto) (t0 : UInt64) (sk vk : Bytes) (size : Nat) (hsz : 2 ≤ size) (r₁ r₂ : Bytes) (pre : List DirOp)
    (a e : Nat) (id : Arr32) (T : Trio) (h : TrioStart C t0 sk vk size r₁ r₂ pre a e id T) (evs : List TrioOp)
    (hlt : dirUpdates (pre ++ evs.flatMap TrioOp.dirOps) + 1 < 2 ^ 64) (res : List (Option ErrorCode)) (T' : Trio)
    (hr : T.run C id evs = some (res, T')) (s : UInt64) :
    (∃ hist, T'.log id = some hist ∧ T'.user.aud.verified.core.epoch ≤ hist.aud.verified.core.epoch ∧
        s ≤ T'.user.aud.verified.core.epoch ∧
        T'.user.checkEquivocation C (T'.log.getObservedSTRs ⟨id, s, T'.user.aud.verified.core.epoch⟩) = some none) ∨
    T'.user.checkEquivocation C (T'.log.getObservedSTRs ⟨id, s, T'.user.aud.verified.core.epoch⟩) = some (some ErrMalformedMessage) := by
  obtain ⟨hist, h1, h2⟩ := C85_check C t0 sk vk size hsz r₁ r₂ pre a e id T h evs hlt res T' hr
  have h3 := h2 s T'.user.aud.verified.core.epoch
  rw [h3]
  unfold checkSays
  by_cases hc : hist.aud.verified.core.epoch.toNat < T'.user.aud.verified.core.epoch.toNat ∨ T'.user.aud.verified.core.epoch.toNat < s.toNat
  · right; rw [if_pos hc]
  · left
    rw [if_neg hc, if_pos (.inl rfl)]
    exact ⟨hist, h1, by rw [UInt64.le_iff_toNat_le]; omega, by rw [UInt64.le_iff_toNat_le]; omega, rfl⟩

/-- C85, the diligent auditor: after every run that did not crash, if at most `size - size/2` epochs passed since the latest STR the auditor
knows, then asking the directory for everything from there on and auditing the answer succeeds, and the auditor then knows the latest STR. -/
theorem C85_diligent_auditor (C : Crypto) (t0 : UInt64) (sk vk : Bytes) (size : Nat) (hsz : 2 ≤ size) (r₁ r₂ : Bytes) (pre : List DirOp)
    (a e : Nat) (id : Arr32) (T : Trio) (h : TrioStart C t0 sk vk size r₁ r₂ pre a e id T) (evs : List TrioOp)
    (hlt : dirUpdates (pre ++ evs.flatMap TrioOp.dirOps) + 1 < 2 ^ 64) (res : List (Option ErrorCode)) (T' : Trio)
    (hr : T.run C id evs = some (res, T')) (hist : DirHistory) (hl : T'.log id = some hist)
    (hd : T'.dir.latestSTR.core.epoch.toNat ≤ hist.aud.verified.core.epoch.toNat + (size - size / 2))
    (t : UInt64) (ht : T'.dir.latestSTR.core.epoch ≤ t) :
    ∃ T'' hist', T'.step C id (.audit hist.aud.verified.core.epoch t) = some ([none], T'') ∧ T''.log id = some hist' ∧
      hist'.aud.verified = T'.dir.latestSTR := by
  obtain ⟨log, B, i⟩ := run_inv hsz h hlt hr
  obtain ⟨e1, e2, e3, _⟩ := TrioInv.epochs i hlt hl
  have hdu : dirUpdates ((pre ++ evs.flatMap TrioOp.dirOps) ++ TrioOp.dirOps (.audit hist.aud.verified.core.epoch t)) =
      dirUpdates (pre ++ evs.flatMap TrioOp.dirOps) := by rw [dirUpdates_append]; rfl
  have hs := trio_step hsz i (.audit hist.aud.verified.core.epoch t) (by omega)
  rw [UInt64.le_iff_toNat_le] at ht
  have hb := cacheKept_bounds size hsz B.now
  have hsn := i.seen
  simp only [Table.step, auditSays] at hs
  rw [if_neg (by omega), if_neg (by omega), if_pos (.inl e1)] at hs
  obtain ⟨T'', log'', g1, i'⟩ := hs
  obtain ⟨hist', hl', _⟩ := i'.hist
  refine ⟨T'', hist', g1, hl', ?_⟩
  obtain ⟨f1, _, _, f4⟩ := TrioInv.epochs i' (by omega) hl'
  dsimp only at f4
  have hT : T''.dir = T'.dir := by
    simp only [Trio.step] at g1
    obtain ⟨m, k1, k2⟩ := Option.bind_eq_some_iff.mp g1
    obtain ⟨x, k3, k4⟩ := Option.map_eq_some_iff.mp k2
    simp only [Prod.mk.injEq] at k4
    rw [← k4.2]
  have hlg := i'.ses.dir.pad.latest_get
  have hln := i'.len
  have hnw := i'.now
  dsimp only at hnw
  rw [show min t.toNat B.now = log''.length - 1 by omega, hlg] at f4
  rw [← Option.some.inj f4, ← hT]
  rfl

/-- once the directory has dropped the next epoch the auditor needs, nothing the table says brings the auditor on -/
theorem table_lost (idx hash : Bytes → Bytes) (ok : Bytes → Bool) (size : Nat) (evs : List TrioOp) : ∀ (B B' : Table)
    (res : List (Option ErrorCode)), B.gone size (B.seen + 1) → B.run idx hash ok size evs = some (res, B') → B'.seen = B.seen := by
  induction evs with
  | nil => intro B B' res _ h; simp only [Table.run, Option.some.injEq, Prod.mk.injEq] at h; rw [← h.2]
  | cons op evs ih =>
    intro B B' res hg h
    simp only [Table.run] at h
    obtain ⟨⟨r1, B1⟩, h1, h2⟩ := Option.bind_eq_some_iff.mp h
    obtain ⟨⟨r2, B2⟩, h3, h4⟩ := Option.map_eq_some_iff.mp h2
    simp only [Prod.mk.injEq] at h4
    obtain ⟨_, rfl⟩ := h4
    have keep : B1.seen = B.seen ∧ B1.gone size (B.seen + 1) := by
      cases op with
      | ses op =>
        cases op with
        | dir op =>
          simp only [Table.step] at h1
          obtain ⟨B3, k1, k2⟩ := Option.map_eq_some_iff.mp h1
          simp only [Prod.mk.injEq] at k2
          obtain ⟨_, rfl⟩ := k2
          unfold Table.dirStep at k1
          split at k1
          · cases k1
          · simp only [Option.some.injEq] at k1
            rw [← k1]
            refine ⟨rfl, ?_⟩
            unfold Table.gone at hg ⊢
            dsimp only
            split
            · have : cacheKept size (B.now + 1) ≤ cacheKept size B.now + 1 := by
                simp only [cacheKept]
                split
                · next hh => omega
                · omega
              omega
            · exact hg
        | lookup n key =>
          simp only [Table.step] at h1
          obtain ⟨x, k1, k2⟩ := Option.map_eq_some_iff.mp h1
          simp only [Prod.mk.injEq] at k2
          rw [← k2.2]; exact ⟨rfl, hg⟩
        | register rnd n k =>
          simp only [Table.step] at h1
          obtain ⟨x, k1, k2⟩ := Option.map_eq_some_iff.mp h1
          simp only [Prod.mk.injEq] at k2
          rw [← k2.2]; exact ⟨rfl, hg⟩
      | audit s e =>
        simp only [Table.step] at h1
        obtain ⟨x, k1, k2⟩ := Option.map_eq_some_iff.mp h1
        simp only [Prod.mk.injEq] at k2
        rw [← k2.2]
        refine ⟨?_, hg⟩
        show x.2 = B.seen
        unfold auditSays at k1
        unfold Table.gone at hg
        split at k1
        · rw [← Option.some.inj k1]
        · split at k1
          · cases k1
          · split at k1
            · exfalso; omega
            · rw [← Option.some.inj k1]
      | check s e =>
        simp only [Table.step, Option.some.injEq, Prod.mk.injEq] at h1
        rw [← h1.2]; exact ⟨rfl, hg⟩
      | join =>
        simp only [Table.step, Option.some.injEq, Prod.mk.injEq] at h1
        rw [← h1.2]; exact ⟨rfl, hg⟩
    rw [ih B1 B2 r2 (by rw [keep.1]; exact keep.2) h3, keep.1]

/-- C85, refuted in general: the auditor who comes too late is lost for ever. After every run that did not crash, if the directory has
issued more than `size` STRs since the latest STR the auditor knows, then whatever happens later, without a crash of the directory, the
auditor never learns another STR of it: it keeps reporting what it reported. (There is no way for it to ask for the STRs in between, and
it accepts no range that starts later.) -/
theorem C85_late_auditor_counterexample (C : Crypto) (t0 : UInt64) (sk vk : Bytes) (size : Nat) (hsz : 2 ≤ size) (r₁ r₂ : Bytes)
    (pre : List DirOp) (a e : Nat) (id : Arr32) (T : Trio) (h : TrioStart C t0 sk vk size r₁ r₂ pre a e id T) (evs : List TrioOp)
    (later : List TrioOp) (hlt : dirUpdates (pre ++ (evs ++ later).flatMap TrioOp.dirOps) + 1 < 2 ^ 64)
    (res res' : List (Option ErrorCode)) (T' T'' : Trio)
    (hr : T.run C id evs = some (res, T')) (hist : DirHistory) (hl : T'.log id = some hist)
    (hlate : hist.aud.verified.core.epoch.toNat + size < T'.dir.latestSTR.core.epoch.toNat)
    (hr' : T'.run C id later = some (res', T'')) :
    ∃ hist', T''.log id = some hist' ∧ hist'.aud.verified = hist.aud.verified ∧
      ∀ s t, T''.log.getObservedSTRs ⟨id, s, t⟩ = T'.log.getObservedSTRs ⟨id, s, t⟩ := by
  rw [List.flatMap_append, ← List.append_assoc] at hlt
  have hlt1 : dirUpdates (pre ++ evs.flatMap TrioOp.dirOps) + 1 < 2 ^ 64 := by rw [dirUpdates_append] at hlt; omega
  obtain ⟨log, B, i⟩ := run_inv hsz h hlt1 hr
  obtain ⟨e1, e2, e3, e4⟩ := TrioInv.epochs i hlt1 hl
  have hb := cacheKept_bounds size hsz B.now
  have hg : B.gone size (B.seen + 1) := by unfold Table.gone; omega
  have hs := trio_run hsz later i hlt
  cases hm : B.run (fun n => (C.vrfProve vk n).1) C.hash (vrfOk C vk) size later with
  | none => rw [hm] at hs; rw [show T'.run C id later = none from hs] at hr'; cases hr'
  | some x =>
    obtain ⟨res2, B'⟩ := x
    rw [hm] at hs
    obtain ⟨T3, log', g1, i'⟩ := hs
    rw [hr'] at g1
    cases g1
    have hseen := table_lost _ _ _ size later B B' _ hg hm
    obtain ⟨hist', hl', H', _⟩ := i'.hist
    obtain ⟨h0, hl0, H, _⟩ := i.hist
    rw [hl] at hl0
    cases hl0
    -- the longer log begins with the shorter one
    have hpre : ∃ more, log' = log ++ more := dirAfter_prefix C t0 sk vk size r₁ r₂ _ _ _ _ i'.after _ _ i.after
    obtain ⟨more, rfl⟩ := hpre
    have hlen := i.len
    have hsn := i.seen
    have hnw := i.now
    have hsame : ((log ++ more).take (B'.seen + 1)).map STR.toDir = (log.take (B.seen + 1)).map STR.toDir := by
      rw [hseen, List.take_append_of_le_length (by omega)]
    rw [hsame] at H'
    refine ⟨hist', hl', ?_, ?_⟩
    · have h1 := H.last
      have h2 := H'.last
      rw [h1] at h2
      exact (Option.some.inj h2).symm
    · intro s t
      have r1 := H.reports T'.log id hl s t
      have r2 := H'.reports T''.log id hl' s t
      by_cases hc : s.toNat ≤ t.toNat ∧ t.toNat < ((log.take (B.seen + 1)).map STR.toDir).length
      · rw [r1.1 hc, r2.1 hc]
      · rw [r1.2 hc, r2.2 hc]

/-- C85, refuted in general: a false alarm. A directory with one epoch update behind it, whatever else happened; a user created with the
STR of epoch 1, an auditor that so far knows epoch 0 only. Nobody did anything wrong, and the user who asks the auditor for what it knows
(`0 .. 0`) gets `CheckBadSTR`, the code for a directory that equivocated. -/
theorem C85_false_alarm_counterexample (C : Crypto) (t0 : UInt64) (sk vk : Bytes) (size : Nat) (hsz : 2 ≤ size) (r₁ r₂ : Bytes)
    (pre : List DirOp) (hp : dirUpdates pre = 1) (id : Arr32) (T : Trio) (h : TrioStart C t0 sk vk size r₁ r₂ pre 0 1 id T) :
    T.run C id [.check 0 0] = some ([some CheckBadSTR], T) ∧
    -- once the auditor has asked for epoch 1 too, there is no alarm
    ∃ T', T.run C id [.check 0 0, .audit 1 1, .check 0 1] = some ([some CheckBadSTR, none, none], T') := by
  have hx := C85_exact C t0 sk vk size hsz r₁ r₂ pre 0 1 id T h [.check 0 0] (by simp [TrioOp.dirOps, hp])
  have hy := C85_exact C t0 sk vk size hsz r₁ r₂ pre 0 1 id T h [.check 0 0, .audit 1 1, .check 0 1] (by
    simp only [List.flatMap_cons, TrioOp.dirOps, List.flatMap_nil, List.nil_append, List.append_nil]
    rw [dirUpdates_append, hp]; decide)
  rw [hp] at hx hy
  have hk : cacheKept size 1 = 2 := by
    have h0 : cacheKept size 0 = 1 := rfl
    show (if cacheKept size 0 = size then size - size / 2 else cacheKept size 0) + 1 = 2
    rw [if_neg (by omega), h0]
  have z : (0 : UInt64).toNat = 0 := rfl
  have o : (1 : UInt64).toNat = 1 := rfl
  simp [Table.run, Table.step, checkSays, auditSays, Table.user, hk, z, o] at hx hy
  obtain ⟨T1, h1, _⟩ := hx
  obtain ⟨T2, h2, _⟩ := hy
  refine ⟨?_, T2, h2⟩
  have : T1 = T := by
    simp only [Trio.run, Trio.step] at h1
    obtain ⟨x, k1, k2⟩ := Option.bind_eq_some_iff.mp h1
    obtain ⟨y, k3, k4⟩ := Option.map_eq_some_iff.mp k1
    simp only [Option.map_some, List.append_nil, Option.some.injEq, Prod.mk.injEq] at k2
    rw [← k2.2, ← k4]
  rw [← this]; rw [← this] at h1; exact h1

/-! ### concrete cases -/

/-- a directory with `n` updates behind it, for every cryptography -/
theorem start_updates (C : Crypto) (n : Nat) (hn : n + 1 < 2 ^ 64) (size a e : Nat) (ha : a ≤ n) (he : e ≤ n) :
    ∃ id T, TrioStart C 5 [1] [2] size [3] [4] (List.replicate n .update) a e id T := by
  have hu : dirUpdates (List.replicate n .update) = n := by
    clear hn ha he
    induction n with
    | zero => rfl
    | succ n ih => rw [List.replicate_succ, dirUpdates_cons, ih]; simp [dirUpdates]; omega
  obtain ⟨d, log, h⟩ := C31_history_runs C 5 [1] [2] size [3] [4] (List.replicate n .update) (by omega)
    (by intro req hm; have := List.eq_of_mem_replicate hm; cases this)
  obtain ⟨_, hl⟩ := dirAfter_exact C 5 [1] [2] size [3] [4] _ (by omega) d log h
  obtain ⟨id, T, _, hs⟩ := start_exists h (by omega) (show a < log.length by omega) (show e < log.length by omega)
  exact ⟨id, T, hs⟩

/-- the false alarm happens -/
example (C : Crypto) : ∃ id T, TrioStart C 5 [1] [2] 10 [3] [4] [.update] 0 1 id T ∧
    T.run C id [.check 0 0] = some ([some CheckBadSTR], T) := by
  obtain ⟨id, T, h⟩ := start_updates C 1 (by decide) 10 0 1 (by decide) (by decide)
  exact ⟨id, T, h, (C85_false_alarm_counterexample C 5 [1] [2] 10 (by decide) [3] [4] [.update] rfl id T h).1⟩

/-- A longer run: cache length 4, three updates behind, auditor at epoch 1, user at epoch 2. The user's check of `1 .. 1` is a false
alarm; the auditor asks for `2 .. 9` and knows epoch 3; the checks that end at 2 and 3 pass; at 1 there is a false alarm; an audit from 0
is refused; after two more updates the auditor catches up to 5, and the user at epoch 2 gets a false alarm for `2 .. 5`. -/
example (C : Crypto) : ∃ id T T', TrioStart C 5 [1] [2] 4 [3] [4] (List.replicate 3 .update) 1 2 id T ∧
    T.run C id [.check 1 1, .audit 2 9, .check 0 2, .check 0 3, .check 1 1, .audit 0 3, .ses (.dir .update), .ses (.dir .update),
        .audit 3 5, .check 2 5, .check 0 6] =
      some ([some CheckBadSTR, none, none, none, some CheckBadSTR, some CheckBadSTR, none, some CheckBadSTR,
        some ErrMalformedMessage], T') := by
  obtain ⟨id, T, h⟩ := start_updates C 3 (by decide) 4 1 2 (by decide) (by decide)
  have hx := C85_exact C 5 [1] [2] 4 (by decide) [3] [4] _ 1 2 id T h [.check 1 1, .audit 2 9, .check 0 2, .check 0 3, .check 1 1, .audit 0 3,
    .ses (.dir .update), .ses (.dir .update), .audit 3 5, .check 2 5, .check 0 6] (by decide)
  rw [show dirUpdates (List.replicate 3 .update) = 3 from rfl] at hx
  have k3 : cacheKept 4 3 = 4 := by decide
  have k5 : cacheKept 4 5 = 4 := by decide
  have g : ∀ B : Table, ¬ B.asksGone 4 .update := by rintro B ⟨r, e, _⟩; cases e
  have t0 : (0 : UInt64).toNat = 0 := rfl
  have t1 : (1 : UInt64).toNat = 1 := rfl
  have t2 : (2 : UInt64).toNat = 2 := rfl
  have t3 : (3 : UInt64).toNat = 3 := rfl
  have t5 : (5 : UInt64).toNat = 5 := rfl
  have t6 : (6 : UInt64).toNat = 6 := rfl
  have t9 : (9 : UInt64).toNat = 9 := rfl
  simp only [Table.run, Table.step, Table.dirStep, checkSays, auditSays, Table.user, g, k3, k5, t0, t1, t2, t3, t5, t6, t9] at hx
  simp only [Nat.reduceLT, Nat.reduceSub, Nat.reduceEqDiff, Nat.reduceAdd, or_self, or_true, true_or, if_true, if_false, Option.map_some,
    Option.bind_some, Nat.reduceLeDiff, or_false, false_or, show min 9 3 = 3 from rfl, show min 5 5 = 5 from rfl, List.cons_append, List.nil_append, k3, k5] at hx
  obtain ⟨T', log, h1, _⟩ := hx
  exact ⟨id, T, T', h, h1⟩

/-- a diligent auditor -/
example (C : Crypto) : ∃ id T T' hist', TrioStart C 5 [1] [2] 4 [3] [4] (List.replicate 3 .update) 1 2 id T ∧
    T.step C id (.audit 1 3) = some ([none], T') ∧ T'.log id = some hist' ∧ hist'.aud.verified = T.dir.latestSTR := by
  obtain ⟨id, T, h⟩ := start_updates C 3 (by decide) 4 1 2 (by decide) (by decide)
  obtain ⟨log, i, _⟩ := start_inv h (by decide)
  obtain ⟨hist, hl, _⟩ := i.hist
  obtain ⟨e1, _, e3, _⟩ := TrioInv.epochs i (by decide) hl
  have hv : hist.aud.verified.core.epoch = 1 := UInt64.toNat_inj.mp e1
  have e3' : T.dir.latestSTR.core.epoch.toNat = 3 := e3
  have := C85_diligent_auditor C 5 [1] [2] 4 (by decide) [3] [4] _ 1 2 id T h [] (by decide) [] T rfl hist hl
    (by rw [e3', hv]; decide) 3 (by rw [UInt64.le_iff_toNat_le, e3']; decide)
  rw [hv] at this
  obtain ⟨T', hist', g1, g2, g3⟩ := this
  exact ⟨id, T, T', hist', h, g1, g2, g3⟩

/-- a user three epochs behind begins anew and checks everything up to the newest epoch -/
example (C : Crypto) : ∃ id T T', TrioStart C 5 [1] [2] 4 [3] [4] (List.replicate 3 .update) 3 0 id T ∧ T.step C id .join = some ([], T') ∧
    T'.user.checkEquivocation C (T'.log.getObservedSTRs ⟨id, 0, 3⟩) = some none := by
  obtain ⟨id, T, h⟩ := start_updates C 3 (by decide) 4 3 0 (by decide) (by decide)
  obtain ⟨log, i, _⟩ := start_inv h (by decide)
  obtain ⟨T', hist, g1, _, _, hl, g2, _⟩ := C85_anew C 5 [1] [2] 4 (by decide) [3] [4] _ 3 0 id T h [] (by decide) [] T rfl
  obtain ⟨e1, _, e3, _⟩ := TrioInv.epochs i (by decide) hl
  have e1' : hist.aud.verified.core.epoch.toNat = 3 := e1
  have e3' : T.dir.latestSTR.core.epoch.toNat = 3 := e3
  refine ⟨id, T, T', h, g1, ?_⟩
  rw [g2, e1', e3']
  rfl

/-- a lost auditor: cache length 2, three updates behind, auditor at epoch 0; it can ask for epoch 3 but does not accept it -/
example (C : Crypto) : ∃ id T T', TrioStart C 5 [1] [2] 2 [3] [4] (List.replicate 3 .update) 0 3 id T ∧
    T.run C id [.audit 3 3, .ses (.dir .update), .audit 4 4] = some ([some CheckBadSTR, some CheckBadSTR], T') ∧
    ∀ s t, T'.log.getObservedSTRs ⟨id, s, t⟩ = T.log.getObservedSTRs ⟨id, s, t⟩ := by
  obtain ⟨id, T, h⟩ := start_updates C 3 (by decide) 2 0 3 (by decide) (by decide)
  have hx := C85_exact C 5 [1] [2] 2 (by decide) [3] [4] _ 0 3 id T h [.audit 3 3, .ses (.dir .update), .audit 4 4] (by decide)
  rw [show dirUpdates (List.replicate 3 .update) = 3 from rfl] at hx
  have k3 : cacheKept 2 3 = 2 := by decide
  have k4 : cacheKept 2 4 = 2 := by decide
  have g : ∀ B : Table, ¬ B.asksGone 2 .update := by rintro B ⟨r, e, _⟩; cases e
  have t3 : (3 : UInt64).toNat = 3 := rfl
  have t4 : (4 : UInt64).toNat = 4 := rfl
  simp only [Table.run, Table.step, Table.dirStep, checkSays, auditSays, Table.user, g, k3, k4, t3, t4] at hx
  simp only [Nat.reduceLT, Nat.reduceSub, Nat.reduceEqDiff, Nat.reduceAdd, or_self, or_true, true_or, if_true, if_false, Option.map_some,
    Option.bind_some, Nat.reduceLeDiff, or_false, false_or, List.cons_append, List.nil_append, k3, k4] at hx
  obtain ⟨T', log, h1, _⟩ := hx
  obtain ⟨log0, i, _⟩ := start_inv h (by decide)
  obtain ⟨hist, hl, _⟩ := i.hist
  obtain ⟨e1, _, e3, _⟩ := TrioInv.epochs i (by decide) hl
  have e1' : hist.aud.verified.core.epoch.toNat = 0 := e1
  have e3' : T.dir.latestSTR.core.epoch.toNat = 3 := e3
  obtain ⟨_, _, _, hsame⟩ := C85_late_auditor_counterexample C 5 [1] [2] 2 (by decide) [3] [4] _ 0 3 id T h [] _ (by decide) [] _ T T' rfl hist hl
    (by rw [e1', e3']; decide) h1
  exact ⟨id, T, T', h, h1, hsame⟩

end Coniks.Props

import Verif.Proofs.Auditor
import Verif.Proofs.Directory
import Verif.Spec.AuditLog
/-
Lemmas about the audit log.
-/
namespace Coniks
open Spec

/-- the history `h` holds exactly the chain `L`, epochs 0, 1, ... -/
structure Hist (C : Crypto) (h : DirHistory) (L : List DirSTR) : Prop where
  chain : Chain C h.aud.signKey L
  epochs : ∀ (j : Nat) (s : DirSTR), L[j]? = some s → s.core.epoch.toNat = j
  snaps : ∀ e : UInt64, h.snapshots e = L[e.toNat]?
  last : L.getLast? = some h.aud.verified
  small : L.length < 2 ^ 64

theorem Hist.nonempty {C : Crypto} {h : DirHistory} {L : List DirSTR} (H : Hist C h L) : 0 < L.length := by
  cases L with
  | nil => have := H.last; simp at this
  | cons => simp

theorem Hist.lastAt {C : Crypto} {h : DirHistory} {L : List DirSTR} (H : Hist C h L) : L[L.length - 1]? = some h.aud.verified := by
  have := H.last; rw [List.getLast?_eq_getElem?] at this; exact this

/-- inserting the held STR again changes nothing -/
theorem Hist.same {C : Crypto} {h : DirHistory} {L : List DirSTR} (H : Hist C h L) : h.updateVerifiedSTR h.aud.verified = h := by
  obtain ⟨⟨pk, v⟩, addr, sn⟩ := h
  simp only [DirHistory.updateVerifiedSTR, AudState.update, DirHistory.mk.injEq, true_and]
  funext e
  by_cases he : e = v.core.epoch
  · rw [if_pos he]
    have h1 := H.lastAt
    have h2 := H.epochs _ _ h1
    have h3 := H.snaps e
    simp only at h1 h2 h3
    rw [h3, he, h2, h1]
  · rw [if_neg he]

/-- inserting a successor extends the chain -/
theorem Hist.push {C : Crypto} {h : DirHistory} {L : List DirSTR} (H : Hist C h L) (s : DirSTR)
    (hs : Successor C h.aud.signKey h.aud.verified s) (hsm : L.length + 1 < 2 ^ 64) :
    Hist C (h.updateVerifiedSTR s) (L ++ [s]) := by
  have hpos := H.nonempty
  have hl := H.lastAt
  have hle := H.epochs _ _ hl
  have hse : s.core.epoch.toNat = L.length := by
    rw [hs.2.epoch, UInt64.toNat_add, hle]
    have : (1 : UInt64).toNat = 1 := rfl
    omega
  refine ⟨?_, ?_, ?_, ?_, by simpa using hsm⟩
  · intro j a b ha hb
    by_cases hj : j + 1 < L.length
    · rw [List.getElem?_append_left hj] at hb
      rw [List.getElem?_append_left (by omega)] at ha
      exact H.chain j a b ha hb
    · have h2 := (List.getElem?_eq_some_iff.mp hb).1
      simp only [List.length_append, List.length_singleton] at h2
      have hj' : j = L.length - 1 := by omega
      rw [List.getElem?_append_left (by omega), hj', hl] at ha
      rw [List.getElem?_append_right (by omega), show j + 1 - L.length = 0 by omega] at hb
      cases ha
      simp only [List.getElem?_cons_zero, Option.some.injEq] at hb
      subst hb; exact hs
  · intro j t ht
    by_cases hj : j < L.length
    · rw [List.getElem?_append_left hj] at ht
      exact H.epochs j t ht
    · have h2 := (List.getElem?_eq_some_iff.mp ht).1
      simp only [List.length_append, List.length_singleton] at h2
      rw [List.getElem?_append_right (by omega), show j - L.length = 0 by omega] at ht
      simp only [List.getElem?_cons_zero, Option.some.injEq] at ht
      subst ht; omega
  · intro e
    show (if e = s.core.epoch then some s else h.snapshots e) = _
    by_cases he : e = s.core.epoch
    · rw [if_pos he, he, hse, List.getElem?_append_right (Nat.le_refl _), Nat.sub_self]; rfl
    · rw [if_neg he, H.snaps]
      have hne : e.toNat ≠ L.length := fun h => he (UInt64.toNat_inj.mp (by rw [h, hse]))
      by_cases hlt : e.toNat < L.length
      · rw [List.getElem?_append_left hlt]
      · rw [List.getElem?_eq_none (by omega), List.getElem?_eq_none (by simp; omega)]
  · show _ = some s
    simp

theorem Hist.insertRange {C : Crypto} (r : List DirSTR) : ∀ {h : DirHistory} {L : List DirSTR}, Hist C h L →
    Chain C h.aud.signKey (h.aud.verified :: r) → L.length + r.length < 2 ^ 64 →
    ∃ h', h.insertRange (r.map some) = some h' ∧ Hist C h' (L ++ r) ∧ h'.aud.signKey = h.aud.signKey := by
  induction r with
  | nil => intro h L H _ _; exact ⟨h, rfl, by simpa using H, rfl⟩
  | cons s r ih =>
    intro h L H hc hsm
    obtain ⟨h1, h2⟩ := (chain_cons ..).mp hc
    simp only [List.length_cons] at hsm
    have H' := H.push s h1 (by omega)
    obtain ⟨h', e1, e2, e3⟩ := ih H' h2 (by simp; omega)
    exact ⟨h', e1, by simpa using e2, e3⟩

theorem newHistory_hist (C : Crypto) (addr pk : Bytes) (s : DirSTR) (he : s.core.epoch = 0) :
    Hist C (newDirectoryHistory addr pk s) [s] := by
  refine ⟨chain_single _ _ _, ?_, ?_, rfl, by simp⟩
  · intro j t ht
    cases j with
    | zero => simp at ht; subst ht; rw [he]; rfl
    | succ j => simp at ht
  · intro e
    show (if e = s.core.epoch then some s else none) = _
    rw [he]
    by_cases h : e = 0
    · subst h; rfl
    · rw [if_neg h]
      have : e.toNat ≠ 0 := fun h' => h (UInt64.toNat_inj.mp h')
      cases hn : e.toNat with
      | zero => exact absurd hn this
      | succ n => simp

/-- what one audit does to the history of a directory -/
theorem audit_hist {C : Crypto} {h h' : DirHistory} {L : List DirSTR} (H : Hist C h L) (msg : Response) (err : Option ErrorCode)
    (ha : h.audit C msg = some (h', err)) (n : Nat) (hn : ∀ strs, msg.resp = .history strs → strs.length ≤ n)
    (hsm : L.length + n < 2 ^ 64) :
    (err ≠ none ∧ h' = h) ∨
    (err = none ∧ ∃ ext, Hist C h' (L ++ ext) ∧ h'.aud.signKey = h.aud.signKey ∧ ext.length ≤ n ∧
      ∃ strs, msg.resp = .history strs ∧ ∀ x ∈ strs, ∃ s ∈ L ++ ext, x = some s) := by
  unfold DirHistory.audit at ha
  split at ha
  · nomatch ha
  · simp only [Option.some.injEq, Prod.mk.injEq] at ha
    left; exact ⟨by rw [← ha.2]; simp, ha.1.symm⟩
  · split at ha
    · next strs hr =>
      split at ha
      · nomatch ha
      · simp only [Option.some.injEq, Prod.mk.injEq] at ha
        left; exact ⟨by rw [← ha.2]; simp, ha.1.symm⟩
      · next hok =>
        right
        obtain ⟨l, hl, ⟨s, hs0, hs⟩, hc⟩ := (audit_ok C h.aud strs).mp hok
        have hlen := hn strs hr
        rw [hl, List.length_map] at hlen
        cases l with
        | nil => simp at hs0
        | cons y r =>
          simp only [List.getElem?_cons_zero, Option.some.injEq] at hs0
          subst hs0
          obtain ⟨h'', e1, e2⟩ := Option.map_eq_some_iff.mp ha
          simp only [Prod.mk.injEq] at e2
          obtain ⟨rfl, e3⟩ := e2
          refine ⟨e3.symm, ?_⟩
          simp only [List.length_cons] at hlen
          rcases hs with hs | hs
          · subst hs
            obtain ⟨h2, g1, g2, g3⟩ := Hist.insertRange r H hc (by omega)
            rw [hl, List.map_cons] at e1
            simp only [DirHistory.insertRange, H.same] at e1
            rw [g1] at e1; cases e1
            refine ⟨r, g2, g3, by omega, strs, hr, ?_⟩
            intro x hx
            rw [hl] at hx
            obtain ⟨z, hz, rfl⟩ := List.mem_map.mp hx
            rcases List.mem_cons.mp hz with rfl | hz
            · exact ⟨h.aud.verified, List.mem_append_left _ (List.mem_of_getElem? H.lastAt), rfl⟩
            · exact ⟨z, List.mem_append_right _ hz, rfl⟩
          · obtain ⟨h2, g1, g2, g3⟩ := Hist.insertRange (y :: r) H ((chain_cons ..).mpr ⟨hs, hc⟩) (by simp; omega)
            rw [hl] at e1
            rw [g1] at e1; cases e1
            refine ⟨y :: r, g2, g3, by simp; omega, strs, hr, ?_⟩
            intro x hx
            rw [hl] at hx
            obtain ⟨z, hz, rfl⟩ := List.mem_map.mp hx
            exact ⟨z, List.mem_append_right _ hz, rfl⟩
    · nomatch ha

theorem set_self (l : AuditLog) (id : Arr32) (h : DirHistory) (hl : l id = some h) : l.set id h = l := by
  funext x
  unfold AuditLog.set
  split
  · next e => rw [e, hl]
  · rfl

theorem epochRange_map (s t : UInt64) (L : List DirSTR) (hst : s.toNat ≤ t.toNat) (ht : t.toNat < L.length) :
    (epochRange s t).map (fun e => L[e.toNat]?) = ((L.drop s.toNat).take (t.toNat + 1 - s.toNat)).map some := by
  apply List.ext_getElem?
  intro i
  simp only [epochRange, List.map_map, List.getElem?_map]
  have tl := t.toNat_lt
  by_cases hi : i < t.toNat + 1 - s.toNat
  · rw [List.getElem?_range hi]
    simp only [Option.map_some, Function.comp]
    rw [UInt64.toNat_ofNat_of_lt' (by unfold UInt64.size; omega)]
    rw [List.getElem?_take, if_pos hi, List.getElem?_drop]
    rw [List.getElem?_eq_getElem (show s.toNat + i < L.length by omega)]; rfl
  · rw [List.getElem?_eq_none (by simpa using hi)]
    rw [List.getElem?_take, if_neg hi]; rfl

theorem Hist.reports {C : Crypto} {h : DirHistory} {L : List DirSTR} (H : Hist C h L) (l : AuditLog) (id : Arr32)
    (hl : l id = some h) : ReportsExactly l id L := by
  have hv := H.epochs _ _ H.lastAt
  have hpos := H.nonempty
  intro s t
  unfold AuditLog.getObservedSTRs
  simp only [hl]
  constructor
  · rintro ⟨h1, h2⟩
    rw [if_neg]
    · unfold newSTRHistoryRange
      have : h.snapshots = fun e => L[e.toNat]? := funext H.snaps
      rw [this, epochRange_map s t L h1 h2]
    · rintro (h3 | h3)
      · rw [gt_iff_lt, UInt64.lt_iff_toNat_lt] at h3; omega
      · rw [gt_iff_lt, UInt64.lt_iff_toNat_lt] at h3; omega
  · intro h1
    rw [if_pos]
    · rfl
    · by_cases h2 : t.toNat < s.toNat
      · right; rw [gt_iff_lt, UInt64.lt_iff_toNat_lt]; exact h2
      · left; rw [gt_iff_lt, UInt64.lt_iff_toNat_lt]; omega

/-- one call, seen from directory `id` -/
theorem logStep_hist {C : Crypto} {l l' : AuditLog} {id : Arr32} {h : DirHistory} {L : List DirSTR} (hl : l id = some h)
    (H : Hist C h L) (op : LogOp) (err : Option ErrorCode) (hs : logStep C l op = some (l', err))
    (hsm : L.length + strsFor id [op] < 2 ^ 64) :
    ∃ h' ext, l' id = some h' ∧ Hist C h' (L ++ ext) ∧ h'.aud.signKey = h.aud.signKey ∧ ext.length ≤ strsFor id [op] := by
  cases op with
  | init addr pk snaps =>
    refine ⟨h, [], ?_, by simpa using H, rfl, by simp⟩
    simp only [logStep, AuditLog.initHistory] at hs
    split at hs
    · simp only [Option.some.injEq, Prod.mk.injEq] at hs; rw [← hs.1]; exact hl
    · nomatch hs
    · split at hs
      · simp only [Option.some.injEq, Prod.mk.injEq] at hs; rw [← hs.1]; exact hl
      · split at hs
        · nomatch hs
        · next id' _ =>
          split at hs
          · simp only [Option.some.injEq, Prod.mk.injEq] at hs; rw [← hs.1]; exact hl
          · next hn =>
            split at hs
            · nomatch hs
            · simp only [Option.some.injEq, Prod.mk.injEq] at hs
              rw [← hs.1]
              have : id ≠ id' := by rintro rfl; rw [hl] at hn; nomatch hn
              simp only [AuditLog.set, if_neg this]; exact hl
  | audit id' msg =>
    simp only [logStep, AuditLog.audit] at hs
    by_cases hid : id' = id
    · subst hid
      simp only [hl] at hs
      obtain ⟨⟨h', e⟩, h1, h2⟩ := Option.map_eq_some_iff.mp hs
      simp only [Prod.mk.injEq] at h2
      have hn : ∀ strs, msg.resp = .history strs → strs.length ≤ strsFor id' [.audit id' msg] := by
        intro strs hr
        simp [strsFor, hr]
      rcases audit_hist H msg e h1 _ hn hsm with ⟨_, rfl⟩ | ⟨_, ext, g1, g2, g3, _⟩
      · refine ⟨h', [], ?_, by simpa using H, rfl, by simp⟩
        rw [← h2.1, set_self _ _ _ hl]; exact hl
      · refine ⟨h', ext, ?_, g1, g2, g3⟩
        rw [← h2.1]; simp [AuditLog.set]
    · refine ⟨h, [], ?_, by simpa using H, rfl, by simp⟩
      split at hs
      · simp only [Option.some.injEq, Prod.mk.injEq] at hs; rw [← hs.1]; exact hl
      · obtain ⟨x, h1, h2⟩ := Option.map_eq_some_iff.mp hs
        simp only [Prod.mk.injEq] at h2
        rw [← h2.1]
        have : id ≠ id' := fun h => hid h.symm
        simp only [AuditLog.set, if_neg this]; exact hl

theorem strsFor_cons (id : Arr32) (op : LogOp) (ops : List LogOp) : strsFor id (op :: ops) = strsFor id [op] + strsFor id ops := by
  cases op <;> simp [strsFor]

theorem logAfter_hist {C : Crypto} {id : Arr32} (ops : List LogOp) : ∀ {l l' : AuditLog} {h : DirHistory} {L : List DirSTR},
    l id = some h → Hist C h L → logAfter C l ops = some l' → L.length + strsFor id ops < 2 ^ 64 →
    ∃ h' ext, l' id = some h' ∧ Hist C h' (L ++ ext) ∧ h'.aud.signKey = h.aud.signKey ∧ ext.length ≤ strsFor id ops := by
  induction ops with
  | nil =>
    intro l l' h L hl H hr _
    cases hr
    exact ⟨h, [], hl, by simpa using H, rfl, by simp⟩
  | cons op ops ih =>
    intro l l' h L hl H hr hsm
    rw [strsFor_cons] at hsm
    obtain ⟨⟨l1, e⟩, h1, h2⟩ := Option.bind_eq_some_iff.mp hr
    obtain ⟨h', ext, g1, g2, g3, g4⟩ := logStep_hist hl H op e h1 (by omega)
    obtain ⟨h'', ext', k1, k2, k3, k4⟩ := ih g1 g2 h2 (by simp; omega)
    refine ⟨h'', ext ++ ext', k1, by simpa using k2, by rw [k3, g3], ?_⟩
    rw [strsFor_cons]; simp; omega

theorem initHistory_hist {C : Crypto} {l l' : AuditLog} {addr pk : Bytes} {s : DirSTR} {r : List DirSTR} (he : s.core.epoch = 0)
    (hc : Chain C pk (s :: r)) (hsm : r.length + 1 < 2 ^ 64)
    (hi : l.initHistory C addr pk ((s :: r).map some) = some (l', none)) :
    ∃ h, l' (dirId C s) = some h ∧ Hist C h (s :: r) ∧ h.aud.signKey = pk := by
  simp only [AuditLog.initHistory, List.map_cons, he, ne_eq, not_true, if_false, computeDirectoryIdentity] at hi
  have hid : (⟨C.digest [s.core.signature], C.hash_length _⟩ : Arr32) = dirId C s := by
    apply Subtype.ext; simp [dirId, Crypto.digest]
  rw [hid] at hi
  split at hi
  · simp at hi
  · obtain ⟨h', g1, g2, g3⟩ := Hist.insertRange r (newHistory_hist C addr pk s he) hc (by simp; omega)
    rw [g1] at hi
    simp only [Option.some.injEq, Prod.mk.injEq, and_true] at hi
    exact ⟨h', by rw [← hi]; simp [AuditLog.set], g2, g3⟩

end Coniks

import Verif.Proofs.Auditor
import Verif.Model.Client
import Verif.Props.Str
import Verif.Props.Directory
/-
C39, C40, C41: auditing a directory's STR history.
-/
namespace Coniks.Props
open Coniks Spec

/-! ### concrete chains used in the examples -/

/-- an STR of the toy directory with key [1], signed -/
def toySTR (epoch prev : UInt64) (th prevHash : Bytes) : DirSTR :=
  let core : STRCore := ⟨th, epoch, prev, prevHash, []⟩
  let pol := newPolicies 5 (toyHash [2])
  ⟨{ core with signature := Crypto.toy.sign [1] (core.serializeInternal ++ pol.serialize) }, some pol⟩

def toy0 : DirSTR := toySTR 0 0 (toyHash [7]) (toyHash [8])
def toy1 : DirSTR := toySTR 1 0 (toyHash [9]) (toyHash toy0.core.signature)
def toy2 : DirSTR := toySTR 2 1 (toyHash [9]) (toyHash toy1.core.signature)
def toyPK : Bytes := toyHash [1]

/-! ### C39 -/

/-- C39: a range is accepted iff all its elements are there and it continues the held STR: it starts with it or with a signed linked
successor, and every further element is the signed linked successor of the one before. -/
theorem C39_audit_accepts_iff (C : Crypto) (a : AudState) (strs : List (Option DirSTR)) :
    a.auditDirectory C strs = some none ↔ ∃ l : List DirSTR, strs = l.map some ∧ Continues C a.signKey a.verified l :=
  audit_ok C a strs

/-- C39: the other results. A range whose first element is there and whose elements carry policies gets an error code, not a crash. -/
theorem C39_audit_rejects (C : Crypto) (a : AudState) (strs : List (Option DirSTR)) (h0 : strs[0]? ≠ some none)
    (hp : ∀ t, some t ∈ strs → t.policies ≠ none)
    (hbad : ¬ ∃ l : List DirSTR, strs = l.map some ∧ Continues C a.signKey a.verified l) :
    ∃ e, a.auditDirectory C strs = some (some e) ∧ (e = ErrMalformedMessage ∨ e = CheckBadSTR ∨ e = CheckBadSignature) := by
  have hne : a.auditDirectory C strs ≠ some none := fun h => hbad ((audit_ok C a strs).mp h)
  cases strs with
  | nil => exact ⟨_, rfl, .inl rfl⟩
  | cons x rest =>
    cases x with
    | none => exact absurd rfl h0
    | some s =>
      simp only [AudState.auditDirectory] at hne ⊢
      obtain ⟨r, h1, h2⟩ := check_total C a s (hp s (List.mem_cons_self ..))
      rw [h1] at hne ⊢
      rcases h2 with rfl | rfl | rfl
      · obtain ⟨r, h3, h4⟩ := range_total C a rest s (fun t ht => hp t (List.mem_cons_of_mem _ ht))
        simp only at hne ⊢
        split at hne
        · next hl =>
          rw [if_pos hl, h3]
          rw [h3] at hne
          rcases h4 with rfl | rfl | rfl | rfl
          · exact absurd rfl hne
          · exact ⟨_, rfl, .inl rfl⟩
          · exact ⟨_, rfl, .inr (.inl rfl)⟩
          · exact ⟨_, rfl, .inr (.inr rfl)⟩
        · exact absurd rfl hne
      · exact ⟨_, rfl, .inr (.inl rfl)⟩
      · exact ⟨_, rfl, .inr (.inr rfl)⟩

/-- an auditor at epoch 0 is shown epoch 2 alone -/
example : ∃ e, (newAudState [1] ⟨⟨[], 0, 0, [], []⟩, some default⟩).auditDirectory Crypto.toy [some ⟨⟨[], 2, 1, [], []⟩, some default⟩] = some (some e) := by
  obtain ⟨e, h, _⟩ := C39_audit_rejects Crypto.toy (newAudState [1] ⟨⟨[], 0, 0, [], []⟩, some default⟩) [some ⟨⟨[], 2, 1, [], []⟩, some default⟩]
    (fun e => nomatch e) (by intro t ht; simp only [List.mem_cons, Option.some.injEq, List.not_mem_nil, or_false] at ht; rw [ht]; exact fun e => nomatch e)
    (by
      intro ⟨l, hl, hc⟩
      have : (newAudState [1] ⟨⟨[], 0, 0, [], []⟩, some default⟩).auditDirectory Crypto.toy [some ⟨⟨[], 2, 1, [], []⟩, some default⟩] = some none :=
        (C39_audit_accepts_iff Crypto.toy _ _).mpr ⟨l, hl, hc⟩
      exact absurd this (by decide +kernel))
  exact ⟨e, h⟩

/-- C39, honest directories pass: whatever range of its history a directory reports, an auditor that holds the STR of the first
reported epoch or of the one before accepts it. -/
theorem C39_honest_history_accepted (C : Crypto) (t0 : UInt64) (sk vk : Bytes) (size : Nat) (r₁ r₂ : Bytes) (ops : List DirOp)
    (hlt : dirUpdates ops < 2 ^ 64) (d : Directory) (log : List STR) (h : dirAfter C t0 sk vk size r₁ r₂ ops = some (d, log))
    (s t : UInt64) (hs : s.toNat ≤ dirUpdates ops) (hst : s.toNat ≤ t.toNat) (hg : d.pad.getSTR s ≠ none)
    (a : AudState) (hk : a.signKey = C.signPub sk)
    (ha : log[s.toNat]?.map STR.toDir = some a.verified ∨ 0 < s.toNat ∧ log[s.toNat - 1]?.map STR.toDir = some a.verified) :
    ∃ strs, d.getSTRHistory ⟨s, t⟩ = some ⟨ReqSuccess, .history strs⟩ ∧ a.auditDirectory C strs = some none := by
  obtain ⟨_, h2, _⟩ := C30_history C t0 sk vk size r₁ r₂ ops hlt d log h s t
  obtain ⟨strs, e1, e2, e3, e4⟩ := h2 hs hst hg
  obtain ⟨inv, hl, hsk, _⟩ := dirAfter_padInv C t0 sk vk size r₁ r₂ ops hlt d log h
  refine ⟨_, e1, ?_⟩
  rw [C39_audit_accepts_iff]
  have hpos : 0 < strs.length := by omega
  have h0 : strs[0]? = some strs[0] := List.getElem?_eq_getElem hpos
  obtain ⟨e5, e6⟩ := e4 0 _ h0
  rw [Nat.add_zero] at e6
  refine ⟨strs, rfl, ⟨strs[0], h0, ?_⟩, ?_⟩
  · rcases ha with ha | ⟨hp, ha⟩
    · left
      rw [e6] at ha; exact Option.some.inj ha
    · right
      have hc := chained_part inv (s.toNat - 1) 2
      have g1 : (((log.drop (s.toNat - 1)).take 2).map STR.toDir)[0]? = some a.verified := by
        rw [List.getElem?_map, List.getElem?_take, if_pos (by omega), List.getElem?_drop, Nat.add_zero]; exact ha
      have g2 : (((log.drop (s.toNat - 1)).take 2).map STR.toDir)[1]? = some strs[0] := by
        rw [List.getElem?_map, List.getElem?_take, if_pos (by omega), List.getElem?_drop,
          show s.toNat - 1 + 1 = s.toNat by omega]
        exact e6
      refine ⟨?_, (verifyHashChain_iff C _ _).mp (hc.2 0 _ _ g1 g2)⟩
      rw [hk]
      exact e3.1 _ (List.getElem_mem hpos)
  · intro j x y hx hy
    rw [hk]
    exact ⟨e3.1 _ (List.mem_of_getElem? hy), (verifyHashChain_iff C _ _).mp (e3.2 j x y hx hy)⟩

theorem toy_chain : Chain Crypto.toy toyPK [toy0, toy1, toy2] := by
  refine (chain_cons ..).mpr ⟨⟨⟨_, rfl, by decide +kernel⟩, ⟨by decide, by decide, by decide +kernel⟩⟩,
    (chain_cons ..).mpr ⟨⟨⟨_, rfl, by decide +kernel⟩, ⟨by decide, by decide, by decide +kernel⟩⟩, chain_single _ _ _⟩⟩

/-- an auditor at epoch 0 accepts epochs 0..2 and 1..2, and refuses 2 alone and a range with a gap -/
example : (newAudState toyPK toy0).auditDirectory Crypto.toy [some toy0, some toy1, some toy2] = some none ∧
    (newAudState toyPK toy0).auditDirectory Crypto.toy [some toy1, some toy2] = some none ∧
    (newAudState toyPK toy0).auditDirectory Crypto.toy [some toy2] = some (some CheckBadSTR) ∧
    (newAudState toyPK toy0).auditDirectory Crypto.toy [some toy0, some toy2] = some (some CheckBadSTR) := by decide +kernel

/-! ### C40 -/

theorem getLast_map_some (l : List DirSTR) (h : l.map some ≠ []) (h' : l ≠ []) : (l.map some).getLast h = some (l.getLast h') :=
  List.getLast_map h

/-- C40: `CheckEquivocation` returns nil exactly for a hash chain that ends in the client's STR or in a signed linked successor of it
(and without an error code). -/
theorem C40_accepts_iff (C : Crypto) (cc : Client) (msg : Response) :
    cc.checkEquivocation C msg = some none ↔
      errorsSet msg.error = false ∧ ∃ (l : List DirSTR) (last : DirSTR), msg.resp = .history (l.map some) ∧ l.getLast? = some last ∧
        Chain C cc.aud.signKey l ∧ (last = cc.aud.verified ∨ Successor C cc.aud.signKey cc.aud.verified last) := by
  unfold Client.checkEquivocation Response.validate
  by_cases he : errorsSet msg.error = true
  · simp [he]
  rw [if_neg he]
  have he' : errorsSet msg.error = false := by simpa using he
  simp only [he', true_and]
  cases hr : msg.resp with
  | none => simp
  | nilProof => simp
  | nilHistory => simp
  | other => simp
  | proof p =>
    simp only
    constructor
    · intro h
      split at h <;> simp at h
    · rintro ⟨l, last, h, _⟩; nomatch h
  | history strs =>
    cases strs with
    | nil =>
      simp only [List.length_nil, if_true]
      refine ⟨fun h => (by simp at h), ?_⟩
      rintro ⟨l, last, h, h2, _⟩
      cases l <;> simp_all
    | cons s rest =>
      simp only [List.length_cons, Nat.add_one_ne_zero, if_false]
      have e : (if rest.length > 0 then cc.aud.verifySTRRange C s rest else some none) =
          (if rest = [] then some none else cc.aud.verifySTRRange C s rest) := by cases rest <;> simp
      rw [e]
      -- the range check
      have hrange : ∀ r, (if rest = [] then some none else cc.aud.verifySTRRange C s rest) = r →
          (r = some none ↔ rest = [] ∨ ∃ s' r', s = some s' ∧ rest = r'.map some ∧ Chain C cc.aud.signKey (s' :: r')) := by
        rintro r rfl
        cases rest with
        | nil => simp
        | cons x xs =>
          simp only [List.cons_ne_nil, if_false, reduceCtorEq, false_or]
          cases s with
          | some s' =>
            rw [range_ok]
            constructor
            · rintro ⟨r, h1, h2⟩; exact ⟨s', r, rfl, h1, h2⟩
            · rintro ⟨s'', r, h0, h1, h2⟩; cases h0; exact ⟨r, h1, h2⟩
          | none =>
            cases x with
            | none =>
              simp only [AudState.verifySTRRange]
              refine ⟨fun h => (nomatch h), ?_⟩
              rintro ⟨_, _, h, _⟩; nomatch h
            | some t =>
              simp only [AudState.verifySTRRange]
              have := consistency_ok C cc.aud none t
              constructor
              · intro h
                cases hc : cc.aud.verifySTRConsistency C none t with
                | none => rw [hc] at h; nomatch h
                | some o =>
                  cases o with
                  | some e => rw [hc] at h; simp at h
                  | none =>
                    obtain ⟨q, hq, _⟩ := this.mp hc
                    nomatch hq
              · rintro ⟨_, _, h, _⟩; nomatch h
      generalize hG : (if rest = [] then some none else cc.aud.verifySTRRange C s rest) = G
      have hG' := hrange G hG
      have back : (∃ l last, DirectoryResponse.history (s :: rest) = .history (l.map some) ∧ l.getLast? = some last ∧
          Chain C cc.aud.signKey l ∧ (last = cc.aud.verified ∨ Successor C cc.aud.signKey cc.aud.verified last)) →
          G = some none ∧ cc.aud.checkSTRAgainstVerified C ((s :: rest).getLast (by simp)) = some none := by
        rintro ⟨l, last, h1, h2, h3, h4⟩
        simp only [DirectoryResponse.history.injEq] at h1
        have hne : l ≠ [] := by rintro rfl; simp at h1
        refine ⟨hG'.mpr ?_, ?_⟩
        · cases l with
          | nil => exact absurd rfl hne
          | cons y ys =>
            simp only [List.map_cons, List.cons.injEq] at h1
            exact .inr ⟨y, ys, h1.1, h1.2, h3⟩
        · rw [check_ok]
          refine ⟨last, ?_, h4⟩
          simp only [h1]
          rw [getLast_map_some l _ hne]
          rw [List.getLast?_eq_some_getLast hne] at h2
          exact h2
      constructor
      · intro h
        cases G with
        | none => simp at h
        | some o =>
          cases o with
          | some e => simp at h
          | none =>
            simp only at h
            obtain ⟨last, h1, h2⟩ := (check_ok C cc.aud _).mp h
            rcases hG'.mp rfl with h3 | ⟨s', r', h3, h4, h5⟩
            · subst h3
              simp only [List.getLast_singleton] at h1
              subst h1
              exact ⟨[last], last, rfl, rfl, chain_single _ _ _, h2⟩
            · subst h3; subst h4
              refine ⟨s' :: r', last, rfl, ?_, h5, h2⟩
              have := getLast_map_some (s' :: r') (by simp) (by simp)
              simp only [List.map_cons] at this
              rw [this] at h1
              rw [List.getLast?_eq_some_getLast (by simp)]
              exact h1
      · intro h
        obtain ⟨h1, h2⟩ := back h
        rw [h1]
        exact h2

/-- epochs along a chain -/
theorem chain_epoch {C : Crypto} {pk : Bytes} {l : List DirSTR} (h : Chain C pk l) (j : Nat) :
    ∀ k a b, l[j]? = some a → l[j + k]? = some b → b.core.epoch = a.core.epoch + UInt64.ofNat k := by
  intro k
  induction k with
  | zero =>
    intro a b h1 h2
    rw [Nat.add_zero, h1] at h2
    cases h2
    exact (UInt64.add_zero _).symm
  | succ k ih =>
    intro a b h1 h2
    have hlt : j + k < l.length := by
      have := (List.getElem?_eq_some_iff.mp h2).1; omega
    have h3 : l[j + k]? = some l[j + k] := List.getElem?_eq_getElem hlt
    have h4 := (h (j + k) _ _ h3 h2).2.epoch
    rw [ih a _ h1 h3] at h4
    rw [h4, UInt64.ofNat_add, UInt64.add_assoc]; rfl

/-- C40, PARTIAL. The full claim: no accepted range contains an STR of the client's epoch other than the client's own. Proved: such an
STR can only be the last but one of an accepted range, its signature then hashes to the same value as the client's, and when it is not
the very first element it is itself signed. What is missing is shown false by `C40_unsigned_first_counterexample`. -/
theorem C40_equivocation_detected_partial (C : Crypto) (cc : Client) (msg : Response) (l : List DirSTR)
    (hl : msg.resp = .history (l.map some)) (hlen : l.length < 2 ^ 64) (j : Nat) (r : DirSTR) (hr : l[j]? = some r)
    (he : r.core.epoch = cc.aud.verified.core.epoch) (hdiff : r ≠ cc.aud.verified) (hok : cc.checkEquivocation C msg = some none) :
    j + 2 = l.length ∧ C.hash r.core.signature = C.hash cc.aud.verified.core.signature ∧ (0 < j → Signed C cc.aud.signKey r) := by
  obtain ⟨_, l', last, h1, h2, h3, h4⟩ := (C40_accepts_iff C cc msg).mp hok
  rw [hl] at h1
  simp only [DirectoryResponse.history.injEq] at h1
  have : l = l' := (List.map_inj_right (fun _ _ h => Option.some.inj h)).mp h1
  subst this
  have hj := (List.getElem?_eq_some_iff.mp hr).1
  have hlast : l[l.length - 1]? = some last := by rw [List.getLast?_eq_getElem?] at h2; exact h2
  have hep := chain_epoch h3 j (l.length - 1 - j) r last hr (by rw [show j + (l.length - 1 - j) = l.length - 1 by omega]; exact hlast)
  have hk : UInt64.ofNat (l.length - 1 - j) = 1 := by
    rcases h4 with h4 | h4
    · -- then the last STR is in the client's epoch, so it is `r`
      subst h4
      rw [← he] at hep
      have e0 : UInt64.ofNat (l.length - 1 - j) = 0 := by
        have := congrArg (fun x => x - r.core.epoch) hep
        simp only [UInt64.sub_self] at this
        rw [UInt64.add_comm, UInt64.add_sub_cancel] at this
        exact this.symm
      have e1 := congrArg UInt64.toNat e0
      rw [UInt64.toNat_ofNat_of_lt' (by unfold UInt64.size; omega)] at e1
      have e2 : l.length - 1 - j = 0 := e1
      have e3 : l.length - 1 = j := by omega
      rw [e3, hr] at hlast
      exact absurd (Option.some.inj hlast) hdiff
    · have := h4.2.epoch
      rw [hep, he] at this
      rw [UInt64.add_comm, UInt64.add_comm _ 1] at this
      exact (UInt64.add_left_inj _).mp this
  have hk' := congrArg UInt64.toNat hk
  rw [UInt64.toNat_ofNat_of_lt' (by unfold UInt64.size; omega)] at hk'
  have hk2 : l.length - 1 - j = 1 := hk'
  have hnext : l[j + 1]? = some last := by rw [show j + 1 = l.length - 1 by omega]; exact hlast
  have hs := (h3 j r last hr hnext).2.hash
  refine ⟨by omega, ?_, ?_⟩
  · rcases h4 with h4 | h4
    · have : last.core.epoch = r.core.epoch + 1 := (h3 j r last hr hnext).2.epoch
      rw [h4, he] at this
      exact absurd this.symm (uint64_succ_ne _)
    · rw [← hs, h4.2.hash]
  · intro hj0
    have hp : l[j - 1]? = some l[j - 1] := List.getElem?_eq_getElem (by omega)
    exact (h3 (j - 1) _ r hp (by rw [show j - 1 + 1 = j by omega]; exact hr)).1

/-- No signature is valid for two STRs of the list that differ in what is signed. -/
def SigBinding (C : Crypto) (pk : Bytes) (l : List DirSTR) : Prop :=
  ∀ a ∈ l, ∀ b ∈ l, a.core.signature = b.core.signature → Signed C pk a → Signed C pk b → a.serialize = b.serialize

/-- C40: hence, when the hash does not collide on the two signatures and one signature does not fit both STRs unless they have the same content, an accepted range that
gives the client's epoch at a position other than the first gives the same signed content. -/
theorem C40_same_content (C : Crypto) (cc : Client) (msg : Response) (l : List DirSTR)
    (hl : msg.resp = .history (l.map some)) (hlen : l.length < 2 ^ 64) (j : Nat) (hj : 0 < j) (r : DirSTR) (hr : l[j]? = some r)
    (he : r.core.epoch = cc.aud.verified.core.epoch) (hok : cc.checkEquivocation C msg = some none)
    (held : Signed C cc.aud.signKey cc.aud.verified)
    (nc : NoCollision C.hash [r.core.signature, cc.aud.verified.core.signature])
    (bind : SigBinding C cc.aud.signKey [r, cc.aud.verified]) :
    r.core.signature = cc.aud.verified.core.signature ∧ r.serialize = cc.aud.verified.serialize := by
  by_cases hd : r = cc.aud.verified
  · subst hd; exact ⟨rfl, rfl⟩
  obtain ⟨_, h2, h3⟩ := C40_equivocation_detected_partial C cc msg l hl hlen j r hr he hd hok
  have hs : r.core.signature = cc.aud.verified.core.signature := nc _ (by simp) _ (by simp) h2
  exact ⟨hs, bind r (by simp) _ (by simp) hs (h3 hj) held⟩

/-- C40: a report that ends in the client's epoch with another STR is never accepted. -/
theorem C40_latest_differs (C : Crypto) (cc : Client) (msg : Response) (l : List DirSTR) (last : DirSTR)
    (hl : msg.resp = .history (l.map some)) (hlast : l.getLast? = some last)
    (he : last.core.epoch = cc.aud.verified.core.epoch) (hd : last ≠ cc.aud.verified) :
    cc.checkEquivocation C msg ≠ some none := by
  intro h
  obtain ⟨_, l', last', h1, h2, _, h4⟩ := (C40_accepts_iff C cc msg).mp h
  rw [hl] at h1
  simp only [DirectoryResponse.history.injEq] at h1
  have : l = l' := (List.map_inj_right (fun _ _ h => Option.some.inj h)).mp h1
  subst this
  rw [hlast] at h2; cases h2
  rcases h4 with h4 | h4
  · exact hd h4
  · have := h4.2.epoch
    rw [he] at this
    exact absurd this.symm (uint64_succ_ne _)

/-- the hypotheses of `C40_equivocation_detected_partial` are met: a client at epoch 1 is shown an STR of epoch 1 with another tree hash and the
same signature, followed by epoch 2; and one that ends in another STR of epoch 1 is refused -/
example : let cc : Client := ⟨newAudState toyPK toy1, fun _ => none, true, fun _ => none⟩
    let other : DirSTR := ⟨{ toy1.core with treeHash := [7] }, toy1.policies⟩
    (other ≠ toy1 ∧ other.core.epoch = cc.aud.verified.core.epoch ∧
      cc.checkEquivocation Crypto.toy ⟨ReqSuccess, .history ([other, toy2].map some)⟩ = some none) ∧
    cc.checkEquivocation Crypto.toy ⟨ReqSuccess, .history ([toy0, other].map some)⟩ ≠ some none := by
  intro cc other
  refine ⟨⟨by decide +kernel, rfl, by decide +kernel⟩, C40_latest_differs Crypto.toy cc _ [toy0, other] other rfl rfl rfl (by decide +kernel)⟩

/-- C40 is false as stated: the first STR of a range is not checked against its own signature, so a report with another tree hash (any
other!) for the client's epoch, followed by the true next STR, is accepted. Holds for every scheme, client and successor. -/
theorem C40_unsigned_first_counterexample (C : Crypto) (cc : Client) (s : DirSTR) (hs : Successor C cc.aud.signKey cc.aud.verified s)
    (th : Bytes) (hth : th ≠ cc.aud.verified.core.treeHash) :
    let forged : DirSTR := ⟨{ cc.aud.verified.core with treeHash := th }, cc.aud.verified.policies⟩
    forged.core.epoch = cc.aud.verified.core.epoch ∧ forged.core.treeHash ≠ cc.aud.verified.core.treeHash ∧
    cc.checkEquivocation C ⟨ReqSuccess, .history [some forged, some s]⟩ = some none := by
  intro forged
  refine ⟨rfl, hth, ?_⟩
  rw [C40_accepts_iff]
  refine ⟨rfl, [forged, s], s, rfl, rfl, (chain_cons ..).mpr ⟨⟨hs.1, ⟨hs.2.epoch, hs.2.previousEpoch, hs.2.hash⟩⟩, chain_single _ _ _⟩, .inr hs⟩

/-- the hypotheses of the theorems above are met: a client at epoch 1 -/
example : let cc : Client := ⟨newAudState toyPK toy1, fun _ => none, true, fun _ => none⟩
    cc.checkEquivocation Crypto.toy ⟨ReqSuccess, .history [some toy0, some toy1, some toy2]⟩ = some none ∧
    cc.checkEquivocation Crypto.toy ⟨ReqSuccess, .history [some toy0, some toy1]⟩ = some none ∧
    cc.checkEquivocation Crypto.toy ⟨ReqSuccess, .history [some (toySTR 1 0 [1] (toyHash toy0.core.signature))]⟩ = some (some CheckBadSTR) ∧
    NoCollision Crypto.toy.hash [toy1.core.signature, toy2.core.signature] ∧ Signed Crypto.toy toyPK toy1 ∧
    SigBinding Crypto.toy toyPK [toy1, toy1] := by
  intro cc
  refine ⟨by decide +kernel, by decide +kernel, by decide +kernel, by unfold NoCollision; decide +kernel,
    ⟨_, rfl, Crypto.toy.verify_sign [1] _⟩, ?_⟩
  intro a ha b hb _ _ _
  have ha : a = toy1 := by simpa using ha
  have hb : b = toy1 := by simpa using hb
  rw [ha, hb]

/-! ### C41 -/

/-- C41, one step: two STRs with the same content have predecessors with the same signature and epoch, unless the hash collides on
these two signatures. -/
theorem C41_one_step (C : Crypto) (pk₁ pk₂ : Bytes) (a b s : DirSTR) (h₁ : Successor C pk₁ a s) (h₂ : Successor C pk₂ b s)
    (nc : NoCollision C.hash [a.core.signature, b.core.signature]) :
    a.core.signature = b.core.signature ∧ a.core.epoch = b.core.epoch := by
  refine ⟨nc _ (by simp) _ (by simp) (by rw [← h₁.2.hash, h₂.2.hash]), by rw [← h₁.2.previousEpoch, h₂.2.previousEpoch]⟩

example : toy0.core.signature = toy0.core.signature ∧ toy0.core.epoch = toy0.core.epoch :=
  C41_one_step Crypto.toy toyPK toyPK toy0 toy0 toy1 ((chain_cons ..).mp toy_chain).1 ((chain_cons ..).mp toy_chain).1
    (by unfold NoCollision; decide +kernel)

/-- The field lengths of the STRs this code issues. -/
structure Regular (s : DirSTR) : Prop where
  treeHash : s.core.treeHash.length = 32
  previousSTRHash : s.core.previousSTRHash.length = 32
  policies : ∃ p, s.policies = some p ∧ p.version.length = versionString.length ∧ p.hashID.length = hashIDString.length

/-- same content: everything that is signed, and the signature -/
structure SameSTR (a b : DirSTR) : Prop where
  signature : a.core.signature = b.core.signature
  epoch : a.core.epoch = b.core.epoch
  previousEpoch : a.core.epoch > 0 → a.core.previousEpoch = b.core.previousEpoch
  treeHash : a.core.treeHash = b.core.treeHash
  previousSTRHash : a.core.previousSTRHash = b.core.previousSTRHash
  policies : a.policies = b.policies

/-- C41, PARTIAL: two chains with a common STR have the same STRs at all earlier epochs both cover. Beyond the property's wording it
needs that every STR has the regular field lengths; `C41_ambiguous_parse_counterexample` shows it is false without. -/
theorem C41_same_past_partial (C : Crypto) (pk : Bytes) (l₁ l₂ : List DirSTR) (c₁ : Chain C pk l₁) (c₂ : Chain C pk l₂)
    (sg : ∀ s ∈ l₁ ++ l₂, Signed C pk s) (reg : ∀ s ∈ l₁ ++ l₂, Regular s)
    (nc : NoCollision C.hash ((l₁ ++ l₂).map fun s => s.core.signature)) (bind : SigBinding C pk (l₁ ++ l₂))
    (i j : Nat) (s : DirSTR) (hi : l₁[i]? = some s) (hj : l₂[j]? = some s) :
    ∀ k a b, k ≤ i → k ≤ j → l₁[i - k]? = some a → l₂[j - k]? = some b → SameSTR a b := by
  intro k
  induction k with
  | zero =>
    intro a b _ _ ha hb
    rw [Nat.sub_zero] at ha hb
    rw [hi] at ha; rw [hj] at hb; cases ha; cases hb
    exact ⟨rfl, rfl, fun _ => rfl, rfl, rfl, rfl⟩
  | succ k ih =>
    intro a b hki hkj ha hb
    have lt1 := (List.getElem?_eq_some_iff.mp hi).1
    have lt2 := (List.getElem?_eq_some_iff.mp hj).1
    have ha' : l₁[i - k]? = some l₁[i - k] := List.getElem?_eq_getElem (by omega)
    have hb' : l₂[j - k]? = some l₂[j - k] := List.getElem?_eq_getElem (by omega)
    have same := ih _ _ (by omega) (by omega) ha' hb'
    have s1 := (c₁ (i - (k + 1)) a _ ha (by rw [show i - (k + 1) + 1 = i - k by omega]; exact ha')).2
    have s2 := (c₂ (j - (k + 1)) b _ hb (by rw [show j - (k + 1) + 1 = j - k by omega]; exact hb')).2
    have ma : a ∈ l₁ ++ l₂ := List.mem_append_left _ (List.mem_of_getElem? ha)
    have mb : b ∈ l₁ ++ l₂ := List.mem_append_right _ (List.mem_of_getElem? hb)
    have hsig : a.core.signature = b.core.signature :=
      nc _ (List.mem_map.mpr ⟨a, ma, rfl⟩) _ (List.mem_map.mpr ⟨b, mb, rfl⟩) (by rw [← s1.hash, ← s2.hash, same.previousSTRHash])
    have hser : a.serialize = b.serialize := bind a ma b mb hsig (sg a ma) (sg b mb)
    obtain ⟨pa, hpa, va, ia⟩ := (reg a ma).policies
    obtain ⟨pb, hpb, vb, ib⟩ := (reg b mb).policies
    obtain ⟨e1, e2, e3, e4, e5⟩ := C05_serialize_injective_regular a b pa pb hpa hpb (reg a ma).treeHash (reg b mb).treeHash
      (reg a ma).previousSTRHash (reg b mb).previousSTRHash (by rw [va, vb]) (by rw [ia, ib]) hser
    exact ⟨hsig, e1, e2, e3, e4, by rw [hpa, hpb, e5]⟩

/-- C41, client and auditor: if a client that went through the STRs `mine` accepts (`CheckEquivocation`) the auditor's range `l`, then
the range agrees with `mine` on all epochs both cover. -/
theorem C41_client_and_auditor_partial (C : Crypto) (cc : Client) (mine l : List DirSTR) (code : ErrorCode)
    (hmine : Chain C cc.aud.signKey mine) (hlast : mine.getLast? = some cc.aud.verified)
    (hok : cc.checkEquivocation C ⟨code, .history (l.map some)⟩ = some none)
    (sg : ∀ s ∈ mine ++ l, Signed C cc.aud.signKey s) (reg : ∀ s ∈ mine ++ l, Regular s)
    (nc : NoCollision C.hash ((mine ++ l).map fun s => s.core.signature)) (bind : SigBinding C cc.aud.signKey (mine ++ l)) :
    ∃ shift : Nat, shift ≤ 1 ∧ ∀ k a b, l[l.length - 1 - shift - k]? = some a → mine[mine.length - 1 - k]? = some b →
      k ≤ mine.length - 1 → shift + k ≤ l.length - 1 → SameSTR a b := by
  obtain ⟨_, l', last, h1, h2, h3, h4⟩ := (C40_accepts_iff C cc _).mp hok
  simp only [DirectoryResponse.history.injEq] at h1
  have : l = l' := (List.map_inj_right (fun _ _ h => Option.some.inj h)).mp h1
  subst this
  have hl0 : l ≠ [] := by rintro rfl; simp at h2
  have hm0 : mine ≠ [] := by rintro rfl; simp at hlast
  have pl := List.length_pos_iff.mpr hl0
  have pm := List.length_pos_iff.mpr hm0
  have lastl : l[l.length - 1]? = some last := by rw [List.getLast?_eq_getElem?] at h2; exact h2
  have lastm : mine[mine.length - 1]? = some cc.aud.verified := by rw [List.getLast?_eq_getElem?] at hlast; exact hlast
  rcases h4 with h4 | h4
  · subst h4
    refine ⟨0, by omega, ?_⟩
    intro k a b ha hb h5 h6
    have := C41_same_past_partial C cc.aud.signKey l mine h3 hmine
      (fun s hs => sg s (by rcases List.mem_append.mp hs with h | h <;> simp [h]))
      (fun s hs => reg s (by rcases List.mem_append.mp hs with h | h <;> simp [h]))
      (by
        intro x hx y hy e
        refine nc x ?_ y ?_ e
        · simp only [List.map_append, List.mem_append] at hx ⊢; exact hx.symm
        · simp only [List.map_append, List.mem_append] at hy ⊢; exact hy.symm)
      (fun a ha b hb => bind a (by rcases List.mem_append.mp ha with h | h <;> simp [h]) b
        (by rcases List.mem_append.mp hb with h | h <;> simp [h]))
      (l.length - 1) (mine.length - 1) cc.aud.verified lastl lastm k a b (by omega) (by omega)
      (by rw [Nat.sub_zero] at ha; exact ha) hb
    exact this
  · -- extend the client's chain by the reported successor
    refine ⟨1, by omega, ?_⟩
    intro k a b ha hb h5 h6
    have hlm : last ∈ l := List.mem_of_getElem? lastl
    have hmine' : Chain C cc.aud.signKey (mine ++ [last]) := by
      intro q x y hx hy
      by_cases hq : q + 1 < mine.length
      · rw [List.getElem?_append_left hq] at hy
        rw [List.getElem?_append_left (by omega)] at hx
        exact hmine q x y hx hy
      · have hq2 : q + 1 < (mine ++ [last]).length := (List.getElem?_eq_some_iff.mp hy).1
        simp only [List.length_append, List.length_singleton] at hq2
        have hq3 : q = mine.length - 1 := by omega
        rw [List.getElem?_append_left (by omega), hq3, lastm] at hx
        cases hx
        rw [List.getElem?_append_right (by omega), show q + 1 - mine.length = 0 by omega] at hy
        simp only [List.getElem?_cons_zero, Option.some.injEq] at hy
        subst hy
        exact h4
    have mem : ∀ s, s ∈ l ++ (mine ++ [last]) → s ∈ mine ++ l := by
      intro s hs
      simp only [List.mem_append, List.mem_singleton] at hs ⊢
      rcases hs with h | h | rfl
      · exact .inr h
      · exact .inl h
      · exact .inr hlm
    have := C41_same_past_partial C cc.aud.signKey l (mine ++ [last]) h3 hmine'
      (fun s hs => sg s (mem s hs)) (fun s hs => reg s (mem s hs))
      (by
        intro x hx y hy e
        obtain ⟨sx, hx1, rfl⟩ := List.mem_map.mp hx
        obtain ⟨sy, hy1, rfl⟩ := List.mem_map.mp hy
        exact nc _ (List.mem_map.mpr ⟨sx, mem _ hx1, rfl⟩) _ (List.mem_map.mpr ⟨sy, mem _ hy1, rfl⟩) e)
      (fun a ha b hb => bind a (mem a ha) b (mem b hb))
      (l.length - 1) mine.length last lastl (by simp) (k + 1) a b (by omega) (by omega)
      (by rw [← ha]; congr 1; omega)
      (by rw [List.getElem?_append_left (by omega), ← hb]; congr 1; omega)
    exact this

/-- C41 is false without the length condition, for every scheme: a directory can prepare one signature under two readings that name
different predecessors (the protocol version string of one holds the previous hash of the other). Both chains are valid and end in the
same STR `s2`, with `a` and `b` arbitrary. -/
theorem C41_ambiguous_parse_counterexample (C : Crypto) (sk : Bytes) (a b : DirSTR) (he : a.core.epoch = b.core.epoch)
    (th th2 v h vk : Bytes) (t : UInt64) :
    ∃ s1 t1 s2 : DirSTR, s1.core.signature = t1.core.signature ∧ s1.serialize = t1.serialize ∧ s1 ≠ t1 ∧
      Chain C (C.signPub sk) [a, s1, s2] ∧ Chain C (C.signPub sk) [b, t1, s2] := by
  let e := a.core.epoch
  let c1 : STRCore := ⟨th, e + 1, e, C.hash a.core.signature, []⟩
  let c2 : STRCore := ⟨th ++ C.hash a.core.signature, e + 1, e, C.hash b.core.signature, []⟩
  let p1 : Policies := ⟨C.hash b.core.signature ++ v, h, vk, t⟩
  let p2 : Policies := ⟨v, h, vk, t⟩
  have hser : c1.serializeInternal ++ p1.serialize = c2.serializeInternal ++ p2.serialize := by
    simp [c1, c2, p1, p2, STRCore.serializeInternal, Policies.serialize]
  let sig := C.sign sk (c1.serializeInternal ++ p1.serialize)
  let s1 : DirSTR := ⟨{ c1 with signature := sig }, some p1⟩
  let t1 : DirSTR := ⟨{ c2 with signature := sig }, some p2⟩
  let c3 : STRCore := ⟨th2, e + 1 + 1, e + 1, C.hash sig, []⟩
  let s2 : DirSTR := ⟨{ c3 with signature := C.sign sk (c3.serializeInternal ++ p2.serialize) }, some p2⟩
  have g1 : Successor C (C.signPub sk) a s1 := ⟨⟨_, rfl, C.verify_sign _ _⟩, ⟨rfl, rfl, rfl⟩⟩
  have g2 : Successor C (C.signPub sk) b t1 := by
    refine ⟨⟨_, rfl, ?_⟩, ⟨by show e + 1 = _; rw [← he], by show e = _; rw [← he], rfl⟩⟩
    show C.verify _ (c2.serializeInternal ++ p2.serialize) sig = true
    rw [← hser]; exact C.verify_sign _ _
  have g3 : Signed C (C.signPub sk) s2 := ⟨_, rfl, C.verify_sign _ _⟩
  refine ⟨s1, t1, s2, rfl, congrArg some hser, ?_, ?_, ?_⟩
  · intro hh
    have := congrArg (fun s => s.core.treeHash.length) hh
    simp only [s1, t1, c1, c2, List.length_append, C.hash_length] at this
    omega
  · exact (chain_cons ..).mpr ⟨g1, (chain_cons ..).mpr ⟨⟨g3, ⟨rfl, rfl, rfl⟩⟩, chain_single _ _ _⟩⟩
  · exact (chain_cons ..).mpr ⟨g2, (chain_cons ..).mpr ⟨⟨g3, ⟨rfl, rfl, rfl⟩⟩, chain_single _ _ _⟩⟩

/-- the hypotheses of `C41_same_past_partial` are met by the toy chain and its part from epoch 1 -/
example : Chain Crypto.toy toyPK [toy0, toy1, toy2] ∧ Chain Crypto.toy toyPK [toy1, toy2] ∧
    (∀ s ∈ [toy0, toy1, toy2] ++ [toy1, toy2], Signed Crypto.toy toyPK s) ∧ (∀ s ∈ [toy0, toy1, toy2] ++ [toy1, toy2], Regular s) ∧
    NoCollision Crypto.toy.hash (([toy0, toy1, toy2] ++ [toy1, toy2]).map fun s => s.core.signature) ∧
    SigBinding Crypto.toy toyPK ([toy0, toy1, toy2] ++ [toy1, toy2]) := by
  have sg : ∀ e p th ph, Signed Crypto.toy toyPK (toySTR e p th ph) := fun e p th ph => ⟨_, rfl, Crypto.toy.verify_sign [1] _⟩
  have rg : ∀ e p m m', Regular (toySTR e p (toyHash m) (toyHash m')) :=
    fun e p m m' => ⟨toyHash_length _, toyHash_length _, _, rfl, rfl, rfl⟩
  refine ⟨toy_chain, ((chain_cons ..).mp toy_chain).2, ?_, ?_, by unfold NoCollision; decide +kernel, ?_⟩
  · intro s hs
    simp only [List.cons_append, List.nil_append, List.mem_cons, List.not_mem_nil, or_false] at hs
    rcases hs with rfl | rfl | rfl | rfl | rfl <;> exact sg ..
  · intro s hs
    simp only [List.cons_append, List.nil_append, List.mem_cons, List.not_mem_nil, or_false] at hs
    rcases hs with rfl | rfl | rfl | rfl | rfl <;> exact rg ..
  · have key : ∀ a ∈ [toy0, toy1, toy2] ++ [toy1, toy2], ∀ b ∈ [toy0, toy1, toy2] ++ [toy1, toy2],
        a.core.signature = b.core.signature → a.serialize = b.serialize := by decide +kernel
    exact fun a ha b hb e _ _ => key a ha b hb e

end Coniks.Props

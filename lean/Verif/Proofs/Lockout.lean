import Verif.Spec.Lockout
import Verif.Proofs.Desk
import Verif.Proofs.Mitm
/-
Proofs for C90.
-/
namespace Coniks
open Spec Json Props

theorem check_noWay {C : Crypto} {a : AudState} {s : STR} (h : NoWayOn C a [s]) :
    a.checkSTRAgainstVerified C (some s.toDir) = some (some CheckBadSTR) ∨ a.checkSTRAgainstVerified C (some s.toDir) = some (some CheckBadSignature) := by
  obtain ⟨hne, hns⟩ := h s (.head _)
  unfold AudState.checkSTRAgainstVerified
  dsimp only
  split
  · left
    unfold AudState.compareWithVerified
    rw [if_neg fun e => hne e.symm]
  · split
    · rename_i he
      unfold AudState.verifySTRConsistency
      rw [show s.toDir.serialize = some s.serialize from rfl]
      dsimp only
      split
      · rename_i hv
        left
        rw [if_neg]
        intro hh
        simp only [DirSTR.verifyHashChain, STRCore.verifyHashChain, Bool.and_eq_true, beq_iff_eq] at hh
        exact hns ⟨⟨s.serialize, rfl, hv⟩, ⟨he, hh.1.1, by rw [← hh.2]; simp [Crypto.digest]⟩⟩
      · right; rfl
    · left; rfl

/-- what a directory answers to a registration or a lookup: an error, or one proof with the latest STR -/
def Reply (s : STR) (r : Response) : Prop :=
  (∃ e, (e = ErrMalformedMessage ∨ e = ErrDirectory) ∧ r = newErrorResponse e) ∨
  ∃ code ap tb, errorsSet code = false ∧ r = newSingleProof ap s.toDir tb code

theorem reply_register {C : Crypto} {d d' : Directory} {rnd : Option Bytes} {req : RegistrationRequest} {r : Response}
    (h : d.register C rnd req = some (d', r)) : Reply d.pad.latest r := by
  unfold Directory.register at h
  split at h
  · cases h; exact .inl ⟨_, .inl rfl, rfl⟩
  · split at h
    · cases h
    · cases h; exact .inl ⟨_, .inr rfl, rfl⟩
    · split at h
      · cases h
      · cases h; exact .inr ⟨_, _, _, rfl, rfl⟩
      · split at h
        · cases h; exact .inr ⟨_, _, _, rfl, rfl⟩
        · simp only at h
          split at h
          · cases h
          · cases h; exact .inl ⟨_, .inr rfl, rfl⟩
          · rename_i pad' hset
            have hl : pad'.latest = d.pad.latest := by
              unfold PAD.set at hset
              obtain ⟨x, _, e⟩ := Option.map_eq_some_iff.mp hset
              simp only [Prod.mk.injEq] at e
              rw [← e.1]
            cases h
            exact .inr ⟨ReqSuccess, _, _, rfl, congrArg (fun s => newSingleProof _ s (if d.useTBs then some (d.newTB C req.username req.key) else none) ReqSuccess)
              (show pad'.latest.toDir = d.pad.latest.toDir by rw [hl])⟩

theorem reply_lookup {C : Crypto} {d : Directory} {req : KeyLookupRequest} {r : Response}
    (h : d.keyLookup C req = some r) : Reply d.pad.latest r := by
  unfold Directory.keyLookup at h
  split at h
  · cases h; exact .inl ⟨_, .inl rfl, rfl⟩
  · split at h
    · cases h
    · cases h; exact .inl ⟨_, .inr rfl, rfl⟩
    · split at h
      · cases h
      · cases h; exact .inr ⟨_, _, _, rfl, rfl⟩
      · split at h
        · cases h; exact .inr ⟨_, _, _, rfl, rfl⟩
        · cases h; exact .inr ⟨_, _, _, rfl, rfl⟩

/-- the client refuses such an answer, and does not change -/
theorem refuse_reply {C : Crypto} {cc : Client} {s : STR} (h : NoWayOn C cc.aud [s]) {r : Response} (hr : Reply s r) {ty : Int}
    (hty : ty = RegistrationType ∨ ty = KeyLookupType) (n : Bytes) (key : Option Bytes) :
    ∃ e, e ≠ CheckBindingsDiffer ∧ cc.handleResponse C ty r n key = some (cc, some e) := by
  rcases hr with ⟨e, he, rfl⟩ | ⟨code, ap, tb, hc, rfl⟩
  · refine ⟨e, by rcases he with rfl | rfl <;> decide, ?_⟩
    unfold Client.handleResponse Response.validate newErrorResponse
    rw [if_pos (by rcases he with rfl | rfl <;> decide)]
  · have hv : (newSingleProof ap s.toDir tb code).validate = some none := by simp [Response.validate, newSingleProof, hc]
    have hu : ∀ e, cc.aud.checkSTRAgainstVerified C (some s.toDir) = some (some e) →
        cc.handleResponse C ty (newSingleProof ap s.toDir tb code) n key = some (cc, some e) := by
      intro e he
      unfold Client.handleResponse
      rw [hv]
      dsimp only
      rw [if_pos (by rcases hty with h | h; exact .inl h; exact .inr (.inl h))]
      have : cc.updateSTR C ty ⟨[some ap], [some s.toDir], tb⟩ = some (cc, some e) := by
        unfold Client.updateSTR
        rw [if_pos hty]
        simp only [audit_one, he]
      simp only [newSingleProof, this]
    rcases check_noWay h with he | he
    · exact ⟨_, by decide, hu _ he⟩
    · exact ⟨_, by decide, hu _ he⟩

theorem registerText_error {e : ErrorCode} (he : e ≠ CheckBindingsDiffer) (code : ErrorCode) (recv : Option Bytes) (n k : Bytes) :
    ∃ x, registerText (some e) code recv n k = ascii "Error" ++ x := by
  unfold registerText
  dsimp only
  split
  · exact ⟨ascii ": " ++ errorText CheckBadSTR ++ _, by unfold badSTRText; simp only [← List.append_assoc]; rfl⟩
  · exact ⟨ascii ": " ++ errorText e, by rw [← List.append_assoc]; rfl⟩

theorem lookupText_error (e : ErrorCode) (code : ErrorCode) (recv : Option Bytes) : ∃ x, lookupText (some e) code recv = ascii "Error" ++ x := by
  unfold lookupText
  dsimp only
  split
  · exact ⟨ascii ": " ++ errorText CheckBadSTR ++ _, by unfold badSTRText; simp only [← List.append_assoc]; rfl⟩
  · exact ⟨ascii ": " ++ errorText e, by rw [← List.append_assoc]; rfl⟩

theorem afterRegister_refused {C : Crypto} {cc : Client} {s : STR} (h : NoWayOn C cc.aud [s]) {r : Response} (hs : Sendable RegistrationType r)
    (hr : Reply s r) (n k : Bytes) : ∃ x, cc.afterRegister C (.ok (clientRead (marshalResponse r))) n k = some (cc, ascii "Error" ++ x) := by
  rw [afterRegister_sendable hs]
  split
  · obtain ⟨e, he, hh⟩ := refuse_reply h hr (.inl rfl) n (some k)
    rw [hh]
    obtain ⟨x, hx⟩ := registerText_error he r.error none n k
    exact ⟨x, by rw [Option.map_some, hx]⟩
  · exact ⟨_, by rw [error_text2]⟩

theorem afterLookup_refused {C : Crypto} {cc : Client} {s : STR} (h : NoWayOn C cc.aud [s]) {r : Response} (hs : Sendable KeyLookupType r)
    (hr : Reply s r) (n : Bytes) : ∃ x, cc.afterLookup C (.ok (clientRead (marshalResponse r))) n = some (cc, ascii "Error" ++ x) := by
  unfold Client.afterLookup clientRead
  dsimp only
  by_cases hl : (marshalResponse r).length ≤ 8192
  · rw [List.take_of_length_le hl]
    have := hs.roundtrip
    cases hu : unmarshalResponse KeyLookupType (marshalResponse r) with
    | none => rw [hu] at this; exact nomatch this
    | some w =>
      rw [hu] at this
      simp only [Option.map_some, Option.some.injEq] at this
      rw [Option.bind_some, this]
      obtain ⟨e, he, hh⟩ := refuse_reply h hr (.inr rfl) n (cc.bindings n).join
      rw [hh]
      obtain ⟨x, hx⟩ := lookupText_error e w.error r.getKey
      exact ⟨x, by rw [Option.map_some, hx]⟩
  · rw [unmarshal_bad _ _ (take_marshal r hs.strs 8192 (by omega))]
    exact ⟨_, by rw [Option.bind_some, ← error_text2, ← malformed_text]; rfl⟩

/-! ### commands -/

theorem register_refused {C : Crypto} {N : Net} {conf : CliConf} (hu : N.usable conf.reg = some true) {perms : Nat → Int → Bool} {rnd : Option Bytes}
    {T : Transfer} {d : Directory} {log : List STR} (inv : PadInv C d.pad log) (i : StdDir d) {cc : Client} {n : Bytes} {k : Bytes} (hn : Utf8 n)
    (h : NoWayOn C cc.aud [d.pad.latest]) {d' : Directory} {cc' : Client} {t : Bytes}
    (hc : cc.cliRegisterOver C N conf perms rnd T d n k = some (d', cc', t)) : cc' = cc ∧ ∃ x, t = ascii "Error" ++ x := by
  rcases registerOver_cases N conf perms rnd T i cc k hn with e | ⟨_, d2, text, e, _⟩
  · rw [hc] at e
    have e := e.symm
    unfold Client.cliRegister at e
    rw [hu, Option.bind_some, if_pos rfl] at e
    unfold exchange at e
    have hacc : ∃ x, acceptClient C goJson perms rnd d (N.listener conf.reg) ⟨createRegistrationMsg n (some k), false⟩ = some x ∧
        ∃ y, cc.afterRegister C (.ok (clientRead (replyBytes x.2))) n k = some (cc, ascii "Error" ++ y) := by
      by_cases hl : (createRegistrationMsg n (some k)).length ≤ 8192
      · unfold acceptClient screen
        rw [read_short _ hl]
        dsimp only
        rw [request_registration, (clean_iff n).mpr hn]
        dsimp only
        simp only [checkRequestType]
        cases hp : perms (N.listener conf.reg) 0 with
        | false =>
          refine ⟨_, by simp only [Bool.not_false, if_true]; rfl, ascii ": [coniks] Malformed message", (afterRegister_none (.inr rfl) n k).trans (by rw [error_text2])⟩
        | true =>
          obtain ⟨⟨d', r⟩, hr⟩ := register_total inv rnd ⟨n, k⟩
          refine ⟨(d', some r), ?_, afterRegister_refused h (register_sendable i hr) (reply_register hr) n k⟩
          simp only [Bool.not_true, Bool.false_eq_true, if_false, Option.getD_some, handle_reg, hr, Option.map_some]
      · unfold acceptClient screen
        rw [read_long _ (by omega)]
        dsimp only
        rw [show unmarshalRequest goJson ((createRegistrationMsg n (some k)).take 8192) = none from
          request_cut RegistrationType _ (encRegistration_ok n (some k)).1 8192 (by unfold createRegistrationMsg at hl; omega)]
        exact ⟨_, rfl, ascii ": [coniks] Malformed message", (afterRegister_none (.inr rfl) n k).trans (by rw [error_text2])⟩
    obtain ⟨x, h1, y, h2⟩ := hacc
    rw [h1, Option.map_some, Option.bind_some] at e
    dsimp only at e
    rw [h2] at e
    cases e
    exact ⟨rfl, y, rfl⟩
  · rw [hc] at e
    cases e
    exact ⟨rfl, text, rfl⟩

theorem lookup_refused {C : Crypto} {N : Net} {conf : CliConf} (hu : N.usable conf.address = some true) {perms : Nat → Int → Bool}
    {T : Transfer} {d : Directory} {log : List STR} (inv : PadInv C d.pad log) (i : StdDir d) {cc : Client} {n : Bytes}
    (h : NoWayOn C cc.aud [d.pad.latest]) {d' : Directory} {cc' : Client} {t : Bytes}
    (hc : cc.cliLookupOver C N conf perms T d n = some (d', cc', t)) : cc' = cc ∧ ∃ x, t = ascii "Error" ++ x := by
  rcases lookupOver_cases N conf perms T i cc n with e | ⟨_, text, e⟩
  · rw [hc] at e
    have e := e.symm
    unfold Client.cliLookup at e
    rw [hu, Option.bind_some, if_pos rfl] at e
    unfold exchange at e
    have hacc : ∃ x, acceptClient C goJson perms none d (N.listener conf.address) ⟨createKeyLookupMsg n, false⟩ = some x ∧
        ∃ y, cc.afterLookup C (.ok (clientRead (replyBytes x.2))) n = some (cc, ascii "Error" ++ y) := by
      by_cases hl : (createKeyLookupMsg n).length ≤ 8192
      · unfold acceptClient screen
        rw [read_short _ hl]
        dsimp only
        rw [request_lookup]
        dsimp only
        simp only [checkRequestType]
        cases hp : perms (N.listener conf.address) 1 with
        | false =>
          refine ⟨_, by simp only [Bool.not_false, if_true]; rfl, ascii ": [coniks] Malformed message", (afterLookup_none (.inr rfl) n).trans (by rw [error_text2])⟩
        | true =>
          obtain ⟨r, hr⟩ := keyLookup_total inv ⟨clean n⟩
          refine ⟨(d, some r), ?_, afterLookup_refused h (lookup_sendable i hr) (reply_lookup hr) n⟩
          simp only [Bool.not_true, Bool.false_eq_true, if_false, handle_lookup, hr, Option.map_some]
      · unfold acceptClient screen
        rw [read_long _ (by omega)]
        dsimp only
        rw [show unmarshalRequest goJson ((createKeyLookupMsg n).take 8192) = none from
          request_cut KeyLookupType _ (encRegistration_ok n none).1 8192 (by unfold createKeyLookupMsg at hl; omega)]
        exact ⟨_, rfl, ascii ": [coniks] Malformed message", (afterLookup_none (.inr rfl) n).trans (by rw [error_text2])⟩
    obtain ⟨x, h1, y, h2⟩ := hacc
    rw [h1, Option.map_some, Option.bind_some] at e
    dsimp only at e
    rw [h2] at e
    cases e
    exact ⟨rfl, y, rfl⟩
  · rw [hc] at e
    cases e
    exact ⟨rfl, text, rfl⟩

/-! ### what an honest directory makes a client hold -/

theorem refine_verified {C : Crypto} {cc cc' : Client} {s : STR} {r : Response} (hr : Reply s r) {ty : Int} {n : Bytes} {key : Option Bytes}
    {e : Option ErrorCode} (h : cc.handleResponse C ty r n key = some (cc', e)) :
    cc'.aud.signKey = cc.aud.signKey ∧ (cc'.aud.verified = cc.aud.verified ∨ cc'.aud.verified = s.toDir) := by
  obtain ⟨h1, _, h2⟩ := handle_frame h
  refine ⟨h1, h2.imp id ?_⟩
  rintro ⟨df, s', rest, g1, g2, g3, _⟩
  rcases hr with ⟨e, _, rfl⟩ | ⟨code, ap, tb, _, rfl⟩
  · nomatch g1
  · cases g1
    cases g2
    exact g3

theorem afterRegister_held {C : Crypto} {cc cc' : Client} {s : STR} {r : Response} (hs : Sendable RegistrationType r) (hr : Reply s r) {n k t : Bytes}
    (h : cc.afterRegister C (.ok (clientRead (marshalResponse r))) n k = some (cc', t)) :
    cc'.aud.signKey = cc.aud.signKey ∧ (cc'.aud.verified = cc.aud.verified ∨ cc'.aud.verified = s.toDir) := by
  rw [afterRegister_sendable hs] at h
  split at h
  · obtain ⟨y, hy, e⟩ := Option.map_eq_some_iff.mp h
    cases e
    exact refine_verified (e := y.2) hr hy
  · cases h; exact ⟨rfl, .inl rfl⟩

theorem afterLookup_held {C : Crypto} {cc cc' : Client} {s : STR} {r : Response} (hs : Sendable KeyLookupType r) (hr : Reply s r) {n t : Bytes}
    (h : cc.afterLookup C (.ok (clientRead (marshalResponse r))) n = some (cc', t)) :
    cc'.aud.signKey = cc.aud.signKey ∧ (cc'.aud.verified = cc.aud.verified ∨ cc'.aud.verified = s.toDir) := by
  unfold Client.afterLookup clientRead at h
  dsimp only at h
  by_cases hl : (marshalResponse r).length ≤ 8192
  · rw [List.take_of_length_le hl] at h
    have := hs.roundtrip
    cases hu : unmarshalResponse KeyLookupType (marshalResponse r) with
    | none => rw [hu] at this; exact nomatch this
    | some w =>
      rw [hu] at this h
      simp only [Option.map_some, Option.some.injEq] at this
      rw [Option.bind_some, this] at h
      obtain ⟨y, hy, e⟩ := Option.map_eq_some_iff.mp h
      cases e
      exact refine_verified (e := y.2) hr hy
  · rw [unmarshal_bad _ _ (take_marshal r hs.strs 8192 (by omega)), Option.bind_some] at h
    cases h; exact ⟨rfl, .inl rfl⟩

/-- one command leaves the client with the key it had and the STR it had or the one it was shown -/
theorem registerOver_held {C : Crypto} {N : Net} {conf : CliConf} {perms : Nat → Int → Bool} {rnd : Option Bytes} {T : Transfer} {d : Directory}
    {log : List STR} (inv : PadInv C d.pad log) (i : StdDir d) {cc : Client} {n k : Bytes} (hn : Utf8 n) {d' : Directory} {cc' : Client} {t : Bytes}
    (hc : cc.cliRegisterOver C N conf perms rnd T d n k = some (d', cc', t)) :
    cc'.aud.signKey = cc.aud.signKey ∧ (cc'.aud.verified = cc.aud.verified ∨ cc'.aud.verified = d.pad.latest.toDir) := by
  rcases registerOver_cases N conf perms rnd T i cc k hn with e | ⟨_, d2, text, e, _⟩
  · rw [hc] at e
    have e := e.symm
    unfold Client.cliRegister exchange at e
    cases hu : N.usable conf.reg with
    | none => rw [hu] at e; cases e
    | some ok =>
      rw [hu, Option.bind_some] at e
      cases ok with
      | false => cases e; exact ⟨rfl, .inl rfl⟩
      | true =>
        rw [if_pos rfl] at e
        have done : ∀ x, acceptClient C goJson perms rnd d (N.listener conf.reg) ⟨createRegistrationMsg n (some k), false⟩ = some x →
            (∀ c' t', cc.afterRegister C (.ok (clientRead (replyBytes x.2))) n k = some (c', t') →
              c'.aud.signKey = cc.aud.signKey ∧ (c'.aud.verified = cc.aud.verified ∨ c'.aud.verified = d.pad.latest.toDir)) →
            cc'.aud.signKey = cc.aud.signKey ∧ (cc'.aud.verified = cc.aud.verified ∨ cc'.aud.verified = d.pad.latest.toDir) := by
          intro x hx hh
          rw [hx, Option.map_some, Option.bind_some] at e
          obtain ⟨y, hy, e⟩ := Option.map_eq_some_iff.mp e
          cases e
          exact hh y.1 y.2 hy
        have bad : ∀ r, (r = none ∨ r = some (newErrorResponse ErrMalformedMessage)) → ∀ c' t',
            cc.afterRegister C (.ok (clientRead (replyBytes r))) n k = some (c', t') →
            c'.aud.signKey = cc.aud.signKey ∧ (c'.aud.verified = cc.aud.verified ∨ c'.aud.verified = d.pad.latest.toDir) := by
          intro r hr c' t' hh
          rw [afterRegister_none hr n k] at hh
          cases hh
          exact ⟨rfl, .inl rfl⟩
        by_cases hl : (createRegistrationMsg n (some k)).length ≤ 8192
        · cases hp : perms (N.listener conf.reg) 0 with
          | false =>
            refine done (d, some (newErrorResponse ErrMalformedMessage)) ?_ (bad _ (.inr rfl))
            unfold acceptClient screen
            rw [read_short _ hl]
            dsimp only
            rw [request_registration, (clean_iff n).mpr hn]
            simp only [checkRequestType, hp, Bool.not_false, if_true]
            rfl
          | true =>
            obtain ⟨⟨d', r⟩, hr⟩ := register_total inv rnd ⟨n, k⟩
            refine done (d', some r) ?_ fun c' t' hh => afterRegister_held (register_sendable i hr) (reply_register hr) hh
            unfold acceptClient screen
            rw [read_short _ hl]
            dsimp only
            rw [request_registration, (clean_iff n).mpr hn]
            simp only [checkRequestType, hp, Bool.not_true, Bool.false_eq_true, if_false, Option.getD_some, handle_reg, hr, Option.map_some]
        · refine done (d, some (newErrorResponse ErrMalformedMessage)) ?_ (bad _ (.inr rfl))
          unfold acceptClient screen
          rw [read_long _ (by omega)]
          dsimp only
          rw [show unmarshalRequest goJson ((createRegistrationMsg n (some k)).take 8192) = none from
            request_cut RegistrationType _ (encRegistration_ok n (some k)).1 8192 (by unfold createRegistrationMsg at hl; omega)]
          rfl
  · rw [hc] at e
    cases e
    exact ⟨rfl, .inl rfl⟩

theorem lookupOver_held {C : Crypto} {N : Net} {conf : CliConf} {perms : Nat → Int → Bool} {T : Transfer} {d : Directory}
    {log : List STR} (inv : PadInv C d.pad log) (i : StdDir d) {cc : Client} {n : Bytes} {d' : Directory} {cc' : Client} {t : Bytes}
    (hc : cc.cliLookupOver C N conf perms T d n = some (d', cc', t)) :
    cc'.aud.signKey = cc.aud.signKey ∧ (cc'.aud.verified = cc.aud.verified ∨ cc'.aud.verified = d.pad.latest.toDir) := by
  rcases lookupOver_cases N conf perms T i cc n with e | ⟨_, text, e⟩
  · rw [hc] at e
    have e := e.symm
    unfold Client.cliLookup exchange at e
    cases hu : N.usable conf.address with
    | none => rw [hu] at e; cases e
    | some ok =>
      rw [hu, Option.bind_some] at e
      cases ok with
      | false => cases e; exact ⟨rfl, .inl rfl⟩
      | true =>
        rw [if_pos rfl] at e
        have done : ∀ x, acceptClient C goJson perms none d (N.listener conf.address) ⟨createKeyLookupMsg n, false⟩ = some x →
            (∀ c' t', cc.afterLookup C (.ok (clientRead (replyBytes x.2))) n = some (c', t') →
              c'.aud.signKey = cc.aud.signKey ∧ (c'.aud.verified = cc.aud.verified ∨ c'.aud.verified = d.pad.latest.toDir)) →
            cc'.aud.signKey = cc.aud.signKey ∧ (cc'.aud.verified = cc.aud.verified ∨ cc'.aud.verified = d.pad.latest.toDir) := by
          intro x hx hh
          rw [hx, Option.map_some, Option.bind_some] at e
          obtain ⟨y, hy, e⟩ := Option.map_eq_some_iff.mp e
          cases e
          exact hh y.1 y.2 hy
        have bad : ∀ r, (r = none ∨ r = some (newErrorResponse ErrMalformedMessage)) → ∀ c' t',
            cc.afterLookup C (.ok (clientRead (replyBytes r))) n = some (c', t') →
            c'.aud.signKey = cc.aud.signKey ∧ (c'.aud.verified = cc.aud.verified ∨ c'.aud.verified = d.pad.latest.toDir) := by
          intro r hr c' t' hh
          rw [afterLookup_none hr n] at hh
          cases hh
          exact ⟨rfl, .inl rfl⟩
        by_cases hl : (createKeyLookupMsg n).length ≤ 8192
        · cases hp : perms (N.listener conf.address) 1 with
          | false =>
            refine done (d, some (newErrorResponse ErrMalformedMessage)) ?_ (bad _ (.inr rfl))
            unfold acceptClient screen
            rw [read_short _ hl]
            dsimp only
            rw [request_lookup]
            simp only [checkRequestType, hp, Bool.not_false, if_true]
            rfl
          | true =>
            obtain ⟨r, hr⟩ := keyLookup_total inv ⟨clean n⟩
            refine done (d, some r) ?_ fun c' t' hh => afterLookup_held (lookup_sendable i hr) (reply_lookup hr) hh
            unfold acceptClient screen
            rw [read_short _ hl]
            dsimp only
            rw [request_lookup]
            simp only [checkRequestType, hp, Bool.not_true, Bool.false_eq_true, if_false, handle_lookup, hr, Option.map_some]
        · refine done (d, some (newErrorResponse ErrMalformedMessage)) ?_ (bad _ (.inr rfl))
          unfold acceptClient screen
          rw [read_long _ (by omega)]
          dsimp only
          rw [show unmarshalRequest goJson ((createKeyLookupMsg n).take 8192) = none from
            request_cut KeyLookupType _ (encRegistration_ok n none).1 8192 (by unfold createKeyLookupMsg at hl; omega)]
          rfl
  · rw [hc] at e
    cases e
    exact ⟨rfl, .inl rfl⟩

/-! ### sessions -/

theorem netUpdates_cons_line (rnd : Option Bytes) (l : List Char) (T : Transfer) (evs : List NetEvent) : netUpdates (.line rnd l T :: evs) = netUpdates evs := rfl

/-- A session, seen from the STRs: the client never holds any but the one it had and those of the log; and if none of the STRs that are shown continues the one
it holds, then nothing but errors is printed and the client does not change. -/
theorem session_held (C : Crypto) (t0 : UInt64) (sk vk : Bytes) (size : Nat) (r₁ r₂ : Bytes) (N : Net) (conf : CliConf)
    (hur : N.usable conf.reg = some true) (hua : N.usable conf.address = some true) (perms : Nat → Int → Bool) (m : Nat) :
    ∀ (evs : List NetEvent) (ops : List DirOp) (d : Directory) (log : List STR) (cc : Client) (ts : Bool),
      dirAfter C t0 sk vk size r₁ r₂ ops = some (d, log) → m ≤ dirUpdates ops → dirUpdates ops + netUpdates evs < 2 ^ 64 →
      ∀ d' cc' out, replOver C N conf perms d cc ts evs = some (d', cc', out) →
      ∃ ext log', dirAfter C t0 sk vk size r₁ r₂ (ops ++ ext) = some (d', log') ∧ dirUpdates ext ≤ netUpdates evs ∧
        cc'.aud.signKey = cc.aud.signKey ∧ (cc'.aud.verified = cc.aud.verified ∨ ∃ s ∈ log', cc'.aud.verified = s.toDir) ∧
        (NoWayOn C cc.aud (log'.drop m) → cc' = cc ∧ OnlyErrors ts (typed evs) out)
  | [], ops, d, log, cc, ts, h, _, _, d', cc', out, hr => by
    cases hr
    exact ⟨[], log, by rw [List.append_nil]; exact h, Nat.le_refl _, rfl, .inl rfl, fun _ => ⟨rfl, .nil⟩⟩
  | .dir op :: evs, ops, d, log, cc, ts, h, hm, hlt, d', cc', out, hr => by
    simp only [replOver] at hr
    obtain ⟨⟨d1, r⟩, hx, hr⟩ := Option.bind_eq_some_iff.mp hr
    obtain ⟨log1, h'⟩ := dirAfter_step h hx
    have hlt' : dirUpdates (ops ++ [op]) + netUpdates evs < 2 ^ 64 := by
      rw [dirUpdates_append]
      cases op <;> simp only [netUpdates, dirUpdates] at hlt ⊢ <;> omega
    obtain ⟨ext, log', g1, g2, g3, g4, g5⟩ := session_held C t0 sk vk size r₁ r₂ N conf hur hua perms m evs _ d1 log1 cc ts h'
      (by rw [dirUpdates_append]; omega) hlt' d' cc' out hr
    refine ⟨op :: ext, log', by rw [List.append_assoc] at g1; exact g1, ?_, g3, g4, g5⟩
    rw [show op :: ext = [op] ++ ext from rfl, dirUpdates_append]
    cases op <;> simp only [netUpdates, dirUpdates] at g2 ⊢ <;> omega
  | .ended err :: evs, ops, d, log, cc, ts, h, _, _, d', cc', out, hr => by
    cases hr
    exact ⟨[], log, by rw [List.append_nil]; exact h, Nat.zero_le _, rfl, .inl rfl, fun _ => ⟨rfl, .ended⟩⟩
  | .line rnd l T :: evs, ops, d, log, cc, ts, h, hm, hlt, d', cc', out, hr => by
    rw [netUpdates_cons_line] at hlt ⊢
    obtain ⟨inv, hlen⟩ := dirAfter_padInv C t0 sk vk size r₁ r₂ ops (by omega) d log h
    have i := after_std h
    have hlast : log[dirUpdates ops]? = some d.pad.latest := by
      have := inv.last
      rw [List.getLast?_eq_getElem?, hlen.1] at this
      simpa using this
    have shown : ∀ ext log', dirAfter C t0 sk vk size r₁ r₂ (ops ++ ext) = some (d', log') →
        d.pad.latest ∈ log'.drop m ∧ d.pad.latest ∈ log' := by
      intro ext log' g
      obtain ⟨more, rfl⟩ := dirAfter_prefix C t0 sk vk size r₁ r₂ ops ext d' log' g d log h
      have hb := (List.getElem?_eq_some_iff.mp hlast).1
      have : (log ++ more)[dirUpdates ops]? = some d.pad.latest := by rw [List.getElem?_append_left hb]; exact hlast
      refine ⟨List.mem_of_getElem? (i := dirUpdates ops - m) ?_, List.mem_of_getElem? this⟩
      rw [List.getElem?_drop, Nat.add_sub_cancel' hm]
      exact this
    have one : ∀ {a : AudState} {l : List STR} {s : STR}, NoWayOn C a l → s ∈ l → NoWayOn C a [s] := by
      intro a l s hn hs x hx
      rw [List.mem_singleton.mp hx]
      exact hn s hs
    cases hc : command (fields l) with
    | register n k =>
      have hn := (command_register hc).1
      simp only [replOver, hc] at hr
      obtain ⟨⟨d1, c1, t⟩, hx, hr⟩ := Option.bind_eq_some_iff.mp hr
      obtain ⟨⟨d2, c2, o2⟩, hy, e⟩ := Option.map_eq_some_iff.mp hr
      cases e
      obtain ⟨k1, k2⟩ := registerOver_held inv i hn hx
      have hnext : ∃ e log1, dirAfter C t0 sk vk size r₁ r₂ (ops ++ e) = some (d1, log1) ∧ dirUpdates e = 0 := by
        rcases registerOver_dir i hn hx with rfl | ⟨resp, hreg⟩
        · exact ⟨[], log, by rw [List.append_nil]; exact h, rfl⟩
        · obtain ⟨log', h'⟩ := dirAfter_step (op := .register rnd ⟨n, k⟩) (r := some resp) h (d' := d1) (by simp only [Directory.step, hreg, Option.map_some])
          exact ⟨_, log', h', rfl⟩
      obtain ⟨e, log1, h1, he⟩ := hnext
      obtain ⟨ext, log', g1, g2, g3, g4, g5⟩ := session_held C t0 sk vk size r₁ r₂ N conf hur hua perms m evs _ d1 log1 c1 ts h1
        (by rw [dirUpdates_append]; omega) (by rw [dirUpdates_append, he]; omega) _ _ o2 hy
      rw [List.append_assoc] at g1
      obtain ⟨s1, s2⟩ := shown _ _ g1
      refine ⟨e ++ ext, log', g1, by rw [dirUpdates_append, he]; omega, g3.trans k1, ?_, fun hno => ?_⟩
      · rcases g4 with g4 | g4
        · rcases k2 with k2 | k2
          · exact .inl (g4.trans k2)
          · exact .inr ⟨_, s2, g4.trans k2⟩
        · exact .inr g4
      · obtain ⟨rfl, x, rfl⟩ := register_refused hur inv i hn (one hno s1) hx
        obtain ⟨rfl, q2⟩ := g5 hno
        refine ⟨rfl, ?_⟩
        rw [error_line]
        exact .refused (.inl ⟨n, k, hc⟩) q2
    | lookup n =>
      simp only [replOver, hc] at hr
      obtain ⟨⟨d1, c1, t⟩, hx, hr⟩ := Option.bind_eq_some_iff.mp hr
      obtain ⟨⟨d2, c2, o2⟩, hy, e⟩ := Option.map_eq_some_iff.mp hr
      cases e
      obtain ⟨k1, k2⟩ := lookupOver_held inv i hx
      have := lookupOver_dir i hx
      subst this
      obtain ⟨ext, log', g1, g2, g3, g4, g5⟩ := session_held C t0 sk vk size r₁ r₂ N conf hur hua perms m evs ops _ log c1 ts h hm hlt _ _ o2 hy
      obtain ⟨s1, s2⟩ := shown _ _ g1
      refine ⟨ext, log', g1, g2, g3.trans k1, ?_, fun hno => ?_⟩
      · rcases g4 with g4 | g4
        · rcases k2 with k2 | k2
          · exact .inl (g4.trans k2)
          · exact .inr ⟨_, s2, g4.trans k2⟩
        · exact .inr g4
      · obtain ⟨rfl, x, rfl⟩ := lookup_refused hua inv i (one hno s1) hx
        obtain ⟨rfl, q2⟩ := g5 hno
        refine ⟨rfl, ?_⟩
        rw [error_line]
        exact .refused (.inr ⟨n, hc⟩) q2
    | exit =>
      simp only [replOver, hc] at hr
      cases hr
      exact ⟨[], log, by rw [List.append_nil]; exact h, Nat.zero_le _, rfl, .inl rfl, fun _ => ⟨rfl, .exit hc⟩⟩
    | _ =>
      simp only [replOver, hc] at hr
      obtain ⟨⟨d2, c2, o2⟩, hy, e⟩ := Option.map_eq_some_iff.mp hr
      cases e
      obtain ⟨ext, log', g1, g2, g3, g4, g5⟩ := session_held C t0 sk vk size r₁ r₂ N conf hur hua perms m evs ops d log cc _ h hm hlt _ _ o2 hy
      refine ⟨ext, log', g1, g2, g3, g4, fun hno => ?_⟩
      obtain ⟨q1, q2⟩ := g5 hno
      refine ⟨q1, ?_⟩
      refine .local (fun n k e => ?_) (fun n e => ?_) (by rw [hc]) q2
      · rw [hc] at e; cases e
      · rw [hc] at e; cases e

/-- the input of the terminal is the input of the session -/
theorem aligned_typed {X : Text} {u pid : Nat} {evs : List DeskEv} {evs' : List NetEvent} (h : Aligned X u pid evs evs') : typed evs' = typedAt u evs := by
  induction h with
  | nil => rfl
  | line _ ih => simp only [typed, typedAt, if_true, ih]
  | ended _ ih => simp only [typed, typedAt, if_true, ih]
  | epoch _ ih => exact ih
  | policies _ ih => exact ih
  | @asked e rnd req evs evs' ha _ ih =>
    cases e with
    | host e => exact ih
    | opened => exact ha.elim
    | ended => exact ha.elim
    | line v r l T refused => simp only [typed, typedAt, if_neg ha.2.1, ih]
  | @other e evs evs' hn _ ih =>
    cases e with
    | host e => exact ih
    | opened => exact ih
    | ended v err => simp only [typedAt]; rw [if_neg (show ¬ v = u from hn), ih]
    | line v r l T refused => simp only [typedAt]; rw [if_neg (show ¬ v = u from hn), ih]

end Coniks

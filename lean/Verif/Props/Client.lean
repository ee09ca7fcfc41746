import Verif.Proofs.Client
import Verif.Props.Auditor
import Verif.Props.Proof
/-
C32, C34 - C38: the client's consistency checks against an arbitrary directory.
-/
namespace Coniks.Props
open Coniks Spec

/-! ### C32 -/

/-- C32, one call: the key stays pinned, and the held STR stays or moves to its signed, linked successor. -/
theorem C32_one_call (C : Crypto) (cc cc' : Client) (ty : Int) (msg : Response) (uname : Bytes) (key : Option Bytes) (e : Option ErrorCode)
    (h : cc.handleResponse C ty msg uname key = some (cc', e)) :
    cc'.aud.signKey = cc.aud.signKey ∧
    (cc'.aud.verified = cc.aud.verified ∨ Successor C cc.aud.signKey cc.aud.verified cc'.aud.verified) := by
  rcases handle_cases h with ⟨_, rfl⟩ | ⟨df, s, rest, _, _, _, _, hc, ⟨_, rfl⟩ | ⟨_, _, cc2, hu, rfl⟩⟩
  · exact ⟨rfl, .inl rfl⟩
  · exact ⟨rfl, hc⟩
  · obtain ⟨h1, _, _⟩ := updateTBs_only hu
    refine ⟨by show cc2.aud.signKey = _; rw [h1]; rfl, ?_⟩
    show cc2.aud.verified = _ ∨ Successor _ _ _ cc2.aud.verified
    rw [h1]; exact hc

/-- C32: over any sequence of responses, accepted or not, from whomever, the STRs the client holds one after the other form a chain signed
by the pinned key. `l` lists them: it starts with the pinned STR, ends with the one now held, and has one element per epoch entered. -/
theorem C32_forward_chain (C : Crypto) (calls : List ClientCall) : ∀ (cc cc' : Client), clientAfter C cc calls = some cc' →
    ∃ l : List DirSTR, l[0]? = some cc.aud.verified ∧ l.getLast? = some cc'.aud.verified ∧ Chain C cc.aud.signKey l ∧
      cc'.aud.signKey = cc.aud.signKey ∧ l.length ≤ calls.length + 1 := by
  induction calls with
  | nil => intro cc cc' h; cases h; exact ⟨[cc.aud.verified], rfl, rfl, chain_single _ _ _, rfl, by simp⟩
  | cons c cs ih =>
    intro cc cc' h
    obtain ⟨⟨c1, e⟩, h1, h2⟩ := Option.bind_eq_some_iff.mp h
    obtain ⟨hk, hs⟩ := C32_one_call C cc c1 c.ty c.msg c.uname c.key e h1
    obtain ⟨l, g1, g2, g3, g4, g5⟩ := ih c1 cc' h2
    rw [hk] at g3 g4
    rcases hs with hs | hs
    · exact ⟨l, by rw [g1, hs], g2, g3, g4, by simp; omega⟩
    · cases l with
      | nil => simp at g1
      | cons x r =>
        simp only [List.getElem?_cons_zero, Option.some.injEq] at g1
        subst g1
        refine ⟨cc.aud.verified :: c1.aud.verified :: r, rfl, ?_, (chain_cons ..).mpr ⟨hs, g3⟩, g4, by simpa using g5⟩
        rw [List.getLast?_cons_cons]; exact g2

/-- C32: so the epoch never goes back and never skips (as long as it does not wrap around at 2^64). -/
theorem C32_epoch_monotone (C : Crypto) (calls : List ClientCall) (cc cc' : Client) (h : clientAfter C cc calls = some cc')
    (hw : cc.aud.verified.core.epoch.toNat + calls.length < 2 ^ 64) :
    cc.aud.verified.core.epoch.toNat ≤ cc'.aud.verified.core.epoch.toNat ∧
    cc'.aud.verified.core.epoch.toNat ≤ cc.aud.verified.core.epoch.toNat + calls.length ∧
    (cc'.aud.verified.core.epoch = cc.aud.verified.core.epoch → cc'.aud.verified = cc.aud.verified) := by
  obtain ⟨l, h1, h2, h3, _, h5⟩ := C32_forward_chain C calls cc cc' h
  have hpos : 0 < l.length := (List.getElem?_eq_some_iff.mp h1).1
  have hl : l[l.length - 1]? = some cc'.aud.verified := by rw [List.getLast?_eq_getElem?] at h2; exact h2
  have := chain_epoch h3 0 (l.length - 1) _ _ h1 (by rw [Nat.zero_add]; exact hl)
  have hn := congrArg UInt64.toNat this
  rw [UInt64.toNat_add, UInt64.toNat_ofNat_of_lt' (by unfold UInt64.size; omega), Nat.mod_eq_of_lt (by omega)] at hn
  refine ⟨by omega, by omega, ?_⟩
  intro he
  rw [he] at hn
  have : l.length - 1 = 0 := by omega
  rw [this, h1] at hl
  exact (Option.some.inj hl).symm

/-! ### C34 -/

/-- C34: the exact meaning of acceptance. `HandleResponse` returns nil iff the response carries a proof, an STR and possibly a promise for
which all checks pass; if the key is only promised the promise is good; if the key is in the tree a promise held for that name is kept. The
client afterwards: holds that STR, and the promises are updated for this name only. -/
theorem C34_accept_iff (C : Crypto) (cc : Client) (htb : cc.useTBs = true) (ty : Int) (msg : Response) (uname : Bytes) (key : Option Bytes)
    (cc' : Client) :
    cc.handleResponse C ty msg uname key = some (cc', none) ↔
      ∃ ap str tb leaf t pol, Carries msg ap str tb ∧ Checks C cc ty msg uname key ap str leaf t pol ∧
        (Promised ty msg.error t → ∃ p, tb = some p ∧ GoodPromise C cc.aud.signKey str.core.signature ap.lookupIndex key p) ∧
        (ty = KeyLookupType → t = .inclusion →
          ∀ p, cc.tbs uname = some p → ap.lookupIndex = p.index ∧ leaf.value.getD [] = p.value) ∧
        cc'.aud = ⟨cc.aud.signKey, str⟩ ∧ cc'.useTBs = true ∧
        (∀ n, cc'.bindings n = if n = uname then some none else cc.bindings n) ∧
        (∀ n, n ≠ uname → cc'.tbs n = cc.tbs n) ∧
        (Promised ty msg.error t → cc'.tbs uname = tb) ∧
        (ty = KeyLookupType → t = .inclusion → cc'.tbs uname = none) ∧
        (¬ Promised ty msg.error t → ¬ (ty = KeyLookupType ∧ t = .inclusion) → cc'.tbs uname = cc.tbs uname) := by
  constructor
  · intro h
    rcases handle_cases h with ⟨h, _⟩ | ⟨df, s, rest, hr, hs, hty, hval, hchain, ⟨h, _⟩ | ⟨_, hcc, cc2, hu, rfl⟩⟩
    · exact absurd rfl h
    · exact absurd rfl h
    · obtain ⟨ap, str, leaf, t, pol, h1, h2, h3, h4, h5, h6, h7⟩ := (checkConsistency_ok C _ ty _ df uname key htb).mp hcc
      obtain ⟨aps, strs, f1, f2⟩ := (first_iff df ap str).mp h1
      have hstr : s = str := by rw [hs] at f2; simp at f2; exact f2.1
      subst hstr
      have hu' := (updateTBs_ok C { cc with aud := cc.aud.update s } ty msg.error df uname key htb ap s leaf t h1 h2 h3 h4 cc2).mp hu
      have hsig : ({ cc with aud := cc.aud.update s } : Client).aud.signKey = cc.aud.signKey := rfl
      refine ⟨ap, s, df.tb, leaf, t, pol, ⟨aps, strs, ?_⟩, ⟨hchain, h2, h3, h4, h5, h6, h7⟩, ?_⟩
      · rw [hr]; obtain ⟨a, b, c⟩ := df; simp only at f1 f2; rw [f1, f2]
      · have ne1 : RegistrationType ≠ KeyLookupType := by decide
        rcases hu' with ⟨hp, p, g1, g2, rfl⟩ | ⟨hk, hcode, hi, g2, rfl⟩ | ⟨hp, hk, rfl⟩
        · refine ⟨fun _ => ⟨p, g1, g2⟩, fun _ hi => ?_, rfl, htb, fun n => rfl, fun n hn => by simp [hn], fun _ => by simp [g1],
            fun _ hi => ?_, fun h => absurd hp h⟩
          · have := hp.1; rw [hi] at this; nomatch this
          · have := hp.1; rw [hi] at this; nomatch this
        · have hnp : ¬ Promised ty msg.error t := by rintro ⟨h, _⟩; rw [hi] at h; nomatch h
          exact ⟨fun h => absurd h hnp, fun _ _ => g2, rfl, htb, fun n => rfl, fun n hn => by simp [hn], fun h => absurd h hnp,
            fun _ _ => by simp, fun _ h => absurd ⟨hk, hi⟩ h⟩
        · exact ⟨fun h => absurd h hp, fun a b => absurd ⟨a, b⟩ hk, rfl, htb, fun n => rfl, fun n hn => rfl, fun h => absurd h hp,
            fun a b => absurd ⟨a, b⟩ hk, fun _ _ => rfl⟩
  · rintro ⟨ap, str, tb, leaf, t, pol, ⟨aps, strs, hr⟩, ck, hp, hf, k1, k2, k3, k4, k5, k6, k7⟩
    have hty : ty = RegistrationType ∨ ty = KeyLookupType := by
      rcases ck.status with ⟨h, _⟩ | ⟨h, _⟩
      · exact .inl h
      · exact .inr h
    have hcode : errorsSet msg.error = false := by
      rcases ck.status with ⟨_, h | ⟨h, _⟩⟩ | ⟨_, ⟨h, _⟩ | h⟩ <;> rw [h] <;> decide
    have hval : msg.validate = some none := by
      simp [Response.validate, hcode, hr]
    have hcc := (checkConsistency_ok C { cc with aud := cc.aud.update str } ty msg.error ⟨some ap :: aps, some str :: strs, tb⟩ uname key htb).mpr
      ⟨ap, str, leaf, t, pol, rfl, ck.leaf_eq, ck.type_eq, ck.status, ck.pol_eq, ck.vrf, ck.path⟩
    -- the promises afterwards
    let cc2 : Client := { cc with aud := cc.aud.update str, tbs := cc'.tbs }
    have hu := (updateTBs_ok C { cc with aud := cc.aud.update str } ty msg.error ⟨some ap :: aps, some str :: strs, tb⟩ uname key htb ap str leaf t
      rfl ck.leaf_eq ck.type_eq ck.status cc2).mpr (by
        by_cases hpr : Promised ty msg.error t
        · obtain ⟨p, g1, g2⟩ := hp hpr
          refine .inl ⟨hpr, p, g1, g2, ?_⟩
          have : cc'.tbs = fun n => if n = uname then some p else cc.tbs n := by
            funext n
            by_cases hn : n = uname
            · rw [hn, if_pos rfl, k5 hpr, g1]
            · rw [if_neg hn, k4 n hn]
          simp only [cc2, this]
        · by_cases hki : ty = KeyLookupType ∧ t = .inclusion
          · refine .inr (.inl ⟨hki.1, ?_, hki.2, hf hki.1 hki.2, ?_⟩)
            · rcases ck.status with ⟨h, _⟩ | ⟨_, ⟨_, h⟩ | h⟩
              · rw [hki.1] at h; exact absurd h (by decide)
              · rw [hki.2] at h; nomatch h
              · exact h
            · have : cc'.tbs = fun n => if n = uname then none else cc.tbs n := by
                funext n
                by_cases hn : n = uname
                · rw [hn, if_pos rfl, k6 hki.1 hki.2]
                · rw [if_neg hn, k4 n hn]
              simp only [cc2, this]
          · refine .inr (.inr ⟨hpr, hki, ?_⟩)
            have : cc'.tbs = cc.tbs := by
              funext n
              by_cases hn : n = uname
              · rw [hn, k7 hpr hki]
              · exact k4 n hn
            simp only [cc2, this])
    have hup := @updateSTR_ok C cc ty ⟨some ap :: aps, some str :: strs, tb⟩ str strs hty rfl ck.chain
    unfold Client.handleResponse
    rw [hval]
    simp only
    rw [if_pos (by rcases hty with h | h; exact .inl h; exact .inr (.inl h)), hr]
    simp only [hup, hcc, hu]
    refine congrArg some (Prod.ext ?_ rfl)
    obtain ⟨a', b', u', tb'⟩ := cc'
    simp only at k1 k2 k3
    have hb : b' = fun n => if n = uname then some msg.getKey else cc.bindings n := funext fun n => by rw [k3 n]; rfl
    simp only [cc2, k1, k2, hb, htb]
    rfl

/-- C34, spelled out: what an accepted response guarantees. -/
theorem C34_acceptance (C : Crypto) (cc cc' : Client) (htb : cc.useTBs = true) (ty : Int) (msg : Response) (uname : Bytes)
    (key : Option Bytes) (h : cc.handleResponse C ty msg uname key = some (cc', none)) :
    ∃ ap str tb leaf pol, Carries msg ap str tb ∧ cc'.aud.verified = str ∧
      (str = cc.aud.verified ∨ Successor C cc.aud.signKey cc.aud.verified str) ∧
      str.policies = some pol ∧ C.vrfVerify pol.vrfPublicKey uname ap.lookupIndex ap.vrfProof = true ∧ ap.leaf = some leaf ∧
      (ap.lookupIndex = leaf.index →
        ap.verify C uname (leaf.value.getD []) str.core.treeHash = some (.ok ()) ∧ ∀ k, key = some k → leaf.value.getD [] = k) ∧
      (ap.lookupIndex ≠ leaf.index → msg.error ≠ ReqNameNotFound →
        ∃ p, tb = some p ∧ C.verify cc.aud.signKey (str.core.signature ++ ap.lookupIndex ++ p.value) p.signature = true ∧
          p.index = ap.lookupIndex ∧ (∀ k, key = some k → p.value = k)) ∧
      (ap.lookupIndex ≠ leaf.index → leaf.value = none ∧ ∀ v, ap.verify C uname v str.core.treeHash = some (.ok ())) := by
  obtain ⟨ap, str, tb, leaf, t, pol, hcar, ck, hp, _, k1, _⟩ := (C34_accept_iff C cc htb ty msg uname key cc').mp h
  refine ⟨ap, str, tb, leaf, pol, hcar, by rw [k1], ck.chain, ck.pol_eq, ck.vrf, ck.leaf_eq, ?_, ?_, ?_⟩
  · intro hi
    have hpath := ck.path
    cases key with
    | none => exact ⟨hpath, fun k hk => nomatch hk⟩
    | some k =>
      simp only at hpath
      have hval : leaf.value.getD [] = k := by
        have hp2 := hpath
        unfold AuthPath.verify at hp2
        rw [ck.leaf_eq] at hp2
        simp only [hi, if_true] at hp2
        split at hp2
        · assumption
        · simp at hp2
      exact ⟨by rw [hval]; exact hpath, fun k' hk => by cases hk; exact hval⟩
  · intro hi hnf
    have ht : t = .absence := by rw [ck.type_eq, if_neg hi]
    have hpr : Promised ty msg.error t := by
      refine ⟨ht, ?_⟩
      rcases ck.status with ⟨h, _⟩ | ⟨_, ⟨h, _⟩ | h⟩
      · exact .inl h
      · exact absurd h hnf
      · exact .inr h
    obtain ⟨p, g1, g2⟩ := hp hpr
    exact ⟨p, g1, by rw [← g2.index]; exact g2.signed, g2.index, g2.value⟩
  · intro hi
    have hpath := ck.path
    unfold AuthPath.verify at hpath
    rw [ck.leaf_eq] at hpath
    simp only [hi, if_false] at hpath
    split at hpath
    · nomatch hpath
    · simp at hpath
    · next hpre =>
      split at hpath
      · simp at hpath
      · next hv =>
        refine ⟨by simpa using hv, ?_⟩
        intro v
        unfold AuthPath.verify
        rw [ck.leaf_eq]
        simp only [hi, if_false, hpre, hv]
        exact hpath

/-- C34, status and proof type: what the status code of an accepted response tells. -/
theorem C34_status (C : Crypto) (cc cc' : Client) (htb : cc.useTBs = true) (ty : Int) (msg : Response) (uname : Bytes)
    (key : Option Bytes) (h : cc.handleResponse C ty msg uname key = some (cc', none)) :
    (ty = RegistrationType ∧ (msg.error = ReqSuccess ∨ msg.error = ReqNameExisted)) ∨
    (ty = KeyLookupType ∧ (msg.error = ReqSuccess ∨ msg.error = ReqNameNotFound)) := by
  obtain ⟨ap, str, tb, leaf, t, pol, hcar, ck, _⟩ := (C34_accept_iff C cc htb ty msg uname key cc').mp h
  rcases ck.status with ⟨h1, h2 | ⟨h2, _⟩⟩ | ⟨h1, ⟨h2, _⟩ | h2⟩
  · exact .inl ⟨h1, .inr h2⟩
  · exact .inl ⟨h1, .inl h2⟩
  · exact .inr ⟨h1, .inr h2⟩
  · exact .inr ⟨h1, .inl h2⟩

/-! ### concrete directory and client for the examples -/

/-- the honest run of the sample: register alice, update, look her up -/
def toyOps : List DirOp := [.register (some [5]) ⟨[0x61], [9, 9]⟩, .update]

/-- client pinned to the toy directory's STR -/
def toyClient (s : DirSTR) : Client := ⟨newAudState (Crypto.toy.signPub [1]) s, fun _ => none, true, fun _ => none⟩

/-- the client registers alice in epoch 0 and looks her up in epoch 1: both accepted, and the promise is remembered, checked and dropped -/
theorem toy_session : ∃ d₀ log₀ d₁ r₁ d₂ log₂ r₂ c₁ c₂,
    dirAfter Crypto.toy 5 [1] [2] 10 [3] [4] [] = some (d₀, log₀) ∧
    d₀.register Crypto.toy (some [5]) ⟨[0x61], [9, 9]⟩ = some (d₁, r₁) ∧
    (toyClient d₀.latestSTR).handleResponse Crypto.toy RegistrationType r₁ [0x61] (some [9, 9]) = some (c₁, none) ∧
    (c₁.tbs [0x61]).map (fun tb => tb.value) = some [9, 9] ∧
    dirAfter Crypto.toy 5 [1] [2] 10 [3] [4] toyOps = some (d₂, log₂) ∧
    d₂.keyLookup Crypto.toy ⟨[0x61]⟩ = some r₂ ∧
    c₁.handleResponse Crypto.toy KeyLookupType r₂ [0x61] (some [9, 9]) = some (c₂, none) ∧
    c₂.tbs [0x61] = none ∧ c₂.aud.verified.core.epoch = 1 := by
  have key : ((dirAfter Crypto.toy 5 [1] [2] 10 [3] [4] []).bind fun x =>
      (x.1.register Crypto.toy (some [5]) ⟨[0x61], [9, 9]⟩).bind fun y =>
      ((toyClient x.1.latestSTR).handleResponse Crypto.toy RegistrationType y.2 [0x61] (some [9, 9])).bind fun c =>
      (dirAfter Crypto.toy 5 [1] [2] 10 [3] [4] toyOps).bind fun z => (z.1.keyLookup Crypto.toy ⟨[0x61]⟩).bind fun r =>
      (c.1.handleResponse Crypto.toy KeyLookupType r [0x61] (some [9, 9])).map fun c' =>
      (c.2, (c.1.tbs [0x61]).map (fun tb => tb.value), c'.2, c'.1.tbs [0x61], c'.1.aud.verified.core.epoch)) =
      some (none, some [9, 9], none, none, 1) := by
    rw [dirAfterE_eq, dirAfterE_eq]; simp only [registerE_eq]; decide +kernel
  obtain ⟨⟨d₀, log₀⟩, h1, key⟩ := Option.bind_eq_some_iff.mp key
  obtain ⟨⟨d₁, r₁⟩, h2, key⟩ := Option.bind_eq_some_iff.mp key
  obtain ⟨⟨c₁, e₁⟩, h3, key⟩ := Option.bind_eq_some_iff.mp key
  obtain ⟨⟨d₂, log₂⟩, h4, key⟩ := Option.bind_eq_some_iff.mp key
  obtain ⟨r₂, h5, key⟩ := Option.bind_eq_some_iff.mp key
  obtain ⟨⟨c₂, e₂⟩, h6, key⟩ := Option.map_eq_some_iff.mp key
  simp only [Prod.mk.injEq] at key
  obtain ⟨k1, k2, k3, k4, k5⟩ := key
  subst k1; subst k3
  exact ⟨d₀, log₀, d₁, r₁, d₂, log₂, r₂, c₁, c₂, h1, h2, h3, k2, h4, h5, h6, k4, k5⟩

/-- the same session as a sequence of calls: the hypotheses of C32 hold for it, with one epoch entered; a replayed response is refused and the
sequence goes on -/
example : ∃ (d₀ : Directory) (log₀ : List STR) (r₁ r₂ : Response) (c₂ : Client),
    dirAfter Crypto.toy 5 [1] [2] 10 [3] [4] [] = some (d₀, log₀) ∧
    clientAfter Crypto.toy (toyClient d₀.latestSTR) [⟨RegistrationType, r₁, [0x61], some [9, 9]⟩, ⟨KeyLookupType, r₂, [0x61], none⟩,
      ⟨RegistrationType, r₁, [0x61], none⟩] = some c₂ ∧ c₂.aud.verified.core.epoch = 1 := by
  have key : ((dirAfter Crypto.toy 5 [1] [2] 10 [3] [4] []).bind fun x =>
      (x.1.register Crypto.toy (some [5]) ⟨[0x61], [9, 9]⟩).bind fun y =>
      (dirAfter Crypto.toy 5 [1] [2] 10 [3] [4] toyOps).bind fun z => (z.1.keyLookup Crypto.toy ⟨[0x61]⟩).bind fun r =>
      (clientAfter Crypto.toy (toyClient x.1.latestSTR) [⟨RegistrationType, y.2, [0x61], some [9, 9]⟩, ⟨KeyLookupType, r, [0x61], none⟩,
      ⟨RegistrationType, y.2, [0x61], none⟩]).map fun c => c.aud.verified.core.epoch) = some 1 := by
    rw [dirAfterE_eq, dirAfterE_eq]; simp only [registerE_eq]; decide +kernel
  obtain ⟨⟨d₀, log₀⟩, h1, key⟩ := Option.bind_eq_some_iff.mp key
  obtain ⟨⟨d₁, r₁⟩, h2, key⟩ := Option.bind_eq_some_iff.mp key
  obtain ⟨⟨d₂, log₂⟩, h4, key⟩ := Option.bind_eq_some_iff.mp key
  obtain ⟨r₂, h5, key⟩ := Option.bind_eq_some_iff.mp key
  obtain ⟨c₂, h6, key⟩ := Option.map_eq_some_iff.mp key
  exact ⟨d₀, log₀, r₁, r₂, c₂, h1, h6, key⟩

/-! ### C38 -/

/-- C38: a refused response changes neither bindings nor promises, and the held STR stays or moves to its signed, linked successor. -/
theorem C38_refused (C : Crypto) (cc cc' : Client) (ty : Int) (msg : Response) (uname : Bytes) (key : Option Bytes) (e : ErrorCode)
    (h : cc.handleResponse C ty msg uname key = some (cc', some e)) :
    cc'.bindings = cc.bindings ∧ cc'.tbs = cc.tbs ∧ cc'.useTBs = cc.useTBs ∧ cc'.aud.signKey = cc.aud.signKey ∧
    (cc'.aud.verified = cc.aud.verified ∨ Successor C cc.aud.signKey cc.aud.verified cc'.aud.verified) := by
  rcases handle_cases h with ⟨_, rfl⟩ | ⟨df, s, rest, _, _, _, _, hc, ⟨_, rfl⟩ | ⟨h, _⟩⟩
  · exact ⟨rfl, rfl, rfl, rfl, .inl rfl⟩
  · exact ⟨rfl, rfl, rfl, rfl, hc⟩
  · nomatch h

/-- C38: and an accepted response changes them for its own name only. -/
theorem C38_accepted_frame (C : Crypto) (cc cc' : Client) (htb : cc.useTBs = true) (ty : Int) (msg : Response) (uname : Bytes)
    (key : Option Bytes) (h : cc.handleResponse C ty msg uname key = some (cc', none)) (n : Bytes) (hn : n ≠ uname) :
    cc'.bindings n = cc.bindings n ∧ cc'.tbs n = cc.tbs n := by
  obtain ⟨ap, str, tb, leaf, t, pol, _, _, _, _, _, _, k3, k4, _⟩ := (C34_accept_iff C cc htb ty msg uname key cc').mp h
  exact ⟨by rw [k3 n, if_neg hn], k4 n hn⟩

/-! ### C35 -/

/-- C35 is refuted: no key is ever recorded. After every accepted response the entry for the name is a nil key, whatever the response
showed. -/
theorem C35_never_recorded_counterexample (C : Crypto) (cc cc' : Client) (htb : cc.useTBs = true) (ty : Int) (msg : Response)
    (uname : Bytes) (key : Option Bytes) (h : cc.handleResponse C ty msg uname key = some (cc', none)) :
    cc'.bindings uname = some none := by
  obtain ⟨ap, str, tb, leaf, t, pol, _, _, _, _, _, _, k3, _⟩ := (C34_accept_iff C cc htb ty msg uname key cc').mp h
  rw [k3 uname, if_pos rfl]

/-- C35, PARTIAL: pinning works if the caller keeps the key itself and passes it in: every accepted response for which the caller expects
`k` shows `k` if it shows a key in the tree, and promises `k` if it promises one. The full claim (through the recorded bindings) is refuted
above. -/
theorem C35_caller_pins_partial (C : Crypto) (cc cc' : Client) (htb : cc.useTBs = true) (ty : Int) (msg : Response) (uname k : Bytes)
    (h : cc.handleResponse C ty msg uname (some k) = some (cc', none)) :
    ∃ ap str tb leaf, Carries msg ap str tb ∧ ap.leaf = some leaf ∧
      (ap.lookupIndex = leaf.index → leaf.value.getD [] = k) ∧
      (ap.lookupIndex ≠ leaf.index → msg.error ≠ ReqNameNotFound → ∃ p, tb = some p ∧ p.value = k) := by
  obtain ⟨ap, str, tb, leaf, pol, h1, _, _, _, _, h2, h3, h4, _⟩ := C34_acceptance C cc cc' htb ty msg uname (some k) h
  refine ⟨ap, str, tb, leaf, h1, h2, fun hi => (h3 hi).2 k rfl, fun hi hn => ?_⟩
  obtain ⟨p, g1, _, _, g2⟩ := h4 hi hn
  exact ⟨p, g1, g2 k rfl⟩

set_option synthInstance.maxSize 1000 in
/-- C35, what "through the recorded bindings" gives: a directory that signs a second tree with another key for alice is believed by a client
that looked alice up before and passes on what it recorded. -/
theorem C35_key_swap_counterexample : ∃ (d₁ d₂ : Directory) (l₁ l₂ : List STR) (r₁ r₂ : Response) (c₀ c₁ c₂ : Client) (v₁ v₂ : Bytes),
    dirAfter Crypto.toy 5 [1] [2] 10 [3] [4] [.register (some [5]) ⟨[0x61], [1]⟩, .update] = some (d₁, l₁) ∧
    dirAfter Crypto.toy 5 [1] [2] 10 [3] [4] [.register (some [5]) ⟨[0x61], [2]⟩, .update] = some (d₂, l₂) ∧
    d₁.keyLookup Crypto.toy ⟨[0x61]⟩ = some r₁ ∧ keysShown r₁ = [v₁] ∧
    c₀.handleResponse Crypto.toy KeyLookupType r₁ [0x61] none = some (c₁, none) ∧ c₁.bindings [0x61] = some none ∧
    d₂.keyLookup Crypto.toy ⟨[0x61]⟩ = some r₂ ∧ keysShown r₂ = [v₂] ∧
    Client.handleResponse Crypto.toy { c₁ with aud := c₀.aud } KeyLookupType r₂ [0x61] none = some (c₂, none) ∧ v₁ ≠ v₂ := by
  have key : ((dirAfter Crypto.toy 5 [1] [2] 10 [3] [4] [.register (some [5]) ⟨[0x61], [1]⟩, .update]).bind fun x =>
      (dirAfter Crypto.toy 5 [1] [2] 10 [3] [4] [.register (some [5]) ⟨[0x61], [2]⟩, .update]).bind fun y =>
      (dirAfter Crypto.toy 5 [1] [2] 10 [3] [4] []).bind fun z =>
      (x.1.keyLookup Crypto.toy ⟨[0x61]⟩).bind fun r₁ =>
      ((toyClient z.1.latestSTR).handleResponse Crypto.toy KeyLookupType r₁ [0x61] none).bind fun c₁ =>
      (y.1.keyLookup Crypto.toy ⟨[0x61]⟩).bind fun r₂ =>
      (Client.handleResponse Crypto.toy { c₁.1 with aud := (toyClient z.1.latestSTR).aud } KeyLookupType r₂ [0x61] none).map fun c₂ =>
      (keysShown r₁, c₁.2, c₁.1.bindings [0x61], keysShown r₂, c₂.2)) =
      (some ([[1]], none, some none, [[2]], none) :
        Option (List Bytes × Option ErrorCode × Option (Option Bytes) × List Bytes × Option ErrorCode)) := by
    rw [dirAfterE_eq, dirAfterE_eq, dirAfterE_eq]; decide +kernel
  obtain ⟨⟨d₁, l₁⟩, h1, key⟩ := Option.bind_eq_some_iff.mp key
  obtain ⟨⟨d₂, l₂⟩, h2, key⟩ := Option.bind_eq_some_iff.mp key
  obtain ⟨⟨d₀, l₀⟩, h3, key⟩ := Option.bind_eq_some_iff.mp key
  obtain ⟨r₁, h4, key⟩ := Option.bind_eq_some_iff.mp key
  obtain ⟨⟨c₁, e₁⟩, h5, key⟩ := Option.bind_eq_some_iff.mp key
  obtain ⟨r₂, h6, key⟩ := Option.bind_eq_some_iff.mp key
  obtain ⟨⟨c₂, e₂⟩, h7, key⟩ := Option.map_eq_some_iff.mp key
  simp only [Prod.mk.injEq] at key
  obtain ⟨k1, k2, k3, k4, k5⟩ := key
  subst k2; subst k5
  exact ⟨d₁, d₂, l₁, l₂, r₁, r₂, _, c₁, c₂, [1], [2], h1, h2, h4, k1, h5, k3, h6, k4, h7, by decide⟩

end Coniks.Props

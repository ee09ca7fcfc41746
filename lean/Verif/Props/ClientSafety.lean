import Verif.Props.Client
/-
C36, C37: broken promises; panics of the client.
-/
namespace Coniks.Props
open Coniks Spec

/-! ### C36 -/

/-- C36, PARTIAL. The full claim: a client that holds a promise for a name accepts no later response for it that contradicts it. Proved: an
accepted lookup whose proof shows a key in the tree shows the promised index and the promised key, and the promise is then dropped (it is
fulfilled). The rest is false, see the two counterexamples. -/
theorem C36_fulfilled_partial (C : Crypto) (cc cc' : Client) (htb : cc.useTBs = true) (msg : Response) (uname : Bytes) (key : Option Bytes)
    (h : cc.handleResponse C KeyLookupType msg uname key = some (cc', none)) (p : TB) (hp : cc.tbs uname = some p)
    (ap : AuthPath) (str : DirSTR) (tb : Option TB) (leaf : ProofNode) (hc : Carries msg ap str tb) (hl : ap.leaf = some leaf)
    (hincl : ap.lookupIndex = leaf.index) :
    ap.lookupIndex = p.index ∧ leaf.value.getD [] = p.value ∧ cc'.tbs uname = none := by
  obtain ⟨ap', str', tb', leaf', t, pol, ⟨x, y, hc'⟩, ck, _, hf, _, _, _, _, _, h6, _⟩ := (C34_accept_iff C cc htb _ msg uname key cc').mp h
  obtain ⟨x', y', hc⟩ := hc
  rw [hc'] at hc
  simp only [DirectoryResponse.proof.injEq, DirectoryProof.mk.injEq, List.cons.injEq, Option.some.injEq] at hc
  obtain ⟨⟨rfl, _⟩, ⟨rfl, _⟩, rfl⟩ := hc
  have hleaf := ck.leaf_eq
  rw [hl] at hleaf
  simp only [Option.some.injEq] at hleaf
  subst hleaf
  have ht : t = .inclusion := by rw [ck.type_eq, if_pos hincl]
  obtain ⟨g1, g2⟩ := hf rfl ht p hp
  exact ⟨g1, g2, h6 rfl ht⟩

/-- C36: a contradicting inclusion is refused, and the promise kept as evidence: no lookup that shows another key in the tree returns nil. -/
theorem C36_other_value_refused (C : Crypto) (cc cc' : Client) (htb : cc.useTBs = true) (msg : Response) (uname : Bytes) (key : Option Bytes)
    (e : Option ErrorCode) (h : cc.handleResponse C KeyLookupType msg uname key = some (cc', e)) (p : TB) (hp : cc.tbs uname = some p)
    (ap : AuthPath) (str : DirSTR) (tb : Option TB) (leaf : ProofNode) (hc : Carries msg ap str tb) (hl : ap.leaf = some leaf)
    (hincl : ap.lookupIndex = leaf.index) (hbroken : leaf.value.getD [] ≠ p.value ∨ ap.lookupIndex ≠ p.index) :
    (∃ c, e = some c) ∧ cc'.tbs uname = some p := by
  cases e with
  | none =>
    obtain ⟨h1, h2, _⟩ := C36_fulfilled_partial C cc cc' htb msg uname key h p hp ap str tb leaf hc hl hincl
    rcases hbroken with hb | hb
    · exact absurd h2 hb
    · exact absurd h1 hb
  | some c => exact ⟨⟨c, rfl⟩, by rw [(C38_refused C cc cc' _ msg uname key c h).2.1, hp]⟩

/-- both theorems at work: alice's client holds a promise for [9, 9]; in the next epoch it accepts the tree that holds [9, 9] (and drops the
promise) and refuses a tree that holds [7] -/
example : ∃ (d₀ d₁ : Directory) (log₀ : List STR) (r₁ : Response) (c₁ : Client) (p : TB), ∃ (d₂ d₃ : Directory) (log₂ log₃ : List STR)
    (r₂ r₃ : Response) (c₂ c₃ : Client) (e : Option ErrorCode),
    dirAfter Crypto.toy 5 [1] [2] 10 [3] [4] [] = some (d₀, log₀) ∧
    d₀.register Crypto.toy (some [5]) ⟨[0x61], [9, 9]⟩ = some (d₁, r₁) ∧
    (toyClient d₀.latestSTR).handleResponse Crypto.toy RegistrationType r₁ [0x61] (some [9, 9]) = some (c₁, none) ∧ c₁.tbs [0x61] = some p ∧
    dirAfter Crypto.toy 5 [1] [2] 10 [3] [4] toyOps = some (d₂, log₂) ∧ d₂.keyLookup Crypto.toy ⟨[0x61]⟩ = some r₂ ∧
    c₁.handleResponse Crypto.toy KeyLookupType r₂ [0x61] none = some (c₂, none) ∧ c₂.tbs [0x61] = none ∧
    dirAfter Crypto.toy 5 [1] [2] 10 [3] [4] [.register (some [5]) ⟨[0x61], [7]⟩, .update] = some (d₃, log₃) ∧
    d₃.keyLookup Crypto.toy ⟨[0x61]⟩ = some r₃ ∧
    c₁.handleResponse Crypto.toy KeyLookupType r₃ [0x61] none = some (c₃, e) ∧ (∃ c, e = some c) ∧ c₃.tbs [0x61] = some p := by
  have key : ((dirAfter Crypto.toy 5 [1] [2] 10 [3] [4] []).bind fun x =>
      (x.1.register Crypto.toy (some [5]) ⟨[0x61], [9, 9]⟩).bind fun y =>
      ((toyClient x.1.latestSTR).handleResponse Crypto.toy RegistrationType y.2 [0x61] (some [9, 9])).bind fun c =>
      (c.1.tbs [0x61]).bind fun p =>
      (dirAfter Crypto.toy 5 [1] [2] 10 [3] [4] toyOps).bind fun z => (z.1.keyLookup Crypto.toy ⟨[0x61]⟩).bind fun r =>
      (c.1.handleResponse Crypto.toy KeyLookupType r [0x61] none).bind fun c' =>
      (dirAfter Crypto.toy 5 [1] [2] 10 [3] [4] [.register (some [5]) ⟨[0x61], [7]⟩, .update]).bind fun z' =>
      (z'.1.keyLookup Crypto.toy ⟨[0x61]⟩).bind fun r' =>
      (c.1.handleResponse Crypto.toy KeyLookupType r' [0x61] none).bind fun c'' =>
      match r.resp, r'.resp with
      | .proof ⟨[some ap], [some _], _⟩, .proof ⟨[some ap'], [some _], _⟩ => ap.leaf.bind fun l => ap'.leaf.map fun l' =>
        ((c.2, c'.2), decide (ap.lookupIndex = l.index ∧ ap'.lookupIndex = l'.index ∧ l'.value.getD [] ≠ p.value))
      | _, _ => none) = some ((none, none), true) := by
    rw [dirAfterE_eq, dirAfterE_eq, dirAfterE_eq]; simp only [registerE_eq]; decide +kernel
  obtain ⟨⟨d₀, log₀⟩, h1, key⟩ := Option.bind_eq_some_iff.mp key
  obtain ⟨⟨d₁, r₁⟩, h2, key⟩ := Option.bind_eq_some_iff.mp key
  obtain ⟨⟨c₁, e₁⟩, h3, key⟩ := Option.bind_eq_some_iff.mp key
  obtain ⟨p, hp, key⟩ := Option.bind_eq_some_iff.mp key
  obtain ⟨⟨d₂, log₂⟩, h4, key⟩ := Option.bind_eq_some_iff.mp key
  obtain ⟨r₂, h5, key⟩ := Option.bind_eq_some_iff.mp key
  obtain ⟨⟨c₂, e₂⟩, h6, key⟩ := Option.bind_eq_some_iff.mp key
  obtain ⟨⟨d₃, log₃⟩, h7, key⟩ := Option.bind_eq_some_iff.mp key
  obtain ⟨r₃, h8, key⟩ := Option.bind_eq_some_iff.mp key
  obtain ⟨⟨c₃, e₃⟩, h9, key⟩ := Option.bind_eq_some_iff.mp key
  dsimp only at h2 h3 h5 h6 h8 h9 hp
  split at key
  · next ap str tb ap' str' tb' k1 k2 =>
    obtain ⟨l, hl, key⟩ := Option.bind_eq_some_iff.mp key
    obtain ⟨l', hl', key⟩ := Option.map_eq_some_iff.mp key
    simp only [Prod.mk.injEq, decide_eq_true_eq] at key
    obtain ⟨⟨rfl, rfl⟩, m1, m2, m3⟩ := key
    have htb : c₁.useTBs = true := by
      obtain ⟨_, _, _, _, _, _, _, _, _, _, _, g, _⟩ := (C34_accept_iff Crypto.toy (toyClient d₀.latestSTR) rfl _ _ _ _ c₁).mp h3
      exact g
    have f1 := C36_fulfilled_partial Crypto.toy c₁ c₂ htb r₂ [0x61] none h6 p hp ap str tb l ⟨_, _, k1⟩ hl m1
    have f2 := C36_other_value_refused Crypto.toy c₁ c₃ htb r₃ [0x61] none e₃ h9 p hp ap' str' tb' l' ⟨_, _, k2⟩ hl' m2 (.inl m3)
    exact ⟨d₀, d₁, log₀, r₁, c₁, p, d₂, d₃, log₂, log₃, r₂, r₃, c₂, c₃, e₃, h1, h2, h3, hp, h4, h5, h6, f1.2.2, h7, h8, h9, f2.1, f2.2⟩
  · nomatch key

/-- C36 is false for absence: a client registers alice and gets a promise; in the next epoch the directory shows a tree without alice and
answers "not found"; the client accepts and goes on holding the broken promise. -/
theorem C36_absence_counterexample : ∃ (d₀ d₁ : Directory) (log₀ : List STR) (r₁ : Response) (c₁ : Client) (p : TB) (d₂ : Directory)
    (log₂ : List STR) (r₂ : Response) (c₂ : Client),
    dirAfter Crypto.toy 5 [1] [2] 10 [3] [4] [] = some (d₀, log₀) ∧
    d₀.register Crypto.toy (some [5]) ⟨[0x61], [9, 9]⟩ = some (d₁, r₁) ∧
    (toyClient d₀.latestSTR).handleResponse Crypto.toy RegistrationType r₁ [0x61] (some [9, 9]) = some (c₁, none) ∧
    c₁.tbs [0x61] = some p ∧ p.value = [9, 9] ∧
    -- the directory forgets alice
    dirAfter Crypto.toy 5 [1] [2] 10 [3] [4] [.update] = some (d₂, log₂) ∧
    d₂.keyLookup Crypto.toy ⟨[0x61]⟩ = some r₂ ∧ r₂.error = ReqNameNotFound ∧
    c₁.handleResponse Crypto.toy KeyLookupType r₂ [0x61] (some [9, 9]) = some (c₂, none) ∧
    c₂.aud.verified.core.epoch = 1 ∧ c₂.tbs [0x61] = some p := by
  have key : ((dirAfter Crypto.toy 5 [1] [2] 10 [3] [4] []).bind fun x =>
      (x.1.register Crypto.toy (some [5]) ⟨[0x61], [9, 9]⟩).bind fun y =>
      ((toyClient x.1.latestSTR).handleResponse Crypto.toy RegistrationType y.2 [0x61] (some [9, 9])).bind fun c =>
      (c.1.tbs [0x61]).bind fun p =>
      (dirAfter Crypto.toy 5 [1] [2] 10 [3] [4] [.update]).bind fun z => (z.1.keyLookup Crypto.toy ⟨[0x61]⟩).bind fun r =>
      (c.1.handleResponse Crypto.toy KeyLookupType r [0x61] (some [9, 9])).map fun c' =>
      ((c.2, p.value, r.error), (c'.2, c'.1.aud.verified.core.epoch, decide (c'.1.tbs [0x61] = some p)))) =
      some ((none, [9, 9], ReqNameNotFound), (none, 1, true)) := by
    rw [dirAfterE_eq, dirAfterE_eq]; simp only [registerE_eq]; decide +kernel
  obtain ⟨⟨d₀, log₀⟩, h1, key⟩ := Option.bind_eq_some_iff.mp key
  obtain ⟨⟨d₁, r₁⟩, h2, key⟩ := Option.bind_eq_some_iff.mp key
  obtain ⟨⟨c₁, e₁⟩, h3, key⟩ := Option.bind_eq_some_iff.mp key
  obtain ⟨p, hp, key⟩ := Option.bind_eq_some_iff.mp key
  obtain ⟨⟨d₂, log₂⟩, h4, key⟩ := Option.bind_eq_some_iff.mp key
  obtain ⟨r₂, h5, key⟩ := Option.bind_eq_some_iff.mp key
  obtain ⟨⟨c₂, e₂⟩, h6, key⟩ := Option.map_eq_some_iff.mp key
  simp only [Prod.mk.injEq, decide_eq_true_eq] at key
  obtain ⟨⟨k1, k2, k3⟩, k4, k5, k6⟩ := key
  subst k1; subst k4
  exact ⟨d₀, d₁, log₀, r₁, c₁, p, d₂, log₂, r₂, c₂, h1, h2, h3, hp, k2, h4, h5, k3, h6, k5, k6⟩

/-- C36 is false for a second promise: in the next epoch the directory shows a tree without alice and promises another key; a client without
its own expectation accepts, and the first promise, the evidence, is overwritten. -/
theorem C36_second_promise_counterexample : ∃ (d₀ d₁ : Directory) (log₀ : List STR) (r₁ : Response) (c₁ : Client) (p q : TB)
    (d₂ : Directory) (log₂ : List STR) (r₂ : Response) (c₂ : Client),
    dirAfter Crypto.toy 5 [1] [2] 10 [3] [4] [] = some (d₀, log₀) ∧
    d₀.register Crypto.toy (some [5]) ⟨[0x61], [9, 9]⟩ = some (d₁, r₁) ∧
    (toyClient d₀.latestSTR).handleResponse Crypto.toy RegistrationType r₁ [0x61] (some [9, 9]) = some (c₁, none) ∧
    c₁.tbs [0x61] = some p ∧ p.value = [9, 9] ∧
    -- the directory forgets alice and promises a new key
    dirAfter Crypto.toy 5 [1] [2] 10 [3] [4] [.update, .register (some [5]) ⟨[0x61], [7]⟩] = some (d₂, log₂) ∧
    d₂.keyLookup Crypto.toy ⟨[0x61]⟩ = some r₂ ∧
    c₁.handleResponse Crypto.toy KeyLookupType r₂ [0x61] none = some (c₂, none) ∧
    c₂.tbs [0x61] = some q ∧ q.value = [7] := by
  have key : ((dirAfter Crypto.toy 5 [1] [2] 10 [3] [4] []).bind fun x =>
      (x.1.register Crypto.toy (some [5]) ⟨[0x61], [9, 9]⟩).bind fun y =>
      ((toyClient x.1.latestSTR).handleResponse Crypto.toy RegistrationType y.2 [0x61] (some [9, 9])).bind fun c =>
      (c.1.tbs [0x61]).bind fun p =>
      (dirAfter Crypto.toy 5 [1] [2] 10 [3] [4] [.update, .register (some [5]) ⟨[0x61], [7]⟩]).bind fun z =>
      (z.1.keyLookup Crypto.toy ⟨[0x61]⟩).bind fun r =>
      (c.1.handleResponse Crypto.toy KeyLookupType r [0x61] none).bind fun c' => (c'.1.tbs [0x61]).map fun q =>
      ((c.2, p.value), (c'.2, q.value))) =
      some ((none, [9, 9]), (none, [7])) := by
    rw [dirAfterE_eq, dirAfterE_eq]; simp only [registerE_eq]; decide +kernel
  obtain ⟨⟨d₀, log₀⟩, h1, key⟩ := Option.bind_eq_some_iff.mp key
  obtain ⟨⟨d₁, r₁⟩, h2, key⟩ := Option.bind_eq_some_iff.mp key
  obtain ⟨⟨c₁, e₁⟩, h3, key⟩ := Option.bind_eq_some_iff.mp key
  obtain ⟨p, hp, key⟩ := Option.bind_eq_some_iff.mp key
  obtain ⟨⟨d₂, log₂⟩, h4, key⟩ := Option.bind_eq_some_iff.mp key
  obtain ⟨r₂, h5, key⟩ := Option.bind_eq_some_iff.mp key
  obtain ⟨⟨c₂, e₂⟩, h6, key⟩ := Option.bind_eq_some_iff.mp key
  obtain ⟨q, hq, key⟩ := Option.map_eq_some_iff.mp key
  simp only [Prod.mk.injEq] at key
  obtain ⟨⟨k1, k2⟩, k3, k4⟩ := key
  subst k1; subst k3
  exact ⟨d₀, d₁, log₀, r₁, c₁, p, q, d₂, log₂, r₂, c₂, h1, h2, h3, hp, k2, h4, h5, h6, hq, k4⟩

/-! ### C37 -/

/-- What a response must contain for the client not to panic on it: a typed, non-nil payload or none; first elements that are there; an STR
with policies; a proof that has its parts (C15). -/
inductive Handled : Response → Prop
  | error (m : Response) (h : errorsSet m.error = true) : Handled m
  | empty (c : ErrorCode) : Handled ⟨c, .none⟩
  | history (c : ErrorCode) (l : List (Option DirSTR)) : Handled ⟨c, .history l⟩
  | short (c : ErrorCode) (df : DirectoryProof) (h : df.str = [] ∨ df.ap = []) : Handled ⟨c, .proof df⟩
  | proof (c : ErrorCode) (ap : AuthPath) (aps : List (Option AuthPath)) (str : DirSTR) (strs : List (Option DirSTR)) (tb : Option TB)
      (leaf : ProofNode) (hc : Complete ap leaf) (hp : str.policies ≠ none) : Handled ⟨c, .proof ⟨some ap :: aps, some str :: strs, tb⟩⟩

theorem verifyAuthPath_total (C : Crypto) (uname : Bytes) (key : Option Bytes) (ap : AuthPath) (leaf : ProofNode) (str : DirSTR)
    (hc : Complete ap leaf) (hp : str.policies ≠ none) : ∃ r, verifyAuthPath C uname key ap str = some r := by
  unfold verifyAuthPath
  cases hpol : str.policies with
  | none => exact absurd hpol hp
  | some pol =>
    simp only
    split
    · have : ∃ k, expectedKey key ap = some k := by
        cases key with
        | none => exact ⟨_, by simp only [expectedKey, hc.leaf]; rfl⟩
        | some k => exact ⟨k, rfl⟩
      obtain ⟨k, hk⟩ := this
      rw [hk]
      obtain ⟨r, hr⟩ := C15_verify_total_partial C ap leaf hc uname k str.core.treeHash
      simp only [hr]
      cases r with
      | ok _ => exact ⟨_, rfl⟩
      | error e => cases e <;> exact ⟨_, rfl⟩
    · exact ⟨_, rfl⟩

/-- C37, PARTIAL. The full claim: no response crashes the client. Proved: for registrations and lookups `HandleResponse` does not panic on
responses with the parts listed in `Handled`, whatever their content. The rest is false, see the counterexamples. -/
theorem C37_handle_total_partial (C : Crypto) (cc : Client) (ty : Int) (hty : ty = RegistrationType ∨ ty = KeyLookupType) (msg : Response)
    (h : Handled msg) (uname : Bytes) (key : Option Bytes) : ∃ r, cc.handleResponse C ty msg uname key = some r := by
  have hmem : ty = RegistrationType ∨ ty = KeyLookupType ∨ ty = KeyLookupInEpochType ∨ ty = MonitoringType := by
    rcases hty with h | h
    · exact .inl h
    · exact .inr (.inl h)
  by_cases he : errorsSet msg.error = true
  · exact ⟨_, by simp [Client.handleResponse, Response.validate, he]; rfl⟩
  cases h with
  | error m h => exact absurd h he
  | empty c => exact ⟨_, by simp [Client.handleResponse, Response.validate, he]; rfl⟩
  | history c l =>
    by_cases hl : l.length = 0
    · exact ⟨_, by simp only [Client.handleResponse, Response.validate, he, hl]; rfl⟩
    · refine ⟨(cc, some ErrMalformedMessage), ?_⟩
      simp only [Client.handleResponse, Response.validate, he, hl, if_false, if_pos hmem, Bool.false_eq_true]
  | short c df h =>
    have : df.str.length = 0 ∨ df.ap.length = 0 := by
      rcases h with h | h
      · exact .inl (by rw [h]; rfl)
      · exact .inr (by rw [h]; rfl)
    exact ⟨_, by simp only [Client.handleResponse, Response.validate, he, if_pos this]; rfl⟩
  | proof c ap aps str strs tb leaf hc hp =>
    have hv : Response.validate ⟨c, .proof ⟨some ap :: aps, some str :: strs, tb⟩⟩ = some none := by simp [Response.validate, he]
    unfold Client.handleResponse
    rw [hv]
    simp only
    rw [if_pos hmem]
    have hup : ∃ c1 e, cc.updateSTR C ty ⟨some ap :: aps, some str :: strs, tb⟩ = some (c1, e) := by
      unfold Client.updateSTR
      rw [if_pos hty]
      obtain ⟨r, hr, _⟩ := check_total C cc.aud str hp
      simp only [audit_one, hr]
      cases r with
      | none => exact ⟨_, _, rfl⟩
      | some e => exact ⟨_, _, rfl⟩
    obtain ⟨c1, e, hup⟩ := hup
    simp only [hup]
    cases e with
    | some e => exact ⟨_, rfl⟩
    | none =>
      simp only
      have hpt : ∃ t, ap.proofType = some t := by
        unfold AuthPath.proofType; rw [hc.leaf]; exact ⟨_, rfl⟩
      obtain ⟨t, hpt⟩ := hpt
      obtain ⟨r, hr⟩ := verifyAuthPath_total C uname key ap leaf str hc hp
      have hcc : ∃ r, c1.checkConsistency C ty c ⟨some ap :: aps, some str :: strs, tb⟩ uname key = some r := by
        unfold Client.checkConsistency
        split
        · simp only [Client.verifyRegistration, DirectoryProof.first, hpt]
          split
          · exact ⟨r, hr⟩
          · exact ⟨_, rfl⟩
        · rw [if_pos (by rcases hty with h | h; exact absurd h ‹_›; exact h)]
          simp only [Client.verifyKeyLookup, DirectoryProof.first, hpt]
          split
          · exact ⟨r, hr⟩
          · exact ⟨_, rfl⟩
      obtain ⟨r', hcc⟩ := hcc
      simp only [hcc]
      cases r' with
      | some e => exact ⟨_, rfl⟩
      | none =>
        simp only
        have htb : ∃ c2 e, c1.updateTBs C ty c ⟨some ap :: aps, some str :: strs, tb⟩ uname key = some (c2, e) := by
          unfold Client.updateTBs
          split
          · exact ⟨_, _, rfl⟩
          · simp only [DirectoryProof.first, hpt]
            split
            · split <;> exact ⟨_, _, rfl⟩
            · rw [if_pos (by rcases hty with h | h; exact absurd h ‹_›; exact h)]
              split
              · have : ∃ r, c1.verifyFulfilledPromise uname ap = some r := by
                  unfold Client.verifyFulfilledPromise
                  split
                  · exact ⟨_, rfl⟩
                  · split
                    · exact ⟨_, rfl⟩
                    · rw [hc.leaf]; simp only; split <;> exact ⟨_, rfl⟩
                obtain ⟨r, hr⟩ := this
                rw [hr]
                cases r <;> exact ⟨_, _, rfl⟩
              · split <;> exact ⟨_, _, rfl⟩
        obtain ⟨c2, e, htb⟩ := htb
        rw [htb]
        cases e <;> exact ⟨_, rfl⟩

/-- the answers of the honest directory in the sample session are of this kind -/
example : ∃ (d : Directory) (log : List STR) (r : Response), dirAfter Crypto.toy 5 [1] [2] 10 [3] [4] toyOps = some (d, log) ∧
    d.keyLookup Crypto.toy ⟨[0x61]⟩ = some r ∧ Handled r := by
  have key : ((dirAfter Crypto.toy 5 [1] [2] 10 [3] [4] toyOps).bind fun z => (z.1.keyLookup Crypto.toy ⟨[0x61]⟩).bind fun r =>
      match r.resp with
      | .proof ⟨[some ap], [some str], tb⟩ => ap.leaf.map fun l =>
        (decide (r = ⟨r.error, .proof ⟨[some ap], [some str], tb⟩⟩), str.policies.isSome, l.commitment.isSome,
          decide (l.level.toNat ≤ 8 * l.index.length ∧ l.level.toNat ≤ 8 * ap.lookupIndex.length ∧ l.level.toNat ≤ ap.prunedTree.length))
      | _ => none) = some (true, true, true, true) := by
    rw [dirAfterE_eq]; decide +kernel
  obtain ⟨⟨d, log⟩, h1, key⟩ := Option.bind_eq_some_iff.mp key
  obtain ⟨r, h2, key⟩ := Option.bind_eq_some_iff.mp key
  refine ⟨d, log, r, h1, h2, ?_⟩
  split at key
  · next ap str tb hr =>
    obtain ⟨l, hl, key⟩ := Option.map_eq_some_iff.mp key
    simp only [Prod.mk.injEq, decide_eq_true_eq] at key
    obtain ⟨k1, k2, k3, k4, k5, k6⟩ := key
    rw [k1]
    exact .proof _ ap [] str [] tb l ⟨hl, fun _ => k3, k4, k5, k6⟩ (fun e => by rw [e] at k2; nomatch k2)
  · nomatch key

/-- C37: `CheckEquivocation` does not panic on a history response whose first STR is there and whose STRs have policies. PARTIAL. -/
theorem C37_equivocation_total_partial (C : Crypto) (cc : Client) (c : ErrorCode) (s : DirSTR) (rest : List (Option DirSTR))
    (hp : ∀ t, some t ∈ some s :: rest → t.policies ≠ none) (hlast : (some s :: rest).getLast? ≠ some none) :
    ∃ r, cc.checkEquivocation C ⟨c, .history (some s :: rest)⟩ = some r := by
  unfold Client.checkEquivocation
  by_cases he : errorsSet c = true
  · exact ⟨_, by simp [Response.validate, he]; rfl⟩
  have hv : Response.validate ⟨c, .history (some s :: rest)⟩ = some none := by simp [Response.validate, he]
  rw [hv]
  simp only
  have h1 : ∃ r, (if rest.length > 0 then cc.aud.verifySTRRange C (some s) rest else some none) = some r := by
    split
    · obtain ⟨r, hr, _⟩ := range_total C cc.aud rest s (fun t ht => hp t (List.mem_cons_of_mem _ ht))
      exact ⟨r, hr⟩
    · exact ⟨_, rfl⟩
  obtain ⟨r, hr⟩ := h1
  rw [hr]
  cases r with
  | some e => exact ⟨_, rfl⟩
  | none =>
    simp only
    have hg : (some s :: rest).getLast? = some ((some s :: rest).getLast (by simp)) := List.getLast?_eq_some_getLast _
    cases hx : (some s :: rest).getLast (by simp) with
    | none => rw [hx] at hg; exact absurd hg hlast
    | some t =>
      obtain ⟨r, hr, _⟩ := check_total C cc.aud t (hp t (by rw [← hx]; exact List.getLast_mem _))
      exact ⟨r, hr⟩

/-- an auditor's range of two epochs -/
example : ∃ r, (toyClient toy0).checkEquivocation Crypto.toy ⟨ReqSuccess, .history (some toy0 :: [some toy1])⟩ = some r :=
  C37_equivocation_total_partial Crypto.toy _ _ toy0 [some toy1] (by
    intro t ht
    simp only [List.mem_cons, Option.some.injEq, List.not_mem_nil, or_false] at ht
    rcases ht with rfl | rfl <;> exact fun e => nomatch e) (fun e => nomatch e)

/-- C37 is false, request types: a client that asked for a lookup in an epoch or for monitoring panics on every response that carries a
proof, the honest one included. -/
theorem C37_request_type_counterexample (C : Crypto) (cc : Client) (ty : Int) (hty : ty = KeyLookupInEpochType ∨ ty = MonitoringType)
    (c : ErrorCode) (hc : errorsSet c = false) (df : DirectoryProof) (h1 : df.str ≠ []) (h2 : df.ap ≠ []) (uname : Bytes)
    (key : Option Bytes) : Panics (cc.handleResponse C ty ⟨c, .proof df⟩ uname key) := by
  have hv : Response.validate ⟨c, .proof df⟩ = some none := by simp [Response.validate, hc, h1, h2]
  unfold Panics Client.handleResponse
  rw [hv]
  simp only
  rw [if_pos (.inr (.inr hty))]
  have : cc.updateSTR C ty df = none := by
    unfold Client.updateSTR
    rw [if_neg (by rcases hty with h | h <;> rw [h] <;> decide)]
  simp only [this]

example (ap : AuthPath) : Panics ((toyClient toy0).handleResponse Crypto.toy MonitoringType ⟨ReqSuccess, .proof ⟨[some ap], [some toy0], none⟩⟩ [0x61] none) :=
  C37_request_type_counterexample Crypto.toy _ _ (.inr rfl) _ rfl _ (by simp) (by simp) _ _

/-- C37 is false, lookups: each of these responses to a lookup makes `HandleResponse` panic, in any client state: a nil proof pointer, a
foreign payload, a nil STR, and, with the STR the client already holds, a nil proof, a proof without leaf. -/
theorem C37_panic_counterexamples (C : Crypto) (cc : Client) (uname : Bytes) (key : Option Bytes) (ap : AuthPath) (tb : Option TB) :
    Panics (cc.handleResponse C KeyLookupType ⟨ReqSuccess, .nilProof⟩ uname key) ∧
    Panics (cc.handleResponse C KeyLookupType ⟨ReqSuccess, .other⟩ uname key) ∧
    Panics (cc.handleResponse C KeyLookupType ⟨ReqSuccess, .proof ⟨[some ap], [none], tb⟩⟩ uname key) ∧
    Panics (cc.handleResponse C KeyLookupType ⟨ReqSuccess, .proof ⟨[none], [some cc.aud.verified], tb⟩⟩ uname key) ∧
    Panics (cc.handleResponse C KeyLookupType ⟨ReqSuccess, .proof ⟨[some { ap with leaf := none }], [some cc.aud.verified], tb⟩⟩ uname key) := by
  have hu : ∀ a, cc.updateSTR C KeyLookupType ⟨a, [some cc.aud.verified], tb⟩ =
      some ({ cc with aud := cc.aud.update cc.aud.verified }, none) := fun a => updateSTR_ok (.inr rfl) rfl (.inl rfl)
  have hne : KeyLookupType ≠ RegistrationType := by decide
  have he : errorsSet ReqSuccess = false := rfl
  refine ⟨?_, ?_, ?_, ?_, ?_⟩
  · simp [Panics, Client.handleResponse, Response.validate, he]
  · simp [Panics, Client.handleResponse, Response.validate, he]
  · simp [Panics, Client.handleResponse, Response.validate, he, Client.updateSTR, audit_one, AudState.checkSTRAgainstVerified]
  · simp [Panics, Client.handleResponse, Response.validate, he, hu, Client.checkConsistency, hne, Client.verifyKeyLookup,
      DirectoryProof.first]
  · simp [Panics, Client.handleResponse, Response.validate, he, hu, Client.checkConsistency, hne, Client.verifyKeyLookup,
      DirectoryProof.first, AuthPath.proofType]

/-- C37 is false, equivocation check: `CheckEquivocation` panics on every response with a (complete) proof instead of a history. -/
theorem C37_equivocation_counterexample (C : Crypto) (cc : Client) (c : ErrorCode) (hc : errorsSet c = false) (df : DirectoryProof)
    (h1 : df.str ≠ []) (h2 : df.ap ≠ []) : Panics (cc.checkEquivocation C ⟨c, .proof df⟩) := by
  simp [Panics, Client.checkEquivocation, Response.validate, hc, h1, h2]

example (ap : AuthPath) : Panics ((toyClient toy0).checkEquivocation Crypto.toy ⟨ReqSuccess, .proof ⟨[some ap], [some toy0], none⟩⟩) :=
  C37_equivocation_counterexample Crypto.toy _ _ rfl _ (by simp) (by simp)

end Coniks.Props

import Verif.Spec.SessionExact
import Verif.Proofs.DirExact
import Verif.Proofs.Session
/-
A client with an honest directory, exactly, for every VRF.
-/
namespace Coniks
open Spec Props

/-- the kind of proof that shows a finding -/
def kindShown : Finding → ProofType
  | .absent => .absence
  | _ => .inclusion

/-- `verifyAuthPath` in terms of `Verify` -/
theorem verifyAuthPath_eq {C : Crypto} {vk n : Bytes} {key : Option Bytes} {ap : AuthPath} {str : DirSTR} {pol : Policies} {f : Finding}
    {l : ProofNode} (hpol : str.policies = some pol) (hv : pol.vrfPublicKey = C.vrfPub vk)
    (hs : ProofOf C vk n str.core.treeHash ap f) (hl : ap.leaf = some l) :
    verifyAuthPath C n key ap str =
      if vrfOk C vk n = false then some (some CheckBadVRFProof)
      else match ap.verify C n (key.getD (l.value.getD [])) str.core.treeHash with
        | none => none
        | some (.error .bindingsDiffer) => some (some CheckBindingsDiffer)
        | some (.error .unverifiableCommitment) => some (some CheckBadCommitment)
        | some (.error .indicesMismatch) => some (some CheckBadLookupIndex)
        | some (.error .unequalTreeHashes) => some (some CheckBadAuthPath)
        | some (.ok _) => some none := by
  have hx : expectedKey key ap = some (key.getD (l.value.getD [])) := by
    cases key with
    | none => simp [expectedKey, hl]
    | some k => rfl
  unfold verifyAuthPath
  rw [hpol]
  simp only [hv, hs.index, hs.vrf, hx]
  unfold vrfOk
  cases C.vrfVerify (C.vrfPub vk) n (C.vrfProve vk n).1 (C.vrfProve vk n).2 <;> simp
  rfl

/-- the promise that the client holds for a name is the directory's, with the key `held` -/
def HeldIs (C : Crypto) (vk : Bytes) (cc : Client) (held : Bytes → Option Bytes) : Prop :=
  ∀ n, (cc.tbs n).map TB.value = held n ∧ ∀ p, cc.tbs n = some p → p.index = (C.vrfProve vk n).1

/-- the client after the STR was accepted -/
structure AfterSTR (C : Crypto) (vk : Bytes) (cc cc' : Client) (str : DirSTR) (held : Bytes → Option Bytes) : Prop where
  aud : cc'.aud = ⟨cc.aud.signKey, str⟩
  useTBs : cc'.useTBs = true
  held : HeldIs C vk cc' held

/-- the client handles an honest answer under an STR it accepts -/
theorem hear_exact {C : Crypto} {cc : Client} {sk vk n : Bytes} {isLookup : Bool} {code : ErrorCode} {key : Option Bytes} {str : DirSTR}
    {pol : Policies} {ap : AuthPath} {f : Finding} {prom : Option Bytes} {held : Bytes → Option Bytes}
    (htb : cc.useTBs = true) (hsk : cc.aud.signKey = C.signPub sk) (hpol : str.policies = some pol) (hv : pol.vrfPublicKey = C.vrfPub vk)
    (hc : str = cc.aud.verified ∨ Successor C cc.aud.signKey cc.aud.verified str)
    (hheld : HeldIs C vk cc held)
    (hcode : (f ≠ .absent ∧ prom = none ∧ code = if isLookup then ReqSuccess else ReqNameExisted) ∨
      (f = .absent ∧ prom = none ∧ isLookup = true ∧ code = ReqNameNotFound) ∨
      (f = .absent ∧ prom ≠ none ∧ (code = ReqSuccess ∨ (isLookup = false ∧ code = ReqNameExisted))))
    (hs : ProofOf C vk n str.core.treeHash ap f) :
    match clientSays C.hash (vrfOk C vk) isLookup (held n) n key f prom with
    | none => cc.handleResponse C (if isLookup then KeyLookupType else RegistrationType)
        ⟨code, .proof ⟨[some ap], [some str], prom.map (promise C sk vk str.core.signature n)⟩⟩ n key = none
    | some x => ∃ cc', cc.handleResponse C (if isLookup then KeyLookupType else RegistrationType)
        ⟨code, .proof ⟨[some ap], [some str], prom.map (promise C sk vk str.core.signature n)⟩⟩ n key = some (cc', x.1) ∧
        AfterSTR C vk cc cc' str (fun m => if m = n then x.2 else held m) := by
  have hne : KeyLookupType ≠ RegistrationType := by decide
  have hty : (if isLookup then KeyLookupType else RegistrationType) = RegistrationType ∨
      (if isLookup then KeyLookupType else RegistrationType) = KeyLookupType := by cases isLookup <;> simp
  have hset : errorsSet code = false := by
    rcases hcode with ⟨_, _, h⟩ | ⟨_, _, _, h⟩ | ⟨_, _, h | ⟨_, h⟩⟩ <;> rw [h]
    · cases isLookup <;> decide
    all_goals decide
  rw [handle_shape hty hset hc]
  have hkeep : HeldIs C vk cc (fun m => if m = n then held n else held m) := by
    intro m
    by_cases e : m = n
    · subst e; simpa using hheld m
    · simpa [e] using hheld m
  have fin : ∀ held', HeldIs C vk cc held' → AfterSTR C vk cc { cc with aud := cc.aud.update str } str held' :=
    fun held' h => ⟨rfl, htb, h⟩
  -- the leaf
  obtain ⟨l, hl, hlt⟩ : ∃ l, ap.leaf = some l ∧ ap.proofType = some (kindShown f) := by
    cases f with
    | entry e => obtain ⟨h1, l, h2, _⟩ := hs.shows; exact ⟨l, h2, h1⟩
    | ghost => obtain ⟨h1, ⟨l, h2, _⟩, _⟩ := hs.shows; exact ⟨l, h2, h1⟩
    | absent => obtain ⟨h1, ⟨l, h2, _⟩, _⟩ := hs.shows; exact ⟨l, h2, h1⟩
  have hcc : Client.checkConsistency C { cc with aud := cc.aud.update str } (if isLookup then KeyLookupType else RegistrationType) code
      ⟨[some ap], [some str], prom.map (promise C sk vk str.core.signature n)⟩ n key = verifyAuthPath C n key ap str := by
    unfold Client.checkConsistency Client.verifyRegistration Client.verifyKeyLookup
    simp only [DirectoryProof.first, hlt]
    rcases hcode with ⟨h1, _, h⟩ | ⟨h1, _, h2, h⟩ | ⟨h1, _, h⟩
    · have ht : kindShown f = .inclusion := by
        cases f with
        | absent => exact absurd rfl h1
        | _ => rfl
      rw [ht]
      cases isLookup
      · simp only [Bool.false_eq_true, if_false] at h
        simp [h]
      · simp only [if_true] at h
        simp [h, hne]
    · subst h1; subst h2
      simp [h, hne, kindShown]
    · subst h1
      cases isLookup
      · rcases h with h | ⟨_, h⟩ <;> simp [h, kindShown, htb]
      · have h : code = ReqSuccess := by
          rcases h with h | ⟨h, _⟩
          · exact h
          · cases h
        simp [h, kindShown, htb, hne]
  rw [hcc, verifyAuthPath_eq hpol hv hs hl]
  unfold clientSays
  by_cases hvrf : vrfOk C vk n = false
  · rw [if_pos hvrf, if_pos hvrf]
    exact ⟨_, rfl, fin _ hkeep⟩
  rw [if_neg hvrf, if_neg hvrf]
  cases f with
  | ghost =>
    obtain ⟨_, ⟨l', hl', hlv⟩, hver⟩ := hs.shows
    rw [hl] at hl'
    cases hl'
    rw [hver, hlv]
    cases key with
    | none => simp
    | some k =>
      by_cases hk : k = []
      · subst hk; simp
      · simp only [Option.getD_some, hk, if_false, reduceCtorEq, Option.some.injEq, or_self]
        exact ⟨_, rfl, fin _ hkeep⟩
  | entry e =>
    obtain ⟨_, l', hl', hlv, _, hver⟩ := hs.shows
    rw [hl] at hl'
    cases hl'
    rw [hver, hlv]
    have hp : prom = none := by
      rcases hcode with ⟨_, h, _⟩ | ⟨h, _⟩ | ⟨h, _⟩
      · exact h
      · cases h
      · cases h
    subst hp
    by_cases hk : key ≠ none ∧ key ≠ some e.key
    · have : key.getD e.key ≠ e.key := by
        cases key with
        | none => exact absurd rfl hk.1
        | some k => intro h; exact hk.2 (by rw [← h]; rfl)
      simp only [Option.getD_some]
      rw [if_pos this]
      dsimp only
      rw [if_pos hk]
      exact ⟨_, rfl, fin _ hkeep⟩
    · have : ¬ key.getD e.key ≠ e.key := by
        cases key with
        | none => simp
        | some k =>
          intro h
          exact hk ⟨by simp, fun h' => h (by simpa using h')⟩
      simp only [Option.getD_some]
      rw [if_neg this, if_neg hk]
      by_cases hh : C.hash (e.salt ++ n ++ e.key) = C.hash (e.salt ++ e.name ++ e.key)
      · rw [if_pos hh, if_neg (by simpa using hh)]
        dsimp only
        have hcodeL : isLookup = true → code = ReqSuccess := by
          intro hi
          rcases hcode with ⟨_, _, h⟩ | ⟨h, _⟩ | ⟨h, _⟩
          · rw [h, if_pos hi]
          · cases h
          · cases h
        unfold Client.updateTBs
        rw [if_neg (show ¬ cc.useTBs = false by simp [htb])]
        simp only [DirectoryProof.first, hlt, kindShown]
        cases isLookup
        · simp only [Bool.false_eq_true, if_false, if_true, reduceCtorEq]
          exact ⟨_, rfl, rfl, htb, hkeep⟩
        · simp only [if_true]
          rw [if_neg hne, if_pos (show code = ReqSuccess ∧ True from ⟨hcodeL rfl, trivial⟩)]
          obtain ⟨g1, g2⟩ := hheld n
          by_cases hb : held n ≠ none ∧ held n ≠ some e.key
          · rw [if_pos hb]
            have : Client.verifyFulfilledPromise { cc with aud := cc.aud.update str } n ap = some (some CheckBrokenPromise) := by
              unfold Client.verifyFulfilledPromise
              cases ht : cc.tbs n with
              | none => rw [ht] at g1; exact absurd g1.symm hb.1
              | some p =>
                rw [ht] at g1
                have h2 : e.key ≠ p.value := fun h => hb.2 (by rw [← g1, h]; rfl)
                simp only [ht, hl, hlv, hs.index, g2 p ht, ne_eq, not_true_eq_false, if_false, Option.getD_some, h2, not_false_eq_true,
                  if_true]
            simp only [this]
            exact ⟨_, rfl, fin _ hkeep⟩
          · rw [if_neg hb]
            have : Client.verifyFulfilledPromise { cc with aud := cc.aud.update str } n ap = some none := by
              unfold Client.verifyFulfilledPromise
              cases ht : cc.tbs n with
              | none => simp only [ht]
              | some p =>
                rw [ht] at g1
                have h2 : e.key = p.value := by
                  by_cases h : e.key = p.value
                  · exact h
                  · exact absurd ⟨by rw [← g1]; simp, by rw [← g1]; simpa using Ne.symm h⟩ hb
                simp only [ht, hl, hlv, hs.index, g2 p ht, ne_eq, not_true_eq_false, if_false, Option.getD_some, h2]
            simp only [this]
            refine ⟨_, rfl, rfl, htb, ?_⟩
            intro m
            by_cases em : m = n
            · subst em; simp
            · simpa [em] using hheld m
      · rw [if_neg hh, if_pos hh]
        exact ⟨_, rfl, fin _ hkeep⟩
  | absent =>
    obtain ⟨_, _, hver⟩ := hs.shows
    rw [hver]
    dsimp only
    rcases hcode with ⟨h, _⟩ | ⟨_, h1, h2, h3⟩ | ⟨_, h1, h2⟩
    · exact absurd rfl h
    · subst h1; subst h2; subst h3
      unfold Client.updateTBs
      rw [if_neg (show ¬ cc.useTBs = false by simp [htb])]
      simp only [DirectoryProof.first, hlt, if_true, kindShown]
      rw [if_neg hne, if_neg (fun h => absurd h.1 (by decide)), if_neg (fun h => absurd h.1 (by decide))]
      exact ⟨_, rfl, rfl, htb, hkeep⟩
    · cases prom with
      | none => exact absurd rfl h1
      | some v =>
        have hsig : C.verify cc.aud.signKey (str.core.signature ++ (C.vrfProve vk n).1 ++ v)
            (C.sign sk (str.core.signature ++ (C.vrfProve vk n).1 ++ v)) = true := by rw [hsk]; exact C.verify_sign _ _
        have hu : Client.updateTBs C { cc with aud := cc.aud.update str } (if isLookup then KeyLookupType else RegistrationType) code
            ⟨[some ap], [some str], (some v).map (promise C sk vk str.core.signature n)⟩ n key =
            some (Client.takePromise C { cc with aud := cc.aud.update str } ap str (some (promise C sk vk str.core.signature n v)) n key) := by
          unfold Client.updateTBs
          rw [if_neg (show ¬ cc.useTBs = false by simp [htb])]
          simp only [DirectoryProof.first, hlt, Option.map_some, kindShown]
          cases isLookup
          · simp
          · simp only [if_true]
            have h : code = ReqSuccess := by
              rcases h2 with h | ⟨h, _⟩
              · exact h
              · cases h
            rw [if_neg hne, if_neg (fun h => (nomatch h.2)), if_pos ⟨h, trivial⟩]
        rw [hu]
        have hret : Client.verifyReturnedPromise C { cc with aud := cc.aud.update str } ap str (some (promise C sk vk str.core.signature n v)) key =
            if key ≠ none ∧ key ≠ some v then .error CheckBindingsDiffer else .ok (promise C sk vk str.core.signature n v) := by
          simp only [Client.verifyReturnedPromise, promise, AudState.verify, AudState.update, TB.serialize]
          refine (if_pos hsig).trans ?_
          refine (if_pos hs.index.symm).trans ?_
          cases key with
          | none => simp
          | some k =>
            by_cases h : v = k
            · subst h; simp
            · simp [h, Ne.symm h]
        unfold Client.takePromise
        rw [hret]
        by_cases hk : key ≠ none ∧ key ≠ some v
        · simp only [if_pos hk]
          exact ⟨_, rfl, fin _ hkeep⟩
        · simp only [if_neg hk]
          refine ⟨_, rfl, rfl, htb, ?_⟩
          intro m
          by_cases em : m = n
          · subst em; simp [promise]
          · simpa [em] using hheld m

/-! ### sessions -/

structure XSes (C : Crypto) (sk vk : Bytes) (d : Directory) (log : List STR) (cc : Client) (M : Meeting) : Prop where
  dir : ExactInv C sk vk d log M.dir
  useTBs : cc.useTBs = true
  signKey : cc.aud.signKey = C.signPub sk
  holds : ∃ s, (log.reverse)[M.lag]? = some s ∧ cc.aud.verified = s.toDir
  held : HeldIs C vk cc M.held
  pol : (∃ t, d.policies = newPolicies t (C.vrfPub vk)) ∧ (∃ t, d.pad.ad = newPolicies t (C.vrfPub vk)) ∧
    ∃ t, d.pad.latest.ad = newPolicies t (C.vrfPub vk)

theorem XSes.chain {C sk vk d log cc M} (i : XSes C sk vk d log cc M) (h : M.lag ≤ 1) :
    d.latestSTR = cc.aud.verified ∨ Successor C cc.aud.signKey cc.aud.verified d.latestSTR := by
  have hl := last_rev i.dir.pad.last
  obtain ⟨s, h1, h2⟩ := i.holds
  rcases Nat.le_one_iff_eq_zero_or_eq_one.mp h with e | e
  · left
    rw [e, hl] at h1
    rw [h2, ← Option.some.inj h1]; rfl
  · right
    rw [e] at h1
    have hlt := (List.getElem?_eq_some_iff.mp h1).1
    rw [List.length_reverse] at hlt
    rw [List.getElem?_reverse hlt] at h1
    rw [List.getElem?_reverse (by omega)] at hl
    have := log_successor i.dir.pad h1 (by rw [← hl]; congr 1; omega)
    rw [i.signKey, h2, ← i.dir.skEq]
    exact this

/-- a client two or more epochs behind holds an STR whose epoch is neither the latest nor the one before -/
theorem XSes.behind {C sk vk d log cc M} (i : XSes C sk vk d log cc M) (h : 2 ≤ M.lag) :
    d.latestSTR.core.epoch ≠ cc.aud.verified.core.epoch ∧ d.latestSTR.core.epoch ≠ cc.aud.verified.core.epoch + 1 := by
  obtain ⟨s, h1, h2⟩ := i.holds
  have hlt := (List.getElem?_eq_some_iff.mp h1).1
  rw [List.length_reverse] at hlt
  rw [List.getElem?_reverse hlt] at h1
  have hsm := i.dir.pad.small
  have hep : d.latestSTR.core.epoch.toNat = log.length - 1 := i.dir.pad.latest_toNat
  have hs : cc.aud.verified.core.epoch.toNat = log.length - 1 - M.lag := by
    rw [h2, show s.toDir.core = s.core from rfl, i.dir.pad.epoch _ _ h1, ofNat_toNat64 (by omega)]
  constructor
  · intro e; rw [e] at hep; omega
  · intro e
    rw [e, UInt64.toNat_add] at hep
    rw [show (1 : UInt64).toNat = 1 from rfl, Nat.mod_eq_of_lt (by omega)] at hep
    omega

theorem x_dir_step {C sk vk d log cc M} (i : XSes C sk vk d log cc M) (op : DirOp)
    (hlt : log.length + dirUpdates [op] ≤ 2 ^ 64) (d' : Directory) (r : Option Response) (h : d.step C op = some (d', r)) :
    XSes C sk vk d' (log ++ op.issued d') cc
      ⟨M.dir.step (fun n => (C.vrfProve vk n).1) C.hash op, if op = .update then M.lag + 1 else M.lag, M.held⟩ := by
  have inv' := exact_step_inv i.dir op hlt d' r h
  obtain ⟨p1, p2, p3⟩ := step_policies h
  obtain ⟨⟨t1, q1⟩, ⟨t2, q2⟩, ⟨t3, q3⟩⟩ := i.pol
  obtain ⟨s, h1, h2⟩ := i.holds
  refine ⟨inv', i.useTBs, i.signKey, ⟨s, ?_, h2⟩, i.held, ⟨_, p1 _ _ q1⟩, ?_, ?_⟩
  · by_cases hu : op = .update
    · subst hu
      simp only [if_true, DirOp.issued, List.reverse_append, List.reverse_cons, List.reverse_nil, List.nil_append, List.singleton_append,
        List.getElem?_cons_succ]
      exact h1
    · have : op.issued d' = [] := by cases op <;> first | rfl | exact absurd rfl hu
      simp only [if_neg hu, this, List.append_nil]; exact h1
  · by_cases hu : op = .update
    · exact ⟨t1, by rw [(p3 hu).2.1, q1]⟩
    · exact ⟨t2, by rw [(p2 hu).1, q2]⟩
  · by_cases hu : op = .update
    · exact ⟨t2, by rw [(p3 hu).2.2, q2]⟩
    · exact ⟨t3, by rw [(p2 hu).2, q3]⟩

/-- the statuses that come with each finding -/
def AnswerShape (isLookup : Bool) : ErrorCode × Option (Finding × Option Bytes) → Prop
  | (code, none) => code = ErrMalformedMessage ∨ code = ErrDirectory
  | (code, some (f, prom)) =>
    (f ≠ .absent ∧ prom = none ∧ code = if isLookup then ReqSuccess else ReqNameExisted) ∨
      (f = .absent ∧ prom = none ∧ isLookup = true ∧ code = ReqNameNotFound) ∨
      (f = .absent ∧ prom ≠ none ∧ (code = ReqSuccess ∨ (isLookup = false ∧ code = ReqNameExisted)))

theorem lookup_answerShape (idx : Bytes → Bytes) (E : ExactDir) (n : Bytes) : AnswerShape true (E.lookupAnswer idx n) := by
  unfold ExactDir.lookupAnswer
  split
  · exact .inl rfl
  · split
    · exact .inr (.inl ⟨rfl, rfl, rfl, rfl⟩)
    · exact .inr (.inr ⟨rfl, by simp, .inl rfl⟩)
    · next f _ h1 h2 =>
      refine .inl ⟨?_, rfl, rfl⟩
      intro h
      cases hp : E.promised n with
      | none => exact h1 h hp
      | some v => exact h2 v h hp

theorem register_answerShape (idx : Bytes → Bytes) (E : ExactDir) (rnd : Option Bytes) (n k : Bytes) :
    AnswerShape false (E.registerAnswer idx rnd n k) := by
  unfold ExactDir.registerAnswer
  split
  · exact .inl rfl
  · split
    · split
      · exact .inr (.inr ⟨rfl, by simp, .inl rfl⟩)
      · exact .inr rfl
    · exact .inr (.inr ⟨rfl, by simp, .inr ⟨rfl, rfl⟩⟩)
    · next f _ h1 h2 =>
      refine .inl ⟨?_, rfl, rfl⟩
      intro h
      cases hp : E.promised n with
      | none => exact h1 h hp
      | some v => exact h2 v h hp

/-- the client handles an answer -/
theorem x_client {C sk vk d log cc M} (i : XSes C sk vk d log cc M) {d' : Directory} {E' : ExactDir}
    (inv' : ExactInv C sk vk d' log E') (hlat : d'.pad.latest = d.pad.latest)
    (hpol' : (∃ t, d'.policies = newPolicies t (C.vrfPub vk)) ∧ (∃ t, d'.pad.ad = newPolicies t (C.vrfPub vk)) ∧
      ∃ t, d'.pad.latest.ad = newPolicies t (C.vrfPub vk))
    (isLookup : Bool) (n : Bytes) (key : Option Bytes) (a : ErrorCode × Option (Finding × Option Bytes)) (resp : Response)
    (ha : ExactAnswer C sk vk n d.latestSTR resp a) (hshape : AnswerShape isLookup a) :
    match M.hear C.hash (vrfOk C vk) E' isLookup n key a with
    | none => cc.handleResponse C (if isLookup then KeyLookupType else RegistrationType) resp n key = none
    | some x => ∃ cc', cc.handleResponse C (if isLookup then KeyLookupType else RegistrationType) resp n key = some (cc', x.1) ∧
        XSes C sk vk d' log cc' x.2 := by
  obtain ⟨s, h1, h2⟩ := i.holds
  have base : XSes C sk vk d' log cc { M with dir := E' } := ⟨inv', i.useTBs, i.signKey, ⟨s, h1, h2⟩, i.held, hpol'⟩
  obtain ⟨code, a2⟩ := a
  cases a2 with
  | none =>
    have hr : resp = ⟨code, .none⟩ := ha
    subst hr
    refine ⟨cc, ?_, base⟩
    have := @honest_error C cc (if isLookup then KeyLookupType else RegistrationType) n key (code, none, none) hshape
    simp only at this
    rw [this]
    have hs : code = ErrMalformedMessage ∨ code = ErrDirectory := hshape
    simp only [verdict, if_pos hs]
  | some fp =>
    obtain ⟨f, prom⟩ := fp
    obtain ⟨ap, hr, hs⟩ := ha
    subst hr
    unfold Meeting.hear
    dsimp only
    by_cases hlag : 2 ≤ M.lag
    · rw [if_pos hlag]
      obtain ⟨e1, e2⟩ := i.behind hlag
      refine ⟨cc, ?_, base⟩
      refine behind_refused (by cases isLookup <;> simp) ?_ e1 e2
      rcases hshape with ⟨_, _, h⟩ | ⟨_, _, _, h⟩ | ⟨_, _, h | ⟨_, h⟩⟩ <;> rw [h]
      · cases isLookup <;> decide
      all_goals decide
    · rw [if_neg hlag]
      obtain ⟨t, ht⟩ := i.pol.2.2
      have hpol : d.latestSTR.policies = some (newPolicies t (C.vrfPub vk)) := by rw [← ht]; rfl
      have hx := @hear_exact C cc sk vk n isLookup code key d.latestSTR _ ap f prom M.held i.useTBs i.signKey hpol rfl
        (i.chain (by omega)) i.held hshape hs
      cases hsay : clientSays C.hash (vrfOk C vk) isLookup (M.held n) n key f prom with
      | none => rw [hsay] at hx; exact hx
      | some x =>
        rw [hsay] at hx
        obtain ⟨cc', g1, g2⟩ := hx
        refine ⟨cc', g1, inv', g2.useTBs, by rw [g2.aud]; exact i.signKey, ⟨_, last_rev inv'.pad.last, ?_⟩, g2.held, hpol'⟩
        rw [g2.aud, hlat]; rfl

theorem exact_session_run (C : Crypto) (sk vk : Bytes) (ops : List SesOp) : ∀ d log cc M, XSes C sk vk d log cc M →
    log.length + dirUpdates (ops.map SesOp.dirOp) ≤ 2 ^ 64 → ∀ d' log', d.runLog C log (ops.map SesOp.dirOp) = some (d', log') →
    (runSession C d cc ops).map (fun x => (x.1, x.2.2)) =
      (exactVerdicts (fun n => (C.vrfProve vk n).1) C.hash (vrfOk C vk) M ops).map (fun v => (d', v)) := by
  induction ops with
  | nil =>
    intro d log cc M i _ d' log' h
    simp only [List.map_nil, Directory.runLog, Option.some.injEq, Prod.mk.injEq] at h
    simp [runSession, exactVerdicts, h.1]
  | cons op ops ih =>
    intro d log cc M i hlen d' log' h
    rw [List.map_cons] at h hlen
    rw [dirUpdates_cons] at hlen
    obtain ⟨d1, r, h1, h2⟩ := runLog_cons_some h
    have hil : (log ++ op.dirOp.issued d1).length = log.length + dirUpdates [op.dirOp] := by simp [issued_length]
    have i1 := x_dir_step i op.dirOp (by omega) d1 r h1
    have tail : ∀ {d1 : Directory} {lg : List STR} {hear : Option (Option ErrorCode × Meeting)} {hr : Go (Client × Option ErrorCode)},
        (match hear with
          | none => hr = none
          | some x => ∃ cc', hr = some (cc', x.1) ∧ XSes C sk vk d1 lg cc' x.2) →
        lg.length + dirUpdates (ops.map SesOp.dirOp) ≤ 2 ^ 64 →
        d1.runLog C lg (ops.map SesOp.dirOp) = some (d', log') →
        (hr.bind fun y => (runSession C d1 y.1 ops).map fun z => (z.1, z.2.1, y.2 :: z.2.2)).map (fun x => (x.1, x.2.2)) =
        (hear.bind fun x => (exactVerdicts (fun n => (C.vrfProve vk n).1) C.hash (vrfOk C vk) x.2 ops).map (x.1 :: ·)).map
          (fun v => (d', v)) := by
      intro d1 lg hear hr hh hlen1 hrun1
      cases hear with
      | none => rw [show hr = none from hh]; rfl
      | some x =>
        obtain ⟨cc', g1, g2⟩ := hh
        have := ih d1 lg cc' x.2 g2 hlen1 d' log' hrun1
        rw [g1, Option.bind_some, Option.bind_some]
        cases hv : exactVerdicts (fun n => (C.vrfProve vk n).1) C.hash (vrfOk C vk) x.2 ops with
        | none =>
          rw [hv] at this
          simp only [Option.map_none, Option.map_eq_none_iff] at this
          simp [this]
        | some v =>
          rw [hv] at this
          obtain ⟨⟨a, b, c⟩, e1, e2⟩ := Option.map_eq_some_iff.mp this
          simp only [Prod.mk.injEq] at e2
          simp [e1, e2.1, e2.2]
    cases op with
    | dir op =>
      have := ih d1 _ cc _ i1 (by rw [hil]; omega) d' log' h2
      simp only [runSession, exactVerdicts]
      rw [show d.step C op = some (d1, r) from h1, Option.bind_some]
      exact this
    | lookup n key =>
      obtain ⟨resp, g1, g2⟩ := keyLookup_exact i.dir n
      have hd1 : d1 = d := by
        simp only [SesOp.dirOp, Directory.step, g1, Option.map_some, Option.some.injEq, Prod.mk.injEq] at h1
        exact h1.1.symm
      subst hd1
      have hiss : SesOp.dirOp (.lookup n key) = .keyLookup ⟨n⟩ := rfl
      rw [hiss] at h2
      simp only [DirOp.issued, List.append_nil] at h2
      have hx := x_client i i.dir rfl i.pol true n key _ resp g2 (lookup_answerShape _ _ n)
      simp only [runSession, exactVerdicts, g1, Option.bind_some]
      exact tail hx (by omega) h2
    | register rnd n k =>
      obtain ⟨d2, resp, g1, ginv, g2⟩ := register_exact i.dir rnd n k
      have hd1 : d1 = d2 := by
        simp only [SesOp.dirOp, Directory.step, g1, Option.map_some, Option.some.injEq, Prod.mk.injEq] at h1
        exact h1.1.symm
      subst hd1
      have hiss : SesOp.dirOp (.register rnd n k) = .register rnd ⟨n, k⟩ := rfl
      rw [hiss] at h2 i1
      simp only [DirOp.issued, List.append_nil, reduceCtorEq, if_false] at h2 i1
      have hx := x_client i ginv (register_keeps g1).2.2 i1.pol false n (some k) _ resp g2 (register_answerShape _ _ rnd n k)
      simp only [runSession, exactVerdicts, g1, Option.bind_some]
      exact tail hx (by omega) h2

end Coniks

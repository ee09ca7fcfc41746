import Verif.Spec.Session
import Verif.Props.Client
import Verif.Props.Directory
/-
A client with an honest directory.
-/
namespace Coniks
open Spec Props

/-- the parts of `handleResponse` on a response with one proof and one STR that continues the chain -/
theorem handle_shape {C : Crypto} {cc : Client} {ty : Int} {code : ErrorCode} {ap : AuthPath} {str : DirSTR} {tb : Option TB} {n : Bytes}
    {key : Option Bytes} (hty : ty = RegistrationType ∨ ty = KeyLookupType) (hcode : errorsSet code = false)
    (hc : str = cc.aud.verified ∨ Successor C cc.aud.signKey cc.aud.verified str) :
    cc.handleResponse C ty ⟨code, .proof ⟨[some ap], [some str], tb⟩⟩ n key =
      match Client.checkConsistency C { cc with aud := cc.aud.update str } ty code ⟨[some ap], [some str], tb⟩ n key with
      | none => none
      | some (some e) => some ({ cc with aud := cc.aud.update str }, some e)
      | some none =>
        match Client.updateTBs C { cc with aud := cc.aud.update str } ty code ⟨[some ap], [some str], tb⟩ n key with
        | none => none
        | some (cc, some e) => some (cc, some e)
        | some (cc, none) => some ({ cc with bindings := fun m => if m = n then some none else cc.bindings m }, none) := by
  unfold Client.handleResponse
  have hv : Response.validate ⟨code, .proof ⟨[some ap], [some str], tb⟩⟩ = some none := by simp [Response.validate, hcode]
  have hup := @updateSTR_ok C cc ty ⟨[some ap], [some str], tb⟩ str [] hty rfl hc
  rw [hv]
  simp only
  rw [if_pos (by rcases hty with h | h; exact .inl h; exact .inr (.inl h))]
  simp only [hup]
  rfl

/-- what we know about the client after an honest answer -/
structure AfterHonest (cc cc' : Client) (n : Bytes) (str : DirSTR) (p : Option TB) : Prop where
  aud : cc'.aud = ⟨cc.aud.signKey, str⟩
  useTBs : cc'.useTBs = true
  other : ∀ m, m ≠ n → cc'.tbs m = cc.tbs m
  same : cc'.tbs n = cc.tbs n ∨ cc'.tbs n = none ∨ (p ≠ none ∧ cc'.tbs n = p)

/-- the key is in the tree -/
theorem honest_inclusion {C : Crypto} {cc : Client} {vk n v : Bytes} {ty : Int} {code : ErrorCode} {key : Option Bytes} {str : DirSTR}
    {pol : Policies} {ap : AuthPath}
    (hus : C.vrfUsable n = true) (htb : cc.useTBs = true) (hpol : str.policies = some pol) (hv : pol.vrfPublicKey = C.vrfPub vk)
    (hc : str = cc.aud.verified ∨ Successor C cc.aud.signKey cc.aud.verified str)
    (hcode : (ty = RegistrationType ∧ code = ReqNameExisted) ∨ (ty = KeyLookupType ∧ code = ReqSuccess))
    (hs : ProofShows C vk n str.core.treeHash ap (some v))
    (hheld : ∀ p, cc.tbs n = some p → (C.vrfProve vk n).1 = p.index ∧ v = p.value) :
    ∃ cc', cc.handleResponse C ty ⟨code, .proof ⟨[some ap], [some str], none⟩⟩ n key = some (cc', verdict key (code, some v, none)) ∧
      AfterHonest cc cc' n str none := by
  obtain ⟨l, hl, hlv⟩ := hs.value
  have hidx : ap.lookupIndex = l.index := by
    have := hs.type
    unfold AuthPath.proofType at this
    rw [hl] at this
    simp only [Option.isSome_some, if_true, Option.map_some, Option.some.injEq] at this
    split at this
    · assumption
    · nomatch this
  have hnerr : ¬ (code = ErrMalformedMessage ∨ code = ErrDirectory) := by
    rcases hcode with ⟨_, h⟩ | ⟨_, h⟩ <;> rw [h] <;> decide
  have hvrf : C.vrfVerify pol.vrfPublicKey n ap.lookupIndex ap.vrfProof = true := by
    rw [hv, hs.index, hs.vrf]; exact C.vrf_complete vk n hus
  have hty : ty = RegistrationType ∨ ty = KeyLookupType := by
    rcases hcode with ⟨h, _⟩ | ⟨h, _⟩
    · exact .inl h
    · exact .inr h
  have hfit : StatusFits ty code .inclusion := by
    rcases hcode with ⟨h, h'⟩ | ⟨h, h'⟩
    · exact .inl ⟨h, .inl h'⟩
    · exact .inr ⟨h, .inr h'⟩
  have hnp : ¬ Promised ty code .inclusion := by rintro ⟨h, _⟩; nomatch h
  by_cases hk : ∀ k, key = some k → v = k
  · have hver : verdict key (code, some v, none) = none := by
      unfold verdict
      rw [if_neg hnerr]
      cases key with
      | none => rfl
      | some k => simp [hk k rfl]
    rw [hver]
    let cc' : Client :=
      { aud := ⟨cc.aud.signKey, str⟩, useTBs := true, bindings := fun m => if m = n then some none else cc.bindings m,
        tbs := fun m => if m = n then (if ty = KeyLookupType then none else cc.tbs n) else cc.tbs m }
    refine ⟨cc', (C34_accept_iff C cc htb ty _ n key cc').mpr ⟨ap, str, none, l, .inclusion, pol, ⟨[], [], rfl⟩,
      ⟨hc, hl, by rw [if_pos hidx], hfit, hpol, hvrf, hs.verifies _ (.inl ?_)⟩, fun h => absurd h hnp, ?_, rfl, rfl, fun m => rfl, ?_,
      fun h => absurd h hnp, ?_, ?_⟩, rfl, rfl, ?_, ?_⟩
    · cases key with
      | none => simp [hlv]
      | some k => rw [hk k rfl]
    · intro _ _ p hp
      rw [hs.index, hlv]; exact hheld p hp
    · intro m hm; simp [cc', hm]
    · intro h _; simp [cc', h]
    · intro _ h
      have h' : ty ≠ KeyLookupType := fun e => h ⟨e, rfl⟩
      simp [cc', h']
    · intro m hm; simp [cc', hm]
    · by_cases e : ty = KeyLookupType
      · simp [cc', e]
      · simp [cc', e]
  · have hex : ∃ k, key = some k ∧ v ≠ k := by
      cases key with
      | none => exact absurd (fun k h => (nomatch h)) hk
      | some k => exact ⟨k, rfl, fun e => hk (fun k' h => by cases h; exact e)⟩
    obtain ⟨k, rfl, hne⟩ := hex
    refine ⟨{ cc with aud := cc.aud.update str }, ?_, rfl, htb, fun _ _ => rfl, .inl rfl⟩
    have hver : verdict (some k) (code, some v, none) = some CheckBindingsDiffer := by
      unfold verdict
      rw [if_neg hnerr]
      simp [hne]
    rw [hver, handle_shape hty (by rcases hcode with ⟨_, h⟩ | ⟨_, h⟩ <;> rw [h] <;> decide) hc]
    have hverify : ap.verify C n k str.core.treeHash = some (.error .bindingsDiffer) := by
      unfold AuthPath.verify
      rw [hl]
      simp [hidx, hlv, hne]
    have hap : verifyAuthPath C n (some k) ap str = some (some CheckBindingsDiffer) := by
      simp [verifyAuthPath, hpol, hvrf, expectedKey, hverify]
    have hpt : ap.proofType = some .inclusion := by rw [hs.type]; rfl
    have hne1 : KeyLookupType ≠ RegistrationType := by decide
    have hcc : Client.checkConsistency C { cc with aud := cc.aud.update str } ty code ⟨[some ap], [some str], none⟩ n (some k) =
        some (some CheckBindingsDiffer) := by
      rcases hcode with ⟨h, h'⟩ | ⟨h, h'⟩
      · simp [Client.checkConsistency, h, h', Client.verifyRegistration, DirectoryProof.first, hpt, hap]
      · simp [Client.checkConsistency, h, h', hne1, Client.verifyKeyLookup, DirectoryProof.first, hpt, hap]
    rw [hcc]

/-- the key is not in the tree: what the proof checks say -/
theorem absence_index {C : Crypto} {vk n th : Bytes} {ap : AuthPath} (hs : ProofShows C vk n th ap none) :
    ∃ l, ap.leaf = some l ∧ l.value = none ∧ ap.lookupIndex ≠ l.index := by
  obtain ⟨l, hl, hlv⟩ := hs.value
  refine ⟨l, hl, hlv, ?_⟩
  have := hs.type
  unfold AuthPath.proofType at this
  rw [hl] at this
  simp only [Option.isSome_none, Bool.false_eq_true, if_false, Option.map_some, Option.some.injEq] at this
  split at this
  · nomatch this
  · assumption

/-- the key is promised -/
theorem honest_promise {C : Crypto} {cc : Client} {sk vk n v : Bytes} {ty : Int} {code : ErrorCode} {key : Option Bytes} {str : DirSTR}
    {pol : Policies} {ap : AuthPath}
    (hus : C.vrfUsable n = true) (htb : cc.useTBs = true) (hsk : cc.aud.signKey = C.signPub sk) (hpol : str.policies = some pol) (hv : pol.vrfPublicKey = C.vrfPub vk)
    (hc : str = cc.aud.verified ∨ Successor C cc.aud.signKey cc.aud.verified str)
    (hcode : (ty = RegistrationType ∧ (code = ReqNameExisted ∨ code = ReqSuccess)) ∨ (ty = KeyLookupType ∧ code = ReqSuccess))
    (hs : ProofShows C vk n str.core.treeHash ap none) :
    ∃ cc', cc.handleResponse C ty ⟨code, .proof ⟨[some ap], [some str], some (promise C sk vk str.core.signature n v)⟩⟩ n key =
        some (cc', verdict key (code, none, some v)) ∧
      AfterHonest cc cc' n str (some (promise C sk vk str.core.signature n v)) := by
  obtain ⟨l, hl, hlv, hidx⟩ := absence_index hs
  have hnerr : ¬ (code = ErrMalformedMessage ∨ code = ErrDirectory) := by
    rcases hcode with ⟨_, h | h⟩ | ⟨_, h⟩ <;> rw [h] <;> decide
  have hcode' : errorsSet code = false := by rcases hcode with ⟨_, h | h⟩ | ⟨_, h⟩ <;> rw [h] <;> decide
  have hvrf : C.vrfVerify pol.vrfPublicKey n ap.lookupIndex ap.vrfProof = true := by
    rw [hv, hs.index, hs.vrf]; exact C.vrf_complete vk n hus
  have hty : ty = RegistrationType ∨ ty = KeyLookupType := by
    rcases hcode with ⟨h, _⟩ | ⟨h, _⟩
    · exact .inl h
    · exact .inr h
  have hfit : StatusFits ty code .absence := by
    rcases hcode with ⟨h, h' | h'⟩ | ⟨h, h'⟩
    · exact .inl ⟨h, .inl h'⟩
    · exact .inl ⟨h, .inr ⟨h', rfl⟩⟩
    · exact .inr ⟨h, .inr h'⟩
  have hpr : Promised ty code .absence := by
    rcases hcode with ⟨h, _⟩ | ⟨_, h'⟩
    · exact ⟨rfl, .inl h⟩
    · exact ⟨rfl, .inr h'⟩
  have hsig : C.verify cc.aud.signKey (str.core.signature ++ (C.vrfProve vk n).1 ++ v) (C.sign sk (str.core.signature ++ (C.vrfProve vk n).1 ++ v)) = true := by
    rw [hsk]; exact C.verify_sign _ _
  by_cases hk : ∀ k, key = some k → v = k
  · have hver : verdict key (code, none, some v) = none := by
      unfold verdict
      rw [if_neg hnerr]
      cases key with
      | none => rfl
      | some k => simp [hk k rfl]
    rw [hver]
    let cc' : Client :=
      { aud := ⟨cc.aud.signKey, str⟩, useTBs := true, bindings := fun m => if m = n then some none else cc.bindings m,
        tbs := fun m => if m = n then some (promise C sk vk str.core.signature n v) else cc.tbs m }
    refine ⟨cc', (C34_accept_iff C cc htb ty _ n key cc').mpr ⟨ap, str, _, l, .absence, pol, ⟨[], [], rfl⟩,
      ⟨hc, hl, by rw [if_neg hidx], hfit, hpol, hvrf, hs.verifies _ (.inr rfl)⟩,
      fun _ => ⟨_, rfl, ⟨hsig, hs.index.symm, hk⟩⟩, fun _ h => (nomatch h), rfl, rfl, fun m => rfl, ?_,
      fun _ => by simp [cc'], fun _ h => (nomatch h), fun h => absurd hpr h⟩, rfl, rfl, ?_, .inr (.inr ⟨nofun, ?_⟩)⟩
    · intro m hm; simp [cc', hm]
    · intro m hm; simp [cc', hm]
    · simp [cc']
  · have hex : ∃ k, key = some k ∧ v ≠ k := by
      cases key with
      | none => exact absurd (fun k h => (nomatch h)) hk
      | some k => exact ⟨k, rfl, fun e => hk (fun k' h => by cases h; exact e)⟩
    obtain ⟨k, rfl, hne⟩ := hex
    refine ⟨{ cc with aud := cc.aud.update str }, ?_, rfl, htb, fun _ _ => rfl, .inl rfl⟩
    have hver : verdict (some k) (code, none, some v) = some CheckBindingsDiffer := by
      unfold verdict
      rw [if_neg hnerr]
      simp [hne]
    rw [hver, handle_shape hty hcode' hc]
    have hcc := (checkConsistency_ok C { cc with aud := cc.aud.update str } ty code
      ⟨[some ap], [some str], some (promise C sk vk str.core.signature n v)⟩ n (some k) htb).mpr
      ⟨ap, str, l, .absence, pol, rfl, hl, by rw [if_neg hidx], hfit, hpol, hvrf, hs.verifies _ (.inr rfl)⟩
    rw [hcc]
    have hpt : ap.proofType = some .absence := by rw [hs.type]; rfl
    have hne1 : KeyLookupType ≠ RegistrationType := by decide
    have hret : Client.verifyReturnedPromise C { cc with aud := cc.aud.update str } ap str (some (promise C sk vk str.core.signature n v)) (some k) =
        .error CheckBindingsDiffer := by
      simp only [Client.verifyReturnedPromise, promise, AudState.verify, AudState.update, TB.serialize]
      refine (if_pos hsig).trans ?_
      simp [hs.index, hne]
    have hu : Client.updateTBs C { cc with aud := cc.aud.update str } ty code
        ⟨[some ap], [some str], some (promise C sk vk str.core.signature n v)⟩ n (some k) =
        some ({ cc with aud := cc.aud.update str }, some CheckBindingsDiffer) := by
      have htk : Client.takePromise C { cc with aud := cc.aud.update str } ap str (some (promise C sk vk str.core.signature n v)) n (some k) =
          ({ cc with aud := cc.aud.update str }, some CheckBindingsDiffer) := by
        unfold Client.takePromise
        rw [hret]
      unfold Client.updateTBs
      rw [if_neg (by simp [htb])]
      rcases hcode with ⟨h, _⟩ | ⟨h, h'⟩
      · simp only [DirectoryProof.first, hpt, h, if_true, htk]
      · simp only [DirectoryProof.first, hpt, h, h', hne1, if_false, reduceCtorEq, and_false, and_true, if_true, htk]
    simp only [hu]

/-- the key is neither in the tree nor promised -/
theorem honest_absence {C : Crypto} {cc : Client} {vk n : Bytes} {key : Option Bytes} {str : DirSTR} {pol : Policies} {ap : AuthPath}
    (hus : C.vrfUsable n = true) (htb : cc.useTBs = true) (hpol : str.policies = some pol) (hv : pol.vrfPublicKey = C.vrfPub vk)
    (hc : str = cc.aud.verified ∨ Successor C cc.aud.signKey cc.aud.verified str)
    (hs : ProofShows C vk n str.core.treeHash ap none) :
    ∃ cc', cc.handleResponse C KeyLookupType ⟨ReqNameNotFound, .proof ⟨[some ap], [some str], none⟩⟩ n key =
        some (cc', verdict key (ReqNameNotFound, none, none)) ∧
      AfterHonest cc cc' n str none := by
  obtain ⟨l, hl, hlv, hidx⟩ := absence_index hs
  have hver : verdict key (ReqNameNotFound, none, none) = none := by
    unfold verdict
    rw [if_neg (by decide)]
    cases key <;> rfl
  have hvrf : C.vrfVerify pol.vrfPublicKey n ap.lookupIndex ap.vrfProof = true := by
    rw [hv, hs.index, hs.vrf]; exact C.vrf_complete vk n hus
  have hnp : ¬ Promised KeyLookupType ReqNameNotFound .absence := by
    rintro ⟨_, h | h⟩ <;> exact absurd h (by decide)
  rw [hver]
  let cc' : Client :=
    { aud := ⟨cc.aud.signKey, str⟩, useTBs := true, bindings := fun m => if m = n then some none else cc.bindings m, tbs := cc.tbs }
  exact ⟨cc', (C34_accept_iff C cc htb KeyLookupType _ n key cc').mpr ⟨ap, str, none, l, .absence, pol, ⟨[], [], rfl⟩,
    ⟨hc, hl, by rw [if_neg hidx], .inr ⟨rfl, .inl ⟨rfl, rfl⟩⟩, hpol, hvrf, hs.verifies _ (.inr rfl)⟩,
    fun h => absurd h hnp, fun _ h => (nomatch h), rfl, rfl, fun m => rfl, fun _ _ => rfl,
    fun h => absurd h hnp, fun _ h => (nomatch h), fun _ _ => rfl⟩, rfl, rfl, fun _ _ => rfl, .inl rfl⟩

/-- a bare error is passed on -/
theorem honest_error {C : Crypto} {cc : Client} {ty : Int} {n : Bytes} {key : Option Bytes} {a : ErrorCode × Option Bytes × Option Bytes}
    (h : a.1 = ErrMalformedMessage ∨ a.1 = ErrDirectory) :
    cc.handleResponse C ty ⟨a.1, .none⟩ n key = some (cc, verdict key a) := by
  have hv : Response.validate ⟨a.1, .none⟩ = some (some a.1) := by
    unfold Response.validate
    rw [if_pos (by rcases h with h | h <;> rw [h] <;> decide)]
  unfold Client.handleResponse
  rw [hv]
  simp [verdict, h]

/-- the STR of one epoch is the successor of the one before -/
theorem log_successor {C : Crypto} {p : PAD} {log : List STR} (inv : PadInv C p log) {e : Nat} {s t : STR} (hs : log[e]? = some s)
    (ht : log[e + 1]? = some t) : Successor C (C.signPub p.signKey) s.toDir t.toDir := by
  refine ⟨⟨t.serialize, rfl, ?_⟩, ?_, ?_, ?_⟩
  · show C.verify _ _ t.core.signature = true
    rw [inv.sig t (List.mem_of_getElem? ht)]; exact C.verify_sign _ _
  · show t.core.epoch = s.core.epoch + 1
    rw [inv.epoch _ _ ht, inv.epoch _ _ hs, UInt64.ofNat_add]; rfl
  · show t.core.previousEpoch = s.core.epoch
    rw [inv.prev _ _ ht, inv.epoch _ _ hs, Nat.add_sub_cancel]
  · exact inv.chain _ _ _ hs ht

/-- a client in step with a directory; `lag` epochs behind -/
structure SesInv (C : Crypto) (sk vk : Bytes) (ns : List Bytes) (d : Directory) (log : List STR) (A : AbsDir) (cc : Client) (lag : Nat) :
    Prop where
  dir : DirInv C sk vk ns d log A
  useTBs : cc.useTBs = true
  signKey : cc.aud.signKey = C.signPub sk
  held : ∃ s, (log.reverse)[lag]? = some s ∧ cc.aud.verified = s.toDir
  tb : ∀ n p, cc.tbs n = some p → (C.vrfProve vk n).1 = p.index ∧ A.merged n = some p.value
  pol : (∃ t, d.policies = newPolicies t (C.vrfPub vk)) ∧ (∃ t, d.pad.ad = newPolicies t (C.vrfPub vk)) ∧
    ∃ t, d.pad.latest.ad = newPolicies t (C.vrfPub vk)

theorem last_rev {l : List STR} {s : STR} (h : l.getLast? = some s) : l.reverse[0]? = some s := by
  rw [← List.head?_eq_getElem?, List.head?_reverse]; exact h

theorem SesInv.chain {C sk vk ns d log A cc lag} (i : SesInv C sk vk ns d log A cc lag) (h : lag ≤ 1) :
    d.latestSTR = cc.aud.verified ∨ Successor C cc.aud.signKey cc.aud.verified d.latestSTR := by
  have hl := last_rev i.dir.pad.last
  obtain ⟨s, h1, h2⟩ := i.held
  rcases Nat.le_one_iff_eq_zero_or_eq_one.mp h with rfl | rfl
  · left
    rw [hl] at h1
    rw [h2, ← Option.some.inj h1]; rfl
  · right
    have hlt := (List.getElem?_eq_some_iff.mp h1).1
    rw [List.length_reverse] at hlt
    rw [List.getElem?_reverse hlt] at h1
    rw [List.getElem?_reverse (by omega)] at hl
    have := log_successor i.dir.pad h1 (by rw [← hl]; congr 1; omega)
    rw [i.signKey, h2, ← i.dir.skEq]
    exact this

/-- a step of the directory -/
theorem ses_dir_step {C sk vk ns d log A cc lag} (i : SesInv C sk vk ns d log A cc lag) (op : DirOp) (hn : ∀ n ∈ regNames [op], n ∈ ns)
    (inj : IndexInj (fun k => (C.vrfProve vk k).1) ns) (spread : IndexSpread (fun k => (C.vrfProve vk k).1) ns)
    (hlt : log.length + dirUpdates [op] ≤ 2 ^ 64) (d' : Directory) (r : Option Response) (h : d.step C op = some (d', r)) :
    SesInv C sk vk ns d' (log ++ op.issued d') (A.step op) cc (if op = .update then lag + 1 else lag) := by
  obtain ⟨A', inv', ext, hA⟩ := dir_step_inv i.dir op hn inj hlt d' r h
  rw [hA spread] at inv' ext
  obtain ⟨p1, p2, p3⟩ := step_policies h
  obtain ⟨⟨t1, q1⟩, ⟨t2, q2⟩, ⟨t3, q3⟩⟩ := i.pol
  obtain ⟨s, h1, h2⟩ := i.held
  refine ⟨inv', i.useTBs, i.signKey, ⟨s, ?_, h2⟩, fun n p hp => ⟨(i.tb n p hp).1, ext.merged _ _ (i.tb n p hp).2⟩,
    ⟨_, p1 _ _ q1⟩, ?_, ?_⟩
  · by_cases hu : op = .update
    · subst hu
      simp only [if_true, DirOp.issued, List.reverse_append, List.reverse_cons, List.reverse_nil, List.nil_append, List.singleton_append,
        List.getElem?_cons_succ]
      exact h1
    · have : op.issued d' = [] := by cases op <;> first | rfl | exact absurd rfl hu
      rw [if_neg hu, this, List.append_nil]; exact h1
  · by_cases hu : op = .update
    · exact ⟨t1, by rw [(p3 hu).2.1, q1]⟩
    · exact ⟨t2, by rw [(p2 hu).1, q2]⟩
  · by_cases hu : op = .update
    · exact ⟨t2, by rw [(p3 hu).2.2, q2]⟩
    · exact ⟨t3, by rw [(p2 hu).2, q3]⟩

/-- the client handles an honest answer -/
theorem ses_client {C sk vk ns d log A cc lag} (i : SesInv C sk vk ns d log A cc lag) {d' : Directory} {A' : AbsDir}
    (inv' : DirInv C sk vk ns d' log A') (hlat : d'.pad.latest = d.pad.latest)
    (hpol' : (∃ t, d'.policies = newPolicies t (C.vrfPub vk)) ∧ (∃ t, d'.pad.ad = newPolicies t (C.vrfPub vk)) ∧
      ∃ t, d'.pad.latest.ad = newPolicies t (C.vrfPub vk))
    (hext : ∀ n v, A.merged n = some v → A'.merged n = some v)
    (ty : Int) (n : Bytes) (hus : C.vrfUsable n = true) (key : Option Bytes) (a : ErrorCode × Option Bytes × Option Bytes) (resp : Response)
    (ha : Answers C sk vk n d.latestSTR resp a) (hlag : answered a = true → lag ≤ 1)
    (hshape : a.1 = ErrMalformedMessage ∨ a.1 = ErrDirectory ∨
      (∃ v, A.merged n = some v ∧ a.2 = (some v, none) ∧
        ((ty = RegistrationType ∧ a.1 = ReqNameExisted) ∨ (ty = KeyLookupType ∧ a.1 = ReqSuccess))) ∨
      (∃ v, A'.merged n = some v ∧ a.2 = (none, some v) ∧
        ((ty = RegistrationType ∧ (a.1 = ReqNameExisted ∨ a.1 = ReqSuccess)) ∨ (ty = KeyLookupType ∧ a.1 = ReqSuccess))) ∨
      (ty = KeyLookupType ∧ a = (ReqNameNotFound, none, none))) :
    ∃ cc', cc.handleResponse C ty resp n key = some (cc', verdict key a) ∧
      SesInv C sk vk ns d' log A' cc' (if answered a then 0 else lag) := by
  obtain ⟨s, h1, h2⟩ := i.held
  have base : SesInv C sk vk ns d' log A' cc lag :=
    ⟨inv', i.useTBs, i.signKey, ⟨s, h1, h2⟩, fun m p hp => ⟨(i.tb m p hp).1, hext _ _ (i.tb m p hp).2⟩, hpol'⟩
  by_cases herr : a.1 = ErrMalformedMessage ∨ a.1 = ErrDirectory
  · unfold Answers at ha
    rw [if_pos herr] at ha
    rw [ha]
    refine ⟨cc, honest_error herr, ?_⟩
    have : answered a = false := by
      unfold answered; rcases herr with h | h <;> rw [h] <;> decide
    rw [this]
    exact base
  · unfold Answers at ha
    rw [if_neg herr] at ha
    obtain ⟨ap, hr, hs⟩ := ha
    have hans : answered a = true := by
      unfold answered
      simp only [not_or] at herr
      simp [herr]
    rw [if_pos hans]
    have hc := i.chain (hlag hans)
    obtain ⟨t, ht⟩ := i.pol.2.2
    have hpol : d.latestSTR.policies = some (newPolicies t (C.vrfPub vk)) := by rw [← ht]; rfl
    have fin : ∀ cc' p, AfterHonest cc cc' n d.latestSTR p →
        (∀ x, p = some x → (C.vrfProve vk n).1 = x.index ∧ A'.merged n = some x.value) →
        SesInv C sk vk ns d' log A' cc' 0 := by
      intro cc' p ah hp
      refine ⟨inv', ah.useTBs, by rw [ah.aud]; exact i.signKey, ⟨_, last_rev inv'.pad.last, by rw [ah.aud, hlat]; rfl⟩, ?_, hpol'⟩
      intro m q hq
      by_cases hm : m = n
      · subst hm
        rcases ah.same with e | e | ⟨_, e⟩
        · rw [e] at hq; exact base.tb m q hq
        · rw [e] at hq; nomatch hq
        · rw [e] at hq; exact hp q hq
      · rw [ah.other m hm] at hq; exact base.tb m q hq
    obtain ⟨c, sh, pr⟩ := a
    simp only [not_or] at herr
    rcases hshape with h | h | ⟨v, hm, h, hcode⟩ | ⟨v, hm, h, hcode⟩ | ⟨hty, h⟩
    · exact absurd h herr.1
    · exact absurd h herr.2
    · simp only [Prod.mk.injEq] at h
      obtain ⟨rfl, rfl⟩ := h
      obtain ⟨cc', g1, g2⟩ := @honest_inclusion C cc vk n v ty c key d.latestSTR _ ap hus i.useTBs hpol rfl hc hcode hs (by
        intro p hp
        obtain ⟨x, y⟩ := i.tb n p hp
        rw [hm] at y
        exact ⟨x, Option.some.inj y⟩)
      exact ⟨cc', by rw [hr]; exact g1, fin cc' none g2 (fun x h => (nomatch h))⟩
    · simp only [Prod.mk.injEq] at h
      obtain ⟨rfl, rfl⟩ := h
      obtain ⟨cc', g1, g2⟩ := @honest_promise C cc sk vk n v ty c key d.latestSTR _ ap hus i.useTBs i.signKey hpol rfl hc hcode hs
      exact ⟨cc', by rw [hr]; exact g1, fin cc' _ g2 (fun x h => by cases h; exact ⟨rfl, hm⟩)⟩
    · simp only [Prod.mk.injEq] at h
      obtain ⟨rfl, rfl, rfl⟩ := h
      subst hty
      obtain ⟨cc', g1, g2⟩ := @honest_absence C cc vk n key d.latestSTR _ ap hus i.useTBs hpol rfl hc hs
      exact ⟨cc', by rw [hr]; exact g1, fin cc' none g2 (fun x h => (nomatch h))⟩

theorem lookup_shape (A : AbsDir) (disj : ∀ n v, A.pending n = some v → A.committed n = none) (n : Bytes) :
    let a := A.lookupAnswer n
    a.1 = ErrMalformedMessage ∨ a.1 = ErrDirectory ∨
      (∃ v, A.merged n = some v ∧ a.2 = (some v, none) ∧
        ((KeyLookupType = RegistrationType ∧ a.1 = ReqNameExisted) ∨ (KeyLookupType = KeyLookupType ∧ a.1 = ReqSuccess))) ∨
      (∃ v, A.merged n = some v ∧ a.2 = (none, some v) ∧
        ((KeyLookupType = RegistrationType ∧ (a.1 = ReqNameExisted ∨ a.1 = ReqSuccess)) ∨ (KeyLookupType = KeyLookupType ∧ a.1 = ReqSuccess))) ∨
      (KeyLookupType = KeyLookupType ∧ a = (ReqNameNotFound, none, none)) := by
  unfold AbsDir.lookupAnswer
  by_cases h : n = []
  · rw [if_pos h]; exact .inl rfl
  · rw [if_neg h]
    cases hc : A.committed n with
    | some v => exact .inr (.inr (.inl ⟨v, merged_of_committed disj hc, rfl, .inr ⟨rfl, rfl⟩⟩))
    | none =>
      cases hp : A.pending n with
      | some v => exact .inr (.inr (.inr (.inl ⟨v, by simp [AbsDir.merged, hp], rfl, .inr ⟨rfl, rfl⟩⟩)))
      | none => exact .inr (.inr (.inr (.inr ⟨rfl, rfl⟩)))

theorem register_shape (A : AbsDir) (disj : ∀ n v, A.pending n = some v → A.committed n = none) (rnd : Option Bytes) (n k : Bytes) :
    let a := A.registerAnswer rnd n k
    a.1 = ErrMalformedMessage ∨ a.1 = ErrDirectory ∨
      (∃ v, A.merged n = some v ∧ a.2 = (some v, none) ∧
        ((RegistrationType = RegistrationType ∧ a.1 = ReqNameExisted) ∨ (RegistrationType = KeyLookupType ∧ a.1 = ReqSuccess))) ∨
      (∃ v, (A.step (.register rnd ⟨n, k⟩)).merged n = some v ∧ a.2 = (none, some v) ∧
        ((RegistrationType = RegistrationType ∧ (a.1 = ReqNameExisted ∨ a.1 = ReqSuccess)) ∨
          (RegistrationType = KeyLookupType ∧ a.1 = ReqSuccess))) ∨
      (RegistrationType = KeyLookupType ∧ a = (ReqNameNotFound, none, none)) := by
  unfold AbsDir.registerAnswer
  by_cases h : n = [] ∨ k = []
  · rw [if_pos h]; exact .inl rfl
  · rw [if_neg h]
    cases hc : A.committed n with
    | some v => exact .inr (.inr (.inl ⟨v, merged_of_committed disj hc, rfl, .inl ⟨rfl, rfl⟩⟩))
    | none =>
      cases hp : A.pending n with
      | some v =>
        have hm : A.merged n = some v := by simp [AbsDir.merged, hp]
        exact .inr (.inr (.inr (.inl ⟨v, by simp [AbsDir.step, hm], rfl, .inl ⟨rfl, .inl rfl⟩⟩)))
      | none =>
        have hm : A.merged n = none := by simp [AbsDir.merged, hp, hc]
        cases rnd with
        | none => exact .inr (.inl rfl)
        | some r =>
          simp only [not_or] at h
          have hst : A.step (.register (some r) ⟨n, k⟩) = A.add n k := by simp [AbsDir.step, hm, h]
          exact .inr (.inr (.inr (.inl ⟨k, by rw [hst]; simp [AbsDir.add, AbsDir.merged], rfl, .inl ⟨rfl, .inr rfl⟩⟩)))

theorem runLog_cons_some {C : Crypto} {d d' : Directory} {log log' : List STR} {op : DirOp} {ops : List DirOp}
    (h : d.runLog C log (op :: ops) = some (d', log')) :
    ∃ d1 r, d.step C op = some (d1, r) ∧ d1.runLog C (log ++ op.issued d1) ops = some (d', log') := by
  obtain ⟨⟨d1, r⟩, h1, h2⟩ := Option.bind_eq_some_iff.mp h
  exact ⟨d1, r, h1, h2⟩

/-- the policies of the directory always name its VRF key -/
theorem after_policies {C : Crypto} {t0 : UInt64} {sk vk : Bytes} {size : Nat} {r₁ r₂ : Bytes} {pre : List DirOp} {d₀ : Directory} {log₀ : List STR}
    (h₀ : dirAfter C t0 sk vk size r₁ r₂ pre = some (d₀, log₀)) :
    (∃ t, d₀.policies = newPolicies t (C.vrfPub vk)) ∧ (∃ t, d₀.pad.ad = newPolicies t (C.vrfPub vk)) ∧
      ∃ t, d₀.pad.latest.ad = newPolicies t (C.vrfPub vk) := by
  obtain ⟨dn, g0, _, g1, g2, g3, _⟩ := new_dir_inv C t0 sk vk size r₁ r₂ []
  simp only [dirAfter, g0, Option.bind_some] at h₀
  have run : ∀ (l : List DirOp) (d : Directory) (lg : List STR), ((∃ t, d.policies = newPolicies t (C.vrfPub vk)) ∧
      (∃ t, d.pad.ad = newPolicies t (C.vrfPub vk)) ∧ ∃ t, d.pad.latest.ad = newPolicies t (C.vrfPub vk)) →
      ∀ d' lg', d.runLog C lg l = some (d', lg') → ((∃ t, d'.policies = newPolicies t (C.vrfPub vk)) ∧
      (∃ t, d'.pad.ad = newPolicies t (C.vrfPub vk)) ∧ ∃ t, d'.pad.latest.ad = newPolicies t (C.vrfPub vk)) := by
    intro l
    induction l with
    | nil => intro d lg q d' lg' e; cases e; exact q
    | cons op l ih =>
      rintro d lg ⟨⟨t1, q1⟩, ⟨t2, q2⟩, ⟨t3, q3⟩⟩ d' lg' e
      obtain ⟨d1, r, e1, e2⟩ := runLog_cons_some e
      obtain ⟨p1, p2, p3⟩ := step_policies e1
      refine ih d1 _ ⟨⟨_, p1 _ _ q1⟩, ?_, ?_⟩ d' lg' e2
      · by_cases hu : op = .update
        · exact ⟨t1, by rw [(p3 hu).2.1, q1]⟩
        · exact ⟨t2, by rw [(p2 hu).1, q2]⟩
      · by_cases hu : op = .update
        · exact ⟨t2, by rw [(p3 hu).2.2, q2]⟩
        · exact ⟨t3, by rw [(p2 hu).2, q3]⟩
  exact run pre dn _ ⟨⟨_, g1⟩, ⟨_, g2⟩, ⟨_, g3⟩⟩ d₀ log₀ h₀

theorem session_run (C : Crypto) (sk vk : Bytes) (ns : List Bytes) (inj : IndexInj (fun k => (C.vrfProve vk k).1) ns)
    (spread : IndexSpread (fun k => (C.vrfProve vk k).1) ns) (ops : List SesOp) : ∀ d log A cc lag,
    SesInv C sk vk ns d log A cc lag → (∀ n ∈ sesNames ops, n ∈ ns) → (∀ n ∈ ownNames ops, C.vrfUsable n = true) → KeepsUp lag A ops →
    log.length + dirUpdates (ops.map SesOp.dirOp) ≤ 2 ^ 64 → ∀ d' log', d.runLog C log (ops.map SesOp.dirOp) = some (d', log') →
    ∃ cc', runSession C d cc ops = some (d', cc', verdicts A ops) := by
  induction ops with
  | nil =>
    intro d log A cc lag i _ _ _ _ d' log' h
    simp only [List.map_nil, Directory.runLog, Option.some.injEq, Prod.mk.injEq] at h
    exact ⟨cc, by simp [runSession, verdicts, h.1]⟩
  | cons op ops ih =>
    intro d log A cc lag i hns hown hk hlen d' log' h
    rw [List.map_cons] at h hlen
    rw [dirUpdates_cons] at hlen
    obtain ⟨d1, r, h1, h2⟩ := runLog_cons_some h
    have hil : (log ++ op.dirOp.issued d1).length = log.length + dirUpdates [op.dirOp] := by simp [issued_length]
    have hnames : ∀ n ∈ regNames [op.dirOp], n ∈ ns := by
      intro n hn
      apply hns
      cases op with
      | lookup n key => simp [SesOp.dirOp, regNames] at hn
      | dir op => simp only [sesNames]; exact List.mem_append_left _ hn
      | register rnd n k => simp only [sesNames]; exact List.mem_append_left _ hn
    have hrest : ∀ n ∈ sesNames ops, n ∈ ns := by
      intro n hn
      apply hns
      cases op <;> simp only [sesNames]
      · exact List.mem_append_right _ hn
      · exact List.mem_cons_of_mem _ hn
      · exact List.mem_append_right _ hn
    have hsub : ∀ n ∈ ns, IndexSpread (fun k => (C.vrfProve vk k).1) (n :: ns) := by
      intro n hn a ha b hb e
      refine spread a ?_ b ?_ e
      · rcases List.mem_cons.mp ha with h | h; exact h ▸ hn; exact h
      · rcases List.mem_cons.mp hb with h | h; exact h ▸ hn; exact h
    have hown' : ∀ n ∈ ownNames ops, C.vrfUsable n = true := by
      intro n hn
      apply hown
      cases op <;> simp only [ownNames]
      · exact hn
      · exact List.mem_cons_of_mem _ hn
      · exact List.mem_cons_of_mem _ hn
    have i1 := ses_dir_step i op.dirOp hnames inj spread (by omega) d1 r h1
    cases op with
    | dir op =>
      obtain ⟨cc', hcc⟩ := ih d1 _ _ cc _ i1 hrest hown' hk (by rw [hil]; omega) d' log' h2
      refine ⟨cc', ?_⟩
      simp only [runSession, verdicts]
      rw [show d.step C op = some (d1, r) from h1]
      exact hcc
    | lookup n key =>
      have hn : n ∈ ns := hns n (by simp [sesNames])
      obtain ⟨resp, g1, g2⟩ := keyLookup_spec i.dir ⟨n⟩ (spread_inj (hsub n hn))
      have g2 : Answers C sk vk n d.latestSTR resp (A.lookupAnswer n) := by
        rcases g2 with ⟨_, x, _⟩ | x
        · exact absurd (hsub n hn) x
        · exact x
      have hd1 : d1 = d := by
        simp only [SesOp.dirOp, Directory.step, g1, Option.map_some, Option.some.injEq, Prod.mk.injEq] at h1
        exact h1.1.symm
      subst hd1
      have hiss : SesOp.dirOp (.lookup n key) = .keyLookup ⟨n⟩ := rfl
      rw [hiss] at h2
      simp only [DirOp.issued, List.append_nil] at h2
      have hlag : answered (A.lookupAnswer n) = true → lag ≤ 1 := by
        intro ha; simp only [KeepsUp, if_pos ha] at hk; exact hk.1
      obtain ⟨c1, k1, k2⟩ := ses_client i i.dir rfl i.pol (fun _ _ h => h) KeyLookupType n (hown n (List.mem_cons_self ..)) key (A.lookupAnswer n) resp g2 hlag
        (lookup_shape A i.dir.disj n)
      have hk' : KeepsUp (if answered (A.lookupAnswer n) then 0 else lag) A ops := by
        simp only [KeepsUp] at hk
        split at hk
        · next e => rw [if_pos e]; exact hk.2
        · next e => rw [if_neg e]; exact hk
      obtain ⟨cc', hcc⟩ := ih d1 log A c1 _ k2 hrest hown' hk' (by omega) d' log' h2
      refine ⟨cc', ?_⟩
      simp only [runSession, verdicts, g1, Option.bind_some, k1, hcc, Option.map_some]
    | register rnd n k =>
      have hn : n ∈ ns := hns n (by simp [sesNames, SesOp.dirOp, regNames])
      obtain ⟨d2, resp, g1, _, _, g2⟩ := register_spec i.dir rnd ⟨n, k⟩ hn inj
      have g2 : Answers C sk vk n d.latestSTR resp (A.registerAnswer rnd n k) := by
        rcases g2 with ⟨_, x⟩ | x
        · exact absurd spread x
        · exact x
      have hd1 : d1 = d2 := by
        simp only [SesOp.dirOp, Directory.step, g1, Option.map_some, Option.some.injEq, Prod.mk.injEq] at h1
        exact h1.1.symm
      subst hd1
      have hiss : SesOp.dirOp (.register rnd n k) = .register rnd ⟨n, k⟩ := rfl
      rw [hiss] at h2 i1
      simp only [DirOp.issued, List.append_nil, reduceCtorEq, if_false] at h2 i1
      have hlat := (register_keeps g1).2.2
      have hlag : answered (A.registerAnswer rnd n k) = true → lag ≤ 1 := by
        intro ha; simp only [KeepsUp, if_pos ha] at hk; exact hk.1
      have hext : ∀ m v, A.merged m = some v → (A.step (.register rnd ⟨n, k⟩)).merged m = some v := by
        intro m v hm
        simp only [AbsDir.step]
        split
        · next hc =>
          simp only [AbsDir.merged, AbsDir.add]
          by_cases e : m = n
          · subst e; rw [hc.2.2.1] at hm; nomatch hm
          · simp only [if_neg e]; exact hm
        · exact hm
      obtain ⟨c1, k1, k2⟩ := ses_client i i1.dir hlat i1.pol hext RegistrationType n (hown n (List.mem_cons_self ..)) (some k) (A.registerAnswer rnd n k) resp g2 hlag
        (register_shape A i.dir.disj rnd n k)
      have hk' : KeepsUp (if answered (A.registerAnswer rnd n k) then 0 else lag) (A.step (.register rnd ⟨n, k⟩)) ops := by
        simp only [KeepsUp] at hk
        split at hk
        · next e => rw [if_pos e]; exact hk.2
        · next e => rw [if_neg e]; exact hk
      obtain ⟨cc', hcc⟩ := ih d1 log _ c1 _ k2 hrest hown' hk' (by omega) d' log' h2
      refine ⟨cc', ?_⟩
      simp only [runSession, verdicts, g1, Option.bind_some, k1, hcc, Option.map_some]

/-! ### a client that is too far behind -/

theorem behind_refused {C : Crypto} {cc : Client} {ty : Int} {code : ErrorCode} {ap : AuthPath} {str : DirSTR} {tb : Option TB} {n : Bytes}
    {key : Option Bytes} (hty : ty = RegistrationType ∨ ty = KeyLookupType) (hcode : errorsSet code = false)
    (h1 : str.core.epoch ≠ cc.aud.verified.core.epoch) (h2 : str.core.epoch ≠ cc.aud.verified.core.epoch + 1) :
    cc.handleResponse C ty ⟨code, .proof ⟨[some ap], [some str], tb⟩⟩ n key = some (cc, some CheckBadSTR) := by
  unfold Client.handleResponse
  have hv : Response.validate ⟨code, .proof ⟨[some ap], [some str], tb⟩⟩ = some none := by simp [Response.validate, hcode]
  rw [hv]
  simp only
  rw [if_pos (by rcases hty with h | h; exact .inl h; exact .inr (.inl h))]
  have hu : cc.updateSTR C ty ⟨[some ap], [some str], tb⟩ = some (cc, some CheckBadSTR) := by
    unfold Client.updateSTR
    rw [if_pos hty]
    simp only [audit_one, AudState.checkSTRAgainstVerified, h1, h2, if_false]
  simp only [hu]

/-- refused answers -/
theorem behind_answer {C : Crypto} {cc : Client} {sk vk n : Bytes} {key : Option Bytes} {ty : Int} {str : DirSTR} {resp : Response}
    {a : ErrorCode × Option Bytes × Option Bytes} (ha : Answers C sk vk n str resp a) (hty : ty = RegistrationType ∨ ty = KeyLookupType)
    (hcode : answered a = true → errorsSet a.1 = false)
    (h1 : str.core.epoch ≠ cc.aud.verified.core.epoch) (h2 : str.core.epoch ≠ cc.aud.verified.core.epoch + 1) :
    cc.handleResponse C ty resp n key = some (cc, some (if answered a then CheckBadSTR else a.1)) := by
  unfold Answers at ha
  by_cases herr : a.1 = ErrMalformedMessage ∨ a.1 = ErrDirectory
  · rw [if_pos herr] at ha
    rw [ha, honest_error herr]
    have : answered a = false := by unfold answered; rcases herr with h | h <;> rw [h] <;> decide
    simp [verdict, herr, this]
  · rw [if_neg herr] at ha
    obtain ⟨ap, hr, _⟩ := ha
    have hans : answered a = true := by
      unfold answered
      simp only [not_or] at herr
      simp [herr]
    rw [hr, behind_refused hty (hcode hans) h1 h2, hans, if_pos rfl]

theorem session_behind (C : Crypto) (sk vk : Bytes) (ns : List Bytes) (inj : IndexInj (fun k => (C.vrfProve vk k).1) ns)
    (spread : IndexSpread (fun k => (C.vrfProve vk k).1) ns) (cc : Client) (ops : List SesOp) : ∀ d log A,
    DirInv C sk vk ns d log A → cc.aud.verified.core.epoch.toNat + 2 < log.length → (∀ n ∈ sesNames ops, n ∈ ns) →
    log.length + dirUpdates (ops.map SesOp.dirOp) ≤ 2 ^ 64 → ∀ d' log', d.runLog C log (ops.map SesOp.dirOp) = some (d', log') →
    runSession C d cc ops = some (d', cc, refusals A ops) := by
  induction ops with
  | nil =>
    intro d log A i _ _ _ d' log' h
    simp only [List.map_nil, Directory.runLog, Option.some.injEq, Prod.mk.injEq] at h
    simp [runSession, refusals, h.1]
  | cons op ops ih =>
    intro d log A i hb hns hlen d' log' h
    rw [List.map_cons] at h hlen
    rw [dirUpdates_cons] at hlen
    obtain ⟨d1, r, h1, h2⟩ := runLog_cons_some h
    have hil : (log ++ op.dirOp.issued d1).length = log.length + dirUpdates [op.dirOp] := by simp [issued_length]
    have hnames : ∀ n ∈ regNames [op.dirOp], n ∈ ns := by
      intro n hn
      apply hns
      cases op with
      | lookup n key => simp [SesOp.dirOp, regNames] at hn
      | dir op => simp only [sesNames]; exact List.mem_append_left _ hn
      | register rnd n k => simp only [sesNames]; exact List.mem_append_left _ hn
    have hrest : ∀ n ∈ sesNames ops, n ∈ ns := by
      intro n hn
      apply hns
      cases op <;> simp only [sesNames]
      · exact List.mem_append_right _ hn
      · exact List.mem_cons_of_mem _ hn
      · exact List.mem_append_right _ hn
    have hsub : ∀ n ∈ ns, IndexSpread (fun k => (C.vrfProve vk k).1) (n :: ns) := by
      intro n hn a ha b hb e
      refine spread a ?_ b ?_ e
      · rcases List.mem_cons.mp ha with h | h; exact h ▸ hn; exact h
      · rcases List.mem_cons.mp hb with h | h; exact h ▸ hn; exact h
    obtain ⟨A', i1, _, hA⟩ := dir_step_inv i op.dirOp hnames inj (by omega) d1 r h1
    rw [hA spread] at i1
    have hrec := ih d1 _ _ i1 (by rw [hil]; omega) hrest (by rw [hil]; omega) d' log' h2
    have hep : d.latestSTR.core.epoch.toNat = log.length - 1 := i.pad.latest_toNat
    have hcc := cc.aud.verified.core.epoch.toNat_lt
    have e1 : d.latestSTR.core.epoch ≠ cc.aud.verified.core.epoch := by
      intro e; rw [e] at hep; omega
    have e2 : d.latestSTR.core.epoch ≠ cc.aud.verified.core.epoch + 1 := by
      intro e
      rw [e, UInt64.toNat_add] at hep
      have := i.pad.small
      rw [show (1 : UInt64).toNat = 1 from rfl, Nat.mod_eq_of_lt (by omega)] at hep
      omega
    cases op with
    | dir op =>
      simp only [runSession, refusals]
      rw [show d.step C op = some (d1, r) from h1]
      exact hrec
    | lookup n key =>
      have hn : n ∈ ns := hns n (by simp [sesNames])
      obtain ⟨resp, g1, g2⟩ := keyLookup_spec i ⟨n⟩ (spread_inj (hsub n hn))
      have g2 : Answers C sk vk n d.latestSTR resp (A.lookupAnswer n) := by
        rcases g2 with ⟨_, x, _⟩ | x
        · exact absurd (hsub n hn) x
        · exact x
      have hd1 : d1 = d := by
        simp only [SesOp.dirOp, Directory.step, g1, Option.map_some, Option.some.injEq, Prod.mk.injEq] at h1
        exact h1.1.symm
      subst hd1
      have hcode : answered (A.lookupAnswer n) = true → errorsSet (A.lookupAnswer n).1 = false := by
        unfold AbsDir.lookupAnswer
        split
        · intro h; exact absurd h (by decide)
        · split
          · intro _; rfl
          · split <;> intro _ <;> rfl
      have := behind_answer (key := key) g2 (.inr rfl) hcode e1 e2
      simp only [runSession, refusals, g1, Option.bind_some, this]
      rw [show A.step (SesOp.dirOp (.lookup n key)) = A from rfl] at hrec
      rw [hrec]; rfl
    | register rnd n k =>
      have hn : n ∈ ns := hns n (by simp [sesNames, SesOp.dirOp, regNames])
      obtain ⟨d2, resp, g1, _, _, g2⟩ := register_spec i rnd ⟨n, k⟩ hn inj
      have g2 : Answers C sk vk n d.latestSTR resp (A.registerAnswer rnd n k) := by
        rcases g2 with ⟨_, x⟩ | x
        · exact absurd spread x
        · exact x
      have hd1 : d1 = d2 := by
        simp only [SesOp.dirOp, Directory.step, g1, Option.map_some, Option.some.injEq, Prod.mk.injEq] at h1
        exact h1.1.symm
      subst hd1
      have hcode : answered (A.registerAnswer rnd n k) = true → errorsSet (A.registerAnswer rnd n k).1 = false := by
        unfold AbsDir.registerAnswer
        split
        · intro h; exact absurd h (by decide)
        · split
          · intro _; rfl
          · split
            · intro _; rfl
            · split
              · intro _; rfl
              · intro h; exact absurd h (by decide)
      have := behind_answer (key := some k) g2 (.inl rfl) hcode e1 e2
      simp only [runSession, refusals, g1, Option.bind_some, this]
      rw [show A.step (SesOp.dirOp (.register rnd n k)) = A.step (.register rnd ⟨n, k⟩) from rfl] at hrec
      rw [hrec]; rfl

end Coniks

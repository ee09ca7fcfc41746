import Verif.Proofs.Cli
import Verif.Props.Wire
/-
C64: the command-line client.
-/
namespace Coniks.Props
open Coniks Spec Json

/-! ### what is printed when the server is honest -/

theorem usable_true {N : Net} {a : Bytes} (h : N.scheme a = some (ascii "tcp") ∨ N.scheme a = some (ascii "unix")) :
    N.usable a = some true := by
  unfold Net.usable
  rcases h with h | h <;> rw [h] <;> simp

/-- the address for registrations: the configured one, or the public address if there is none -/
theorem reg_eq {conf : CliConf} {ra : Bytes}
    (h : ra = conf.regAddress ∧ conf.regAddress ≠ [] ∨ ra = conf.address ∧ conf.regAddress = []) : ra = conf.reg := by
  unfold CliConf.reg
  rcases h with ⟨rfl, h⟩ | ⟨rfl, h⟩
  · rw [if_neg h]
  · rw [if_pos h]

/-- C64. What the user reads is what the directory did: over the network, with an honest server and a client that keeps up, the REPL prints
exactly `lines`, which is computed from the abstract directory alone. PARTIAL: conditions of C33 (spread indices, names with a verifiable VRF
proof, at most one epoch between two commands); messages of at most 8192 bytes; addresses that parse, reach the server and permit the request;
and the line for a lookup does not show the key (`C64_lookup_prints_no_key`). -/
theorem C64_session_partial (C : Crypto) (t0 : UInt64) (sk vk : Bytes) (size : Nat) (r₁ r₂ : Bytes) (pre : List DirOp) (evs : List ReplEvent)
    (hlt : dirUpdates (pre ++ (sesOps evs).map SesOp.dirOp) < 2 ^ 64)
    (spread : IndexSpread (fun k => (C.vrfProve vk k).1) (regNames pre ++ sesNames (sesOps evs)))
    (hus : ∀ n ∈ ownNames (sesOps evs), C.vrfUsable n = true)
    (hk : KeepsUp 0 (absAfter pre) (sesOps evs))
    (d₀ : Directory) (log₀ : List STR) (h₀ : dirAfter C t0 sk vk size r₁ r₂ pre = some (d₀, log₀))
    (cc : Client) (hcc : newClient d₀.latestSTR true (C.signPub sk) = some cc)
    (d : Directory) (log : List STR) (h : dirAfter C t0 sk vk size r₁ r₂ (pre ++ (sesOps evs).map SesOp.dirOp) = some (d, log))
    (N : Net) (conf : CliConf) (addrs : List Address) (hnd : (addrs.map Address.ptr).Nodup)
    (ra : Bytes) (hra : ra = conf.regAddress ∧ conf.regAddress ≠ [] ∨ ra = conf.address ∧ conf.regAddress = [])
    (hur : N.scheme ra = some (ascii "tcp") ∨ N.scheme ra = some (ascii "unix"))
    (hua : N.scheme conf.address = some (ascii "tcp") ∨ N.scheme conf.address = some (ascii "unix"))
    (a : Address) (ha : a ∈ addrs) (hal : a.ptr = N.listener ra) (hreg : a.allowRegistration = true)
    (b : Address) (hb : b ∈ addrs) (hbl : b.ptr = N.listener conf.address)
    (hf : AllFit C d₀ (sesOps evs) = true) (ts : Bool) :
    ∃ cc', repl C N conf (permsMap addrs) d₀ cc ts evs = some (d, cc', lines (absAfter pre) ts evs) := by
  have hrc := reg_eq hra
  subst hrc
  have inj := spread_inj spread
  rw [dirUpdates_append] at hlt
  rw [dirAfter_append, h₀, Option.bind_some] at h
  obtain ⟨A, inv, hA, hl⟩ := dirAfter_inv C t0 sk vk size r₁ r₂ pre (regNames pre ++ sesNames (sesOps evs))
    (fun n hn => List.mem_append_left _ hn) inj (by omega) d₀ log₀ h₀
  rw [hA spread] at inv
  simp only [newClient, if_true, Option.some.injEq] at hcc
  subst hcc
  obtain ⟨cc', ht⟩ := talk_run C sk vk _ inj spread (sesOps evs) d₀ log₀ (absAfter pre)
    { aud := newAudState (C.signPub sk) d₀.latestSTR, bindings := fun _ => none, useTBs := true, tbs := fun _ => none } 0
    ⟨inv, rfl, rfl, ⟨_, last_rev inv.pad.last, rfl⟩, (by intro n p hp; nomatch hp), after_policies h₀⟩
    (fun n hn => List.mem_append_right _ hn) hus hk (by omega) d log h
  refine ⟨cc', ?_⟩
  rw [repl_talk (usable_true hur) (usable_true hua) ((C46_permissions addrs hnd _ 0).mpr ⟨a, ha, hal, .inr (.inr (.inr ⟨rfl, hreg⟩))⟩)
    ((C46_permissions addrs hnd _ 1).mpr ⟨b, hb, hbl, .inl rfl⟩) evs d₀ _ ts (after_std h₀) (fun _ => rfl) hf, ht, Option.map_some]
  show some (d, cc', render ts evs (talks (absAfter pre) (sesOps evs))) = _
  rw [render_talks evs (absAfter pre) ts (disj_after pre _ disj_init)]

/-- the lines "register alice k1", "lookup bob", a typing error, an epoch, "lookup alice", "register alice k2", "q" -/
def sampleRepl : List ReplEvent :=
  [.line (some [7]) "register alice k1".toList, .line none "  lookup  bob ".toList, .line none "lookup".toList, .dir .update,
   .line none "lookup alice".toList, .line (some [8]) "register alice k2".toList, .line none "q".toList]

def sampleNet : Net := ⟨fun _ => some (ascii "tcp"), fun _ => 7⟩

example : ∃ d₀ log₀ cc d cc', dirAfter Crypto.toy 5 [1] [2] 10 [3] [4] [.update] = some (d₀, log₀) ∧
    newClient d₀.latestSTR true (Crypto.toy.signPub [1]) = some cc ∧
    repl Crypto.toy sampleNet ⟨[], ascii "tcp://server"⟩ (permsMap [⟨7, true⟩]) d₀ cc false sampleRepl = some (d, cc',
      [(false, ascii "[+] Succesfully registered name: alice"), (false, ascii "[+] Name isn't registered."),
       (false, ascii "[!] Incorrect number of args to lookup."), (false, ascii "[+] Found! Key bound to name is: []"),
       (false, ascii "[+] Are you trying to update your binding? Unfortunately, KeyChange isn't supported yet."),
       (false, ascii "[+] See ya.")]) := by
  have hops : sesOps sampleRepl = [.register (some [7]) (ascii "alice") (ascii "k1"), .lookup (ascii "bob") none, .dir .update,
      .lookup (ascii "alice") none, .register (some [8]) (ascii "alice") (ascii "k2")] := by rfl
  have hrun : (dirAfter Crypto.toy 5 [1] [2] 10 [3] [4] ([.update] ++ (sesOps sampleRepl).map SesOp.dirOp)).isSome = true := by
    rw [hops, dirAfterE_eq]; decide +kernel
  obtain ⟨⟨d, log⟩, hd⟩ := Option.isSome_iff_exists.mp hrun
  have hd' := hd
  rw [dirAfter_append] at hd'
  obtain ⟨⟨d₀, log₀⟩, h₀, _⟩ := Option.bind_eq_some_iff.mp hd'
  have hfit : ((dirAfter Crypto.toy 5 [1] [2] 10 [3] [4] [.update]).map fun x => AllFit Crypto.toy x.1 (sesOps sampleRepl)) = some true := by
    rw [hops, dirAfterE_eq]; simp only [AllFit, SesOp.dirOp, stepE_eq]; decide +kernel
  rw [h₀] at hfit
  obtain ⟨cc', h⟩ := C64_session_partial Crypto.toy 5 [1] [2] 10 [3] [4] [.update] sampleRepl (by rw [hops]; decide)
    (by rw [hops]; decide +kernel) (fun _ _ => rfl) (by rw [hops]; decide +kernel) d₀ log₀ h₀ _ rfl d log hd
    sampleNet ⟨[], ascii "tcp://server"⟩ [⟨7, true⟩] (by decide)
    (ascii "tcp://server") (.inr ⟨rfl, rfl⟩) (.inl rfl) (.inl rfl) ⟨7, true⟩ (by simp) rfl rfl ⟨7, true⟩ (by simp) rfl
    (by simpa using hfit) false
  refine ⟨d₀, log₀, _, d, cc', h₀, rfl, h.trans ?_⟩
  refine congrArg some (congrArg (d, cc', ·) ?_)
  decide +kernel

/-- C64 is false for a client that starts with an STR two or more epochs old, as every run of the client does once the directory's initial
STR is that old (the client keeps no state between runs): every registration and every lookup that the honest directory answers is met with
the same complaint; registrations take effect nevertheless. -/
theorem C64_old_str_counterexample (C : Crypto) (t0 : UInt64) (sk vk : Bytes) (size : Nat) (r₁ r₂ : Bytes) (pre : List DirOp)
    (evs : List ReplEvent) (hlt : dirUpdates (pre ++ (sesOps evs).map SesOp.dirOp) < 2 ^ 64)
    (spread : IndexSpread (fun k => (C.vrfProve vk k).1) (regNames pre ++ sesNames (sesOps evs)))
    (d₀ : Directory) (log₀ : List STR) (h₀ : dirAfter C t0 sk vk size r₁ r₂ pre = some (d₀, log₀))
    (cc : Client) (e : Nat) (s : STR) (he : log₀[e]? = some s) (hcc : newClient s.toDir true (C.signPub sk) = some cc)
    (hb : e + 2 ≤ dirUpdates pre)
    (d : Directory) (log : List STR) (h : dirAfter C t0 sk vk size r₁ r₂ (pre ++ (sesOps evs).map SesOp.dirOp) = some (d, log))
    (N : Net) (conf : CliConf) (addrs : List Address) (hnd : (addrs.map Address.ptr).Nodup)
    (ra : Bytes) (hra : ra = conf.regAddress ∧ conf.regAddress ≠ [] ∨ ra = conf.address ∧ conf.regAddress = [])
    (hur : N.scheme ra = some (ascii "tcp") ∨ N.scheme ra = some (ascii "unix"))
    (hua : N.scheme conf.address = some (ascii "tcp") ∨ N.scheme conf.address = some (ascii "unix"))
    (a : Address) (ha : a ∈ addrs) (hal : a.ptr = N.listener ra) (hreg : a.allowRegistration = true)
    (b : Address) (hb' : b ∈ addrs) (hbl : b.ptr = N.listener conf.address)
    (hf : AllFit C d₀ (sesOps evs) = true) (ts : Bool) :
    repl C N conf (permsMap addrs) d₀ cc ts evs = some (d, cc, lostLines (absAfter pre) ts evs) := by
  have hrc := reg_eq hra
  subst hrc
  simp only [newClient, if_true, Option.some.injEq] at hcc
  subst hcc
  have hs := C33_two_epochs_behind_counterexample C t0 sk vk size r₁ r₂ pre (sesOps evs) hlt spread d₀ log₀ h₀
    { aud := newAudState (C.signPub sk) s.toDir, bindings := fun _ => none, useTBs := true, tbs := fun _ => none } e s he rfl hb d log h
  rw [runSession_talk] at hs
  obtain ⟨⟨d', c', rs⟩, ht, hz⟩ := Option.map_eq_some_iff.mp hs
  simp only [Prod.mk.injEq] at hz
  obtain ⟨rfl, rfl, hr⟩ := hz
  rw [repl_talk (usable_true hur) (usable_true hua) ((C46_permissions addrs hnd _ 0).mpr ⟨a, ha, hal, .inr (.inr (.inr ⟨rfl, hreg⟩))⟩)
    ((C46_permissions addrs hnd _ 1).mpr ⟨b, hb', hbl, .inl rfl⟩) evs d₀ _ ts (after_std h₀) (fun _ => rfl) hf, ht, Option.map_some]
  exact congrArg (fun l => some (d', _, l)) (render_lost evs (absAfter pre) ts rs (disj_after pre _ disj_init) hr)

/-- a name nobody registered, then a registration: both complaints, although the registration went through -/
example : lostLines (absAfter [.update, .update]) true [.line none "lookup bob".toList, .line (some [1]) "register bob k".toList] =
    [(true, ascii "[+] " ++ badSTRText), (true, ascii "[+] " ++ badSTRText)] ∧
    badSTRText = ascii ("Error: [coniks] The hash chain is inconsistent. Maybe the client missed an epoch in between two commands, " ++
      "monitoring isn't supported yet.") := by decide +kernel

/-! ### what the lines mean when the server is not honest -/

/-- the texts of `register` that are not the success text do not start with S -/
theorem registerText_success {err : Option ErrorCode} {code : ErrorCode} {recv : Option Bytes} {name key n : Bytes}
    (h : registerText err code recv name key = ascii "Succesfully registered name: " ++ n) : err = none ∧ code = ReqSuccess ∧ n = name := by
  have hS : (ascii "Succesfully registered name: " ++ n).head? = some 0x53 := rfl
  rw [← h] at hS
  unfold registerText at h hS
  cases err with
  | none =>
    dsimp only at h hS
    split at h
    · rename_i hc
      exact ⟨rfl, hc, (List.append_cancel_left h).symm⟩
    · rename_i hc
      rw [if_neg hc] at hS
      split at hS
      · exact absurd hS (by decide)
      · exact nomatch hS
  | some e =>
    dsimp only at hS
    split at hS
    · exact absurd hS (by decide +kernel)
    · split at hS
      · split at hS
        · exact absurd hS (by decide)
        · split at hS
          · exact absurd hS (by rw [List.append_assoc, List.append_assoc, List.append_assoc]; exact fun h => nomatch (Option.some.inj h))
          · exact nomatch hS
      · exact absurd hS (fun h => nomatch (Option.some.inj h))

theorem lookupText_cases (err : Option ErrorCode) (code : ErrorCode) :
    (err = none ∧ code = ReqSuccess ∧ lookupText err code none = ascii "Found! Key bound to name is: []") ∨
    (err = none ∧ code = ReqNameNotFound ∧ lookupText err code none = ascii "Name isn't registered.") ∨
    (∃ s, lookupText err code none = ascii "Error: " ++ s) ∨ lookupText err code none = [] := by
  unfold lookupText
  cases err with
  | none =>
    dsimp only
    split
    · rename_i h; exact .inl ⟨rfl, h, by decide +kernel⟩
    · split
      · rename_i h; exact .inr (.inl ⟨rfl, h, rfl⟩)
      · exact .inr (.inr (.inr rfl))
  | some e =>
    dsimp only
    split
    · exact .inr (.inr (.inl ⟨errorText CheckBadSTR ++
        ascii ". Maybe the client missed an epoch in between two commands, monitoring isn't supported yet.", by
          unfold badSTRText; rw [List.append_assoc]⟩))
    · exact .inr (.inr (.inl ⟨_, rfl⟩))

/-- C64. Whatever the server sends: if the client says that a name has been registered, it is the name that was to be registered, and the
client has checked and keeps a promise for exactly the key that was to be registered, signed under an STR that continues the client's chain and
in which the name is absent. -/
theorem C64_registered_means (C : Crypto) (cc cc' : Client) (htb : cc.useTBs = true) (reply : Except Bytes Bytes) (n k m : Bytes)
    (h : cc.afterRegister C reply n k = some (cc', ascii "Succesfully registered name: " ++ m)) :
    m = n ∧ ∃ (w : Response) (ap : AuthPath) (str : DirSTR) (leaf : ProofNode) (pol : Policies) (p : TB),
      Carries w ap str (some p) ∧ (str = cc.aud.verified ∨ Successor C cc.aud.signKey cc.aud.verified str) ∧
      str.policies = some pol ∧ C.vrfVerify pol.vrfPublicKey n ap.lookupIndex ap.vrfProof = true ∧
      ap.leaf = some leaf ∧ ap.lookupIndex ≠ leaf.index ∧ (∀ v, ap.verify C n v str.core.treeHash = some (.ok ())) ∧
      GoodPromise C cc.aud.signKey str.core.signature ap.lookupIndex (some k) p ∧
      cc'.aud = ⟨cc.aud.signKey, str⟩ ∧ cc'.tbs n = some p := by
  unfold Client.afterRegister at h
  cases reply with
  | error e => exact nomatch congrArg (fun x => (Option.map Prod.snd x).bind List.head?) h
  | ok bytes =>
    dsimp only at h
    obtain ⟨w, _, hw⟩ := Option.bind_eq_some_iff.mp h
    obtain ⟨⟨c, err⟩, hh, hy⟩ := Option.map_eq_some_iff.mp hw
    simp only [Prod.mk.injEq] at hy
    obtain ⟨rfl, hy⟩ := hy
    obtain ⟨rfl, hc, rfl⟩ := registerText_success hy
    refine ⟨rfl, w.toResponse, ?_⟩
    obtain ⟨ap, str, tb, leaf, t, pol, hcar, ck, hp, _, k1, _, _, _, k5, _⟩ := (C34_accept_iff C cc htb _ _ _ _ c).mp hh
    obtain ⟨ap', str', tb', leaf', pol', hcar', _, _, _, _, hl', _, _, habs⟩ := C34_acceptance C cc c htb _ _ _ _ hh
    have hcode : w.toResponse.error = ReqSuccess := hc
    have ht : t = .absence := by
      rcases ck.status with ⟨_, h | h⟩ | ⟨h, _⟩
      · rw [hcode] at h; exact absurd h (by decide)
      · exact h.2
      · exact absurd h (by decide)
    have hpr : Promised RegistrationType w.toResponse.error t := ⟨ht, .inl rfl⟩
    obtain ⟨p, rfl, gp⟩ := hp hpr
    have hne : ap.lookupIndex ≠ leaf.index := by
      intro e
      have := ck.type_eq
      rw [if_pos e, ht] at this
      exact nomatch this
    have same : ap' = ap ∧ str' = str := by
      obtain ⟨a1, s1, e1⟩ := hcar
      obtain ⟨a2, s2, e2⟩ := hcar'
      rw [e1] at e2
      simp only [DirectoryResponse.proof.injEq, DirectoryProof.mk.injEq, List.cons.injEq, Option.some.injEq] at e2
      exact ⟨e2.1.1.symm, e2.2.1.1.symm⟩
    obtain ⟨rfl, rfl⟩ := same
    have hleaf : leaf' = leaf := Option.some.inj (hl'.symm.trans ck.leaf_eq)
    subst hleaf
    exact ⟨ap', str', leaf', pol, p, hcar, ck.chain, ck.pol_eq, ck.vrf, ck.leaf_eq, hne, (habs hne).2, gp, k1, k5 hpr⟩

/-- C64. Whatever the server sends: if the client says that a name is not registered, it has verified a proof that the name is absent from the
tree of an STR that continues its chain. -/
theorem C64_not_registered_means (C : Crypto) (cc cc' : Client) (htb : cc.useTBs = true) (reply : Except Bytes Bytes) (n : Bytes)
    (h : cc.afterLookup C reply n = some (cc', ascii "Name isn't registered.")) :
    ∃ (w : Response) (ap : AuthPath) (str : DirSTR) (tb : Option TB) (leaf : ProofNode) (pol : Policies),
      Carries w ap str tb ∧ (str = cc.aud.verified ∨ Successor C cc.aud.signKey cc.aud.verified str) ∧
      str.policies = some pol ∧ C.vrfVerify pol.vrfPublicKey n ap.lookupIndex ap.vrfProof = true ∧
      ap.leaf = some leaf ∧ ap.lookupIndex ≠ leaf.index ∧ (∀ v, ap.verify C n v str.core.treeHash = some (.ok ())) ∧
      cc'.aud = ⟨cc.aud.signKey, str⟩ := by
  unfold Client.afterLookup at h
  cases reply with
  | error e => exact nomatch congrArg (fun x => (Option.map Prod.snd x).bind List.head?) h
  | ok bytes =>
    dsimp only at h
    obtain ⟨w, _, hw⟩ := Option.bind_eq_some_iff.mp h
    obtain ⟨⟨c, err⟩, hh, hy⟩ := Option.map_eq_some_iff.mp hw
    simp only [Prod.mk.injEq] at hy
    obtain ⟨rfl, hy⟩ := hy
    have hy : lookupText err w.error none = ascii "Name isn't registered." := hy
    rcases lookupText_cases err w.error with ⟨_, _, e⟩ | ⟨rfl, hc, _⟩ | ⟨s, e⟩ | e
    · rw [hy] at e; exact absurd e (by decide +kernel)
    · obtain ⟨ap, str, tb, leaf, t, pol, hcar, ck, hp, _, k1, _, _, _, k5, _⟩ := (C34_accept_iff C cc htb _ _ _ _ c).mp hh
      obtain ⟨ap', str', tb', leaf', pol', hcar', _, _, _, _, hl', _, _, habs⟩ := C34_acceptance C cc c htb _ _ _ _ hh
      have hcode : w.toResponse.error = ReqNameNotFound := hc
      have ht : t = .absence := by
        rcases ck.status with ⟨h, _⟩ | ⟨_, h | h⟩
        · exact absurd h (by decide)
        · exact h.2
        · rw [hcode] at h; exact absurd h (by decide)
      have hne : ap.lookupIndex ≠ leaf.index := by
        intro e
        have := ck.type_eq
        rw [if_pos e, ht] at this
        exact nomatch this
      have same : ap' = ap ∧ str' = str := by
        obtain ⟨a1, s1, e1⟩ := hcar
        obtain ⟨a2, s2, e2⟩ := hcar'
        rw [e1] at e2
        simp only [DirectoryResponse.proof.injEq, DirectoryProof.mk.injEq, List.cons.injEq, Option.some.injEq] at e2
        exact ⟨e2.1.1.symm, e2.2.1.1.symm⟩
      obtain ⟨rfl, rfl⟩ := same
      have hleaf : leaf' = leaf := Option.some.inj (hl'.symm.trans ck.leaf_eq)
      subst hleaf
      exact ⟨w.toResponse, ap', str', tb, leaf', pol, hcar, ck.chain, ck.pol_eq, ck.vrf, ck.leaf_eq, hne, (habs hne).2, k1⟩
    · rw [hy] at e; exact nomatch congrArg List.head? e
    · rw [hy] at e; exact nomatch e

/-- C64 is false for lookups: whatever the server sends and whatever key the proof shows, a lookup prints one of two fixed lines, an error, or
nothing. The key never appears. -/
theorem C64_lookup_prints_no_key (C : Crypto) (cc cc' : Client) (reply : Except Bytes Bytes) (n text : Bytes)
    (h : cc.afterLookup C reply n = some (cc', text)) :
    text = ascii "Found! Key bound to name is: []" ∨ text = ascii "Name isn't registered." ∨ (∃ s, text = ascii "Error" ++ s) ∨ text = [] := by
  unfold Client.afterLookup at h
  cases reply with
  | error e =>
    simp only [Option.some.injEq, Prod.mk.injEq] at h
    rw [← h.2]
    exact .inr (.inr (.inl ⟨ascii " while receiving response: " ++ e, by rw [← List.append_assoc]; rfl⟩))
  | ok bytes =>
    dsimp only at h
    obtain ⟨w, _, hw⟩ := Option.bind_eq_some_iff.mp h
    obtain ⟨⟨c, err⟩, hh, hy⟩ := Option.map_eq_some_iff.mp hw
    simp only [Prod.mk.injEq] at hy
    obtain ⟨rfl, hy⟩ := hy
    have hy : lookupText err w.error none = text := hy
    rw [← hy]
    rcases lookupText_cases err w.error with ⟨_, _, e⟩ | ⟨_, _, e⟩ | ⟨s, e⟩ | e
    · exact .inl e
    · exact .inr (.inl e)
    · exact .inr (.inr (.inl ⟨ascii ": " ++ s, by rw [e, ← List.append_assoc]; rfl⟩))
    · exact .inr (.inr (.inr e))

/-- C64. No command ever pins a key: a lookup never expects one, however many commands came before (any replies). -/
theorem C64_no_key_pinned (C : Crypto) (cc cc' : Client) (hb : ∀ m, (cc.bindings m).join = none) (reply : Except Bytes Bytes) (n k text : Bytes)
    (h : cc.afterRegister C reply n k = some (cc', text) ∨ cc.afterLookup C reply n = some (cc', text)) :
    ∀ m, (cc'.bindings m).join = none := by
  rcases h with h | h
  · unfold Client.afterRegister at h
    cases reply with
    | error e => simp only [Option.some.injEq, Prod.mk.injEq] at h; rw [← h.1]; exact hb
    | ok bytes =>
      obtain ⟨w, _, hw⟩ := Option.bind_eq_some_iff.mp h
      obtain ⟨⟨c, err⟩, hh, hy⟩ := Option.map_eq_some_iff.mp hw
      simp only [Prod.mk.injEq] at hy
      rw [← hy.1]
      exact handle_bindings hh hb
  · unfold Client.afterLookup at h
    cases reply with
    | error e => simp only [Option.some.injEq, Prod.mk.injEq] at h; rw [← h.1]; exact hb
    | ok bytes =>
      obtain ⟨w, _, hw⟩ := Option.bind_eq_some_iff.mp h
      obtain ⟨⟨c, err⟩, hh, hy⟩ := Option.map_eq_some_iff.mp hw
      simp only [Prod.mk.injEq] at hy
      rw [← hy.1]
      exact handle_bindings hh hb

/-! ### reading commands -/

/-- C64. A line is split into its words: the maximal runs of characters that are not spaces. -/
theorem C64_words (line : List Char) (ws : List (List Char)) : fields line = ws ↔ Words line ws :=
  ⟨fun h => h ▸ fields_words line, fun h => words_unique (fields_words line) h⟩

example : Words " register  bob\tk ".toList ["register".toList, "bob".toList, "k".toList] := (C64_words _ _).mp (by decide +kernel)

/-- C64. A line leads to a registration of `k` for `n` iff its words are `register`, `n`, `k`, and to a lookup of `n` iff they are `lookup`, `n`;
the names are sent as typed. -/
theorem C64_commands (line : List Char) (n k : Bytes) :
    (command (fields line) = .register n k ↔
      ∃ n' k', Words line ["register".toList, n', k'] ∧ n = n'.flatMap String.utf8EncodeChar ∧ k = k'.flatMap String.utf8EncodeChar) ∧
    (command (fields line) = .lookup n ↔ ∃ n', Words line ["lookup".toList, n'] ∧ n = n'.flatMap String.utf8EncodeChar) := by
  simp only [← C64_words]
  generalize fields line = args
  constructor
  · constructor
    · intro h
      unfold command at h
      split at h
      · exact nomatch h
      · repeat' split at h
        all_goals first
          | (cases h; done)
          | skip
        rename_i hr _ _ _
        simp only [Command.register.injEq] at h
        exact ⟨_, _, by rw [hr], h.1.symm, h.2.symm⟩
    · rintro ⟨n', k', rfl, rfl, rfl⟩; rfl
  · constructor
    · intro h
      unfold command at h
      split at h
      · exact nomatch h
      · repeat' split at h
        all_goals first
          | (cases h; done)
          | skip
        rename_i hr _ _
        simp only [Command.lookup.injEq] at h
        exact ⟨_, by rw [hr], h.symm⟩
    · rintro ⟨n', rfl, rfl⟩; rfl

/-- C64. The REPL ends exactly on a line whose first word is `exit` or `q`. -/
theorem C64_exit (line : List Char) :
    command (fields line) = .exit ↔ ∃ ws, Words line ("exit".toList :: ws) ∨ Words line ("q".toList :: ws) := by
  simp only [← C64_words]
  generalize fields line = args
  constructor
  · intro h
    unfold command at h
    split at h
    · exact nomatch h
    · split at h
      · rename_i hc
        rcases hc with rfl | rfl
        · exact ⟨_, .inl rfl⟩
        · exact ⟨_, .inr rfl⟩
      · repeat' split at h
        all_goals (cases h; done)
  · rintro ⟨ws, rfl | rfl⟩ <;> rfl

/-- C64. Every other line is answered without the server, and only `enable timestamp` and `disable timestamp` change how the following lines are
printed: what is printed (with or without a timestamp: the flag) for each line, by its words. -/
theorem C64_local (C : Crypto) (N : Net) (conf : CliConf) (perms : Nat → Int → Bool) (d : Directory) (cc : Client) (ts : Bool) (rnd : Option Bytes)
    (line : List Char) (evs : List ReplEvent) (ws : List (List Char)) (hws : Words line ws) :
    let prints (ts' : Bool) (out : List (Bool × Bytes)) : Prop :=
      repl C N conf perms d cc ts (.line rnd line :: evs) = (repl C N conf perms d cc ts' evs).map fun z => (z.1, z.2.1, out ++ z.2.2)
    (ws = [] → prints ts [(ts, ascii "[!] Type \"help\" for more information.")]) ∧
    (∀ rest, ws = "help".toList :: rest → prints ts [(false, helpText)]) ∧
    (ws = ["enable".toList, "timestamp".toList] → prints true []) ∧
    (ws = ["disable".toList, "timestamp".toList] → prints false []) ∧
    (∀ rest, ws = "enable".toList :: rest ∨ ws = "disable".toList :: rest → rest ≠ ["timestamp".toList] →
      prints ts [(ts, ascii "[!] Unrecognized command: " ++ line.flatMap String.utf8EncodeChar)]) ∧
    (∀ rest, ws = "register".toList :: rest → rest.length ≠ 2 → prints ts [(ts, ascii "[!] Incorrect number of args to register.")]) ∧
    (∀ rest, ws = "lookup".toList :: rest → rest.length ≠ 1 → prints ts [(ts, ascii "[!] Incorrect number of args to lookup.")]) ∧
    (∀ c rest, ws = c :: rest → c ∉ ["exit", "q", "help", "enable", "disable", "register", "lookup"].map String.toList →
      prints ts [(ts, ascii "[!] Unrecognized command: " ++ c.flatMap String.utf8EncodeChar)]) := by
  have hf := (C64_words line ws).mpr hws
  intro prints
  have key : ∀ (cm : Command) (ts' : Bool) (o : Option (Bool × Bytes)), command ws = cm → localCommand ts (utf8 line) cm = (ts', o) →
      (∀ n k, cm ≠ .register n k) → (∀ n, cm ≠ .lookup n) → cm ≠ .exit → prints ts' o.toList := by
    intro cm ts' o h1 h2 n1 n2 n3
    show repl C N conf perms d cc ts (.line rnd line :: evs) = _
    rw [repl, hf, h1]
    cases cm with
    | register n k => exact absurd rfl (n1 n k)
    | lookup n => exact absurd rfl (n2 n)
    | exit => exact absurd rfl n3
    | _ => simp only [h2]
  have cl : ∀ (cm : Command) (ts' : Bool) (o : Option (Bool × Bytes)) , (∀ n k, cm ≠ .register n k) ∧ (∀ n, cm ≠ .lookup n) ∧ cm ≠ .exit →
      command ws = cm → localCommand ts (utf8 line) cm = (ts', o) → prints ts' o.toList :=
    fun cm ts' o hn h1 h2 => key cm ts' o h1 h2 hn.1 hn.2.1 hn.2.2
  refine ⟨?_, ?_, ?_, ?_, ?_, ?_, ?_, ?_⟩
  · rintro rfl
    exact cl .empty ts (some _) (by simp) rfl rfl
  · rintro rest rfl
    exact cl .help ts (some _) (by simp) rfl rfl
  · rintro rfl
    exact cl (.timestamp true) true none (by simp) rfl rfl
  · rintro rfl
    exact cl (.timestamp false) false none (by simp) rfl rfl
  · intro rest h hne
    refine cl .unrecognizedLine ts (some _) (by simp) ?_ rfl
    rcases h with rfl | rfl
    · match rest, hne with
      | [], _ => rfl
      | [a], h =>
        have ha : ¬ a = "timestamp".toList := fun e => h (by rw [e])
        show (if a = "timestamp".toList then Command.timestamp _ else .unrecognizedLine) = _
        rw [if_neg ha]
      | _ :: _ :: _, _ => rfl
    · match rest, hne with
      | [], _ => rfl
      | [a], h =>
        have ha : ¬ a = "timestamp".toList := fun e => h (by rw [e])
        show (if a = "timestamp".toList then Command.timestamp _ else .unrecognizedLine) = _
        rw [if_neg ha]
      | _ :: _ :: _, _ => rfl
  · rintro rest rfl hl
    refine cl .registerArgs ts (some _) (by simp) ?_ rfl
    match rest, hl with
    | [], _ => rfl
    | [_], _ => rfl
    | [_, _], h => exact absurd rfl h
    | _ :: _ :: _ :: _, _ => rfl
  · rintro rest rfl hl
    refine cl .lookupArgs ts (some _) (by simp) ?_ rfl
    match rest, hl with
    | [], _ => rfl
    | [_], h => exact absurd rfl h
    | _ :: _ :: _, _ => rfl
  · rintro c rest rfl hc
    refine cl (.unrecognized (utf8 c)) ts (some _) (by simp) ?_ rfl
    simp only [List.map_cons, List.map_nil, List.mem_cons, List.not_mem_nil, or_false, not_or] at hc
    obtain ⟨h1, h2, h3, h4, h5, h6, h7⟩ := hc
    unfold command
    simp only [h1, h2, h3, h4, h5, h6, h7, or_self, if_false]

/-- the lines of a short session: a blank line, help, timestamps on, a misspelt command -/
example (C : Crypto) (N : Net) (conf : CliConf) (perms : Nat → Int → Bool) (d : Directory) (cc : Client) :
    repl C N conf perms d cc false [.line none " ".toList, .line none "help me".toList, .line none " enable  timestamp".toList,
      .line none "find bob".toList, .line none "help".toList, .line none "disable time".toList] =
    some (d, cc, [(false, ascii "[!] Type \"help\" for more information."), (false, helpText), (true, ascii "[!] Unrecognized command: find"),
      (false, helpText), (true, ascii "[!] Unrecognized command: disable time")]) := by
  rw [(C64_local C N conf perms d cc _ _ _ _ _ ((C64_words _ []).mp (by decide +kernel))).1 rfl,
    (C64_local C N conf perms d cc _ _ _ _ _ ((C64_words _ ["help".toList, "me".toList]).mp (by decide +kernel))).2.1 _ rfl,
    (C64_local C N conf perms d cc _ _ _ _ _ ((C64_words _ ["enable".toList, "timestamp".toList]).mp (by decide +kernel))).2.2.1 rfl,
    (C64_local C N conf perms d cc _ _ _ _ _ ((C64_words _ ["find".toList, "bob".toList]).mp (by decide +kernel))).2.2.2.2.2.2.2 _ _ rfl (by decide),
    (C64_local C N conf perms d cc _ _ _ _ _ ((C64_words _ ["help".toList]).mp (by decide +kernel))).2.1 _ rfl,
    (C64_local C N conf perms d cc _ _ _ _ _ ((C64_words _ ["disable".toList, "time".toList]).mp (by decide +kernel))).2.2.2.2.1 _ (.inr rfl) (by decide)]
  rfl

/-- C64. Whatever the server sends, the warning that it registered another key is shown exactly if the server reported success and the client, after
all its other checks, found another key than the one to be registered; it shows the key typed, and an empty key
as the one that was registered (`GetKey` returns nothing). -/
theorem C64_warning (C : Crypto) (cc cc' : Client) (bytes n k text : Bytes) (h : cc.afterRegister C (.ok bytes) n k = some (cc', text)) :
    (text.head? = some 0x4F ↔ ∃ w, unmarshalResponse RegistrationType bytes = some w ∧ w.error = ReqSuccess ∧
      cc.handleResponse C RegistrationType w.toResponse n (some k) = some (cc', some CheckBindingsDiffer)) ∧
    (text.head? = some 0x4F → text = ascii "Oops! The server snuck in some other key. [] was registered instead of [" ++ k ++ ascii "]") ∧
    (text = ascii "Are you trying to update your binding? Unfortunately, KeyChange isn't supported yet." ↔
      ∃ w, unmarshalResponse RegistrationType bytes = some w ∧ w.error = ReqNameExisted ∧
      cc.handleResponse C RegistrationType w.toResponse n (some k) = some (cc', some CheckBindingsDiffer)) := by
  unfold Client.afterRegister at h
  obtain ⟨w, hw, h2⟩ := Option.bind_eq_some_iff.mp h
  obtain ⟨⟨c1, e⟩, hh, h3⟩ := Option.map_eq_some_iff.mp h2
  simp only [Prod.mk.injEq] at h3
  obtain ⟨rfl, rfl⟩ := h3
  have ex : ∀ code, (∃ w', unmarshalResponse RegistrationType bytes = some w' ∧ w'.error = code ∧
      cc.handleResponse C RegistrationType w'.toResponse n (some k) = some (c1, some CheckBindingsDiffer)) ↔
      (w.error = code ∧ e = some CheckBindingsDiffer) := by
    intro code
    constructor
    · rintro ⟨w', h1, h4, h3⟩
      rw [hw] at h1; cases h1
      rw [hh] at h3; cases h3
      exact ⟨h4, rfl⟩
    · rintro ⟨h1, rfl⟩; exact ⟨w, hw, h1, hh⟩
  rw [ex, ex]
  clear ex h h2 hh hw
  generalize w.error = code
  rw [show w.toResponse.getKey = none from rfl]
  cases e with
  | none =>
    simp only [reduceCtorEq, and_false, iff_false]
    unfold registerText
    dsimp only
    split
    · refine ⟨fun h => (nomatch (Option.some.inj h)), fun h => (nomatch (Option.some.inj h)), ?_⟩
      intro h
      exact absurd (congrArg List.head? h) (fun h => nomatch (Option.some.inj h))
    · split
      · exact ⟨by decide, fun h => absurd h (by decide), by decide +kernel⟩
      · exact ⟨by simp, by simp, by decide +kernel⟩
  | some e =>
    simp only [Option.some.injEq]
    unfold registerText
    dsimp only
    by_cases h1 : e = CheckBadSTR
    · subst h1
      rw [if_pos rfl]
      refine ⟨⟨fun h => absurd h (by decide +kernel), fun h => absurd h.2 (by decide)⟩, fun h => absurd h (by decide +kernel),
        ⟨fun h => absurd h (by decide +kernel), fun h => absurd h.2 (by decide)⟩⟩
    · rw [if_neg h1]
      by_cases h2 : e = CheckBindingsDiffer
      · subst h2
        rw [if_pos rfl]
        by_cases h3 : code = ReqNameExisted
        · subst h3
          rw [if_pos rfl]
          exact ⟨⟨fun h => absurd h (by decide), fun h => absurd h.1 (by decide)⟩, fun h => absurd h (by decide), ⟨fun _ => ⟨rfl, rfl⟩, fun _ => rfl⟩⟩
        · rw [if_neg h3]
          by_cases h4 : code = ReqSuccess
          · subst h4
            rw [if_pos rfl]
            refine ⟨⟨fun _ => ⟨rfl, rfl⟩, fun _ => ?_⟩, fun _ => congrArg (· ++ k ++ ascii "]") (by decide +kernel), ⟨?_, fun h => absurd h.1 h3⟩⟩
            · simp only [List.append_assoc]; rfl
            · intro h
              have := congrArg List.head? h
              simp only [List.append_assoc] at this
              exact nomatch (Option.some.inj this)
          · rw [if_neg h4]
            exact ⟨⟨by simp, fun h => absurd h.1 h4⟩, by simp, ⟨fun h => absurd h (by decide), fun h => absurd h.1 h3⟩⟩
      · rw [if_neg h2]
        refine ⟨⟨fun h => (nomatch (Option.some.inj h)), fun h => absurd h.2 h2⟩, fun h => (nomatch (Option.some.inj h)), ⟨?_, fun h => absurd h.2 h2⟩⟩
        intro h
        exact absurd (congrArg List.head? h) (fun h => nomatch (Option.some.inj h))

/-- C64. The codes with a text are exactly the documented ones except `ReqUnknownDirectory` (103), and different codes have different
texts: what is printed after "Error: " identifies the reason. -/
theorem C64_error_texts :
    (∀ e : Int, errorText e ≠ [] ↔ (100 ≤ e ∧ e ≤ 106 ∧ e ≠ 103) ∨ (200 ≤ e ∧ e ≤ 208)) ∧
    (∀ e e' : Int, errorText e ≠ [] → errorText e = errorText e' → e = e') := by
  have key : ∀ e : Int, errorText e ≠ [] → e ∈ [100, 101, 102, 104, 105, 106, 200, 201, 202, 203, 204, 205, 206, 207, 208] := by
    intro e h
    refine Decidable.byContradiction fun hn => h ?_
    simp only [List.mem_cons, List.not_mem_nil, or_false, not_or] at hn
    obtain ⟨h1, h2, h3, h4, h5, h6, h7, h8, h9, h10, h11, h12, h13, h14, h15⟩ := hn
    unfold errorText
    have c : ReqSuccess = 100 ∧ ReqNameExisted = 101 ∧ ReqNameNotFound = 102 ∧ ErrMalformedMessage = 106 ∧ ErrDirectory = 104 ∧
        ErrAuditLog = 105 ∧ CheckBadSignature = 200 ∧ CheckBadVRFProof = 201 ∧ CheckBindingsDiffer = 202 ∧ CheckBadCommitment = 203 ∧
        CheckBadLookupIndex = 204 ∧ CheckBadAuthPath = 205 ∧ CheckBadSTR = 206 ∧ CheckBadPromise = 207 ∧ CheckBrokenPromise = 208 := by
      decide
    obtain ⟨c1, c2, c3, c4, c5, c6, c7, c8, c9, c10, c11, c12, c13, c14, c15⟩ := c
    rw [c1, c2, c3, c4, c5, c6, c7, c8, c9, c10, c11, c12, c13, c14, c15]
    rw [if_neg h1, if_neg h2, if_neg h3, if_neg h6, if_neg h4, if_neg h5, if_neg h7, if_neg h8, if_neg h9, if_neg h10,
      if_neg h11, if_neg h12, if_neg h13, if_neg h14, if_neg h15]
  have all : ∀ e ∈ ([100, 101, 102, 104, 105, 106, 200, 201, 202, 203, 204, 205, 206, 207, 208] : List Int), errorText e ≠ [] := by
    decide +kernel
  have inj : ∀ e ∈ ([100, 101, 102, 104, 105, 106, 200, 201, 202, 203, 204, 205, 206, 207, 208] : List Int),
      ∀ e' ∈ ([100, 101, 102, 104, 105, 106, 200, 201, 202, 203, 204, 205, 206, 207, 208] : List Int),
      errorText e = errorText e' → e = e' := by decide +kernel
  refine ⟨fun e => ⟨fun h => ?_, fun h => all e ?_⟩, fun e e' h h' => inj e (key e h) e' (key e' (h' ▸ h)) h'⟩
  · have := key e h
    simp only [List.mem_cons, List.not_mem_nil, or_false] at this
    omega
  · simp only [List.mem_cons, List.not_mem_nil, or_false]
    omega

example : errorText CheckBrokenPromise = ascii "[coniks] The directory broke the registration promise" ∧
    errorText CheckBadPromise ≠ errorText CheckBrokenPromise ∧ errorText ReqUnknownDirectory = [] := by decide +kernel

/-- C64. An address that does not parse crashes the client (the error of `url.Parse` is dropped); one with another scheme is reported. -/
theorem C64_bad_address (C : Crypto) (N : Net) (conf : CliConf) (perms : Nat → Int → Bool) (rnd : Option Bytes) (d : Directory) (cc : Client)
    (n k : Bytes) :
    (∀ ra, (ra = conf.regAddress ∧ conf.regAddress ≠ [] ∨ ra = conf.address ∧ conf.regAddress = []) → N.scheme ra = none → Panics (cc.cliRegister C N conf perms rnd d n k)) ∧
    (N.scheme conf.address = none → Panics (cc.cliLookup C N conf perms d n)) ∧
    (∀ ra s, (ra = conf.regAddress ∧ conf.regAddress ≠ [] ∨ ra = conf.address ∧ conf.regAddress = []) → N.scheme ra = some s → s ≠ ascii "tcp" → s ≠ ascii "unix" →
      cc.cliRegister C N conf perms rnd d n k = some (d, cc, ascii "Invalid config!")) := by
  refine ⟨fun ra hra h => ?_, fun h => ?_, fun ra s hra h h1 h2 => ?_⟩
  · rw [reg_eq hra] at h
    unfold Panics Client.cliRegister Net.usable; rw [h]; rfl
  · unfold Panics Client.cliLookup Net.usable; rw [h]; rfl
  · rw [reg_eq hra] at h
    unfold Client.cliRegister Net.usable; rw [h]
    simp [h1, h2]

end Coniks.Props

import Verif.Proofs.CliNet
import Verif.Props.Cli
/-
C82: the commands of the client over a network that may fail.
-/
namespace Coniks.Props
open Coniks Spec Json

/-- C82. A command either does what it does over a perfect network, or it prints one line that begins with "Error" and changes nothing on
the client's side; at the directory nothing has happened then, or exactly the registration that was asked for. This holds whatever the
network does with the exchange: no connection, the request or the answer cut anywhere, a read or write that fails on either side. -/
theorem C82_command (C : Crypto) (t0 : UInt64) (sk vk : Bytes) (size : Nat) (r₁ r₂ : Bytes) (ops : List DirOp) (d : Directory)
    (log : List STR) (h : dirAfter C t0 sk vk size r₁ r₂ ops = some (d, log)) (N : Net) (conf : CliConf) (perms : Nat → Int → Bool)
    (rnd : Option Bytes) (T : Transfer) (cc : Client) (n k : Bytes) (hn : Utf8 n) :
    (cc.cliRegisterOver C N conf perms rnd T d n k = cc.cliRegister C N conf perms rnd d n k ∨
      ∃ d' text, cc.cliRegisterOver C N conf perms rnd T d n k = some (d', cc, ascii "Error" ++ text) ∧
        (d' = d ∨ ∃ resp, d.register C rnd ⟨n, k⟩ = some (d', resp))) ∧
    (cc.cliLookupOver C N conf perms T d n = cc.cliLookup C N conf perms d n ∨
      ∃ text, cc.cliLookupOver C N conf perms T d n = some (d, cc, ascii "Error" ++ text)) := by
  have i := after_std h
  refine ⟨?_, ?_⟩
  · rcases registerOver_cases N conf perms rnd T i cc k hn with h | ⟨_, h⟩
    · exact .inl h
    · exact .inr h
  · rcases lookupOver_cases N conf perms T i cc n with h | ⟨_, h⟩
    · exact .inl h
    · exact .inr h

/-- C82. A network that does its work changes nothing: the session is the one of C64. -/
theorem C82_perfect (C : Crypto) (t0 : UInt64) (sk vk : Bytes) (size : Nat) (r₁ r₂ : Bytes) (ops : List DirOp) (d : Directory)
    (log : List STR) (h : dirAfter C t0 sk vk size r₁ r₂ ops = some (d, log)) (N : Net) (conf : CliConf) (perms : Nat → Int → Bool)
    (cc : Client) (ts : Bool) (evs : List NetEvent) (hf : NoFault evs) :
    replOver C N conf perms d cc ts evs = repl C N conf perms d cc ts (evs.filterMap NetEvent.plain) :=
  perfect_run evs d cc ts (after_std h) hf

/-- C82. A whole session over a network that may fail in every exchange ends with the directory and the client of a session over a perfect
network, in which the commands that failed are missing, or are registrations made by somebody else; what was printed differs only in the
error lines of these commands. -/
theorem C82_session (C : Crypto) (t0 : UInt64) (sk vk : Bytes) (size : Nat) (r₁ r₂ : Bytes) (ops : List DirOp) (d : Directory)
    (log : List STR) (h : dirAfter C t0 sk vk size r₁ r₂ ops = some (d, log)) (N : Net) (conf : CliConf) (perms : Nat → Int → Bool)
    (cc : Client) (ts : Bool) (evs : List NetEvent) (d' : Directory) (cc' : Client) (out : List (Bool × Bytes))
    (hr : replOver C N conf perms d cc ts evs = some (d', cc', out)) :
    ∃ evs' out', Faulty ts evs out evs' out' ∧ repl C N conf perms d cc ts evs' = some (d', cc', out') :=
  faulty_run evs d cc ts (after_std h) d' cc' out hr

/-- the request arrives, and the client does not get the answer -/
def AnswerLost : Transfer → Prop
  | .noDial _ => False
  | .carried n bad m err => 8192 ≤ n ∧ bad = false ∧ (err ≠ none ∨ m = 0)

/-- the server's side does not depend on what happens to the answer -/
theorem register_heard {C : Crypto} {N : Net} {conf : CliConf} {perms : Nat → Int → Bool} (hu : N.usable conf.reg = some true)
    (hp : perms (N.listener conf.reg) 0 = true) {rnd : Option Bytes} {T : Transfer} (hT : AnswerLost T) {d d' : Directory} {resp : Response}
    (cc : Client) {n k : Bytes} (hn : Utf8 n) (hl : (createRegistrationMsg n (some k)).length ≤ 8192)
    (hr : d.register C rnd ⟨n, k⟩ = some (d', resp)) :
    ∃ text, cc.cliRegisterOver C N conf perms rnd T d n k = some (d', cc, ascii "Error" ++ text) := by
  cases T with
  | noDial e => exact absurd hT (fun h => h)
  | carried a bad m err =>
    obtain ⟨ha, rfl, hm⟩ := hT
    have hacc : acceptClient C goJson perms rnd d (N.listener conf.reg) ⟨(createRegistrationMsg n (some k)).take a, false⟩ =
        some (d', some resp) := by
      rw [List.take_of_length_le (by omega)]
      unfold acceptClient screen
      rw [read_short _ hl]
      dsimp only
      rw [request_registration, (clean_iff n).mpr hn]
      simp only [checkRequestType, hp, Bool.not_true, Bool.false_eq_true, if_false, Option.getD_some, handle_reg, hr, Option.map_some]
    unfold Client.cliRegisterOver
    rw [hu]
    simp only [Option.bind_some, if_true, exchangeOver, hacc, Option.map_some]
    cases err with
    | some e =>
      refine ⟨ascii " while receiving response: " ++ e, ?_⟩
      simp only [Client.afterRegister, Option.map_some, error_text1]
    | none =>
      refine ⟨ascii ": [coniks] Malformed message", ?_⟩
      have hm0 : m = 0 := by simpa using hm
      subst hm0
      simp only [List.take_zero]
      rw [show clientRead [] = [] from rfl, afterRegister_bad parse_nil n k, error_text2]
      rfl

/-- C82. After an answer was lost, trying again shows that the registration took effect: the second attempt prints that the name is already
registered. -/
theorem C82_retry (C : Crypto) (t0 : UInt64) (sk vk : Bytes) (size : Nat) (r₁ r₂ : Bytes) (pre : List DirOp) (hlt : dirUpdates pre < 2 ^ 64)
    (n k x : Bytes) (rnd' : Option Bytes) (hn0 : n ≠ []) (hk0 : k ≠ [])
    (spread : IndexSpread (fun k => (C.vrfProve vk k).1) (regNames pre ++ [n, n])) (hus : C.vrfUsable n = true)
    (hfree : (absAfter pre).merged n = none)
    (d₀ : Directory) (log₀ : List STR) (h₀ : dirAfter C t0 sk vk size r₁ r₂ pre = some (d₀, log₀))
    (cc : Client) (hcc : newClient d₀.latestSTR true (C.signPub sk) = some cc)
    (N : Net) (conf : CliConf) (addrs : List Address) (hnd : (addrs.map Address.ptr).Nodup)
    (ra : Bytes) (hra : ra = conf.regAddress ∧ conf.regAddress ≠ [] ∨ ra = conf.address ∧ conf.regAddress = [])
    (hur : N.scheme ra = some (ascii "tcp") ∨ N.scheme ra = some (ascii "unix"))
    (hua : N.scheme conf.address = some (ascii "tcp") ∨ N.scheme conf.address = some (ascii "unix"))
    (a : Address) (ha : a ∈ addrs) (hal : a.ptr = N.listener ra) (hreg : a.allowRegistration = true)
    (b : Address) (hb : b ∈ addrs) (hbl : b.ptr = N.listener conf.address)
    (hf : AllFit C d₀ [.register (some x) n k, .register rnd' n k] = true) (ts : Bool)
    (l l' : List Char) (hl : command (fields l) = .register n k) (hl' : command (fields l') = .register n k)
    (T T' : Transfer) (hT : AnswerLost T) (hT' : Transfer.Perfect T') :
    ∃ d cc' text, replOver C N conf (permsMap addrs) d₀ cc ts [.line (some x) l T, .line rnd' l' T'] = some (d, cc',
      [(ts, ascii "[+] Error" ++ text), (ts, ascii "[+] Name is already registered.")]) := by
  have hn : Utf8 n := (command_register hl).1
  obtain ⟨inv, _⟩ := dirAfter_padInv C t0 sk vk size r₁ r₂ pre hlt d₀ log₀ h₀
  obtain ⟨⟨d1, resp⟩, hr⟩ := register_total inv (some x) ⟨n, k⟩
  have hstep : d₀.step C (.register (some x) ⟨n, k⟩) = some (d1, some resp) := by simp [Directory.step, hr]
  have hop : sesOps [.dir (.register (some x) ⟨n, k⟩), .line rnd' l'] = [.dir (.register (some x) ⟨n, k⟩), .register rnd' n k] := by
    simp only [sesOps, hl']
  have hf1 := hf
  simp only [AllFit, SesOp.dirOp, hstep, Bool.and_eq_true, requestFits, decide_eq_true_eq] at hf1
  -- the directory runs
  have h1 : dirAfter C t0 sk vk size r₁ r₂ (pre ++ [.register (some x) ⟨n, k⟩]) = some (d1, log₀) := by
    rw [dirAfter_append, h₀]
    simp only [Option.bind_some, Directory.runLog, hstep, DirOp.issued, List.append_nil]
  have hu1 : dirUpdates (pre ++ [.register (some x) ⟨n, k⟩]) < 2 ^ 64 := by rw [dirUpdates_append]; simpa [dirUpdates] using hlt
  obtain ⟨inv1, _⟩ := dirAfter_padInv C t0 sk vk size r₁ r₂ _ hu1 d1 log₀ h1
  obtain ⟨⟨d2, resp2⟩, hr2⟩ := register_total inv1 rnd' ⟨n, k⟩
  have hstep2 : d1.step C (.register rnd' ⟨n, k⟩) = some (d2, some resp2) := by simp [Directory.step, hr2]
  have h2 : dirAfter C t0 sk vk size r₁ r₂ (pre ++ [.register (some x) ⟨n, k⟩, .register rnd' ⟨n, k⟩]) = some (d2, log₀) := by
    rw [dirAfter_append, h₀]
    simp only [Option.bind_some, Directory.runLog, hstep, hstep2, DirOp.issued, List.append_nil]
  have hmerged : ((absAfter pre).step (.register (some x) ⟨n, k⟩)).merged n = some k := by
    simp only [AbsDir.step, hfree]
    rw [if_pos ⟨hn0, hk0, trivial, rfl⟩]
    simp [AbsDir.merged, AbsDir.add]
  obtain ⟨cc', hfin⟩ := C64_session_partial C t0 sk vk size r₁ r₂ pre [.dir (.register (some x) ⟨n, k⟩), .line rnd' l']
    (by rw [hop, dirUpdates_append]; simpa [dirUpdates, SesOp.dirOp] using hlt)
    (by rw [hop]; exact spread)
    (by rw [hop]; simpa [ownNames] using hus)
    (by
      rw [hop]
      simp only [KeepsUp]
      split <;> simp)
    d₀ log₀ h₀ cc hcc d2 log₀ (by rw [hop]; exact h2) N conf addrs hnd ra hra hur hua a ha hal hreg b hb hbl
    (by
      rw [hop]
      simp only [AllFit, SesOp.dirOp, hstep, hstep2, requestFits, answerFits, Bool.true_and, Bool.and_eq_true] at hf ⊢
      exact hf.2.2) ts
  have hra' := reg_eq hra
  subst hra'
  obtain ⟨text, hover⟩ := register_heard (usable_true hur) ((C46_permissions addrs hnd _ 0).mpr ⟨a, ha, hal, .inr (.inr (.inr ⟨rfl, hreg⟩))⟩)
    hT cc hn hf1.1 hr
  refine ⟨d2, cc', text, ?_⟩
  have hrest : replOver C N conf (permsMap addrs) d1 cc ts [.line rnd' l' T'] = some (d2, cc', [(ts, ascii "[+] Name is already registered.")]) := by
    rw [perfect_run _ d1 cc ts (after_std h1) (by intro e he; simp only [List.mem_singleton] at he; subst he; exact hT')]
    simp only [repl, hstep, Option.bind_some] at hfin
    simp only [List.filterMap_cons, NetEvent.plain, List.filterMap_nil, repl]
    rw [hfin]
    simp only [lines, hl']
    unfold registerLine
    rw [if_neg (by simp [hn0, hk0]), hmerged]
    simp only [if_true]
    rfl
  have hcons : ∀ (e : NetEvent) (es : List NetEvent), e = .line (some x) l T →
      replOver C N conf (permsMap addrs) d₀ cc ts (e :: es) = (replOver C N conf (permsMap addrs) d1 cc ts es).map fun z =>
        (z.1, z.2.1, (ts, ascii "[+] Error" ++ text) :: z.2.2) := by
    intro e es he
    subst he
    simp only [replOver, hl, hover, Option.bind_some, error_line]
  rw [hcons _ _ rfl, hrest]
  rfl

/-- all hypotheses of `C82_retry` hold together: "register alice k1" whose answer is lost, and once more -/
example : ∃ d₀ log₀ cc d cc' text, dirAfter Crypto.toy 5 [1] [2] 10 [3] [4] [.update] = some (d₀, log₀) ∧
    newClient d₀.latestSTR true (Crypto.toy.signPub [1]) = some cc ∧
    replOver Crypto.toy sampleNet ⟨[], ascii "tcp://server"⟩ (permsMap [⟨7, true⟩]) d₀ cc false
      [.line (some [7]) "register alice k1".toList (.carried 9000 false 0 (some (ascii "i/o timeout"))),
       .line (some [8]) "register alice k1".toList (.carried 9000 false 9000 none)] = some (d, cc',
      [(false, ascii "[+] Error" ++ text), (false, ascii "[+] Name is already registered.")]) := by
  have hrun : (dirAfter Crypto.toy 5 [1] [2] 10 [3] [4] [.update]).isSome = true := by rw [dirAfterE_eq]; decide +kernel
  obtain ⟨⟨d₀, log₀⟩, h₀⟩ := Option.isSome_iff_exists.mp hrun
  have hfit : ((dirAfter Crypto.toy 5 [1] [2] 10 [3] [4] [.update]).map fun x => AllFit Crypto.toy x.1
      [.register (some [7]) (ascii "alice") (ascii "k1"), .register (some [8]) (ascii "alice") (ascii "k1")]) = some true := by
    rw [dirAfterE_eq]; simp only [AllFit, SesOp.dirOp, stepE_eq]; decide +kernel
  rw [h₀] at hfit
  obtain ⟨d, cc', text, h⟩ := C82_retry Crypto.toy 5 [1] [2] 10 [3] [4] [.update] (by decide) (ascii "alice") (ascii "k1") [7] (some [8])
    (by decide) (by decide) (by decide +kernel) rfl (by decide +kernel) d₀ log₀ h₀ _ rfl sampleNet ⟨[], ascii "tcp://server"⟩ [⟨7, true⟩] (by decide)
    (ascii "tcp://server") (.inr ⟨rfl, rfl⟩) (.inl rfl) (.inl rfl) ⟨7, true⟩ (by simp) rfl rfl ⟨7, true⟩ (by simp) rfl
    (by simpa using hfit) false "register alice k1".toList "register alice k1".toList (by rfl) (by rfl)
    (.carried 9000 false 0 (some (ascii "i/o timeout"))) (.carried 9000 false 9000 none)
    ⟨by decide, rfl, .inl (by simp)⟩ ⟨by decide, rfl, by decide, rfl⟩
  exact ⟨d₀, log₀, _, d, cc', text, h₀, rfl, h⟩

/-- a session with faults of every kind ends as `C82_session` says, and some of its lines are errors -/
example (N : Net) (conf : CliConf) (perms : Nat → Int → Bool) (d : Directory) (cc : Client) (hu : N.usable conf.address = some true) (l : List Char)
    (hl : command (fields l) = .lookup (ascii "bob")) (e : Bytes) :
    replOver Crypto.toy N conf perms d cc true [.line none l (.noDial e), .line none l (.carried 3 true 0 (some e)), .ended (ascii "EOF")] =
      some (d, cc, [(true, ascii "[+] " ++ (ascii "Error while receiving response: " ++ e)),
        (true, ascii "[+] " ++ (ascii "Error while receiving response: " ++ e)), (true, ascii "EOF")]) := by
  have hacc : ∀ msg : Bytes, acceptClient Crypto.toy goJson perms none d (N.listener conf.address) ⟨msg.take 3, true⟩ = some (d, none) := by
    intro msg
    unfold acceptClient screen
    have : (Conn.mk (msg.take 3) true).read = none := by
      unfold Conn.read
      dsimp only
      rw [if_neg (by rw [List.length_take]; omega), if_pos rfl]
    rw [this]
  simp only [replOver, hl, Client.cliLookupOver, hu, Option.bind_some, if_true, exchangeOver, hacc, Option.map_some, Client.afterLookup]

/-- C82 does not say that a failed command costs nothing: it may be the one with which the client would have kept up. An epoch passes, a lookup
finds no connection, another epoch passes: from now on every command that the honest directory answers is met with the complaint about an
inconsistent hash chain, although the network works again. With a connection for that one lookup the client would have been at most one epoch
behind at each command (C64_session_partial). -/
theorem C82_lockout_counterexample (C : Crypto) (t0 : UInt64) (sk vk : Bytes) (size : Nat) (r₁ r₂ : Bytes) (pre : List DirOp)
    (evs : List NetEvent) (hev : NoFault evs) (ops : List SesOp) (hops : ops = sesOps (evs.filterMap NetEvent.plain))
    (hlt : dirUpdates ((pre ++ [.update, .update]) ++ ops.map SesOp.dirOp) < 2 ^ 64)
    (spread : IndexSpread (fun k => (C.vrfProve vk k).1) (regNames (pre ++ [.update, .update]) ++ sesNames ops))
    (d₀ : Directory) (log₀ : List STR) (h₀ : dirAfter C t0 sk vk size r₁ r₂ pre = some (d₀, log₀))
    (cc : Client) (hcc : newClient d₀.latestSTR true (C.signPub sk) = some cc)
    (d₂ : Directory) (log₂ : List STR) (h₂ : dirAfter C t0 sk vk size r₁ r₂ (pre ++ [.update, .update]) = some (d₂, log₂))
    (d : Directory) (log : List STR) (h : dirAfter C t0 sk vk size r₁ r₂ ((pre ++ [.update, .update]) ++ ops.map SesOp.dirOp) = some (d, log))
    (N : Net) (conf : CliConf) (addrs : List Address) (hnd : (addrs.map Address.ptr).Nodup)
    (ra : Bytes) (hra : ra = conf.regAddress ∧ conf.regAddress ≠ [] ∨ ra = conf.address ∧ conf.regAddress = [])
    (hur : N.scheme ra = some (ascii "tcp") ∨ N.scheme ra = some (ascii "unix"))
    (hua : N.scheme conf.address = some (ascii "tcp") ∨ N.scheme conf.address = some (ascii "unix"))
    (a : Address) (ha : a ∈ addrs) (hal : a.ptr = N.listener ra) (hreg : a.allowRegistration = true)
    (b : Address) (hb : b ∈ addrs) (hbl : b.ptr = N.listener conf.address)
    (hf : AllFit C d₂ ops = true) (ts : Bool) (l : List Char) (n : Bytes) (hl : command (fields l) = .lookup n) (e : Bytes) :
    replOver C N conf (permsMap addrs) d₀ cc ts ([.dir .update, .line none l (.noDial e), .dir .update] ++ evs) = some (d, cc,
      (ts, ascii "[+] Error while receiving response: " ++ e) ::
        lostLines (absAfter (pre ++ [.update, .update])) ts (evs.filterMap NetEvent.plain)) := by
  subst hops
  obtain ⟨d1, hd1⟩ : ∃ d1, d₀.step C .update = some (d1, none) := ⟨_, rfl⟩
  obtain ⟨d2, hd2⟩ : ∃ d2, d1.step C .update = some (d2, none) := ⟨_, rfl⟩
  have hd2' : d2 = d₂ ∧ log₂ = (log₀ ++ DirOp.issued .update d1) ++ DirOp.issued .update d2 := by
    rw [dirAfter_append, h₀] at h₂
    simp only [Option.bind_some, Directory.runLog, hd1, hd2, Option.some.injEq, Prod.mk.injEq] at h₂
    exact ⟨h₂.1, h₂.2.symm⟩
  obtain ⟨rfl, hlog⟩ := hd2'
  have hlt0 : dirUpdates pre < 2 ^ 64 := by rw [dirUpdates_append, dirUpdates_append] at hlt; omega
  obtain ⟨inv, hlen⟩ := dirAfter_padInv C t0 sk vk size r₁ r₂ pre hlt0 d₀ log₀ h₀
  have hsn : log₀[dirUpdates pre]? = some d₀.pad.latest := by
    have := inv.last
    rw [List.getLast?_eq_getElem?, hlen.1] at this
    simpa using this
  have hs : log₂[dirUpdates pre]? = some d₀.pad.latest := by
    rw [hlog, List.append_assoc, List.getElem?_append_left (List.getElem?_eq_some_iff.mp hsn).1]
    exact hsn
  have hup : dirUpdates pre + 2 ≤ dirUpdates (pre ++ [.update, .update]) := by rw [dirUpdates_append]; exact Nat.le_refl _
  have key := C64_old_str_counterexample C t0 sk vk size r₁ r₂ (pre ++ [.update, .update]) (evs.filterMap NetEvent.plain) hlt spread d2 log₂ h₂
    cc (dirUpdates pre) d₀.pad.latest hs hcc hup d log h N conf addrs hnd ra hra hur hua a ha hal hreg b hb hbl hf ts
  rw [← perfect_run evs d2 cc ts (after_std h₂) hev] at key
  have hover : cc.cliLookupOver C N conf (permsMap addrs) (.noDial e) d1 n = some (d1, cc, ascii "Error while receiving response: " ++ e) := by
    unfold Client.cliLookupOver
    rw [usable_true hua]
    rfl
  simp only [List.cons_append, List.nil_append, replOver, hd1, Option.bind_some, hl, hover, hd2, key, Option.map_some]
  rw [← List.append_assoc]
  rfl

/-- all its hypotheses hold together: the lookup is of bob, and afterwards there is one more -/
example : ∃ d₀ cc d, (∃ log₀, dirAfter Crypto.toy 5 [1] [2] 10 [3] [4] [.update] = some (d₀, log₀)) ∧
    newClient d₀.latestSTR true (Crypto.toy.signPub [1]) = some cc ∧
    replOver Crypto.toy sampleNet ⟨[], ascii "tcp://server"⟩ (permsMap [⟨7, true⟩]) d₀ cc false
      ([.dir .update, .line none "lookup bob".toList (.noDial (ascii "refused")), .dir .update] ++
        [.line none "lookup bob".toList (.carried 9000 false 9000 none)]) = some (d, cc,
      [(false, ascii "[+] Error while receiving response: refused"), (false, ascii "[+] " ++ badSTRText)]) := by
  have hops : sesOps (List.filterMap NetEvent.plain [.line none "lookup bob".toList (.carried 9000 false 9000 none)]) =
      [.lookup (ascii "bob") none] := by rfl
  have hrun : (dirAfter Crypto.toy 5 [1] [2] 10 [3] [4] (([.update] ++ [.update, .update]) ++
      ([.lookup (ascii "bob") none] : List SesOp).map SesOp.dirOp)).isSome = true := by
    rw [dirAfterE_eq]; decide +kernel
  obtain ⟨⟨d, log⟩, hd⟩ := Option.isSome_iff_exists.mp hrun
  have hd1 := hd
  rw [dirAfter_append] at hd1
  obtain ⟨⟨d₂, log₂⟩, h₂, _⟩ := Option.bind_eq_some_iff.mp hd1
  have hd2 := h₂
  rw [dirAfter_append] at hd2
  obtain ⟨⟨d₀, log₀⟩, h₀, _⟩ := Option.bind_eq_some_iff.mp hd2
  have hfit : ((dirAfter Crypto.toy 5 [1] [2] 10 [3] [4] ([.update] ++ [.update, .update])).map fun x =>
      AllFit Crypto.toy x.1 [.lookup (ascii "bob") none]) = some true := by
    rw [dirAfterE_eq]; simp only [AllFit, SesOp.dirOp, stepE_eq]; decide +kernel
  rw [h₂] at hfit
  have h := C82_lockout_counterexample Crypto.toy 5 [1] [2] 10 [3] [4] [.update]
    [.line none "lookup bob".toList (.carried 9000 false 9000 none)]
    (by intro e he; simp only [List.mem_singleton] at he; subst he; exact ⟨by decide, rfl, by decide, rfl⟩) _ hops.symm (by decide +kernel)
    (by decide +kernel) d₀ log₀ h₀ _ rfl d₂ log₂ h₂ d log hd sampleNet ⟨[], ascii "tcp://server"⟩ [⟨7, true⟩] (by decide)
    (ascii "tcp://server") (.inr ⟨rfl, rfl⟩) (.inl rfl) (.inl rfl) ⟨7, true⟩ (by simp) rfl rfl ⟨7, true⟩ (by simp) rfl
    (by simpa using hfit) false "lookup bob".toList (ascii "bob") (by rfl) (ascii "refused")
  refine ⟨d₀, _, d, ⟨log₀, h₀⟩, rfl, h.trans ?_⟩
  refine congrArg some (congrArg (d, _, ·) ?_)
  decide +kernel

end Coniks.Props

import Verif.Proofs.Owner
import Verif.Props.Lockout
/-
C91. From a direct message to a terminal: on one machine with a bot, key servers and client programs, a key that a client program finds was asked for
by the owner of the name.
-/
namespace Coniks.Props
open Coniks Coniks.Spec Json ListenProofs

/-- C91. On a machine with a bot, servers and client programs process `pid` is a key server started with configuration `k` at some moment of any history;
only its entry `a` allows registrations, this entry listens at the path that the bot's file names, and nobody but the bot goes there (`BotOnly`). Then after any
further history of the machine (commands at all terminals, programs opened and ended, other servers coming and going, files removed, connections,
epochs, direct messages), as long as the process runs, every key that its directory shows for a name was asked for in a direct message
whose sender's handle is that name up to letter case. `ns`: the names asked for; they and `n` have different VRF indices. -/
theorem C91_owner (C : Crypto) (X : Text) (M : Machine) (cwd : Place) (c : TwitterConfig) (files : Place → Bool) (terms : Nat → Terminal)
    (evs₁ evs₂ : List DeskEv) (pid : Nat) (k : ServerConf) (r₁ r₂ : Bytes) (srv : Server) (D₁ D : Desk)
    (h₁ : (freshDesk files terms).run C X M cwd c evs₁ = some D₁) (hi : Idle D₁.host.os pid) (hok : (D₁.host.os.start M pid k.addresses).2 = true)
    (hnew : newServer C k.core (some r₁) (some r₂) = some srv)
    (h : D₁.run C X M cwd c (.host (.run pid k (some r₁) (some r₂)) :: evs₂) = some D) (hsp : ∀ e, .host e ∈ evs₂ → SparesProc pid e)
    (hnd : (k.addresses.map AddressToml.ptr).Nodup) (a : AddressToml) (ha : a ∈ k.addresses)
    (hask : AsksFor M a (.unix (locate cwd c.coniksAddress))) (only : ∀ b ∈ k.addresses, b.allowRegistration = true → b = a)
    (hbot : BotOnly M (locate cwd c.coniksAddress) D₁ evs₂) (hlt : deskEpochs evs₂ < 2 ^ 64) (n : Bytes) (ns : List Bytes)
    (hns : ∀ m ∈ directMessages (machineEvents evs₂), ∀ n k, Asks X m.sender m.text n k → n ∈ ns)
    (inj : IndexInj (fun x => (C.vrfProve k.vrfKey x).1) (n :: ns)) (op : DirOp) (hop : reqName op = some n) (hreg : ∀ rnd req, op ≠ .register rnd req) :
    ∃ d, D.host.server pid = some ⟨d, k.addresses⟩ ∧ ∀ d' resp, d.step C op = some (d', some resp) →
      ∀ key ∈ keysShown resp, ∃ m ∈ directMessages (machineEvents evs₂), Asks X m.sender m.text n key := by
  simp only [Desk.run] at h
  obtain ⟨D₂, hs, h⟩ := Option.bind_eq_some_iff.mp h
  obtain ⟨s1, s2, s3, s4⟩ := desk_start C X M cwd c pid k r₁ r₂ srv D₁ D₂ hi hok hnew hs
  obtain ⟨es₁, o1, _⟩ := desk_run_os C X M cwd c evs₁ _ _ h₁
  have I₁ : OsInv D₁.host.os := by
    rw [o1]; exact ListenProofs.inv_run es₁ (inv_booted files)
  obtain ⟨I, uniq⟩ := started_inv I₁ pid k.addresses hi hok
  obtain ⟨es, d, g1, g2, g3, g4, g5⟩ := desk_project C X M cwd c pid k.addresses _ rfl hnd a ha hask (fun b hb hb' => uniq _ b a hb ha hb' hask) evs₂ D₂ D
    srv.dir 0 ⟨[], _, s4, rfl⟩ (by rw [s1]; exact I) s2 hsp ⟨hbot.conns, fun u => by rw [s3]; exact hbot.open_ u, hbot.later⟩ h
  refine ⟨d, g1, ?_⟩
  intro d' resp hstep key hkey
  obtain ⟨w, hw, rfl⟩ := g5 ⟨srv.dir, [], []⟩ rfl
  have hdir : newDirectory C k.policiesDeadline k.vrfKey k.signKey k.historyLength true (some r₁) (some r₂) = some srv.dir := by
    unfold newServer at hnew
    obtain ⟨d0, hd0, rfl⟩ := Option.map_eq_some_iff.mp hnew
    exact hd0
  have hnd' : ((k.addresses.map fun a => (⟨a.ptr, a.allowRegistration⟩ : Address)).map Address.ptr).Nodup := by
    rw [List.map_map]; exact hnd
  obtain ⟨m, sent, hm, hA⟩ := C71_owner C X (k.addresses.map fun a => ⟨a.ptr, a.allowRegistration⟩) hnd' ⟨c.handle, a.ptr⟩
    (by
      intro b hb hal
      obtain ⟨b', hb', rfl⟩ := List.mem_map.mp hb
      rw [only b' hb' hal])
    k.policiesDeadline k.signKey k.vrfKey k.historyLength r₁ r₂ srv.dir hdir es g2 (by omega) w hw n ns
    (fun m sent n' k' hm hA => hns m (g4 m sent hm) n' k' hA) inj op hop hreg d' resp hstep key hkey
  exact ⟨m, g4 m sent hm, hA⟩

/-- C91. What a user of a client program can rely on: on that machine, if a terminal whose configured address the process answers prints "[+] Found!" after
a lookup of a name, then an account whose handle is that name up to letter case has asked the bot for it in a direct message. Whatever that terminal and all the
others have done before, and whatever the network does. -/
theorem C91_found (C : Crypto) (X : Text) (M : Machine) (cwd : Place) (c : TwitterConfig) (files : Place → Bool) (terms : Nat → Terminal)
    (evs₁ evs₂ : List DeskEv) (pid : Nat) (k : ServerConf) (r₁ r₂ : Bytes) (srv : Server) (D₁ D D' : Desk)
    (h₁ : (freshDesk files terms).run C X M cwd c evs₁ = some D₁) (hi : Idle D₁.host.os pid) (hok : (D₁.host.os.start M pid k.addresses).2 = true)
    (hnew : newServer C k.core (some r₁) (some r₂) = some srv)
    (h : D₁.run C X M cwd c (.host (.run pid k (some r₁) (some r₂)) :: evs₂) = some D) (hsp : ∀ e, .host e ∈ evs₂ → SparesProc pid e)
    (hnd : (k.addresses.map AddressToml.ptr).Nodup) (a : AddressToml) (ha : a ∈ k.addresses)
    (hask : AsksFor M a (.unix (locate cwd c.coniksAddress))) (only : ∀ b ∈ k.addresses, b.allowRegistration = true → b = a)
    (hbot : BotOnly M (locate cwd c.coniksAddress) D₁ evs₂) (hlt : deskEpochs evs₂ < 2 ^ 64) (n : Bytes) (ns : List Bytes)
    (hns : ∀ m ∈ directMessages (machineEvents evs₂), ∀ n k, Asks X m.sender m.text n k → n ∈ ns)
    (inj : IndexInj (fun x => (C.vrfProve k.vrfKey x).1) (n :: ns))
    (u : Nat) (rnd : Option Bytes) (l : List Char) (T : Transfer) (refused : Bytes) (hl : command (fields l) = .lookup n)
    (b : AddressToml) (hb : b ∈ k.addresses) (hlook : AnswersAt M D₁.host.os (D.terms u).conf.address b evs₂)
    (hline : D.step C X M cwd c (.line u rnd l T refused) = some D') (ts : Bool) (x : Bytes)
    (hfound : (D'.terms u).printed = (D.terms u).printed ++ [(ts, ascii "[+] Found!" ++ x)]) :
    ∃ m ∈ directMessages (machineEvents evs₂), ∃ key, Asks X m.sender m.text n key := by
  obtain ⟨d, hd, shows⟩ := C91_owner C X M cwd c files terms evs₁ evs₂ pid k r₁ r₂ srv D₁ D h₁ hi hok hnew h hsp hnd a ha hask only hbot hlt n ns hns inj
    (.keyLookup ⟨n⟩) rfl (fun _ _ e => nomatch e)
  -- the address is answered by the process
  simp only [Desk.run] at h
  obtain ⟨D₂, hs, h⟩ := Option.bind_eq_some_iff.mp h
  obtain ⟨s1, s2, s3, s4⟩ := desk_start C X M cwd c pid k r₁ r₂ srv D₁ D₂ hi hok hnew hs
  obtain ⟨es₁, o1, _⟩ := desk_run_os C X M cwd c evs₁ _ _ h₁
  have o1' : D₁.host.os = (booted files).run M es₁ := o1
  obtain ⟨es, k1, k2, k3⟩ := desk_run_os C X M cwd c _ _ _ h
  obtain ⟨s, p1, p2, p3⟩ : ∃ s, D.host.os.dial M (D.terms u).conf.address = some s ∧ s.pid = pid ∧ s.ptr = b.ptr := by
    have hos : D.host.os = (booted files).run M (es₁ ++ .start pid k.addresses :: es) := by
      rw [k1, s1, o1', ← os_run_cons]
      unfold Os.run
      rw [List.foldl_append]
    obtain ⟨bd, q1, q2, q3⟩ := hlook
    rw [hos]
    refine C79_reach M files es₁ pid k.addresses es (o1' ▸ hi) (o1' ▸ hok) (k2 pid hsp) b hb bd q1 _ q2 fun p hp => ⟨?_, ?_⟩
    · exact k3 p (q3 p hp).1
    · rw [← o1']; exact (q3 p hp).2
  obtain ⟨d₀, g1, ops, log, g2, g3⟩ := desk_grown C X M cwd c pid k.addresses evs₂ D₂ D srv.dir 0 ⟨[], _, s4, rfl⟩ s2 hsp h
  have hdd : d₀ = d := by
    rw [hd] at g1
    simp only [Option.some.injEq, Running.mk.injEq] at g1
    exact g1.1.symm
  subst hdd
  have hep : dirUpdates ops < 2 ^ 64 := by
    have : epochsOf pid evs₂ ≤ deskEpochs evs₂ := epochsOf_le pid evs₂
    omega
  obtain ⟨inv, _⟩ := dirAfter_padInv C _ _ _ _ _ _ _ hep _ _ g2
  have ha' : D.host.answering M (D.terms u).conf.address = some (s, ⟨d₀, k.addresses⟩) := by
    unfold Host.answering
    rw [p1, Option.bind_some, p2, hd, Option.map_some]
  have no_more : ∀ D'' : Desk, (D''.terms u).printed = (D.terms u).printed → D' = D'' → False := by
    rintro D'' hp rfl
    rw [hfound] at hp
    have := congrArg List.length hp
    simp at this
  simp only [Desk.step, Desk.type] at hline
  split at hline
  · exact (no_more D rfl (Option.some.inj hline).symm).elim
  · rw [hl] at hline
    dsimp only at hline
    rw [ha'] at hline
    obtain ⟨⟨d', cc', text⟩, hx, he⟩ := Option.map_eq_some_iff.mp hline
    have ht : text = ascii "Found!" ++ x := by
      rw [← he, desk_put_same] at hfound
      have := List.append_cancel_left hfound
      simp only [List.cons.injEq, Prod.mk.injEq, and_true] at this
      have e : ascii "[+] Found!" = ascii "[+] " ++ ascii "Found!" := by decide +kernel
      rw [e, List.append_assoc] at this
      exact List.append_cancel_left this.2
    subst ht
    obtain ⟨r, hr, hk⟩ := lookupOver_found inv (after_std g2) (command_lookup hl) hx
    obtain ⟨key, hkey⟩ := List.exists_mem_of_ne_nil _ hk
    obtain ⟨m, hm, hA⟩ := shows d₀ r (by simp only [Directory.step, hr, Option.map_some]) key hkey
    exact ⟨m, hm, key, hA⟩

/-- what an unregistered name means for the exact directory -/
theorem not_found_exact {C : Crypto} {sk vk : Bytes} {d : Directory} {log : List STR} {E : ExactDir} (inv : ExactInv C sk vk d log E) {n : Bytes} {r : Response}
    (h : d.keyLookup C ⟨n⟩ = some r) (he : r.error = ReqNameNotFound) :
    n ≠ [] ∧ search E.committed (C.vrfProve vk n).1 = .absent ∧ E.promised n = none := by
  obtain ⟨resp, h1, h2⟩ := keyLookup_exact inv n
  rw [h] at h1
  cases h1
  have code : (E.lookupAnswer (fun n => (C.vrfProve vk n).1) n).1 = ReqNameNotFound := by
    generalize E.lookupAnswer (fun n => (C.vrfProve vk n).1) n = y at h2
    obtain ⟨c, o⟩ := y
    cases o with
    | none =>
      have h3 : r = ⟨c, .none⟩ := h2
      rw [h3] at he
      exact he
    | some z =>
      obtain ⟨f, pr⟩ := z
      obtain ⟨ap, h3, _⟩ := h2
      rw [h3] at he
      exact he
  unfold ExactDir.lookupAnswer at code
  split at code
  · exact absurd code (by decide)
  · rename_i hn
    refine ⟨hn, ?_⟩
    split at code
    · rename_i h1 h2; exact ⟨h1, h2⟩
    · exact absurd (show ReqSuccess = ReqNameNotFound from code) (by decide)
    · exact absurd (show ReqSuccess = ReqNameNotFound from code) (by decide)

/-- the whole life of a name at the directory that the bot and the terminal talk to, and what is printed -/
theorem served_lines (C : Crypto) (vk : Bytes) (E : ExactDir) (n key x : Bytes) (hk0 : key ≠ []) (hn : n ≠ [])
    (hs : search E.committed (C.vrfProve vk n).1 = .absent) (hp : E.promised n = none) (hv : vrfOk C vk n = true) (ts : Bool) (rnd : Option Bytes)
    (l : List Char) (hl : command (fields l) = .lookup n) :
    exactLines (fun n => (C.vrfProve vk n).1) C.hash (vrfOk C vk) ⟨E, 0, fun _ => none⟩ ts
      [.dir (.register (some x) ⟨n, key⟩), .dir .update, .line rnd l] = some [(ts, ascii "[+] Found! Key bound to name is: []")] := by
  have h1 : E.step (fun n => (C.vrfProve vk n).1) C.hash (.register (some x) ⟨n, key⟩) = E.file (fun n => (C.vrfProve vk n).1) n key (C.hash x) := by
    unfold ExactDir.step
    exact if_pos ⟨hn, hk0, hs, hp⟩
  have h2 : search (E.file (fun n => (C.vrfProve vk n).1) n key (C.hash x)).nextEpoch.committed (C.vrfProve vk n).1 = .entry ⟨n, key, C.hash x⟩ := by
    unfold search ExactDir.nextEpoch ExactDir.file
    dsimp only
    rw [if_pos rfl]
  have h3 : (E.file (fun n => (C.vrfProve vk n).1) n key (C.hash x)).nextEpoch.lookupAnswer (fun n => (C.vrfProve vk n).1) n =
      (ReqSuccess, some (.entry ⟨n, key, C.hash x⟩, none)) := by
    unfold ExactDir.lookupAnswer
    rw [if_neg hn]
    dsimp only
    rw [h2]
  have e2 : ascii "[+] " ++ ascii "Found! Key bound to name is: []" = ascii "[+] Found! Key bound to name is: []" := by decide +kernel
  simp only [exactLines, hl, h1, if_true, reduceCtorEq, if_false, show ∀ E : ExactDir, E.step (fun n => (C.vrfProve vk n).1) C.hash .update = E.nextEpoch from fun _ => rfl, h3,
    Meeting.hear, clientSays, hv]
  simp only [Nat.zero_add, show ¬ 2 ≤ 1 by decide, if_false, ne_eq, not_true_eq_false, false_and, Option.map_some, Option.bind_some,
    if_true, lookupWords, e2]

/-- C91. The other direction: the owner is served. On that machine, in any state the history can have reached, the process answers at the bot's path with an entry that
allows registrations and at the address of a client program; a user opens the program with the directory's newest STR; then the owner of an account asks
the bot to register a key under its name, which the directory does not know yet; then an epoch begins. If the network works and the messages fit, a lookup of the name at that
terminal says that it was found. -/
theorem C91_served (C : Crypto) (X : Text) (M : Machine) (cwd : Place) (c : TwitterConfig) (evs₂ : List DeskEv) (pid : Nat) (k : ServerConf) (r₁ r₂ : Bytes) (srv : Server) (D₁ D : Desk)
    (hi : Idle D₁.host.os pid) (hok : (D₁.host.os.start M pid k.addresses).2 = true)
    (hnew : newServer C k.core (some r₁) (some r₂) = some srv)
    (h : D₁.run C X M cwd c (.host (.run pid k (some r₁) (some r₂)) :: evs₂) = some D) (hsp : ∀ e, .host e ∈ evs₂ → SparesProc pid e)
    (hnd : (k.addresses.map AddressToml.ptr).Nodup) (hlt : epochsOf pid evs₂ + 1 < 2 ^ 64)
    (s : Sock) (hsock : D.host.os.dialUnix { M with cwd := cwd } c.coniksAddress = some s) (hspid : s.pid = pid)
    (a : AddressToml) (ha : a ∈ k.addresses) (hptr : a.ptr = s.ptr) (hal : a.allowRegistration = true)
    (kc : ClientConf) (hsch : (parseUrl kc.address).map Url.scheme = some (ascii "tcp") ∨ (parseUrl kc.address).map Url.scheme = some (ascii "unix"))
    (s' : Sock) (hdial : D.host.os.dial M kc.address = some s') (hspid' : s'.pid = pid) (b : AddressToml) (hb : b ∈ k.addresses) (hptr' : b.ptr = s'.ptr)
    (d : Directory) (hd : D.host.server pid = some ⟨d, k.addresses⟩) (hstr : kc.initSTR = d.latestSTR) (hkey : kc.signingPubKey = C.signPub k.signKey)
    (dm : DM) (msg : Bytes) (hm : dm.text = messagePrefix ++ msg) (hown : X.equalFold dm.sender c.handle = false) (hlen : msg.length ≤ 8192)
    (n key x : Bytes) (hasks : Asks X dm.sender dm.text n key) (hk0 : key ≠ []) (r : Response) (hfree : d.keyLookup C ⟨n⟩ = some r)
    (hfree' : r.error = ReqNameNotFound) (hv : vrfOk C k.vrfKey n = true)
    (u : Nat) (debug : Bool) (sent : Option Nat) (rnd : Option Bytes) (l : List Char) (hl : command (fields l) = .lookup n) (T : Transfer) (hT : Transfer.Perfect T)
    (refused : Bytes) (hfit : AllFit C d [.dir (.register (some x) ⟨n, key⟩), .dir .update, .lookup n none] = true) :
    ∃ D', D.run C X M cwd c [.opened u kc debug, .host (.dm dm (some x) .works sent), .host (.epoch pid), .line u rnd l T refused] = some D' ∧
      (D'.terms u).printed = [(debug, ascii "[+] Found! Key bound to name is: []")] := by
  simp only [Desk.run] at h
  obtain ⟨D₂, hs, h⟩ := Option.bind_eq_some_iff.mp h
  obtain ⟨s1, s2, s3, s4⟩ := desk_start C X M cwd c pid k r₁ r₂ srv D₁ D₂ hi hok hnew hs
  obtain ⟨d₀, g1, ops, log, g2, g3⟩ := desk_grown C X M cwd c pid k.addresses evs₂ D₂ D srv.dir 0 ⟨[], _, s4, rfl⟩ s2 hsp h
  have hdd : d₀ = d := by
    rw [hd] at g1
    simp only [Option.some.injEq, Running.mk.injEq] at g1
    exact g1.1.symm
  subst hdd
  rw [Nat.zero_add] at g3
  obtain ⟨inv, hlog⟩ := dirAfter_exact C _ _ _ _ r₁ r₂ ops (by omega) _ log g2
  obtain ⟨hn, habs, hprom⟩ := not_found_exact inv hfree hfree'
  -- the directory's part
  obtain ⟨d1, resp, hreg, _⟩ := register_exact inv (some x) n key
  obtain ⟨log1, h1⟩ := dirAfter_step (op := .register (some x) ⟨n, key⟩) (d' := d1) (r := some resp) g2 (by simp only [Directory.step, hreg, Option.map_some])
  obtain ⟨log2, h2⟩ := dirAfter_step (op := .update) (d' := d1.update C) (r := none) h1 rfl
  -- the session
  let ra : Bytes := kc.address ++ [0]
  have hra : ra ≠ kc.address := by
    intro e
    have := congrArg List.length (show kc.address ++ [0] = kc.address from e)
    rw [List.length_append] at this
    exact absurd this (by simp)
  have hra0 : ra ≠ [] := by simp [ra]
  let N : Net := ⟨fun y => if y = kc.address then (parseUrl y).map Url.scheme else some (ascii "tcp"), fun y => if y = kc.address then b.ptr else a.ptr⟩
  have hN1 : N.scheme kc.address = (parseUrl kc.address).map Url.scheme := if_pos rfl
  have hN2 : N.scheme ra = some (ascii "tcp") := if_neg hra
  have hN3 : N.listener kc.address = b.ptr := if_pos rfl
  have hN4 : N.listener ra = a.ptr := if_neg hra
  have hnd' : ((k.addresses.map fun a => (⟨a.ptr, a.allowRegistration⟩ : Address)).map Address.ptr).Nodup := by
    rw [List.map_map]; exact hnd
  let cc : Client := ⟨newAudState (C.signPub k.signKey) d₀.latestSTR, fun _ => none, true, fun _ => none⟩
  have hcc : newClient d₀.pad.latest.toDir true (C.signPub k.signKey) = some cc := rfl
  have hlat : log[dirUpdates ops]? = some d₀.pad.latest := by
    have := inv.pad.latest_get
    rw [hlog] at this
    exact this
  have hses : sesOps [.dir (.register (some x) ⟨n, key⟩), .dir .update, .line rnd l] = [.dir (.register (some x) ⟨n, key⟩), .dir .update, .lookup n none] := by
    simp only [sesOps, hl]
  have hex := C64_exact C k.policiesDeadline k.signKey k.vrfKey k.historyLength r₁ r₂ ops [.dir (.register (some x) ⟨n, key⟩), .dir .update, .line rnd l]
    (by
      rw [hses, dirUpdates_append]
      show dirUpdates ops + 1 < 2 ^ 64
      omega) d₀ log g2 (dirUpdates ops) d₀.pad.latest hlat cc hcc (d1.update C) log2
    (by
      rw [hses]
      have : ops ++ [SesOp.dir (.register (some x) ⟨n, key⟩), .dir .update, .lookup n none].map SesOp.dirOp =
          ops ++ [.register (some x) ⟨n, key⟩] ++ [.update] ++ [.keyLookup ⟨n⟩] := by simp [SesOp.dirOp]
      rw [this, dirAfter_append, h2, Option.bind_some]
      obtain ⟨inv2, _⟩ := dirAfter_exact C _ _ _ _ r₁ r₂ _ (by
        rw [dirUpdates_append, dirUpdates_append]
        show dirUpdates ops + 0 + 1 < 2 ^ 64
        omega) _ _ h2
      obtain ⟨resp', hl', _⟩ := keyLookup_exact inv2 n
      simp only [Directory.runLog, Directory.step, hl', Option.map_some, Option.bind_some, DirOp.issued, List.append_nil])
    N ⟨ra, kc.address⟩ _ hnd' ra (.inl ⟨rfl, hra0⟩) (.inl hN2) (by rw [hN1]; exact hsch) ⟨a.ptr, a.allowRegistration⟩ (List.mem_map_of_mem ha) hN4.symm hal
    ⟨b.ptr, b.allowRegistration⟩ (List.mem_map_of_mem hb) hN3.symm (by rw [hses]; exact hfit) debug
  rw [Nat.sub_self, served_lines C k.vrfKey _ n key x hk0 hn habs hprom hv debug rnd l hl, Option.map_some] at hex
  have hstd := after_std g2
  have hover := perfect_run (C := C) (N := N) (conf := ⟨ra, kc.address⟩) (perms := permsMap (k.addresses.map fun a => ⟨a.ptr, a.allowRegistration⟩))
    [.dir (.register (some x) ⟨n, key⟩), .dir .update, .line rnd l T] d₀ cc debug hstd (by
      intro e he
      simp only [List.mem_cons, List.not_mem_nil, or_false] at he
      rcases he with rfl | rfl | rfl
      · trivial
      · trivial
      · exact hT)
  obtain ⟨z, hz, ez⟩ := Option.map_eq_some_iff.mp hex
  have hplain : [NetEvent.dir (.register (some x) ⟨n, key⟩), .dir .update, .line rnd l T].filterMap NetEvent.plain =
      [.dir (.register (some x) ⟨n, key⟩), .dir .update, .line rnd l] := rfl
  rw [hplain, hz] at hover
  simp only [replOver, Directory.step, hreg, Option.map_some, Option.bind_some, hl] at hover
  obtain ⟨y, hy, hover⟩ := Option.bind_eq_some_iff.mp hover
  have hprint : ascii "[+] " ++ y.2.2 = ascii "[+] Found! Key bound to name is: []" := by
    simp only [Option.some.injEq] at hover
    rw [← hover] at ez
    simp only [Prod.mk.injEq, List.cons.injEq, and_true, true_and] at ez
    exact ez.2
  -- the machine's part
  have hstep1 : D.step C X M cwd c (.opened u kc debug) = some (D.put u ⟨⟨kc.regAddress, kc.address⟩, cc, debug, false, []⟩) := by
    simp only [Desk.step, Desk.open, hstr, hkey]
    rfl
  have hmsg := ((C81_message C X M cwd c (some x) sent D.host dm msg hm hown hlen).2 n key hasks).2 s ⟨d₀, k.addresses⟩ hsock (by rw [hspid]; exact hd) hnd a ha hptr
  have hstep2 : (D.put u ⟨⟨kc.regAddress, kc.address⟩, cc, debug, false, []⟩).step C X M cwd c (.host (.dm dm (some x) .works sent)) =
      some { D.put u ⟨⟨kc.regAddress, kc.address⟩, cc, debug, false, []⟩ with host := D.host.set pid (some ⟨d1, k.addresses⟩) } := by
    simp only [Desk.step, Host.step]
    rw [show (D.put u ⟨⟨kc.regAddress, kc.address⟩, cc, debug, false, []⟩).host = D.host from rfl, hmsg.1 hal, hreg, hspid]
    rfl
  have hstep3 : ({ D.put u ⟨⟨kc.regAddress, kc.address⟩, cc, debug, false, []⟩ with host := D.host.set pid (some ⟨d1, k.addresses⟩) } : Desk).step C X M cwd c
      (.host (.epoch pid)) = some { D.put u ⟨⟨kc.regAddress, kc.address⟩, cc, debug, false, []⟩ with
        host := (D.host.set pid (some ⟨d1, k.addresses⟩)).set pid (some ⟨d1.update C, k.addresses⟩) } := by
    simp only [Desk.step, Host.step]
    rw [show (D.host.set pid (some ⟨d1, k.addresses⟩)).server pid = some ⟨d1, k.addresses⟩ from if_pos rfl]
    rfl
  have hterm' : (D.put u ⟨⟨kc.regAddress, kc.address⟩, cc, debug, false, []⟩).terms u = ⟨⟨kc.regAddress, kc.address⟩, cc, debug, false, []⟩ := if_pos rfl
  have hans : ((D.host.set pid (some ⟨d1, k.addresses⟩)).set pid (some ⟨d1.update C, k.addresses⟩)).answering M kc.address =
      some (s', ⟨d1.update C, k.addresses⟩) := by
    unfold Host.answering
    rw [show ((D.host.set pid (some ⟨d1, k.addresses⟩)).set pid (some ⟨d1.update C, k.addresses⟩)).os = D.host.os from rfl, hdial, Option.bind_some, hspid',
      show ((D.host.set pid (some ⟨d1, k.addresses⟩)).set pid (some ⟨d1.update C, k.addresses⟩)).server pid = some ⟨d1.update C, k.addresses⟩ from if_pos rfl]
    rfl
  have hlook : cc.cliLookupOver C (D.host.os.net M s'.ptr) ⟨kc.regAddress, kc.address⟩ (permsMap (k.addresses.map fun a => ⟨a.ptr, a.allowRegistration⟩)) T
      (d1.update C) n = some y := by
    rw [← hy]
    have hl1 : (D.host.os.net M s'.ptr).listener kc.address = N.listener kc.address := by
      rw [hN3, hptr']
      show (match D.host.os.dial M kc.address with | some s => s.ptr | none => s'.ptr) = s'.ptr
      rw [hdial]
    unfold Client.cliLookupOver Net.usable
    rw [show (D.host.os.net M s'.ptr).scheme kc.address = N.scheme kc.address from hN1.symm, hl1]
  refine ⟨Desk.put { D.put u ⟨⟨kc.regAddress, kc.address⟩, cc, debug, false, []⟩ with
        host := ((D.host.set pid (some ⟨d1, k.addresses⟩)).set pid (some ⟨d1.update C, k.addresses⟩)).set pid (some ⟨y.1, k.addresses⟩) } u
      ⟨⟨kc.regAddress, kc.address⟩, y.2.1, debug, false, [(debug, ascii "[+] " ++ y.2.2)]⟩, ?_, ?_⟩
  · simp only [Desk.run, hstep1, hstep2, hstep3, Option.bind_some]
    simp only [Desk.step, Desk.type, hterm', Bool.false_eq_true, if_false, hl, hans, hspid', List.nil_append]
    have hlook' : cc.cliLookupOver C (((D.host.set pid (some ⟨d1, k.addresses⟩)).set pid (some ⟨d1.update C, k.addresses⟩)).os.net M s'.ptr)
        ⟨kc.regAddress, kc.address⟩ (permsMap (k.addresses.map fun a => ⟨a.ptr, a.allowRegistration⟩)) T (d1.update C) n = some y := hlook
    rw [hlook', Option.map_some, Option.bind_some]
  · rw [desk_put_same, hprint]

/-- a machine on which a server can start -/
theorem desk_boot (C : Crypto) (X : Text) (M : Machine) (cwd : Place) (c : TwitterConfig) (pid : Nat) (k : ServerConf) (r₁ r₂ : Bytes) (srv : Server)
    (D : Desk) (hi : Idle D.host.os pid) (hok : (D.host.os.start M pid k.addresses).2 = true) (hnew : newServer C k.core (some r₁) (some r₂) = some srv) :
    ∃ D', D.run C X M cwd c [.host (.run pid k (some r₁) (some r₂))] = some D' ∧ D'.host.os = D.host.os.step M (.start pid k.addresses) ∧
      D'.host.server pid = some ⟨srv.dir, k.addresses⟩ ∧ D'.terms = D.terms := by
  have hs : ∃ D', D.step C X M cwd c (.host (.run pid k (some r₁) (some r₂))) = some D' := by
    simp only [Desk.step, Host.step]
    rw [if_neg (by rw [ListenProofs.any_idle.2 hi]; exact Bool.false_ne_true), hnew]
    exact ⟨_, rfl⟩
  obtain ⟨D', hs⟩ := hs
  obtain ⟨h1, h2, h3, _⟩ := desk_start C X M cwd c pid k r₁ r₂ srv D D' hi hok hnew hs
  exact ⟨D', by simp only [Desk.run, hs, Option.bind_some], h1, h2, h3⟩

/-! ### Concrete cases -/

/-- a configuration of a client program that knows only the public address of the default server -/
def ownerClient (s : DirSTR) : ClientConf := ⟨ascii "/c/config.toml", Crypto.toy.signPub [1], s, [], ascii "tcp://127.0.0.1:3000"⟩

/-- terminal 1 opens its program; bob asks the bot for a registration; an epoch begins -/
def ownerHistory (s : DirSTR) : List DeskEv :=
  [.opened 1 (ownerClient s) false, .host (.dm sampleDM (some [6]) .works (some 12)), .host (.epoch 1)]

/-- terminal 1 looks bob up -/
def ownerLine : DeskEv := .line 1 none "lookup bob@twitter".toList (.carried 8192 false 8192 none) []

/-- what the new directory of the default server says about bob, and that the messages fit -/
theorem owner_dir : ∃ srv, newServer Crypto.toy hostConf.core (some [3]) (some [4]) = some srv ∧
    (∃ r, srv.dir.keyLookup Crypto.toy ⟨ascii "bob@twitter"⟩ = some r ∧ r.error = ReqNameNotFound) ∧
    AllFit Crypto.toy srv.dir [.dir (.register (some [6]) ⟨ascii "bob@twitter", [1, 2]⟩), .dir .update, .lookup (ascii "bob@twitter") none] = true := by
  obtain ⟨srv, hsrv⟩ := hostConf_server
  refine ⟨srv, hsrv, ?_⟩
  have hd : dirAfter Crypto.toy 60 [1] [2] 10 [3] [4] [] = some (srv.dir, [srv.dir.pad.latest]) := by
    unfold newServer at hsrv
    obtain ⟨d0, h0, h1⟩ := Option.map_eq_some_iff.mp hsrv
    have h0' : newDirectory Crypto.toy 60 [2] [1] 10 true (some [3]) (some [4]) = some d0 := h0
    have e : srv.dir = d0 := by rw [← h1]
    rw [e]
    simp only [dirAfter, h0', Option.bind_some, Directory.runLog]
  have h : ((dirAfter Crypto.toy 60 [1] [2] 10 [3] [4] []).map fun x =>
      (AllFit Crypto.toy x.1 [.dir (.register (some [6]) ⟨ascii "bob@twitter", [1, 2]⟩), .dir .update, .lookup (ascii "bob@twitter") none],
        (x.1.step Crypto.toy (.keyLookup ⟨ascii "bob@twitter"⟩)).map fun y => y.2.map Response.error)) = some (true, some (some ReqNameNotFound)) := by
    rw [dirAfterE_eq]; simp only [AllFit, SesOp.dirOp, stepE_eq]; decide +kernel
  rw [hd, Option.map_some] at h
  have h := Option.some.inj h
  simp only [Prod.mk.injEq] at h
  refine ⟨?_, h.1⟩
  obtain ⟨y, hy, e⟩ := Option.map_eq_some_iff.mp h.2
  simp only [Directory.step] at hy
  obtain ⟨r, hr, rfl⟩ := Option.map_eq_some_iff.mp hy
  exact ⟨r, hr, Option.some.inj e⟩

/-- `C91_served` and, in the same history, `C91_found` and `C91_owner`: the lookup finds bob's name, and the only key shown for it is bob's -/
example : ∃ (srv : Server) (D₁ D D' : Desk), newServer Crypto.toy hostConf.core (some [3]) (some [4]) = some srv ∧
    (freshDesk (fun _ => false) (deskTerms srv.dir.latestSTR)).run Crypto.toy asciiText sampleMachine [] hostBot [.host (.create [ascii "x"])] = some D₁ ∧
    D₁.run Crypto.toy asciiText sampleMachine [] hostBot (.host (.run 1 hostConf (some [3]) (some [4])) :: ownerHistory srv.dir.latestSTR) = some D ∧
    D.step Crypto.toy asciiText sampleMachine [] hostBot ownerLine = some D' ∧
    (D'.terms 1).printed = [(false, ascii "[+] Found! Key bound to name is: []")] ∧
    (∃ m ∈ directMessages (machineEvents (ownerHistory srv.dir.latestSTR)), ∃ key, Asks asciiText m.sender m.text (ascii "bob@twitter") key) ∧
    ∃ d, D.host.server 1 = some ⟨d, sampleEntries⟩ ∧ ∀ resp, d.keyLookup Crypto.toy ⟨ascii "bob@twitter"⟩ = some resp → ∀ key ∈ keysShown resp, key = [1, 2] := by
  obtain ⟨srv, hsrv, ⟨r, hfree, hfree'⟩, hfit⟩ := owner_dir
  let D₁ : Desk := ⟨⟨(booted fun _ => false).step sampleMachine (.create [ascii "x"]), fun _ => none⟩, deskTerms srv.dir.latestSTR⟩
  have h₁ : (freshDesk (fun _ => false) (deskTerms srv.dir.latestSTR)).run Crypto.toy asciiText sampleMachine [] hostBot [.host (.create [ascii "x"])] = some D₁ := rfl
  have hnode := created_elsewhere (fun _ => false) [ascii "x"] coniksSock (by decide +kernel) rfl
  have hst : (D₁.host.os.start sampleMachine 1 hostConf.addresses).2 = true :=
    sample_start ((booted fun _ => false).step sampleMachine (.create [ascii "x"])) 1 hnode rfl
  have hi : Idle D₁.host.os 1 := fun _ h => nomatch h
  have ask := default_asks sampleMachine (ascii "/s/server.pem") (ascii "/s/server.key") (by decide +kernel) (by decide +kernel) (by decide +kernel) rfl
  have hplace : locate [] hostBot.coniksAddress = coniksSock := default_place []
  have hnd : (hostConf.addresses.map AddressToml.ptr).Nodup := (by decide : [0, 1].Nodup)
  -- the machine just after the start
  obtain ⟨D₂, hr2, o2, v2, t2⟩ := desk_boot Crypto.toy asciiText sampleMachine [] hostBot 1 hostConf [3] [4] srv D₁ hi hst hsrv
  have leave : ∀ p b, b = Bound.unix p → (∀ e ∈ ([] : List OsEv), Leaves p e) ∧ ∀ x ∈ ((booted fun _ => false).run sampleMachine [.create [ascii "x"]]).socks, x.2 ≠ .unix p :=
    fun p b _ => ⟨fun _ h => (nomatch h), fun _ h => (nomatch h)⟩
  obtain ⟨s, p1, p2, p3⟩ := C79_reach sampleMachine (fun _ => false) [.create [ascii "x"]] 1 hostConf.addresses [] hi hst (fun _ h => nomatch h)
    ⟨0, true, [], [], ascii "unix:///tmp/coniks.sock"⟩ (.head _) (.unix coniksSock) (ask _ (.head _)) (ascii "unix:///tmp/coniks.sock")
    ⟨_, default_unix, rfl, by decide +kernel, default_place _⟩ (fun p hp => leave p _ hp)
  obtain ⟨s', q1, q2, q3⟩ := C79_reach sampleMachine (fun _ => false) [.create [ascii "x"]] 1 hostConf.addresses [] hi hst (fun _ h => nomatch h)
    ⟨1, false, ascii "/s/server.pem", ascii "/s/server.key", ascii "tcp://0.0.0.0:3000"⟩ (.tail _ (.head _)) (.tcp ⟨none, 3000⟩) (ask _ (.tail _ (.head _))) (ascii "tcp://127.0.0.1:3000")
    ⟨_, _, default_client, rfl, (by decide +kernel : _ = some ⟨some [127, 0, 0, 1], 3000⟩), rfl, by decide, .inl rfl⟩ (fun p hp => nomatch hp)
  have hos : D₂.host.os = (booted fun _ => false).run sampleMachine ([.create [ascii "x"]] ++ .start 1 hostConf.addresses :: []) := o2
  rw [← hos] at p1 q1
  have hsock : D₂.host.os.dialUnix { sampleMachine with cwd := [] } hostBot.coniksAddress = some s := by
    unfold Os.dial at p1
    rw [default_unix] at p1
    simp only at p1
    rw [if_neg schemes_differ.symm, if_pos trivial] at p1
    rw [← p1]
    unfold Os.dialUnix
    rw [show locate ({ sampleMachine with cwd := [] } : Machine).cwd hostBot.coniksAddress = coniksSock from default_place _,
      show locate sampleMachine.cwd (ascii "/tmp/coniks.sock") = coniksSock from default_place _]
    rfl
  have hsch : (parseUrl (ownerClient srv.dir.latestSTR).address).map Url.scheme = some (ascii "tcp") := by
    rw [show parseUrl (ownerClient srv.dir.latestSTR).address = _ from default_client]; rfl
  have htext : sampleDM.text = messagePrefix ++ sampleDM.text.drop messagePrefix.length := by decide +kernel
  have hlen : (sampleDM.text.drop messagePrefix.length).length ≤ 8192 := by decide +kernel
  have hown : asciiText.equalFold sampleDM.sender hostBot.handle = false := by decide +kernel
  have hv : vrfOk Crypto.toy hostConf.vrfKey (ascii "bob@twitter") = true := by decide +kernel
  have hcmd : command (fields "lookup bob@twitter".toList) = .lookup (ascii "bob@twitter") := by decide +kernel
  have hT : Transfer.Perfect (.carried 8192 false 8192 none) := ⟨by decide, rfl, by decide, rfl⟩
  obtain ⟨D', hrun, hline⟩ := C91_served Crypto.toy asciiText sampleMachine [] hostBot [] 1
    hostConf [3] [4] srv D₁ D₂ hi hst hsrv hr2 (fun _ h => nomatch h) hnd (by decide) s hsock p2 ⟨0, true, [], [], ascii "unix:///tmp/coniks.sock"⟩ (.head _)
    p3.symm rfl (ownerClient srv.dir.latestSTR) (.inl hsch) s' q1 q2
    ⟨1, false, ascii "/s/server.pem", ascii "/s/server.key", ascii "tcp://0.0.0.0:3000"⟩ (.tail _ (.head _)) q3.symm srv.dir v2 rfl rfl
    sampleDM _ htext hown hlen (ascii "bob@twitter") [1, 2] [6] sampleDM_asks (by decide) r hfree hfree' hv 1 false (some 12) none "lookup bob@twitter".toList hcmd
    (.carried 8192 false 8192 none) hT [] hfit
  rw [show [DeskEv.opened 1 (ownerClient srv.dir.latestSTR) false, .host (.dm sampleDM (some [6]) .works (some 12)), .host (.epoch 1),
      .line 1 none "lookup bob@twitter".toList (.carried 8192 false 8192 none) []] = ownerHistory srv.dir.latestSTR ++ [ownerLine] from rfl, desk_run_append] at hrun
  obtain ⟨D, hrD, hlast⟩ := Option.bind_eq_some_iff.mp hrun
  simp only [Desk.run] at hlast
  obtain ⟨D'', hlast, hx⟩ := Option.bind_eq_some_iff.mp hlast
  cases hx
  have hr : D₁.run Crypto.toy asciiText sampleMachine [] hostBot (.host (.run 1 hostConf (some [3]) (some [4])) :: ownerHistory srv.dir.latestSTR) = some D := by
    rw [show (DeskEv.host (.run 1 hostConf (some [3]) (some [4])) :: ownerHistory srv.dir.latestSTR) =
      [.host (.run 1 hostConf (some [3]) (some [4]))] ++ ownerHistory srv.dir.latestSTR from rfl, desk_run_append, hr2, Option.bind_some]
    exact hrD
  have hsp : ∀ e, .host e ∈ ownerHistory srv.dir.latestSTR → SparesProc 1 e := by
    intro e he
    simp only [ownerHistory, List.mem_cons, List.not_mem_nil, or_false, reduceCtorEq, false_or, DeskEv.host.injEq] at he
    rcases he with rfl | rfl <;> exact trivial
  have reads : ∀ n k, Asks asciiText sampleDM.sender sampleDM.text n k → n = ascii "bob@twitter" ∧ k = [1, 2] := by
    intro n k ha
    obtain ⟨hu, _⟩ := (asks_iff _ _ _ _ _).mp ha
    rw [sampleDM_reads] at hu
    cases hu
    exact ⟨rfl, rfl⟩
  have mem : ∀ m ∈ directMessages (machineEvents (ownerHistory srv.dir.latestSTR)), m = sampleDM := by
    intro m hm
    simp only [ownerHistory, machineEvents, directMessages, List.mem_cons, List.not_mem_nil, or_false] at hm
    exact hm
  have only : ∀ b ∈ hostConf.addresses, b.allowRegistration = true → b = ⟨0, true, [], [], ascii "unix:///tmp/coniks.sock"⟩ := by
    intro b hb hal
    rcases List.mem_cons.mp hb with rfl | hb
    · rfl
    · rw [List.mem_singleton.mp hb] at hal; cases hal
  have far : ¬ LeadsTo sampleMachine (ascii "tcp://127.0.0.1:3000") (.unix (locate [] hostBot.coniksAddress)) := by
    rintro ⟨u, hu, hs, _⟩
    rw [default_client] at hu
    cases hu
    exact schemes_differ hs
  have hbot : BotOnly sampleMachine (locate [] hostBot.coniksAddress) D₁ (ownerHistory srv.dir.latestSTR) := by
    refine ⟨?_, fun u => far, ?_⟩
    · intro a rnd c hm
      simp [ownerHistory] at hm
    · intro u k debug hm
      simp only [ownerHistory, List.mem_cons, List.not_mem_nil, or_false, reduceCtorEq, DeskEv.opened.injEq] at hm
      rw [hm.2.1]
      exact far
  have hask : AsksFor sampleMachine ⟨0, true, [], [], ascii "unix:///tmp/coniks.sock"⟩ (.unix (locate [] hostBot.coniksAddress)) := by
    rw [hplace]; exact ask _ (.head _)
  have hlt : deskEpochs (ownerHistory srv.dir.latestSTR) < 2 ^ 64 := by
    simp only [ownerHistory, deskEpochs]; decide
  have hns : ∀ m ∈ directMessages (machineEvents (ownerHistory srv.dir.latestSTR)), ∀ n k, Asks asciiText m.sender m.text n k → n ∈ [ascii "bob@twitter"] := by
    intro m hm n k ha
    rw [mem m hm] at ha
    rw [(reads n k ha).1]; exact .head _
  have inj : IndexInj (fun x => (Crypto.toy.vrfProve hostConf.vrfKey x).1) [ascii "bob@twitter", ascii "bob@twitter"] := by
    intro a ha b hb _
    have : ∀ x ∈ [ascii "bob@twitter", ascii "bob@twitter"], x = ascii "bob@twitter" := by simp
    rw [this a ha, this b hb]
  have hterm : D.terms 1 = ⟨⟨[], ascii "tcp://127.0.0.1:3000"⟩, ⟨newAudState (Crypto.toy.signPub [1]) srv.dir.latestSTR, fun _ => none, true, fun _ => none⟩, false, false, []⟩ := by
    have h3 := hrD
    rw [show ownerHistory srv.dir.latestSTR = [.opened 1 (ownerClient srv.dir.latestSTR) false] ++
      [.host (.dm sampleDM (some [6]) .works (some 12)), .host (.epoch 1)] from rfl, desk_run_append] at h3
    obtain ⟨D₄, h4, h5⟩ := Option.bind_eq_some_iff.mp h3
    have h4' : some (D₂.put 1 ⟨⟨[], ascii "tcp://127.0.0.1:3000"⟩,
      ⟨newAudState (Crypto.toy.signPub [1]) srv.dir.latestSTR, fun _ => none, true, fun _ => none⟩, false, false, []⟩) = some D₄ := h4
    simp only [Desk.run, Desk.step] at h5
    obtain ⟨D₅, h5, h6⟩ := Option.bind_eq_some_iff.mp h5
    obtain ⟨D₆, h6, h7⟩ := Option.bind_eq_some_iff.mp h6
    obtain ⟨_, _, rfl⟩ := Option.map_eq_some_iff.mp h5
    obtain ⟨_, _, rfl⟩ := Option.map_eq_some_iff.mp h6
    cases h7
    show D₄.terms 1 = _
    rw [← Option.some.inj h4']
    exact desk_put_same _ _ _
  have hlook : AnswersAt sampleMachine D₁.host.os (D.terms 1).conf.address ⟨1, false, ascii "/s/server.pem", ascii "/s/server.key", ascii "tcp://0.0.0.0:3000"⟩
      (ownerHistory srv.dir.latestSTR) := by
    rw [hterm]
    exact ⟨.tcp ⟨none, 3000⟩, ask _ (.tail _ (.head _)),
      ⟨_, _, default_client, rfl, (by decide +kernel : _ = some ⟨some [127, 0, 0, 1], 3000⟩), rfl, by decide, .inl rfl⟩, fun p hp => nomatch hp⟩
  have hfound : (D'.terms 1).printed = (D.terms 1).printed ++ [(false, ascii "[+] Found!" ++ ascii " Key bound to name is: []")] := by
    rw [hline, hterm, show ascii "[+] Found!" ++ ascii " Key bound to name is: []" = ascii "[+] Found! Key bound to name is: []" by decide +kernel]
    rfl
  refine ⟨srv, D₁, D, D', hsrv, h₁, hr, hlast, hline, ?_, ?_⟩
  · exact C91_found Crypto.toy asciiText sampleMachine [] hostBot (fun _ => false) (deskTerms srv.dir.latestSTR) [.host (.create [ascii "x"])]
      (ownerHistory srv.dir.latestSTR) 1 hostConf [3] [4] srv D₁ D D' h₁ hi hst hsrv hr hsp hnd _ (.head _) hask only hbot hlt (ascii "bob@twitter") [ascii "bob@twitter"]
      hns inj 1 none "lookup bob@twitter".toList (.carried 8192 false 8192 none) [] hcmd _ (.tail _ (.head _)) hlook hlast false _ hfound
  · obtain ⟨d, g1, g2⟩ := C91_owner Crypto.toy asciiText sampleMachine [] hostBot (fun _ => false) (deskTerms srv.dir.latestSTR) [.host (.create [ascii "x"])]
      (ownerHistory srv.dir.latestSTR) 1 hostConf [3] [4] srv D₁ D h₁ hi hst hsrv hr hsp hnd _ (.head _) hask only hbot hlt (ascii "bob@twitter") [ascii "bob@twitter"]
      hns inj (.keyLookup ⟨ascii "bob@twitter"⟩) rfl (fun _ _ e => by cases e)
    refine ⟨d, g1, ?_⟩
    intro resp hl key hkey
    obtain ⟨m, hm, ha⟩ := g2 d resp (by simp [Directory.step, hl]) key hkey
    rw [mem m hm] at ha
    exact (reads _ _ ha).2

end Coniks.Props

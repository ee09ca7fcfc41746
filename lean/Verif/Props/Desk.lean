import Verif.Proofs.Desk
import Verif.Proofs.Mitm
/-
C89: a client program on a machine with key servers, a bot and other client programs.
-/
namespace Coniks.Props
open Coniks Spec Json

/-- C89. A client program on a machine. Process `pid` is started as a key server with configuration `k` at some moment of any history; some time later
(`evs₂`) a client program `u` is open; then anything happens (`evs₃`): lines at all terminals, other programs started and ended, other servers coming and going, files
removed, connections, direct messages to the bot, epochs, policies. If the two addresses of the program's configuration are answered by entries `a` and `b` of `k`, then as
long as the process runs, what the program prints and what it believes is exactly what it would in a session alone with the directory of that process (`replOver`, to which
C64, C82 and C32 to C38 apply), in which its lines and the epochs and policies of the process are in their places and everything else is a registration that
somebody asks for, or nothing. -/
theorem C89_session (C : Crypto) (X : Text) (M : Machine) (cwd : Place) (c : TwitterConfig) (files : Place → Bool) (terms : Nat → Terminal)
    (evs₁ evs₂ evs₃ : List DeskEv) (pid : Nat) (k : ServerConf) (r₁ r₂ : Bytes) (srv : Server) (D₁ D₂ D : Desk)
    (h₁ : (freshDesk files terms).run C X M cwd c evs₁ = some D₁) (hi : Idle D₁.host.os pid) (hok : (D₁.host.os.start M pid k.addresses).2 = true)
    (hnew : newServer C k.core (some r₁) (some r₂) = some srv)
    (h₂ : D₁.run C X M cwd c (.host (.run pid k (some r₁) (some r₂)) :: evs₂) = some D₂) (h : D₂.run C X M cwd c evs₃ = some D)
    (hsp : ∀ e, .host e ∈ evs₂ ++ evs₃ → SparesProc pid e)
    (u : Nat) (hu : (D₂.terms u).over = false) (hno : ∀ k debug, .opened u k debug ∉ evs₃) (conf : CliConf) (hconf : (D₂.terms u).conf = conf)
    (ra : Bytes) (hra : ra = conf.regAddress ∧ conf.regAddress ≠ [] ∨ ra = conf.address ∧ conf.regAddress = [])
    (a : AddressToml) (ha : a ∈ k.addresses) (hreg : AnswersAt M D₁.host.os ra a (evs₂ ++ evs₃))
    (b : AddressToml) (hb : b ∈ k.addresses) (hlook : AnswersAt M D₁.host.os conf.address b (evs₂ ++ evs₃))
    (N : Net) (hN : ∀ x, N.scheme x = (parseUrl x).map Url.scheme) (hNa : N.listener ra = a.ptr) (hNb : N.listener conf.address = b.ptr) :
    ∃ ops d₂ log₂ d evs' d' out, D₂.host.server pid = some ⟨d₂, k.addresses⟩ ∧
      dirAfter C k.policiesDeadline k.signKey k.vrfKey k.historyLength r₁ r₂ ops = some (d₂, log₂) ∧ dirUpdates ops = epochsOf pid evs₂ ∧
      D.host.server pid = some ⟨d, k.addresses⟩ ∧ Aligned X u pid evs₃ evs' ∧
      replOver C N conf (permsMap (k.addresses.map fun a => ⟨a.ptr, a.allowRegistration⟩)) d₂ (D₂.terms u).client (D₂.terms u).ts evs' =
        some (d', (D.terms u).client, out) ∧
      (D.terms u).printed = (D₂.terms u).printed ++ out ∧ ((D.terms u).over = false → d' = d) := by
  simp only [Desk.run] at h₂
  obtain ⟨D₁', hs, h₂⟩ := Option.bind_eq_some_iff.mp h₂
  obtain ⟨s1, s2, s3, s4⟩ := desk_start C X M cwd c pid k r₁ r₂ srv D₁ D₁' hi hok hnew hs
  obtain ⟨es₁, o1, _⟩ := desk_run_os C X M cwd c evs₁ _ _ h₁
  have o1' : D₁.host.os = (booted files).run M es₁ := o1
  obtain ⟨d₂, g1, ops, log₂, g2, g3⟩ := desk_grown C X M cwd c pid k.addresses evs₂ D₁' D₂ srv.dir 0 ⟨[], _, s4, rfl⟩ s2
    (fun e he => hsp e (List.mem_append_left _ he)) h₂
  have hrc := reg_eq hra
  subst hrc
  have reach : ∀ pre suf D₃, evs₃ = pre ++ suf → D₂.run C X M cwd c pre = some D₃ → Reaches M N conf pid D₃.host.os := by
    intro pre suf D₃ he h₃
    have hrun : D₁'.run C X M cwd c (evs₂ ++ pre) = some D₃ := by rw [desk_run_append, h₂]; exact h₃
    obtain ⟨es, k1, k2, k3⟩ := desk_run_os C X M cwd c _ _ _ hrun
    have sub : ∀ x, x ∈ evs₂ ++ pre → x ∈ evs₂ ++ evs₃ := by
      intro x hx
      rw [he]
      rcases List.mem_append.mp hx with h | h
      · exact List.mem_append_left _ h
      · exact List.mem_append_right _ (List.mem_append_left _ h)
    have hos : D₃.host.os = (booted files).run M (es₁ ++ .start pid k.addresses :: es) := by
      rw [k1, s1, o1', ← os_run_cons]
      unfold Os.run
      rw [List.foldl_append]
    have one : ∀ (x : Bytes) (e : AddressToml), e ∈ k.addresses → AnswersAt M D₁.host.os x e (evs₂ ++ evs₃) →
        ∃ s, D₃.host.os.dial M x = some s ∧ s.pid = pid ∧ s.ptr = e.ptr := by
      intro x e hmem ⟨b, q1, q2, q3⟩
      rw [hos]
      refine C79_reach M files es₁ pid k.addresses es (o1' ▸ hi) (o1' ▸ hok) (k2 pid fun e he => hsp e (sub _ he)) e hmem b q1 x q2 fun p hp => ⟨?_, ?_⟩
      · exact k3 p fun hm => (q3 p hp).1 (sub _ hm)
      · rw [← o1']; exact (q3 p hp).2
    obtain ⟨s, p1, p2, p3⟩ := one _ a ha hreg
    obtain ⟨s', p1', p2', p3'⟩ := one _ b hb hlook
    exact ⟨⟨s, p1, p2, hNa.trans p3.symm⟩, ⟨s', p1', p2', hNb.trans p3'.symm⟩⟩
  obtain ⟨d, evs', m1, _, m3, _, m5⟩ := desk_follow C X M cwd c u pid k.addresses conf N (funext hN) evs₃ D₂ D d₂ ⟨ops, log₂, g2⟩ g1
    (fun e he => hsp e (List.mem_append_right _ he)) hno hconf reach h
  obtain ⟨d', out, n1, n2, n3⟩ := m5 hu
  exact ⟨ops, d₂, log₂, d, evs', d', out, g1, g2, by rw [g3, Nat.zero_add], m1, m3, n1, n2, n3⟩

/-- the session without the failed commands has no more epochs -/
theorem faulty_updates {ts : Bool} {evs : List NetEvent} {out : List (Bool × Bytes)} {evs' : List ReplEvent} {out' : List (Bool × Bytes)}
    (h : Faulty ts evs out evs' out') : dirUpdates ((sesOps evs').map SesOp.dirOp) ≤ netUpdates evs := by
  induction h with
  | nil => exact Nat.le_refl _
  | @dir ts op evs out evs' out' _ ih =>
    cases op with
    | update => exact Nat.succ_le_succ ih
    | _ => exact ih
  | ended => exact Nat.zero_le _
  | @exit ts rnd l T evs p hc =>
    simp only [sesOps, hc]
    exact Nat.zero_le _
  | @worked ts rnd l T evs out evs' out' x hc _ ih =>
    rcases hc with ⟨n, k, hc⟩ | ⟨n, hc⟩
    · simp only [sesOps, hc, List.map_cons]; exact ih
    · simp only [sesOps, hc, List.map_cons]; exact ih
  | @«local» ts rnd l T evs out evs' out' p ts' h1 h2 _ _ ih =>
    cases hc : command (fields l) with
    | register n k => exact absurd hc (h1 n k)
    | lookup n => exact absurd hc (h2 n)
    | exit => simp only [sesOps, hc]; exact Nat.zero_le _
    | _ => simp only [sesOps, hc]; exact ih
  | lost _ _ _ ih => exact ih
  | unheard _ _ _ ih => exact ih

theorem epochsOf_append (pid : Nat) : ∀ (es es' : List DeskEv), epochsOf pid (es ++ es') = epochsOf pid es + epochsOf pid es'
  | [], es' => by simp [epochsOf]
  | e :: es, es' => by rw [List.cons_append, epochsOf_cons, epochsOf_append pid es es', epochsOf_cons pid e es, Nat.add_assoc]

/-- C89 with C64 and C82. What a client program prints on a machine. As `C89_session`; the program was opened with the server's initial STR and key (as the
files that `coniksserver init` writes say, C59), and no command has been given yet. Then everything it prints from then on is, besides the lines of commands that the
network made fail, what `exactLines` computes from the index-keyed directory alone, in the session of `Aligned`: for messages that fit and fewer than 2^64
epochs. `ops`: the history of the directory until then. -/
theorem C89_lines (C : Crypto) (X : Text) (M : Machine) (cwd : Place) (c : TwitterConfig) (files : Place → Bool) (terms : Nat → Terminal)
    (evs₁ evs₂ evs₃ : List DeskEv) (pid : Nat) (k : ServerConf) (r₁ r₂ : Bytes) (srv : Server) (D₁ D₂ D : Desk)
    (h₁ : (freshDesk files terms).run C X M cwd c evs₁ = some D₁) (hi : Idle D₁.host.os pid) (hok : (D₁.host.os.start M pid k.addresses).2 = true)
    (hnew : newServer C k.core (some r₁) (some r₂) = some srv)
    (h₂ : D₁.run C X M cwd c (.host (.run pid k (some r₁) (some r₂)) :: evs₂) = some D₂) (h : D₂.run C X M cwd c evs₃ = some D)
    (hsp : ∀ e, .host e ∈ evs₂ ++ evs₃ → SparesProc pid e) (hlt : epochsOf pid (evs₂ ++ evs₃) < 2 ^ 64) (hnd : (k.addresses.map AddressToml.ptr).Nodup)
    (u : Nat) (hu : (D₂.terms u).over = false) (hno : ∀ k debug, .opened u k debug ∉ evs₃)
    (hcc : newClient srv.dir.latestSTR true (C.signPub k.signKey) = some (D₂.terms u).client) (conf : CliConf) (hconf : (D₂.terms u).conf = conf)
    (ra : Bytes) (hra : ra = conf.regAddress ∧ conf.regAddress ≠ [] ∨ ra = conf.address ∧ conf.regAddress = [])
    (a : AddressToml) (ha : a ∈ k.addresses) (hal : a.allowRegistration = true) (hreg : AnswersAt M D₁.host.os ra a (evs₂ ++ evs₃))
    (b : AddressToml) (hb : b ∈ k.addresses) (hlook : AnswersAt M D₁.host.os conf.address b (evs₂ ++ evs₃)) :
    ∃ ops d₂ log₂ evs' out evs'' out', dirAfter C k.policiesDeadline k.signKey k.vrfKey k.historyLength r₁ r₂ ops = some (d₂, log₂) ∧
      D₂.host.server pid = some ⟨d₂, k.addresses⟩ ∧ Aligned X u pid evs₃ evs' ∧ (D.terms u).printed = (D₂.terms u).printed ++ out ∧
      Faulty (D₂.terms u).ts evs' out evs'' out' ∧
      (AllFit C d₂ (sesOps evs'') = true →
        exactLines (fun n => (C.vrfProve k.vrfKey n).1) C.hash (vrfOk C k.vrfKey)
          ⟨exactAfter (fun n => (C.vrfProve k.vrfKey n).1) C.hash ops, dirUpdates ops, fun _ => none⟩ (D₂.terms u).ts evs'' = some out') := by
  have usable : ∀ x e, AnswersAt M D₁.host.os x e (evs₂ ++ evs₃) →
      (parseUrl x).map Url.scheme = some (ascii "tcp") ∨ (parseUrl x).map Url.scheme = some (ascii "unix") := by
    intro x e ⟨b, _, q2, _⟩
    cases b with
    | tcp e => obtain ⟨w, _, hw, hs, _⟩ := q2; left; rw [hw, ← hs]; rfl
    | unix p => obtain ⟨w, hw, hs, _⟩ := q2; right; rw [hw, ← hs]; rfl
    | hidden => exact q2.elim
  have same : ra = conf.address → a.ptr = b.ptr := by
    intro e
    subst e
    obtain ⟨es₁, o1, _⟩ := desk_run_os C X M cwd c evs₁ _ _ h₁
    have o1' : D₁.host.os = (booted files).run M es₁ := o1
    have one : ∀ (e : AddressToml), e ∈ k.addresses → AnswersAt M D₁.host.os conf.address e (evs₂ ++ evs₃) →
        ∃ s, ((booted files).run M (es₁ ++ .start pid k.addresses :: [])).dial M conf.address = some s ∧ s.pid = pid ∧ s.ptr = e.ptr := by
      intro e hmem ⟨b, q1, q2, q3⟩
      exact C79_reach M files es₁ pid k.addresses [] (o1' ▸ hi) (o1' ▸ hok) (fun _ h => (nomatch h)) e hmem b q1 _ q2 fun p hp => ⟨fun _ h => (nomatch h), by
        rw [← o1']; exact (q3 p hp).2⟩
    obtain ⟨s, p1, _, p3⟩ := one a ha hreg
    obtain ⟨s', p1', _, p3'⟩ := one b hb hlook
    rw [p1] at p1'
    cases p1'
    exact p3.symm.trans p3'
  let N : Net := ⟨fun x => (parseUrl x).map Url.scheme, fun x => if x = ra then a.ptr else b.ptr⟩
  have hNa : N.listener ra = a.ptr := if_pos rfl
  have hNb : N.listener conf.address = b.ptr := by
    show (if conf.address = ra then a.ptr else b.ptr) = b.ptr
    split
    · rename_i e; exact same e.symm
    · rfl
  obtain ⟨ops, d₂, log₂, d, evs', d', out, g1, g2, g3, g4, g5, g6, g7, g8⟩ := C89_session C X M cwd c files terms evs₁ evs₂ evs₃ pid k r₁ r₂ srv D₁ D₂ D h₁ hi
    hok hnew h₂ h hsp u hu hno conf hconf ra hra a ha hreg b hb hlook N (fun _ => rfl) hNa hNb
  have hd₀ : dirAfter C k.policiesDeadline k.signKey k.vrfKey k.historyLength r₁ r₂ [] = some (srv.dir, [srv.dir.pad.latest]) := by
    simp only [Desk.run] at h₂
    obtain ⟨D₁', hs, _⟩ := Option.bind_eq_some_iff.mp h₂
    exact (desk_start C X M cwd c pid k r₁ r₂ srv D₁ D₁' hi hok hnew hs).2.2.2
  obtain ⟨ext, hext⟩ := dirAfter_prefix C _ _ _ _ r₁ r₂ [] ops d₂ log₂ g2 _ _ hd₀
  have hnd' : ((k.addresses.map fun a => (⟨a.ptr, a.allowRegistration⟩ : Address)).map Address.ptr).Nodup := by
    rw [List.map_map]; exact hnd
  obtain ⟨evs'', out', f1, f2⟩ := C82_lines C k.policiesDeadline k.signKey k.vrfKey k.historyLength r₁ r₂ ops evs' d₂ log₂ g2 0 srv.dir.pad.latest
    (by rw [hext]; rfl) _ hcc N conf _ hnd' ra hra (usable _ _ hreg) (usable _ _ hlook) ⟨a.ptr, a.allowRegistration⟩
    (List.mem_map_of_mem ha) hNa.symm hal ⟨b.ptr, b.allowRegistration⟩ (List.mem_map_of_mem hb) hNb.symm (D₂.terms u).ts d' _ out g6
  refine ⟨ops, d₂, log₂, evs', out, evs'', out', g2, g1, g5, g7, f1, fun hf => ?_⟩
  refine f2 hf ?_
  have e1 := faulty_updates f1
  rw [aligned_updates g5] at e1
  have e2 := epochsOf_append pid evs₂ evs₃
  rw [dirUpdates_append, g3]
  omega

/-- C89. Nothing that happens on the machine crashes the server processes, the bot or a client program: every history with fewer than 2^64 epochs goes through, if
the addresses in the configurations of the client programs can be read. -/
theorem C89_no_crash (C : Crypto) (X : Text) (M : Machine) (cwd : Place) (c : TwitterConfig) (files : Place → Bool) (terms : Nat → Terminal) (evs : List DeskEv)
    (hlt : deskEpochs evs < 2 ^ 64)
    (hc : ∀ u ra, (ra = (terms u).conf.regAddress ∧ (terms u).conf.regAddress ≠ [] ∨ ra = (terms u).conf.address) → parseUrl ra ≠ none)
    (ho : ∀ u k debug, .opened u k debug ∈ evs → ∀ ra, (ra = k.regAddress ∧ k.regAddress ≠ [] ∨ ra = k.address) → parseUrl ra ≠ none) :
    ∃ D, (freshDesk files terms).run C X M cwd c evs = some D := by
  have good : ∀ conf : CliConf, (∀ ra, (ra = conf.regAddress ∧ conf.regAddress ≠ [] ∨ ra = conf.address) → parseUrl ra ≠ none) → GoodConf conf := by
    intro conf h
    refine ⟨?_, h _ (.inr rfl)⟩
    unfold CliConf.reg
    split
    · exact h _ (.inr rfl)
    · rename_i e; exact h _ (.inl ⟨rfl, e⟩)
  exact desk_lives C X M cwd c evs (freshDesk files terms) 0 (by omega) (fun pid r hr => nomatch hr) (fun u => good _ (hc u))
    fun u k b hm => good _ (ho u k b hm)

/-- C89. COUNTEREXAMPLE to the same without the condition on addresses: a client program whose address is not a URL that Go can read starts (C69 says when), and the
first lookup crashes it, whatever is up. -/
theorem C89_bad_address_counterexample (C : Crypto) (X : Text) (M : Machine) (cwd : Place) (c : TwitterConfig) (D : Desk) (u : Nat) (k : ClientConf)
    (debug : Bool) (hbad : parseUrl k.address = none) (rnd : Option Bytes) (l : List Char) (n : Bytes) (hl : command (fields l) = .lookup n) (T : Transfer)
    (refused : Bytes) :
    (∃ D', D.run C X M cwd c [.opened u k debug] = some D') ∧ Panics (D.run C X M cwd c [.opened u k debug, .line u rnd l T refused]) := by
  refine ⟨⟨_, rfl⟩, ?_⟩
  have ht : ∀ t, (D.put u t).terms u = t := fun t => if_pos rfl
  have hdial : D.host.os.dial M k.address = none := by unfold Os.dial; rw [hbad]
  have hans : D.host.answering M k.address = none := by unfold Host.answering; rw [hdial]; rfl
  have hr : ∀ (o : Os), refusal (o.net M 0) k.address refused = none := by
    intro o
    unfold refusal Net.usable
    rw [show (o.net M 0).scheme k.address = none from by show (parseUrl k.address).map Url.scheme = none; rw [hbad]; rfl]
    rfl
  show (D.put u ⟨⟨k.regAddress, k.address⟩, _, debug, false, []⟩).run C X M cwd c [.line u rnd l T refused] = none
  simp only [Desk.run, Desk.step, Desk.type, ht, hl]
  rw [if_neg Bool.false_ne_true]
  rw [show (D.put u ⟨⟨k.regAddress, k.address⟩, _, debug, false, []⟩).host = D.host from rfl, hans, hr]
  rfl

/-- C89. When no server runs, a command for the server prints that it could not be answered, and changes nothing: no directory, no client, no other terminal. -/
theorem C89_down (C : Crypto) (X : Text) (M : Machine) (cwd : Place) (c : TwitterConfig) (D : Desk) (hnone : ∀ pid, D.host.server pid = none)
    (u : Nat) (hu : (D.terms u).over = false) (rnd : Option Bytes) (l : List Char) (T : Transfer) (refused ra : Bytes)
    (hl : (∃ n k, command (fields l) = .register n k ∧
        (ra = (D.terms u).conf.regAddress ∧ (D.terms u).conf.regAddress ≠ [] ∨ ra = (D.terms u).conf.address ∧ (D.terms u).conf.regAddress = [])) ∨
      ∃ n, command (fields l) = .lookup n ∧ ra = (D.terms u).conf.address)
    (hs : (parseUrl ra).map Url.scheme = some (ascii "tcp") ∨ (parseUrl ra).map Url.scheme = some (ascii "unix")) :
    ∃ D', D.step C X M cwd c (.line u rnd l T refused) = some D' ∧ D'.host = D.host ∧ (∀ v, v ≠ u → D'.terms v = D.terms v) ∧
      (D'.terms u).client = (D.terms u).client ∧ (D'.terms u).over = false ∧
      (D'.terms u).printed = (D.terms u).printed ++ [((D.terms u).ts, ascii "[+] Error while receiving response: " ++ refused)] := by
  have hans : ∀ x, D.host.answering M x = none := by
    intro x
    unfold Host.answering
    cases D.host.os.dial M x with
    | none => rfl
    | some s => rw [Option.bind_some, hnone]; rfl
  have hr : refusal (D.host.os.net M 0) ra refused = some (ascii "Error while receiving response: " ++ refused) := by
    unfold refusal
    rw [usable_true (N := D.host.os.net M 0) (a := ra) hs]
    rfl
  have htext : ascii "[+] " ++ (ascii "Error while receiving response: " ++ refused) = ascii "[+] Error while receiving response: " ++ refused := by
    rw [← List.append_assoc]
    exact congrArg (· ++ refused) (by decide +kernel)
  have ht : ∀ t, (D.put u t).terms u = t := fun t => if_pos rfl
  have hv : ∀ t v, v ≠ u → (D.put u t).terms v = D.terms v := fun t v h => if_neg h
  have done : ∀ D', D' = D.put u { D.terms u with printed := (D.terms u).printed ++ [((D.terms u).ts, ascii "[+] Error while receiving response: " ++ refused)] } →
      D'.host = D.host ∧ (∀ v, v ≠ u → D'.terms v = D.terms v) ∧ (D'.terms u).client = (D.terms u).client ∧ (D'.terms u).over = false ∧
      (D'.terms u).printed = (D.terms u).printed ++ [((D.terms u).ts, ascii "[+] Error while receiving response: " ++ refused)] := by
    rintro D' rfl
    rw [ht]
    exact ⟨rfl, hv _, rfl, hu, rfl⟩
  refine ⟨_, ?_, done _ rfl⟩
  rcases hl with ⟨n, k, hl, hra⟩ | ⟨n, hl, rfl⟩
  · have := reg_eq hra
    subst this
    simp only [Desk.step, Desk.type, hu, hl, Bool.false_eq_true, if_false, hans, hr, Option.map_some, htext]
  · simp only [Desk.step, Desk.type, hu, hl, Bool.false_eq_true, if_false, hans, hr, Option.map_some, htext]

/-- This event happens at terminal `u`. -/
def AtTerminal (u : Nat) : DeskEv → Prop
  | .opened v _ _ => v = u
  | .line v _ _ _ _ => v = u
  | .ended v _ => v = u
  | .host _ => False

/-- C89. Nothing that happens elsewhere changes a client program: its bindings, its promises, the STR it holds, and what it has printed. -/
theorem C89_private (C : Crypto) (X : Text) (M : Machine) (cwd : Place) (c : TwitterConfig) (u : Nat) : ∀ (evs : List DeskEv) (D D' : Desk),
    (∀ e ∈ evs, ¬ AtTerminal u e) → D.run C X M cwd c evs = some D' → D'.terms u = D.terms u
  | [], D, D', _, h => by cases h; rfl
  | e :: evs, D, D', hn, h => by
    simp only [Desk.run] at h
    obtain ⟨D1, hs, h⟩ := Option.bind_eq_some_iff.mp h
    rw [C89_private C X M cwd c u evs D1 D' (fun e he => hn e (.tail _ he)) h]
    have hne : ∀ v, v ≠ u → ∀ (D2 : Desk) t, (D2.put v t).terms u = D2.terms u := fun v hv D2 t => if_neg (fun e => hv e.symm)
    cases e with
    | host e => obtain ⟨h', _, rfl⟩ := Option.map_eq_some_iff.mp hs; rfl
    | opened v k debug =>
      simp only [Desk.step, Desk.open] at hs
      obtain ⟨cc, _, rfl⟩ := Option.map_eq_some_iff.mp hs
      exact hne v (hn _ (.head _)) _ _
    | ended v err =>
      simp only [Desk.step, Option.some.injEq] at hs
      rw [← hs]
      split
      · rfl
      · exact hne v (hn _ (.head _)) _ _
    | line v rnd l T refused =>
      have hv : v ≠ u := hn _ (.head _)
      simp only [Desk.step, Desk.type] at hs
      split at hs
      · cases hs; rfl
      · split at hs
        · split at hs
          · obtain ⟨y, _, rfl⟩ := Option.map_eq_some_iff.mp hs; exact hne v hv _ _
          · obtain ⟨y, _, rfl⟩ := Option.map_eq_some_iff.mp hs; exact hne v hv _ _
        · split at hs
          · obtain ⟨y, _, rfl⟩ := Option.map_eq_some_iff.mp hs; exact hne v hv _ _
          · obtain ⟨y, _, rfl⟩ := Option.map_eq_some_iff.mp hs; exact hne v hv _ _
        · cases hs; exact hne v hv _ _
        · cases hs; exact hne v hv _ _

/-! ### Concrete cases -/

/-- a configuration of a client program on the machine of the default server: it registers through the Unix socket -/
def deskClient (s : DirSTR) : ClientConf :=
  ⟨ascii "/c/config.toml", Crypto.toy.signPub [1], s, ascii "unix:///tmp/coniks.sock", ascii "tcp://127.0.0.1:3000"⟩

/-- terminals at which nothing runs yet -/
def deskTerms (s : DirSTR) : Nat → Terminal := fun _ =>
  ⟨⟨[], ascii "tcp://127.0.0.1:3000"⟩, ⟨newAudState (Crypto.toy.signPub [1]) s, fun _ => none, true, fun _ => none⟩, false, true, []⟩

/-- before the program of terminal 1 is open: bob registers through the bot -/
def deskBefore (s : DirSTR) : List DeskEv := [.host (.dm sampleDM (some [6]) .works (some 12)), .host (.epoch 1), .opened 1 (deskClient s) false]

/-- alice registers at terminal 1, carol at terminal 2; a second server cannot start; an epoch passes; alice looks carol up, once with a cut answer -/
def deskAfter (s : DirSTR) : List DeskEv :=
  [.line 1 (some [7]) "register alice k1".toList (.carried 8192 false 8192 none) [], .opened 2 (deskClient s) true,
   .line 2 (some [8]) "register carol k2".toList (.carried 8192 false 8192 none) [], .host (.run 2 hostConf (some [7]) (some [8])), .host (.epoch 1),
   .line 1 none "lookup carol".toList (.carried 8192 false 3 none) [], .line 1 none "lookup carol".toList (.carried 8192 false 8192 none) [],
   .line 1 none "q".toList (.noDial []) []]

theorem desk_spares (s : DirSTR) : ∀ e, .host e ∈ deskBefore s ++ deskAfter s → SparesProc 1 e := by
  intro e he
  simp only [deskBefore, deskAfter, List.cons_append, List.nil_append, List.mem_cons, List.not_mem_nil, or_false, reduceCtorEq, false_or, DeskEv.host.injEq] at he
  rcases he with rfl | rfl | rfl | rfl
  all_goals first
    | exact trivial
    | exact (by decide : (2 : Nat) ≠ 1)

theorem desk_left (s : DirSTR) (p : Place) : .host (.remove p) ∉ deskBefore s ++ deskAfter s := by
  intro he
  simp [deskBefore, deskAfter] at he

theorem created_elsewhere (files : Place → Bool) (p q : Place) (hp : q ≠ p) (hf : files q = false) :
    ((booted files).step sampleMachine (.create p)).node q = none := by
  show (if q = p ∧ _ then _ else _) = none
  rw [if_neg (fun h : q = p ∧ (booted files).node q = none => hp h.1)]
  show (if files q then _ else none) = none
  rw [hf]
  rfl

theorem desk_newClient (s : DirSTR) (k : Bytes) : newClient s true k = some ⟨newAudState k s, fun _ => none, true, fun _ => none⟩ := rfl

/-- `C89_session`, `C89_lines`, `C89_no_crash`: their hypotheses hold in this history -/
example : ∃ (srv : Server) (D₂ D : Desk), newServer Crypto.toy hostConf.core (some [3]) (some [4]) = some srv ∧
    (freshDesk (fun _ => false) (deskTerms srv.dir.latestSTR)).run Crypto.toy asciiText sampleMachine [] hostBot
      ([.host (.create [ascii "x"])] ++ .host (.run 1 hostConf (some [3]) (some [4])) :: deskBefore srv.dir.latestSTR) = some D₂ ∧
    D₂.run Crypto.toy asciiText sampleMachine [] hostBot (deskAfter srv.dir.latestSTR) = some D ∧
    ∃ ops d₂ log₂ evs' out evs'' out', dirAfter Crypto.toy 60 [1] [2] 10 [3] [4] ops = some (d₂, log₂) ∧
      Aligned asciiText 1 1 (deskAfter srv.dir.latestSTR) evs' ∧ (D.terms 1).printed = out ∧ Faulty false evs' out evs'' out' ∧ netUpdates evs' = 1 := by
  obtain ⟨srv, hsrv⟩ := hostConf_server
  have good : ∀ ra, (ra = (deskClient srv.dir.latestSTR).regAddress ∧ (deskClient srv.dir.latestSTR).regAddress ≠ [] ∨ ra = (deskClient srv.dir.latestSTR).address) →
      parseUrl ra ≠ none := by
    rintro ra (⟨rfl, _⟩ | rfl)
    · rw [show parseUrl (deskClient srv.dir.latestSTR).regAddress = _ from default_unix]; exact fun h => nomatch h
    · rw [show parseUrl (deskClient srv.dir.latestSTR).address = _ from default_client]; exact fun h => nomatch h
  obtain ⟨D, hD⟩ := C89_no_crash Crypto.toy asciiText sampleMachine [] hostBot (fun _ => false) (deskTerms srv.dir.latestSTR)
    (([.host (.create [ascii "x"])] ++ .host (.run 1 hostConf (some [3]) (some [4])) :: deskBefore srv.dir.latestSTR) ++ deskAfter srv.dir.latestSTR) (by
      simp only [deskBefore, deskAfter, List.cons_append, List.nil_append, deskEpochs]; decide) (by
      rintro u ra (⟨_, h⟩ | rfl)
      · exact absurd rfl h
      · rw [show parseUrl (deskTerms srv.dir.latestSTR u).conf.address = _ from default_client]; exact fun h => nomatch h) (by
      intro u k debug hm
      simp only [deskBefore, deskAfter, List.cons_append, List.nil_append, List.mem_cons, List.not_mem_nil, or_false, reduceCtorEq, false_or, DeskEv.opened.injEq] at hm
      rcases hm with ⟨_, rfl, _⟩ | ⟨_, rfl, _⟩
      · exact good
      · exact good)
  rw [desk_run_append] at hD
  obtain ⟨D₂, hD₂, hD⟩ := Option.bind_eq_some_iff.mp hD
  refine ⟨srv, D₂, D, hsrv, hD₂, hD, ?_⟩
  have h₁ : (freshDesk (fun _ => false) (deskTerms srv.dir.latestSTR)).run Crypto.toy asciiText sampleMachine [] hostBot [.host (.create [ascii "x"])] =
    some ⟨⟨(booted fun _ => false).step sampleMachine (.create [ascii "x"]), fun _ => none⟩, deskTerms srv.dir.latestSTR⟩ := rfl
  have h₂ := hD₂
  rw [desk_run_append, h₁, Option.bind_some] at h₂
  have hopen : D₂.terms 1 = ⟨⟨ascii "unix:///tmp/coniks.sock", ascii "tcp://127.0.0.1:3000"⟩,
      ⟨newAudState (Crypto.toy.signPub [1]) srv.dir.latestSTR, fun _ => none, true, fun _ => none⟩, false, false, []⟩ := by
    have h₃ : (_ : Option Desk) = some D₂ := h₂
    rw [show (DeskEv.host (.run 1 hostConf (some [3]) (some [4])) :: deskBefore srv.dir.latestSTR) =
      [.host (.run 1 hostConf (some [3]) (some [4])), .host (.dm sampleDM (some [6]) .works (some 12)), .host (.epoch 1)] ++
        [.opened 1 (deskClient srv.dir.latestSTR) false] from rfl, desk_run_append] at h₃
    obtain ⟨D₄, _, h₄⟩ := Option.bind_eq_some_iff.mp h₃
    have h₅ : some (D₄.put 1 ⟨⟨ascii "unix:///tmp/coniks.sock", ascii "tcp://127.0.0.1:3000"⟩,
      ⟨newAudState (Crypto.toy.signPub [1]) srv.dir.latestSTR, fun _ => none, true, fun _ => none⟩, false, false, []⟩) = some D₂ := h₄
    rw [← Option.some.inj h₅]
    exact desk_put_same _ _ _
  have hnode := created_elsewhere (fun _ => false) [ascii "x"] coniksSock (by decide +kernel) rfl
  have ask := default_asks sampleMachine (ascii "/s/server.pem") (ascii "/s/server.key") (by decide +kernel) (by decide +kernel) (by decide +kernel) rfl
  have hreg : AnswersAt sampleMachine ((booted fun _ => false).step sampleMachine (.create [ascii "x"])) (ascii "unix:///tmp/coniks.sock")
      ⟨0, true, [], [], ascii "unix:///tmp/coniks.sock"⟩ (deskBefore srv.dir.latestSTR ++ deskAfter srv.dir.latestSTR) :=
    ⟨.unix coniksSock, ask _ (.head _), ⟨_, default_unix, rfl, by decide +kernel, default_place _⟩, fun p _ => ⟨desk_left _ p, fun _ h => nomatch h⟩⟩
  have hlook : AnswersAt sampleMachine ((booted fun _ => false).step sampleMachine (.create [ascii "x"])) (ascii "tcp://127.0.0.1:3000")
      ⟨1, false, ascii "/s/server.pem", ascii "/s/server.key", ascii "tcp://0.0.0.0:3000"⟩ (deskBefore srv.dir.latestSTR ++ deskAfter srv.dir.latestSTR) :=
    ⟨.tcp ⟨none, 3000⟩, ask _ (.tail _ (.head _)),
      ⟨_, _, default_client, rfl, (by decide +kernel : _ = some ⟨some [127, 0, 0, 1], 3000⟩), rfl, by decide, .inl rfl⟩, fun p hp => nomatch hp⟩
  have hst := sample_start ((booted fun _ => false).step sampleMachine (.create [ascii "x"])) 1 hnode rfl
  have hcc : newClient srv.dir.latestSTR true (Crypto.toy.signPub hostConf.signKey) = some (D₂.terms 1).client := by rw [hopen]; exact desk_newClient _ _
  have hep : epochsOf 1 (deskBefore srv.dir.latestSTR ++ deskAfter srv.dir.latestSTR) < 2 ^ 64 := by
    simp only [deskBefore, deskAfter, List.cons_append, List.nil_append, epochsOf]; decide
  have hno : ∀ k debug, .opened 1 k debug ∉ deskAfter srv.dir.latestSTR := by
    intro k debug hm
    simp [deskAfter] at hm
  have hover : (D₂.terms 1).over = false := by rw [hopen]
  have hconf : (D₂.terms 1).conf = ⟨ascii "unix:///tmp/coniks.sock", ascii "tcp://127.0.0.1:3000"⟩ := by rw [hopen]
  have hne : ascii "unix:///tmp/coniks.sock" ≠ [] := by decide +kernel
  have hnd : (hostConf.addresses.map AddressToml.ptr).Nodup := (by decide : [0, 1].Nodup)
  have := C89_lines Crypto.toy asciiText sampleMachine [] hostBot (fun _ => false)
    (deskTerms srv.dir.latestSTR) _ (deskBefore srv.dir.latestSTR) (deskAfter srv.dir.latestSTR) 1 hostConf [3] [4] srv _ D₂ D h₁ (fun _ h => nomatch h)
    hst hsrv h₂ hD (desk_spares _) hep hnd 1 hover hno hcc ⟨ascii "unix:///tmp/coniks.sock", ascii "tcp://127.0.0.1:3000"⟩ hconf (ascii "unix:///tmp/coniks.sock") (.inl ⟨rfl, hne⟩)
    ⟨0, true, [], [], ascii "unix:///tmp/coniks.sock"⟩ (.head _) rfl hreg
    ⟨1, false, ascii "/s/server.pem", ascii "/s/server.key", ascii "tcp://0.0.0.0:3000"⟩ (.tail _ (.head _)) hlook
  obtain ⟨ops, d₂, log₂, evs', out, evs'', out', g1, _, g3, g4, g5, _⟩ := this
  rw [hopen] at g4 g5
  refine ⟨ops, d₂, log₂, evs', out, evs'', out', g1, g3, g4, g5, ?_⟩
  rw [aligned_updates g3]
  simp only [deskAfter, epochsOf]
  decide

/-- `C89_down`, `C89_private`: the machine before any server is up -/
example (s : DirSTR) (D : Desk) (hD : (freshDesk (fun _ => false) (deskTerms s)).run Crypto.toy asciiText sampleMachine [] hostBot
      [.opened 1 (deskClient s) false, .opened 2 (deskClient s) true, .line 2 none "lookup carol".toList (.noDial []) (ascii "no server")] = some D) :
    (D.terms 1).printed = [] ∧ (D.terms 2).printed = [(true, ascii "[+] Error while receiving response: no server")] := by
  rw [show [DeskEv.opened 1 (deskClient s) false, .opened 2 (deskClient s) true, .line 2 none "lookup carol".toList (.noDial []) (ascii "no server")] =
    [.opened 1 (deskClient s) false] ++ ([.opened 2 (deskClient s) true] ++ [.line 2 none "lookup carol".toList (.noDial []) (ascii "no server")]) from rfl,
    desk_run_append] at hD
  obtain ⟨D₁, h₁, hD⟩ := Option.bind_eq_some_iff.mp hD
  have h₁' : some ((freshDesk (fun _ => false) (deskTerms s)).put 1 ⟨⟨ascii "unix:///tmp/coniks.sock", ascii "tcp://127.0.0.1:3000"⟩,
      ⟨newAudState (Crypto.toy.signPub [1]) s, fun _ => none, true, fun _ => none⟩, false, false, []⟩) = some D₁ := h₁
  have p1 : (D₁.terms 1).printed = [] := by rw [← Option.some.inj h₁']; rfl
  constructor
  · rw [C89_private _ _ _ _ _ 1 _ D₁ D (by
      intro e he
      simp only [List.cons_append, List.nil_append, List.mem_cons, List.not_mem_nil, or_false] at he
      rcases he with rfl | rfl
      · exact (by decide : (2 : Nat) ≠ 1)
      · exact (by decide : (2 : Nat) ≠ 1)) hD]
    exact p1
  · rw [desk_run_append] at hD
    obtain ⟨D₂, h₂, hD⟩ := Option.bind_eq_some_iff.mp hD
    have h₂' : some (D₁.put 2 ⟨⟨ascii "unix:///tmp/coniks.sock", ascii "tcp://127.0.0.1:3000"⟩,
      ⟨newAudState (Crypto.toy.signPub [1]) s, fun _ => none, true, fun _ => none⟩, true, false, []⟩) = some D₂ := h₂
    have e2 := Option.some.inj h₂'
    have hh : D₂.host = freshHost fun _ => false := by rw [← e2, ← Option.some.inj h₁']; rfl
    have ht : D₂.terms 2 = ⟨⟨ascii "unix:///tmp/coniks.sock", ascii "tcp://127.0.0.1:3000"⟩,
      ⟨newAudState (Crypto.toy.signPub [1]) s, fun _ => none, true, fun _ => none⟩, true, false, []⟩ := by rw [← e2]; exact desk_put_same _ _ _
    obtain ⟨D', k1, _, _, _, _, k6⟩ := C89_down Crypto.toy asciiText sampleMachine [] hostBot D₂ (by rw [hh]; exact fun _ => rfl) 2 (by rw [ht]) none
      "lookup carol".toList (.noDial []) (ascii "no server") (ascii "tcp://127.0.0.1:3000") (.inr ⟨ascii "carol", by decide +kernel, by rw [ht]⟩)
      (.inl (by rw [default_client]; rfl))
    simp only [Desk.run, k1, Option.bind_some, Option.some.injEq] at hD
    rw [← hD, k6, ht]
    show [] ++ [(true, ascii "[+] Error while receiving response: " ++ ascii "no server")] = _
    rw [show ascii "[+] Error while receiving response: " ++ ascii "no server" = ascii "[+] Error while receiving response: no server" by decide +kernel]
    rfl

/-- `C89_bad_address_counterexample`: a percent sign that stands for nothing -/
example (s : DirSTR) : Panics ((freshDesk (fun _ => false) (deskTerms s)).run Crypto.toy asciiText sampleMachine [] hostBot
    [.opened 1 ⟨ascii "c", [], s, [], ascii "tcp://%"⟩ false, .line 1 none "lookup carol".toList (.noDial []) []]) :=
  (C89_bad_address_counterexample Crypto.toy asciiText sampleMachine [] hostBot _ 1 ⟨ascii "c", [], s, [], ascii "tcp://%"⟩ false
    (by decide +kernel : parseUrl (ascii "tcp://%") = none) none "lookup carol".toList (ascii "carol") (by decide +kernel) (.noDial []) []).2

end Coniks.Props

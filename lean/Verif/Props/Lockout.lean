import Verif.Proofs.Lockout
import Verif.Props.Desk
import Verif.Props.Restart
import Verif.Proofs.EvalDir
/-
C90: the server behind an address is restarted, replaced, or the client program has missed an epoch: what the user sees from then on.
-/
namespace Coniks.Props
open Coniks Spec Json

/-- C90, the general form. On a machine as in `C89_session`: process `pid` is a key server with configuration `k`; from some moment (`D₂`) anything happens (`evs₃`); the
addresses of client program `u` are answered by that process. `ops`: the history of its directory until `D₂`, `ext`: what follows until the end of `evs₃`, or
until the program is left. Then the program ends with the key it had and the STR it had or one of the directory's; and if none of the STRs that
are current from `D₂` on (the last `dirUpdates ext + 1` of the log) is the one it holds or a signed successor of that, then for every command for the server it
prints an error and nothing else, and is at the end exactly as it was. -/
theorem C90_locked (C : Crypto) (X : Text) (M : Machine) (cwd : Place) (c : TwitterConfig) (files : Place → Bool) (terms : Nat → Terminal)
    (evs₁ evs₂ evs₃ : List DeskEv) (pid : Nat) (k : ServerConf) (r₁ r₂ : Bytes) (srv : Server) (D₁ D₂ D : Desk)
    (h₁ : (freshDesk files terms).run C X M cwd c evs₁ = some D₁) (hi : Idle D₁.host.os pid) (hok : (D₁.host.os.start M pid k.addresses).2 = true)
    (hnew : newServer C k.core (some r₁) (some r₂) = some srv)
    (h₂ : D₁.run C X M cwd c (.host (.run pid k (some r₁) (some r₂)) :: evs₂) = some D₂) (h : D₂.run C X M cwd c evs₃ = some D)
    (hsp : ∀ e, .host e ∈ evs₂ ++ evs₃ → SparesProc pid e) (hlt : epochsOf pid (evs₂ ++ evs₃) < 2 ^ 64)
    (u : Nat) (hu : (D₂.terms u).over = false) (hno : ∀ k debug, .opened u k debug ∉ evs₃) (conf : CliConf) (hconf : (D₂.terms u).conf = conf)
    (ra : Bytes) (hra : ra = conf.regAddress ∧ conf.regAddress ≠ [] ∨ ra = conf.address ∧ conf.regAddress = [])
    (a : AddressToml) (ha : a ∈ k.addresses) (hreg : AnswersAt M D₁.host.os ra a (evs₂ ++ evs₃))
    (b : AddressToml) (hb : b ∈ k.addresses) (hlook : AnswersAt M D₁.host.os conf.address b (evs₂ ++ evs₃)) :
    ∃ ops ext d₂ log₂ d log out, D₂.host.server pid = some ⟨d₂, k.addresses⟩ ∧
      dirAfter C k.policiesDeadline k.signKey k.vrfKey k.historyLength r₁ r₂ ops = some (d₂, log₂) ∧ dirUpdates ops = epochsOf pid evs₂ ∧
      dirAfter C k.policiesDeadline k.signKey k.vrfKey k.historyLength r₁ r₂ (ops ++ ext) = some (d, log) ∧ dirUpdates ext ≤ epochsOf pid evs₃ ∧
      ((D.terms u).over = false → D.host.server pid = some ⟨d, k.addresses⟩) ∧ (D.terms u).printed = (D₂.terms u).printed ++ out ∧
      (D.terms u).client.aud.signKey = (D₂.terms u).client.aud.signKey ∧
      ((D.terms u).client.aud.verified = (D₂.terms u).client.aud.verified ∨ ∃ s ∈ log, (D.terms u).client.aud.verified = s.toDir) ∧
      (NoWayOn C (D₂.terms u).client.aud (log.drop (dirUpdates ops)) →
        (D.terms u).client = (D₂.terms u).client ∧ OnlyErrors (D₂.terms u).ts (typedAt u evs₃) out) := by
  have usable : ∀ x e, AnswersAt M D₁.host.os x e (evs₂ ++ evs₃) →
      (parseUrl x).map Url.scheme = some (ascii "tcp") ∨ (parseUrl x).map Url.scheme = some (ascii "unix") := by
    intro x e ⟨b, _, q2, _⟩
    cases b with
    | tcp e => obtain ⟨w, _, hw, hs, _⟩ := q2; left; rw [hw, ← hs]; rfl
    | unix p => obtain ⟨w, hw, hs, _⟩ := q2; right; rw [hw, ← hs]; rfl
    | hidden => exact q2.elim
  have same : ra = conf.address → a.ptr = b.ptr := by
    intro e
    subst e
    obtain ⟨es₁, o1, _⟩ := desk_run_os C X M cwd c evs₁ _ _ h₁
    have o1' : D₁.host.os = (booted files).run M es₁ := o1
    have one : ∀ (e : AddressToml), e ∈ k.addresses → AnswersAt M D₁.host.os conf.address e (evs₂ ++ evs₃) →
        ∃ s, ((booted files).run M (es₁ ++ .start pid k.addresses :: [])).dial M conf.address = some s ∧ s.pid = pid ∧ s.ptr = e.ptr := by
      intro e hmem ⟨b, q1, q2, q3⟩
      exact C79_reach M files es₁ pid k.addresses [] (o1' ▸ hi) (o1' ▸ hok) (fun _ h => (nomatch h)) e hmem b q1 _ q2 fun p hp => ⟨fun _ h => (nomatch h), by
        rw [← o1']; exact (q3 p hp).2⟩
    obtain ⟨s, p1, _, p3⟩ := one a ha hreg
    obtain ⟨s', p1', _, p3'⟩ := one b hb hlook
    rw [p1] at p1'
    cases p1'
    exact p3.symm.trans p3'
  let N : Net := ⟨fun x => (parseUrl x).map Url.scheme, fun x => if x = ra then a.ptr else b.ptr⟩
  have hNa : N.listener ra = a.ptr := if_pos rfl
  have hNb : N.listener conf.address = b.ptr := by
    show (if conf.address = ra then a.ptr else b.ptr) = b.ptr
    split
    · rename_i e; exact same e.symm
    · rfl
  obtain ⟨ops, d₂, log₂, d, evs', d', out, g1, g2, g3, g4, g5, g6, g7, g8⟩ := C89_session C X M cwd c files terms evs₁ evs₂ evs₃ pid k r₁ r₂ srv D₁ D₂ D h₁ hi
    hok hnew h₂ h hsp u hu hno conf hconf ra hra a ha hreg b hb hlook N (fun _ => rfl) hNa hNb
  have hup := aligned_updates g5
  rw [epochsOf_append] at hlt
  have hrc := reg_eq hra
  subst hrc
  obtain ⟨ext, log, f1, f2, f3, f4, f5⟩ := session_held C k.policiesDeadline k.signKey k.vrfKey k.historyLength r₁ r₂ N conf (usable_true (usable _ _ hreg))
    (usable_true (usable _ _ hlook)) _ (dirUpdates ops) evs' ops d₂ log₂ _ _ g2 (Nat.le_refl _) (by rw [hup, g3]; omega) d' _ out g6
  refine ⟨ops, ext, d₂, log₂, d', log, out, g1, g2, g3, f1, by rw [← hup]; exact f2, fun ho => by rw [g8 ho]; exact g4, g7, f3, f4, fun hn => ?_⟩
  obtain ⟨e1, e2⟩ := f5 hn
  rw [aligned_typed g5] at e2
  exact ⟨e1, e2⟩

/-- C90. A client program that follows a server holds an STR of that server, under its key: as `C90_locked`, for a program opened with the server's initial
STR and key. (What it does while the server runs: `C89_lines`.) -/
theorem C90_holds (C : Crypto) (X : Text) (M : Machine) (cwd : Place) (c : TwitterConfig) (files : Place → Bool) (terms : Nat → Terminal)
    (evs₁ evs₂ evs₃ : List DeskEv) (pid : Nat) (k : ServerConf) (r₁ r₂ : Bytes) (srv : Server) (D₁ D₂ D : Desk)
    (h₁ : (freshDesk files terms).run C X M cwd c evs₁ = some D₁) (hi : Idle D₁.host.os pid) (hok : (D₁.host.os.start M pid k.addresses).2 = true)
    (hnew : newServer C k.core (some r₁) (some r₂) = some srv)
    (h₂ : D₁.run C X M cwd c (.host (.run pid k (some r₁) (some r₂)) :: evs₂) = some D₂) (h : D₂.run C X M cwd c evs₃ = some D)
    (hsp : ∀ e, .host e ∈ evs₂ ++ evs₃ → SparesProc pid e) (hlt : epochsOf pid (evs₂ ++ evs₃) < 2 ^ 64)
    (u : Nat) (hu : (D₂.terms u).over = false) (hno : ∀ k debug, .opened u k debug ∉ evs₃)
    (hcc : newClient srv.dir.latestSTR true (C.signPub k.signKey) = some (D₂.terms u).client) (conf : CliConf) (hconf : (D₂.terms u).conf = conf)
    (ra : Bytes) (hra : ra = conf.regAddress ∧ conf.regAddress ≠ [] ∨ ra = conf.address ∧ conf.regAddress = [])
    (a : AddressToml) (ha : a ∈ k.addresses) (hreg : AnswersAt M D₁.host.os ra a (evs₂ ++ evs₃))
    (b : AddressToml) (hb : b ∈ k.addresses) (hlook : AnswersAt M D₁.host.os conf.address b (evs₂ ++ evs₃)) :
    ∃ ops d log, dirAfter C k.policiesDeadline k.signKey k.vrfKey k.historyLength r₁ r₂ ops = some (d, log) ∧ dirUpdates ops < 2 ^ 64 ∧
      ((D.terms u).over = false → D.host.server pid = some ⟨d, k.addresses⟩) ∧
      (D.terms u).client.aud.signKey = C.signPub k.signKey ∧ ∃ s ∈ log, (D.terms u).client.aud.verified = s.toDir := by
  obtain ⟨ops, ext, d₂, log₂, d, log, out, g1, g2, g3, g4, g5, g6, g7, g8, g9, _⟩ := C90_locked C X M cwd c files terms evs₁ evs₂ evs₃ pid k r₁ r₂ srv D₁ D₂ D h₁ hi
    hok hnew h₂ h hsp hlt u hu hno conf hconf ra hra a ha hreg b hb hlook
  have hd₀ : dirAfter C k.policiesDeadline k.signKey k.vrfKey k.historyLength r₁ r₂ [] = some (srv.dir, [srv.dir.pad.latest]) := by
    simp only [Desk.run] at h₂
    obtain ⟨D₁', hs, _⟩ := Option.bind_eq_some_iff.mp h₂
    exact (desk_start C X M cwd c pid k r₁ r₂ srv D₁ D₁' hi hok hnew hs).2.2.2
  obtain ⟨more, hmore⟩ := dirAfter_prefix C _ _ _ _ r₁ r₂ [] (ops ++ ext) d log g4 _ _ hd₀
  rw [epochsOf_append] at hlt
  have hc : (D₂.terms u).client.aud = newAudState (C.signPub k.signKey) srv.dir.latestSTR := by
    rw [← Option.some.inj ((desk_newClient _ _).symm.trans hcc)]
  refine ⟨ops ++ ext, d, log, g4, by rw [dirUpdates_append, g3]; omega, g6, by rw [g8, hc]; rfl, ?_⟩
  rcases g9 with g9 | g9
  · exact ⟨srv.dir.pad.latest, by rw [hmore]; exact .head _, by rw [g9, hc]; rfl⟩
  · exact g9

/-- C90, the restart. Some server with the signing and VRF keys of `k`, and whatever else in its configuration, ran once (`ops'`: its history), and the
program holds one of its STRs (`C90_holds`). Now process `pid` is the server, started with the same keys. Nothing is stored (C67), so this is a second beginning; and however
long the program runs, whatever happens, and whatever the user types: every command for the server gives an error, and nothing ever changes. `log`: the STRs of
the new life. Assumed as in C67, of the STRs that were in fact issued: the hash does not collide on their signatures, nor on the random bytes drawn at the two
starts, and one signature does not fit two contents. -/
theorem C90_restart (C : Crypto) (X : Text) (M : Machine) (cwd : Place) (c : TwitterConfig) (files : Place → Bool) (terms : Nat → Terminal)
    (evs₁ evs₂ evs₃ : List DeskEv) (pid : Nat) (k : ServerConf) (r₁ r₂ : Bytes) (srv : Server) (D₁ D₂ D : Desk)
    (h₁ : (freshDesk files terms).run C X M cwd c evs₁ = some D₁) (hi : Idle D₁.host.os pid) (hok : (D₁.host.os.start M pid k.addresses).2 = true)
    (hnew : newServer C k.core (some r₁) (some r₂) = some srv)
    (h₂ : D₁.run C X M cwd c (.host (.run pid k (some r₁) (some r₂)) :: evs₂) = some D₂) (h : D₂.run C X M cwd c evs₃ = some D)
    (hsp : ∀ e, .host e ∈ evs₂ ++ evs₃ → SparesProc pid e) (hlt : epochsOf pid (evs₂ ++ evs₃) < 2 ^ 64)
    (u : Nat) (hu : (D₂.terms u).over = false) (hno : ∀ k debug, .opened u k debug ∉ evs₃) (conf : CliConf) (hconf : (D₂.terms u).conf = conf)
    (ra : Bytes) (hra : ra = conf.regAddress ∧ conf.regAddress ≠ [] ∨ ra = conf.address ∧ conf.regAddress = [])
    (a : AddressToml) (ha : a ∈ k.addresses) (hreg : AnswersAt M D₁.host.os ra a (evs₂ ++ evs₃))
    (b : AddressToml) (hb : b ∈ k.addresses) (hlook : AnswersAt M D₁.host.os conf.address b (evs₂ ++ evs₃))
    (t0' : UInt64) (size' : Nat) (r₁' r₂' : Bytes) (ops' : List DirOp) (d' : Directory) (log' : List STR)
    (hold : dirAfter C t0' k.signKey k.vrfKey size' r₁' r₂' ops' = some (d', log')) (hlt' : dirUpdates ops' < 2 ^ 64) (s : STR) (hs : s ∈ log')
    (hkey : (D₂.terms u).client.aud.signKey = C.signPub k.signKey) (hheld : (D₂.terms u).client.aud.verified = s.toDir) :
    ∃ ops d log out, dirAfter C k.policiesDeadline k.signKey k.vrfKey k.historyLength r₁ r₂ ops = some (d, log) ∧
      dirUpdates ops ≤ epochsOf pid (evs₂ ++ evs₃) ∧ ((D.terms u).over = false → D.host.server pid = some ⟨d, k.addresses⟩) ∧
      (D.terms u).printed = (D₂.terms u).printed ++ out ∧
      (C.hash r₂' ≠ C.hash r₂ → NoCollision C.hash ((log' ++ log).map fun s => s.core.signature) →
        SigBinding C (C.signPub k.signKey) ((log' ++ log).map STR.toDir) →
        (D.terms u).client = (D₂.terms u).client ∧ OnlyErrors (D₂.terms u).ts (typedAt u evs₃) out) := by
  obtain ⟨ops, ext, d₂, log₂, d, log, out, g1, g2, g3, g4, g5, g6, g7, g8, g9, g10⟩ := C90_locked C X M cwd c files terms evs₁ evs₂ evs₃ pid k r₁ r₂ srv D₁ D₂ D h₁ hi
    hok hnew h₂ h hsp hlt u hu hno conf hconf ra hra a ha hreg b hb hlook
  rw [epochsOf_append] at hlt ⊢
  have hup : dirUpdates (ops ++ ext) ≤ epochsOf pid evs₂ + epochsOf pid evs₃ := by rw [dirUpdates_append, g3]; omega
  refine ⟨ops ++ ext, d, log, out, g4, hup, g6, g7, fun fresh nc bind => g10 ?_⟩
  have T : TwoLives C k.signKey k.vrfKey t0' k.policiesDeadline size' k.historyLength r₁' r₂' r₁ r₂ ops' (ops ++ ext) d' d log' log :=
    ⟨hold, g4, hlt', by omega, fresh, nc, bind⟩
  intro x hx
  obtain ⟨q1, q2, _⟩ := C67_fork C k.signKey k.vrfKey t0' k.policiesDeadline size' k.historyLength r₁' r₂' r₁ r₂ ops' (ops ++ ext) d' d log' log T s x hs
    (List.mem_of_mem_drop hx)
  rw [hheld]
  exact ⟨fun e => q1 e.symm, fun e => q2 e.2⟩

/-- C90, another server. The program holds a signed STR of some server under that server's key; the process that answers at its addresses has another key: no
STR that it issues verifies under the one the program has. For ever: only errors, and no change. -/
theorem C90_other_server (C : Crypto) (X : Text) (M : Machine) (cwd : Place) (c : TwitterConfig) (files : Place → Bool) (terms : Nat → Terminal)
    (evs₁ evs₂ evs₃ : List DeskEv) (pid : Nat) (k : ServerConf) (r₁ r₂ : Bytes) (srv : Server) (D₁ D₂ D : Desk)
    (h₁ : (freshDesk files terms).run C X M cwd c evs₁ = some D₁) (hi : Idle D₁.host.os pid) (hok : (D₁.host.os.start M pid k.addresses).2 = true)
    (hnew : newServer C k.core (some r₁) (some r₂) = some srv)
    (h₂ : D₁.run C X M cwd c (.host (.run pid k (some r₁) (some r₂)) :: evs₂) = some D₂) (h : D₂.run C X M cwd c evs₃ = some D)
    (hsp : ∀ e, .host e ∈ evs₂ ++ evs₃ → SparesProc pid e) (hlt : epochsOf pid (evs₂ ++ evs₃) < 2 ^ 64)
    (u : Nat) (hu : (D₂.terms u).over = false) (hno : ∀ k debug, .opened u k debug ∉ evs₃) (conf : CliConf) (hconf : (D₂.terms u).conf = conf)
    (ra : Bytes) (hra : ra = conf.regAddress ∧ conf.regAddress ≠ [] ∨ ra = conf.address ∧ conf.regAddress = [])
    (a : AddressToml) (ha : a ∈ k.addresses) (hreg : AnswersAt M D₁.host.os ra a (evs₂ ++ evs₃))
    (b : AddressToml) (hb : b ∈ k.addresses) (hlook : AnswersAt M D₁.host.os conf.address b (evs₂ ++ evs₃))
    (hheld : Signed C (D₂.terms u).client.aud.signKey (D₂.terms u).client.aud.verified) :
    ∃ ops d log out, dirAfter C k.policiesDeadline k.signKey k.vrfKey k.historyLength r₁ r₂ ops = some (d, log) ∧
      dirUpdates ops ≤ epochsOf pid (evs₂ ++ evs₃) ∧ ((D.terms u).over = false → D.host.server pid = some ⟨d, k.addresses⟩) ∧
      (D.terms u).printed = (D₂.terms u).printed ++ out ∧
      ((∀ s ∈ log, ¬ Signed C (D₂.terms u).client.aud.signKey s.toDir) →
        (D.terms u).client = (D₂.terms u).client ∧ OnlyErrors (D₂.terms u).ts (typedAt u evs₃) out) := by
  obtain ⟨ops, ext, d₂, log₂, d, log, out, g1, g2, g3, g4, g5, g6, g7, g8, g9, g10⟩ := C90_locked C X M cwd c files terms evs₁ evs₂ evs₃ pid k r₁ r₂ srv D₁ D₂ D h₁ hi
    hok hnew h₂ h hsp hlt u hu hno conf hconf ra hra a ha hreg b hb hlook
  rw [epochsOf_append]
  refine ⟨ops ++ ext, d, log, out, g4, by rw [dirUpdates_append, g3]; omega, g6, g7, fun hn => g10 fun x hx => ⟨fun e => ?_, fun e => ?_⟩⟩
  · exact hn x (List.mem_of_mem_drop hx) (e ▸ hheld)
  · exact hn x (List.mem_of_mem_drop hx) e.1

/-- C90, the missed epoch. The server is the right one, but it is two epochs or more past the STR that the program holds. For ever: only errors, and no change. -/
theorem C90_behind (C : Crypto) (X : Text) (M : Machine) (cwd : Place) (c : TwitterConfig) (files : Place → Bool) (terms : Nat → Terminal)
    (evs₁ evs₂ evs₃ : List DeskEv) (pid : Nat) (k : ServerConf) (r₁ r₂ : Bytes) (srv : Server) (D₁ D₂ D : Desk)
    (h₁ : (freshDesk files terms).run C X M cwd c evs₁ = some D₁) (hi : Idle D₁.host.os pid) (hok : (D₁.host.os.start M pid k.addresses).2 = true)
    (hnew : newServer C k.core (some r₁) (some r₂) = some srv)
    (h₂ : D₁.run C X M cwd c (.host (.run pid k (some r₁) (some r₂)) :: evs₂) = some D₂) (h : D₂.run C X M cwd c evs₃ = some D)
    (hsp : ∀ e, .host e ∈ evs₂ ++ evs₃ → SparesProc pid e) (hlt : epochsOf pid (evs₂ ++ evs₃) < 2 ^ 64)
    (u : Nat) (hu : (D₂.terms u).over = false) (hno : ∀ k debug, .opened u k debug ∉ evs₃) (conf : CliConf) (hconf : (D₂.terms u).conf = conf)
    (ra : Bytes) (hra : ra = conf.regAddress ∧ conf.regAddress ≠ [] ∨ ra = conf.address ∧ conf.regAddress = [])
    (a : AddressToml) (ha : a ∈ k.addresses) (hreg : AnswersAt M D₁.host.os ra a (evs₂ ++ evs₃))
    (b : AddressToml) (hb : b ∈ k.addresses) (hlook : AnswersAt M D₁.host.os conf.address b (evs₂ ++ evs₃))
    (hmiss : (D₂.terms u).client.aud.verified.core.epoch.toNat + 2 ≤ epochsOf pid evs₂) :
    (D.terms u).client = (D₂.terms u).client ∧ ∃ out, (D.terms u).printed = (D₂.terms u).printed ++ out ∧
      OnlyErrors (D₂.terms u).ts (typedAt u evs₃) out := by
  obtain ⟨ops, ext, d₂, log₂, d, log, out, g1, g2, g3, g4, g5, g6, g7, g8, g9, g10⟩ := C90_locked C X M cwd c files terms evs₁ evs₂ evs₃ pid k r₁ r₂ srv D₁ D₂ D h₁ hi
    hok hnew h₂ h hsp hlt u hu hno conf hconf ra hra a ha hreg b hb hlook
  rw [epochsOf_append] at hlt
  have hup : dirUpdates (ops ++ ext) < 2 ^ 64 := by rw [dirUpdates_append, g3]; omega
  obtain ⟨inv, hlen, _⟩ := dirAfter_padInv C _ _ _ _ r₁ r₂ _ hup d log g4
  have key : NoWayOn C (D₂.terms u).client.aud (log.drop (dirUpdates ops)) := by
    intro x hx
    obtain ⟨i, hx⟩ := List.getElem?_of_mem hx
    rw [List.getElem?_drop] at hx
    have hb := (List.getElem?_eq_some_iff.mp hx).1
    have hep : x.toDir.core.epoch = UInt64.ofNat (dirUpdates ops + i) := inv.epoch _ _ hx
    have hn : x.toDir.core.epoch.toNat = dirUpdates ops + i := by
      rw [hep, UInt64.toNat_ofNat']
      exact Nat.mod_eq_of_lt (by rw [hlen] at hb; omega)
    refine ⟨fun e => ?_, fun e => ?_⟩
    · rw [e] at hn; omega
    · have := congrArg UInt64.toNat e.2.epoch
      rw [hn, UInt64.toNat_add] at this
      have h1 : (1 : UInt64).toNat = 1 := rfl
      rw [h1, Nat.mod_eq_of_lt (by rw [g3] at *; omega)] at this
      omega
  obtain ⟨e1, e2⟩ := g10 key
  exact ⟨e1, out, g7, e2⟩

/-! ### Concrete cases -/

/-- the default server of `hostConf`, with this signing key -/
def lifeConf (sk : Bytes) : ServerConf := { hostConf with signKey := sk }

/-- some epochs pass, then the client program of `deskClient` is opened at terminal 1, with this STR -/
def lifeBefore (m : Nat) (s : DirSTR) : List DeskEv := List.replicate m (.host (.epoch 1)) ++ [.opened 1 (deskClient s) false]

/-- carol is looked up; a help text; the program is left -/
def lifeAfter : List DeskEv :=
  [.line 1 none "lookup carol".toList (.carried 8192 false 8192 none) [], .line 1 none "help".toList (.noDial []) [], .line 1 none "q".toList (.noDial []) []]

theorem life_server (sk r₁ r₂ : Bytes) : ∃ srv, newServer Crypto.toy (lifeConf sk).core (some r₁) (some r₂) = some srv := by
  obtain ⟨d0, h0, _⟩ := new_dir_inv Crypto.toy 60 sk [2] 10 r₁ r₂ []
  refine ⟨⟨permsMap (lifeConf sk).core.addresses, d0, newEpochTimer (lifeConf sk).core.epochDeadline⟩, ?_⟩
  unfold newServer
  rw [show newDirectory Crypto.toy (lifeConf sk).core.policiesDeadline (lifeConf sk).core.vrfKey (lifeConf sk).core.signKey (lifeConf sk).core.historyLength true
    (some r₁) (some r₂) = some d0 from h0]
  rfl

/-- the state of the machine when the server is started -/
def lifeStart (s : DirSTR) : Desk := ⟨⟨(booted fun _ => false).step sampleMachine (.create [ascii "x"]), fun _ => none⟩, deskTerms s⟩

theorem life_first (s : DirSTR) : (freshDesk (fun _ => false) (deskTerms s)).run Crypto.toy asciiText sampleMachine [] hostBot [.host (.create [ascii "x"])] =
    some (lifeStart s) := rfl

theorem life_mem {m : Nat} {s : DirSTR} {e : DeskEv} (h : e ∈ lifeBefore m s ++ lifeAfter) :
    e = .host (.epoch 1) ∨ e = .opened 1 (deskClient s) false ∨ e ∈ lifeAfter := by
  rcases List.mem_append.mp h with h | h
  · rcases List.mem_append.mp h with h | h
    · exact .inl (List.eq_of_mem_replicate h)
    · exact .inr (.inl (List.mem_singleton.mp h))
  · exact .inr (.inr h)

theorem life_host {m : Nat} {s : DirSTR} {e : HostEv} (h : .host e ∈ lifeBefore m s ++ lifeAfter) : e = .epoch 1 := by
  rcases life_mem h with h | h | h
  · cases h; rfl
  · cases h
  · simp [lifeAfter] at h

theorem life_epochs (m : Nat) (s : DirSTR) : epochsOf 1 (lifeBefore m s) = m ∧ epochsOf 1 (lifeBefore m s ++ lifeAfter) = m ∧
    deskEpochs (lifeBefore m s ++ lifeAfter) = m := by
  have h1 : epochsOf 1 (lifeBefore m s) = m := by
    induction m with
    | zero => rfl
    | succ m ih =>
      show epochsOf 1 (.host (.epoch 1) :: lifeBefore m s) = m + 1
      simp only [epochsOf, ih, if_true]
  refine ⟨h1, by rw [epochsOf_append, h1]; rfl, ?_⟩
  clear h1
  induction m with
  | zero => rfl
  | succ m ih =>
    show deskEpochs (.host (.epoch 1) :: (lifeBefore m s ++ lifeAfter)) = m + 1
    simp only [deskEpochs, ih]

theorem life_runs (sk r₁ r₂ : Bytes) (m : Nat) (hm : m < 2 ^ 64) (s : DirSTR) : ∃ D₂ D,
    (lifeStart s).run Crypto.toy asciiText sampleMachine [] hostBot (.host (.run 1 (lifeConf sk) (some r₁) (some r₂)) :: lifeBefore m s) = some D₂ ∧
    D₂.run Crypto.toy asciiText sampleMachine [] hostBot lifeAfter = some D ∧
    D₂.terms 1 = ⟨⟨ascii "unix:///tmp/coniks.sock", ascii "tcp://127.0.0.1:3000"⟩,
      ⟨newAudState (Crypto.toy.signPub [1]) s, fun _ => none, true, fun _ => none⟩, false, false, []⟩ := by
  have good : ∀ ra, (ra = (deskClient s).regAddress ∧ (deskClient s).regAddress ≠ [] ∨ ra = (deskClient s).address) → parseUrl ra ≠ none := by
    rintro ra (⟨rfl, _⟩ | rfl)
    · rw [show parseUrl (deskClient s).regAddress = _ from default_unix]; exact fun h => nomatch h
    · rw [show parseUrl (deskClient s).address = _ from default_client]; exact fun h => nomatch h
  obtain ⟨D, hD⟩ := C89_no_crash Crypto.toy asciiText sampleMachine [] hostBot (fun _ => false) (deskTerms s)
    ([.host (.create [ascii "x"]), .host (.run 1 (lifeConf sk) (some r₁) (some r₂))] ++ (lifeBefore m s ++ lifeAfter)) (by
      show deskEpochs (lifeBefore m s ++ lifeAfter) < _
      rw [(life_epochs m s).2.2]; exact hm) (by
      rintro u ra (⟨_, h⟩ | rfl)
      · exact absurd rfl h
      · rw [show parseUrl (deskTerms s u).conf.address = _ from default_client]; exact fun h => nomatch h) (by
      intro u k debug hmem
      rcases List.mem_append.mp hmem with h | h
      · simp at h
      · rcases life_mem h with h | h | h
        · cases h
        · cases h; exact good
        · simp [lifeAfter] at h)
  rw [show [DeskEv.host (.create [ascii "x"]), .host (.run 1 (lifeConf sk) (some r₁) (some r₂))] ++ (lifeBefore m s ++ lifeAfter) =
    [.host (.create [ascii "x"])] ++ (.host (.run 1 (lifeConf sk) (some r₁) (some r₂)) :: lifeBefore m s ++ lifeAfter) from rfl, desk_run_append, life_first,
    Option.bind_some, desk_run_append] at hD
  obtain ⟨D₂, hD₂, hD⟩ := Option.bind_eq_some_iff.mp hD
  refine ⟨D₂, D, hD₂, hD, ?_⟩
  rw [show DeskEv.host (.run 1 (lifeConf sk) (some r₁) (some r₂)) :: lifeBefore m s =
    (.host (.run 1 (lifeConf sk) (some r₁) (some r₂)) :: List.replicate m (.host (.epoch 1))) ++ [.opened 1 (deskClient s) false] from rfl, desk_run_append] at hD₂
  obtain ⟨D₄, _, h₄⟩ := Option.bind_eq_some_iff.mp hD₂
  have h₅ : some (D₄.put 1 ⟨⟨ascii "unix:///tmp/coniks.sock", ascii "tcp://127.0.0.1:3000"⟩,
    ⟨newAudState (Crypto.toy.signPub [1]) s, fun _ => none, true, fun _ => none⟩, false, false, []⟩) = some D₂ := h₄
  rw [← Option.some.inj h₅]
  exact desk_put_same _ _ _

theorem life_ready (s : DirSTR) : (lifeStart s).host.os.node coniksSock = none := created_elsewhere (fun _ => false) [ascii "x"] coniksSock (by decide +kernel) rfl

theorem life_ok (sk : Bytes) (s : DirSTR) : ((lifeStart s).host.os.start sampleMachine 1 (lifeConf sk).addresses).2 = true :=
  sample_start (lifeStart s).host.os 1 (life_ready s) rfl

theorem life_reg (m : Nat) (s : DirSTR) : AnswersAt sampleMachine (lifeStart s).host.os (ascii "unix:///tmp/coniks.sock")
    ⟨0, true, [], [], ascii "unix:///tmp/coniks.sock"⟩ (lifeBefore m s ++ lifeAfter) := by
  have ask := default_asks sampleMachine (ascii "/s/server.pem") (ascii "/s/server.key") (by decide +kernel) (by decide +kernel) (by decide +kernel) rfl
  exact ⟨.unix coniksSock, ask _ (.head _), ⟨_, default_unix, rfl, by decide +kernel, default_place _⟩,
    fun p _ => ⟨fun h => (nomatch life_host h), fun _ h => (nomatch h)⟩⟩

theorem life_look (m : Nat) (s : DirSTR) : AnswersAt sampleMachine (lifeStart s).host.os (ascii "tcp://127.0.0.1:3000")
    ⟨1, false, ascii "/s/server.pem", ascii "/s/server.key", ascii "tcp://0.0.0.0:3000"⟩ (lifeBefore m s ++ lifeAfter) := by
  have ask := default_asks sampleMachine (ascii "/s/server.pem") (ascii "/s/server.key") (by decide +kernel) (by decide +kernel) (by decide +kernel) rfl
  exact ⟨.tcp ⟨none, 3000⟩, ask _ (.tail _ (.head _)),
      ⟨_, _, default_client, rfl, (by decide +kernel : _ = some ⟨some [127, 0, 0, 1], 3000⟩), rfl, by decide, .inl rfl⟩, fun p hp => nomatch hp⟩

theorem life_spares (m : Nat) (s : DirSTR) : ∀ e, .host e ∈ lifeBefore m s ++ lifeAfter → SparesProc 1 e := by
  intro e he
  rw [life_host he]
  exact trivial

theorem life_unopened : ∀ k debug, DeskEv.opened 1 k debug ∉ lifeAfter := by
  intro k debug h
  simp [lifeAfter] at h

/-- `C90_behind`: two epochs have passed since the STR with which the program was opened -/
example : ∃ (srv : Server) (D₂ D : Desk), newServer Crypto.toy (lifeConf [1]).core (some [3]) (some [4]) = some srv ∧
    (freshDesk (fun _ => false) (deskTerms srv.dir.latestSTR)).run Crypto.toy asciiText sampleMachine [] hostBot ([.host (.create [ascii "x"])] ++
      .host (.run 1 (lifeConf [1]) (some [3]) (some [4])) :: lifeBefore 2 srv.dir.latestSTR) = some D₂ ∧
    D₂.run Crypto.toy asciiText sampleMachine [] hostBot lifeAfter = some D ∧ OnlyErrors false (typedAt 1 lifeAfter) (D.terms 1).printed := by
  obtain ⟨srv, hsrv⟩ := life_server [1] [3] [4]
  have hepoch : srv.dir.latestSTR.core.epoch = 0 := by
    obtain ⟨d0, h0, _⟩ := new_dir_inv Crypto.toy 60 [1] [2] 10 [3] [4] []
    have hs : newServer Crypto.toy (lifeConf [1]).core (some [3]) (some [4]) =
        some ⟨permsMap (lifeConf [1]).core.addresses, d0, newEpochTimer (lifeConf [1]).core.epochDeadline⟩ := by
      unfold newServer
      rw [show newDirectory Crypto.toy (lifeConf [1]).core.policiesDeadline (lifeConf [1]).core.vrfKey (lifeConf [1]).core.signKey
        (lifeConf [1]).core.historyLength true (some [3]) (some [4]) = some d0 from h0]
      rfl
    rw [hsrv] at hs
    have hs := Option.some.inj hs
    rw [hs]
    have hd : dirAfter Crypto.toy 60 [1] [2] 10 [3] [4] [] = some (d0, [d0.pad.latest]) := by
      simp only [dirAfter, h0, Option.bind_some, Directory.runLog]
    obtain ⟨inv, _⟩ := dirAfter_padInv Crypto.toy 60 [1] [2] 10 [3] [4] [] (by decide) d0 _ hd
    exact inv.epoch 0 _ rfl
  obtain ⟨D₂, D, h₂, h, ht⟩ := life_runs [1] [3] [4] 2 (by decide) srv.dir.latestSTR
  refine ⟨srv, D₂, D, hsrv, ?_, h, ?_⟩
  · rw [desk_run_append, life_first, Option.bind_some]; exact h₂
  have hlt : epochsOf 1 (lifeBefore 2 srv.dir.latestSTR ++ lifeAfter) < 2 ^ 64 := by rw [(life_epochs _ _).2.1]; decide
  have hne : ascii "unix:///tmp/coniks.sock" ≠ [] := by decide +kernel
  have hmiss : (D₂.terms 1).client.aud.verified.core.epoch.toNat + 2 ≤ epochsOf 1 (lifeBefore 2 srv.dir.latestSTR) := by
    rw [(life_epochs _ _).1, ht]
    show srv.dir.latestSTR.core.epoch.toNat + 2 ≤ 2
    rw [hepoch]
    decide
  have hover : (D₂.terms 1).over = false := by rw [ht]
  have hconf : (D₂.terms 1).conf = ⟨ascii "unix:///tmp/coniks.sock", ascii "tcp://127.0.0.1:3000"⟩ := by rw [ht]
  obtain ⟨_, out, g1, g2⟩ := C90_behind Crypto.toy asciiText sampleMachine [] hostBot (fun _ => false) (deskTerms srv.dir.latestSTR) [.host (.create [ascii "x"])]
    (lifeBefore 2 srv.dir.latestSTR) lifeAfter 1 (lifeConf [1]) [3] [4] srv (lifeStart srv.dir.latestSTR) D₂ D (life_first _) (fun _ h => nomatch h)
    (life_ok _ _) hsrv h₂ h (life_spares _ _) hlt 1 hover life_unopened ⟨ascii "unix:///tmp/coniks.sock", ascii "tcp://127.0.0.1:3000"⟩ hconf
    (ascii "unix:///tmp/coniks.sock") (.inl ⟨rfl, hne⟩) ⟨0, true, [], [], ascii "unix:///tmp/coniks.sock"⟩ (.head _) (life_reg _ _)
    ⟨1, false, ascii "/s/server.pem", ascii "/s/server.key", ascii "tcp://0.0.0.0:3000"⟩ (.tail _ (.head _)) (life_look _ _) hmiss
  rw [g1, ht]
  rw [ht] at g2
  exact g2

/-- before its first update a directory has issued one STR -/
theorem life_log (sk r₁ r₂ : Bytes) (ops : List DirOp) (d : Directory) (log : List STR)
    (h : dirAfter Crypto.toy 60 sk [2] 10 r₁ r₂ ops = some (d, log)) (hu : dirUpdates ops ≤ 0) :
    ∃ d₀, dirAfter Crypto.toy 60 sk [2] 10 r₁ r₂ [] = some (d₀, log) := by
  obtain ⟨d₀, log₀, h₀⟩ : ∃ d₀ log₀, dirAfter Crypto.toy 60 sk [2] 10 r₁ r₂ [] = some (d₀, log₀) := by
    have h' : dirAfter Crypto.toy 60 sk [2] 10 r₁ r₂ ([] ++ ops) = some (d, log) := h
    rw [dirAfter_append] at h'
    obtain ⟨⟨d₀, log₀⟩, h₀, _⟩ := Option.bind_eq_some_iff.mp h'
    exact ⟨d₀, log₀, h₀⟩
  obtain ⟨more, hmore⟩ := dirAfter_prefix Crypto.toy _ _ _ _ r₁ r₂ [] ops d log h _ _ h₀
  obtain ⟨_, l1, _⟩ := dirAfter_padInv Crypto.toy 60 sk [2] 10 r₁ r₂ ops (by omega) d log h
  obtain ⟨_, l0, _⟩ := dirAfter_padInv Crypto.toy 60 sk [2] 10 r₁ r₂ [] (by decide) d₀ log₀ h₀
  have : more = [] := by
    have := congrArg List.length hmore
    rw [List.length_append, l1, l0] at this
    have e0 : dirUpdates [] = 0 := rfl
    exact List.eq_nil_of_length_eq_zero (by omega)
  rw [this, List.append_nil] at hmore
  exact ⟨d₀, hmore ▸ h₀⟩

/-- the first STR of a server of `lifeConf` -/
theorem life_newest (sk r₁ r₂ : Bytes) (srv : Server) (h : newServer Crypto.toy (lifeConf sk).core (some r₁) (some r₂) = some srv) :
    dirAfter Crypto.toy 60 sk [2] 10 r₁ r₂ [] = some (srv.dir, [srv.dir.pad.latest]) := by
  obtain ⟨d0, h0, _⟩ := new_dir_inv Crypto.toy 60 sk [2] 10 r₁ r₂ []
  have hs : newServer Crypto.toy (lifeConf sk).core (some r₁) (some r₂) =
      some ⟨permsMap (lifeConf sk).core.addresses, d0, newEpochTimer (lifeConf sk).core.epochDeadline⟩ := by
    unfold newServer
    rw [show newDirectory Crypto.toy (lifeConf sk).core.policiesDeadline (lifeConf sk).core.vrfKey (lifeConf sk).core.signKey
      (lifeConf sk).core.historyLength true (some r₁) (some r₂) = some d0 from h0]
    rfl
  rw [h] at hs
  have hs := Option.some.inj hs
  rw [hs]
  simp only [dirAfter, h0, Option.bind_some, Directory.runLog]

/-- `C90_restart`: the program was opened with the first STR of a server; a server with the same keys is started -/
example : ∃ (old srv : Server) (D₂ D : Desk), newServer Crypto.toy (lifeConf [1]).core (some [3]) (some [4]) = some old ∧
    newServer Crypto.toy (lifeConf [1]).core (some [7]) (some [8]) = some srv ∧
    (freshDesk (fun _ => false) (deskTerms old.dir.latestSTR)).run Crypto.toy asciiText sampleMachine [] hostBot ([.host (.create [ascii "x"])] ++
      .host (.run 1 (lifeConf [1]) (some [7]) (some [8])) :: lifeBefore 0 old.dir.latestSTR) = some D₂ ∧
    D₂.run Crypto.toy asciiText sampleMachine [] hostBot lifeAfter = some D ∧ OnlyErrors false (typedAt 1 lifeAfter) (D.terms 1).printed := by
  obtain ⟨old, hold⟩ := life_server [1] [3] [4]
  obtain ⟨srv, hsrv⟩ := life_server [1] [7] [8]
  have hd := life_newest [1] [3] [4] old hold
  obtain ⟨D₂, D, h₂, h, ht⟩ := life_runs [1] [7] [8] 0 (by decide) old.dir.latestSTR
  refine ⟨old, srv, D₂, D, hold, hsrv, ?_, h, ?_⟩
  · rw [desk_run_append, life_first, Option.bind_some]; exact h₂
  have hlt : epochsOf 1 (lifeBefore 0 old.dir.latestSTR ++ lifeAfter) < 2 ^ 64 := by rw [(life_epochs _ _).2.1]; decide
  have hne : ascii "unix:///tmp/coniks.sock" ≠ [] := by decide +kernel
  have hover : (D₂.terms 1).over = false := by rw [ht]
  have hconf : (D₂.terms 1).conf = ⟨ascii "unix:///tmp/coniks.sock", ascii "tcp://127.0.0.1:3000"⟩ := by rw [ht]
  have hkey : (D₂.terms 1).client.aud.signKey = Crypto.toy.signPub (lifeConf [1]).signKey := by rw [ht]; rfl
  have hheld : (D₂.terms 1).client.aud.verified = old.dir.pad.latest.toDir := by rw [ht]; rfl
  obtain ⟨ops, d, log, out, g1, g2, g3, g4, g5⟩ := C90_restart Crypto.toy asciiText sampleMachine [] hostBot (fun _ => false) (deskTerms old.dir.latestSTR)
    [.host (.create [ascii "x"])] (lifeBefore 0 old.dir.latestSTR) lifeAfter 1 (lifeConf [1]) [7] [8] srv (lifeStart old.dir.latestSTR) D₂ D (life_first _)
    (fun _ h => nomatch h) (life_ok _ _) hsrv h₂ h (life_spares _ _) hlt 1 hover life_unopened
    ⟨ascii "unix:///tmp/coniks.sock", ascii "tcp://127.0.0.1:3000"⟩ hconf
    (ascii "unix:///tmp/coniks.sock") (.inl ⟨rfl, hne⟩) ⟨0, true, [], [], ascii "unix:///tmp/coniks.sock"⟩ (.head _) (life_reg _ _)
    ⟨1, false, ascii "/s/server.pem", ascii "/s/server.key", ascii "tcp://0.0.0.0:3000"⟩ (.tail _ (.head _)) (life_look _ _)
    60 10 [3] [4] [] old.dir [old.dir.pad.latest] hd (by decide) old.dir.pad.latest (.head _) hkey hheld
  rw [(life_epochs _ _).2.1] at g2
  obtain ⟨d₀, hd₀⟩ := life_log [1] [7] [8] ops d log g1 g2
  have key : ((dirAfter Crypto.toy 60 [1] [2] 10 [3] [4] []).bind fun (x : Directory × List STR) =>
      (dirAfter Crypto.toy 60 [1] [2] 10 [7] [8] []).map fun (y : Directory × List STR) =>
      decide (Crypto.toy.hash [4] ≠ Crypto.toy.hash [8] ∧ NoCollision Crypto.toy.hash ((x.2 ++ y.2).map fun s => s.core.signature) ∧
        ∀ a ∈ x.2 ++ y.2, ∀ b ∈ x.2 ++ y.2, a.core.signature = b.core.signature → a.toDir.serialize = b.toDir.serialize)) =
      some true := by
    rw [dirAfterE_eq, dirAfterE_eq]; decide +kernel
  rw [hd, hd₀, Option.bind_some, Option.map_some] at key
  obtain ⟨k1, k2, k3⟩ := of_decide_eq_true (Option.some.inj key)
  obtain ⟨_, g6⟩ := g5 k1 k2 (fun a ha b hb e _ _ => by
    obtain ⟨a, ha', rfl⟩ := List.mem_map.mp ha
    obtain ⟨b, hb', rfl⟩ := List.mem_map.mp hb
    exact k3 a ha' b hb' e)
  rw [g4, ht]
  rw [ht] at g6
  exact g6

/-- `Signed`, computed -/
def signedB (pk : Bytes) (s : DirSTR) : Bool := match s.serialize with | some m => Crypto.toy.verify pk m s.core.signature | none => false

theorem signed_signedB (pk : Bytes) (s : DirSTR) : Signed Crypto.toy pk s ↔ signedB pk s = true := by
  unfold Signed signedB
  cases s.serialize with
  | none => exact ⟨fun ⟨_, h, _⟩ => (nomatch h), fun h => (nomatch h)⟩
  | some m => exact ⟨fun ⟨_, e, h⟩ => by cases e; exact h, fun h => ⟨m, rfl, h⟩⟩

/-- `C90_other_server`: the program was opened with the STR and the key of one server; one with another key is started at its addresses -/
example : ∃ (old srv : Server) (D₂ D : Desk), newServer Crypto.toy (lifeConf [1]).core (some [3]) (some [4]) = some old ∧
    newServer Crypto.toy (lifeConf [9]).core (some [7]) (some [8]) = some srv ∧
    (freshDesk (fun _ => false) (deskTerms old.dir.latestSTR)).run Crypto.toy asciiText sampleMachine [] hostBot ([.host (.create [ascii "x"])] ++
      .host (.run 1 (lifeConf [9]) (some [7]) (some [8])) :: lifeBefore 0 old.dir.latestSTR) = some D₂ ∧
    D₂.run Crypto.toy asciiText sampleMachine [] hostBot lifeAfter = some D ∧ OnlyErrors false (typedAt 1 lifeAfter) (D.terms 1).printed := by
  obtain ⟨old, hold⟩ := life_server [1] [3] [4]
  obtain ⟨srv, hsrv⟩ := life_server [9] [7] [8]
  have hd := life_newest [1] [3] [4] old hold
  obtain ⟨D₂, D, h₂, h, ht⟩ := life_runs [9] [7] [8] 0 (by decide) old.dir.latestSTR
  refine ⟨old, srv, D₂, D, hold, hsrv, ?_, h, ?_⟩
  · rw [desk_run_append, life_first, Option.bind_some]; exact h₂
  have hlt : epochsOf 1 (lifeBefore 0 old.dir.latestSTR ++ lifeAfter) < 2 ^ 64 := by rw [(life_epochs _ _).2.1]; decide
  have hne : ascii "unix:///tmp/coniks.sock" ≠ [] := by decide +kernel
  have hover : (D₂.terms 1).over = false := by rw [ht]
  have hconf : (D₂.terms 1).conf = ⟨ascii "unix:///tmp/coniks.sock", ascii "tcp://127.0.0.1:3000"⟩ := by rw [ht]
  have one : (dirAfter Crypto.toy 60 [1] [2] 10 [3] [4] []).map (fun (x : Directory × List STR) =>
      decide (∀ a ∈ x.2, signedB (Crypto.toy.signPub [1]) a.toDir = true)) = some true := by
    rw [dirAfterE_eq]; decide +kernel
  rw [hd, Option.map_some] at one
  have one := of_decide_eq_true (Option.some.inj one)
  have hheld : Signed Crypto.toy (D₂.terms 1).client.aud.signKey (D₂.terms 1).client.aud.verified := by
    rw [ht]; exact (signed_signedB _ _).mpr (one _ (.head _))
  obtain ⟨ops, d, log, out, g1, g2, g3, g4, g5⟩ := C90_other_server Crypto.toy asciiText sampleMachine [] hostBot (fun _ => false) (deskTerms old.dir.latestSTR)
    [.host (.create [ascii "x"])] (lifeBefore 0 old.dir.latestSTR) lifeAfter 1 (lifeConf [9]) [7] [8] srv (lifeStart old.dir.latestSTR) D₂ D (life_first _)
    (fun _ h => nomatch h) (life_ok _ _) hsrv h₂ h (life_spares _ _) hlt 1 hover life_unopened
    ⟨ascii "unix:///tmp/coniks.sock", ascii "tcp://127.0.0.1:3000"⟩ hconf
    (ascii "unix:///tmp/coniks.sock") (.inl ⟨rfl, hne⟩) ⟨0, true, [], [], ascii "unix:///tmp/coniks.sock"⟩ (.head _) (life_reg _ _)
    ⟨1, false, ascii "/s/server.pem", ascii "/s/server.key", ascii "tcp://0.0.0.0:3000"⟩ (.tail _ (.head _)) (life_look _ _) hheld
  rw [(life_epochs _ _).2.1] at g2
  obtain ⟨d₀, hd₀⟩ := life_log [9] [7] [8] ops d log g1 g2
  have key : (dirAfter Crypto.toy 60 [9] [2] 10 [7] [8] []).map (fun (x : Directory × List STR) =>
      decide (∀ a ∈ x.2, ¬ signedB (Crypto.toy.signPub [1]) a.toDir = true)) = some true := by
    rw [dirAfterE_eq]; decide +kernel
  rw [hd₀, Option.map_some] at key
  have key := of_decide_eq_true (Option.some.inj key)
  have hk : (D₂.terms 1).client.aud.signKey = Crypto.toy.signPub [1] := by rw [ht]; rfl
  obtain ⟨_, g6⟩ := g5 (by rw [hk]; exact fun s hs h => key s hs ((signed_signedB _ _).mp h))
  rw [g4, ht]
  rw [ht] at g6
  exact g6

/-- `C90_holds`, and hence `C90_locked`: the program was opened with the first STR of the server itself, which then runs on -/
example : ∃ (srv : Server) (D₂ D : Desk), newServer Crypto.toy (lifeConf [1]).core (some [3]) (some [4]) = some srv ∧
    (freshDesk (fun _ => false) (deskTerms srv.dir.latestSTR)).run Crypto.toy asciiText sampleMachine [] hostBot ([.host (.create [ascii "x"])] ++
      .host (.run 1 (lifeConf [1]) (some [3]) (some [4])) :: lifeBefore 1 srv.dir.latestSTR) = some D₂ ∧
    D₂.run Crypto.toy asciiText sampleMachine [] hostBot lifeAfter = some D ∧
    ∃ ops d log, dirAfter Crypto.toy 60 [1] [2] 10 [3] [4] ops = some (d, log) ∧ ∃ s ∈ log, (D.terms 1).client.aud.verified = s.toDir := by
  obtain ⟨srv, hsrv⟩ := life_server [1] [3] [4]
  obtain ⟨D₂, D, h₂, h, ht⟩ := life_runs [1] [3] [4] 1 (by decide) srv.dir.latestSTR
  refine ⟨srv, D₂, D, hsrv, ?_, h, ?_⟩
  · rw [desk_run_append, life_first, Option.bind_some]; exact h₂
  have hlt : epochsOf 1 (lifeBefore 1 srv.dir.latestSTR ++ lifeAfter) < 2 ^ 64 := by rw [(life_epochs _ _).2.1]; decide
  have hne : ascii "unix:///tmp/coniks.sock" ≠ [] := by decide +kernel
  have hover : (D₂.terms 1).over = false := by rw [ht]
  have hconf : (D₂.terms 1).conf = ⟨ascii "unix:///tmp/coniks.sock", ascii "tcp://127.0.0.1:3000"⟩ := by rw [ht]
  have hcc : newClient srv.dir.latestSTR true (Crypto.toy.signPub (lifeConf [1]).signKey) = some (D₂.terms 1).client := by
    rw [ht, desk_newClient]; rfl
  obtain ⟨ops, d, log, g1, _, _, _, g5⟩ := C90_holds Crypto.toy asciiText sampleMachine [] hostBot (fun _ => false) (deskTerms srv.dir.latestSTR)
    [.host (.create [ascii "x"])] (lifeBefore 1 srv.dir.latestSTR) lifeAfter 1 (lifeConf [1]) [3] [4] srv (lifeStart srv.dir.latestSTR) D₂ D (life_first _)
    (fun _ h => nomatch h) (life_ok _ _) hsrv h₂ h (life_spares _ _) hlt 1 hover life_unopened hcc
    ⟨ascii "unix:///tmp/coniks.sock", ascii "tcp://127.0.0.1:3000"⟩ hconf
    (ascii "unix:///tmp/coniks.sock") (.inl ⟨rfl, hne⟩) ⟨0, true, [], [], ascii "unix:///tmp/coniks.sock"⟩ (.head _) (life_reg _ _)
    ⟨1, false, ascii "/s/server.pem", ascii "/s/server.key", ascii "tcp://0.0.0.0:3000"⟩ (.tail _ (.head _)) (life_look _ _)
  exact ⟨ops, d, log, g1, g5⟩

end Coniks.Props

import Verif.Proofs.Load
import Verif.Proofs.Json.Into
import Verif.Props.Cli
import Verif.Props.App
import Verif.Props.Restart
import Verif.Props.Path
/-
C69: the initial STR and the client's configuration. C70: the server's configuration.
-/
namespace Coniks.Props
open Coniks Spec Json

/-! ### C69: the initial STR -/

/-- C69. What `SaveSTR` wrote, `LoadInitSTR` reads back, all fields unchanged, if the epoch is 0; an STR of another epoch is refused. -/
theorem C69_saved_str_loads (D : Disk) (cwd cwd' : Place) (path path' file' : Bytes) (s : DirSTR) (hs : Utf8STR s) (hnew : D (locate cwd path) = none)
    (hp : beside cwd' file' path' = locate cwd path) :
    (saveSTR D cwd path s).2 = true ∧
    loadInitSTR (saveSTR D cwd path s).1 cwd' path' file' = if s.core.epoch = 0 then some (some s) else some none := by
  unfold saveSTR loadInitSTR Disk.read
  rw [write_new hnew, resolve_beside, hp]
  simp only [if_true, true_and]
  exact initSTR_roundtrip s hs

/-- C69. Exactly these texts are loaded, and as what they say (`Spec.IntoSTR`): JSON objects that say the fields of an STR of epoch 0, at least one
field of the tree root among them. -/
theorem C69_reads (text : Bytes) (s : DirSTR) : initSTROf text = some (some s) ↔
    ∃ v w r, JsonText text v ∧ v ≠ .null ∧ IntoSTR ⟨none, none⟩ v w ∧ w.root = some r ∧ r.epoch = 0 ∧ s = ⟨r, w.policies⟩ := by
  simp only [← parse_iff]
  unfold initSTROf
  cases hp : parse text with
  | none => simp
  | some v =>
    rw [Option.bind_some]
    by_cases hv : v = .null
    · subst hv; simp [decPtr]
    · have hd : decPtr ⟨none, none⟩ decSTR (some ⟨none, none⟩) v = (decSTR ⟨none, none⟩ v).map some := by
        cases v <;> first | exact absurd rfl hv | rfl
      rw [hd]
      cases hx : decSTR ⟨none, none⟩ v with
      | none =>
        simp only [Option.map_none, Option.some.injEq, reduceCtorEq, false_iff]
        rintro ⟨v', w, r, rfl, _, h, _⟩
        rw [← agrees_str', hx] at h
        exact nomatch h
      | some x =>
        simp only [Option.map_some]
        constructor
        · intro h
          refine ⟨v, x, ?_⟩
          split at h
          · exact nomatch h
          · rename_i r hr
            split at h
            · exact nomatch h
            · rename_i he
              cases h
              exact ⟨r, rfl, hv, (agrees_str' _ _ _).mp hx, hr, by simpa using he, rfl⟩
        · rintro ⟨v', w, r, h1, _, h2, h3, h4, rfl⟩
          cases h1
          rw [← agrees_str', hx] at h2
          cases h2
          rw [h3]
          simp [h4]

/-- C69, PARTIAL: exactly these texts crash the program that loads them: `null`, and objects that can be read but have no field of the tree root
(`{}`, or only policies). Missing: that nothing crashes, which the comment of `LoadInitSTR` promises. -/
theorem C69_crash_partial (text : Bytes) :
    Panics (initSTROf text) ↔ JsonText text .null ∨
      ∃ ms w, JsonText text (.obj ms) ∧ IntoSTR ⟨none, none⟩ (.obj ms) w ∧
        ∀ name ∈ ["TreeHash", "Epoch", "PreviousEpoch", "PreviousSTRHash", "Signature"], vals name ms = [] := by
  simp only [← parse_iff]
  unfold Panics initSTROf
  cases hp : parse text with
  | none => simp
  | some v =>
    rw [Option.bind_some]
    by_cases hv : v = .null
    · subst hv; simp [decPtr]
    · have hd : decPtr ⟨none, none⟩ decSTR (some ⟨none, none⟩) v = (decSTR ⟨none, none⟩ v).map some := by
        cases v <;> first | exact absurd rfl hv | rfl
      rw [hd]
      cases hx : decSTR ⟨none, none⟩ v with
      | none =>
        simp only [Option.map_none, reduceCtorEq, Option.some.injEq, hv, false_or, false_iff]
        rintro ⟨ms, w, rfl, h, _⟩
        rw [← agrees_str', hx] at h
        exact nomatch h
      | some x =>
        have hi := (agrees_str' _ _ _).mp hx
        simp only [Option.map_some, Option.some.injEq, hv, false_or]
        constructor
        · intro h
          have hr : x.root = none := by
            cases hr : x.root with
            | none => rfl
            | some r => rw [hr] at h; simp only at h; split at h <;> exact nomatch h
          rcases hi with ⟨h1, _⟩ | ⟨ms, h1, h2, h3⟩
          · exact absurd h1 hv
          · refine ⟨ms, x, h1, .inr ⟨ms, rfl, h2, h3⟩, ?_⟩
            split at h3
            · rename_i hc; exact hc.2
            · obtain ⟨r, h4, _⟩ := h3
              rw [hr] at h4; exact nomatch h4
        · rintro ⟨ms, w, rfl, h1, h2⟩
          rcases hi with ⟨h3, _⟩ | ⟨ms', h3, _, h4⟩
          · exact nomatch h3
          · cases h3
            rw [if_pos ⟨rfl, h2⟩] at h4
            rw [h4]

/-- C69: three files that crash the client when it starts, and one with a single field that is loaded. -/
theorem C69_crash_counterexample :
    Panics (initSTROf (ascii "null")) ∧ Panics (initSTROf (ascii "{}")) ∧ Panics (initSTROf (ascii "{\"Policies\":{\"Version\":\"1\"},\"x\":[1]}")) ∧
    initSTROf (ascii "{\"epoch\":0}") = some (some ⟨⟨[], 0, 0, [], []⟩, none⟩) ∧ initSTROf (ascii "{\"Epoch\":1}") = some none := by
  unfold Panics; decide +kernel

/-- C69. Loading does not check the directory's signature: whatever key the directory has, an STR that this key did not sign is loaded. -/
theorem C69_unsigned_counterexample (C : Crypto) (pk : Bytes) (D : Disk) (cwd : Place) (path : Bytes) (hnew : D (locate cwd path) = none) :
    ∃ s : DirSTR, ¬ Signed C pk s ∧ loadInitSTR (saveSTR D cwd path s).1 cwd path [] = some (some s) := by
  refine ⟨⟨⟨[], 0, 0, [], []⟩, some (newPolicies 0 [])⟩, ?_, ?_⟩
  · rintro ⟨m, _, hv⟩
    have := C.verify_length _ _ _ hv
    simp at this
  · refine (C69_saved_str_loads D cwd cwd path path [] _ ?_ hnew rfl).2
    intro p hp
    cases hp
    exact (show StdPol (newPolicies 0 []) from ⟨rfl, rfl⟩).utf8

/-- C69. The harm is bounded: a client that starts with an STR of epoch 0 whose signature is not one of the directory's history (and without
collision of hashes) refuses every answer of the directory, and keeps its STR. -/
theorem C69_wrong_str_refused (C : Crypto) (t0 : UInt64) (sk vk : Bytes) (size : Nat) (r₁ r₂ : Bytes) (pre : List DirOp) (ses : List SesOp)
    (hlt : dirUpdates (pre ++ ses.map SesOp.dirOp) < 2 ^ 64)
    (spread : IndexSpread (fun k => (C.vrfProve vk k).1) (regNames pre ++ sesNames ses))
    (d₀ d : Directory) (log₀ log : List STR) (h₀ : dirAfter C t0 sk vk size r₁ r₂ pre = some (d₀, log₀))
    (h : dirAfter C t0 sk vk size r₁ r₂ (pre ++ ses.map SesOp.dirOp) = some (d, log))
    (s : DirSTR) (hs : ∀ t ∈ log, s.core.signature ≠ t.core.signature) (he : s.core.epoch = 0)
    (noColl : NoCollision C.hash (s.core.signature :: log.map fun t => t.core.signature))
    (cc : Client) (hcc : newClient s true (C.signPub sk) = some cc) :
    runSession C d₀ cc ses = some (d, cc, refusals (absAfter pre) ses) := by
  simp only [newClient, if_true, Option.some.injEq] at hcc
  have hk : cc.aud.signKey = C.signPub sk := by rw [← hcc]; rfl
  have hv : cc.aud.verified = s := by rw [← hcc]; rfl
  have inj := spread_inj spread
  obtain ⟨pinv, _⟩ := dirAfter_padInv C t0 sk vk size r₁ r₂ _ hlt d log h
  have hsig := TwoLives.signed h hlt
  have hlt' := hlt
  rw [dirUpdates_append] at hlt'
  rw [dirAfter_append, h₀, Option.bind_some] at h
  obtain ⟨A, inv, hA, hl⟩ := dirAfter_inv C t0 sk vk size r₁ r₂ pre (regNames pre ++ sesNames ses)
    (fun n hn => List.mem_append_left _ hn) inj (by omega) d₀ log₀ h₀
  rw [hA spread] at inv
  refine session_refused C sk vk _ inj spread cc ses d₀ log₀ (absAfter pre) inv (fun n hn => List.mem_append_right _ hn) (by omega) d log h ?_
  intro t ht
  refine checkBad_of (by rw [hv]; rintro rfl; exact hs t ht rfl) ?_ (by rw [hk]; exact hsig t ht)
  rw [hv]
  intro hlk
  obtain ⟨e, hte⟩ := List.getElem?_of_mem ht
  cases e with
  | zero =>
    have h1 := pinv.epoch 0 t hte
    have h2 := hlk.epoch
    rw [he] at h2
    have : (UInt64.ofNat 0) = (0 : UInt64) + 1 := h1.symm.trans h2
    exact absurd this (by decide)
  | succ e =>
    have hlen : e < log.length := by
      have := (List.getElem?_eq_some_iff.mp hte).1; omega
    have hc := pinv.chain e log[e] t (List.getElem?_eq_getElem hlen) hte
    have : C.hash s.core.signature = C.hash log[e].core.signature := hlk.hash.symm.trans hc
    have hm : log[e] ∈ log := List.getElem_mem hlen
    exact hs _ hm (noColl _ (by simp) _ (by simp; exact .inr ⟨_, hm, rfl⟩) this)

/-! ### C69: the client starts from the server's files -/

theorem newServer_first {C : Crypto} {conf : ServerConfig} {r₁ r₂ : Bytes} {s : Server} (h : newServer C conf (some r₁) (some r₂) = some s) :
    dirAfter C conf.policiesDeadline conf.signKey conf.vrfKey conf.historyLength r₁ r₂ [] = some (s.dir, [s.dir.pad.latest]) := by
  unfold newServer at h
  obtain ⟨d0, hd0, rfl⟩ := Option.map_eq_some_iff.mp h
  simp only [dirAfter, hd0, Option.bind_some, Directory.runLog]

theorem first_epoch {C : Crypto} {t0 : UInt64} {sk vk : Bytes} {size : Nat} {r₁ r₂ : Bytes} {d : Directory} {log : List STR}
    (h : dirAfter C t0 sk vk size r₁ r₂ [] = some (d, log)) : d.latestSTR.core.epoch = 0 ∧ Utf8STR d.latestSTR := by
  refine ⟨?_, (after_std h).latestSTR⟩
  obtain ⟨inv, _⟩ := dirAfter_padInv C t0 sk vk size r₁ r₂ [] (by decide) d log h
  have hl : log = [d.pad.latest] := by
    unfold dirAfter at h
    obtain ⟨d0, _, h1⟩ := Option.bind_eq_some_iff.mp h
    simp only [Directory.runLog, Option.some.injEq, Prod.mk.injEq] at h1
    rw [← h1.2, h1.1]
  exact inv.epoch 0 d.pad.latest (by rw [hl]; rfl)

/-- what a start of the server consists of -/
theorem startServer_spec {C : Crypto} {toml : Bytes → Option ServerToml} {fold : Bytes → Bytes → Bool} {opens : Place → Bool} {D D' : Disk}
    {cwd : Place} {file cf : Bytes} {r₁ r₂ : Option Bytes} {srv : Server}
    (h : startServer C toml fold opens D cwd file r₁ r₂ = some (some (srv, cf, D'))) :
    ∃ c, loadServer toml D cwd file = some (some c) ∧ newLogger fold opens cwd c.logger = some () ∧ newServer C c.core r₁ r₂ = some srv ∧
      cf = c.path ∧ D' = (saveSTR D cwd (resolvePath c.initSTRPath c.path) srv.dir.latestSTR).1 := by
  unfold startServer at h
  obtain ⟨o, h1, h2⟩ := Option.bind_eq_some_iff.mp h
  cases o with
  | none => simp at h2
  | some c =>
    simp only at h2
    obtain ⟨u, h3, h4⟩ := Option.bind_eq_some_iff.mp h2
    obtain ⟨s, h5, h6⟩ := Option.map_eq_some_iff.mp h4
    simp only [Option.some.injEq, Prod.mk.injEq] at h6
    obtain ⟨rfl, rfl, rfl⟩ := h6
    exact ⟨c, h1, h3, h5, rfl, rfl⟩

/-- C69. A client whose configuration names the file in which the server stored its initial STR (there was none before), and a file with a
32-byte key, starts with exactly the server's first STR and that key. `E` is the disk when the client starts: only the one place matters. -/
theorem C69_client_starts (C : Crypto) (tomlS : Bytes → Option ServerToml) (tomlC : Bytes → Option ClientToml) (fold : Bytes → Bytes → Bool)
    (opens : Place → Bool) (D D' E : Disk) (cwd cwd' : Place) (file cf file' : Bytes) (r₁ r₂ : Bytes) (srv : Server) (c : ServerConf)
    (hs : startServer C tomlS fold opens D cwd file (some r₁) (some r₂) = some (some (srv, cf, D')))
    (hc : loadServer tomlS D cwd file = some (some c))
    (hnew : D (beside cwd c.path c.initSTRPath) = none) (hE : E (beside cwd c.path c.initSTRPath) = D' (beside cwd c.path c.initSTRPath))
    (text : Bytes) (t : ClientToml) (htext : E (locate cwd' file') = some text) (ht : tomlC text = some t)
    (hplace : beside cwd' file' t.initSTRPath = beside cwd c.path c.initSTRPath)
    (pk : Bytes) (hpk : E (beside cwd' file' t.signPubkeyPath) = some pk) (hlen : pk.length = 32) :
    startClient tomlC E cwd' file' = (newClient srv.dir.latestSTR true pk).map some := by
  obtain ⟨c', h1, _, h3, _, h5⟩ := startServer_spec hs
  rw [hc] at h1
  cases h1
  obtain ⟨e0, hu⟩ := first_epoch (newServer_first h3)
  have hI : initSTROf (encSTR srv.dir.latestSTR).print = some (some srv.dir.latestSTR) := by
    rw [initSTR_roundtrip _ hu, if_pos e0]
  have hD : E (beside cwd c.path c.initSTRPath) = some (encSTR srv.dir.latestSTR).print := by
    rw [hE, h5]
    unfold saveSTR
    rw [write_new (by rw [resolve_beside]; exact hnew), resolve_beside]
    simp
  unfold startClient loadClient loadSigningPubKey loadInitSTR Disk.read
  rw [htext, Option.bind_some, ht]
  simp only [resolve_beside, hpk, hplace, hD, hI]
  simp [hlen, newClient]

/-- C69. The whole story: a server and a client are started from their configuration files, by any paths and in any directories, as in
`C69_client_starts`, with the public key that belongs to the server's private key. Then what the user reads in the client is what the
directory did, as long as the client keeps up (conditions of `C64_session_partial`, with the directory new). -/
theorem C69_session_partial (C : Crypto) (tomlS : Bytes → Option ServerToml) (tomlC : Bytes → Option ClientToml) (fold : Bytes → Bytes → Bool)
    (opens : Place → Bool) (D D' E : Disk) (cwd cwd' : Place) (file cf file' : Bytes) (r₁ r₂ : Bytes) (srv : Server) (c : ServerConf)
    (hs : startServer C tomlS fold opens D cwd file (some r₁) (some r₂) = some (some (srv, cf, D')))
    (hc : loadServer tomlS D cwd file = some (some c))
    (hnew : D (beside cwd c.path c.initSTRPath) = none) (hE : E (beside cwd c.path c.initSTRPath) = D' (beside cwd c.path c.initSTRPath))
    (text : Bytes) (t : ClientToml) (htext : E (locate cwd' file') = some text) (ht : tomlC text = some t)
    (hplace : beside cwd' file' t.initSTRPath = beside cwd c.path c.initSTRPath)
    (hpk : E (beside cwd' file' t.signPubkeyPath) = some (C.signPub c.signKey)) (hlen : (C.signPub c.signKey).length = 32)
    (evs : List ReplEvent) (hlt : dirUpdates ((sesOps evs).map SesOp.dirOp) < 2 ^ 64)
    (spread : IndexSpread (fun k => (C.vrfProve c.vrfKey k).1) (sesNames (sesOps evs)))
    (hus : ∀ n ∈ ownNames (sesOps evs), C.vrfUsable n = true) (hk : KeepsUp 0 AbsDir.init (sesOps evs))
    (d : Directory) (log : List STR) (h : srv.dir.runLog C [srv.dir.pad.latest] ((sesOps evs).map SesOp.dirOp) = some (d, log))
    (N : Net) (conf : CliConf) (hconf : conf = ⟨t.regAddress, t.address⟩) (hnd : (c.addresses.map AddressToml.ptr).Nodup)
    (ra : Bytes) (hra : ra = conf.regAddress ∧ conf.regAddress ≠ [] ∨ ra = conf.address ∧ conf.regAddress = [])
    (hur : N.scheme ra = some (ascii "tcp") ∨ N.scheme ra = some (ascii "unix"))
    (hua : N.scheme conf.address = some (ascii "tcp") ∨ N.scheme conf.address = some (ascii "unix"))
    (a : AddressToml) (ha : a ∈ c.addresses) (hal : a.ptr = N.listener ra) (hreg : a.allowRegistration = true)
    (b : AddressToml) (hb : b ∈ c.addresses) (hbl : b.ptr = N.listener conf.address)
    (hf : AllFit C srv.dir (sesOps evs) = true) (ts : Bool) :
    ∃ cc cc', startClient tomlC E cwd' file' = some (some cc) ∧
      repl C N conf srv.perms srv.dir cc ts evs = some (d, cc', lines AbsDir.init ts evs) := by
  have hstart := C69_client_starts C tomlS tomlC fold opens D D' E cwd cwd' file cf file' r₁ r₂ srv c hs hc hnew hE text t htext ht hplace
    (C.signPub c.signKey) hpk hlen
  obtain ⟨c', h1, _, h3, _, _⟩ := startServer_spec hs
  rw [hc] at h1
  cases h1
  have h0 := newServer_first h3
  have hperms : srv.perms = permsMap c.core.addresses := by
    unfold newServer at h3
    obtain ⟨d0, _, rfl⟩ := Option.map_eq_some_iff.mp h3
    rfl
  have hptr : (c.core.addresses.map Address.ptr) = c.addresses.map AddressToml.ptr := by
    simp [ServerConf.core, Function.comp_def]
  obtain ⟨cc', hr⟩ := C64_session_partial C c.core.policiesDeadline c.core.signKey c.core.vrfKey c.core.historyLength r₁ r₂ [] evs hlt
    spread hus hk srv.dir _ h0 _ rfl d log (by rw [dirAfter_append, h0, Option.bind_some]; exact h) N conf c.core.addresses
    (by rw [hptr]; exact hnd) ra hra hur hua ⟨a.ptr, a.allowRegistration⟩ (List.mem_map_of_mem ha) hal hreg
    ⟨b.ptr, b.allowRegistration⟩ (List.mem_map_of_mem hb) hbl hf ts
  rw [← hperms] at hr
  exact ⟨_, cc', by rw [hstart]; rfl, hr⟩

/-- C69. The files `coniksclient init` puts into the configuration: for a client in `X/me` the key is looked for in `X/coniksserver`, but the
initial STR in `keyserver/coniksserver` next to `X`. They are files of one server directory exactly if `X` is called `keyserver`. -/
theorem C69_default_paths (cwd : Place) (file me : Bytes) (X : Place) (h : locate cwd (upToSlash file) = me :: X) :
    beside cwd file (defaultClient file).signPubkeyPath = ascii "sign.pub" :: ascii "coniksserver" :: X ∧
    beside cwd file (defaultClient file).initSTRPath = ascii "init.str" :: ascii "coniksserver" :: ascii "keyserver" :: X.tail ∧
    ((beside cwd file (defaultClient file).signPubkeyPath).tail = (beside cwd file (defaultClient file).initSTRPath).tail ↔
      X.head? = some (ascii "keyserver")) := by
  have e1 : beside cwd file (defaultClient file).signPubkeyPath = ascii "sign.pub" :: ascii "coniksserver" :: X := by
    unfold beside
    rw [h, show (defaultClient file).signPubkeyPath = ascii "../coniksserver/sign.pub" from rfl]
    unfold locate
    rw [if_neg (show ¬ Absolute (ascii "../coniksserver/sign.pub") by decide +kernel),
      show names (ascii "../coniksserver/sign.pub") = [[0x2E, 0x2E], ascii "coniksserver", ascii "sign.pub"] by decide +kernel]
    rfl
  have e2 : beside cwd file (defaultClient file).initSTRPath = ascii "init.str" :: ascii "coniksserver" :: ascii "keyserver" :: X.tail := by
    unfold beside
    rw [h, show (defaultClient file).initSTRPath = ascii "../../keyserver/coniksserver/init.str" from rfl]
    unfold locate
    rw [if_neg (show ¬ Absolute (ascii "../../keyserver/coniksserver/init.str") by decide +kernel),
      show names (ascii "../../keyserver/coniksserver/init.str") = [[0x2E, 0x2E], [0x2E, 0x2E], ascii "keyserver", ascii "coniksserver", ascii "init.str"] by decide +kernel]
    rfl
  refine ⟨e1, e2, ?_⟩
  rw [e1, e2]
  cases X with
  | nil => simp
  | cons x X => simp

/-! ### C70: the server's configuration -/

/-- C70. A server loads its configuration exactly if the file can be decoded, both tables are there, every address sets something, and two key files of 64 bytes are there,
their paths taken from the directory of the configuration file. -/
theorem C70_loads_iff (toml : Bytes → Option ServerToml) (D : Disk) (cwd : Place) (file : Bytes) :
    (∃ c, loadServer toml D cwd file = some (some c)) ↔
      ∃ text t p sk vk, D (locate cwd file) = some text ∧ toml text = some t ∧ t.policies = some p ∧ t.logger.isSome ∧ t.bareAddress = false ∧
        D (beside cwd file p.signKeyPath) = some sk ∧ sk.length = 64 ∧ D (beside cwd file p.vrfKeyPath) = some vk ∧ vk.length = 64 := by
  unfold loadServer Disk.read
  simp only [resolve_beside]
  constructor
  · rintro ⟨c, h⟩
    split at h
    · exact nomatch h
    · rename_i t ht
      obtain ⟨text, h1, h2⟩ := Option.bind_eq_some_iff.mp ht
      split at h
      · exact nomatch h
      · rename_i p hp
        split at h
        · exact nomatch h
        · rename_i sk hsk
          split at h
          · exact nomatch h
          · rename_i hl
            split at h
            · exact nomatch h
            · rename_i vk hvk
              split at h
              · exact nomatch h
              · rename_i hl2
                split at h
                · exact nomatch h
                · rename_i hbare
                  split at h
                  · exact nomatch h
                  · rename_i l hlog
                    exact ⟨text, t, p, sk, vk, h1, h2, hp, by rw [hlog]; rfl, by simpa using hbare, hsk, by simpa using hl, hvk, by simpa using hl2⟩
  · rintro ⟨text, t, p, sk, vk, h1, h2, hp, hl, hbare, h3, h4, h5, h6⟩
    obtain ⟨l, hl⟩ := Option.isSome_iff_exists.mp hl
    rw [h1, Option.bind_some, h2]
    simp only [hp, h3, h4, h5, h6, hl, hbare]
    simp

/-- C70. What is loaded: the keys are the contents of the key files, the paths of the certificates and of the log lead to where the configured
paths lead from the directory of the configuration file, everything else is as configured. -/
theorem C70_loaded (toml : Bytes → Option ServerToml) (D : Disk) (cwd : Place) (file : Bytes) (c : ServerConf)
    (h : loadServer toml D cwd file = some (some c)) :
    ∃ text t p l, D (locate cwd file) = some text ∧ toml text = some t ∧ t.policies = some p ∧ t.logger = some l ∧
      D (beside cwd file p.signKeyPath) = some c.signKey ∧ D (beside cwd file p.vrfKeyPath) = some c.vrfKey ∧
      c.policiesDeadline = p.epochDeadline ∧ c.epochDeadline = t.epochDeadline ∧ c.historyLength = t.historyLength ∧
      c.initSTRPath = t.initSTRPath ∧ c.path = t.path.getD file ∧ c.logger.environment = l.environment ∧
      locate cwd c.logger.path = beside cwd file l.path ∧
      c.addresses.length = t.addresses.length ∧
      ∀ (i : Nat) (a b : AddressToml), c.addresses[i]? = some a → t.addresses[i]? = some b →
        a.ptr = b.ptr ∧ a.allowRegistration = b.allowRegistration ∧ a.address = b.address ∧
        locate cwd a.cert = beside cwd file b.cert ∧ locate cwd a.key = beside cwd file b.key := by
  unfold loadServer Disk.read at h
  split at h
  · exact nomatch h
  · rename_i t ht
    obtain ⟨text, h1, h2⟩ := Option.bind_eq_some_iff.mp ht
    split at h
    · exact nomatch h
    · rename_i p hp
      split at h
      · exact nomatch h
      · rename_i sk hsk
        split at h
        · exact nomatch h
        · split at h
          · exact nomatch h
          · rename_i vk hvk
            split at h
            · exact nomatch h
            · split at h
              · exact nomatch h
              split at h
              · exact nomatch h
              · rename_i l hlog
                cases h
                rw [resolve_beside] at hsk hvk
                refine ⟨text, t, p, l, h1, h2, hp, hlog, hsk, hvk, rfl, rfl, rfl, rfl, rfl, rfl, resolve_beside _ _ _, ?_, ?_⟩
                · exact List.length_map _
                · intro i a b ha hb
                  rw [List.getElem?_map, hb] at ha
                  cases ha
                  exact ⟨rfl, rfl, rfl, resolve_beside _ _ _, resolve_beside _ _ _⟩

/-- C70. Where the program is started, and how the path of the configuration is spelled, does not matter: two paths that lead to the same file in
the same directory give the same keys, deadlines and addresses, and paths that lead to the same places. -/
theorem C70_moved (toml : Bytes → Option ServerToml) (D : Disk) (cwd₁ cwd₂ : Place) (f₁ f₂ : Bytes) (hf : locate cwd₁ f₁ = locate cwd₂ f₂)
    (hd : locate cwd₁ (upToSlash f₁) = locate cwd₂ (upToSlash f₂)) :
    (Panics (loadServer toml D cwd₁ f₁) ↔ Panics (loadServer toml D cwd₂ f₂)) ∧
    (∀ c₁, loadServer toml D cwd₁ f₁ = some (some c₁) → ∃ c₂, loadServer toml D cwd₂ f₂ = some (some c₂) ∧ c₁.core = c₂.core ∧
      c₁.initSTRPath = c₂.initSTRPath ∧ locate cwd₁ c₁.logger.path = locate cwd₂ c₂.logger.path ∧
      c₁.addresses.map (fun a => (a.address, locate cwd₁ a.cert, locate cwd₁ a.key)) =
        c₂.addresses.map (fun a => (a.address, locate cwd₂ a.cert, locate cwd₂ a.key))) := by
  have hb : ∀ x, beside cwd₁ f₁ x = beside cwd₂ f₂ x := by intro x; unfold beside; rw [hd]
  unfold loadServer Disk.read Panics
  simp only [resolve_beside, hb, hf]
  cases (D (locate cwd₂ f₂)).bind toml with
  | none => simp
  | some t =>
    simp only
    cases t.policies with
    | none => simp
    | some p =>
      simp only
      cases D (beside cwd₂ f₂ p.signKeyPath) with
      | none => simp
      | some sk =>
        simp only
        by_cases h1 : sk.length ≠ 64
        · simp [h1]
        · rw [if_neg h1, if_neg h1]
          cases D (beside cwd₂ f₂ p.vrfKeyPath) with
          | none => simp
          | some vk =>
            simp only
            by_cases h2 : vk.length ≠ 64
            · simp [h2]
            · rw [if_neg h2, if_neg h2]
              cases t.bareAddress with
              | true => simp
              | false =>
              simp only [Bool.false_eq_true, if_false]
              cases t.logger with
              | none => simp
              | some l =>
                simp only
                refine ⟨by simp, ?_⟩
                intro c₁ hc
                cases hc
                refine ⟨_, rfl, ?_, rfl, ?_, ?_⟩
                · simp [ServerConf.core, Function.comp_def]
                · simp only [resolve_beside, hb]
                · simp [Function.comp_def, resolve_beside, hb]

/-- C70, PARTIAL: loading crashes exactly if the table `[policies]` is missing, or the keys are fine and the table `[logger]` is missing or one of the
`[[addresses]]` has none of the keys `address`, `cert` and `key`.
Missing: these crashes (C58_missing_table_counterexample shows what they do to a running server). -/
theorem C70_crash_partial (toml : Bytes → Option ServerToml) (D : Disk) (cwd : Place) (file : Bytes) :
    Panics (loadServer toml D cwd file) ↔
      ∃ text t, D (locate cwd file) = some text ∧ toml text = some t ∧ (t.policies = none ∨
        (t.logger = none ∨ t.bareAddress = true) ∧ ∃ p sk vk, t.policies = some p ∧ D (beside cwd file p.signKeyPath) = some sk ∧ sk.length = 64 ∧
          D (beside cwd file p.vrfKeyPath) = some vk ∧ vk.length = 64) := by
  unfold loadServer Disk.read Panics
  simp only [resolve_beside]
  cases hx : D (locate cwd file) with
  | none => simp
  | some text =>
    rw [Option.bind_some]
    cases ht : toml text with
    | none => simp [ht]
    | some t =>
      have e : ∀ (P : ServerToml → Prop), (∃ text' t', some text = some text' ∧ toml text' = some t' ∧ P t') ↔ P t := by
        intro P
        constructor
        · rintro ⟨_, t', h1, h2, h3⟩
          cases h1
          rw [ht] at h2
          cases h2
          exact h3
        · intro h; exact ⟨text, t, rfl, ht, h⟩
      rw [e]
      simp only
      cases t.policies with
      | none => simp
      | some p =>
        simp only
        cases hs : D (beside cwd file p.signKeyPath) with
        | none => simp [hs]
        | some sk =>
          simp only
          by_cases h1 : sk.length ≠ 64
          · simp [h1, hs]
          · rw [if_neg h1]
            cases hv : D (beside cwd file p.vrfKeyPath) with
            | none => simp [hv]
            | some vk =>
              simp only
              by_cases h2 : vk.length ≠ 64
              · simp [h2, hv]
              · rw [if_neg h2]
                simp only [ne_eq, Decidable.not_not] at h1 h2
                cases t.bareAddress with
                | true => simp [hs, hv, h1, h2]
                | false =>
                cases t.logger with
                | none => simp [hs, hv, h1, h2]
                | some l => simp

/-- What `updatePolicies` of C58 is given when the configuration is loaded from `file`. -/
def seenFile (toml : Bytes → Option ServerToml) (D : Disk) (cwd : Place) (file : Bytes) : Option LoadedConf :=
  ((D (locate cwd file)).bind toml).map fun t =>
    ⟨t.policies.map fun p => ⟨p.epochDeadline, D (beside cwd file p.signKeyPath), D (beside cwd file p.vrfKeyPath)⟩, t.logger.isSome && !t.bareAddress⟩

/-- C70. A policy reload from `file` is the reload of C58 with what is on the disk. -/
theorem C70_reload (toml : Bytes → Option ServerToml) (D : Disk) (cwd : Place) (file : Bytes) (d : Directory) :
    d.reloadFrom toml D cwd file = d.updatePolicies (seenFile toml D cwd file) := by
  unfold Directory.reloadFrom Directory.updatePolicies loadServer loadConfig seenFile Disk.read
  simp only [resolve_beside]
  cases (D (locate cwd file)).bind toml with
  | none => rfl
  | some t =>
    simp only [Option.map_some]
    cases t.policies with
    | none => rfl
    | some p =>
      simp only [Option.map_some]
      cases D (beside cwd file p.signKeyPath) with
      | none => rfl
      | some sk =>
        simp only
        by_cases h1 : sk.length ≠ 64
        · rw [if_pos h1, if_pos h1]; rfl
        · rw [if_neg h1, if_neg h1]
          cases D (beside cwd file p.vrfKeyPath) with
          | none => rfl
          | some vk =>
            simp only
            by_cases h2 : vk.length ≠ 64
            · rw [if_pos h2, if_pos h2]; rfl
            · rw [if_neg h2, if_neg h2]
              cases t.bareAddress <;> cases t.logger <;> rfl

/-- C70. The server stores its first STR, if there is no file yet, in the place `init_str_path` leads to from the directory of the path that
is written in the configuration file under the key `Path` - only if there is no such key, of the file it was loaded from - and it writes
nothing else. Later it reloads its policies from that path too. -/
theorem C70_stores (C : Crypto) (toml : Bytes → Option ServerToml) (fold : Bytes → Bytes → Bool) (opens : Place → Bool) (D D' : Disk) (cwd : Place)
    (file cf : Bytes) (r₁ r₂ : Option Bytes) (srv : Server) (h : startServer C toml fold opens D cwd file r₁ r₂ = some (some (srv, cf, D'))) :
    ∃ text t, D (locate cwd file) = some text ∧ toml text = some t ∧ cf = t.path.getD file ∧
      ∀ p, D' p = if p = beside cwd (t.path.getD file) t.initSTRPath ∧ D p = none then some (encSTR srv.dir.latestSTR).print else D p := by
  obtain ⟨c, h1, _, _, h4, h5⟩ := startServer_spec h
  obtain ⟨text, t, p, l, g1, g2, _, _, _, _, _, _, _, g9, g10, _⟩ := C70_loaded toml D cwd file c h1
  refine ⟨text, t, g1, g2, h4.trans g10, ?_⟩
  intro q
  rw [h5, ← g9, ← g10]
  unfold saveSTR Disk.write
  rw [resolve_beside]
  by_cases hn : (D (beside cwd c.path c.initSTRPath)).isSome
  · rw [if_pos hn, if_neg]
    rintro ⟨rfl, h'⟩
    rw [h'] at hn; exact nomatch hn
  · rw [if_neg hn]
    have hn : D (beside cwd c.path c.initSTRPath) = none := by simpa using hn
    by_cases hq : q = beside cwd c.path c.initSTRPath
    · subst hq; simp [hn]
    · simp [hq]

/-- C70. The log always goes to a file: a configuration that sets no log file, which the logger takes for "only stderr", is loaded with the
directory of the configuration as log file, and the server crashes when that cannot be opened for writing (as no directory can). -/
theorem C70_no_log_file_counterexample (C : Crypto) (toml : Bytes → Option ServerToml) (fold : Bytes → Bytes → Bool) (opens : Place → Bool) (D : Disk)
    (cwd : Place) (file : Bytes) (r₁ r₂ : Option Bytes) (c : ServerConf) (h : loadServer toml D cwd file = some (some c))
    (text : Bytes) (t : ServerToml) (l : LoggerToml) (h1 : D (locate cwd file) = some text) (h2 : toml text = some t) (h3 : t.logger = some l) (hl : l.path = [])
    (hdir : opens (locate cwd (upToSlash file)) = false) :
    (∀ env, fold (ascii "development") env = true → newLogger fold opens cwd ⟨env, []⟩ = some ()) ∧
    Panics (startServer C toml fold opens D cwd file r₁ r₂) := by
  constructor
  · intro env he; simp [newLogger, he]
  · have hp : c.logger.path = resolvePath [] file := by
      unfold loadServer Disk.read at h
      rw [h1, Option.bind_some, h2] at h
      simp only [h3] at h
      repeat' split at h
      all_goals first | (cases h; done) | skip
      cases h
      simp only [hl]
    obtain ⟨e1, e2⟩ := C68_empty cwd file
    unfold Panics startServer
    rw [h, Option.bind_some]
    have : newLogger fold opens cwd c.logger = none := by
      unfold newLogger
      rw [hp, e1, hdir]
      simp [e2]
    simp only [this, Option.bind_none]

/-! ### C70: `coniksserver init`, then `coniksserver run` -/

theorem plain_name {P : Place} {x : Bytes} (h : (0x2F ∉ x ∧ x ≠ [] ∧ x ≠ [0x2E] ∧ x ≠ [0x2E, 0x2E])) : locate P x = x :: P :=
  locate_name h.1 h.2.1 h.2.2.1 h.2.2.2

/-- what `coniksserver init` leaves on the disk -/
theorem initServer_spec (enc : ServerToml → Bytes) (D : Disk) (cwd : Place) (dir : Bytes) (sign vrf : Bytes × Bytes)
    (hempty : ∀ n ∈ [ascii "config.toml", ascii "sign.priv", ascii "sign.pub", ascii "vrf.priv", ascii "vrf.pub"], D (n :: locate cwd dir) = none) :
    ∀ p, initServer enc D cwd dir sign vrf p =
      if p = ascii "config.toml" :: locate cwd dir then some (enc (defaultServer (pathJoin dir (ascii "config.toml"))))
      else if p = ascii "sign.priv" :: locate cwd dir then some sign.1
      else if p = ascii "sign.pub" :: locate cwd dir then some sign.2
      else if p = ascii "vrf.priv" :: locate cwd dir then some vrf.1
      else if p = ascii "vrf.pub" :: locate cwd dir then some vrf.2
      else D p := by
  have hplace : ∀ n ∈ [ascii "config.toml", ascii "sign.priv", ascii "sign.pub", ascii "vrf.priv", ascii "vrf.pub"],
      locate cwd (pathJoin dir n) = n :: locate cwd dir := by
    intro n hn
    have hg : 0x2F ∉ n ∧ n ≠ [] ∧ n ≠ [0x2E] ∧ n ≠ [0x2E, 0x2E] := by
      revert n; decide +kernel
    rw [join_locate cwd dir n (fun ha => hg.1 (List.mem_of_mem_head? ha)) hg.2.1, plain_name hg]
  have hdist : (ascii "config.toml" ≠ ascii "sign.priv" ∧ ascii "config.toml" ≠ ascii "sign.pub" ∧ ascii "config.toml" ≠ ascii "vrf.priv" ∧
      ascii "config.toml" ≠ ascii "vrf.pub") ∧ (ascii "sign.priv" ≠ ascii "sign.pub" ∧ ascii "sign.priv" ≠ ascii "vrf.priv" ∧
      ascii "sign.priv" ≠ ascii "vrf.pub") ∧ (ascii "sign.pub" ≠ ascii "vrf.priv" ∧ ascii "sign.pub" ≠ ascii "vrf.pub") ∧
      ascii "vrf.priv" ≠ ascii "vrf.pub" := by decide +kernel
  simp only [List.mem_cons, List.not_mem_nil, or_false, forall_eq_or_imp, forall_eq] at hplace hempty
  obtain ⟨p1, p2, p3, p4, p5⟩ := hplace
  obtain ⟨e1, e2, e3, e4, e5⟩ := hempty
  obtain ⟨⟨d1, d2, d3, d4⟩, ⟨d5, d6, d7⟩, ⟨d8, d9⟩, d10⟩ := hdist
  unfold initServer initKey
  generalize locate cwd dir = B at *
  generalize ascii "sign.priv" = sp at *
  generalize ascii "sign.pub" = su at *
  generalize ascii "vrf.priv" = vp at *
  generalize ascii "vrf.pub" = vu at *
  generalize enc (defaultServer (pathJoin dir (ascii "config.toml"))) = text
  generalize ascii "config.toml" = cf at *
  have s1 := write_new (D := D) (cwd := cwd) (path := pathJoin dir cf) (buf := text) (by rw [p1]; exact e1)
  simp only [s1, p1]
  have s2 := write_new (D := fun p => if p = cf :: B then some text else D p) (cwd := cwd) (path := pathJoin dir sp) (buf := sign.1)
    (by rw [p2]; simp [d1.symm, e2])
  simp only [s2, p2]
  have s3 := write_new (D := fun p => if p = sp :: B then some sign.1 else if p = cf :: B then some text else D p) (cwd := cwd)
    (path := pathJoin dir su) (buf := sign.2) (by rw [p3]; simp [d2.symm, d5.symm, e3])
  simp only [s3, p3]
  have s4 := write_new (D := fun p => if p = su :: B then some sign.2 else if p = sp :: B then some sign.1 else if p = cf :: B then some text else D p)
    (cwd := cwd) (path := pathJoin dir vp) (buf := vrf.1) (by rw [p4]; simp [d3.symm, d6.symm, d8.symm, e4])
  simp only [s4, p4]
  have s5 := write_new (D := fun p => if p = vp :: B then some vrf.1 else if p = su :: B then some sign.2 else if p = sp :: B then some sign.1
      else if p = cf :: B then some text else D p)
    (cwd := cwd) (path := pathJoin dir vu) (buf := vrf.2) (by rw [p5]; simp [d4.symm, d7.symm, d9.symm, d10.symm, e5])
  simp only [s5, p5]
  intro p
  by_cases q1 : p = cf :: B
  · subst q1; simp [d1, d2, d3, d4]
  by_cases q2 : p = sp :: B
  · subst q2; simp [d5, d6, d7, d1.symm]
  by_cases q3 : p = su :: B
  · subst q3; simp [d8, d9, d2.symm, d5.symm]
  by_cases q4 : p = vp :: B
  · subst q4; simp [d10, d3.symm, d6.symm, d8.symm]
  simp [q1, q2, q3, q4]

/-- C70. `coniksserver init --dir dir` in a directory without its files, then `coniksserver run --config a/config.toml` from any working
directory, if `a` leads to that directory: the server has the keys that were generated, beside them are the public keys, and it announces
epochs of 60 seconds. But it stores its first STR in the directory to which `dir` leads from where it was *started*: beside the
configuration exactly if this is the same directory. -/
theorem C70_init_then_run (enc : ServerToml → Bytes) (toml : Bytes → Option ServerToml) (D : Disk) (cwd cwd' : Place) (dir a : Bytes)
    (sign vrf : Bytes × Bytes)
    (hrt : toml (enc (defaultServer (pathJoin dir (ascii "config.toml")))) = some (defaultServer (pathJoin dir (ascii "config.toml"))))
    (hempty : ∀ n ∈ [ascii "config.toml", ascii "sign.priv", ascii "sign.pub", ascii "vrf.priv", ascii "vrf.pub"], D (n :: locate cwd dir) = none)
    (h1 : sign.1.length = 64) (h2 : vrf.1.length = 64) (ha : a = [] ∨ ∃ a', a = a' ++ [0x2F]) (hd : locate cwd' a = locate cwd dir) :
    ∃ c, loadServer toml (initServer enc D cwd dir sign vrf) cwd' (a ++ ascii "config.toml") = some (some c) ∧
      c.signKey = sign.1 ∧ c.vrfKey = vrf.1 ∧ c.policiesDeadline = 60 ∧
      initServer enc D cwd dir sign vrf (ascii "sign.pub" :: locate cwd dir) = some sign.2 ∧
      initServer enc D cwd dir sign vrf (ascii "vrf.pub" :: locate cwd dir) = some vrf.2 ∧
      beside cwd' c.path c.initSTRPath = ascii "init.str" :: locate cwd' dir ∧
      (beside cwd' c.path c.initSTRPath = beside cwd' (a ++ ascii "config.toml") c.initSTRPath ↔ locate cwd' dir = locate cwd dir) := by
  have spec := initServer_spec enc D cwd dir sign vrf hempty
  have hcf : (0x2F : UInt8) ∉ ascii "config.toml" ∧ ascii "config.toml" ≠ [] ∧ ascii "config.toml" ≠ [0x2E] ∧ ascii "config.toml" ≠ [0x2E, 0x2E] := by
    decide +kernel
  have hup : upToSlash (a ++ ascii "config.toml") = a := upToSlash_append a _ hcf.1 ha
  have hfile : locate cwd' (a ++ ascii "config.toml") = ascii "config.toml" :: locate cwd dir := by
    rw [(locate_base cwd' a _ hcf.1 ha).1, hd]
    unfold walk
    rw [if_neg (fun h => h.elim hcf.2.1 hcf.2.2.1), if_neg hcf.2.2.2]
  have hbeside : ∀ x, (0x2F ∉ x ∧ x ≠ [] ∧ x ≠ [0x2E] ∧ x ≠ [0x2E, 0x2E]) →
      beside cwd' (a ++ ascii "config.toml") x = x :: locate cwd dir := by
    intro x hx
    unfold beside
    rw [hup, hd, plain_name hx]
  have g1 : initServer enc D cwd dir sign vrf (ascii "config.toml" :: locate cwd dir) =
      some (enc (defaultServer (pathJoin dir (ascii "config.toml")))) := by rw [spec]; simp
  have g2 : initServer enc D cwd dir sign vrf (ascii "sign.priv" :: locate cwd dir) = some sign.1 := by
    rw [spec, if_neg (by simp; decide +kernel), if_pos rfl]
  have g3 : initServer enc D cwd dir sign vrf (ascii "sign.pub" :: locate cwd dir) = some sign.2 := by
    rw [spec, if_neg (by simp; decide +kernel), if_neg (by simp; decide +kernel), if_pos rfl]
  have g4 : initServer enc D cwd dir sign vrf (ascii "vrf.priv" :: locate cwd dir) = some vrf.1 := by
    rw [spec, if_neg (by simp; decide +kernel), if_neg (by simp; decide +kernel), if_neg (by simp; decide +kernel), if_pos rfl]
  have g5 : initServer enc D cwd dir sign vrf (ascii "vrf.pub" :: locate cwd dir) = some vrf.2 := by
    rw [spec, if_neg (by simp; decide +kernel), if_neg (by simp; decide +kernel), if_neg (by simp; decide +kernel),
      if_neg (by simp; decide +kernel), if_pos rfl]
  obtain ⟨c, hc⟩ := (C70_loads_iff toml (initServer enc D cwd dir sign vrf) cwd' (a ++ ascii "config.toml")).mpr
    ⟨_, _, ⟨60, ascii "vrf.priv", ascii "sign.priv"⟩, sign.1, vrf.1, by rw [hfile]; exact g1, hrt, rfl, rfl, rfl,
      by rw [hbeside _ (by decide +kernel)]; exact g2, h1, by rw [hbeside _ (by decide +kernel)]; exact g4, h2⟩
  obtain ⟨text, t, p, l, k1, k2, k3, k4, k5, k6, k7, k8, k9, k10, k11, _⟩ := C70_loaded _ _ _ _ _ hc
  rw [hfile, g1] at k1
  cases k1
  rw [hrt] at k2
  cases k2
  cases k3
  rw [hbeside _ (show _ from by decide +kernel), g2] at k5
  rw [hbeside _ (show _ from by decide +kernel), g4] at k6
  have hi : c.initSTRPath = ascii "init.str" := k10
  have hb : beside cwd' c.path c.initSTRPath = ascii "init.str" :: locate cwd' dir := by
    rw [hi, show c.path = pathJoin dir (ascii "config.toml") from k11]
    unfold beside
    rw [dir_of_join cwd' dir _ hcf.1 hcf.2.1 hcf.2.2.1 hcf.2.2.2, plain_name (by decide +kernel)]
  refine ⟨c, hc, (Option.some.inj k5).symm, (Option.some.inj k6).symm, k7, g3, g5, hb, ?_⟩
  rw [hb, hi, hbeside _ (by decide +kernel)]
  simp

/-- C70, an instance: after `cd /etc/coniks; coniksserver init`, the command `coniksserver run -c /etc/coniks/config.toml` in `/home/op` stores the
first STR in `/home/op`, and a reload of the policies reads `/home/op/config.toml`. -/
theorem C70_elsewhere_counterexample :
    pathJoin (ascii ".") (ascii "config.toml") = ascii "config.toml" ∧
    beside [ascii "op", ascii "home"] (ascii "config.toml") (ascii "init.str") = [ascii "init.str", ascii "op", ascii "home"] ∧
    beside [ascii "op", ascii "home"] (ascii "/etc/coniks/config.toml") (ascii "init.str") = [ascii "init.str", ascii "coniks", ascii "etc"] ∧
    locate [ascii "op", ascii "home"] (defaultServer (ascii "config.toml")).path.get! = [ascii "config.toml", ascii "op", ascii "home"] := by
  decide +kernel

/-! ### The hypotheses are met: a machine with a server in `/s` and a client in `/c` -/

def sampleSignKey : Bytes := List.replicate 64 1

def sampleServerToml : ServerToml :=
  { path := none, logger := some ⟨ascii "production", ascii "log"⟩, historyLength := 10, policies := some ⟨60, ascii "v", ascii "k"⟩
    initSTRPath := ascii "init.str", addresses := [⟨7, true, [], [], ascii "unix:///s/sock"⟩, ⟨8, false, ascii "cert", ascii "/key", ascii "tcp://server:1"⟩], epochDeadline := 60 }

def sampleClientToml : ClientToml :=
  { path := none, signPubkeyPath := ascii "../s/sign.pub", initSTRPath := ascii "/s/init.str", regAddress := [], address := ascii "tcp://server" }

def sampleTomlS (t : Bytes) : Option ServerToml := if t = [1] then some sampleServerToml else none

def sampleTomlC (t : Bytes) : Option ClientToml := if t = [2] then some sampleClientToml else none

def sampleDisk : Disk := fun p =>
  if p = [ascii "config", ascii "s"] then some [1]
  else if p = [ascii "k", ascii "s"] then some sampleSignKey
  else if p = [ascii "v", ascii "s"] then some (List.replicate 64 2)
  else if p = [ascii "sign.pub", ascii "s"] then some (Crypto.toy.signPub sampleSignKey)
  else if p = [ascii "config", ascii "c"] then some [2]
  else none

def sampleFold (a b : Bytes) : Bool := a == b

/-- what is loaded from `/s/config`, named from `/c` -/
def sampleConf : ServerConf :=
  { path := ascii "../s/config", logger := ⟨ascii "production", ascii "../s/log"⟩, historyLength := 10, policiesDeadline := 60
    signKey := sampleSignKey, vrfKey := List.replicate 64 2, initSTRPath := ascii "init.str"
    addresses := [⟨7, true, ascii "../s", ascii "../s", ascii "unix:///s/sock"⟩, ⟨8, false, ascii "../s/cert", ascii "/key", ascii "tcp://server:1"⟩], epochDeadline := 60 }

theorem sample_loads : loadServer sampleTomlS sampleDisk [ascii "c"] (ascii "../s/config") = some (some sampleConf) := by decide +kernel

theorem sample_dir : (dirAfter Crypto.toy 60 sampleSignKey (List.replicate 64 2) 10 [3] [4] ((sesOps sampleRepl).map SesOp.dirOp)).isSome = true := by
  have hops : sesOps sampleRepl = [.register (some [7]) (ascii "alice") (ascii "k1"), .lookup (ascii "bob") none, .dir .update,
      .lookup (ascii "alice") none, .register (some [8]) (ascii "alice") (ascii "k2")] := by rfl
  rw [hops, dirAfterE_eq]; decide +kernel

theorem sample_starts : ∃ srv, startServer Crypto.toy sampleTomlS sampleFold (fun _ => true) sampleDisk [ascii "c"] (ascii "../s/config") (some [3]) (some [4]) =
    some (some (srv, ascii "../s/config", (saveSTR sampleDisk [ascii "c"] (ascii "../s/init.str") srv.dir.latestSTR).1)) ∧
    newServer Crypto.toy sampleConf.core (some [3]) (some [4]) = some srv := by
  obtain ⟨⟨d, log⟩, hd⟩ := Option.isSome_iff_exists.mp sample_dir
  unfold dirAfter at hd
  obtain ⟨d0, h0, _⟩ := Option.bind_eq_some_iff.mp hd
  have hn : newServer Crypto.toy sampleConf.core (some [3]) (some [4]) = some ⟨permsMap sampleConf.core.addresses, d0, newEpochTimer sampleConf.core.epochDeadline⟩ := by
    unfold newServer
    rw [show newDirectory Crypto.toy sampleConf.core.policiesDeadline sampleConf.core.vrfKey sampleConf.core.signKey sampleConf.core.historyLength true
      (some [3]) (some [4]) = some d0 from h0]
    rfl
  refine ⟨_, ?_, hn⟩
  unfold startServer
  rw [sample_loads]
  simp only [Option.bind_some]
  rw [show newLogger sampleFold (fun _ => true) [ascii "c"] sampleConf.logger = some () by decide +kernel, Option.bind_some, hn, Option.map_some,
    show resolvePath sampleConf.initSTRPath sampleConf.path = ascii "../s/init.str" by decide +kernel]
  rfl

/-- hypotheses of `C69_client_starts` and `C69_session_partial`, which give a whole session that ends with "q" -/
example : ∃ cc cc' d, ∃ srv : Server, ∃ D' : Disk, startClient sampleTomlC D' [] (ascii "c/config") = some (some cc) ∧
    repl Crypto.toy sampleNet ⟨[], ascii "tcp://server"⟩ srv.perms srv.dir cc false sampleRepl = some (d, cc',
      [(false, ascii "[+] Succesfully registered name: alice"), (false, ascii "[+] Name isn't registered."),
       (false, ascii "[!] Incorrect number of args to lookup."), (false, ascii "[+] Found! Key bound to name is: []"),
       (false, ascii "[+] Are you trying to update your binding? Unfortunately, KeyChange isn't supported yet."),
       (false, ascii "[+] See ya.")]) := by
  obtain ⟨srv, hs, hn⟩ := sample_starts
  have h0 : dirAfter Crypto.toy 60 sampleSignKey (List.replicate 64 2) 10 [3] [4] [] = some (srv.dir, [srv.dir.pad.latest]) := newServer_first hn
  obtain ⟨⟨d, log⟩, hd⟩ := Option.isSome_iff_exists.mp sample_dir
  have hd' := hd
  rw [show (sesOps sampleRepl).map SesOp.dirOp = [] ++ (sesOps sampleRepl).map SesOp.dirOp from rfl, dirAfter_append, h0, Option.bind_some] at hd'
  have hops : sesOps sampleRepl = [.register (some [7]) (ascii "alice") (ascii "k1"), .lookup (ascii "bob") none, .dir .update,
      .lookup (ascii "alice") none, .register (some [8]) (ascii "alice") (ascii "k2")] := by rfl
  have hfit : ((dirAfter Crypto.toy 60 sampleSignKey (List.replicate 64 2) 10 [3] [4] []).map fun x => AllFit Crypto.toy x.1 (sesOps sampleRepl)) = some true := by
    rw [hops, dirAfterE_eq]; simp only [AllFit, SesOp.dirOp, stepE_eq]; decide +kernel
  rw [h0] at hfit
  have hw : ∀ (q : Place), q ≠ [ascii "init.str", ascii "s"] →
      (saveSTR sampleDisk [ascii "c"] (ascii "../s/init.str") srv.dir.latestSTR).1 q = sampleDisk q := by
    intro q hq
    unfold saveSTR
    rw [write_new (show sampleDisk (locate [ascii "c"] (ascii "../s/init.str")) = none by decide +kernel)]
    simp only
    rw [if_neg]
    rw [show locate [ascii "c"] (ascii "../s/init.str") = [ascii "init.str", ascii "s"] by decide +kernel]
    exact hq
  obtain ⟨cc, cc', h1, h2⟩ := C69_session_partial Crypto.toy sampleTomlS sampleTomlC sampleFold (fun _ => true) sampleDisk _
    (saveSTR sampleDisk [ascii "c"] (ascii "../s/init.str") srv.dir.latestSTR).1 [ascii "c"] [] (ascii "../s/config") _ (ascii "c/config") [3] [4] srv sampleConf
    hs sample_loads (by decide +kernel) rfl [2] sampleClientToml
    ((hw _ (by decide +kernel)).trans (by decide +kernel)) (by decide +kernel) (by decide +kernel)
    ((hw _ (by decide +kernel)).trans (by decide +kernel)) (toyHash_length _)
    sampleRepl (by rw [hops]; decide) (by rw [hops]; decide +kernel) (fun _ _ => rfl) (by rw [hops]; decide +kernel) d log hd'
    sampleNet ⟨[], ascii "tcp://server"⟩ rfl (by decide +kernel)
    (ascii "tcp://server") (.inr ⟨rfl, rfl⟩) (.inl rfl) (.inl rfl) ⟨7, true, ascii "../s", ascii "../s", ascii "unix:///s/sock"⟩ (by decide +kernel) rfl rfl
    ⟨7, true, ascii "../s", ascii "../s", ascii "unix:///s/sock"⟩ (by decide +kernel) rfl (by simpa using hfit) false
  refine ⟨cc, cc', d, srv, _, h1, h2.trans ?_⟩
  refine congrArg some (congrArg (d, cc', ·) ?_)
  decide +kernel

/-- hypotheses of `C70_stores`: the first STR is in `/s`, next to the configuration -/
example : ∃ (srv : Server) (D' : Disk), startServer Crypto.toy sampleTomlS sampleFold (fun _ => true) sampleDisk [ascii "c"] (ascii "../s/config") (some [3]) (some [4]) =
    some (some (srv, ascii "../s/config", D')) ∧ D' [ascii "init.str", ascii "s"] = some (encSTR srv.dir.latestSTR).print := by
  obtain ⟨srv, hs, _⟩ := sample_starts
  obtain ⟨text, t, h1, h2, _, h3⟩ := C70_stores _ _ _ _ _ _ _ _ _ _ _ _ hs
  rw [show sampleDisk (locate [ascii "c"] (ascii "../s/config")) = some [1] by decide +kernel] at h1
  cases h1
  cases h2
  exact ⟨srv, _, hs, (h3 _).trans (if_pos (by decide +kernel))⟩

/-- hypotheses of `C70_moved`: the same configuration by another path, from elsewhere -/
example : locate [ascii "c"] (ascii "../s/config") = locate [ascii "s"] (ascii ".//config") ∧
    locate [ascii "c"] (upToSlash (ascii "../s/config")) = locate [ascii "s"] (upToSlash (ascii ".//config")) := by decide +kernel

/-- hypotheses of `C70_no_log_file_counterexample` -/
example : Panics (startServer Crypto.toy (fun t => (sampleTomlS t).map fun s => { s with logger := some ⟨ascii "development", []⟩ }) sampleFold
    (fun p => p.length == 2) sampleDisk [ascii "c"] (ascii "../s/config") (some [3]) (some [4])) :=
  (C70_no_log_file_counterexample Crypto.toy _ sampleFold (fun p => p.length == 2) sampleDisk [ascii "c"] (ascii "../s/config") (some [3]) (some [4])
    { sampleConf with logger := ⟨ascii "development", ascii "../s"⟩ } (by decide +kernel) [1]
    { sampleServerToml with logger := some ⟨ascii "development", []⟩ } ⟨ascii "development", []⟩
    (by decide +kernel) (by decide +kernel) rfl rfl (by decide +kernel)).2

/-- hypotheses of `C70_init_then_run`: `init` in `/s`, `run` from `/c` -/
example : ∃ c, loadServer (fun _ => some (defaultServer (pathJoin [0x2E] (ascii "config.toml"))))
    (initServer (fun _ => [1]) (fun _ => none) [ascii "s"] [0x2E] (sampleSignKey, [5]) (sampleSignKey, [6])) [ascii "c"] (ascii "../s/" ++ ascii "config.toml") =
      some (some c) ∧ c.signKey = sampleSignKey ∧ beside [ascii "c"] c.path c.initSTRPath = [ascii "init.str", ascii "c"] := by
  obtain ⟨c, h1, h2, _, _, _, _, h3, _⟩ := C70_init_then_run (fun _ => [1]) (fun _ => some (defaultServer (pathJoin [0x2E] (ascii "config.toml")))) (fun _ => none)
    [ascii "s"] [ascii "c"] [0x2E] (ascii "../s/") (sampleSignKey, [5]) (sampleSignKey, [6]) rfl (fun _ _ => rfl) (by decide) (by decide)
    (.inr ⟨ascii "../s", rfl⟩) (by decide +kernel)
  exact ⟨c, h1, h2, h3.trans (by decide +kernel)⟩

/-- hypotheses of `C69_wrong_str_refused`: a made-up STR of epoch 0 -/
example : ∃ d₀ cc d, runSession Crypto.toy d₀ cc afterRestart = some (d, cc, [some CheckBadSTR, some CheckBadSTR, some CheckBadSTR]) := by
  have hrun : (dirAfter Crypto.toy 6 [1] [2] 3 [7] [8] ([] ++ afterRestart.map SesOp.dirOp)).isSome = true := by
    rw [dirAfterE_eq]; decide +kernel
  obtain ⟨⟨d, log⟩, hd⟩ := Option.isSome_iff_exists.mp hrun
  have hd' := hd
  rw [dirAfter_append] at hd'
  obtain ⟨⟨d₀, log₀⟩, h₀, _⟩ := Option.bind_eq_some_iff.mp hd'
  have hsig : ((dirAfter Crypto.toy 6 [1] [2] 3 [7] [8] ([] ++ afterRestart.map SesOp.dirOp)).map fun (x : Directory × List STR) =>
      decide ((∀ t ∈ x.2, ([] : Bytes) ≠ t.core.signature) ∧ NoCollision Crypto.toy.hash (([] : Bytes) :: x.2.map fun t => t.core.signature))) =
      some true := by
    rw [dirAfterE_eq]; decide +kernel
  rw [hd] at hsig
  simp only [Option.map_some, Option.some.injEq, decide_eq_true_eq] at hsig
  have := C69_wrong_str_refused Crypto.toy 6 [1] [2] 3 [7] [8] [] afterRestart (by decide +kernel) (by decide +kernel) d₀ d log₀ log h₀ hd
    ⟨⟨[], 0, 0, [], []⟩, none⟩ hsig.1 rfl hsig.2 _ rfl
  exact ⟨d₀, _, d, this⟩

end Coniks.Props

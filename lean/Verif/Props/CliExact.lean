import Verif.Proofs.CliExact
import Verif.Props.CliNet
import Verif.Props.SessionExact
/-
C64, exact form: what the client prints in every session with an honest directory, and C82 with it.
-/
namespace Coniks.Props
open Coniks Spec Json

/-- C64, exactly. For every session with an honest directory over a network that works and messages that fit (8192 bytes): the client may
start with any STR of the directory and fall behind as far as it likes, the VRF may be any. What is printed is computed from the
index-keyed directory alone (`exactLines`); where that is none the client crashes, and nowhere else. -/
theorem C64_exact (C : Crypto) (t0 : UInt64) (sk vk : Bytes) (size : Nat) (r₁ r₂ : Bytes) (pre : List DirOp) (evs : List ReplEvent)
    (hlt : dirUpdates (pre ++ (sesOps evs).map SesOp.dirOp) < 2 ^ 64)
    (d₀ : Directory) (log₀ : List STR) (h₀ : dirAfter C t0 sk vk size r₁ r₂ pre = some (d₀, log₀))
    (e : Nat) (s : STR) (hs : log₀[e]? = some s) (cc : Client) (hcc : newClient s.toDir true (C.signPub sk) = some cc)
    (d : Directory) (log : List STR) (h : dirAfter C t0 sk vk size r₁ r₂ (pre ++ (sesOps evs).map SesOp.dirOp) = some (d, log))
    (N : Net) (conf : CliConf) (addrs : List Address) (hnd : (addrs.map Address.ptr).Nodup)
    (ra : Bytes) (hra : ra = conf.regAddress ∧ conf.regAddress ≠ [] ∨ ra = conf.address ∧ conf.regAddress = [])
    (hur : N.scheme ra = some (ascii "tcp") ∨ N.scheme ra = some (ascii "unix"))
    (hua : N.scheme conf.address = some (ascii "tcp") ∨ N.scheme conf.address = some (ascii "unix"))
    (a : Address) (ha : a ∈ addrs) (hal : a.ptr = N.listener ra) (hreg : a.allowRegistration = true)
    (b : Address) (hb : b ∈ addrs) (hbl : b.ptr = N.listener conf.address)
    (hf : AllFit C d₀ (sesOps evs) = true) (ts : Bool) :
    (repl C N conf (permsMap addrs) d₀ cc ts evs).map (fun x => (x.1, x.2.2)) =
      (exactLines (fun n => (C.vrfProve vk n).1) C.hash (vrfOk C vk)
        ⟨exactAfter (fun n => (C.vrfProve vk n).1) C.hash pre, dirUpdates pre - e, fun _ => none⟩ ts evs).map fun v => (d, v) := by
  have hrc := reg_eq hra
  subst hrc
  rw [dirUpdates_append] at hlt
  rw [dirAfter_append, h₀, Option.bind_some] at h
  obtain ⟨inv, hl⟩ := dirAfter_exact C t0 sk vk size r₁ r₂ pre (by omega) d₀ log₀ h₀
  simp only [newClient, if_true, Option.some.injEq] at hcc
  subst hcc
  have he := (List.getElem?_eq_some_iff.mp hs).1
  have ht := exact_talk_run C sk vk (sesOps evs) d₀ log₀
    { aud := newAudState (C.signPub sk) s.toDir, bindings := fun _ => none, useTBs := true, tbs := fun _ => none }
    ⟨exactAfter (fun n => (C.vrfProve vk n).1) C.hash pre, dirUpdates pre - e, fun _ => none⟩
    ⟨inv, rfl, rfl, ⟨s, by
      show log₀.reverse[dirUpdates pre - e]? = some s
      rw [List.getElem?_reverse (by omega), ← hs]
      congr 1; omega, rfl⟩, fun n => ⟨rfl, fun p hp => (nomatch hp)⟩, after_policies h₀⟩ (by omega) d log h
  rw [repl_talk (usable_true hur) (usable_true hua) ((C46_permissions addrs hnd _ 0).mpr ⟨a, ha, hal, .inr (.inr (.inr ⟨rfl, hreg⟩))⟩)
    ((C46_permissions addrs hnd _ 1).mpr ⟨b, hb, hbl, .inl rfl⟩) evs d₀ _ ts (after_std h₀) (fun _ => rfl) hf, ← render_exact evs _ ts]
  rw [Option.map_map, Option.map_map]
  generalize exactTalks (fun n => (C.vrfProve vk n).1) C.hash (vrfOk C vk)
    ⟨exactAfter (fun n => (C.vrfProve vk n).1) C.hash pre, dirUpdates pre - e, fun _ => none⟩ (sesOps evs) = X at ht
  generalize runTalk C d₀ { aud := newAudState (C.signPub sk) s.toDir, bindings := fun _ => none, useTBs := true, tbs := fun _ => none }
    (sesOps evs) = Y at ht
  cases X with
  | none =>
    cases Y with
    | none => rfl
    | some y => exact nomatch ht
  | some x =>
    cases Y with
    | none => exact nomatch ht
    | some y =>
      obtain ⟨y1, y2, y3⟩ := y
      simp only [Option.map_some, Option.some.injEq, Prod.mk.injEq] at ht
      simp [Function.comp, ht.1, ht.2]

/-- The sample session of `C64_session_partial`: all hypotheses are met, and `exactLines` is what it should be. -/
example : exactLines (fun n => (Crypto.toy.vrfProve [2] n).1) Crypto.toy.hash (vrfOk Crypto.toy [2])
      ⟨exactAfter (fun n => (Crypto.toy.vrfProve [2] n).1) Crypto.toy.hash [.update], 0, fun _ => none⟩ false sampleRepl =
    some [(false, ascii "[+] Succesfully registered name: alice"), (false, ascii "[+] Name isn't registered."),
       (false, ascii "[!] Incorrect number of args to lookup."), (false, ascii "[+] Found! Key bound to name is: []"),
       (false, ascii "[+] Are you trying to update your binding? Unfortunately, KeyChange isn't supported yet."),
       (false, ascii "[+] See ya.")] := by
  have hops : sesOps sampleRepl = [.register (some [7]) (ascii "alice") (ascii "k1"), .lookup (ascii "bob") none, .dir .update,
      .lookup (ascii "alice") none, .register (some [8]) (ascii "alice") (ascii "k2")] := by rfl
  have hrun : (dirAfter Crypto.toy 5 [1] [2] 10 [3] [4] ([.update] ++ (sesOps sampleRepl).map SesOp.dirOp)).isSome = true := by
    rw [hops, dirAfterE_eq]; decide +kernel
  obtain ⟨⟨d, log⟩, hd⟩ := Option.isSome_iff_exists.mp hrun
  have hd' := hd
  rw [dirAfter_append] at hd'
  obtain ⟨⟨d₀, log₀⟩, h₀, _⟩ := Option.bind_eq_some_iff.mp hd'
  have hfit : ((dirAfter Crypto.toy 5 [1] [2] 10 [3] [4] [.update]).map fun x => AllFit Crypto.toy x.1 (sesOps sampleRepl)) = some true := by
    rw [hops, dirAfterE_eq]; simp only [AllFit, SesOp.dirOp, stepE_eq]; decide +kernel
  rw [h₀] at hfit
  have hfit' : AllFit Crypto.toy d₀ (sesOps sampleRepl) = true := by simpa using hfit
  obtain ⟨inv, hl⟩ := dirAfter_exact Crypto.toy 5 [1] [2] 10 [3] [4] [.update] (by decide) d₀ log₀ h₀
  have hlast : log₀[1]? = some d₀.pad.latest := by
    have := inv.pad.latest_get
    rw [hl] at this
    exact this
  obtain ⟨cc', h⟩ := C64_session_partial Crypto.toy 5 [1] [2] 10 [3] [4] [.update] sampleRepl (by rw [hops]; decide)
    (by rw [hops]; decide +kernel) (fun _ _ => rfl) (by rw [hops]; decide +kernel) d₀ log₀ h₀ _ rfl d log hd
    sampleNet ⟨[], ascii "tcp://server"⟩ [⟨7, true⟩] (by decide)
    (ascii "tcp://server") (.inr ⟨rfl, rfl⟩) (.inl rfl) (.inl rfl) ⟨7, true⟩ (by simp) rfl rfl ⟨7, true⟩ (by simp) rfl hfit' false
  have hx := C64_exact Crypto.toy 5 [1] [2] 10 [3] [4] [.update] sampleRepl (by rw [hops]; decide) d₀ log₀ h₀ 1 _ hlast _ rfl d log hd
    sampleNet ⟨[], ascii "tcp://server"⟩ [⟨7, true⟩] (by decide)
    (ascii "tcp://server") (.inr ⟨rfl, rfl⟩) (.inl rfl) (.inl rfl) ⟨7, true⟩ (by simp) rfl rfl ⟨7, true⟩ (by simp) rfl hfit' false
  rw [show d₀.pad.latest.toDir = d₀.latestSTR from rfl, h] at hx
  obtain ⟨v, h1, h2⟩ := Option.map_eq_some_iff.mp hx.symm
  simp only [Prod.mk.injEq, true_and] at h2
  rw [show lines (absAfter [.update]) false sampleRepl = [(false, ascii "[+] Succesfully registered name: alice"),
    (false, ascii "[+] Name isn't registered."),
       (false, ascii "[!] Incorrect number of args to lookup."), (false, ascii "[+] Found! Key bound to name is: []"),
       (false, ascii "[+] Are you trying to update your binding? Unfortunately, KeyChange isn't supported yet."),
       (false, ascii "[+] See ya.")] by decide +kernel] at h2
  rw [← h2]; exact h1

/-- a registration is not the only thing that can go wrong: the same name with the wrong key, a lookup while far behind -/
example : registerWords (some CheckBindingsDiffer) ReqNameExisted [0x61] =
      ascii "Are you trying to update your binding? Unfortunately, KeyChange isn't supported yet." ∧
    lookupWords (some CheckBadSTR) ReqSuccess = badSTRText := by decide +kernel

/-- C82 with C64: what a session over a network that may fail prints, besides its error lines, is what `exactLines` says of the session
without the commands that failed. -/
theorem C82_lines (C : Crypto) (t0 : UInt64) (sk vk : Bytes) (size : Nat) (r₁ r₂ : Bytes) (pre : List DirOp) (evs : List NetEvent)
    (d₀ : Directory) (log₀ : List STR) (h₀ : dirAfter C t0 sk vk size r₁ r₂ pre = some (d₀, log₀))
    (e : Nat) (s : STR) (hs : log₀[e]? = some s) (cc : Client) (hcc : newClient s.toDir true (C.signPub sk) = some cc)
    (N : Net) (conf : CliConf) (addrs : List Address) (hnd : (addrs.map Address.ptr).Nodup)
    (ra : Bytes) (hra : ra = conf.regAddress ∧ conf.regAddress ≠ [] ∨ ra = conf.address ∧ conf.regAddress = [])
    (hur : N.scheme ra = some (ascii "tcp") ∨ N.scheme ra = some (ascii "unix"))
    (hua : N.scheme conf.address = some (ascii "tcp") ∨ N.scheme conf.address = some (ascii "unix"))
    (a : Address) (ha : a ∈ addrs) (hal : a.ptr = N.listener ra) (hreg : a.allowRegistration = true)
    (b : Address) (hb : b ∈ addrs) (hbl : b.ptr = N.listener conf.address) (ts : Bool)
    (d' : Directory) (cc' : Client) (out : List (Bool × Bytes))
    (hr : replOver C N conf (permsMap addrs) d₀ cc ts evs = some (d', cc', out)) :
    ∃ evs' out', Faulty ts evs out evs' out' ∧
      (AllFit C d₀ (sesOps evs') = true → dirUpdates (pre ++ (sesOps evs').map SesOp.dirOp) < 2 ^ 64 →
        exactLines (fun n => (C.vrfProve vk n).1) C.hash (vrfOk C vk)
          ⟨exactAfter (fun n => (C.vrfProve vk n).1) C.hash pre, dirUpdates pre - e, fun _ => none⟩ ts evs' = some out') := by
  obtain ⟨evs', out', hF, hrep⟩ := C82_session C t0 sk vk size r₁ r₂ pre d₀ log₀ h₀ N conf (permsMap addrs) cc ts evs d' cc' out hr
  refine ⟨evs', out', hF, fun hf hlt => ?_⟩
  have hrc := reg_eq hra
  have htalk := repl_talk (usable_true (hrc ▸ hur)) (usable_true hua)
    ((C46_permissions addrs hnd _ 0).mpr ⟨a, ha, hrc ▸ hal, .inr (.inr (.inr ⟨rfl, hreg⟩))⟩)
    ((C46_permissions addrs hnd _ 1).mpr ⟨b, hb, hbl, .inl rfl⟩) evs' d₀ cc ts (after_std h₀)
    (by
      simp only [newClient, if_true, Option.some.injEq] at hcc
      subst hcc
      exact fun _ => rfl) hf
  rw [hrep] at htalk
  obtain ⟨⟨z1, z2, z3⟩, hz, hx⟩ := Option.map_eq_some_iff.mp htalk.symm
  simp only [Prod.mk.injEq] at hx
  obtain ⟨log', hl⟩ := runTalk_runLog (sesOps evs') d₀ cc log₀ z1 z2 z3 hz
  have hd : dirAfter C t0 sk vk size r₁ r₂ (pre ++ (sesOps evs').map SesOp.dirOp) = some (z1, log') := by
    rw [dirAfter_append, h₀]
    exact hl
  have h := C64_exact C t0 sk vk size r₁ r₂ pre evs' hlt d₀ log₀ h₀ e s hs cc hcc z1 log' hd N conf addrs hnd ra hra hur hua a ha hal hreg
    b hb hbl hf ts
  rw [hrep] at h
  obtain ⟨v, h1, h2⟩ := Option.map_eq_some_iff.mp h.symm
  simp only [Prod.mk.injEq] at h2
  rw [h1, h2.2]

end Coniks.Props

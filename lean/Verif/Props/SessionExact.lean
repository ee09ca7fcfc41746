import Verif.Proofs.SessionExact
import Verif.Props.DirExact
import Verif.Props.Session
/-
C33 without hypotheses on the VRF: everything a client says in a session with an honest directory.
-/
namespace Coniks.Props
open Coniks Spec

/-- C33, exactly. A client is created (`New`) with the public key of an honest directory and any STR that this directory has issued so
far, `dirUpdates pre - e` epochs ago. Then anything happens at the directory, for any number of epochs, and in between the client looks
names up, with or without an expectation, and registers names. For every cryptography, every history and every session, what
`HandleResponse` returns, call by call, or that it crashes, is `exactVerdicts`: a function of the index-keyed directory `ExactDir`, the
number of epochs since the client last accepted an STR, and the keys the client was promised. -/
theorem C33_exact (C : Crypto) (t0 : UInt64) (sk vk : Bytes) (size : Nat) (r₁ r₂ : Bytes) (pre : List DirOp) (ops : List SesOp)
    (hlt : dirUpdates (pre ++ ops.map SesOp.dirOp) < 2 ^ 64)
    (d₀ : Directory) (log₀ : List STR) (h₀ : dirAfter C t0 sk vk size r₁ r₂ pre = some (d₀, log₀))
    (e : Nat) (s : STR) (hs : log₀[e]? = some s)
    (cc : Client) (hcc : newClient s.toDir true (C.signPub sk) = some cc)
    (d : Directory) (log : List STR) (h : dirAfter C t0 sk vk size r₁ r₂ (pre ++ ops.map SesOp.dirOp) = some (d, log)) :
    (runSession C d₀ cc ops).map (fun x => (x.1, x.2.2)) =
      (exactVerdicts (fun n => (C.vrfProve vk n).1) C.hash (vrfOk C vk)
        ⟨exactAfter (fun n => (C.vrfProve vk n).1) C.hash pre, dirUpdates pre - e, fun _ => none⟩ ops).map (fun v => (d, v)) := by
  rw [dirUpdates_append] at hlt
  rw [dirAfter_append, h₀, Option.bind_some] at h
  obtain ⟨inv, hl⟩ := dirAfter_exact C t0 sk vk size r₁ r₂ pre (by omega) d₀ log₀ h₀
  simp only [newClient, if_true, Option.some.injEq] at hcc
  subst hcc
  have he := (List.getElem?_eq_some_iff.mp hs).1
  refine exact_session_run C sk vk ops d₀ log₀ _ _ ⟨inv, rfl, rfl, ⟨s, ?_, rfl⟩, ?_, after_policies h₀⟩ (by omega) d log h
  · show log₀.reverse[dirUpdates pre - e]? = some s
    rw [List.getElem?_reverse (by omega), ← hs]
    congr 1; omega
  · intro n
    exact ⟨rfl, fun p hp => (nomatch hp)⟩

/-- In the history with a ghost: a lookup of the unregistered name `[0]` with no expectation crashes the client, in every session that
begins so; with an expectation it is told that the bindings differ. -/
example (d₀ d : Directory) (log₀ log : List STR) (h₀ : dirAfter Crypto.deep 5 [1] [2] 10 [3] [4]
      [.register (some [1]) ⟨[0x80], [1]⟩, .register (some [1]) ⟨[0xC0], [2]⟩, .update] = some (d₀, log₀))
    (s : STR) (hs : log₀[1]? = some s) (cc : Client) (hcc : newClient s.toDir true (Crypto.deep.signPub [1]) = some cc)
    (h : dirAfter Crypto.deep 5 [1] [2] 10 [3] [4]
      ([.register (some [1]) ⟨[0x80], [1]⟩, .register (some [1]) ⟨[0xC0], [2]⟩, .update] ++
        ([.lookup [0] (some [9]), .lookup [0] none] : List SesOp).map SesOp.dirOp) = some (d, log)) :
    runSession Crypto.deep d₀ cc [.lookup [0] (some [9]), .lookup [0] none] = none := by
  have := C33_exact Crypto.deep 5 [1] [2] 10 [3] [4] _ [.lookup [0] (some [9]), .lookup [0] none] (by decide) d₀ log₀ h₀ 1 s hs cc hcc
    d log h
  have hv : exactVerdicts (fun n => (Crypto.deep.vrfProve [2] n).1) Crypto.deep.hash (vrfOk Crypto.deep [2])
      ⟨exactAfter (fun n => (Crypto.deep.vrfProve [2] n).1) Crypto.deep.hash
        [.register (some [1]) ⟨[0x80], [1]⟩, .register (some [1]) ⟨[0xC0], [2]⟩, .update], 0, fun _ => none⟩
      [.lookup [0] (some [9]), .lookup [0] none] = none := by
    have hok : vrfOk Crypto.deep [2] [0] = true := by decide +kernel
    simp only [exactVerdicts, deep_exact.2.2.1, Meeting.hear, clientSays, hok]
    simp [exactVerdicts, deep_exact.2.2.1]
  rw [show dirUpdates [.register (some [1]) ⟨[0x80], [1]⟩, .register (some [1]) ⟨[0xC0], [2]⟩, .update] - 1 = 0 from rfl, hv] at this
  simpa using this

/-- The sample session of `C33_session`: the hypotheses are met, and `exactVerdicts` is what it should be. -/
example : exactVerdicts (fun n => (Crypto.toy.vrfProve [2] n).1) Crypto.toy.hash (vrfOk Crypto.toy [2])
      ⟨exactAfter (fun n => (Crypto.toy.vrfProve [2] n).1) Crypto.toy.hash [.update], 0, fun _ => none⟩ sampleSession =
    some [none, none, some CheckBindingsDiffer, none, some ErrMalformedMessage, some CheckBindingsDiffer, none] := by
  have hrun : (dirAfter Crypto.toy 5 [1] [2] 10 [3] [4] ([.update] ++ sampleSession.map SesOp.dirOp)).isSome = true := by
    rw [dirAfterE_eq]; decide +kernel
  obtain ⟨⟨d, log⟩, hd⟩ := Option.isSome_iff_exists.mp hrun
  have hd' := hd
  rw [dirAfter_append] at hd'
  obtain ⟨⟨d₀, log₀⟩, h₀, _⟩ := Option.bind_eq_some_iff.mp hd'
  obtain ⟨inv, hl⟩ := dirAfter_exact Crypto.toy 5 [1] [2] 10 [3] [4] [.update] (by decide) d₀ log₀ h₀
  have hlast : log₀[1]? = some d₀.pad.latest := by
    have := inv.pad.latest_get
    rw [hl] at this
    exact this
  obtain ⟨cc', h⟩ := C33_session Crypto.toy 5 [1] [2] 10 [3] [4] [.update] sampleSession (by decide) (by decide +kernel) (fun _ _ => rfl)
    (by decide +kernel) d₀ log₀ h₀ _ rfl d log hd
  have hx := C33_exact Crypto.toy 5 [1] [2] 10 [3] [4] [.update] sampleSession (by decide) d₀ log₀ h₀ 1 _ hlast _ rfl d log hd
  rw [show verdicts (absAfter [.update]) sampleSession =
    [none, none, some CheckBindingsDiffer, none, some ErrMalformedMessage, some CheckBindingsDiffer, none] by decide +kernel] at h
  rw [show d₀.pad.latest.toDir = d₀.latestSTR from rfl, h] at hx
  obtain ⟨v, h1, h2⟩ := Option.map_eq_some_iff.mp hx.symm
  simp only [Prod.mk.injEq, true_and] at h2
  rw [← h2]; exact h1

end Coniks.Props

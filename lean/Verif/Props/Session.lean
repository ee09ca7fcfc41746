import Verif.Proofs.Session
/-
C33: a client with an honest directory.
-/
namespace Coniks.Props
open Coniks Spec

/-- C33. A client is created (`New`) with the public key and the current STR of an honest directory, at any point of its history `pre`. Then
anything happens at the directory, for any number of epochs, and in between the client looks names up, with or without an expectation, and
registers names. The usual case of `C33_exact`: indices are spread over the first 248 bits, and the names the client asks for are
ones whose VRF proof verifies (all but twelve values of their hash: C07_go_complete). If the client makes at least one answered
call per epoch, every `HandleResponse` returns without panic, exactly: the directory's error if it refused the request, `CheckBindingsDiffer`
if the client expects a key and the directory has another, else nil. -/
theorem C33_session (C : Crypto) (t0 : UInt64) (sk vk : Bytes) (size : Nat) (r₁ r₂ : Bytes) (pre : List DirOp) (ops : List SesOp)
    (hlt : dirUpdates (pre ++ ops.map SesOp.dirOp) < 2 ^ 64)
    (spread : IndexSpread (fun k => (C.vrfProve vk k).1) (regNames pre ++ sesNames ops))
    (hus : ∀ n ∈ ownNames ops, C.vrfUsable n = true)
    (hk : KeepsUp 0 (absAfter pre) ops)
    (d₀ : Directory) (log₀ : List STR) (h₀ : dirAfter C t0 sk vk size r₁ r₂ pre = some (d₀, log₀))
    (cc : Client) (hcc : newClient d₀.latestSTR true (C.signPub sk) = some cc)
    (d : Directory) (log : List STR) (h : dirAfter C t0 sk vk size r₁ r₂ (pre ++ ops.map SesOp.dirOp) = some (d, log)) :
    ∃ cc', runSession C d₀ cc ops = some (d, cc', verdicts (absAfter pre) ops) := by
  have inj := spread_inj spread
  rw [dirUpdates_append] at hlt
  rw [dirAfter_append, h₀, Option.bind_some] at h
  obtain ⟨A, inv, hA, hl⟩ := dirAfter_inv C t0 sk vk size r₁ r₂ pre (regNames pre ++ sesNames ops)
    (fun n hn => List.mem_append_left _ hn) inj (by omega) d₀ log₀ h₀
  rw [hA spread] at inv
  simp only [newClient, if_true, Option.some.injEq] at hcc
  subst hcc
  refine session_run C sk vk _ inj spread ops d₀ log₀ (absAfter pre) _ 0
    ⟨inv, rfl, rfl, ⟨_, last_rev inv.pad.last, rfl⟩, ?_, after_policies h₀⟩
    (fun n hn => List.mem_append_right _ hn) hus hk (by omega) d log h
  intro n p hp; nomatch hp

/-- alice registers, an epoch passes, our client looks her up with the right and with a wrong expectation, looks up a name nobody has, and
tries to take alice's name; bob registers in the meantime -/
def sampleSession : List SesOp :=
  [.register (some [7]) [0x61] [9, 9], .dir (.register (some [8]) ⟨[0x62], [5]⟩), .dir .update, .lookup [0x61] (some [9, 9]),
   .lookup [0x61] (some [1]), .lookup [0x63] none, .lookup [] none, .dir .update, .register (some [6]) [0x61] [3], .lookup [0x62] none]

example : ∃ d₀ log₀ cc d cc', dirAfter Crypto.toy 5 [1] [2] 10 [3] [4] [.update] = some (d₀, log₀) ∧
    newClient d₀.latestSTR true (Crypto.toy.signPub [1]) = some cc ∧
    runSession Crypto.toy d₀ cc sampleSession =
      some (d, cc', [none, none, some CheckBindingsDiffer, none, some ErrMalformedMessage, some CheckBindingsDiffer, none]) := by
  have hrun : (dirAfter Crypto.toy 5 [1] [2] 10 [3] [4] ([.update] ++ sampleSession.map SesOp.dirOp)).isSome = true := by
    rw [dirAfterE_eq]; decide +kernel
  obtain ⟨⟨d, log⟩, hd⟩ := Option.isSome_iff_exists.mp hrun
  have hd' := hd
  rw [dirAfter_append] at hd'
  obtain ⟨⟨d₀, log₀⟩, h₀, _⟩ := Option.bind_eq_some_iff.mp hd'
  obtain ⟨cc', h⟩ := C33_session Crypto.toy 5 [1] [2] 10 [3] [4] [.update] sampleSession (by decide) (by decide +kernel) (fun _ _ => rfl)
    (by decide +kernel) d₀ log₀ h₀ _ rfl d log hd
  rw [show verdicts (absAfter [.update]) sampleSession =
    [none, none, some CheckBindingsDiffer, none, some ErrMalformedMessage, some CheckBindingsDiffer, none] by decide +kernel] at h
  exact ⟨d₀, log₀, _, d, cc', h₀, rfl, h⟩

/-- C33, the limit: a client that holds an STR two or more epochs old is lost for good. Whatever it asks and however long it goes on, each of
its answered calls to the honest directory ends in `CheckBadSTR`, and its state never changes. -/
theorem C33_two_epochs_behind_counterexample (C : Crypto) (t0 : UInt64) (sk vk : Bytes) (size : Nat) (r₁ r₂ : Bytes) (pre : List DirOp)
    (ops : List SesOp) (hlt : dirUpdates (pre ++ ops.map SesOp.dirOp) < 2 ^ 64)
    (spread : IndexSpread (fun k => (C.vrfProve vk k).1) (regNames pre ++ sesNames ops))
    (d₀ : Directory) (log₀ : List STR) (h₀ : dirAfter C t0 sk vk size r₁ r₂ pre = some (d₀, log₀))
    (cc : Client) (e : Nat) (s : STR) (he : log₀[e]? = some s) (hcc : cc.aud.verified = s.toDir) (hb : e + 2 ≤ dirUpdates pre)
    (d : Directory) (log : List STR) (h : dirAfter C t0 sk vk size r₁ r₂ (pre ++ ops.map SesOp.dirOp) = some (d, log)) :
    runSession C d₀ cc ops = some (d, cc, refusals (absAfter pre) ops) := by
  have inj := spread_inj spread
  rw [dirUpdates_append] at hlt
  rw [dirAfter_append, h₀, Option.bind_some] at h
  obtain ⟨A, inv, hA, hl⟩ := dirAfter_inv C t0 sk vk size r₁ r₂ pre (regNames pre ++ sesNames ops)
    (fun n hn => List.mem_append_left _ hn) inj (by omega) d₀ log₀ h₀
  rw [hA spread] at inv
  refine session_behind C sk vk _ inj spread cc ops d₀ log₀ (absAfter pre) inv ?_ (fun n hn => List.mem_append_right _ hn) (by omega) d log h
  rw [hcc, show s.toDir.core = s.core from rfl, inv.pad.epoch _ _ he, ofNat_toNat64 (by omega)]
  omega

example : ∃ d₀ cc d, runSession Crypto.toy d₀ cc [.lookup [0x61] none, .dir .update, .lookup [0x62] none] =
    some (d, cc, [some CheckBadSTR, some CheckBadSTR]) := by
  have hrun : (dirAfter Crypto.toy 5 [1] [2] 10 [3] [4] ([.update, .update] ++
      ([.lookup [0x61] none, .dir .update, .lookup [0x62] none] : List SesOp).map SesOp.dirOp)).isSome = true := by
    rw [dirAfterE_eq]; decide +kernel
  obtain ⟨⟨d, log⟩, hd⟩ := Option.isSome_iff_exists.mp hrun
  have hd' := hd
  rw [dirAfter_append] at hd'
  obtain ⟨⟨d₀, log₀⟩, h₀, _⟩ := Option.bind_eq_some_iff.mp hd'
  obtain ⟨_, _, _, hl⟩ := dirAfter_inv Crypto.toy 5 [1] [2] 10 [3] [4] [.update, .update] [] (by simp [regNames])
    (by intro a ha; simp at ha) (by decide) d₀ log₀ h₀
  have hpos : 0 < log₀.length := by omega
  have := C33_two_epochs_behind_counterexample Crypto.toy 5 [1] [2] 10 [3] [4] [.update, .update] _ (by decide) (by decide +kernel)
    d₀ log₀ h₀ (toyClient log₀[0].toDir) 0 log₀[0] (List.getElem?_eq_getElem hpos) rfl (by decide) d log hd
  exact ⟨d₀, _, d, this⟩

end Coniks.Props

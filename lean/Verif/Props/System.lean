import Verif.Spec.Mitm
import Verif.Props.VrfGo
import Verif.Props.Session
/-
The interface `Crypto` of the rest of the model, with the VRF of the Go code: crypto/vrf/vrf.go over crypto/internal/ed25519. What is left
abstract is SHAKE128, SHAKE256 and the signature scheme (golang.org/x/crypto and the standard library).
-/
namespace Coniks
open Coniks.Spec Coniks.Ed Coniks.Props

/-- What the code takes from outside the repository: SHAKE128 (crypto/util.go:19-27), Ed25519 signatures (crypto/sign/sign.go:48-66) and
SHAKE256 (crypto/vrf/vrf.go:16). -/
structure External where
  hash : Bytes → Bytes
  hash_length : ∀ m, (hash m).length = 32
  signPub : Bytes → Bytes
  sign : Bytes → Bytes → Bytes
  verify : Bytes → Bytes → Bytes → Bool
  sign_length : ∀ sk m, (sign sk m).length = 64
  verify_sign : ∀ sk m, verify (signPub sk) m (sign sk m) = true
  verify_length : ∀ pk m s, verify pk m s = true → s.length = 64
  xof : Xof

/-- The first 32 bytes, filled up with zeros: the seed of a VRF key pair. A private key of vrf.go is the 64 bytes that `GenerateKey`
makes from the seed. -/
def seedOf (s : Bytes) : Bytes := (s ++ List.replicate 32 0).take 32

theorem seedOf_length (s : Bytes) : (seedOf s).length = 32 := by simp [seedOf]

theorem seedOf_id {s : Bytes} (h : s.length = 32) : seedOf s = s := by
  unfold seedOf; rw [← h]; exact List.take_left

/-- crypto/vrf/vrf.go:50-68: the private key for a seed -/
def goVrfKey (X : Xof) (seed : Bytes) : Bytes := (vrfGenerateKey goOps X (seedOf seed)).getD []

theorem goVrfKey_spec (X : Xof) (seed : Bytes) :
    vrfGenerateKey goOps X (seedOf seed) = some (goVrfKey X seed) ∧ (goVrfKey X seed).length = 64 := by
  obtain ⟨sk, h, hl, _⟩ := C07_go_generateKey X (seedOf seed) (seedOf_length seed)
  have e : goVrfKey X seed = sk := by unfold goVrfKey; rw [h]; rfl
  rw [e]; exact ⟨h, hl⟩

/-- crypto/vrf/vrf.go:121-172: `Prove` of the private key for a seed -/
def goVrfProve (X : Xof) (seed m : Bytes) : Bytes × Bytes := (vrfProveGo goOps X (goVrfKey X seed) m).getD ([], [])

theorem goVrfProve_spec (X : Xof) (seed m : Bytes) : vrfProveGo goOps X (goVrfKey X seed) m = some (goVrfProve X seed m) := by
  obtain ⟨v, p, h, _⟩ := C07_go_prove_compute X (goVrfKey X seed) m (by rw [(goVrfKey_spec X seed).2]; omega)
  unfold goVrfProve; rw [h]; rfl

theorem goVrfProve_length (X : Xof) (seed m : Bytes) : (goVrfProve X seed m).1.length = 32 := by
  obtain ⟨v, p, h, hc⟩ := C07_go_prove_compute X (goVrfKey X seed) m (by rw [(goVrfKey_spec X seed).2]; omega)
  have e : goVrfProve X seed m = (v, p) := by unfold goVrfProve; rw [h]; rfl
  rw [e]
  simp only [vrfCompute, Option.bind_eq_bind] at hc
  obtain ⟨_, _, hc⟩ := Option.bind_eq_some_iff.mp hc
  obtain ⟨_, _, hc⟩ := Option.bind_eq_some_iff.mp hc
  rw [← Option.some.inj hc]
  exact X.length _ _

/-- vrf.go:106-116: the message is not mapped to the neutral element -/
def goVrfUsable (X : Xof) (m : Bytes) : Bool := decide (leNat (X.out m 32) % 2 ^ 255 ∉ smallReps)

/-- The interface with the Go VRF. A VRF key is given by its 32 byte seed. None of the VRF fields is an assumption. -/
def goCrypto (E : External) : Crypto where
  hash := E.hash
  hash_length := E.hash_length
  signPub := E.signPub
  sign := E.sign
  verify := E.verify
  sign_length := E.sign_length
  verify_sign := E.verify_sign
  verify_length := E.verify_length
  vrfPub seed := vrfPublic (goVrfKey E.xof seed)
  vrfProve := goVrfProve E.xof
  vrfVerify pk m i p := (vrfVerifyGo goOps E.xof pk m i p).getD false
  vrf_length := goVrfProve_length E.xof
  vrfUsable := goVrfUsable E.xof
  vrf_complete sk m h := by
    have h1 := goVrfKey_spec E.xof sk
    have h2 : vrfProveGo goOps E.xof (goVrfKey E.xof sk) m = some ((goVrfProve E.xof sk m).1, (goVrfProve E.xof sk m).2) :=
      goVrfProve_spec E.xof sk m
    have := C07_go_complete E.xof (seedOf sk) (goVrfKey E.xof sk) m _ _ (seedOf_length sk) h1.1 h2
    rw [this]
    exact h
  vrfVerify_length pk m i p h := by
    have h' : vrfVerifyGo goOps E.xof pk m i p = some true := by
      cases e : vrfVerifyGo goOps E.xof pk m i p with
      | none => rw [e] at h; nomatch h
      | some b => rw [e] at h; exact congrArg some h
    exact ((C08_go_accepts_iff E.xof pk m i p).mp h').2.1

end Coniks
namespace Coniks.Props
open Coniks Spec Coniks.Ed

/-- `Verify` never panics, so the interface does not hide one. -/
theorem C08_go_total (X : Xof) (pk m v p : Bytes) : ∃ b, vrfVerifyGo goOps X pk m v p = some b := by
  obtain ⟨h, hh, _⟩ := go_hashToCurve X m
  unfold vrfVerifyGo
  split
  · exact ⟨_, rfl⟩
  · simp only
    split
    · exact ⟨_, rfl⟩
    · split
      · exact ⟨_, rfl⟩
      · split
        · exact ⟨_, rfl⟩
        · rw [hh]; exact ⟨_, rfl⟩

/-- C33 for the VRF of the Go code: the same as `C33_session`, where the names the client asks about are those whose hash is not one
of twelve values (`smallReps`, with either top bit). -/
theorem C33_go_session (E : External) (t0 : UInt64) (sk vk : Bytes) (size : Nat) (r₁ r₂ : Bytes) (pre : List DirOp) (ops : List SesOp)
    (hlt : dirUpdates (pre ++ ops.map SesOp.dirOp) < 2 ^ 64)
    (spread : IndexSpread (fun k => (goVrfProve E.xof vk k).1) (regNames pre ++ sesNames ops))
    (hus : ∀ n ∈ ownNames ops, leNat (E.xof.out n 32) % 2 ^ 255 ∉ smallReps)
    (hk : KeepsUp 0 (absAfter pre) ops)
    (d₀ : Directory) (log₀ : List STR) (h₀ : dirAfter (goCrypto E) t0 sk vk size r₁ r₂ pre = some (d₀, log₀))
    (cc : Client) (hcc : newClient d₀.latestSTR true (E.signPub sk) = some cc)
    (d : Directory) (log : List STR) (h : dirAfter (goCrypto E) t0 sk vk size r₁ r₂ (pre ++ ops.map SesOp.dirOp) = some (d, log)) :
    ∃ cc', runSession (goCrypto E) d₀ cc ops = some (d, cc', verdicts (absAfter pre) ops) :=
  C33_session (goCrypto E) t0 sk vk size r₁ r₂ pre ops hlt spread (fun n hn => decide_eq_true (hus n hn)) hk d₀ log₀ h₀ cc hcc d log h

/-- C66 applies to the Go VRF: its public keys have 32 bytes and `Verify` accepts no others. -/
theorem C66_go_keys (E : External) : VrfKeys32 (goCrypto E) := by
  refine ⟨fun vk => ?_, fun pk m i p h => ?_⟩
  · show (vrfPublic (goVrfKey E.xof vk)).length = 32
    rw [vrfPublic, List.length_drop, (goVrfKey_spec E.xof vk).2]
  · have h' : vrfVerifyGo goOps E.xof pk m i p = some true := by
      cases e : vrfVerifyGo goOps E.xof pk m i p with
      | none => have h : (vrfVerifyGo goOps E.xof pk m i p).getD false = true := h
                rw [e] at h; nomatch h
      | some b => have h : (vrfVerifyGo goOps E.xof pk m i p).getD false = true := h
                  rw [e] at h; exact congrArg some h
    obtain ⟨_, _, _, P, _, _, hp, _⟩ := (C08_go_accepts_iff E.xof pk m i p).mp h'
    rw [hp]; exact encodePoint_length P

/-- a (cryptographically worthless) choice of the external functions -/
def External.toy : External where
  hash := Crypto.toy.hash
  hash_length := Crypto.toy.hash_length
  signPub := Crypto.toy.signPub
  sign := Crypto.toy.sign
  verify := Crypto.toy.verify
  sign_length := Crypto.toy.sign_length
  verify_sign := Crypto.toy.verify_sign
  verify_length := Crypto.toy.verify_length
  xof := ToyEd.xof

/-- alice registers, an epoch passes, and she looks herself up, with the right and a wrong expectation, all with the Go VRF -/
example : ∃ d₀ log₀ cc d cc', dirAfter (goCrypto External.toy) 5 [1] [2] 10 [3] [4] [.update] = some (d₀, log₀) ∧
    newClient d₀.latestSTR true (External.toy.signPub [1]) = some cc ∧
    runSession (goCrypto External.toy) d₀ cc
      [.register (some [7]) [0x61] [9, 9], .dir .update, .lookup [0x61] (some [9, 9]), .lookup [0x61] (some [1])] =
      some (d, cc', [none, none, some CheckBindingsDiffer]) := by
  let ses : List SesOp := [.register (some [7]) [0x61] [9, 9], .dir .update, .lookup [0x61] (some [9, 9]), .lookup [0x61] (some [1])]
  obtain ⟨d, log, hd⟩ := C31_history_runs (goCrypto External.toy) 5 [1] [2] 10 [3] [4] ([.update] ++ ses.map SesOp.dirOp) (by decide)
    (by intro req h; simp [ses, SesOp.dirOp] at h)
  have hd' := hd
  rw [dirAfter_append] at hd'
  obtain ⟨⟨d₀, log₀⟩, h₀, _⟩ := Option.bind_eq_some_iff.mp hd'
  have e : leNat (ToyEd.xof.out [0x61] 32) % 2 ^ 255 ∉ smallReps := by
    decide +kernel
  obtain ⟨cc', h⟩ := C33_go_session External.toy 5 [1] [2] 10 [3] [4] [.update] ses (by decide)
    (by
      intro a ha b hb hne
      have hn : ∀ x ∈ regNames [DirOp.update] ++ sesNames ses, x = [0x61] := by decide
      exact absurd ((hn a ha).trans (hn b hb).symm) hne)
    (by
      intro n hn
      have : n = [0x61] := by
        have hn' : ∀ x ∈ ownNames ses, x = [0x61] := by decide
        exact hn' n hn
      rw [this]; exact e)
    (by decide +kernel) d₀ log₀ h₀ _ rfl d log hd
  rw [show verdicts (absAfter [.update]) ses = [none, none, some CheckBindingsDiffer] by decide +kernel] at h
  exact ⟨d₀, log₀, _, d, cc', h₀, rfl, h⟩

end Coniks.Props

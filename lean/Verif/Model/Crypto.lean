import Verif.Model.Utils
/-
The cryptographic primitives as parameters, `crypto/util.go`, and the interface of
`crypto/sign/sign.go` and `crypto/vrf/vrf.go`.

The laws are the functional contracts the code relies on. They are hypotheses of the
theorems (fields of a structure a theorem quantifies over), not axioms. `Crypto.toy` below shows they are
satisfiable together. Collision resistance and unforgeability are NOT part of this structure.
-/
namespace Coniks

structure Crypto where
  /-- SHAKE128 with 32 bytes of output (crypto/util.go:19-27). -/
  hash : Bytes → Bytes
  hash_length : ∀ m, (hash m).length = 32
  /-- crypto/sign/sign.go:56-59 `PrivateKey.Public`. -/
  signPub : Bytes → Bytes
  /-- crypto/sign/sign.go:48-50 `PrivateKey.Sign key message`. -/
  sign : Bytes → Bytes → Bytes
  /-- crypto/sign/sign.go:64-66 `PublicKey.Verify pk message sig`. -/
  verify : Bytes → Bytes → Bytes → Bool
  /-- crypto/sign/sign.go:18 `SignatureSize`. -/
  sign_length : ∀ sk m, (sign sk m).length = 64
  verify_sign : ∀ sk m, verify (signPub sk) m (sign sk m) = true
  /-- ed25519.Verify rejects signatures that are not 64 bytes long. -/
  verify_length : ∀ pk m s, verify pk m s = true → s.length = 64
  /-- crypto/vrf/vrf.go:72-75 `PrivateKey.Public`. -/
  vrfPub : Bytes → Bytes
  /-- crypto/vrf/vrf.go:113-141 `PrivateKey.Prove sk m = (vrf, proof)`. -/
  vrfProve : Bytes → Bytes → Bytes × Bytes
  /-- crypto/vrf/vrf.go:145-193 `PublicKey.Verify pk m vrf proof`. -/
  vrfVerify : Bytes → Bytes → Bytes → Bytes → Bool
  /-- crypto/vrf/vrf.go:36 `Size`. -/
  vrf_length : ∀ sk m, (vrfProve sk m).1.length = 32
  /-- The messages that crypto/vrf/vrf.go:106-116 does not map to the neutral element of the curve. `Verify` rejects the honest proof of the
  others; `C07_go_complete` (Props/VrfGo.lean) computes which they are. -/
  vrfUsable : Bytes → Bool
  vrf_complete : ∀ sk m, vrfUsable m = true → vrfVerify (vrfPub sk) m (vrfProve sk m).1 (vrfProve sk m).2 = true
  /-- crypto/vrf/vrf.go:147 rejects a value that is not 32 bytes long. -/
  vrfVerify_length : ∀ pk m i p, vrfVerify pk m i p = true → i.length = 32

/-- crypto/util.go:19-27 `Digest`: the hash of the concatenation of the slices. -/
def Crypto.digest (C : Crypto) (ms : List Bytes) : Bytes := C.hash ms.flatten

/-- crypto/util.go:38-45 `MakeRand`. The argument is what `rand.Read` delivers: `none` for an error.
Result `none` is the error return (not a panic). -/
def Crypto.makeRand (C : Crypto) (rnd : Option Bytes) : Option Bytes :=
  rnd.map fun r => C.digest [r]

/-- crypto/util.go:49-55 `Commit`. -/
structure Commit where
  salt : Bytes
  value : Bytes
deriving DecidableEq, Inhabited

/-- crypto/util.go:60-69 `NewCommit`; result `none` is the error return. -/
def Crypto.newCommit (C : Crypto) (rnd : Option Bytes) (stuff : List Bytes) : Option Commit :=
  (C.makeRand rnd).map fun salt => { salt := salt, value := C.digest (salt :: stuff) }

/-- crypto/util.go:73-75 `Commit.Verify`. -/
def Crypto.commitVerify (C : Crypto) (c : Commit) (stuff : List Bytes) : Bool :=
  c.value == C.digest (c.salt :: stuff)

/-! ### A toy instance, used only to show that hypotheses are satisfiable -/

/-- 32 little-endian bytes of a number. -/
def natTo32 (n : Nat) : Bytes := (List.range 32).map fun k => UInt8.ofNat (n / 256 ^ k % 256)

def toyHash (m : Bytes) : Bytes :=
  natTo32 (m.foldl (fun n b => (n * 257 + b.toNat + 1) % 2 ^ 256) 0)

theorem toyHash_length (m : Bytes) : (toyHash m).length = 32 := by simp [toyHash, natTo32]

/-- A concrete (insecure) instance of the interface. -/
def Crypto.toy : Crypto where
  hash := toyHash
  hash_length := toyHash_length
  signPub := toyHash
  sign sk m := toyHash (toyHash sk ++ m) ++ toyHash (m ++ toyHash sk)
  verify pk m s := s == toyHash (pk ++ m) ++ toyHash (m ++ pk)
  sign_length sk m := by simp [toyHash_length]
  verify_sign sk m := by simp
  verify_length pk m s h := by rw [beq_iff_eq] at h; simp [h, toyHash_length]
  vrfPub := toyHash
  vrfProve sk m := (toyHash (toyHash sk ++ m), List.replicate 96 0)
  vrfVerify pk m i p := i == toyHash (pk ++ m) && p.length == 96
  vrf_length sk m := toyHash_length _
  vrfUsable _ := true
  vrf_complete sk m _ := by simp
  vrfVerify_length pk m i p h := by
    rw [Bool.and_eq_true, beq_iff_eq] at h; rw [h.1, toyHash_length]

instance : Inhabited Crypto := ⟨Crypto.toy⟩

end Coniks

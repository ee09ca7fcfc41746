import Verif.Model.Str
import Verif.Props.Utils
/-
C05, C06: the bytes that are signed.
-/
namespace Coniks.Props
open Coniks Spec

theorem ulong_length (n : UInt64) : (ulongToBytes n).length = 8 := ulongToBytes_length n

theorem ulong_inj {a b : UInt64} (h : ulongToBytes a = ulongToBytes b) : a = b := ulongToBytes_inj h

/-- same epoch, previous epoch and deadline, and the same concatenation of everything in between -/
theorem C05_numbers_always (s t : DirSTR) (p q : Policies) (hs : s.policies = some p) (ht : t.policies = some q)
    (h : s.serialize = t.serialize) :
    s.core.epoch = t.core.epoch ∧ (s.core.epoch > 0 → s.core.previousEpoch = t.core.previousEpoch) ∧
    p.epochDeadline = q.epochDeadline ∧
    s.core.treeHash ++ s.core.previousSTRHash ++ p.version ++ p.hashID ++ p.vrfPublicKey =
      t.core.treeHash ++ t.core.previousSTRHash ++ q.version ++ q.hashID ++ q.vrfPublicKey := by
  simp only [DirSTR.serialize, hs, ht, Option.map_some, Option.some.injEq, STRCore.serializeInternal, Policies.serialize,
    List.append_assoc] at h
  obtain ⟨h1, h2⟩ := List.append_inj h (by rw [ulong_length, ulong_length])
  have e1 := ulong_inj h1
  have h3 : (s.core.epoch > 0 → s.core.previousEpoch = t.core.previousEpoch) ∧
      s.core.treeHash ++ (s.core.previousSTRHash ++ (p.version ++ (p.hashID ++ (p.vrfPublicKey ++ ulongToBytes p.epochDeadline)))) =
      t.core.treeHash ++ (t.core.previousSTRHash ++ (q.version ++ (q.hashID ++ (q.vrfPublicKey ++ ulongToBytes q.epochDeadline)))) := by
    rw [← e1] at h2
    by_cases he : s.core.epoch > 0
    · rw [if_pos he, if_pos he] at h2
      obtain ⟨h4, h5⟩ := List.append_inj h2 (by rw [ulong_length, ulong_length])
      exact ⟨fun _ => ulong_inj h4, h5⟩
    · rw [if_neg he, if_neg he] at h2
      exact ⟨fun h => absurd h he, h2⟩
  obtain ⟨h4, h5⟩ := h3
  simp only [← List.append_assoc] at h5
  obtain ⟨h6, h7⟩ := List.append_inj' h5 (by rw [ulong_length, ulong_length])
  refine ⟨e1, h4, ulong_inj h7, ?_⟩
  simpa only [List.append_assoc] using h6

/-- C05, exactly: two STRs have the same signed bytes if and only if they agree on the numbers and on the concatenation of all other
signed fields. -/
theorem C05_same_bytes_iff (s t : DirSTR) (p q : Policies) (hs : s.policies = some p) (ht : t.policies = some q) :
    s.serialize = t.serialize ↔
      s.core.epoch = t.core.epoch ∧ (s.core.epoch > 0 → s.core.previousEpoch = t.core.previousEpoch) ∧
      p.epochDeadline = q.epochDeadline ∧
      s.core.treeHash ++ s.core.previousSTRHash ++ p.version ++ p.hashID ++ p.vrfPublicKey =
        t.core.treeHash ++ t.core.previousSTRHash ++ q.version ++ q.hashID ++ q.vrfPublicKey := by
  refine ⟨C05_numbers_always s t p q hs ht, ?_⟩
  rintro ⟨h1, h2, h3, h4⟩
  simp only [DirSTR.serialize, hs, ht, Option.map_some, Option.some.injEq, STRCore.serializeInternal, Policies.serialize, h3]
  have hp : (if s.core.epoch > 0 then ulongToBytes s.core.previousEpoch else []) =
      (if t.core.epoch > 0 then ulongToBytes t.core.previousEpoch else []) := by
    rw [← h1]
    split
    · next h => rw [h2 h]
    · rfl
  have h4' := congrArg (· ++ ulongToBytes q.epochDeadline) h4
  simp only [List.append_assoc] at h4' ⊢
  rw [h1] at hp ⊢
  rw [hp]
  simp only [h4']

example : (⟨⟨[1, 2], 3, 2, [3], []⟩, some ⟨[0x30], [0x31], [7], 9⟩⟩ : DirSTR).serialize =
    (⟨⟨[1], 3, 2, [2, 3], []⟩, some ⟨[0x30], [0x31], [7], 9⟩⟩ : DirSTR).serialize :=
  (C05_same_bytes_iff _ _ _ _ rfl rfl).mpr ⟨rfl, fun _ => rfl, rfl, rfl⟩

/-- C05: the claim for all lengths is false (`C05_boundary_counterexample`). With tree hash and
previous STR hash of 32 bytes and with equally long version and hash identifier, as in all STRs this code issues, the signed bytes
determine all signed fields. -/
theorem C05_serialize_injective_regular (s t : DirSTR) (p q : Policies) (hs : s.policies = some p) (ht : t.policies = some q)
    (l1 : s.core.treeHash.length = 32) (l2 : t.core.treeHash.length = 32)
    (l3 : s.core.previousSTRHash.length = 32) (l4 : t.core.previousSTRHash.length = 32)
    (l5 : p.version.length = q.version.length) (l6 : p.hashID.length = q.hashID.length)
    (h : s.serialize = t.serialize) :
    s.core.epoch = t.core.epoch ∧ (s.core.epoch > 0 → s.core.previousEpoch = t.core.previousEpoch) ∧
    s.core.treeHash = t.core.treeHash ∧ s.core.previousSTRHash = t.core.previousSTRHash ∧ p = q := by
  obtain ⟨e1, e2, e3, e4⟩ := C05_numbers_always s t p q hs ht h
  simp only [List.append_assoc] at e4
  obtain ⟨a1, e4⟩ := List.append_inj e4 (by rw [l1, l2])
  obtain ⟨a2, e4⟩ := List.append_inj e4 (by rw [l3, l4])
  obtain ⟨a3, e4⟩ := List.append_inj e4 l5
  obtain ⟨a4, a5⟩ := List.append_inj e4 l6
  refine ⟨e1, e2, a1, a2, ?_⟩
  cases p; cases q; simp_all

/-- C05 is false as stated: no lengths are signed, so bytes can be moved from the previous STR hash to the tree hash, and the
signature of the first STR verifies for the second (for every signature scheme and every STR with a non-empty previous hash). -/
theorem C05_boundary_counterexample (C : Crypto) (sk : Bytes) (core : STRCore) (p : Policies) (b : UInt8) (rest : Bytes)
    (hp : core.previousSTRHash = b :: rest) :
    let s : DirSTR := ⟨core, some p⟩
    let t : DirSTR := ⟨{ core with treeHash := core.treeHash ++ [b], previousSTRHash := rest }, some p⟩
    s.core.treeHash ≠ t.core.treeHash ∧ s.serialize = t.serialize ∧
    ∀ m, s.serialize = some m → C.verify (C.signPub sk) m (C.sign sk m) = true ∧ t.serialize = some m := by
  intro s t
  have e : s.serialize = t.serialize := by
    simp [s, t, DirSTR.serialize, STRCore.serializeInternal, hp]
  refine ⟨?_, e, fun m hm => ⟨C.verify_sign _ _, e ▸ hm⟩⟩
  intro h
  have := congrArg List.length h
  simp [s, t] at this

/-- C05: likewise the boundary between the protocol version and the hash identifier. -/
theorem C05_version_counterexample (core : STRCore) (vk : Bytes) (d : UInt64) :
    (⟨core, some ⟨[0x30, 0x2E, 0x33], [0x53], vk, d⟩⟩ : DirSTR).serialize =
      (⟨core, some ⟨[0x30, 0x2E], [0x33, 0x53], vk, d⟩⟩ : DirSTR).serialize := by
  simp [DirSTR.serialize, Policies.serialize]

/-- a concrete instance of the hypotheses of `C05_serialize_injective_regular`; the conclusion distinguishes epochs 1 and 2 -/
example : (⟨⟨List.replicate 32 1, 1, 0, List.replicate 32 2, []⟩, some (newPolicies 7 [1])⟩ : DirSTR).serialize ≠
    (⟨⟨List.replicate 32 1, 2, 0, List.replicate 32 2, []⟩, some (newPolicies 7 [1])⟩ : DirSTR).serialize := by
  intro h
  have := (C05_serialize_injective_regular _ _ (newPolicies 7 [1]) (newPolicies 7 [1]) rfl rfl (by decide) (by decide)
    (by decide) (by decide) rfl rfl h).1
  exact absurd this (by decide)

/-! ### C06 -/

/-- C06. If the two STR signatures were accepted as signatures and the two indices were accepted by the VRF check (which is what
the client does before it looks at a promise), then equal signed bytes mean the same STR signature, index and value. -/
theorem C06_tb_injective (C : Crypto) (pk m₁ m₂ sig₁ sig₂ vpk u₁ u₂ pf₁ pf₂ : Bytes) (tb₁ tb₂ : TB)
    (h₁ : C.verify pk m₁ sig₁ = true) (h₂ : C.verify pk m₂ sig₂ = true)
    (v₁ : C.vrfVerify vpk u₁ tb₁.index pf₁ = true) (v₂ : C.vrfVerify vpk u₂ tb₂.index pf₂ = true)
    (h : tb₁.serialize sig₁ = tb₂.serialize sig₂) : sig₁ = sig₂ ∧ tb₁.index = tb₂.index ∧ tb₁.value = tb₂.value := by
  simp only [TB.serialize, List.append_assoc] at h
  obtain ⟨a, h⟩ := List.append_inj h (by rw [C.verify_length _ _ _ h₁, C.verify_length _ _ _ h₂])
  obtain ⟨b, c⟩ := List.append_inj h (by rw [C.vrfVerify_length _ _ _ _ v₁, C.vrfVerify_length _ _ _ _ v₂])
  exact ⟨a, b, c⟩

/-- C06, the lengths matter: without the VRF check a byte can move from the value to the index. -/
theorem C06_unchecked_counterexample (sig idx val s : Bytes) (b : UInt8) :
    (⟨idx, b :: val, s⟩ : TB).serialize sig = (⟨idx ++ [b], val, s⟩ : TB).serialize sig := by
  simp [TB.serialize]

/-- honest promises meet the hypotheses of `C06_tb_injective` -/
example (C : Crypto) (sk vk m u v : Bytes) (hu : C.vrfUsable u = true) :
    let tb : TB := ⟨(C.vrfProve vk u).1, v, []⟩
    C.verify (C.signPub sk) m (C.sign sk m) = true ∧ C.vrfVerify (C.vrfPub vk) u tb.index (C.vrfProve vk u).2 = true :=
  ⟨C.verify_sign _ _, C.vrf_complete _ _ hu⟩

end Coniks.Props

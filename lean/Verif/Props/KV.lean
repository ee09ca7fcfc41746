import Verif.Proofs.KV
/-
C03: `kv.BytesPrefix` / `kv.IncrementKey`.
-/
namespace Coniks.Props
open Coniks Coniks.Spec

/-- C03: the range of `BytesPrefix p` contains a key iff the key has prefix `p`. -/
theorem C03_bytesPrefix_exact (p k : Bytes) :
    InRange (bytesPrefix p).start (bytesPrefix p).limit k ↔ p <+: k := by
  simp only [bytesPrefix, incrementKey_eq]; exact inRange_iff p k

/-- C03: `IncrementKey p`, when not nil, is above all keys with prefix `p` and is the least such key. -/
theorem C03_incrementKey_least (p l : Bytes) (h : incrementKey p = some l) :
    (∀ k, p <+: k → LexLt k l) ∧ (∀ m, (∀ k, p <+: k → LexLt k m) → LexLe l m) := by
  rw [incrementKey_eq] at h; exact (incRec_spec p).1 l h

/-- C03: `IncrementKey p` is nil only if no key is above all keys with prefix `p`. -/
theorem C03_incrementKey_nil (p : Bytes) (h : incrementKey p = none) :
    ¬ ∃ m, ∀ k, p <+: k → LexLt k m := by
  rw [incrementKey_eq] at h
  rintro ⟨m, hm⟩
  exact (incRec_spec p).2 h m hm

example : incrementKey [1, 0xfe, 0xff, 0xff] = some [1, 0xff] := by decide
example : incrementKey [0xff, 0xff] = none ∧ incrementKey [] = none := by decide
example : InRange [1, 2] (some [1, 3]) [1, 2, 7] :=
  (C03_bytesPrefix_exact [1, 2] [1, 2, 7]).mpr (by decide)

end Coniks.Props

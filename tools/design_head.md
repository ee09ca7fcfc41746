# Formal model of coniks-go in Lean 4 — design

(Generated by `tools/design.py`; the text is in `tools/design_head.md` and `tools/design_cov.md`, the tables come from
`tools/plan*.py`, `MANIFEST.json` and `#print axioms`.)

## 1. Layout

* `lean/Verif/Model/*.lean` — the model. Each definition cites the Go file and lines it models and says where it simplifies.
  `Model/Ed25519/*` models the limb-level curve arithmetic.
* `lean/Verif/Spec/*.lean` — small specifications written without the model's helpers (bit of a byte string, lexicographic
  order, canonical hash of a set of bindings, abstract directory, sequential specification of the server, the field and the
  curve, ...).
* `lean/Verif/Proofs/*.lean`, `lean/Verif/Ed25519/*.lean` — lemmas.
* `lean/Verif/Props/*.lean` — the property theorems `Cxx_...` and, next to each, an `example` showing that a concrete
  non-trivial case meets its hypotheses.
* `properties.jsonl` is generated by `tools/props.py` (+ `tools/props_more.py`), `MANIFEST.json` by `tools/manifest.py` (+ `tools/notes.py`).
* `seeded/LOG.jsonl` logs the mutation experiments (`tools/seed.py`).
* `Model/Ed25519/{FeProg,ScProg,Tables}.lean` and `Ed25519/EdIdent.lean` are transcriptions or certificates written by the scripts
  `tools/gen_ed.py`, `tools/gen_tables.py` and `tools/cert/*`; the scripts are not trusted, the Lean files are checked like any other.

## 2. Modelling conventions

* `[]byte` and `string` are `Bytes = List UInt8`. Where the code distinguishes `nil` from an empty slice
  (proof values, expected keys, cached hashes) the model uses `Option Bytes`; elsewhere nil = `[]`.
* A Go run-time panic (index out of range, nil dereference, failed type assertion, `panic(...)`) is a *result*:
  `abbrev Go α := Option α`, `none` = the call panics. Error returns are ordinary values.
* Mutation through pointers is state passing. `Model/Heap.lean` separately models the tree with pointers, and
  `C17_refines_values` proves that the two agree.
* Randomness (`crypto/rand`) is an explicit input of each operation; `none` = the reader failed.
* Maps are functions to `Option`.
* Machine integers are machine integers: epochs are `UInt64` (they wrap), levels `UInt32`, limbs `Int32`/`Int64` with wrapping
  operations, the epoch timer is an `int64` of nanoseconds.
* Cryptography is the structure `Crypto` (hash, signature and VRF functions with the laws the code relies on:
  output lengths and correctness). Nothing assumes collision resistance globally (it is false for any function with
  32-byte output): soundness theorems carry the hypothesis that the *explicitly listed* hash inputs occurring in the
  given proofs/trees do not collide. Unforgeability is likewise an explicit hypothesis where it is needed.
  A toy instance `Crypto.toy` shows the structure is inhabited and feeds the examples. The VRF itself is modelled down to the
  limbs of the field arithmetic (`Model/Vrf`, `Model/Ed25519`), with only SHAKE and SHA-512 abstract.
* Goroutines, locks, channels and wait groups are state machines over explicit steps (`Model/Lock`, `Model/Shutdown`);
  theorems quantify over all schedules.
* Where the code violates a property the user would expect, the negation is proved as `Cxx_..._counterexample` (for every
  cryptography where possible, otherwise on the toy instance by kernel evaluation) next to the `..._partial` theorem.

## 3. Trusted base

* Lean 4.33.0's kernel; the standard axioms `propext`, `Classical.choice`, `Quot.sound` (per theorem: section 6). No axioms of our
  own, no compiled evaluation.
* Mathlib is used only through its kernel-checked theorems (field and group theory, `ZMod`, Lucas primality) by the Ed25519, VRF and heap files.
* The reading of the Go sources: no extraction tool is used; the model is written from the sources.
* What is not modelled is listed in section 5.

# Formal model of coniks-go in Lean 4 — design

(Generated by `tools/design.py`; the text is in `tools/design_head.md` and `tools/design_cov.md`, the tables come from
`tools/plan*.py`, `MANIFEST.json` and `#print axioms`.)

## 1. Layout

* `lean/Verif/Model/*.lean` — the model. Each definition cites the Go file and lines it models and says where it simplifies.
  `Model/Ed25519/*` models the limb-level curve arithmetic.
* `lean/Verif/Spec/*.lean` — small specifications written without the model's helpers (bit of a byte string, lexicographic
  order, canonical hash of a set of bindings, abstract directory, sequential specification of the server, the field and the
  curve, ...).
* `lean/Verif/Proofs/*.lean`, `lean/Verif/Ed25519/*.lean` — lemmas.
* `lean/Verif/Props/*.lean` — the property theorems `Cxx_...` and, next to each, an `example` showing that a concrete
  non-trivial case meets its hypotheses.
* `properties.jsonl` is generated by `tools/props.py` (+ `tools/props_more.py`), `MANIFEST.json` by `tools/manifest.py` (+ `tools/notes.py`).
* `seeded/LOG.jsonl` logs the mutation experiments (`tools/seed.py`).
* `Model/Ed25519/{FeProg,ScProg,Tables}.lean` and `Ed25519/EdIdent.lean` are transcriptions or certificates written by the scripts
  `tools/gen_ed.py`, `tools/gen_tables.py` and `tools/cert/*`; the scripts are not trusted, the Lean files are checked like any other.

## 2. Modelling conventions

* `[]byte` and `string` are `Bytes = List UInt8`. Where the code distinguishes `nil` from an empty slice
  (proof values, expected keys, cached hashes) the model uses `Option Bytes`; elsewhere nil = `[]`.
* A Go run-time panic (index out of range, nil dereference, failed type assertion, `panic(...)`) is a *result*:
  `abbrev Go α := Option α`, `none` = the call panics. Error returns are ordinary values.
* Mutation through pointers is state passing. `Model/Heap.lean` separately models the tree with pointers, and
  `C17_refines_values` proves that the two agree.
* Randomness (`crypto/rand`) is an explicit input of each operation; `none` = the reader failed.
* Maps are functions to `Option`.
* Machine integers are machine integers: epochs are `UInt64` (they wrap), levels `UInt32`, limbs `Int32`/`Int64` with wrapping
  operations, the epoch timer is an `int64` of nanoseconds.
* Cryptography is the structure `Crypto` (hash, signature and VRF functions with the laws the code relies on:
  output lengths and correctness). Nothing assumes collision resistance globally (it is false for any function with
  32-byte output): soundness theorems carry the hypothesis that the *explicitly listed* hash inputs occurring in the
  given proofs/trees do not collide. Unforgeability is likewise an explicit hypothesis where it is needed.
  A toy instance `Crypto.toy` shows the structure is inhabited and feeds the examples. The VRF itself is modelled down to the
  limbs of the field arithmetic (`Model/Vrf`, `Model/Ed25519`), with only SHAKE and SHA-512 abstract.
* Goroutines, locks, channels and wait groups are state machines over explicit steps (`Model/Lock`, `Model/Shutdown`);
  theorems quantify over all schedules.
* Where the code violates a property the user would expect, the negation is proved as `Cxx_..._counterexample` (for every
  cryptography where possible, otherwise on the toy instance by kernel evaluation) next to the `..._partial` theorem.

## 3. Trusted base

* Lean 4.33.0's kernel; the standard axioms `propext`, `Classical.choice`, `Quot.sound` (per theorem: section 6). No axioms of our
  own, no compiled evaluation.
* Mathlib is used only through its kernel-checked theorems (field and group theory, `ZMod`, Lucas primality) by the Ed25519, VRF and heap files.
* The reading of the Go sources: no extraction tool is used; the model is written from the sources.
* What is not modelled is listed in section 5.

## 4. Plan per property

| id | property | modelled | proof | status |
|---|---|---|---|---|
| C01 | Bit/byte conversion agrees with MSB-first reading | utils | `Model/Utils` loops as folds; spec: `bitAt` = testBit of MSB-first position; induction on length. | proved |
| C02 | Fixed-width little-endian encodings are exact and injective | utils | shifts on UInt32/UInt64; spec: base-256 digits; injectivity by reassembly. | proved |
| C03 | Prefix range contains exactly the keys with that prefix | storage/kv/range.go | spec: lexicographic order on byte lists written independently; iff proved by induction on the prefix. | proved |
| C04 | Commitments open, and bind to the committed value | crypto/util.go commitments | completeness for all; the exact set of openings under no-collision of the two inputs; counterexample for the key alone. | proved |
| C05 | The bytes signed in an STR determine the STR | STR serialization | exact characterisation of equal bytes; injectivity on fixed-length fields; ambiguity counterexamples. | proved |
| C06 | The bytes signed in a temporary binding determine the promise | TB serialization | cancellation with 64-byte signature and 32-byte index, both enforced by client checks. | proved |
| C07 | VRF proofs made with a key verify under its public key | vrf.go over abstract operations, then over the modelled Ed25519 code | algebra in the group; instance `goLaws` proved for the limb-level code; exact set of exceptional hash values. | proved |
| C08 | A VRF value cannot be forged without answering two challenges | vrf.go over abstract operations, then over the modelled Ed25519 code | exact acceptance condition; two accepting transcripts with the same commitments; inversion of challenge differences modulo l. | proved |
| C09 | Inserting into the tree never panics and never loops forever | insertNode as well-founded recursion | termination accepted by Lean; no panic by the path invariant; counterexample for mixed lengths. | proved |
| C10 | The tree is a map: Get finds the last value set and nothing else | tree | invariant + leaves permutation; exact condition for the empty place that looks like an entry (Spec/Deep). | proved |
| C11 | The root hash depends only on the set of bindings | tree hashing with caches | cache-coherence invariant, pure hash = canonical hash of the set of bindings. | proved |
| C12 | Honest proofs verify | Get + Verify | descent/ascent induction, and the verdict of Verify at the deep empty places. | proved |
| C13 | A proof accepted against an honest tree tells the truth about it | Verify vs honest tree | root-down comparison under no-collision of listed inputs. | partial |
| C14 | One tree hash cannot support two contradictory proofs | two proofs | same; counterexamples for the unrestricted statement. | partial |
| C15 | Proof verification does not crash the verifier | Verify | exact characterisation of the panicking inputs. | partial |
| C16 | A proof of absence reveals no user data | Get on absent index | two trees with equal shape; relational induction. | proved |
| C17 | A clone is isolated from later changes, in both directions | tree as heap cells with pointers (`Model/Heap`) | refinement of the pure tree; disjointness and frame invariants over histories of operations on any number of trees. | proved |
| C18 | Epochs form a signed hash chain | PAD | invariant over histories. | proved |
| C19 | The snapshot cache respects its capacity and keeps recent epochs | PAD snapshot cache | invariant with explicit slice capacity, a separate one for capacities below 2. | proved |
| C20 | History is immutable | PAD | invariant: snapshot map only loses entries. | proved |
| C21 | Policies take effect with a fixed delay | Directory policies | invariant relating ad, policies and STR. | proved |
| C22 | Reshuffling preserves the directory content | reshuffle | fold over leaves. | proved |
| C23 | The first registration of a name wins forever | Directory | refinement to the abstract directory of `Spec/Directory`, induction over histories. | proved |
| C24 | Promises are kept | Directory | refinement to the abstract directory, induction over histories. | proved |
| C25 | Responses follow the abstract directory | Directory | refinement to the abstract directory under spread indices, and to the index-keyed directory (Spec/DirExact) for every VRF; counterexample for deep common prefixes. | proved |
| C26 | Malformed requests and reads do not change the directory | Directory | case analysis. | proved |
| C27 | A failed registration leaves no trace | Directory | case analysis. | proved |
| C28 | Past-epoch lookups return a verifiable chain | Directory.KeyLookupInEpoch | PAD invariant and refinement to the index-keyed directory (Spec/DirExact). | proved |
| C29 | Monitoring returns one proof per epoch | Directory.Monitor | PAD invariant and refinement to the index-keyed directory (Spec/DirExact). | proved |
| C30 | STR history requests return the requested range | Directory.GetSTRHistory | PAD invariant; the crash on evicted epochs characterised. | proved |
| C31 | No request can crash the key server | HandleRequests and the path from received bytes to the answer | totality of every handler from the directory invariant; the crash of C30 is shown unreachable through HandleRequests. | proved |
| C32 | A client only moves forward along one signed chain | Client | invariant over arbitrary response sequences. | proved |
| C33 | What a client says to an honest directory | Client + Directory + index-keyed directory | exact answer of HandleResponse to an exact directory answer, then induction over the session; the usual case from C25; counterexample for a client two epochs behind. | proved |
| C34 | Acceptance means all checks passed | Client | inversion of HandleResponse. | proved |
| C35 | A looked-up key is pinned (trust on first use) | Client | refuted (GetKey is a stub); pinning proved when the caller passes the key. | partial |
| C36 | Broken promises are detected | Client | proved for inclusion proofs; counterexamples for absence and for a second promise. | partial |
| C37 | No response can crash the client | Client | totality on the well-formed responses, counterexamples for the others. | partial |
| C38 | Rejected responses do not change what the client believes | Client | case analysis. | proved |
| C39 | Auditing accepts exactly valid continuations | Auditor | induction over the range. | proved |
| C40 | Equivocation is detected | Client.CheckEquivocation | exact acceptance condition; counterexample for the first STR of a range. | partial |
| C41 | Agreement on one STR means agreement on the past | hash chains | downward induction. | partial |
| C42 | The audit log is append-only and contiguous | Audit log | invariant over histories. | proved |
| C43 | Directories in an audit log do not interfere | Audit log | case analysis over maps. | proved |
| C44 | A failed audit changes nothing | Audit log | case analysis. | proved |
| C45 | Concurrent requests are linearizable | Server with RWMutex as interleaving state machine | invariant giving a sequential witness. | proved |
| C46 | Registration only where permitted | Server permissions | case analysis. | proved |
| C47 | Requests are dispatched by type | Server dispatch | case analysis. | proved |
| C48 | The epoch timer follows the announced epoch deadline | Server configuration/timer | model of config to timer; refuted. | partial |
| C49 | The bot forwards only registrations for the sender's own handle | Bot | decision logic over an abstract case folding. | proved |
| C50 | Writing a file never overwrites an existing one | WriteFile over an abstract file system | case analysis; race between processes exhibited. | partial |
| C52 | Shutdown leaves nothing running | goroutines, stop channel and wait groups of ServerBase as a small-step system | counting invariant; termination measure; counterexample for two listeners. | partial |
| C58 | Reloading a configuration changes nothing but the announced deadline | updatePolicies on an abstract decoded file | case analysis; counterexample for missing tables. | partial |
| C59 | The initial STR handed to auditors belongs to the running directory | saving of the initial STR over an abstract file system | case analysis; stale file counterexample. | partial |
| C60 | Key files written by init belong together | key file generation over an abstract file system | case analysis; stale file counterexample. | partial |
| C53 | Field arithmetic modulo 2^255-19 is exact | FieldElement limbs; straight-line code as programs of wrapping machine operations | interval analysis and polynomial identity check, both proved sound and run in the kernel; addition chains by exponents. | proved |
| C54 | Scalar arithmetic modulo the group order is exact | scalar limbs; straight-line code as programs | interval analysis, polynomial identity check and a floor argument for the last carries. | proved |
| C55 | Point operations compute in the curve group | group elements in the four coordinate systems, slide, tables, loops | Edwards group law by certificates; refinement of each coordinate system; loop invariants; table checked by the kernel; Hasse-free count of points from the order of the base point and the 8-torsion. | proved |
| C56 | Point encodings are canonical | ToBytes, FromParityAndY, FromBytes, FromBytesBaseGroup | square roots in the field of p = 5 mod 8; group order. | proved |
| C57 | Hashing to the curve never fails and has only the known collisions | HashToEdwards and its helpers | quadratic characters; the birational map; explicit small-order points. | proved |
| C51 | Two clients cannot be shown different keys under one STR | two runs of the client model, arbitrary responses | C34 and C14 for one STR; the chain of held STRs and C41 for the past; constructed STRs and proofs for the counterexamples. | partial |
| C61 | Answers survive the wire | encoding/json as used: text syntax, struct fields, base64 (`Model/Json`) | parser inverts printer, by induction on values; decoder inverts encoder per message type; honest answers satisfy the side conditions (invariant over histories). | proved |
| C62 | Requests survive the wire | request constructors, `UnmarshalRequest`, client exchange (`Model/Wire`) | round trip iff valid UTF-8; session induction step by step against the session of direct calls. | partial |
| C63 | Broken and hostile messages are never misread | the same, arbitrary bytes | no proper prefix of a printed value parses; totality of the decoders; crashing replies evaluated for every client state. | partial |
| C64 | The command-line client reports what happened | the REPL: splitting of lines, dispatch, texts, both commands (`Model/Cli`) | session induction with status codes, composed with C62; the success texts traced back to C34; exact characterisation of the words of a line. | partial |
| C65 | A directory's signature means one thing | what the directory signs in a history (`Spec/Mitm.WasSigned`) | field-wise reading of the signed bytes (C05) and an invariant that ties each promise to the STR it was made under. | partial |
| C66 | A man in the middle cannot lie | adversary = arbitrary answers, subject to `Unforged` and `VrfHonest` (`Spec/Mitm`) | the held STR is genuine by induction over the calls; a received path is compared with the honest path of that snapshot (meeting point of two hash chains); promises by C65. Counterexamples are constructed proofs. | partial |
| C67 | A restarted key server cannot pass for the old one | two histories of the directory model under the same keys | signatures of equal epochs differ, by induction along both chains; session induction for a client that refuses all STRs of a directory. | proved |
| C68 | A path in a configuration means the same file wherever the program is started | `path.Clean`, `Join`, `Dir` and `ResolvePath` on bytes (`Model/Path`), against places = lists of names (`Spec/Path`) | the cleaned path leads to the same place, by induction over the segments; canonical form from the same induction. | partial |
| C69 | A client starts from the STR its server stored | LoadInitSTR, SaveSTR, LoadSigningPubKey, client Load and start (`Model/Load`) on a disk = places to contents | decoder inverts encoder (C61); C68 for the paths; composition with C64; session induction for a client that refuses all STRs (C67). | partial |
| C70 | A server runs with what its configuration says, wherever it is started | server Load, NewLogger, start, init (`Model/Load`) | case analysis against the disk; C68 for the paths; init by symbolic execution of its five writes. | partial |
| C71 | The Twitter bot registers people under their own names only | the handler of `Run`, `HandleRegistration` with the key server behind it, `deleteOldDMs` (`Model/TwitterBot`); Twitter answers and link failures are part of the events | what a message asks for is what the decoder reads (C62_reads) and what the server reads from its first 8192 bytes; every history of the world is a history of the directory with owned registrations; then C23_only_registered. | partial |
| C72 | Converted keys belong together and representatives lead back to their key | the rest of extra25519 (`Model/Ed25519/Convert`), Curve25519 as a Weierstrass curve of Mathlib (`Spec/Montgomery`) | the birational map is an isomorphism of groups (polynomial identities by cases on the chord and tangent); limb bounds as in C53; fourth roots of unity decide the fix-up by the root of -1; Euler criterion for the refusal. | proved |
| C73 | The bytes exchanged have one meaning | scanner and decoder of encoding/json (`Model/Json`), against the grammar of RFC 8259 as an inductive relation (`Spec/JsonGrammar`) and the rules for filling a struct (`Spec/JsonInto`) | soundness and completeness of the recursive-descent reader by mutual induction with fuel; uniqueness from both. | proved |
| C74 | Every refusal states its true reason | no new model; the list of defects with their codes (`Spec/Verdict`) | case analysis of every path through the checks; the recomputed root hash by induction over the path. | proved |
| C75 | An answer, once given, does not change | the directory with pointers into a memory (`Model/Refs`), once as calls and once as the sections of the server in steps | simulation of the directory of values, with a memory that only grows as invariant; under the lock, linearizability (C45) and growth along every schedule. | proved |
| C76 | The key-value store keeps what was written | the wrapper over a log of batches with the number of synced ones (`Model/Store`); crashes keep any beginning of the log with all synced batches | induction over histories with the invariant that everything is synced; the table in key order by induction over the log; the scan loop by induction over the rest of the range. | proved |
| C77 | Results may be stored over operands | the functions of edwards25519.go on a memory of field elements with pointers (`Model/Ed25519/Alias`), limb by limb where the code is a loop | a loop that reads, of its destination, only the limb it is about to write is one assignment; then symbolic execution with a normal form of the memory; the meaning of the values from C53 to C56. | proved |
| C78 | Nobody waits for ever | the lock with queueing writers and parked readers, over the sections of the server in steps (`Model/Waiting`) | invariant of the lock; refinement to `Model/Lock`, so C45 carries over; liveness by induction on the code of a section, on the number of readers inside, and on first moves; bounded overtaking by an invariant that counts the writers that may still enter. | proved |
| C79 | A server listens where its configuration says, and starts again after any end | the listening sockets and files of one machine with processes that start, stop and crash (`Model/Listen`), Go's `url.Parse` byte by byte (`Model/Url`) | invariants of the machine (identities of sockets, no two on overlapping addresses, who owns which file) by induction over histories; `url.Parse` symbolically on `unix://` and `tcp://` addresses. | partial |
| C80 | The PID file names the running server | the file `coniks.pid` as bytes that are overwritten from the start, with the machine of C79 (`Model/Pid`) | number of decimal digits against powers of ten; the length of the file as invariant along histories. | partial |
| C81 | The bot as a program, and on a machine with key servers | `coniksbot init` and `run` over the disk of C68 and the machine of C79, and histories of a machine with several key servers and the bot (`Model/BotRun`) | case analysis of the start; every history projects, for one process, to a history of the bot with one server (C71), through the socket invariants of C79. | partial |
| C82 | The client's commands over a network that fails | the transports of the client and `acceptClient` with a network that cuts and loses in between (`Model/CliNet`) | an incomplete JSON text is no text (prefix theorem of C63), so a cut message is refused by either side; simulation of the session without the failed commands by induction over its events. | partial |
| C83 | Everyday messages arrive | the JSON encoders of C61 and C62 on the answers of the directory model | upper bounds for every encoded part; the depth of a path from two leaves that share its prefix; the sizes of everything in an honest directory as an invariant of histories. | proved |
| C84 | Users agree | any number of clients of the client model with one directory, calls interleaved (`Spec/Users`) | projection of a history to each user; the invariant of C33 for all users at once; the answers as a function of the abstract directory, and monotonicity of its map; C66 for the hostile network. | proved |
| C85 | Directory, auditor and user together | the directory, the audit log and the client of the models above in one state, events in any order (`Spec/Trio`) | simulation by a table of three epoch numbers, the index-keyed directory of C33 and the number of epochs in the cache, by induction over the events; the corollaries by case analysis of the table. | partial |
| C86 | Users who check with the same auditor cannot be kept apart | the audit log under arbitrary messages (C42) and arbitrary client states | a passed check pins the STR of the client to one position of the history the log reports; append-only (C42) makes the positions agree between moments; the past by walking the hash chain back (C41), the keys by C51; the two branches of the counterexample are two histories of the honest directory model. | proved |
| C87 | Many users at a server that works on their requests at the same time | the goroutines and the lock of C45 running the code of the sections in steps, the clients, and the calls and answers between them (`Spec/Crowd`) | an invariant over events that keeps the sequential run beside the concurrent one; a call becomes a call of its user when the answer is heard, which commutes with everything finished since, because the user makes one call at a time; corollaries through C84. | proved |
| C88 | No answer can crash an auditor | the audit log and the auditor state under arbitrary messages | an explicit list of the crashing messages (`Spec/CrashAudit`), equal to the panics by induction over the range; totality and the counterexamples are corollaries. | partial |
| C89 | A client program on a machine | client programs at terminals (`Model/Desk`) on the machine of `Model/BotRun` | `Spec/Desk.Aligned` relates the history of the machine to a session of one terminal with one directory; one step of the machine is one step of the session or none, by cases; composed over the history with C79_reach for the addresses and C82_lines for what is printed. | proved |
| C90 | A client program whose server was replaced, or that missed an epoch, says so for ever | as C89, with the chain of STRs of C18 and the two lives of C67 (`Spec/Lockout`) | induction over the session of C89: no reachable STR is the one held or its successor, so every answer is refused and the state of the client is the same again; the arithmetic of epochs (`C90_behind`), the hash link (`C90_restart`) or the key (`C90_other_server`) gives that premise. | proved |
| C91 | A key that a client program finds was asked for by its owner | as C89 and C81, with the events of the machine apart from its terminals and the condition that only the bot goes to its socket (`Spec/Owner`) | projection of the history of the machine onto the sequence of messages and connections that reached the server (`desk_project`), then the theorem about bot and directory of C71/C49 (`C91_owner`); a lookup that prints Found carries a proved key (`C91_found`); the exact lines of C64 for the three events give the liveness half (`C91_served`). | proved |
| C92 | Requests about ranges of epochs come to an end | the `for ep := s; ep <= e; ep++` loops of the four functions round by round, with the counter a 64-bit number that goes from 2^64 - 1 to 0, as a relation between a request, a number of rounds and an outcome (`Model/Loops`) | the relation is functional; induction over the distance from the counter to the end gives the rounds and the fold over `epochRange` that the other theorems are about; for the end 2^64 - 1 the guard always holds, so that no derivation is finite unless the body crashes. | partial |
| C93 | One auditor for any number of directories | n directories, one log, users with a home each, any interleaving (`Spec/World`) | an audit reads and writes one entry of the log (C43), a call of another user is a call by somebody; so a run of the world is, for each user, a run of the three of C85 (`world_run`), and a crash of the world is a crash of one of these (`world_run_crash`); then `C85_exact` and `C85_no_false_alarm`. | proved |
| C94 | A directory tells nobody another user's key | pairs of histories of the directory model (`Spec/Disclosure`) | an erasure of names, values, salts and promises of everybody else commutes with every call the group sees, answer included, and two registrations with equal commitments agree after erasure; induction over the two histories. | proved |

## 5. What is modelled and what is not

| source | modelled | not modelled |
|---|---|---|
| utils/utils.go, utils/coname.go | `GetNthBit`, `ToBits`, `ToBytes`, `IntToBytes`/`UInt32ToBytes`/`ULongToBytes`/`LongToBytes`, `WriteFile` over an abstract file system, `ResolvePath` with `path.Clean`/`Join`/`Dir` | `WithDB` (test helper), symbolic links |
| storage/kv | `Range`, `BytesPrefix`, `IncrementKey`; `leveldbkv` over the contract of LevelDB (`Model/Store`) | LevelDB itself, errors of the disk |
| crypto/util.go | `Digest`, `MakeRand`, `NewCommit`, `Commit.Verify` over an abstract hash and an explicit random input | SHAKE128 itself, `crypto/rand` |
| crypto/sign | `GenerateKey`, `Sign`, `Verify`, `Public` as abstract functions with laws | golang.org/x/crypto/ed25519 |
| crypto/vrf | all functions; `Prove`/`Verify`/`Compute` down to the limbs | SHAKE256, SHA-512 (abstract functions) |
| crypto/internal/ed25519/edwards25519 | all field, group and scalar functions used by the VRF, `slide`, tables, `GeDoubleScalarMultVartime`, `GeScalarMultBase`, encodings; once as functions on values and once with pointers into a memory (C77) | the order of reads and writes inside `FeMul`, `FeSquare`, `FeSquare2`, `ScMulAdd`, `ScReduce`, `FeToBytes` (all read their inputs before they write, by reading), constant-time behaviour |
| crypto/internal/ed25519/extra25519 | everything (SHA-512 is a parameter) | |
| merkletree | tree, nodes, hashing with caches, `Get`, `Set`, `Clone`, `visitLeafNodes`, proofs and `Verify`, STR, PAD with snapshots and `loadedEpochs`; once as values and once as heap cells | aliasing of byte slices inside nodes (no function writes to an element of one, by reading) |
| protocol | STR, policies, TB, messages, errors; directory, client consistency checks, auditor and audit log, all exported operations | |
| application | server: permissions, dispatch, connection handling, the message codec down to JSON text (`encoding/json` as far as these messages use it: syntax, escapes, UTF-8 replacement, base64, field matching, null), lock protocol with waiting and writer preference, epoch timer, reload, shutdown; loading of client and server configurations; when the logger panics; bot; key and STR files | sockets, TLS, the TOML library (a parameter), what is logged, Unicode tables, real time |
| application/bots/twitterbot.go, bot.go, config.go | `Load`, `NewTwitterBot`, `HandleRegistration`, the handler in `Run`, `sendDM`, `deleteOldDMs`, `deleteRequestDMs`, `SendRequestToCONIKS` (Twitter and the link are events; on a machine with key servers the link is the sockets of `Model/Listen`) | OAuth library, timers, Twitter API itself |
| cli/coniksbot | `init`, `run` up to the signal (`Model/BotRun`) | command line parsing |
| cli | `coniksserver init`/`run` as far as files and reload are concerned; `coniksclient init`; `coniksclient` register and lookup, over a network that works (`Model/Cli`) or fails (`Model/CliNet`), client programs on a machine with servers (`Model/Desk`) | command-line parsing, terminal |
| addresses and sockets (application/serverbase.go, application/testutil, Go 1.10 `net/url`) | `resolveAndListen`, the loop of `Run`, what `Shutdown` and a crash leave behind, who dials whom, `url.Parse`; the file `coniks.pid` | the kernel: bind, unlink and close enter by their Linux contract (`Model/Listen`); the working directory, certificates, name resolution and permissions are a constant `Machine`; requests on remote machines |

The heap model covers the tree; policies, STRs, temporary bindings and the key slices of requests are cells of another memory (`Model/Refs`, C75), in which answers are read after the lock is released.

Disagreements between the code and what its documentation promises are recorded in the notes of `MANIFEST.json` and proved as
`..._counterexample` theorems.

## 6. Axioms per theorem

From `#print axioms` (`tools/axioms.py`). No theorem depends on anything outside these three.

* no axioms (6): `C04_commit_total`, `C21_policies_shown`, `C46_shared_pointer_counterexample`, `C48_overflow_counterexample`, `C52_two_listeners_counterexample`, `C61_codes`

* propext (22): `C02_uint32_digits`, `C02_ulong_digits`, `C04_commit_binds`, `C06_tb_injective`, `C06_unchecked_counterexample`, `C37_equivocation_counterexample`, `C41_one_step`, `C43_init_refused`, `C43_unknown`, `C50_race_counterexample`, `C50_stat_counterexample`, `C50_writeFile_partial`, `C55_doubleScalarMult_top`, `C58_missing_table_counterexample`, `C59_initSTR_partial`, `C59_restart_counterexample`, `C60_private_key_kept`, `C60_stale_public_key_counterexample`, `C68_absolute_unchanged`, `C68_directory_of`, `C71_list_counterexample`, `C76_failures`

* propext, Quot.sound (87): `C01_getNthBit`, `C01_toBits_msb_first`, `C01_toBits_position`, `C01_toBits_toBytes`, `C01_toBytes_length`, `C01_toBytes_toBits`, `C02_injective`, `C02_long_digits`, `C02_ulong_onto`, `C03_incrementKey_least`, `C03_incrementKey_nil`, `C05_numbers_always`, `C05_same_bytes_iff`, `C05_serialize_injective_regular`, `C05_version_counterexample`, `C09_empty_index_panics`, `C09_mixed_lengths_panic`, `C10_deep_prefix_counterexample`, `C12_deep_prefix_counterexample`, `C15_verify_total_partial`, `C16_absence_proof_private`, `C16_absence_proof_redacted`, `C16_no_value_no_salt`, `C21_policies_delay`, `C26_malformed`, `C26_only_malformed`, `C32_epoch_monotone`, `C32_forward_chain`, `C32_one_call`, `C37_equivocation_total_partial`, `C37_handle_total_partial`, `C37_panic_counterexamples`, `C37_request_type_counterexample`, `C38_refused`, `C39_audit_accepts_iff`, `C39_audit_rejects`, `C40_accepts_iff`, `C40_equivocation_detected_partial`, `C40_latest_differs`, `C40_same_content`, `C40_unsigned_first_counterexample`, `C41_ambiguous_parse_counterexample`, `C41_client_and_auditor_partial`, `C41_same_past_partial`, `C43_isolation`, `C43_no_reinit`, `C44_error_no_change`, `C46_permissions`, `C46_permitted`, `C46_refused`, `C47_decoded`, `C47_dispatch`, `C47_nil_counterexample`, `C48_intervals`, `C48_newConfig_counterexample`, `C48_reload_counterexample`, `C48_timer_partial`, `C49_forwards_iff`, `C58_reload_iff`, `C58_reload_partial`, `C60_keyFiles_partial`, `C65_promise_is_str_counterexample`, `C68_absolute_partial`, `C68_canonical`, `C68_empty`, `C68_place`, `C68_same_place`, `C70_crash_partial`, `C70_loaded`, `C70_loads_iff`, `C70_moved`, `C70_reload`, `C71_old_messages`, `C71_stuck_counterexample`, `C75_cells`, `C76_batch`, `C80_written_iff`, `C81_runs_iff`, `C84_isolated`, `C86_check_exact`, `C88_audit_panics_iff`, `C88_crash_counterexample`, `C88_log_panics_iff`, `C88_total_partial`, `C92_auditor`, `C92_auditor_iff`, `C94_told_the_same`

* propext, Classical.choice, Quot.sound (353): `C03_bytesPrefix_exact`, `C04_commit_exact`, `C04_commit_exact_same_length`, `C04_commit_opens`, `C04_key_value_split_counterexample`, `C05_boundary_counterexample`, `C07_complete`, `C07_go_complete`, `C07_go_generateKey`, `C07_go_prove_compute`, `C07_neutral_rejected`, `C07_proof_length`, `C07_prove_compute`, `C08_accepts_iff`, `C08_go_accepts_iff`, `C08_go_special_soundness`, `C08_go_total`, `C08_response_not_unique`, `C08_special_soundness`, `C08_value_determined`, `C09_set_never_panics`, `C09_set_succeeds`, `C10_get_absent_exact`, `C10_get_absent_no_value`, `C10_get_absent_spread`, `C10_get_present`, `C11_hash_canonical`, `C11_order_independent`, `C12_absent_exact`, `C12_absent_verifies_spread`, `C12_present_verifies`, `C13_accepts_iff`, `C13_empty_branch_counterexample`, `C13_honest_wellshaped`, `C13_sound_partial`, `C14_accepts_iff`, `C14_empty_flag_counterexample`, `C14_inclusion_and_absence_counterexample`, `C14_no_contradiction_partial`, `C14_salt_length_counterexample`, `C15_honest_complete`, `C15_panic_counterexamples`, `C15_verify_panics_iff`, `C17_clone_behaves`, `C17_clone_equal`, `C17_isolation`, `C17_refines_values`, `C17_stale_clone`, `C18_signed_hash_chain`, `C18_tree_hash`, `C19_cache`, `C19_cache_two`, `C19_tiny_cache_counterexample`, `C20_history_immutable`, `C20_how_long`, `C22_reshuffle_content`, `C22_reshuffle_preserves`, `C23_first_registration_wins`, `C23_only_registered`, `C24_promises_kept`, `C25_deep_prefix_counterexample`, `C25_exact`, `C25_responses_spread`, `C26_reads_pure`, `C27_failed_registration`, `C27_no_trace`, `C28_exact`, `C28_lookup_in_epoch`, `C29_exact`, `C29_monitor`, `C30_evicted_counterexample`, `C30_history`, `C31_directory_panics_iff`, `C31_history_runs`, `C31_no_bytes_crash`, `C31_no_request_crashes`, `C33_exact`, `C33_go_session`, `C33_session`, `C33_two_epochs_behind_counterexample`, `C34_accept_iff`, `C34_acceptance`, `C34_status`, `C35_caller_pins_partial`, `C35_key_swap_counterexample`, `C35_never_recorded_counterexample`, `C36_absence_counterexample`, `C36_fulfilled_partial`, `C36_other_value_refused`, `C36_second_promise_counterexample`, `C37_equivocation_panics_iff`, `C37_panics_iff`, `C38_accepted_frame`, `C39_honest_history_accepted`, `C42_accepted_is_reported`, `C42_append_only`, `C42_unchecked_init_counterexample`, `C44_audit_refused_iff`, `C45_code`, `C45_linearizable`, `C45_lock_discipline`, `C46_writes`, `C49_end_to_end`, `C49_end_to_end_json`, `C49_one_owner`, `C49_run`, `C51_empty_flag_counterexample`, `C51_forever_partial`, `C51_same_str_same_view_partial`, `C51_split_promise_noticed_partial`, `C51_two_promises_counterexample`, `C52_crash_iff`, `C52_no_crash_partial`, `C52_no_deadlock`, `C52_nothing_after_shutdown`, `C53_cmove`, `C53_fromBytes`, `C53_powers`, `C53_products`, `C53_sums`, `C53_toBytes`, `C54_neg`, `C54_reduce_muladd`, `C55_add_double`, `C55_doubleScalarMult`, `C55_group`, `C55_scalarMult`, `C55_scalarMultBase`, `C56_fromBytes`, `C56_fromBytesBaseGroup`, `C56_fromBytesBaseGroup_value`, `C56_fromBytes_not_canonical`, `C56_toBytes`, `C56_toExtended`, `C57_collisions`, `C57_hashToEdwards`, `C57_small_order`, `C61_history_reads`, `C61_honest_answers_arrive`, `C61_reads`, `C61_response_roundtrip`, `C62_epoch_requests`, `C62_honest_session_partial`, `C62_iff_utf8`, `C62_lookup`, `C62_names_collide_counterexample`, `C62_reads`, `C62_registration`, `C62_session`, `C62_texts`, `C63_audit_type_counterexample`, `C63_big_key_counterexample`, `C63_crash_counterexample`, `C63_crash_iff`, `C63_cut_reply`, `C63_long_answer`, `C63_long_request`, `C63_no_bytes_crash_server`, `C63_unmarshal_total`, `C64_bad_address`, `C64_commands`, `C64_error_texts`, `C64_exact`, `C64_exit`, `C64_local`, `C64_lookup_prints_no_key`, `C64_no_key_pinned`, `C64_not_registered_means`, `C64_old_str_counterexample`, `C64_registered_means`, `C64_session_partial`, `C64_warning`, `C64_words`, `C65_promise_partial`, `C65_str_partial`, `C66_go_keys`, `C66_hidden_name_counterexample`, `C66_honest_traffic`, `C66_man_in_the_middle_partial`, `C66_shortened_key_counterexample`, `C67_auditor_refuses`, `C67_client_refuses`, `C67_forgotten`, `C67_fork`, `C67_second_identity`, `C68_relative_counterexample`, `C69_client_starts`, `C69_crash_counterexample`, `C69_crash_partial`, `C69_default_paths`, `C69_reads`, `C69_saved_str_loads`, `C69_session_partial`, `C69_unsigned_counterexample`, `C69_wrong_str_refused`, `C70_elsewhere_counterexample`, `C70_init_then_run`, `C70_no_log_file_counterexample`, `C70_stores`, `C71_case_counterexample`, `C71_ignored`, `C71_message`, `C71_no_crash`, `C71_old_messages_gone`, `C71_owner`, `C71_replies`, `C72_base`, `C72_compare`, `C72_compare_comment_wrong`, `C72_constants`, `C72_key_pair`, `C72_private_key`, `C72_public_key`, `C72_public_key_collisions`, `C72_public_key_multiple`, `C72_representative`, `C72_round_trip`, `C72_same_group`, `C72_scalar_base_mult`, `C72_scalar_base_mult_order`, `C73_answers_written`, `C73_grammar`, `C73_refused`, `C73_requests_written`, `C73_unique`, `C74_audit`, `C74_audit_exact`, `C74_broken_promise`, `C74_equivocation`, `C74_reason`, `C74_state`, `C75_answers`, `C75_code`, `C75_marshal`, `C75_writes`, `C75_writes_counterexample`, `C76_contents`, `C76_delete_lasts`, `C76_prefix_scan`, `C76_put_lasts`, `C76_scan`, `C77_add`, `C77_cmove`, `C77_double`, `C77_field`, `C77_fromBytes`, `C77_fromParityAndY`, `C77_montgomery`, `C77_multiples`, `C77_powers`, `C77_scalars`, `C77_toBytes`, `C77_toExtended`, `C78_answered`, `C78_linearizable`, `C78_no_deadlock`, `C78_reader_preference_counterexample`, `C78_reader_waits_for_one_writer`, `C78_writer_not_overtaken`, `C79_after_crash_partial`, `C79_crash_counterexample`, `C79_default_bot`, `C79_default_client_counterexample`, `C79_default_counterexample`, `C79_failed_start`, `C79_plain_unix_address`, `C79_reach`, `C79_relative_path_counterexample`, `C79_restart`, `C79_start_iff`, `C79_takeover_counterexample`, `C79_tcp_address`, `C79_unix_address`, `C79_who_answers`, `C80_failed_run_counterexample`, `C80_history_counterexample`, `C80_history_partial`, `C80_stays`, `C81_default`, `C81_ignored`, `C81_init_keeps`, `C81_init_then_run`, `C81_message`, `C81_no_crash`, `C81_owner`, `C81_relative_counterexample`, `C81_stale_counterexample`, `C81_untouched`, `C82_command`, `C82_deep_paths_cut`, `C82_every_session`, `C82_lines`, `C82_lockout_counterexample`, `C82_no_crash`, `C82_perfect`, `C82_retry`, `C82_session`, `C83_all_fit`, `C83_answers`, `C83_cli`, `C83_go_all_fit`, `C83_go_sizes`, `C83_requests`, `C83_session`, `C84_agreement`, `C84_besieged`, `C84_everybody_served`, `C84_shown_once_shown_always`, `C85_anew`, `C85_check`, `C85_diligent_auditor`, `C85_exact`, `C85_false_alarm_counterexample`, `C85_late_auditor_counterexample`, `C85_no_false_alarm`, `C86_fork_caught`, `C86_one_history`, `C86_same_past`, `C86_same_signature`, `C86_same_str`, `C86_same_view`, `C86_two_auditors_counterexample`, `C87_agreement`, `C87_answers`, `C87_every_order`, `C87_everybody_served`, `C87_no_crash`, `C87_one_by_one`, `C87_progress`, `C87_real_time`, `C88_honest`, `C88_wire_counterexample`, `C89_bad_address_counterexample`, `C89_down`, `C89_lines`, `C89_no_crash`, `C89_private`, `C89_session`, `C90_behind`, `C90_holds`, `C90_locked`, `C90_other_server`, `C90_restart`, `C91_found`, `C91_owner`, `C91_served`, `C92_directory`, `C92_forever_counterexample`, `C92_last_epoch_counterexample`, `C93_crash`, `C93_exact`, `C93_no_false_alarm`, `C94_commitments_counterexample`


## 5. What is modelled and what is not

| source | modelled | not modelled |
|---|---|---|
| utils/utils.go, utils/coname.go | `GetNthBit`, `ToBits`, `ToBytes`, `IntToBytes`/`UInt32ToBytes`/`ULongToBytes`/`LongToBytes`, `WriteFile` over an abstract file system, `ResolvePath` with `path.Clean`/`Join`/`Dir` | `WithDB` (test helper), symbolic links |
| storage/kv | `Range`, `BytesPrefix`, `IncrementKey`; `leveldbkv` over the contract of LevelDB (`Model/Store`) | LevelDB itself, errors of the disk |
| crypto/util.go | `Digest`, `MakeRand`, `NewCommit`, `Commit.Verify` over an abstract hash and an explicit random input | SHAKE128 itself, `crypto/rand` |
| crypto/sign | `GenerateKey`, `Sign`, `Verify`, `Public` as abstract functions with laws | golang.org/x/crypto/ed25519 |
| crypto/vrf | all functions; `Prove`/`Verify`/`Compute` down to the limbs | SHAKE256, SHA-512 (abstract functions) |
| crypto/internal/ed25519/edwards25519 | all field, group and scalar functions used by the VRF, `slide`, tables, `GeDoubleScalarMultVartime`, `GeScalarMultBase`, encodings; once as functions on values and once with pointers into a memory (C77) | the order of reads and writes inside `FeMul`, `FeSquare`, `FeSquare2`, `ScMulAdd`, `ScReduce`, `FeToBytes` (all read their inputs before they write, by reading), constant-time behaviour |
| crypto/internal/ed25519/extra25519 | everything (SHA-512 is a parameter) | |
| merkletree | tree, nodes, hashing with caches, `Get`, `Set`, `Clone`, `visitLeafNodes`, proofs and `Verify`, STR, PAD with snapshots and `loadedEpochs`; once as values and once as heap cells | aliasing of byte slices inside nodes (no function writes to an element of one, by reading) |
| protocol | STR, policies, TB, messages, errors; directory, client consistency checks, auditor and audit log, all exported operations | |
| application | server: permissions, dispatch, connection handling, the message codec down to JSON text (`encoding/json` as far as these messages use it: syntax, escapes, UTF-8 replacement, base64, field matching, null), lock protocol with waiting and writer preference, epoch timer, reload, shutdown; loading of client and server configurations; when the logger panics; bot; key and STR files | sockets, TLS, the TOML library (a parameter), what is logged, Unicode tables, real time |
| application/bots/twitterbot.go, bot.go, config.go | `Load`, `NewTwitterBot`, `HandleRegistration`, the handler in `Run`, `sendDM`, `deleteOldDMs`, `deleteRequestDMs`, `SendRequestToCONIKS` (Twitter and the link are events; on a machine with key servers the link is the sockets of `Model/Listen`) | OAuth library, timers, Twitter API itself |
| cli/coniksbot | `init`, `run` up to the signal (`Model/BotRun`) | command line parsing |
| cli | `coniksserver init`/`run` as far as files and reload are concerned; `coniksclient init`; `coniksclient` register and lookup, over a network that works (`Model/Cli`) or fails (`Model/CliNet`), client programs on a machine with servers (`Model/Desk`) | command-line parsing, terminal |
| addresses and sockets (application/serverbase.go, application/testutil, Go 1.10 `net/url`) | `resolveAndListen`, the loop of `Run`, what `Shutdown` and a crash leave behind, who dials whom, `url.Parse`; the file `coniks.pid` | the kernel: bind, unlink and close enter by their Linux contract (`Model/Listen`); the working directory, certificates, name resolution and permissions are a constant `Machine`; requests on remote machines |

The heap model covers the tree; policies, STRs, temporary bindings and the key slices of requests are cells of another memory (`Model/Refs`, C75), in which answers are read after the lock is released.

Disagreements between the code and what its documentation promises are recorded in the notes of `MANIFEST.json` and proved as
`..._counterexample` theorems.

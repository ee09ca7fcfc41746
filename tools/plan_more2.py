plan['C07']=('vrf.go over abstract operations, then over the modelled Ed25519 code','algebra in the group; instance `goLaws` proved for the limb-level code; exact set of exceptional hash values.')
plan['C08']=('vrf.go over abstract operations, then over the modelled Ed25519 code','exact acceptance condition; two accepting transcripts with the same commitments; inversion of challenge differences modulo l.')
plan['C17']=('tree as heap cells with pointers (`Model/Heap`)','refinement of the pure tree; disjointness and frame invariants over histories of operations on any number of trees.')
plan['C23']=('Directory','refinement to the abstract directory of `Spec/Directory`, induction over histories.')
plan['C24']=('Directory','refinement to the abstract directory, induction over histories.')
plan['C25']=('Directory','refinement to the abstract directory under spread indices, and to the index-keyed directory (Spec/DirExact) for every VRF; counterexample for deep common prefixes.')
plan['C31']=('HandleRequests and the path from received bytes to the answer','totality of every handler from the directory invariant; the crash of C30 is shown unreachable through HandleRequests.')
plan['C33']=('Client + Directory + index-keyed directory','exact answer of HandleResponse to an exact directory answer, then induction over the session; the usual case from C25; counterexample for a client two epochs behind.')
plan['C35']=('Client','refuted (GetKey is a stub); pinning proved when the caller passes the key.')
plan['C36']=('Client','proved for inclusion proofs; counterexamples for absence and for a second promise.')
plan['C37']=('Client','totality on the well-formed responses, counterexamples for the others.')
plan['C40']=('Client.CheckEquivocation','exact acceptance condition; counterexample for the first STR of a range.')
plan['C49']=('Bot','decision logic over an abstract case folding.')
plan['C51']=('two runs of the client model, arbitrary responses','C34 and C14 for one STR; the chain of held STRs and C41 for the past; constructed STRs and proofs for the counterexamples.')

plan['C61']=('encoding/json as used: text syntax, struct fields, base64 (`Model/Json`)','parser inverts printer, by induction on values; decoder inverts encoder per message type; honest answers satisfy the side conditions (invariant over histories).')
plan['C62']=('request constructors, `UnmarshalRequest`, client exchange (`Model/Wire`)','round trip iff valid UTF-8; session induction step by step against the session of direct calls.')
plan['C63']=('the same, arbitrary bytes','no proper prefix of a printed value parses; totality of the decoders; crashing replies evaluated for every client state.')

plan['C64']=('the REPL: splitting of lines, dispatch, texts, both commands (`Model/Cli`)','session induction with status codes, composed with C62; the success texts traced back to C34; exact characterisation of the words of a line.')
plan['C65']=('what the directory signs in a history (`Spec/Mitm.WasSigned`)','field-wise reading of the signed bytes (C05) and an invariant that ties each promise to the STR it was made under.')
plan['C66']=('adversary = arbitrary answers, subject to `Unforged` and `VrfHonest` (`Spec/Mitm`)','the held STR is genuine by induction over the calls; a received path is compared with the honest path of that snapshot (meeting point of two hash chains); promises by C65. Counterexamples are constructed proofs.')
plan['C67']=('two histories of the directory model under the same keys','signatures of equal epochs differ, by induction along both chains; session induction for a client that refuses all STRs of a directory.')
plan['C68']=('`path.Clean`, `Join`, `Dir` and `ResolvePath` on bytes (`Model/Path`), against places = lists of names (`Spec/Path`)','the cleaned path leads to the same place, by induction over the segments; canonical form from the same induction.')
plan['C69']=('LoadInitSTR, SaveSTR, LoadSigningPubKey, client Load and start (`Model/Load`) on a disk = places to contents','decoder inverts encoder (C61); C68 for the paths; composition with C64; session induction for a client that refuses all STRs (C67).')
plan['C70']=('server Load, NewLogger, start, init (`Model/Load`)','case analysis against the disk; C68 for the paths; init by symbolic execution of its five writes.')

plan['C71']=('the handler of `Run`, `HandleRegistration` with the key server behind it, `deleteOldDMs` (`Model/TwitterBot`); Twitter answers and link failures are part of the events','what a message asks for is what the decoder reads (C62_reads) and what the server reads from its first 8192 bytes; every history of the world is a history of the directory with owned registrations; then C23_only_registered.')

plan['C72']=('the rest of extra25519 (`Model/Ed25519/Convert`), Curve25519 as a Weierstrass curve of Mathlib (`Spec/Montgomery`)','the birational map is an isomorphism of groups (polynomial identities by cases on the chord and tangent); limb bounds as in C53; fourth roots of unity decide the fix-up by the root of -1; Euler criterion for the refusal.')

plan['C73']=('scanner and decoder of encoding/json (`Model/Json`), against the grammar of RFC 8259 as an inductive relation (`Spec/JsonGrammar`) and the rules for filling a struct (`Spec/JsonInto`)','soundness and completeness of the recursive-descent reader by mutual induction with fuel; uniqueness from both.')
plan['C74']=('no new model; the list of defects with their codes (`Spec/Verdict`)','case analysis of every path through the checks; the recomputed root hash by induction over the path.')

plan['C75']=('the directory with pointers into a memory (`Model/Refs`), once as calls and once as the sections of the server in steps','simulation of the directory of values, with a memory that only grows as invariant; under the lock, linearizability (C45) and growth along every schedule.')

plan['C76']=('the wrapper over a log of batches with the number of synced ones (`Model/Store`); crashes keep any beginning of the log with all synced batches','induction over histories with the invariant that everything is synced; the table in key order by induction over the log; the scan loop by induction over the rest of the range.')

plan['C77']=('the functions of edwards25519.go on a memory of field elements with pointers (`Model/Ed25519/Alias`), limb by limb where the code is a loop','a loop that reads, of its destination, only the limb it is about to write is one assignment; then symbolic execution with a normal form of the memory; the meaning of the values from C53 to C56.')

plan['C78']=('the lock with queueing writers and parked readers, over the sections of the server in steps (`Model/Waiting`)','invariant of the lock; refinement to `Model/Lock`, so C45 carries over; liveness by induction on the code of a section, on the number of readers inside, and on first moves; bounded overtaking by an invariant that counts the writers that may still enter.')

plan['C79']=('the listening sockets and files of one machine with processes that start, stop and crash (`Model/Listen`), Go\'s `url.Parse` byte by byte (`Model/Url`)','invariants of the machine (identities of sockets, no two on overlapping addresses, who owns which file) by induction over histories; `url.Parse` symbolically on `unix://` and `tcp://` addresses.')
plan['C80']=('the file `coniks.pid` as bytes that are overwritten from the start, with the machine of C79 (`Model/Pid`)','number of decimal digits against powers of ten; the length of the file as invariant along histories.')
plan['C81']=('`coniksbot init` and `run` over the disk of C68 and the machine of C79, and histories of a machine with several key servers and the bot (`Model/BotRun`)','case analysis of the start; every history projects, for one process, to a history of the bot with one server (C71), through the socket invariants of C79.')

plan['C82']=('the transports of the client and `acceptClient` with a network that cuts and loses in between (`Model/CliNet`)','an incomplete JSON text is no text (prefix theorem of C63), so a cut message is refused by either side; simulation of the session without the failed commands by induction over its events.')
plan['C83']=('the JSON encoders of C61 and C62 on the answers of the directory model','upper bounds for every encoded part; the depth of a path from two leaves that share its prefix; the sizes of everything in an honest directory as an invariant of histories.')
plan['C84']=('any number of clients of the client model with one directory, calls interleaved (`Spec/Users`)','projection of a history to each user; the invariant of C33 for all users at once; the answers as a function of the abstract directory, and monotonicity of its map; C66 for the hostile network.')
plan['C85']=('the directory, the audit log and the client of the models above in one state, events in any order (`Spec/Trio`)','simulation by a table of three epoch numbers, the index-keyed directory of C33 and the number of epochs in the cache, by induction over the events; the corollaries by case analysis of the table.')
plan['C86']=('the audit log under arbitrary messages (C42) and arbitrary client states','a passed check pins the STR of the client to one position of the history the log reports; append-only (C42) makes the positions agree between moments; the past by walking the hash chain back (C41), the keys by C51; the two branches of the counterexample are two histories of the honest directory model.')
plan['C87']=('the goroutines and the lock of C45 running the code of the sections in steps, the clients, and the calls and answers between them (`Spec/Crowd`)','an invariant over events that keeps the sequential run beside the concurrent one; a call becomes a call of its user when the answer is heard, which commutes with everything finished since, because the user makes one call at a time; corollaries through C84.')
plan['C88']=('the audit log and the auditor state under arbitrary messages','an explicit list of the crashing messages (`Spec/CrashAudit`), equal to the panics by induction over the range; totality and the counterexamples are corollaries.')
plan['C89']=('client programs at terminals (`Model/Desk`) on the machine of `Model/BotRun`','`Spec/Desk.Aligned` relates the history of the machine to a session of one terminal with one directory; one step of the machine is one step of the session or none, by cases; composed over the history with C79_reach for the addresses and C82_lines for what is printed.')
plan['C90']=('as C89, with the chain of STRs of C18 and the two lives of C67 (`Spec/Lockout`)','induction over the session of C89: no reachable STR is the one held or its successor, so every answer is refused and the state of the client is the same again; the arithmetic of epochs (`C90_behind`), the hash link (`C90_restart`) or the key (`C90_other_server`) gives that premise.')
plan['C91']=('as C89 and C81, with the events of the machine apart from its terminals and the condition that only the bot goes to its socket (`Spec/Owner`)','projection of the history of the machine onto the sequence of messages and connections that reached the server (`desk_project`), then the theorem about bot and directory of C71/C49 (`C91_owner`); a lookup that prints Found carries a proved key (`C91_found`); the exact lines of C64 for the three events give the liveness half (`C91_served`).')

plan['C92']=('the `for ep := s; ep <= e; ep++` loops of the four functions round by round, with the counter a 64-bit number that goes from 2^64 - 1 to 0, as a relation between a request, a number of rounds and an outcome (`Model/Loops`)','the relation is functional; induction over the distance from the counter to the end gives the rounds and the fold over `epochRange` that the other theorems are about; for the end 2^64 - 1 the guard always holds, so that no derivation is finite unless the body crashes.')
plan['C93']=('n directories, one log, users with a home each, any interleaving (`Spec/World`)','an audit reads and writes one entry of the log (C43), a call of another user is a call by somebody; so a run of the world is, for each user, a run of the three of C85 (`world_run`), and a crash of the world is a crash of one of these (`world_run_crash`); then `C85_exact` and `C85_no_false_alarm`.')

plan['C94']=('pairs of histories of the directory model (`Spec/Disclosure`)','an erasure of names, values, salts and promises of everybody else commutes with every call the group sees, answer included, and two registrations with equal commitments agree after erasure; induction over the two histories.')

notes['C01'] = ('proved', '')
notes['C02'] = ('proved', '')
notes['C03'] = ('proved', '')
notes['C09'] = ('proved', 'for every non-zero common length; the empty index and mixed lengths are shown to panic')
notes['C10'] = ('proved', 'C10_get_present and C10_get_absent_exact together cover every history and index; that the exception is real is shown by C10_deep_prefix_counterexample; C10_get_absent_spread is the plain claim under spread indices')
notes['C11'] = ('proved', '')
notes['C12'] = ('proved', 'C12_present_verifies and C12_absent_exact together cover every history and index; that the exception is real is shown by C12_deep_prefix_counterexample')
notes['C04'] = ('proved', 'opening and totality; the exact set of pairs a commitment opens to, and binding of the value, under an explicit no-collision hypothesis for the two inputs; that the key alone is not bound is shown by C04_key_value_split_counterexample')
notes['C13'] = ('partial', 'proved under explicit no-collision hypotheses for well-shaped, non-confusable paths; the unrestricted claim is shown false (empty-branch confusion); C13_accepts_iff is the exact set of paths accepted under the hash of an honest tree, whatever their shape')
notes['C14'] = ('partial', 'proved for well-shaped, non-confusable paths under an explicit no-collision hypothesis; three counterexamples show the restriction is needed; C14_accepts_iff says exactly which paths are accepted under a tree hash once one is, whatever their shape')
notes['C15'] = ('partial', 'totality proved for proofs with a leaf, a commitment and a level within the index; the unrestricted claim is false of the code: C15_verify_panics_iff gives the exact set of crashing proofs (Spec.CrashesVerifier)')
notes['C16'] = ('proved', 'covers the fields of the returned absence proof')
notes['C05'] = ('proved', 'C05_same_bytes_iff is the exact characterisation; the claim without a condition on lengths is refuted by C05_boundary_counterexample and C05_version_counterexample')
notes['C06'] = ('proved', 'lengths enforced by the signature and VRF checks')
notes['C18'] = ('proved', 'for fewer than 2^64 updates (uint64 epochs wrap)')
notes['C19'] = ('proved', 'C19_cache holds for every n; C19_tiny_cache_counterexample shows that the limit is exceeded for n below 2')
notes['C20'] = ('proved', '')
notes['C22'] = ('proved', 'under distinct VRF outputs for the stored names (explicit hypothesis) and available randomness')
notes['C21'] = ('proved', '')
notes['C23'] = ('proved', 'under distinct VRF indices for the names used (explicit hypothesis)')
notes['C24'] = ('proved', 'under distinct VRF indices for the names used (explicit hypothesis)')
notes['C25'] = ('proved', 'C25_exact needs no hypothesis on the VRF; C25_responses_spread is the plain refinement under indices that differ within 248 bits; C25_deep_prefix_counterexample shows that distinct indices are not enough for it')
notes['C26'] = ('proved', '')
notes['C27'] = ('proved', '')
notes['C28'] = ('proved', 'C28_exact needs no hypothesis on the VRF; C28_lookup_in_epoch is the reading in terms of names under distinct indices')
notes['C29'] = ('proved', 'C29_exact needs no hypothesis on the VRF; C29_monitor is the reading in terms of names under distinct indices')
notes['C30'] = ('proved', 'covers every range; "never crashes" is refuted by C30_evicted_counterexample, which together with C30_history and C31_directory_panics_iff gives the exact condition')
notes['C39'] = ('proved', '')
notes['C40'] = ('partial', 'acceptance characterised exactly; a different latest STR is always refused; a different STR at an inner position is shown to need the same signature; refuted for the first STR of a range, whose signature is never checked (general counterexample)')
notes['C41'] = ('partial', 'proved for STRs with regular field lengths, under explicit no-collision and signature-binding hypotheses; refuted without the length condition (general counterexample: one signature, two readings, two pasts)')
notes['C42'] = ('proved', 'for fewer than 2^64 STRs; starting from a valid initial history (InitHistory itself does not check it, shown)')
notes['C43'] = ('proved', '')
notes['C44'] = ('proved', '')
notes['C32']=('proved','For every sequence of responses, accepted or refused, from anyone: the STRs held form a chain of signed, hash-linked successors from the pinned one; epochs never decrease or skip (below 2^64).')
notes['C33']=('partial','Whole sessions of a client with an honest directory, interleaved with arbitrary other activity and epoch changes: every verdict is exactly the expected one, provided the client makes one answered call per epoch and VRF indices are spread (as C25). Limit proved: a client two epochs behind is refused for ever (C33_two_epochs_behind_counterexample).')
notes['C34']=('proved','Exact characterisation of acceptance (iff), for clients created by New (TBs on), plus the guarantees spelled out.')
notes['C35']=('partial','Refuted as stated: no key is ever recorded (C35_never_recorded_counterexample) and a key swap is accepted (C35_key_swap_counterexample). Proved: pinning holds when the caller passes the key.')
notes['C36']=('partial','Proved for lookups that show a key in the tree. Refuted for absence (C36_absence_counterexample) and for a second, different promise (C36_second_promise_counterexample).')
notes['C37']=('partial','No panic for registrations/lookups on responses with the listed parts and for histories with non-nil first/last STRs and policies. Refuted otherwise (request types, nil parts, wrong payload type). C37_panics_iff and C37_equivocation_panics_iff say exactly which responses crash HandleResponse and CheckEquivocation.')
notes['C38']=('proved','A refused response changes neither bindings nor promises, and the STR at most to its signed linked successor; an accepted one changes only its own name.')
notes['C31']=('proved','HandleRequests and the whole path from bytes to answer, for every reachable directory below 2^64 epochs. Requests carry non-nil payloads (UnmarshalRequest never yields a nil one, proved). GetSTRHistory, which can panic (C30), is not reachable through HandleRequests.')
notes['C45']=('proved','for every schedule of any number of goroutines, any decomposition of the critical sections into steps; below 2^64 epochs')
notes['C46']=('proved','for address lists with distinct pointers, as TOML decoding yields; shown to be needed')
notes['C47']=('proved','')
notes['C48']=('partial','Proved when both configured deadlines agree, fit and are never changed. Refuted for configurations made by NewConfig (timer 0), after a reload that changes the deadline, and for huge deadlines.')
notes['C49']=('proved','Unicode case mapping is abstract; JSON decoding is abstract')
notes['C50']=('partial','Existing files are unchanged and success means the content is there, absent other writers; a failed write leaves a partial file, and two processes racing can overwrite (counterexamples).')
notes['C52']=('partial','Nothing runs after Shutdown and Shutdown can always complete, for any number of listeners. No crash proved for one listener; refuted for two, which share one wait group.')
notes['C58']=('partial','Proved for files with both tables; a file without [policies] or [logger] crashes the server (counterexample).')
notes['C59']=('partial','Proved when the file did not exist before; refuted for a restart and for a failed write.')
notes['C60']=('partial','Proved when neither file existed or both writes succeed; refuted with a left-over public key file.')

notes['C07']=('partial','Over any operations satisfying EdLaws (group laws of Spec/Ed.lean); completeness excludes messages hashed to the neutral element, and C07_neutral_rejected shows that for those the honest proof is rejected.')
notes['C08']=('proved','Over any operations satisfying EdLaws (group laws of Spec/Ed.lean): exact acceptance condition, special soundness (two accepted transcripts with the same commitments and different challenges force the value Compute returns), value determined by the point.')

notes['C17']=('proved','Pointer-level model (heap cells with parent and child pointers) of insertNode, hash, clone, Get; any number of trees and clones in one memory.')

notes['C07']=('proved','For the Go code itself (goOps): only SHAKE256 is abstract. C07_go_complete gives the exact verdict: accepted unless the hash of the message is one of twelve values. The other C07 theorems are the same over any operations satisfying EdLaws.')
notes['C08']=('proved','For the Go code itself (goOps): exact acceptance condition in terms of curve points, special soundness, value determined by the point; proofs are not unique (C08_response_not_unique).')
notes['C53']=('proved','Straight-line code as checked programs of machine operations; an interval analysis proved sound shows that no operation wraps, a polynomial check proved sound that the result is right modulo p.')
notes['C54']=('proved','As C53. ScNeg exactly, for every 32-byte argument; it is a negative modulo l for arguments up to l (VRF.Prove gives it a reduced scalar).')
notes['C55']=('proved','Edwards group law proved (associativity by certificates), group order 8l, base table of 256 points checked by the kernel. GeScalarMultBase and GeDoubleScalarMultVartime for scalars below 2^255; C55_doubleScalarMult_top shows the bound is needed.')
notes['C56']=('proved','FromBytes by itself also accepts y >= p (C56_fromBytes_not_canonical); FromBytesBaseGroup does not.')
notes['C57']=('proved','The documented claim that collision resistance is preserved holds up to the four-to-one relation of C57_collisions.')

notes['C33']=('proved','C33_exact: every verdict of every session, or the crash, as a function of the index-keyed directory, the epochs since the last accepted STR and the promises held; no hypothesis on the cryptography (below 2^64 epochs). C33_session: the readable usual case (spread indices, verifiable names, one answered call per epoch); C33_go_session: the same with the Go VRF. C33_two_epochs_behind_counterexample: a client two epochs behind is refused for ever.')
notes['C51']=('partial','Proved for proofs shaped like honest ones, under explicit no-collision, VRF-agreement and signature-binding hypotheses; refuted without the shape conditions (for every scheme) and for promises; a split promise is noticed by one of the clients once both look the name up in the tree.')

notes['C61']=('proved','encoding/json modelled as text (escapes, base64, case-insensitive fields, duplicate and unknown members, null); the decoder is proved to invert the encoder.')
notes['C62']=('partial','Round trip exactly for the names that are valid UTF-8; names that are not are replaced and collide (counterexample). The session theorem needs permission to register and messages of at most 8192 bytes; the honest session inherits the conditions of C33.')
notes['C63']=('partial','Cut-off messages and the server proved; refuted for the client: three short replies crash it (C63_crash_iff: exactly which replies do), and every audit answer with a body; a key of 5980 bytes or more can be registered but neither the answer nor any later lookup of it fits into the 8192 bytes a client reads (C63_big_key_counterexample).')

notes['C65']=('partial','For every history and every signed byte string: an STR with regular lengths is one of the log, a promise is one that was made, unless a signature begins like an epoch number. Refuted without the conditions for every signature scheme: the answer to a registration of a 40-byte key is the signature of an STR that was never issued.')
notes['C66']=('partial','For every history, client, sequence of calls and adversary: shown keys are the keys of a logged epoch if the salt has its length, absence is true if the proof is regular, promises were made. Honest traffic meets the hypotheses. Refuted: absence can be forged in small trees by moving nonce bytes into the leaf index; keys can be cut when the name occurs in them (for every choice of primitives).')
notes['C64']=('partial','Whole REPL sessions against an honest server, over the modelled network, print exactly the lines computed from the abstract directory (conditions of C33, messages up to 8192 bytes). Refuted: lookups never show the key (GetKey is a stub), and a client started with an STR two epochs old only complains.')

notes['C67']=('proved','Two histories under the same keys whose first random draws differ never share or continue an STR (no hash collision among their signatures, one signature fits one content); sessions of old clients end in CheckBadSTR for ever with the state unchanged; names are free again; the audit log keeps both under two identities.')

notes['C68']=('partial','Place, canonical form and the absolute case proved for all byte strings with lexical path semantics (no symbolic links). Missing: the result is absolute only if one of the two paths is (C68_relative_counterexample).')
notes['C69']=('partial','Round trip, refusal of other epochs, the composition of both configurations with a REPL session, and the bound on the harm of a wrong STR are proved. Refuted: three files crash the client; the signature of the initial STR is not checked. Exact condition of the crash in C69_crash_partial. TOML is a parameter.')
notes['C70']=('partial','Exact loading condition, meaning of all paths, reload = C58. Refuted: missing tables crash; a configuration without log file crashes the server; `init` saves its relative path, which then decides where `run` stores the initial STR and what is reloaded. TOML is a parameter.')

notes['C71']=('partial','Outcome of every message, one answer each, ownership over all histories, no crash: proved with the JSON decoder of the Go library; Unicode case mapping and the Twitter API are parameters. Refuted: one account can register several names that differ in letter case; if the answer of the server is lost the user is told ErrDirectory though registered (part of C71_message); old messages stay if Twitter does not list them, and the bot never starts if one cannot be destroyed.')
notes['C49']=('proved','Unicode case mapping is abstract; C49_end_to_end_json is for the decoder of the Go library, the others for every decoder')
notes['C23']=('proved','under distinct VRF indices for the names used (explicit hypothesis); C23_only_registered: every key shown was registered by a Register that succeeded')
notes['C62']=('partial','Round trip exactly for the names that are valid UTF-8; names that are not are replaced and collide (counterexample). C62_reads: exactly which bytes are read as which request, against an independent description of what a JSON object says. The session theorem needs permission to register and messages of at most 8192 bytes; the honest session inherits the conditions of C33.')

notes['C72']=('proved','All four functions exactly, against Curve25519 as an elliptic curve of Mathlib and an isomorphism with the Edwards curve. C72_compare_comment_wrong and C72_constants: the comments on feBytesLE, sqrtMinusA and sqrtMinusHalf are wrong, the code is right.')

notes['C73']=('proved','Grammar as an inductive relation between texts and values; reading is equivalent to derivation, values are unique. Nesting limit of newer Go versions not modelled.')
notes['C74']=('proved','Exact for a client that uses promises (the only kind New makes): the code returned is the one of a list of defects in order, written without the code; crashing responses are those of C37. The auditor half is one-directional in the crashing cases (if it returns).')
notes['C61']=('proved','encoding/json modelled as text (escapes, base64, case-insensitive fields, duplicate and unknown members, null); the decoder is proved to invert the encoder; C61_reads and C61_history_reads say exactly which texts are read as which answer.')

notes['C75']=('proved','Memory of policies, STRs, promises and key slices; the trees are values here (isolation of snapshots: C17). C75_code has no hypotheses on the code of the sections. A program that overwrites a key slice after passing it to Register changes the promise the directory hands out, and nothing else (C75_writes, C75_writes_counterexample); the server never does.')
notes['C76']=('proved','LevelDB itself is outside the repository and enters as the contract stated in Model/Store (atomic batches; a write with Sync is on the disk when it returns; iterators in key order over a snapshot); proved is that the wrapper turns this contract into the promise of kv.go. Errors of the disk are not modelled.')
notes['C77']=('proved','edwardsToMontgomeryX is the exception (C77_montgomery): over its own argument it is wrong; it is unexported and its one caller passes different pointers. FeMul, FeSquare and ScMulAdd are taken as one step each: they read all limbs before they write any (cited lines).')
notes['C78']=('proved',"The lock is Go's sync.RWMutex by its documented contract (a blocked Lock excludes new readers; Unlock lets in the waiting readers before the next writer); fairness of Go's scheduler and of the mutex among writers are explicit hypotheses; C78_reader_preference_counterexample shows that a lock without writer preference would let epochs starve. Network input and output, timers and signals are events that may come at any time or never.")
notes['C79']=('partial',"Proved for starting (iff), being reached, who answers, failed starts and restart after an orderly shutdown, for all histories of the machine. Refuted: after a crash the file of a Unix socket stays and the server does not start again until it is removed by hand (C79_after_crash_partial, C79_crash_counterexample); the default client cannot register at the default server (C79_default_client_counterexample); a default server without certificate blocks its own next start (C79_default_counterexample). The operating system enters by its contract for bind, unlink and close.")
notes['C80']=('partial',"Refuted: the file is not truncated and is written before the configuration is read. C80_history_partial says exactly in which histories it names the process; C80_history_counterexample and C80_failed_run_counterexample what it names otherwise.")
notes['C81']=('partial',"Proved exactly: when the bot comes up (C81_runs_iff), what it touches (C81_untouched), init then run (C81_init_then_run, C81_init_keeps), one message on a machine (C81_message), the default bot and server for all histories (C81_default), who owns a name (C81_owner), no crash (C81_no_crash). Refuted: the bot also starts when the server has crashed, because it only looks for the socket's file (C81_stale_counterexample), and a relative path is not taken from the configuration's place (C81_relative_counterexample).")

notes['C82']=('partial',"Proved: one command and whole sessions under all failures (C82_command, C82_session, C82_lines), a working network is C64 (C82_perfect), repeating a registration (C82_retry); no honest server and no failure crashes the client, for every VRF and client state (C82_no_crash): answers it could not bear are longer than it reads. Refuted: one failed lookup can let the client fall two epochs behind, after which it never accepts anything again (C82_lockout_counterexample). The network loses and cuts; bytes that are not the server's are C37, C63 and C66.")
notes['C64']=('partial','C64_exact: every session with an honest server over a working network prints exactly the lines computed from the abstract directory, for every VRF and however far the client is behind (messages up to 8192 bytes); C64_session_partial is the readable special case under the conditions of C33. Refuted: lookups never show the key (GetKey is a stub), and a client started with an STR two epochs old only complains.')
notes['C83']=('proved',"The bounds are explicit (C83_answers, C83_requests); sizes of VRF keys and proofs are proved for the code's VRF (C83_go_sizes). That indices part within 42 bits is a hypothesis on the names asked for (C82_deep_paths_cut: below level 126 nothing arrives). What happens with keys of 6000 bytes: C63_big_key_counterexample.")
notes['C84']=('proved',"C84_isolated (projection to the sessions of C33), C84_agreement (any client states; distinct indices only), C84_everybody_served (all that all users hear is a function of the abstract directory; users keep up, indices spread over 248 bits, usable names), C84_shown_once_shown_always, C84_besieged (hypotheses of C66; inclusion counts with a 32-byte salt, see C66). The same about a dishonest directory: C51 (it can show different users different keys), C40 and C41.")
notes['C85']=('partial',"C85_exact computes everything that is returned, and every crash, for every interleaving (cache length at least 2; fewer than 2^64 - 1 epochs). The claim itself is refuted: CheckEquivocation accepts only ranges that end at the user's epoch or the next, so with all parties honest a user ahead of the auditor or two epochs behind it is told CheckBadSTR (C85_check, C85_false_alarm_counterexample); a user who asks for a range that ends at its own epoch is never told so (C85_no_false_alarm). An auditor that is away for at most size - size/2 epochs catches up (C85_diligent_auditor), one away for more than size epochs never learns another STR, and asking crashes the directory (C85_late_auditor_counterexample, C85_exact).")
notes['C86']=('proved',"C86_one_history: at every moment there is one hash chain, reported by the log, that contains the STR of every client that passes now or passed earlier (range ending at its own epoch); no assumption about the cryptography. C86_same_str and C86_fork_caught (with the exact result of a check, C86_check_exact) follow; for other ranges the hash of the signature is the same (C86_same_signature; the client must not be at epoch 2^64 - 1). C86_same_view and C86_same_past give the keys, also for answers long ago; they use C51 and C41 and so assume proofs and STRs of the shape the code produces (without: C51_empty_flag_counterexample, C41_ambiguous_parse_counterexample), no collision and no signature fitting two contents among the listed inputs. C86_two_auditors_counterexample, for every cryptography, shows that the same auditor is needed. The initial chain given to InitHistory must be a chain (the code does not check it, C42).")
notes['C87']=('proved',"C87_one_by_one: refinement of the sequential world of C84 by the small-step server of C45 with clients around it, for every cryptography, client state and schedule (calls whose answers are lost count as calls at the directory). C87_answers, C87_no_crash (no condition on the VRF), C87_progress, C87_every_order (the converse: every order of the calls is the outcome of some schedule). C87_agreement (distinct indices), C87_real_time (a key heard before a call is sent is in its answer; users need not keep up), C87_everybody_served (spread indices, usable names, users who keep up). An answer of more than 8192 bytes counts as lost. Fairness, so that everybody is served in the end, is C78.")
notes['C88']=('partial',"Refuted: a nil STR, the bare number of the next epoch (unsigned), a nil payload or the answer to another request crash the auditor and lose the logs of all directories (C88_crash_counterexample, from bytes C88_wire_counterexample). C88_audit_panics_iff and C88_log_panics_iff say exactly which ranges and calls do; C88_total_partial is the part that holds; C88_honest: no answer of an honest directory is one of them, whatever the auditor holds. With C74_audit_exact the result of AuditDirectory is determined for every input.")
notes['C89']=('proved',"For client programs whose addresses Go can read; a program with another address starts and crashes at the first command (C89_bad_address_counterexample; C69). C89_session follows one process from its start to the end of any history that spares it, through C79_reach at every moment; C89_lines adds what is printed (C64, C82) for messages that fit (8192 bytes). The commands of one terminal and the events of the machine are interleaved command by command; interleavings inside a server are C45 and C87.")
notes['C90']=('proved',"C90_locked is the general form: the outcome is decided by whether one of the STRs current from then on is the one held or a signed successor of it (and the key never changes, the STR only to one of this directory). C90_restart, C90_other_server and C90_behind are the three cases; C90_holds says which STR a program that has followed a server holds, so that C90_restart applies to it. C90_restart assumes, as C67, that the hash does not collide on the signatures issued and the bytes drawn at the starts, and that no signature fits two contents. Addresses as in C89. A server at its very first STR, or at epoch numbers that happen to fit, gives no way out: the link is the hash of the previous signature, which begins with fresh random bytes. The answer the user reads is the text of CheckBadSTR or of the failed network; the first line of output begins with \"[+] Error\".")
notes['C91']=('proved',"C91_owner: safety at the directory; C91_found: what a terminal may conclude from the word Found; C91_served: the owner is served. The condition BotOnly (no connection and no client program registers at the bot's path) is needed: the file permissions of the socket are not modelled, and a client program whose registration address is that path can register any free name. The VRF is assumed to tell the name and the names asked for apart.")
notes['C52']=('partial','Nothing runs after Shutdown and Shutdown can always complete, for any number of listeners. No crash proved for one listener; refuted for two, which share one wait group; C52_crash_iff: some execution crashes exactly if there are two.')
notes['C58']=('partial','Proved for files with both tables; a file without [policies] or [logger] crashes the server (counterexample). C58_reload_iff says exactly what a reload does for every file.')

notes['C92']=('partial',"Proved for every history of a directory with fewer than 2^64 - 1 updates (C92_directory) and for every auditor whose newest STR is not of epoch 2^64 - 1 (C92_auditor), with the number of rounds and the one possible outcome. Refuted at the last number: the loop condition ep <= end never fails for end = 2^64 - 1. An auditor initialised with such an STR (InitHistory checks nothing) never finishes the request (C92_forever_counterexample; C92_auditor_iff says exactly which requests); a directory in its last epoch crashes, as the counter goes back to the evicted epoch 0 (C92_last_epoch_counterexample).")
notes['C93']=('proved',"C93_exact (what everybody hears and holds, by projection of the run onto one user and the table of C85), C93_crash (nobody crashes unless a table says so or a foreign call is one of those of C88), C93_no_false_alarm. Needs different identities (no collision among the hashes of the first signatures) and cache lengths of at least 2. The false alarms that C85 found for users who are not at the end of the range are in the table here as well.")

notes['C85']=(notes['C85'][0], notes['C85'][1]+" C85_anew: a user who begins anew with the newest STR is out of every such situation.")
notes['C94']=('proved',"C94_told_the_same (C94_commitments_counterexample: equal commitments are needed), for the directory model of C25; the names in the two histories are the same, and the other users' names have other places in the tree than the group's (no collision of VRF values between them). What commitments, places and depths tell is not claimed to be nothing. The example uses a hash with easy collisions to meet the hypotheses with two different keys.")

{"id": "C01", "title": "Bit/byte conversion agrees with MSB-first reading", "statement": "utils.ToBits, utils.ToBytes and utils.GetNthBit agree with reading a byte string as bits, most significant bit of each byte first: ToBits(bs)[8q+r] is bit 7-r of bs[q]; ToBytes(ToBits(bs)) = bs; ToBits(ToBytes(bits)) = bits padded with zeros to a multiple of 8; GetNthBit(bs,n) = ToBits(bs)[n] and panics exactly when n >= 8*len(bs).", "quantifier": "every byte string, every bit string, every offset", "why_tests_cant": "the unit test samples 16 random bits; the claim is for every length and every content, including the panic boundary", "anchors": ["utils/coname.go ToBytes ToBits", "utils/utils.go GetNthBit"]}
{"id": "C02", "title": "Fixed-width little-endian encodings are exact and injective", "statement": "UInt32ToBytes, ULongToBytes and LongToBytes return exactly 4, 8 and 8 bytes, byte k being the k-th base-256 digit of the number (two's complement for LongToBytes), so distinct numbers have distinct encodings.", "quantifier": "every uint32, uint64 and int64 value", "why_tests_cant": "2^64 values; tests check the number 42", "anchors": ["utils/utils.go LongToBytes ULongToBytes UInt32ToBytes"]}
{"id": "C03", "title": "Prefix range contains exactly the keys with that prefix", "statement": "kv.BytesPrefix(p) denotes the half-open lexicographic key range [Start,Limit) (Limit nil = unbounded) that contains a key k if and only if p is a prefix of k, and IncrementKey(p) is the least key greater than all keys prefixed by p.", "quantifier": "every prefix and every key", "why_tests_cant": "ranges over all byte strings including all-0xff prefixes and keys of any length", "anchors": ["storage/kv/range.go IncrementKey BytesPrefix"]}
{"id": "C04", "title": "Commitments open, and bind to the committed value", "statement": "A commitment made by crypto.NewCommit(key,value) verifies for (key,value), and for another pair exactly if the pair has the same concatenation (the two strings are hashed without lengths, so a commitment does not fix where the key ends); in particular one accepted for the same key with two values has the same value. All this as long as the two hash inputs involved do not collide.", "quantifier": "every key, value, salt, and every pair of openings of one commitment", "why_tests_cant": "an adversary chooses both openings; tests open a commitment once", "anchors": ["crypto/util.go NewCommit Verify Digest"]}
{"id": "C05", "title": "The bytes signed in an STR determine the STR", "statement": "Two signed tree roots have the same serialized bytes exactly if they have the same epoch, previous epoch (when epoch>0) and epoch deadline, and the same concatenation of tree hash, previous STR hash, version, hash identifier and VRF key; so, with hashes of 32 bytes and version and hash identifier of the usual lengths (as in every STR this code issues), exactly if all signed fields agree.", "quantifier": "every pair of STRs (including adversarially chosen field lengths)", "why_tests_cant": "requires comparing all pairs of STRs", "anchors": ["merkletree/str.go Serialize SerializeInternal", "protocol/str.go Serialize", "protocol/policy.go Serialize"]}
{"id": "C06", "title": "The bytes signed in a temporary binding determine the promise", "statement": "If a client accepted a TB signature for a given STR signature, the signed bytes determine the index and the value promised; no other (index,value) accepted by the client has the same signed bytes.", "quantifier": "every TB, index and value that pass the client's checks", "why_tests_cant": "all pairs of promises of any value length", "anchors": ["protocol/tb.go Serialize", "protocol/client/consistencychecks.go verifyReturnedPromise", "protocol/directory/directory.go NewTB"]}
{"id": "C07", "title": "VRF proofs made with a key verify under its public key", "statement": "For every private key and message, Prove returns the value Compute returns, and Verify under the matching public key accepts the returned value and proof (except for messages whose 256-bit hash is one of twelve values that are mapped to a point of order dividing eight: those are rejected).", "quantifier": "every VRF key and every message", "why_tests_cant": "algebraic identity over the whole group; tests use one key and a few messages", "anchors": ["crypto/vrf/vrf.go Prove Compute Verify Public GenerateKey"]}
{"id": "C08", "title": "A VRF value cannot be forged without answering two challenges", "statement": "If one prover commitment is accepted for two different challenges then the accepted value is the one Compute returns for the secret key of the public key (special soundness), and an accepted value is determined by the message and the intermediate point in the proof.", "quantifier": "every public key, message and pair of accepting proofs", "why_tests_cant": "adversarial proofs cannot be enumerated", "anchors": ["crypto/vrf/vrf.go Verify"]}
{"id": "C09", "title": "Inserting into the tree never panics and never loops forever", "statement": "For every sequence of Set calls with indices of one common length, every Set terminates without a panic; an index may repeat.", "quantifier": "every history of Set calls", "why_tests_cant": "any insertion order and any shared-prefix length", "anchors": ["merkletree/merkletree.go Set insertNode", "merkletree/node.go newInteriorNode"]}
{"id": "C10", "title": "The tree is a map: Get finds the last value set and nothing else", "statement": "After any sequence of Sets with 32-byte indices, Get(i) is a proof of inclusion carrying the value of the last Set of i if there is one, and shows no value otherwise: a proof of absence, except exactly where two set indices agree with i on all but its last few bits (fewer than 8), no set index continues with the next bit of i, and the remaining bits of i are zero; there Get returns what looks like an inclusion without a value.", "quantifier": "every history of Sets and every lookup index", "why_tests_cant": "any number of entries, any prefixes; tests use three entries", "anchors": ["merkletree/merkletree.go Set Get insertNode", "merkletree/proof.go ProofType"]}
{"id": "C11", "title": "The root hash depends only on the set of bindings", "statement": "After recomputeHash the tree hash equals a canonical hash defined directly from the set of (index, commitment) pairs, so it is independent of insertion order, of the hash caching, and of when snapshots were taken.", "quantifier": "every history of Set/recompute/clone, every permutation of it", "why_tests_cant": "cache invalidation bugs show only on particular interleavings of Set and recompute", "anchors": ["merkletree/merkletree.go insertNode recomputeHash", "merkletree/node.go hash"]}
{"id": "C12", "title": "Honest proofs verify", "statement": "For every tree reached by Sets and recomputeHash and every 32-byte lookup index, the authentication path returned by Get verifies against the tree hash: with the stored key and value if the index is present, with any key and value otherwise; except exactly at the deep empty places described in C10, where Verify panics for an empty value and reports differing bindings for any other.", "quantifier": "every history, every lookup index", "why_tests_cant": "all trees and lookups", "anchors": ["merkletree/merkletree.go Get", "merkletree/proof.go Verify authPathHash"]}
{"id": "C13", "title": "A proof accepted against an honest tree tells the truth about it", "statement": "If an authentication path supplied by anyone verifies against the hash of an honestly built tree, then what it claims (the value bound to the index, or the absence of the index) is true of that tree, unless two of the hash inputs listed in the proof and the tree collide.", "quantifier": "every honest tree and every adversarial authentication path", "why_tests_cant": "the adversary may choose lengths, levels and flags freely", "anchors": ["merkletree/proof.go Verify authPathHash ProofType hash"]}
{"id": "C14", "title": "One tree hash cannot support two contradictory proofs", "statement": "Under a single tree hash (chosen by a malicious directory), two accepted proofs for the same index and name never contradict each other: two inclusion proofs give the same value, and an inclusion and an absence proof cannot both be accepted, unless listed hash inputs collide.", "quantifier": "every pair of adversarial authentication paths with a common tree hash", "why_tests_cant": "non-equivocation is about all pairs of proofs an attacker may construct", "anchors": ["merkletree/proof.go Verify authPathHash hash", "crypto/util.go Verify"]}
{"id": "C15", "title": "Proof verification does not crash the verifier", "statement": "Verify returns nil or an error for every authentication path that can be received, and does not panic.", "quantifier": "every authentication path that can be decoded from a message", "why_tests_cant": "malformed inputs are unbounded; boundary is exact (Level vs lengths)", "anchors": ["merkletree/proof.go Verify authPathHash hash", "utils/coname.go ToBits"]}
{"id": "C16", "title": "A proof of absence reveals no user data", "statement": "The proof returned for an index that is not in the tree contains no value and no salt, and is the same for any two trees that differ only in names, values and salts (not in indices, levels, commitments and nonce).", "quantifier": "every pair of trees agreeing on public data, every absent index", "why_tests_cant": "non-interference is a property of pairs of executions", "anchors": ["merkletree/merkletree.go Get"]}
{"id": "C17", "title": "A clone is isolated from later changes, in both directions", "statement": "After Clone (of a tree whose hashes were recomputed), any sequence of Sets on the original leaves every Get and the hash of the clone unchanged and vice versa.", "quantifier": "every tree, every later history on either copy", "why_tests_cant": "aliasing bugs appear only for particular shapes and histories", "anchors": ["merkletree/merkletree.go Clone", "merkletree/node.go clone"]}
{"id": "C18", "title": "Epochs form a signed hash chain", "statement": "In every reachable PAD, snapshot epochs start at 0 and grow by one per Update; every STR's signature verifies under the PAD's key; the STR of epoch e+1 names epoch e as previous and contains the hash of its signature.", "quantifier": "every history of Set and Update (and directory operations)", "why_tests_cant": "any number of epochs and interleaving with Sets", "anchors": ["merkletree/pad.go signTreeRoot updateInternal Update", "merkletree/str.go NewSTR VerifyHashChain"]}
{"id": "C19", "title": "The snapshot cache respects its capacity and keeps recent epochs", "statement": "A PAD created with cache length n never holds more than N = max(n,2) snapshots (a limit of 0 or 1 is exceeded from the first update on); the epochs held are a contiguous range ending at the latest; at least the latest N-floor(N/2)+1 (or all) epochs are held, and GetSTR of each of them is the STR issued for it.", "quantifier": "every capacity and every number of updates", "why_tests_cant": "eviction depends on capacity parity and the number of updates", "anchors": ["merkletree/pad.go NewPAD Update GetSTR"]}
{"id": "C20", "title": "History is immutable", "statement": "As long as epoch e can be looked up, LookupInEpoch(k,e) and GetSTR(e) return exactly what they returned when e was the latest epoch, whatever Sets and Updates happened since.", "quantifier": "every epoch, key and later history", "why_tests_cant": "temporal property over all continuations", "anchors": ["merkletree/pad.go LookupInEpoch GetSTR Update Set"]}
{"id": "C21", "title": "Policies take effect with a fixed delay", "statement": "The policies in the STR of epoch e+1 are those that were set in the directory when epoch e was created (epoch 0 and 1 carry the initial policies), and the VRF key in the policies never changes.", "quantifier": "every history of SetPolicies, Update and requests", "why_tests_cant": "ordering property over all histories", "anchors": ["merkletree/pad.go updateInternal", "protocol/directory/directory.go SetPolicies Update EpochDeadline"]}
{"id": "C22", "title": "Reshuffling preserves the directory content", "statement": "reshuffle rebuilds the tree under the current VRF key with exactly the same name-to-value bindings.", "quantifier": "every tree and every VRF key", "why_tests_cant": "all trees", "anchors": ["merkletree/pad.go reshuffle", "merkletree/merkletree.go visitLeafNodes"]}
{"id": "C23", "title": "The first registration of a name wins forever", "statement": "Once Register(name,key) succeeded, no sequence of requests and updates ever makes the directory return another key for that name, and every later Register of the name is refused with ReqNameExisted.", "quantifier": "every history of requests and epoch updates", "why_tests_cant": "binding permanence ranges over all continuations", "anchors": ["protocol/directory/directory.go Register KeyLookup Update"]}
{"id": "C24", "title": "Promises are kept", "statement": "A binding for which Register returned a temporary binding is, after the next Update and in every later snapshot that can be looked up, included in the tree with exactly the promised index and value.", "quantifier": "every history", "why_tests_cant": "temporal property", "anchors": ["protocol/directory/directory.go Register NewTB Update KeyLookup"]}
{"id": "C25", "title": "Responses follow the abstract directory", "statement": "The status code, presence of a TB and value returned by Register and KeyLookup are those of an abstract directory with a committed and a pending name-to-key map, if the VRF indices of the names used differ within their first 248 bits. Whatever the VRF does, they are exactly those of a directory that files keys under indices instead of names, in which a name with the index of another one replaces it and the deep empty places of C10 answer as if a name without a key were registered there.", "quantifier": "every history and every request", "why_tests_cant": "refinement over all histories", "anchors": ["protocol/directory/directory.go Register KeyLookup KeyLookupInEpoch Monitor"]}
{"id": "C26", "title": "Malformed requests and reads do not change the directory", "statement": "Requests that are malformed get ErrMalformedMessage, and neither they nor any lookup, monitoring or history request change any observable state.", "quantifier": "every reachable state and every request", "why_tests_cant": "state equality after all requests", "anchors": ["protocol/directory/directory.go Register KeyLookup KeyLookupInEpoch Monitor GetSTRHistory"]}
{"id": "C27", "title": "A failed registration leaves no trace", "statement": "If Register fails for lack of entropy it returns ErrDirectory and the directory is unchanged: the name is neither pending nor in any later snapshot.", "quantifier": "every state and request", "why_tests_cant": "fault at an arbitrary point", "anchors": ["protocol/directory/directory.go Register", "merkletree/merkletree.go Set", "crypto/util.go MakeRand"]}
{"id": "C28", "title": "Past-epoch lookups return a verifiable chain", "statement": "KeyLookupInEpoch(name,e) for a retrievable epoch returns one proof against the first STR returned that shows exactly what the snapshot of that epoch has at the index of the name (the key, the absence, or the keyless entry of a deep empty place of C10), the status belonging to it, and the STRs of exactly the epochs e..latest, in order, each linked to the previous; for an evicted epoch it returns ErrDirectory.", "quantifier": "every reachable state, name and epoch", "why_tests_cant": "all histories", "anchors": ["protocol/directory/directory.go KeyLookupInEpoch"]}
{"id": "C29", "title": "Monitoring returns one proof per epoch", "statement": "Monitor(name,s,t) returns for exactly the epochs s..min(t,latest), in order, the STR and one proof, which shows exactly what the snapshot of that epoch has at the index of the name (as in C28); if epoch s was evicted it returns ErrDirectory.", "quantifier": "every reachable state and range", "why_tests_cant": "all ranges and histories", "anchors": ["protocol/directory/directory.go Monitor"]}
{"id": "C30", "title": "STR history requests return the requested range", "statement": "GetSTRHistory(s,t) returns a malformed-message error exactly for the ranges that are empty or start after the latest epoch, crashes exactly if epoch s is well-formed but was evicted, and otherwise returns exactly the STRs of the epochs s..min(t,latest) in order.", "quantifier": "every reachable state and range, including evicted epochs", "why_tests_cant": "ranges reaching beyond the cache", "anchors": ["protocol/directory/directory.go GetSTRHistory", "protocol/str.go NewDirSTR"]}
{"id": "C31", "title": "No request can crash the key server", "statement": "In every reachable state HandleRequests answers every request message without panicking.", "quantifier": "every reachable state and every decoded request", "why_tests_cant": "all requests in all states", "anchors": ["application/server/server.go HandleRequests", "protocol/directory/directory.go"]}
{"id": "C32", "title": "A client only moves forward along one signed chain", "statement": "Over any sequence of responses from an arbitrary directory, the STR a client holds changes only to one with the next epoch, validly signed by the pinned key and hash-linked to the previously held STR.", "quantifier": "every sequence of adversarial responses", "why_tests_cant": "adversarial histories of any length", "anchors": ["protocol/client/consistencychecks.go updateSTR HandleResponse", "protocol/auditor/auditor.go AuditDirectory CheckSTRAgainstVerified"]}
{"id": "C33", "title": "What a client says to an honest directory", "statement": "Let a client start with any STR an honest directory has issued, and let it look names up and register names while anything else happens at the directory. What HandleResponse returns to each call is determined as follows. The directory's error if the request was refused; CheckBadSTR, for ever, if at an answered call the last accepted STR is two or more epochs old; CheckBadVRFProof for the names whose own proof does not verify; else, if a key is shown, CheckBindingsDiffer if the client expects another one, CheckBadCommitment if the entry is another name's with the same index, CheckBrokenPromise on a lookup if the client was promised another key, else nil; if a key is promised, CheckBindingsDiffer if the client expects another, else nil; if nothing is there, nil. It crashes exactly when the answer shows an entry without a key (which needs two indices that agree on 248 bits) and the client expects none or the empty one. With spread indices, verifiable names and one answered call per epoch this means: nil whenever the client's expectation is right.", "quantifier": "every cryptography, history, session, starting STR", "why_tests_cant": "completeness over all states, schedules and lengths of sessions", "anchors": ["protocol/client/consistencychecks.go HandleResponse", "protocol/directory/directory.go"]}
{"id": "C34", "title": "Acceptance means all checks passed", "statement": "If HandleResponse returns nil, the response's STR extends or equals the client's chain, the lookup index is VRF-verified for the name, the proof verifies under that STR, and in the absence-with-success cases the TB is signed, for that index, and for the expected key.", "quantifier": "every response, name, key and client state", "why_tests_cant": "adversarial responses", "anchors": ["protocol/client/consistencychecks.go HandleResponse verifyRegistration verifyKeyLookup verifyAuthPath verifyReturnedPromise"]}
{"id": "C35", "title": "A looked-up key is pinned (trust on first use)", "statement": "After a client accepted a key for a name, a later accepted lookup of that name through the client's recorded bindings yields the same key.", "quantifier": "every pair of successive accepted responses", "why_tests_cant": "property of histories with an adversarial directory", "anchors": ["protocol/client/consistencychecks.go HandleResponse", "protocol/message.go GetKey", "cli/coniksclient/internal/cmd/run.go keyLookup"]}
{"id": "C36", "title": "Broken promises are detected", "statement": "A client that holds a TB for a name never accepts a later-epoch response for that name that contradicts it (other value, or absence).", "quantifier": "every client state and adversarial response", "why_tests_cant": "adversarial histories", "anchors": ["protocol/client/consistencychecks.go updateTBs verifyFulfilledPromise verifyReturnedPromise"]}
{"id": "C37", "title": "No response can crash the client", "statement": "HandleResponse and CheckEquivocation return an error rather than panic for every response message and every known request type.", "quantifier": "every response and request type", "why_tests_cant": "unbounded malformed messages", "anchors": ["protocol/client/consistencychecks.go HandleResponse updateSTR CheckEquivocation", "protocol/message.go Validate"]}
{"id": "C38", "title": "Rejected responses do not change what the client believes", "statement": "When HandleResponse returns an error, recorded bindings and TBs are unchanged and the held STR is either unchanged or a valid successor.", "quantifier": "every response and client state", "why_tests_cant": "all error paths", "anchors": ["protocol/client/consistencychecks.go HandleResponse"]}
{"id": "C39", "title": "Auditing accepts exactly valid continuations", "statement": "AuditDirectory accepts a non-empty range iff its first STR equals the held STR or is its validly signed hash-linked successor and every further STR is the validly signed successor of the one before.", "quantifier": "every auditor state and STR range", "why_tests_cant": "ranges of any length", "anchors": ["protocol/auditor/auditor.go AuditDirectory VerifySTRRange verifySTRConsistency", "merkletree/str.go VerifyHashChain"]}
{"id": "C40", "title": "Equivocation is detected", "statement": "If an auditor reports for the client's epoch an STR different from the one the client holds, CheckEquivocation returns an error; it returns nil only if the reported range is a hash chain ending in the client's STR or its signed successor.", "quantifier": "every client state and auditor response", "why_tests_cant": "adversarial ranges", "anchors": ["protocol/client/consistencychecks.go CheckEquivocation", "protocol/auditor/auditor.go CheckSTRAgainstVerified compareWithVerified"]}
{"id": "C41", "title": "Agreement on one STR means agreement on the past", "statement": "Two parties whose verified chains contain the same STR at epoch n have STRs with the same signatures at every earlier epoch both chains cover, unless hash inputs collide; with a message-binding signature scheme the signed contents agree too.", "quantifier": "every pair of verified chains", "why_tests_cant": "pairs of histories of any length", "anchors": ["merkletree/str.go VerifyHashChain", "protocol/auditor/auditor.go verifySTRConsistency"]}
{"id": "C42", "title": "The audit log is append-only and contiguous", "statement": "Starting from a valid initial history, after any sequence of audits the log of a directory is a valid chain covering 0..latest; an STR once observed is reported unchanged forever; GetObservedSTRs(s,t) returns exactly the STRs s..t.", "quantifier": "every sequence of audits with adversarial messages", "why_tests_cant": "histories of any length", "anchors": ["protocol/auditlog/auditlog.go Audit insertRange GetObservedSTRs InitHistory"]}
{"id": "C43", "title": "Directories in an audit log do not interfere", "statement": "Initialising or auditing one directory never changes what is reported for another; a known directory is never re-initialised.", "quantifier": "every log and every operation", "why_tests_cant": "all pairs of directories", "anchors": ["protocol/auditlog/auditlog.go InitHistory GetObservedSTRs set get"]}
{"id": "C44", "title": "A failed audit changes nothing", "statement": "If Audit or InitHistory returns an error the log is unchanged.", "quantifier": "every log and message", "why_tests_cant": "all error paths", "anchors": ["protocol/auditlog/auditlog.go Audit InitHistory"]}
{"id": "C45", "title": "Concurrent requests are linearizable", "statement": "With requests, epoch updates and policy reloads running concurrently under the server's read-write lock, every execution gives the responses and final directory of some sequential execution, and no request sees a half-done update.", "quantifier": "every interleaving of any number of goroutines", "why_tests_cant": "schedules cannot be enumerated by tests", "anchors": ["application/serverbase.go acceptClient EpochUpdate HotReload"]}
{"id": "C46", "title": "Registration only where permitted", "statement": "A request whose type is not enabled for the address it arrives on is answered with ErrMalformedMessage and does not reach the directory; registration is enabled only on addresses configured with allow_registration.", "quantifier": "every configuration, address and request", "why_tests_cant": "all configurations", "anchors": ["application/serverbase.go checkRequestType acceptClient", "application/server/server.go NewConiksServer"]}
{"id": "C47", "title": "Requests are dispatched by type", "statement": "A request is handled by the operation of its type exactly when the payload has the matching kind; any other combination gives ErrMalformedMessage without effect.", "quantifier": "every type and payload", "why_tests_cant": "all combinations", "anchors": ["application/server/server.go HandleRequests", "application/encoding.go UnmarshalRequest"]}
{"id": "C48", "title": "The epoch timer follows the announced epoch deadline", "statement": "The interval between directory updates is the epoch deadline announced in the policies.", "quantifier": "every configuration and reload", "why_tests_cant": "depends on configuration and reload history", "anchors": ["application/server/config.go NewConfig", "application/server/server.go NewConiksServer updatePolicies", "application/serverbase.go NewEpochTimer EpochUpdate"]}
{"id": "C49", "title": "The bot forwards only registrations for the sender's own handle", "statement": "TwitterBot.HandleRegistration forwards a message to the key server only if it is a registration whose username equals <handle>@twitter up to letter case; otherwise it returns ErrMalformedMessage.", "quantifier": "every sender handle and message", "why_tests_cant": "all messages", "anchors": ["application/bots/twitterbot.go HandleRegistration"]}
{"id": "C50", "title": "Writing a file never overwrites an existing one", "statement": "utils.WriteFile leaves every existing file unchanged, and either creates the named file with the given content or returns an error.", "quantifier": "every file system state and path", "why_tests_cant": "all states and crash/interleaving points", "anchors": ["utils/utils.go WriteFile"]}
{"id": "C52", "title": "Shutdown leaves nothing running", "statement": "When Shutdown returns, no listener, connection handler, epoch update or reload is running and none can start; Shutdown always can complete and the process does not crash while shutting down.", "quantifier": "every interleaving of listeners, connections, background loops and the shutdown", "why_tests_cant": "the interesting interleavings are a few instructions wide", "anchors": ["application/serverbase.go acceptRequests ListenAndHandle RunInBackground EpochUpdate HotReload Shutdown"]}
{"id": "C58", "title": "Reloading a configuration changes nothing but the announced deadline", "statement": "On SIGUSR2, an unreadable or incomplete configuration changes nothing, and a good one changes only the epoch deadline announced by later STRs; the server survives either way.", "quantifier": "every configuration file and directory state", "why_tests_cant": "all malformed files", "anchors": ["application/server/server.go updatePolicies", "application/server/config.go Load", "protocol/directory/directory.go SetPolicies"]}
{"id": "C59", "title": "The initial STR handed to auditors belongs to the running directory", "statement": "After the server starts, the file named by init_str_path holds the first STR of the directory that is being served, so an auditor configured with that file accepts the server's history.", "quantifier": "every file system state at start-up, every fault of the write, every restart", "why_tests_cant": "restarts, left-over files and faulty writes", "anchors": ["application/server/server.go NewConiksServer", "application/config.go SaveSTR LoadInitSTR", "utils/utils.go WriteFile"]}
{"id": "C60", "title": "Key files written by init belong together", "statement": "After a successful key generation by `init`, the public key file holds the public key of the private key file, and existing keys are not overwritten.", "quantifier": "every file system state and write fault", "why_tests_cant": "left-over files from previous runs", "anchors": ["cli/coniksserver/internal/cmd/init.go mkSigningKey mkVrfKey", "utils/utils.go WriteFile"]}
{"id": "C53", "title": "Field arithmetic modulo 2^255-19 is exact", "statement": "Every field operation of the Ed25519 package, on operands within the bounds its comments state, returns the right residue within the bounds the other operations accept: no intermediate int32 or int64 overflow can change a result, and the bytes written are the unique least residue.", "quantifier": "every choice of limbs within the bounds, every 32-byte string", "why_tests_cant": "10 limbs of 26 bits: carries that only occur for a 2^-100 fraction of inputs", "anchors": ["crypto/internal/ed25519/edwards25519/edwards25519.go FeAdd FeSub FeNeg FeMul FeSquare FeSquare2 FeInvert fePow22523 FeFromBytes FeToBytes FeIsNegative FeIsNonZero FeCMove", "crypto/internal/ed25519/extra25519/extra25519.go chi"]}
{"id": "C54", "title": "Scalar arithmetic modulo the group order is exact", "statement": "ScReduce and ScMulAdd return the canonical residue modulo l of their mathematical result for every input. ScNeg(s) is l - s, computed modulo 2^256: for every s up to l a negative of s modulo l, canonical unless s = 0, for which it is l.", "quantifier": "every 64-byte and 32-byte string", "why_tests_cant": "12 limbs with signed carries; failing inputs have negligible density", "anchors": ["crypto/internal/ed25519/edwards25519/edwards25519.go ScReduce ScMulAdd ScNeg"]}
{"id": "C55", "title": "Point operations compute in the curve group", "statement": "The points of the curve form a group of order 8l in which the base point has order l; addition, doubling and the three scalar multiplications return the sum or multiple for every pair of points and every admissible scalar, without exceptional cases or panics.", "quantifier": "every pair of curve points in every representation, every scalar", "why_tests_cant": "exceptional cases of addition formulas and table entries are hit with negligible probability", "anchors": ["crypto/internal/ed25519/edwards25519/edwards25519.go GeAdd GeDouble GeScalarMult GeScalarMultBase GeDoubleScalarMultVartime slide selectPoint", "crypto/internal/ed25519/edwards25519/const.go"]}
{"id": "C56", "title": "Point encodings are canonical", "statement": "ToBytes writes one encoding per point; FromBytesBaseGroup accepts a 32-byte string exactly if it is the encoding of a point of order l, and returns that point; FromBytes undoes ToBytes.", "quantifier": "every point, every 32-byte string", "why_tests_cant": "non-canonical and small-order encodings are a handful among 2^256 strings", "anchors": ["crypto/internal/ed25519/edwards25519/edwards25519.go ToBytes FromBytes FromParityAndY FromBytesBaseGroup ToExtended"]}
{"id": "C57", "title": "Hashing to the curve never fails and has only the known collisions", "statement": "HashToEdwards never panics, returns the point Elligator prescribes, and two hash values go to the same point only if they are related by r, -r, 1/(2r), -1/(2r); exactly twelve hash values go to points of small order.", "quantifier": "every 32-byte hash value and every pair of them", "why_tests_cant": "a panic or a small-order point for a few of 2^256 values", "anchors": ["crypto/internal/ed25519/extra25519/extra25519.go HashToEdwards representativeToMontgomeryX montgomeryXToEdwardsY chi"]}
{"id": "C51", "title": "Two clients cannot be shown different keys under one STR", "statement": "Two clients that accept answers about one name while holding the same STR believe the same about it: the same key, or absence, or the same promised key. If they ever hold the same STR later, this was already true of all earlier epochs; so a directory that equivocates to two clients has to keep them on separate STR chains for ever.", "quantifier": "every pair of clients, every (malicious) directory and response, every number of later calls", "why_tests_cant": "a malicious server is an arbitrary program", "anchors": ["protocol/client/consistencychecks.go HandleResponse", "merkletree/proof.go Verify", "protocol/auditor/auditor.go"]}
{"id": "C61", "title": "Answers survive the wire", "statement": "What MarshalResponse writes, UnmarshalResponse reads back unchanged, nil and empty parts included: every answer the directory ever gives to a client reaches it exactly as it was made, whatever bytes keys, commitments, hashes and signatures contain.", "quantifier": "every response whose body fits the request type; every directory history and call", "why_tests_cant": "byte strings of any content and length, nil against empty, escapes in strings", "anchors": ["application/encoding.go MarshalResponse UnmarshalResponse", "protocol/message.go Response DirectoryProof", "protocol/str.go", "protocol/tb.go"]}
{"id": "C62", "title": "Requests survive the wire", "statement": "The request the server acts on is the request the client made, for every name that is valid UTF-8 and every key; so a session over the network is the session of direct calls. Different names never turn into the same request.", "quantifier": "every name, key, epoch; every session between one client and an honest server", "why_tests_cant": "all Unicode names, invalid encodings, lengths near the transport limit", "anchors": ["application/encoding.go CreateRegistrationMsg CreateKeyLookupMsg CreateKeyLookupInEpochMsg CreateMonitoringMsg UnmarshalRequest", "application/serverbase.go acceptClient", "cli/coniksclient/internal/cmd/run.go register keyLookup"]}
{"id": "C63", "title": "Broken and hostile messages are never misread", "statement": "A message cut off anywhere (as the 8192-byte limits of client and server do) is reported as malformed and changes nothing; no bytes crash the server; no bytes crash the client.", "quantifier": "every message, every cut, every byte string", "why_tests_cant": "all byte strings and cut points", "anchors": ["application/encoding.go UnmarshalRequest UnmarshalResponse", "application/serverbase.go acceptClient", "application/testutil/testutil.go NewTCPClient"]}
{"id": "C64", "title": "The command-line client reports what happened", "statement": "Each register and lookup command of the REPL prints a line that says truthfully what the directory did or shows, including the key that is bound to a name; the success lines are printed only after all checks, whatever the server sends.", "quantifier": "every session of commands, every directory history, every reply of a hostile server", "why_tests_cant": "all replies and all histories", "anchors": ["cli/coniksclient/internal/cmd/run.go run register keyLookup", "protocol/error.go Error", "protocol/message.go GetKey"]}
{"id": "C65", "title": "A directory's signature means one thing", "statement": "Every STR and every promise whose signature verifies under the directory's key is an STR the directory issued or a promise it made, with exactly these contents; a signature on one can never be presented as a signature on something else.", "quantifier": "every history of the directory, every STR and promise anybody can write down", "why_tests_cant": "the signed bytes of all histories against all ways to cut them into fields", "anchors": ["merkletree/str.go Serialize SerializeInternal", "protocol/policy.go Serialize", "protocol/tb.go Serialize", "protocol/directory/directory.go NewTB"]}
{"id": "C66", "title": "A man in the middle cannot lie", "statement": "A client that starts with a genuine STR and receives all its answers from a network attacker who cannot forge signatures, VRF proofs or hashes, accepts an answer about a name only if it is the truth of some epoch of the directory: the key shown is the key of that epoch, absence shown is absence, a promised key was promised.", "quantifier": "every history of the directory, every sequence of calls, every answer an attacker can make up (the client does not check the TLS certificate)", "why_tests_cant": "the attacker is an arbitrary program", "anchors": ["protocol/client/consistencychecks.go HandleResponse", "merkletree/proof.go Verify authPathHash", "crypto/util.go Commit Verify", "application/testutil/testutil.go NewTCPClient"]}
{"id": "C67", "title": "A restarted key server cannot pass for the old one", "statement": "The server keeps nothing across a restart. When it is started again with the same configuration and keys, no client or auditor that holds an STR of its first life ever accepts an STR of the second, however long both run; all earlier bindings are gone, and an audit log sees another directory.", "quantifier": "every pair of histories before and after the restart, every session of an old client with the restarted server", "why_tests_cant": "all later histories: the two chains must never meet", "anchors": ["application/server/server.go NewConiksServer", "protocol/directory/directory.go New", "merkletree/pad.go NewPAD", "protocol/auditor/auditor.go CheckSTRAgainstVerified", "protocol/auditlog/auditlog.go InitHistory"]}
{"id": "C68", "title": "A path in a configuration means the same file wherever the program is started", "statement": "ResolvePath returns a path that leads to the file that the given path names when it is taken from the directory of the other file, for all spellings (., .., doubled and trailing slashes); an absolute path is returned unchanged; the result is canonical, and it is absolute, as its comment promises.", "quantifier": "every pair of paths, every working directory", "why_tests_cant": "all spellings of paths", "anchors": ["utils/utils.go ResolvePath"]}
{"id": "C69", "title": "A client starts from the STR its server stored", "statement": "What SaveSTR stores, LoadInitSTR reads back unchanged, only STRs of epoch 0 are accepted, and no file crashes the program; a client and a server started from their configuration files, wherever they are, work together; a client given a wrong STR trusts nothing.", "quantifier": "every STR, every file content, every layout of directories, every working directory, every later session", "why_tests_cant": "file contents and layouts are unbounded", "anchors": ["application/config.go LoadSigningPubKey LoadInitSTR SaveSTR", "application/client/config.go Load", "cli/coniksclient/internal/cmd/init.go mkConfigOrExit", "cli/coniksclient/internal/cmd/common.go loadConfigOrExit", "protocol/client/consistencychecks.go New"]}
{"id": "C70", "title": "A server runs with what its configuration says, wherever it is started", "statement": "Load succeeds exactly if the file decodes and the two key files have 64 bytes, and then gives the keys, deadlines, addresses and paths that the file means, independently of the working directory and of the spelling of the path; `init` followed by `run` gives a server with the generated keys that stores its initial STR next to its configuration and nothing else.", "quantifier": "every configuration, every disk, every working directory, every spelling of the path", "why_tests_cant": "file contents and layouts are unbounded", "anchors": ["application/server/config.go Load", "application/server/server.go NewConiksServer updatePolicies", "application/logger.go NewLogger", "cli/coniksserver/internal/cmd/init.go mkConfig mkSigningKey mkVrfKey", "cli/coniksserver/internal/cmd/run.go"]}
{"id": "C71", "title": "The Twitter bot registers people under their own names only", "statement": "A direct message that asks, in the form the bot expects, for the registration of its sender's handle is registered exactly as if it had been sent to the key server, and its sender gets the server's answer; every other message changes nothing; every message that has to be answered is answered once, to its sender; and when only the bot may register, every key the directory ever shows for a name was asked for by the owner of that handle. One account has one name, and old messages are deleted before the bot runs.", "quantifier": "every history of direct messages, connections of others, epochs and reloads; every failure of Twitter and of the connection between bot and key server", "why_tests_cant": "all histories and failures", "anchors": ["application/bots/twitterbot.go NewTwitterBot Run HandleRegistration sendDM deleteOldDMs deleteRequestDMs", "application/bots/bot.go SendRequestToCONIKS", "application/serverbase.go acceptClient"]}
{"id": "C72", "title": "Converted keys belong together and representatives lead back to their key", "statement": "Converting an Ed25519 key pair gives a Curve25519 key pair: the converted public key is the one that belongs to the converted private key, and is refused exactly if the bytes are no point. ScalarBaseMult returns the public key of RFC 7748 for every private key whose public key has a representative and false for all others, and RepresentativeToPublicKey maps the representative back to that public key.", "quantifier": "every 32-byte private key, public key and representative; every hash function in place of SHA-512", "why_tests_cant": "wrong constants, signs or square roots show only in the algebra of a field of 2^255 - 19 elements", "anchors": ["crypto/internal/ed25519/extra25519/extra25519.go PrivateKeyToCurve25519 PublicKeyToCurve25519 ScalarBaseMult RepresentativeToPublicKey edwardsToMontgomeryX feBytesLE q58"]}
{"id": "C73", "title": "The bytes exchanged have one meaning", "statement": "A text is read as a message exactly if it is derived from the JSON grammar, and then as the one value the grammar gives it; every other text is refused as malformed. Which request or response it is depends only on the members that the text says, with the rules of encoding/json (last member wins, names compared without case, unknown members ignored). Everything the programs write is in the grammar.", "quantifier": "every byte string", "why_tests_cant": "all texts near the grammar: escapes, surrogates, numbers, white space, nesting, duplicate members", "anchors": ["application/encoding.go MarshalRequest UnmarshalRequest MarshalResponse UnmarshalResponse", "protocol/message.go", "application/config.go LoadInitSTR"]}
{"id": "C74", "title": "Every refusal states its true reason", "statement": "When HandleResponse, CheckEquivocation or AuditDirectory returns an error code, the response has the defect that the code names and no defect that is checked before it; in particular CheckBrokenPromise is returned only if everything else is in order and the tree contradicts the promise held. After a refusal the client holds the offered STR if that was in order and is otherwise unchanged.", "quantifier": "every client state, response, name and key; every range of STRs", "why_tests_cant": "the table of defects times all responses of a hostile directory", "anchors": ["protocol/client/consistencychecks.go HandleResponse CheckEquivocation verifyAuthPath updateTBs verifyFulfilledPromise verifyReturnedPromise", "protocol/auditor/auditor.go AuditDirectory CheckSTRAgainstVerified VerifySTRRange", "merkletree/proof.go Verify"]}
{"id": "C75", "title": "An answer, once given, does not change", "statement": "Answers are made of pointers to the directory's policies, tree roots, promises and to the key slice of the registration, and the server marshals them after it has released its lock. Whatever is done with the directory afterwards or meanwhile, the answer read at any later moment is the answer at the time of the call.", "quantifier": "every history of calls with all answers kept; every interleaving of the server's critical sections, with the answer read at every later point, also while a writer is inside its section; every write to key slices by the program that uses the directory", "why_tests_cant": "an overwritten structure shows only in an answer that is read at the right moment", "anchors": ["protocol/directory/directory.go Update SetPolicies NewTB Register LatestSTR", "merkletree/pad.go signTreeRoot updateInternal Update GetSTR", "protocol/str.go NewDirSTR", "application/serverbase.go acceptClient EpochUpdate HotReload", "application/encoding.go MarshalResponse"]}
{"id": "C76", "title": "The key-value store keeps what was written", "statement": "After Put(k, v) has returned, and as long as nothing else writes k, Get(k) returns v, whatever crashes and restarts happen in the meantime; a batch takes effect entirely or not at all, also when a crash cuts it off; a scan of a range shows the entries of the range, each once, in key order, with the values that Get returns, and a scan of BytesPrefix(p) the entries whose keys have the prefix p; a call that fails changes nothing.", "quantifier": "every history of puts, deletes, batches, closings, openings and crashes, also in the middle of calls; every key, range and prefix", "why_tests_cant": "crash points and histories are unbounded", "anchors": ["storage/kv/kv.go DB Batch Iterator", "storage/kv/leveldbkv/leveldbkv.go Get Put Delete NewBatch Write NewIterator Close OpenDB", "storage/kv/range.go BytesPrefix"]}
{"id": "C77", "title": "Results may be stored over operands", "statement": "The functions of edwards25519.go get pointers. Whichever of them are equal (the comment on GeAdd allows it, and vrf.go doubles and adds in place), the destination holds the result on the values the operands had before the call, and nothing else that the caller has changes; encoding a point leaves the point as it was.", "quantifier": "every choice of equal or different pointers, every memory content standing for field elements, points or scalars", "why_tests_cant": "an operand overwritten too early shows only for one pattern of equal pointers, and then as a wrong number that looks like any other", "anchors": ["crypto/internal/ed25519/edwards25519/edwards25519.go FeAdd FeSub FeNeg FeCMove FeInvert fePow22523 GeAdd GeDouble GeScalarMult GeScalarMultBase GeDoubleScalarMultVartime FromParityAndY FromBytes ToBytes ToExtended ScNeg ScMulAdd", "crypto/internal/ed25519/extra25519/extra25519.go edwardsToMontgomeryX", "crypto/vrf/vrf.go hashToCurve Verify"]}
{"id": "C78", "title": "Nobody waits for ever", "statement": "Every request that was read and admitted, every epoch round and every reload gets the server's lock and gives it back, however many others come and in whatever order; slow or silent clients delay nobody, since the lock is held neither while reading a request nor while writing an answer. A lookup is overtaken by at most one writer, a writer that waits for readers by nobody.", "quantifier": "every endless schedule of any number of goroutines in which the scheduler runs whoever can run and waiting writers take turns; every finite schedule for the bounds", "why_tests_cant": "starvation shows only in endless executions", "anchors": ["application/serverbase.go ServerBase acceptClient EpochUpdate HotReload"]}
{"id": "C79", "title": "A server listens where its configuration says, and starts again after any end", "statement": "Each address of the configuration stands for one socket: run succeeds exactly if all of them can be listened on, all or nothing; while the server runs, a client or bot whose address leads to an entry is connected to this server under the permissions of this entry, and to nobody else; whatever other servers on the machine do changes nothing; and after the server has ended, in whatever way, the same configuration starts again. The default configurations of server, client and bot work together.", "quantifier": "every configuration, every machine, every history of starts, stops, crashes, removed and created files on it", "why_tests_cant": "all orders of starts and crashes of several processes, leftovers of earlier runs, all spellings of addresses", "anchors": ["application/serverbase.go resolveAndListen ListenAndHandle acceptRequests Shutdown", "application/server/server.go Run", "application/testutil/testutil.go NewTCPClient NewUnixClient", "application/bots/twitterbot.go NewTwitterBot", "cli/coniksserver/internal/cmd/init.go mkConfig"]}
{"id": "C80", "title": "The PID file names the running server", "statement": "After `coniksserver run --pid`, the file coniks.pid holds the number of that process, whatever the file held before; while the server runs, attempts to start another one do not change this.", "quantifier": "every earlier content of the file, every history of runs in the directory, failed ones included", "why_tests_cant": "process numbers of all lengths in all orders; failed starts", "anchors": ["cli/coniksserver/internal/cmd/run.go run writePID"]}
{"id": "C81", "title": "The bot as a program, and on a machine with key servers", "statement": "After `coniksbot init`, `coniksbot run` loads what was saved and talks to the default key server. `run` comes up exactly if its key server is up and Twitter authenticates the configured handle; otherwise no message is touched. Beside key servers that start, stop and crash, each message that asks for a registration in its sender's name is registered by exactly the server that listens at the bot's path, under that entry's permissions, and answered with what this server said; a server that takes registrations only there never shows a key for a name that was not asked for by the account of that name. Nothing that happens on the machine crashes the bot or a running server.", "quantifier": "every configuration, every machine and every history of server starts, stops, crashes, files removed or made, epochs, connections and direct messages; every behaviour of Twitter", "why_tests_cant": "all orders of the events of several processes; stale sockets; all messages and accounts", "anchors": ["application/bots/config.go Load NewTwitterConfig", "application/bots/twitterbot.go NewTwitterBot Run HandleRegistration", "application/bots/bot.go SendRequestToCONIKS", "cli/coniksbot/internal/cmd/init.go mkBotConfig", "cli/coniksbot/internal/cmd/run.go run", "application/serverbase.go"]}
{"id": "C82", "title": "The client's commands over a network that fails", "statement": "Whatever the network does with an exchange (no connection, the request or the answer cut anywhere, a failing read or write on either side), a command of the client either does exactly what it does over a network that works, or prints one line that begins with Error, leaves the client as it was and has at the directory no effect but the registration that was asked for; a whole session is a session over a working network without the failed commands; giving the failed command again later has the effect it should have, and no honest server and no failure of the network crashes the client.", "quantifier": "every history of the directory, every session of typed lines, every failure of every exchange, every client state", "why_tests_cant": "all cut points of all messages in all sessions", "anchors": ["application/testutil/testutil.go NewTCPClient NewUnixClient", "application/serverbase.go acceptClient", "cli/coniksclient/internal/cmd/run.go run register keyLookup", "protocol/client/consistencychecks.go HandleResponse"]}
{"id": "C83", "title": "Everyday messages arrive", "statement": "As long as names and keys have at most 1024 bytes and the indices of the registered names part within 42 bits, every message between client and server fits into the 8192 bytes that either side reads: the network then makes no difference to any session, whatever the history and however many names are registered.", "quantifier": "every history of the directory, every session, every number of users; the sizes of answers are bounded in terms of the depth of the tree and the longest key", "why_tests_cant": "answers grow with the tree and with the keys, names grow when written as JSON; a test has one tree and one key", "anchors": ["application/testutil/testutil.go NewTCPClient NewUnixClient", "application/serverbase.go acceptClient", "application/encoding.go MarshalResponse MarshalRequest", "merkletree/merkletree.go Get", "protocol/directory/directory.go Register KeyLookup"]}
{"id": "C84", "title": "Users agree", "statement": "However many users of an honest directory call in whatever order, each with a client of his own: no user's calls disturb another's client; two answers about a name never show different keys, whoever gets them and whenever; the key shown is the one that was registered; once any user has been shown a key for a name, every answer any user gets about the name from then on shows exactly this key, and his client accepts it unless he expects another. Two clients that are cut off from the directory by an adversary who cannot forge, and accept keys for the same name, believe the same key.", "quantifier": "every number of users, every interleaving of their calls with epochs and other requests, every point at which users join, every client state; every adversary that does not forge", "why_tests_cant": "all interleavings of any number of clients over any number of epochs", "anchors": ["protocol/directory/directory.go Register KeyLookup Update", "protocol/client/consistencychecks.go HandleResponse New", "merkletree/pad.go Lookup Update"]}
{"id": "C85", "title": "Directory, auditor and user together", "statement": "When the directory is honest, an auditor that follows it (GetSTRHistory, Audit) comes to hold exactly the directory's STRs, and a user who compares with the auditor (GetObservedSTRs, CheckEquivocation) is never told that the directory equivocated: the result is nil, or that the auditor does not know that epoch. An auditor that was away can catch up. Nobody crashes.", "quantifier": "every cryptography, every history before, every number of STRs the auditor is initialised with and every epoch the user starts from, every interleaving of epoch updates, calls of others, lookups and registrations of the user, new beginnings of the user (a new client with the newest STR), audits and checks with any ranges, without bound", "why_tests_cant": "three stateful parties, three epoch counters and a cache that forgets; the tests run one of them at a time over a handful of epochs", "anchors": ["protocol/directory/directory.go: GetSTRHistory", "protocol/auditlog/auditlog.go: Audit, InitHistory, GetObservedSTRs, insertRange", "protocol/auditor/auditor.go: AuditDirectory, CheckSTRAgainstVerified, VerifySTRRange", "protocol/client/consistencychecks.go: CheckEquivocation, HandleResponse, updateSTR", "merkletree/pad.go: Update, GetSTR"]}
{"id": "C86", "title": "Users who check with the same auditor cannot be kept apart", "statement": "Take a directory that lies as it likes and an auditor that was initialised with its initial STR. All users who pass CheckEquivocation against that auditor's log, at whatever moments, hold STRs of one hash chain: two of them in the same epoch hold the same STR, field by field; if a fork puts two users of one epoch on different STRs, then one of them is told CheckBadSTR as soon as the auditor knows that epoch. Two such users who accepted answers about one name got the same key or both absence, also for answers accepted long before the check (for proofs and STRs of the shape the code produces, and as long as no hash collision and no ambiguous signature occurs among what the parties saw). It needs the same auditor: two auditors with the same initial STR can be kept on two branches.", "quantifier": "every scheme, every sequence of messages given to the auditor (audits of any content, other directories, refused ones), every pair of clients in any state, every ranges asked for, any moments, any further calls between the answers and the checks", "why_tests_cant": "an adversarial directory, two users and an auditor over unbounded time; a test can only try particular forks", "anchors": ["protocol/auditlog/auditlog.go: InitHistory, Audit, GetObservedSTRs", "protocol/client/consistencychecks.go: CheckEquivocation, HandleResponse", "protocol/auditor/auditor.go: CheckSTRAgainstVerified, VerifySTRRange, AuditDirectory"]}
{"id": "C87", "title": "Many users at a server that works on their requests at the same time", "statement": "However the goroutines of the server, its epoch updates and reloads, the requests of any number of users and their answers interleave, and whichever answers are lost: there is one order of the calls, the order in which the server finished them, such that every user heard, and every client became, exactly what happens when the calls are made one by one in this order. So users agree on every key; a key that somebody has heard is in every answer to a call sent after that; users who keep up hear what the abstract directory says; and nobody crashes or is stuck.", "quantifier": "every schedule of the goroutines in steps, every number of users with clients in any state, every assignment of calls, every pattern of lost answers and of users who give up, every earlier history of the directory", "why_tests_cant": "interleavings of steps of any number of goroutines with any number of clients over any number of epochs", "anchors": ["application/serverbase.go: acceptClient, EpochUpdate, HotReload", "application/server/server.go: HandleRequests", "protocol/directory/directory.go: Register, KeyLookup, Update", "protocol/client/consistencychecks.go: HandleResponse", "application/testutil/testutil.go: NewTCPClient"]}
{"id": "C88", "title": "No answer can crash an auditor", "statement": "Audit and InitHistory of an audit log return an error rather than panic for every message from whoever answers the auditor and every list of STRs, whatever the log holds.", "quantifier": "every audit log, every message and list of STRs, every cryptography", "why_tests_cant": "the sender is arbitrary; which parts of a message may be missing, and after which checks, is a question about all messages", "anchors": ["protocol/auditlog/auditlog.go Audit InitHistory insertRange", "protocol/auditor/auditor.go AuditDirectory CheckSTRAgainstVerified VerifySTRRange", "protocol/message.go Validate"]}
{"id": "C89", "title": "A client program on a machine", "statement": "A client program (`coniksclient run`) at a terminal of a machine on which key servers start, stop and crash, files are removed, a bot and other client programs run: as long as the server process that listens at the program's addresses runs, what the program prints, and what it ends up believing, is exactly what it would in a session alone with that server's directory, in which its own lines and the server's epochs and policies are in their places and everything else that happens is at most a registration that somebody asked for. When no server runs, commands only print an error. Nothing that happens elsewhere changes a client program, and nothing crashes any of the programs.", "quantifier": "every history of the machine: lines at all terminals, programs opened and ended, server processes started, interrupted, killed, files removed and made, connections, direct messages, epochs, policies; every failure of the network; every configuration", "why_tests_cant": "all orders of the events of any number of programs and processes; every address and socket", "anchors": ["cli/coniksclient/internal/cmd/run.go run register keyLookup", "application/testutil/testutil.go NewTCPClient NewUnixClient", "application/serverbase.go ListenAndHandle acceptClient Shutdown", "application/server/server.go Run", "cli/coniksserver/internal/cmd/run.go run"]}
{"id": "C90", "title": "A client program whose server was replaced, or that missed an epoch, says so for ever", "statement": "A client program holds an STR of the server it follows. When the server at its addresses is restarted with the same keys, or one with another key has taken its place, or two epochs have passed since, then every command for the server that the user types, for as long as the program runs and whatever happens on the machine, prints one line that begins with Error, and the program's state never changes: it accepts nothing of the new server and it forgets nothing, but it does not recover by itself either, also not when the network is fine.", "quantifier": "every history of the machine before and after, every number of commands, every failure of the network, every client state, server configuration, cryptography, and random bytes at the two starts", "why_tests_cant": "that nothing is ever accepted is a statement about all later histories; the tests end after a few commands", "anchors": ["cli/coniksclient/internal/cmd/run.go run register keyLookup", "protocol/client/consistencychecks.go HandleResponse updateSTR", "protocol/auditor/auditor.go CheckSTRAgainstVerified AuditDirectory", "protocol/directory/directory.go New", "application/server/server.go NewConiksServer Run"]}
{"id": "C91", "title": "A key that a client program finds was asked for by its owner", "statement": "On one machine a key server runs whose only entry that takes registrations is the socket that the bot's file names, and nobody but the bot goes there. Then, whatever happens on the machine, every key that the server shows for a name was asked for in a direct message from an account whose handle is that name up to letter case; so when a client program prints Found after a lookup of a name, the account of that name has asked for it. The other way round: when the owner has asked the bot for a free name and an epoch has begun, the program that looks the name up over a working network prints Found.", "quantifier": "every history of the machine (direct messages, bytes over connections, commands at every number of terminals, starts and ends of all processes, removed files, epochs), every failure of the network, every name, server and bot configuration, and cryptography", "why_tests_cant": "the owner's promise is about all histories of four programs together, and it depends on which addresses lead where; the tests run one program at a time", "anchors": ["application/bots/twitterbot.go HandleRegistration", "application/bots/bot.go SendRequestToCONIKS", "application/server/server.go HandleRequests", "cli/coniksclient/internal/cmd/run.go run keyLookup", "protocol/directory/directory.go Register KeyLookup"]}
{"id": "C92", "title": "Requests about ranges of epochs come to an end", "statement": "Every request that names epochs (Monitor, KeyLookupInEpoch, GetSTRHistory at a directory, GetObservedSTRs at an auditor) is finished after at most one round for every epoch from the first one asked for to the newest, whatever numbers the request contains.", "quantifier": "every history of a directory, every state of an audit log, every request, with every value of the 64-bit epoch numbers", "why_tests_cant": "a loop that counts up to a number from the network can run for ever for one value only, and a test that meets it does not end", "anchors": ["protocol/directory/directory.go GetSTRHistory Monitor KeyLookupInEpoch", "protocol/auditlog/auditlog.go GetObservedSTRs InitHistory"]}
{"id": "C93", "title": "One auditor for any number of directories", "statement": "An auditor follows any number of honest directories, each with any number of users, and is besides made to do whatever anybody likes about other directories. What each user hears from her directory and from the auditor, and what the auditor hears about her directory, is exactly what they would hear if the three were alone and all other calls at this directory were somebody's; nobody crashes who would not crash then; the auditor reports of each directory exactly the STRs up to the newest it knows; a user who asks for a range that ends at her epoch is never told that her directory equivocated.", "quantifier": "every number of directories and users, every interleaving of their calls, of epochs, audits, checks and users who join or begin anew, every other call on the auditor's log, every cryptography in which the directories' identities differ", "why_tests_cant": "the state of all directories is in one map behind one identity each; an entry used or overwritten by mistake shows only with particular interleavings of several directories", "anchors": ["protocol/auditlog/auditlog.go InitHistory Audit GetObservedSTRs get set", "protocol/auditor/auditor.go AuditDirectory computeDirectoryIdentity", "protocol/client/consistencychecks.go CheckEquivocation HandleResponse", "protocol/directory/directory.go GetSTRHistory"]}
{"id": "C94", "title": "A directory tells nobody another user's key", "statement": "A directory is made and used twice. The two histories are the same, except that other users register other keys under their names, with other randomness, in such a way that the published commitments are the same. Then every answer that a group of users gets, to registrations, lookups, lookups in past epochs and monitoring of its own names and to requests for STRs, is the same in both histories, and the server crashes in both or in neither: no key, salt or promise of anybody else has an influence on what the group is told, beyond the commitment that the tree publishes.", "quantifier": "every group of users, every two histories that differ in this way, every cryptography, key, cache length and initial randomness", "why_tests_cant": "non-interference is about pairs of whole histories; a proof that carries the value or the salt of the wrong leaf looks like any other in a test", "anchors": ["merkletree/merkletree.go Get insertNode", "merkletree/pad.go LookupInEpoch Update", "protocol/directory/directory.go Register KeyLookup KeyLookupInEpoch Monitor GetSTRHistory"]}

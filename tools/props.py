#!/usr/bin/env python3
# Generates /verif/properties.jsonl (single source for the property list).
import json, os
P=[]
def p(id,title,statement,quantifier,why,anchors): P.append(dict(id=id,title=title,statement=statement,quantifier=quantifier,why_tests_cant=why,anchors=anchors))
p("C01","Bit/byte conversion agrees with MSB-first reading","utils.ToBits, utils.ToBytes and utils.GetNthBit agree with reading a byte string as bits, most significant bit of each byte first: ToBits(bs)[8q+r] is bit 7-r of bs[q]; ToBytes(ToBits(bs)) = bs; ToBits(ToBytes(bits)) = bits padded with zeros to a multiple of 8; GetNthBit(bs,n) = ToBits(bs)[n] and panics exactly when n >= 8*len(bs).","every byte string, every bit string, every offset","the unit test samples 16 random bits; the claim is for every length and every content, including the panic boundary",["utils/coname.go ToBytes ToBits","utils/utils.go GetNthBit"])
p("C02","Fixed-width little-endian encodings are exact and injective","UInt32ToBytes, ULongToBytes and LongToBytes return exactly 4, 8 and 8 bytes, byte k being the k-th base-256 digit of the number (two's complement for LongToBytes), so distinct numbers have distinct encodings.","every uint32, uint64 and int64 value","2^64 values; tests check the number 42",["utils/utils.go LongToBytes ULongToBytes UInt32ToBytes"])
p("C03","Prefix range contains exactly the keys with that prefix","kv.BytesPrefix(p) denotes the half-open lexicographic key range [Start,Limit) (Limit nil = unbounded) that contains a key k if and only if p is a prefix of k, and IncrementKey(p) is the least key greater than all keys prefixed by p.","every prefix and every key","ranges over all byte strings including all-0xff prefixes and keys of any length",["storage/kv/range.go IncrementKey BytesPrefix"])
p("C04","Commitments open, and bind to the committed value","A commitment made by crypto.NewCommit(key,value) verifies for (key,value), and for another pair exactly if the pair has the same concatenation (the two strings are hashed without lengths, so a commitment does not fix where the key ends); in particular one accepted for the same key with two values has the same value. All this as long as the two hash inputs involved do not collide.","every key, value, salt, and every pair of openings of one commitment","an adversary chooses both openings; tests open a commitment once",["crypto/util.go NewCommit Verify Digest"])
p("C05","The bytes signed in an STR determine the STR","Two signed tree roots have the same serialized bytes exactly if they have the same epoch, previous epoch (when epoch>0) and epoch deadline, and the same concatenation of tree hash, previous STR hash, version, hash identifier and VRF key; so, with hashes of 32 bytes and version and hash identifier of the usual lengths (as in every STR this code issues), exactly if all signed fields agree.","every pair of STRs (including adversarially chosen field lengths)","requires comparing all pairs of STRs",["merkletree/str.go Serialize SerializeInternal","protocol/str.go Serialize","protocol/policy.go Serialize"])
p("C06","The bytes signed in a temporary binding determine the promise","If a client accepted a TB signature for a given STR signature, the signed bytes determine the index and the value promised; no other (index,value) accepted by the client has the same signed bytes.","every TB, index and value that pass the client's checks","all pairs of promises of any value length",["protocol/tb.go Serialize","protocol/client/consistencychecks.go verifyReturnedPromise","protocol/directory/directory.go NewTB"])
p("C07","VRF proofs made with a key verify under its public key","For every private key and message, Prove returns the value Compute returns, and Verify under the matching public key accepts the returned value and proof (except for messages whose 256-bit hash is one of twelve values that are mapped to a point of order dividing eight: those are rejected).","every VRF key and every message","algebraic identity over the whole group; tests use one key and a few messages",["crypto/vrf/vrf.go Prove Compute Verify Public GenerateKey"])
p("C08","A VRF value cannot be forged without answering two challenges","If one prover commitment is accepted for two different challenges then the accepted value is the one Compute returns for the secret key of the public key (special soundness), and an accepted value is determined by the message and the intermediate point in the proof.","every public key, message and pair of accepting proofs","adversarial proofs cannot be enumerated",["crypto/vrf/vrf.go Verify"])
p("C09","Inserting into the tree never panics and never loops forever","For every sequence of Set calls with indices of one common length, every Set terminates without a panic; an index may repeat.","every history of Set calls","any insertion order and any shared-prefix length",["merkletree/merkletree.go Set insertNode","merkletree/node.go newInteriorNode"])
p("C10","The tree is a map: Get finds the last value set and nothing else","After any sequence of Sets with 32-byte indices, Get(i) is a proof of inclusion carrying the value of the last Set of i if there is one, and shows no value otherwise: a proof of absence, except exactly where two set indices agree with i on all but its last few bits (fewer than 8), no set index continues with the next bit of i, and the remaining bits of i are zero; there Get returns what looks like an inclusion without a value.","every history of Sets and every lookup index","any number of entries, any prefixes; tests use three entries",["merkletree/merkletree.go Set Get insertNode","merkletree/proof.go ProofType"])
p("C11","The root hash depends only on the set of bindings","After recomputeHash the tree hash equals a canonical hash defined directly from the set of (index, commitment) pairs, so it is independent of insertion order, of the hash caching, and of when snapshots were taken.","every history of Set/recompute/clone, every permutation of it","cache invalidation bugs show only on particular interleavings of Set and recompute",["merkletree/merkletree.go insertNode recomputeHash","merkletree/node.go hash"])
p("C12","Honest proofs verify","For every tree reached by Sets and recomputeHash and every 32-byte lookup index, the authentication path returned by Get verifies against the tree hash: with the stored key and value if the index is present, with any key and value otherwise; except exactly at the deep empty places described in C10, where Verify panics for an empty value and reports differing bindings for any other.","every history, every lookup index","all trees and lookups",["merkletree/merkletree.go Get","merkletree/proof.go Verify authPathHash"])
p("C13","A proof accepted against an honest tree tells the truth about it","If an authentication path supplied by anyone verifies against the hash of an honestly built tree, then what it claims (the value bound to the index, or the absence of the index) is true of that tree, unless two of the hash inputs listed in the proof and the tree collide.","every honest tree and every adversarial authentication path","the adversary may choose lengths, levels and flags freely",["merkletree/proof.go Verify authPathHash ProofType hash"])
p("C14","One tree hash cannot support two contradictory proofs","Under a single tree hash (chosen by a malicious directory), two accepted proofs for the same index and name never contradict each other: two inclusion proofs give the same value, and an inclusion and an absence proof cannot both be accepted, unless listed hash inputs collide.","every pair of adversarial authentication paths with a common tree hash","non-equivocation is about all pairs of proofs an attacker may construct",["merkletree/proof.go Verify authPathHash hash","crypto/util.go Verify"])
p("C15","Proof verification does not crash the verifier","Verify returns nil or an error for every authentication path that can be received, and does not panic.","every authentication path that can be decoded from a message","malformed inputs are unbounded; boundary is exact (Level vs lengths)",["merkletree/proof.go Verify authPathHash hash","utils/coname.go ToBits"])
p("C16","A proof of absence reveals no user data","The proof returned for an index that is not in the tree contains no value and no salt, and is the same for any two trees that differ only in names, values and salts (not in indices, levels, commitments and nonce).","every pair of trees agreeing on public data, every absent index","non-interference is a property of pairs of executions",["merkletree/merkletree.go Get"])
p("C17","A clone is isolated from later changes, in both directions","After Clone (of a tree whose hashes were recomputed), any sequence of Sets on the original leaves every Get and the hash of the clone unchanged and vice versa.","every tree, every later history on either copy","aliasing bugs appear only for particular shapes and histories",["merkletree/merkletree.go Clone","merkletree/node.go clone"])
p("C18","Epochs form a signed hash chain","In every reachable PAD, snapshot epochs start at 0 and grow by one per Update; every STR's signature verifies under the PAD's key; the STR of epoch e+1 names epoch e as previous and contains the hash of its signature.","every history of Set and Update (and directory operations)","any number of epochs and interleaving with Sets",["merkletree/pad.go signTreeRoot updateInternal Update","merkletree/str.go NewSTR VerifyHashChain"])
p("C19","The snapshot cache respects its capacity and keeps recent epochs","A PAD created with cache length n never holds more than N = max(n,2) snapshots (a limit of 0 or 1 is exceeded from the first update on); the epochs held are a contiguous range ending at the latest; at least the latest N-floor(N/2)+1 (or all) epochs are held, and GetSTR of each of them is the STR issued for it.","every capacity and every number of updates","eviction depends on capacity parity and the number of updates",["merkletree/pad.go NewPAD Update GetSTR"])
p("C20","History is immutable","As long as epoch e can be looked up, LookupInEpoch(k,e) and GetSTR(e) return exactly what they returned when e was the latest epoch, whatever Sets and Updates happened since.","every epoch, key and later history","temporal property over all continuations",["merkletree/pad.go LookupInEpoch GetSTR Update Set"])
p("C21","Policies take effect with a fixed delay","The policies in the STR of epoch e+1 are those that were set in the directory when epoch e was created (epoch 0 and 1 carry the initial policies), and the VRF key in the policies never changes.","every history of SetPolicies, Update and requests","ordering property over all histories",["merkletree/pad.go updateInternal","protocol/directory/directory.go SetPolicies Update EpochDeadline"])
p("C22","Reshuffling preserves the directory content","reshuffle rebuilds the tree under the current VRF key with exactly the same name-to-value bindings.","every tree and every VRF key","all trees",["merkletree/pad.go reshuffle","merkletree/merkletree.go visitLeafNodes"])
p("C23","The first registration of a name wins forever","Once Register(name,key) succeeded, no sequence of requests and updates ever makes the directory return another key for that name, and every later Register of the name is refused with ReqNameExisted.","every history of requests and epoch updates","binding permanence ranges over all continuations",["protocol/directory/directory.go Register KeyLookup Update"])
p("C24","Promises are kept","A binding for which Register returned a temporary binding is, after the next Update and in every later snapshot that can be looked up, included in the tree with exactly the promised index and value.","every history","temporal property",["protocol/directory/directory.go Register NewTB Update KeyLookup"])
p("C25","Responses follow the abstract directory","The status code, presence of a TB and value returned by Register and KeyLookup are those of an abstract directory with a committed and a pending name-to-key map, if the VRF indices of the names used differ within their first 248 bits. Whatever the VRF does, they are exactly those of a directory that files keys under indices instead of names, in which a name with the index of another one replaces it and the deep empty places of C10 answer as if a name without a key were registered there.","every history and every request","refinement over all histories",["protocol/directory/directory.go Register KeyLookup KeyLookupInEpoch Monitor"])
p("C26","Malformed requests and reads do not change the directory","Requests that are malformed get ErrMalformedMessage, and neither they nor any lookup, monitoring or history request change any observable state.","every reachable state and every request","state equality after all requests",["protocol/directory/directory.go Register KeyLookup KeyLookupInEpoch Monitor GetSTRHistory"])
p("C27","A failed registration leaves no trace","If Register fails for lack of entropy it returns ErrDirectory and the directory is unchanged: the name is neither pending nor in any later snapshot.","every state and request","fault at an arbitrary point",["protocol/directory/directory.go Register","merkletree/merkletree.go Set","crypto/util.go MakeRand"])
p("C28","Past-epoch lookups return a verifiable chain","KeyLookupInEpoch(name,e) for a retrievable epoch returns one proof against the first STR returned that shows exactly what the snapshot of that epoch has at the index of the name (the key, the absence, or the keyless entry of a deep empty place of C10), the status belonging to it, and the STRs of exactly the epochs e..latest, in order, each linked to the previous; for an evicted epoch it returns ErrDirectory.","every reachable state, name and epoch","all histories",["protocol/directory/directory.go KeyLookupInEpoch"])
p("C29","Monitoring returns one proof per epoch","Monitor(name,s,t) returns for exactly the epochs s..min(t,latest), in order, the STR and one proof, which shows exactly what the snapshot of that epoch has at the index of the name (as in C28); if epoch s was evicted it returns ErrDirectory.","every reachable state and range","all ranges and histories",["protocol/directory/directory.go Monitor"])
p("C30","STR history requests return the requested range","GetSTRHistory(s,t) returns a malformed-message error exactly for the ranges that are empty or start after the latest epoch, crashes exactly if epoch s is well-formed but was evicted, and otherwise returns exactly the STRs of the epochs s..min(t,latest) in order.","every reachable state and range, including evicted epochs","ranges reaching beyond the cache",["protocol/directory/directory.go GetSTRHistory","protocol/str.go NewDirSTR"])
p("C31","No request can crash the key server","In every reachable state HandleRequests answers every request message without panicking.","every reachable state and every decoded request","all requests in all states",["application/server/server.go HandleRequests","protocol/directory/directory.go"])
p("C32","A client only moves forward along one signed chain","Over any sequence of responses from an arbitrary directory, the STR a client holds changes only to one with the next epoch, validly signed by the pinned key and hash-linked to the previously held STR.","every sequence of adversarial responses","adversarial histories of any length",["protocol/client/consistencychecks.go updateSTR HandleResponse","protocol/auditor/auditor.go AuditDirectory CheckSTRAgainstVerified"])
p("C33","What a client says to an honest directory","Let a client start with any STR an honest directory has issued, and let it look names up and register names while anything else happens at the directory. What HandleResponse returns to each call is determined as follows. The directory's error if the request was refused; CheckBadSTR, for ever, if at an answered call the last accepted STR is two or more epochs old; CheckBadVRFProof for the names whose own proof does not verify; else, if a key is shown, CheckBindingsDiffer if the client expects another one, CheckBadCommitment if the entry is another name's with the same index, CheckBrokenPromise on a lookup if the client was promised another key, else nil; if a key is promised, CheckBindingsDiffer if the client expects another, else nil; if nothing is there, nil. It crashes exactly when the answer shows an entry without a key (which needs two indices that agree on 248 bits) and the client expects none or the empty one. With spread indices, verifiable names and one answered call per epoch this means: nil whenever the client's expectation is right.","every cryptography, history, session, starting STR","completeness over all states, schedules and lengths of sessions",["protocol/client/consistencychecks.go HandleResponse","protocol/directory/directory.go"])
p("C34","Acceptance means all checks passed","If HandleResponse returns nil, the response's STR extends or equals the client's chain, the lookup index is VRF-verified for the name, the proof verifies under that STR, and in the absence-with-success cases the TB is signed, for that index, and for the expected key.","every response, name, key and client state","adversarial responses",["protocol/client/consistencychecks.go HandleResponse verifyRegistration verifyKeyLookup verifyAuthPath verifyReturnedPromise"])
p("C35","A looked-up key is pinned (trust on first use)","After a client accepted a key for a name, a later accepted lookup of that name through the client's recorded bindings yields the same key.","every pair of successive accepted responses","property of histories with an adversarial directory",["protocol/client/consistencychecks.go HandleResponse","protocol/message.go GetKey","cli/coniksclient/internal/cmd/run.go keyLookup"])
p("C36","Broken promises are detected","A client that holds a TB for a name never accepts a later-epoch response for that name that contradicts it (other value, or absence).","every client state and adversarial response","adversarial histories",["protocol/client/consistencychecks.go updateTBs verifyFulfilledPromise verifyReturnedPromise"])
p("C37","No response can crash the client","HandleResponse and CheckEquivocation return an error rather than panic for every response message and every known request type.","every response and request type","unbounded malformed messages",["protocol/client/consistencychecks.go HandleResponse updateSTR CheckEquivocation","protocol/message.go Validate"])
p("C38","Rejected responses do not change what the client believes","When HandleResponse returns an error, recorded bindings and TBs are unchanged and the held STR is either unchanged or a valid successor.","every response and client state","all error paths",["protocol/client/consistencychecks.go HandleResponse"])
p("C39","Auditing accepts exactly valid continuations","AuditDirectory accepts a non-empty range iff its first STR equals the held STR or is its validly signed hash-linked successor and every further STR is the validly signed successor of the one before.","every auditor state and STR range","ranges of any length",["protocol/auditor/auditor.go AuditDirectory VerifySTRRange verifySTRConsistency","merkletree/str.go VerifyHashChain"])
p("C40","Equivocation is detected","If an auditor reports for the client's epoch an STR different from the one the client holds, CheckEquivocation returns an error; it returns nil only if the reported range is a hash chain ending in the client's STR or its signed successor.","every client state and auditor response","adversarial ranges",["protocol/client/consistencychecks.go CheckEquivocation","protocol/auditor/auditor.go CheckSTRAgainstVerified compareWithVerified"])
p("C41","Agreement on one STR means agreement on the past","Two parties whose verified chains contain the same STR at epoch n have STRs with the same signatures at every earlier epoch both chains cover, unless hash inputs collide; with a message-binding signature scheme the signed contents agree too.","every pair of verified chains","pairs of histories of any length",["merkletree/str.go VerifyHashChain","protocol/auditor/auditor.go verifySTRConsistency"])
p("C42","The audit log is append-only and contiguous","Starting from a valid initial history, after any sequence of audits the log of a directory is a valid chain covering 0..latest; an STR once observed is reported unchanged forever; GetObservedSTRs(s,t) returns exactly the STRs s..t.","every sequence of audits with adversarial messages","histories of any length",["protocol/auditlog/auditlog.go Audit insertRange GetObservedSTRs InitHistory"])
p("C43","Directories in an audit log do not interfere","Initialising or auditing one directory never changes what is reported for another; a known directory is never re-initialised.","every log and every operation","all pairs of directories",["protocol/auditlog/auditlog.go InitHistory GetObservedSTRs set get"])
p("C44","A failed audit changes nothing","If Audit or InitHistory returns an error the log is unchanged.","every log and message","all error paths",["protocol/auditlog/auditlog.go Audit InitHistory"])
p("C45","Concurrent requests are linearizable","With requests, epoch updates and policy reloads running concurrently under the server's read-write lock, every execution gives the responses and final directory of some sequential execution, and no request sees a half-done update.","every interleaving of any number of goroutines","schedules cannot be enumerated by tests",["application/serverbase.go acceptClient EpochUpdate HotReload"])
p("C46","Registration only where permitted","A request whose type is not enabled for the address it arrives on is answered with ErrMalformedMessage and does not reach the directory; registration is enabled only on addresses configured with allow_registration.","every configuration, address and request","all configurations",["application/serverbase.go checkRequestType acceptClient","application/server/server.go NewConiksServer"])
p("C47","Requests are dispatched by type","A request is handled by the operation of its type exactly when the payload has the matching kind; any other combination gives ErrMalformedMessage without effect.","every type and payload","all combinations",["application/server/server.go HandleRequests","application/encoding.go UnmarshalRequest"])
p("C48","The epoch timer follows the announced epoch deadline","The interval between directory updates is the epoch deadline announced in the policies.","every configuration and reload","depends on configuration and reload history",["application/server/config.go NewConfig","application/server/server.go NewConiksServer updatePolicies","application/serverbase.go NewEpochTimer EpochUpdate"])
p("C49","The bot forwards only registrations for the sender's own handle","TwitterBot.HandleRegistration forwards a message to the key server only if it is a registration whose username equals <handle>@twitter up to letter case; otherwise it returns ErrMalformedMessage.","every sender handle and message","all messages",["application/bots/twitterbot.go HandleRegistration"])
p("C50","Writing a file never overwrites an existing one","utils.WriteFile leaves every existing file unchanged, and either creates the named file with the given content or returns an error.","every file system state and path","all states and crash/interleaving points",["utils/utils.go WriteFile"])
exec(open(os.path.join(os.path.dirname(__file__),'props_more.py')).read()) if os.path.exists(os.path.join(os.path.dirname(__file__),'props_more.py')) else None
with open('/verif/properties.jsonl','w') as f:
    for x in P: f.write(json.dumps(x)+"\n")
print(len(P))

p("C52","Shutdown leaves nothing running","When Shutdown returns, no listener, connection handler, epoch update or reload is running and none can start; Shutdown always can complete and the process does not crash while shutting down.","every interleaving of listeners, connections, background loops and the shutdown","the interesting interleavings are a few instructions wide",["application/serverbase.go acceptRequests ListenAndHandle RunInBackground EpochUpdate HotReload Shutdown"])
p("C58","Reloading a configuration changes nothing but the announced deadline","On SIGUSR2, an unreadable or incomplete configuration changes nothing, and a good one changes only the epoch deadline announced by later STRs; the server survives either way.","every configuration file and directory state","all malformed files",["application/server/server.go updatePolicies","application/server/config.go Load","protocol/directory/directory.go SetPolicies"])
p("C59","The initial STR handed to auditors belongs to the running directory","After the server starts, the file named by init_str_path holds the first STR of the directory that is being served, so an auditor configured with that file accepts the server's history.","every file system state at start-up, every fault of the write, every restart","restarts, left-over files and faulty writes",["application/server/server.go NewConiksServer","application/config.go SaveSTR LoadInitSTR","utils/utils.go WriteFile"])
p("C60","Key files written by init belong together","After a successful key generation by `init`, the public key file holds the public key of the private key file, and existing keys are not overwritten.","every file system state and write fault","left-over files from previous runs",["cli/coniksserver/internal/cmd/init.go mkSigningKey mkVrfKey","utils/utils.go WriteFile"])

p("C53","Field arithmetic modulo 2^255-19 is exact","Every field operation of the Ed25519 package, on operands within the bounds its comments state, returns the right residue within the bounds the other operations accept: no intermediate int32 or int64 overflow can change a result, and the bytes written are the unique least residue.","every choice of limbs within the bounds, every 32-byte string","10 limbs of 26 bits: carries that only occur for a 2^-100 fraction of inputs",["crypto/internal/ed25519/edwards25519/edwards25519.go FeAdd FeSub FeNeg FeMul FeSquare FeSquare2 FeInvert fePow22523 FeFromBytes FeToBytes FeIsNegative FeIsNonZero FeCMove","crypto/internal/ed25519/extra25519/extra25519.go chi"])
p("C54","Scalar arithmetic modulo the group order is exact","ScReduce and ScMulAdd return the canonical residue modulo l of their mathematical result for every input. ScNeg(s) is l - s, computed modulo 2^256: for every s up to l a negative of s modulo l, canonical unless s = 0, for which it is l.","every 64-byte and 32-byte string","12 limbs with signed carries; failing inputs have negligible density",["crypto/internal/ed25519/edwards25519/edwards25519.go ScReduce ScMulAdd ScNeg"])
p("C55","Point operations compute in the curve group","The points of the curve form a group of order 8l in which the base point has order l; addition, doubling and the three scalar multiplications return the sum or multiple for every pair of points and every admissible scalar, without exceptional cases or panics.","every pair of curve points in every representation, every scalar","exceptional cases of addition formulas and table entries are hit with negligible probability",["crypto/internal/ed25519/edwards25519/edwards25519.go GeAdd GeDouble GeScalarMult GeScalarMultBase GeDoubleScalarMultVartime slide selectPoint","crypto/internal/ed25519/edwards25519/const.go"])
p("C56","Point encodings are canonical","ToBytes writes one encoding per point; FromBytesBaseGroup accepts a 32-byte string exactly if it is the encoding of a point of order l, and returns that point; FromBytes undoes ToBytes.","every point, every 32-byte string","non-canonical and small-order encodings are a handful among 2^256 strings",["crypto/internal/ed25519/edwards25519/edwards25519.go ToBytes FromBytes FromParityAndY FromBytesBaseGroup ToExtended"])
p("C57","Hashing to the curve never fails and has only the known collisions","HashToEdwards never panics, returns the point Elligator prescribes, and two hash values go to the same point only if they are related by r, -r, 1/(2r), -1/(2r); exactly twelve hash values go to points of small order.","every 32-byte hash value and every pair of them","a panic or a small-order point for a few of 2^256 values",["crypto/internal/ed25519/extra25519/extra25519.go HashToEdwards representativeToMontgomeryX montgomeryXToEdwardsY chi"])

p("C51","Two clients cannot be shown different keys under one STR","Two clients that accept answers about one name while holding the same STR believe the same about it: the same key, or absence, or the same promised key. If they ever hold the same STR later, this was already true of all earlier epochs; so a directory that equivocates to two clients has to keep them on separate STR chains for ever.","every pair of clients, every (malicious) directory and response, every number of later calls","a malicious server is an arbitrary program",["protocol/client/consistencychecks.go HandleResponse","merkletree/proof.go Verify","protocol/auditor/auditor.go"])

p("C61","Answers survive the wire","What MarshalResponse writes, UnmarshalResponse reads back unchanged, nil and empty parts included: every answer the directory ever gives to a client reaches it exactly as it was made, whatever bytes keys, commitments, hashes and signatures contain.","every response whose body fits the request type; every directory history and call","byte strings of any content and length, nil against empty, escapes in strings",["application/encoding.go MarshalResponse UnmarshalResponse","protocol/message.go Response DirectoryProof","protocol/str.go","protocol/tb.go"])
p("C62","Requests survive the wire","The request the server acts on is the request the client made, for every name that is valid UTF-8 and every key; so a session over the network is the session of direct calls. Different names never turn into the same request.","every name, key, epoch; every session between one client and an honest server","all Unicode names, invalid encodings, lengths near the transport limit",["application/encoding.go CreateRegistrationMsg CreateKeyLookupMsg CreateKeyLookupInEpochMsg CreateMonitoringMsg UnmarshalRequest","application/serverbase.go acceptClient","cli/coniksclient/internal/cmd/run.go register keyLookup"])
p("C63","Broken and hostile messages are never misread","A message cut off anywhere (as the 8192-byte limits of client and server do) is reported as malformed and changes nothing; no bytes crash the server; no bytes crash the client.","every message, every cut, every byte string","all byte strings and cut points",["application/encoding.go UnmarshalRequest UnmarshalResponse","application/serverbase.go acceptClient","application/testutil/testutil.go NewTCPClient"])

p("C64","The command-line client reports what happened","Each register and lookup command of the REPL prints a line that says truthfully what the directory did or shows, including the key that is bound to a name; the success lines are printed only after all checks, whatever the server sends.","every session of commands, every directory history, every reply of a hostile server","all replies and all histories",["cli/coniksclient/internal/cmd/run.go run register keyLookup","protocol/error.go Error","protocol/message.go GetKey"])

p("C65","A directory's signature means one thing","Every STR and every promise whose signature verifies under the directory's key is an STR the directory issued or a promise it made, with exactly these contents; a signature on one can never be presented as a signature on something else.","every history of the directory, every STR and promise anybody can write down","the signed bytes of all histories against all ways to cut them into fields",["merkletree/str.go Serialize SerializeInternal","protocol/policy.go Serialize","protocol/tb.go Serialize","protocol/directory/directory.go NewTB"])
p("C66","A man in the middle cannot lie","A client that starts with a genuine STR and receives all its answers from a network attacker who cannot forge signatures, VRF proofs or hashes, accepts an answer about a name only if it is the truth of some epoch of the directory: the key shown is the key of that epoch, absence shown is absence, a promised key was promised.","every history of the directory, every sequence of calls, every answer an attacker can make up (the client does not check the TLS certificate)","the attacker is an arbitrary program",["protocol/client/consistencychecks.go HandleResponse","merkletree/proof.go Verify authPathHash","crypto/util.go Commit Verify","application/testutil/testutil.go NewTCPClient"])

p("C67","A restarted key server cannot pass for the old one","The server keeps nothing across a restart. When it is started again with the same configuration and keys, no client or auditor that holds an STR of its first life ever accepts an STR of the second, however long both run; all earlier bindings are gone, and an audit log sees another directory.","every pair of histories before and after the restart, every session of an old client with the restarted server","all later histories: the two chains must never meet",["application/server/server.go NewConiksServer","protocol/directory/directory.go New","merkletree/pad.go NewPAD","protocol/auditor/auditor.go CheckSTRAgainstVerified","protocol/auditlog/auditlog.go InitHistory"])

p("C68","A path in a configuration means the same file wherever the program is started","ResolvePath returns a path that leads to the file that the given path names when it is taken from the directory of the other file, for all spellings (., .., doubled and trailing slashes); an absolute path is returned unchanged; the result is canonical, and it is absolute, as its comment promises.","every pair of paths, every working directory","all spellings of paths",["utils/utils.go ResolvePath"])
p("C69","A client starts from the STR its server stored","What SaveSTR stores, LoadInitSTR reads back unchanged, only STRs of epoch 0 are accepted, and no file crashes the program; a client and a server started from their configuration files, wherever they are, work together; a client given a wrong STR trusts nothing.","every STR, every file content, every layout of directories, every working directory, every later session","file contents and layouts are unbounded",["application/config.go LoadSigningPubKey LoadInitSTR SaveSTR","application/client/config.go Load","cli/coniksclient/internal/cmd/init.go mkConfigOrExit","cli/coniksclient/internal/cmd/common.go loadConfigOrExit","protocol/client/consistencychecks.go New"])
p("C70","A server runs with what its configuration says, wherever it is started","Load succeeds exactly if the file decodes and the two key files have 64 bytes, and then gives the keys, deadlines, addresses and paths that the file means, independently of the working directory and of the spelling of the path; `init` followed by `run` gives a server with the generated keys that stores its initial STR next to its configuration and nothing else.","every configuration, every disk, every working directory, every spelling of the path","file contents and layouts are unbounded",["application/server/config.go Load","application/server/server.go NewConiksServer updatePolicies","application/logger.go NewLogger","cli/coniksserver/internal/cmd/init.go mkConfig mkSigningKey mkVrfKey","cli/coniksserver/internal/cmd/run.go"])

p("C71","The Twitter bot registers people under their own names only","A direct message that asks, in the form the bot expects, for the registration of its sender's handle is registered exactly as if it had been sent to the key server, and its sender gets the server's answer; every other message changes nothing; every message that has to be answered is answered once, to its sender; and when only the bot may register, every key the directory ever shows for a name was asked for by the owner of that handle. One account has one name, and old messages are deleted before the bot runs.","every history of direct messages, connections of others, epochs and reloads; every failure of Twitter and of the connection between bot and key server","all histories and failures",["application/bots/twitterbot.go NewTwitterBot Run HandleRegistration sendDM deleteOldDMs deleteRequestDMs","application/bots/bot.go SendRequestToCONIKS","application/serverbase.go acceptClient"])

p("C72","Converted keys belong together and representatives lead back to their key","Converting an Ed25519 key pair gives a Curve25519 key pair: the converted public key is the one that belongs to the converted private key, and is refused exactly if the bytes are no point. ScalarBaseMult returns the public key of RFC 7748 for every private key whose public key has a representative and false for all others, and RepresentativeToPublicKey maps the representative back to that public key.","every 32-byte private key, public key and representative; every hash function in place of SHA-512","wrong constants, signs or square roots show only in the algebra of a field of 2^255 - 19 elements",["crypto/internal/ed25519/extra25519/extra25519.go PrivateKeyToCurve25519 PublicKeyToCurve25519 ScalarBaseMult RepresentativeToPublicKey edwardsToMontgomeryX feBytesLE q58"])

p("C73","The bytes exchanged have one meaning","A text is read as a message exactly if it is derived from the JSON grammar, and then as the one value the grammar gives it; every other text is refused as malformed. Which request or response it is depends only on the members that the text says, with the rules of encoding/json (last member wins, names compared without case, unknown members ignored). Everything the programs write is in the grammar.","every byte string","all texts near the grammar: escapes, surrogates, numbers, white space, nesting, duplicate members",["application/encoding.go MarshalRequest UnmarshalRequest MarshalResponse UnmarshalResponse","protocol/message.go","application/config.go LoadInitSTR"])
p("C74","Every refusal states its true reason","When HandleResponse, CheckEquivocation or AuditDirectory returns an error code, the response has the defect that the code names and no defect that is checked before it; in particular CheckBrokenPromise is returned only if everything else is in order and the tree contradicts the promise held. After a refusal the client holds the offered STR if that was in order and is otherwise unchanged.","every client state, response, name and key; every range of STRs","the table of defects times all responses of a hostile directory",["protocol/client/consistencychecks.go HandleResponse CheckEquivocation verifyAuthPath updateTBs verifyFulfilledPromise verifyReturnedPromise","protocol/auditor/auditor.go AuditDirectory CheckSTRAgainstVerified VerifySTRRange","merkletree/proof.go Verify"])

p("C75","An answer, once given, does not change","Answers are made of pointers to the directory's policies, tree roots, promises and to the key slice of the registration, and the server marshals them after it has released its lock. Whatever is done with the directory afterwards or meanwhile, the answer read at any later moment is the answer at the time of the call.","every history of calls with all answers kept; every interleaving of the server's critical sections, with the answer read at every later point, also while a writer is inside its section; every write to key slices by the program that uses the directory","an overwritten structure shows only in an answer that is read at the right moment",["protocol/directory/directory.go Update SetPolicies NewTB Register LatestSTR","merkletree/pad.go signTreeRoot updateInternal Update GetSTR","protocol/str.go NewDirSTR","application/serverbase.go acceptClient EpochUpdate HotReload","application/encoding.go MarshalResponse"])

p("C76","The key-value store keeps what was written","After Put(k, v) has returned, and as long as nothing else writes k, Get(k) returns v, whatever crashes and restarts happen in the meantime; a batch takes effect entirely or not at all, also when a crash cuts it off; a scan of a range shows the entries of the range, each once, in key order, with the values that Get returns, and a scan of BytesPrefix(p) the entries whose keys have the prefix p; a call that fails changes nothing.","every history of puts, deletes, batches, closings, openings and crashes, also in the middle of calls; every key, range and prefix","crash points and histories are unbounded",["storage/kv/kv.go DB Batch Iterator","storage/kv/leveldbkv/leveldbkv.go Get Put Delete NewBatch Write NewIterator Close OpenDB","storage/kv/range.go BytesPrefix"])

p("C77","Results may be stored over operands","The functions of edwards25519.go get pointers. Whichever of them are equal (the comment on GeAdd allows it, and vrf.go doubles and adds in place), the destination holds the result on the values the operands had before the call, and nothing else that the caller has changes; encoding a point leaves the point as it was.","every choice of equal or different pointers, every memory content standing for field elements, points or scalars","an operand overwritten too early shows only for one pattern of equal pointers, and then as a wrong number that looks like any other",["crypto/internal/ed25519/edwards25519/edwards25519.go FeAdd FeSub FeNeg FeCMove FeInvert fePow22523 GeAdd GeDouble GeScalarMult GeScalarMultBase GeDoubleScalarMultVartime FromParityAndY FromBytes ToBytes ToExtended ScNeg ScMulAdd","crypto/internal/ed25519/extra25519/extra25519.go edwardsToMontgomeryX","crypto/vrf/vrf.go hashToCurve Verify"])

p("C78","Nobody waits for ever","Every request that was read and admitted, every epoch round and every reload gets the server's lock and gives it back, however many others come and in whatever order; slow or silent clients delay nobody, since the lock is held neither while reading a request nor while writing an answer. A lookup is overtaken by at most one writer, a writer that waits for readers by nobody.","every endless schedule of any number of goroutines in which the scheduler runs whoever can run and waiting writers take turns; every finite schedule for the bounds","starvation shows only in endless executions",["application/serverbase.go ServerBase acceptClient EpochUpdate HotReload"])

p("C79","A server listens where its configuration says, and starts again after any end","Each address of the configuration stands for one socket: run succeeds exactly if all of them can be listened on, all or nothing; while the server runs, a client or bot whose address leads to an entry is connected to this server under the permissions of this entry, and to nobody else; whatever other servers on the machine do changes nothing; and after the server has ended, in whatever way, the same configuration starts again. The default configurations of server, client and bot work together.","every configuration, every machine, every history of starts, stops, crashes, removed and created files on it","all orders of starts and crashes of several processes, leftovers of earlier runs, all spellings of addresses",["application/serverbase.go resolveAndListen ListenAndHandle acceptRequests Shutdown","application/server/server.go Run","application/testutil/testutil.go NewTCPClient NewUnixClient","application/bots/twitterbot.go NewTwitterBot","cli/coniksserver/internal/cmd/init.go mkConfig"])
p("C80","The PID file names the running server","After `coniksserver run --pid`, the file coniks.pid holds the number of that process, whatever the file held before; while the server runs, attempts to start another one do not change this.","every earlier content of the file, every history of runs in the directory, failed ones included","process numbers of all lengths in all orders; failed starts",["cli/coniksserver/internal/cmd/run.go run writePID"])
p("C81","The bot as a program, and on a machine with key servers","After `coniksbot init`, `coniksbot run` loads what was saved and talks to the default key server. `run` comes up exactly if its key server is up and Twitter authenticates the configured handle; otherwise no message is touched. Beside key servers that start, stop and crash, each message that asks for a registration in its sender's name is registered by exactly the server that listens at the bot's path, under that entry's permissions, and answered with what this server said; a server that takes registrations only there never shows a key for a name that was not asked for by the account of that name. Nothing that happens on the machine crashes the bot or a running server.","every configuration, every machine and every history of server starts, stops, crashes, files removed or made, epochs, connections and direct messages; every behaviour of Twitter","all orders of the events of several processes; stale sockets; all messages and accounts",["application/bots/config.go Load NewTwitterConfig","application/bots/twitterbot.go NewTwitterBot Run HandleRegistration","application/bots/bot.go SendRequestToCONIKS","cli/coniksbot/internal/cmd/init.go mkBotConfig","cli/coniksbot/internal/cmd/run.go run","application/serverbase.go"])

p("C82","The client's commands over a network that fails","Whatever the network does with an exchange (no connection, the request or the answer cut anywhere, a failing read or write on either side), a command of the client either does exactly what it does over a network that works, or prints one line that begins with Error, leaves the client as it was and has at the directory no effect but the registration that was asked for; a whole session is a session over a working network without the failed commands; giving the failed command again later has the effect it should have, and no honest server and no failure of the network crashes the client.","every history of the directory, every session of typed lines, every failure of every exchange, every client state","all cut points of all messages in all sessions",["application/testutil/testutil.go NewTCPClient NewUnixClient","application/serverbase.go acceptClient","cli/coniksclient/internal/cmd/run.go run register keyLookup","protocol/client/consistencychecks.go HandleResponse"])

p("C83","Everyday messages arrive","As long as names and keys have at most 1024 bytes and the indices of the registered names part within 42 bits, every message between client and server fits into the 8192 bytes that either side reads: the network then makes no difference to any session, whatever the history and however many names are registered.","every history of the directory, every session, every number of users; the sizes of answers are bounded in terms of the depth of the tree and the longest key","answers grow with the tree and with the keys, names grow when written as JSON; a test has one tree and one key",["application/testutil/testutil.go NewTCPClient NewUnixClient","application/serverbase.go acceptClient","application/encoding.go MarshalResponse MarshalRequest","merkletree/merkletree.go Get","protocol/directory/directory.go Register KeyLookup"])

p("C84","Users agree","However many users of an honest directory call in whatever order, each with a client of his own: no user's calls disturb another's client; two answers about a name never show different keys, whoever gets them and whenever; the key shown is the one that was registered; once any user has been shown a key for a name, every answer any user gets about the name from then on shows exactly this key, and his client accepts it unless he expects another. Two clients that are cut off from the directory by an adversary who cannot forge, and accept keys for the same name, believe the same key.","every number of users, every interleaving of their calls with epochs and other requests, every point at which users join, every client state; every adversary that does not forge","all interleavings of any number of clients over any number of epochs",["protocol/directory/directory.go Register KeyLookup Update","protocol/client/consistencychecks.go HandleResponse New","merkletree/pad.go Lookup Update"])

p("C85","Directory, auditor and user together","When the directory is honest, an auditor that follows it (GetSTRHistory, Audit) comes to hold exactly the directory's STRs, and a user who compares with the auditor (GetObservedSTRs, CheckEquivocation) is never told that the directory equivocated: the result is nil, or that the auditor does not know that epoch. An auditor that was away can catch up. Nobody crashes.","every cryptography, every history before, every number of STRs the auditor is initialised with and every epoch the user starts from, every interleaving of epoch updates, calls of others, lookups and registrations of the user, new beginnings of the user (a new client with the newest STR), audits and checks with any ranges, without bound","three stateful parties, three epoch counters and a cache that forgets; the tests run one of them at a time over a handful of epochs",["protocol/directory/directory.go: GetSTRHistory","protocol/auditlog/auditlog.go: Audit, InitHistory, GetObservedSTRs, insertRange","protocol/auditor/auditor.go: AuditDirectory, CheckSTRAgainstVerified, VerifySTRRange","protocol/client/consistencychecks.go: CheckEquivocation, HandleResponse, updateSTR","merkletree/pad.go: Update, GetSTR"])
p("C86","Users who check with the same auditor cannot be kept apart","Take a directory that lies as it likes and an auditor that was initialised with its initial STR. All users who pass CheckEquivocation against that auditor's log, at whatever moments, hold STRs of one hash chain: two of them in the same epoch hold the same STR, field by field; if a fork puts two users of one epoch on different STRs, then one of them is told CheckBadSTR as soon as the auditor knows that epoch. Two such users who accepted answers about one name got the same key or both absence, also for answers accepted long before the check (for proofs and STRs of the shape the code produces, and as long as no hash collision and no ambiguous signature occurs among what the parties saw). It needs the same auditor: two auditors with the same initial STR can be kept on two branches.","every scheme, every sequence of messages given to the auditor (audits of any content, other directories, refused ones), every pair of clients in any state, every ranges asked for, any moments, any further calls between the answers and the checks","an adversarial directory, two users and an auditor over unbounded time; a test can only try particular forks",["protocol/auditlog/auditlog.go: InitHistory, Audit, GetObservedSTRs","protocol/client/consistencychecks.go: CheckEquivocation, HandleResponse","protocol/auditor/auditor.go: CheckSTRAgainstVerified, VerifySTRRange, AuditDirectory"])
p("C87","Many users at a server that works on their requests at the same time","However the goroutines of the server, its epoch updates and reloads, the requests of any number of users and their answers interleave, and whichever answers are lost: there is one order of the calls, the order in which the server finished them, such that every user heard, and every client became, exactly what happens when the calls are made one by one in this order. So users agree on every key; a key that somebody has heard is in every answer to a call sent after that; users who keep up hear what the abstract directory says; and nobody crashes or is stuck.","every schedule of the goroutines in steps, every number of users with clients in any state, every assignment of calls, every pattern of lost answers and of users who give up, every earlier history of the directory","interleavings of steps of any number of goroutines with any number of clients over any number of epochs",["application/serverbase.go: acceptClient, EpochUpdate, HotReload","application/server/server.go: HandleRequests","protocol/directory/directory.go: Register, KeyLookup, Update","protocol/client/consistencychecks.go: HandleResponse","application/testutil/testutil.go: NewTCPClient"])
p("C88","No answer can crash an auditor","Audit and InitHistory of an audit log return an error rather than panic for every message from whoever answers the auditor and every list of STRs, whatever the log holds.","every audit log, every message and list of STRs, every cryptography","the sender is arbitrary; which parts of a message may be missing, and after which checks, is a question about all messages",["protocol/auditlog/auditlog.go Audit InitHistory insertRange","protocol/auditor/auditor.go AuditDirectory CheckSTRAgainstVerified VerifySTRRange","protocol/message.go Validate"])
p("C89","A client program on a machine","A client program (`coniksclient run`) at a terminal of a machine on which key servers start, stop and crash, files are removed, a bot and other client programs run: as long as the server process that listens at the program's addresses runs, what the program prints, and what it ends up believing, is exactly what it would in a session alone with that server's directory, in which its own lines and the server's epochs and policies are in their places and everything else that happens is at most a registration that somebody asked for. When no server runs, commands only print an error. Nothing that happens elsewhere changes a client program, and nothing crashes any of the programs.","every history of the machine: lines at all terminals, programs opened and ended, server processes started, interrupted, killed, files removed and made, connections, direct messages, epochs, policies; every failure of the network; every configuration","all orders of the events of any number of programs and processes; every address and socket",["cli/coniksclient/internal/cmd/run.go run register keyLookup","application/testutil/testutil.go NewTCPClient NewUnixClient","application/serverbase.go ListenAndHandle acceptClient Shutdown","application/server/server.go Run","cli/coniksserver/internal/cmd/run.go run"])
p("C90","A client program whose server was replaced, or that missed an epoch, says so for ever","A client program holds an STR of the server it follows. When the server at its addresses is restarted with the same keys, or one with another key has taken its place, or two epochs have passed since, then every command for the server that the user types, for as long as the program runs and whatever happens on the machine, prints one line that begins with Error, and the program's state never changes: it accepts nothing of the new server and it forgets nothing, but it does not recover by itself either, also not when the network is fine.","every history of the machine before and after, every number of commands, every failure of the network, every client state, server configuration, cryptography, and random bytes at the two starts","that nothing is ever accepted is a statement about all later histories; the tests end after a few commands",["cli/coniksclient/internal/cmd/run.go run register keyLookup","protocol/client/consistencychecks.go HandleResponse updateSTR","protocol/auditor/auditor.go CheckSTRAgainstVerified AuditDirectory","protocol/directory/directory.go New","application/server/server.go NewConiksServer Run"])
p("C91","A key that a client program finds was asked for by its owner","On one machine a key server runs whose only entry that takes registrations is the socket that the bot's file names, and nobody but the bot goes there. Then, whatever happens on the machine, every key that the server shows for a name was asked for in a direct message from an account whose handle is that name up to letter case; so when a client program prints Found after a lookup of a name, the account of that name has asked for it. The other way round: when the owner has asked the bot for a free name and an epoch has begun, the program that looks the name up over a working network prints Found.","every history of the machine (direct messages, bytes over connections, commands at every number of terminals, starts and ends of all processes, removed files, epochs), every failure of the network, every name, server and bot configuration, and cryptography","the owner's promise is about all histories of four programs together, and it depends on which addresses lead where; the tests run one program at a time",["application/bots/twitterbot.go HandleRegistration","application/bots/bot.go SendRequestToCONIKS","application/server/server.go HandleRequests","cli/coniksclient/internal/cmd/run.go run keyLookup","protocol/directory/directory.go Register KeyLookup"])
p("C92","Requests about ranges of epochs come to an end","Every request that names epochs (Monitor, KeyLookupInEpoch, GetSTRHistory at a directory, GetObservedSTRs at an auditor) is finished after at most one round for every epoch from the first one asked for to the newest, whatever numbers the request contains.","every history of a directory, every state of an audit log, every request, with every value of the 64-bit epoch numbers","a loop that counts up to a number from the network can run for ever for one value only, and a test that meets it does not end",["protocol/directory/directory.go GetSTRHistory Monitor KeyLookupInEpoch","protocol/auditlog/auditlog.go GetObservedSTRs InitHistory"])
p("C93","One auditor for any number of directories","An auditor follows any number of honest directories, each with any number of users, and is besides made to do whatever anybody likes about other directories. What each user hears from her directory and from the auditor, and what the auditor hears about her directory, is exactly what they would hear if the three were alone and all other calls at this directory were somebody's; nobody crashes who would not crash then; the auditor reports of each directory exactly the STRs up to the newest it knows; a user who asks for a range that ends at her epoch is never told that her directory equivocated.","every number of directories and users, every interleaving of their calls, of epochs, audits, checks and users who join or begin anew, every other call on the auditor's log, every cryptography in which the directories' identities differ","the state of all directories is in one map behind one identity each; an entry used or overwritten by mistake shows only with particular interleavings of several directories",["protocol/auditlog/auditlog.go InitHistory Audit GetObservedSTRs get set","protocol/auditor/auditor.go AuditDirectory computeDirectoryIdentity","protocol/client/consistencychecks.go CheckEquivocation HandleResponse","protocol/directory/directory.go GetSTRHistory"])

p("C94","A directory tells nobody another user's key","A directory is made and used twice. The two histories are the same, except that other users register other keys under their names, with other randomness, in such a way that the published commitments are the same. Then every answer that a group of users gets, to registrations, lookups, lookups in past epochs and monitoring of its own names and to requests for STRs, is the same in both histories, and the server crashes in both or in neither: no key, salt or promise of anybody else has an influence on what the group is told, beyond the commitment that the tree publishes.","every group of users, every two histories that differ in this way, every cryptography, key, cache length and initial randomness","non-interference is about pairs of whole histories; a proof that carries the value or the salt of the wrong leaf looks like any other in a test",["merkletree/merkletree.go Get insertNode","merkletree/pad.go LookupInEpoch Update","protocol/directory/directory.go Register KeyLookup KeyLookupInEpoch Monitor GetSTRHistory"])

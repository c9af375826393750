# Formal model of thorchain/thorchain-tss in Lean 4 - design

## Layout

* `properties.jsonl`        - the English properties C01.. (one JSON object per line)
* `MANIFEST.json`           - status of every property and the exact theorem names
* `lean/Verif/Model/*.lean` - the model, function by function; each definition cites file and lines
* `lean/Verif/Spec/*.lean`  - small independent specifications used in theorem statements
* `lean/Verif/Lemmas/*.lean` - helper lemmas
* `lean/Verif/Props/*.lean` - one theorem (or a few) per property, each with a concrete `example`
  (non-vacuity witness) next to it
* `seeded/LOG.jsonl`        - log of the seeded-bug experiments (mutated model, which theorems failed)

## Modelling conventions

* **Go errors** are values: a function returning `(T, error)` becomes `Except Err T`, or `Res T` with the three
  outcomes `ok`, `err`, `panic` where a run-time panic (nil dereference, index out of range, close of a closed
  channel) is possible. Where a function can mutate state and then fail, it returns the state as well.
* **Go maps** are association lists with unique keys (`Go.Map`), `range` over a map is a parameter: the
  iteration order is an arbitrary permutation of the entries chosen by the environment, and theorems quantify over
  all permutations.
* **Slices** are lists. Aliasing is modelled only where the code depends on it (GetPriKey's capacity reslice).
* **Goroutines, channels, timers**: a session is a state machine whose step takes an arbitrary event; a history is
  an arbitrary list of events. Locks make the modelled critical sections atomic. Where two goroutines race we model the
  atomic steps and quantify over all interleavings. That the locks do protect the state they are meant for, and which state is
  used without lock, is itself modelled and proved (`Locks`, C117-C119); the four unprotected pieces of C119 are treated as atomic
  elsewhere in the model.
* **Cryptography and codecs** (sha256, secp256k1 signatures, bech32, JSON, protobuf, libp2p peer ids, tss-lib's
  `UpdateFromBytes` and `ParseWireMessage`) are *parameters* of the model: variables or fields of a structure, never
  axioms. A property that needs an assumption on them has it as an explicit hypothesis (for instance injectivity of the
  hash on the inputs at hand, or decode-after-encode), and an `example` shows the hypothesis can be met. For keys the
  parameters are also filled in (`Curve`, `Bech32`, `RealKeys`), and C114, C115 prove what is assumed of them. So they are for
  join messages and notices (`Protobuf`, C130), texts of messages (`Base64`, C131) and the messages of a session (`Json`, `JsonMsg`, C132-C134) and requests and
  answers (`JsonHttp`, C135), files of key shares (`JsonState`, C136), the signatures of shares and of
  pools (`Secp`, C137), digests (`Sha256`, C145) and pool addresses (`Ripemd160`, `Address`, C146).
* `int`/`uint32` are `Int`/`Nat` unless wrap-around is the issue (stream length header: modelled modulo 2^32;
  threshold: the float64 computation is modelled with rounding).

## Trusted base

* Lean 4.33.0's kernel. No `sorry`, no `axiom`, no `native_decide`, no `bv_decide`, no `implemented_by`, no `unsafe`.
* Axioms any theorem may depend on: `propext`, `Classical.choice`, `Quot.sound` (Lean's standard three).
* The reading of the Go code in the model's definitions (each cites file and lines), the Go memory model's guarantee that
  mutex-protected sections are atomic, and the parameters listed above standing for the libraries.
* tss-lib's `PartyID` embeds a pointer; the model identifies a party id with its key and index, which is what the code
  compares and prints. The goroutines that `updateLocal` starts per unicast share are atomic steps that may run in any order
  (they share only the blame manager, which locks).
* libp2p authenticates the peer at the other end of a stream and delivers the bytes of a stream in order; it may cut, delay
  and truncate them.

## What is modelled

| code | model |
|------|-------|
| conversion/*.go | `Threshold`, `Bytes`, `Conversion`, `Version`, `Curve` (with btcec's parsing and compression), `Bech32`, `RealKeys` (key texts and peer ids), `Base58` (texts of peer ids), `SemVerText` (texts of versions) |
| p2p/stream_helper.go | `Stream` (framing, bufio reader), `StreamMgr` |
| p2p/message_id_subscriber.go, p2p/communication.go | `Subscribers`, `Comm` (broadcast queue, writers, dispatch, handlers, channels; networks of nodes), `Startup` (Start, Stop, bootstrap), `Multiaddr` (listening and announced addresses) |
| p2p/leader_provider.go, p2p/peer_status.go, p2p/party_coordinator.go | `Leader`, `PeerStatus`, `JoinParty`, `JoinNet`, `Coordinator` (several calls) |
| messages/*.go | `Messages`, `MsgId`, `Protobuf` (the encoding of join messages and notices), `Json`, `JsonMsg` (the texts of session messages) |
| blame/*.go | `Blame` |
| common/tss.go, common/tss_helper.go, common/tss_queue/*.go | `TssCommon`, `OutBatch`, `SessNet` (several nodes) |
| keygen/tss_keygen.go, keysign/tss_keysign.go | `Session` (processKeyGen, processKeySign, batch collection), `BatchStart` (starting the parties), `SessionCall` (goroutines, channels, grace period), `Ceremony` (the calls of several nodes), `GoSort` (sort.SliceStable) |
| keysign/notifier.go, keysign/signature_notifier.go | `Notifier`, `Secp` (crypto/ecdsa, btcec and tendermint's signatures on secp256k1) |
| storage/localstate_mgr.go | `Storage` (files, crash points), `JsonState` (the texts of the share files), `Multiaddr` (the texts of addresses in the address book) |
| tss/keygen.go, tss/keysign.go, tss/tss.go | `Server`, `KeySign`, `Keygen`, `Calls` (subscriptions of concurrent calls), `Base64` (texts of messages) |
| cmd/tss-recovery/*.go | `Recovery`, `RecoveryFiles` (share files, key texts and the exported file) |
| cmd/tss/tss_http.go, monitor/metrics.go | `Http`, `JsonHttp` (the texts of requests and answers), `Metric` |
| timers of the loops | `Timer`, `JoinTimer` |
| several attempts at one ceremony | `Attempts` |
| cmd/tss/main.go `parseFlags` with Go's flag package | `Flags`; the readers of numbers and durations: `FlagText` |
| the command lines of cmd/tss-recovery, cmd/tss-benchgen, cmd/tss-benchsign | `ToolFlags` |
| the arrays behind the slices of accepted shares: blame/manager.go:55-80, blame/policy.go:140-181, step by step | `AcceptSlices` |
| the arrays behind the slices of retained streams: p2p/stream_helper.go:33-74, step by step | `StreamSlices` |
| cmd/tss/main.go `main` up to line 73, storage/localstate_mgr.go `NewFileStateMgr` | `Main` |
| cmd/tss/main.go from line 74, cmd/tss/tss_http.go `Start`, `Stop` with net/http | `Service` |
| common/tss_helper.go `MsgToHashString`, conversion/conversion.go `BytesToHashString`, p2p/leader_provider.go with Go's crypto/sha256 | `Sha256`, `Digests` |
| conversion/conversion.go `GetTssPubKey` with tendermint's `Address`, x/crypto/ripemd160 and binance-sdk's `AccAddress` | `Ripemd160`, `Address`, `Bech32` |
| the locks of all packages | `Locks` |
| cmd/tss-benchgen, cmd/tss-benchsign | `Bench` |

## Not modelled

* libp2p transport, DHT discovery, addresses with ip6 and other rare protocols, the texts in JSON of floating-point numbers and maps (nothing on the wire has them),
  tss-lib's own messages,
  zerolog logging, prometheus (only counters and gauges), the internals of tss-lib (only as the party's `update` interface), key stores' scrypt
  parameters, test code; of the benchmark tools the display of progress, the layout of the table and the number of threads.

## Plan per property

| id | model | proof |
|----|-------|-------|
| C01 | `Model/Threshold`: `GetThreshold` with an IEEE double rounding parameter `fl` (round to nearest of exact rationals) | arithmetic: the correctly rounded quotient lies in the same unit interval; quorum corollaries by cardinality |
| C02 | `Model/Conversion` (bytes to Nat, 32 byte truncation, Rsh) | induction on byte lists; explicit collision for longer messages |
| C03 | `GetParties` with sort and decode parameter | sorted permutations are equal; error characterisation by cases |
| C04 | same, codec parameter with decode-after-encode | big-endian round trip for non-zero leading byte; negation for leading zero |
| C05 | AccPubKeysFromPartyIDs, GetPeersID over arbitrary iteration orders | induction on lists, permutations |
| C06 | semver comparison function (blang/semver v3.5.1 as used) | strict order proofs by structural induction |
| C07 | GetPriKey with slice capacity semantics | false as stated: negation with witnesses; exactness for 32 byte inputs as `_partial` |
| C08 | LeaderNode with hash parameter | min by induction; permutation invariance under injectivity; collision counterexample |
| C09/C10 | requestToMsgId with sort/concat/hash | sort of permutation; C10 negation by concatenation ambiguity; partial under equal-length blocks |
| C11/C12 | reader state machine over arbitrary chunk lists | induction on chunks |
| C13/C14 | StreamMgr as history machine | invariant induction; C14 negation |
| C15/C16 | subscriber map per topic | refinement to abstract map |
| C17/C18 | PeerStatus machine | invariant induction over update histories |
| C19-C24 | join-party machines: leader, member, leaderless, with all message orders | invariants over event lists; C20 (member), C22, C24 have negations |
| C25-C30 | TssCommon: local cache, hash check, processTSSMsg, processVerMsg, updateLocal | invariants over message histories; C30: negation + partial with the exact counting condition |
| C31-C36 | task done, control messages, duplicates, culprits | invariants over histories; C34/C35 negation + partial |
| C37 | ProcessOutCh batching | invariant: sent ++ pending is a partition of outputs |
| C38-C45 | blame policies over maps with arbitrary iteration orders | list/finite set reasoning |
| C46 | sort by hash, concurrent completion, collection | permutation argument |
| C47/C48 | notifier | induction on signature list; history invariants; C47 negation for short lists |
| C49-C53 | keysign/keygen top level as decision functions and two-goroutine machine | case analysis; exploring interleavings as inductive reachability |
| C54-C57 | storage as file map with crash points | refinement; C55 negation |
| C58-C60 | recovery: Lagrange over a field (Mathlib), flag, CTR | algebra; C59 negation |
| C61-C66 | HTTP handlers, metrics, timers, bootstrap, rounds, frequency | case analysis and induction; C63 negation |
| C67 | stream reader called several times | negation (bytes lost in a dropped buffer); partial for one frame |
| C68 | interleaved AddStream and ReleaseStream | history invariant / negation |
| C69 | leaderless join | schedules of the two goroutines |
| C70 | votes and reports of outsiders | negation; partial when only members send |
| C71 | evidence in blames | invariant over all message histories: every node is a member, its evidence is signed by it |

| C72/C73 | which votes decide a hash, what a failed check reports | invariants over vote histories |
| C74/C75 | signature notifier: waits and late messages | history invariants over notifier events |
| C76/C77 | KeySign end to end: crash, who signs | composition of the decision table with the session machine |
| C78-C82 | Keygen end to end: reported keys are stored, errors, cleanup, crash | composition with storage and session |
| C83 | recovery tool: any quorum of shares | Lagrange interpolation over a field |
| C84-C86 | node start-up, bootstrap, stop | case analysis and induction on peers |
| C87/C88/C90/C91 | `Comm`: one node's communication layer under all histories | conservation invariants (permutations of multisets) |
| C89 | `Comm`: a network of honest nodes, foreign nodes and a pool of streams | global counting invariant |
| C92 | `Session` timeouts on `Blame` managers, lifted to `signRun`/`genRun` | exact description of each of the three parts; a session inside a loop is an interleaving of inbound steps and blame updates, with a soundness and a completeness invariant for unicast deliveries |
| C93 | `signRun`, `genRun` | induction over the history |
| C94 | set-up functions of `Keygen`/`KeySign` (`genSetup`, `signSetup`) | equations for the maps built by the set-up, then C92 for a session so set up |
| C95 | effects of `KeySign` (announcements with their recipients, party counter) | invariant of the call, by induction over the history |
| C96 | `SigNotifier.broadcastCommon` and the receiving call of another node | C95 for the sender, C74 and C75 for the receiver's notifier, then the steps of its call |
| C97 | networks of joining nodes (`Model/JoinNet.lean`): honest nodes with their join calls, streams in transit, foreign nodes that send anything | invariants of the network (every stream of an honest node was written by it, every node's history), election (C08), C19 and C21 |
| C98 | the same | the moment at which a call returns (C19, C21), results do not change, so what was read before is in that history |
| C99 | the same, calls without leader | C23 and the invariants of C97 |
| C100 | the same, ghost log of what each node tries to send | invariants of the log, counting what is written and what waits |
| C101 | the same, stream manager | the history of calls of the stream manager, then C13 |
| C102 | `SessNet`: the nodes of a session (inbound half, outbound half, signing) connected by a pool of messages; arbitrary other nodes | invariant: every message in the pool or in the history of an honest node was written by the honest node it comes from, or is foreign; then C25, and shares in bulks come from outputs |
| C103 | the same, all members honest | invariant of the whole network: every message is of one of the kinds sent in a session without faults, every node is in a state without blame; then progress of each vote when all messages have arrived |
| C104 | the same | every message weighs more than all it can cause; the weight of the pool decreases with every delivery |
| C105 | the same | reports are written only by nodes that are done; C31 |
| C106 | the same | refuted by a concrete network; holds without dishonest nodes by the invariant of C103 |
| C107 | the Keygen call and its session loop (`Model/Keygen.lean`) | invariant of the call (C52) gives the session; a loop that has returned stays so, so its result is that of the first decisive event; case analysis over the events |
| C108 | `Model/SessionCall.lean`: the goroutines and channels of GenerateNewKey/SignMessage around the loops of `Session`/`Keygen` | conservation law delivered = processed ++ channel; C37 on the processed outputs; negation by a run in which the loop takes the result first |
| C109 | same | invariant of the call; a loop that has returned stays so; progress along any run that contains the three last events |
| C110 | `Model/Calls.lean`: any number of calls, one subscription action at a time, the keygen lock | invariant: a call between its subscriptions and its clean-up owns its entries; negation for two calls with one id |
| C111 | `Model/JoinTimer.lean`: the join machines of `JoinParty` with times; a case taken by the select starts the timer anew | turns of the loop counted by induction over the history (member none, leader one per notice, leaderless one per other member heard of); negation for the last two |
| C112 | `JoinNet`, `KeySign.signSetup`, `Keygen.genSetup`, `SessNet` together | the party maps depend on the set of keys only (sorted lists of a permutation are equal); members of a party got the same list (C97); C94 for each node |
| C113 | `Comm`: `Stop` waits for the loop and the writers | after the loop has ended no event adds a writer (case analysis), writers + ended writes constant; drain by induction |
| C114 | `Curve`: the points of secp256k1, compression, `ParsePubKey`, `GetTssPubKey`, `CheckKeyOnCurve` | primality of the field modulus by Lucas and Pocklington certificates (powers computed by the kernel), Fermat for the square root, case analysis of the formats; composed with C52 and C107 |
| C115 | `Bech32`, `RealKeys`: checksum, regrouping of bits, letters, amino prefix, peer id bytes | the checksum step is linear over exclusive or; groups of bits are unique; induction on letters; composed with C114 |
| C116 | the same, with `Storage.GetLocalState` and `GetParties` | refuted by the generator's key in capitals; partial for lower-case texts from C115 |
| C117 | `Locks`: every function that takes a lock, as its sequence of lock operations and accesses; `sync.Mutex`, `sync.RWMutex` with waiting writers | order of the locks (rank), a checker run over every call for all branches, invariant over all schedules; the number of operations left decreases |
| C118 | the same | each map has a lock, or belongs to one goroutine; invariant |
| C119 | the same | refuted by five two-goroutine schedules; partial for all state but four pieces |
| C120 | the network of sessions of C102-C106 with arbitrary dishonest nodes | refuted by five runs (message sent back to its owner, relabelled, forwarded, share in another's name, two false reports); partial by an invariant that gives every blamed member a cause, traced through the network |
| C121 | the same network | refuted by a run of thirteen members in which one member equivocates; partial by tracing every vote of an honest node to what it received and counting (C30); for honest owners from the signatures (C102) |
| C122 | the same network, whose members may stop sending and receiving at any point, with the blame of the two timeouts (C92) at the end | refuted by a run of four members in which one is left behind; partial from the progress among the remaining members (C103), which gives who was heard, and the verdict of a timeout (C92) |
| C123 | whole calls (the goroutines, channels and loops of C108, C109) of several nodes connected by the network of C102 (`Model/Ceremony.lean`); the local parties are constrained only by a specification of what they produce and when | refuted by a run of two members that sign two messages; partial by a simulation: an undisturbed run of calls is a run of the session network (C102–C106), up to the moment at which loops return, so that at rest everything produced has been handed over, hence by induction on the rounds every member has the result |
| C124 | Go's flag package (the loop over arguments) and `parseFlags` (`Model/Flags.lean`); values of durations, integers, addresses by parameters | an independent specification of settings as written (`Spec/CommandLine.lean`); the parser against it by induction on the arguments; the last part refuted for every command line |
| C125 | the network of C102 whose nodes begin new attempts when they like (`Model/Attempts.lean`) | refuted by four runs of honest nodes; partial by an invariant over all attempts of every node (where a signed share was produced), and by a simulation of an attempt begun with an empty network |
| C126 | any number of join calls of a node, with the pointers of calls and handlers to groups and the map from message ids to groups (`Model/Coordinator.lean`), and a network of such nodes | refuted by five runs of honest nodes; partial by invariants over histories: each call is a run of the machine of C19–C23, counting of arrived, pending and given messages; origin of verdicts over the network |
| C127 | `Base58`: digits of numbers in two bases, the alphabet, multihash check, `peer.Decode` (CID texts by a parameter) | strong induction on numbers for the digits; the leading letters follow from bounds on the number; specification of base58 and of peer ids written separately (`Spec/PeerId.lean`), with Mathlib's `Nat.ofDigits` |
| C128 | `Service`: main goroutine, server goroutine, connections with their states, net/http's `Shutdown` with its polls, time | invariants over histories of the process; the phase of the main goroutine only grows; refuted by a request of more than ten seconds and by a panicking handler |
| C129 | `SemVerText`: the parser of semver texts (blang/semver v3.5.1), the gate text, the choice of the join protocol from the text of the request | grammar of semantic versions as specification; the parser accepts exactly its texts; the choice of the protocol as a function of the text |
| C130 | `Protobuf`: varints, tags, fields, groups, and the four messages of the join protocol and the notices | a relational specification of the encoding (`Spec/Protobuf.lean`); the reader accepts exactly its messages (induction on the bytes); round trips; the hypotheses on codecs of C96–C101 instantiated |
| C131 | `Base64`: the encoder and decoder of encoding/base64, with its tolerance | specification by numbers (the bits of the bytes and of the letters are the same number up to the added bits, `Spec/Base64.lean`); induction on groups; ids by C09, C10; refuted by two texts of one message |
| C132 | `Json`: the characters of bytes, the parser of encoding/json for whole texts and for the first value of a stream, the texts `json.Marshal` writes | a relational grammar (`Spec/Json.lean`); the parser accepts exactly its texts and the grammar is unambiguous (induction on fuel and on derivations); quoting by induction on the characters |
| C133 | `JsonMsg`: the Go structs of the messages with their JSON tags, written and read | each text derives a value of the grammar which is read back as the message, field by field (`Says`, `Reads`); `Lossless` of C102-C106 and C112 instantiated, so that these hold without an assumption on encodings |
| C134 | `JsonMsg` against the grammar of `Spec.Json` and `Spec.JsonRead` | a struct is read exactly if the members with its names, in the order of the text, can each be read into the value so far (`struct_iff`), instantiated for each kind of message; bytes that are read as every kind; a text of 25 characters that crashes every session |
| C135 | `JsonHttp`: requests, answers and `Indent`, in the handlers of `Http` | requests and answers are read as they were written, end to end through `serve`; indentation does not change the value a text says, by induction on the grammar; exactly which bodies are read |
| C136 | `JsonState`: the local state with tss-lib's save data as JSON, in the storage of `Storage` with the keys of `Bech32` | read back field by field; a strict prefix of the bytes of an object is no JSON text (a cut between characters: the parser is deterministic and would leave a rest; a cut inside a character: the last character is not ASCII); induction on histories with faults |
| C137 | `Secp`: addition, multiplication, signing and verification on numbers | refinement to Mathlib's group of the curve's points; N is prime (Lucas certificates), N•G = 0 (computed), and the group has exactly N points: at most 2p+1 by counting, a multiple of N by Lagrange, no point of order two as -7 is no cube; verification unfolds to the textbook equation |
| C138 | `RecoveryFiles`: `Recovery` with the files of `JsonState`, the keys of `Secp` and the exported key as JSON | C58, C60 and C83 instantiated; private and public keys determine each other (C137); the exported text derived in the grammar of C132 and opened by a wallet of the specification |
| C139 | `KeySign` with the keys and signatures of `Secp`, `Base64`, `Protobuf`, `JsonHttp` | the decision table (C49), the pairing of results (C46), the check of received signatures (C137) and the texts of C135 put together |
| C140 | `Keygen` and `KeySign` with the files of `JsonState`, the texts of `Bech32`, the curve of `Secp` | induction on the later key generations (C81), the stored share (C52, C136), different points have different texts (C114, C115), C139 |
| C141 | `BatchStart`: the map of parties and the goroutines of `startBatchSigning` with their wait group | counting invariant over all interleavings; monikers are different (C94) |
| C142 | `Multiaddr`: texts of addresses as go-multiaddr writes and reads them, `AddrInfoFromP2pAddr`, the own addresses of `NewCommunication` | text of an address divided at slashes by induction; C57, C84, C85 for the records of the book; substrings of decimal texts for the loopback test; refuted for paths and line breaks |
| C143 | `Main`: `main` and `NewTss` with the values passed from one to the other; `NewFileStateMgr` | C124 (flags), C07 and C131 (the key's text), C84, C137 (the key), C127 (the peer id), C142 (addresses) put together; refuted for short, zero and too large keys |
| C144 | `FlagText`: `strconv.ParseInt` with base 0 and `time.ParseDuration` with the arithmetic of binary64 numbers (`Threshold.fl`) | a separate grammar of numbers and of amounts of time (`Spec/FlagText.lean`); readers against it in both directions; rounding errors by the relative error of `fl` |
| C145 | `Sha256` (crypto/sha256 word by word), `Digests` (its three uses) | refinement to FIPS 180-4 with words of 32 bits (`Spec/Sha256.lean`): schedule and rounds by induction, constants by kernel arithmetic on roots of primes; collisions: the last blocks differ in the length, else downward induction over the blocks |
| C146 | `Ripemd160` (x/crypto/ripemd160 word by word), `Address`, `Keygen` with the files, texts and curve of C140 | refinement to the paper's definition (`Spec/Ripemd160.lean`) by induction on steps and blocks; bech32 refined to polynomials over GF(32) (`Spec/Bech32.lean`); C140's account of what Keygen returns |
| C147 | `Bech32`, `Conversion` | the checksum of a difference is linear; a difference in six consecutive places is injective in its remainder (degree); one in four places is excluded by dividing by a monomial and a constant and computing with all remainders of monomials in the kernel (`Lemmas/Bech32Four.lean`) |
| C148 | `Bench` (with `JsonState`, `Secp`) | invariant over the events: the files on the disk are those of the shares seen so far; reading back what was written (C136); sorting increasing ids changes nothing; the last signature is checked, and the check is ECDSA (C137); the table by position |
| C149 | `TssCommon`, `JsonMsg` | invariant by elementary changes: each kept name was named by a message, and a message names one; by induction each made-up name adds one entry |
| C150 | `ToolFlags`: Go's flag package for number and text flags, the flags of the three tools | an independent specification of command lines (`Spec/ToolLine.lean`); the parser against it by induction on the words; C138 for what the recovery tool then writes; the last part refuted for every line |
| C151 | `AcceptSlices`: Go slices over shared arrays, `append` in place or into a new array, the copying, adding and reading of the blame as separate steps | invariants over all histories (each array belongs to one round; copied slices keep their elements) and agreement with the lists of `Blame`; the full property refuted for every list with room behind it |
| C152 | `StreamSlices`: the same for the retained streams, any number of releases at the same time | invariant over all histories: every array belongs to one session and holds only its streams and unknown ones; simulation by the lists of `StreamMgr` for calls that do not overlap; for a release that overlaps only calls for other sessions, an invariant that nobody else writes the arrays it reads; two refutations |

No property in the list was found inexpressible; real time (C63) is modelled with abstract time stamps.

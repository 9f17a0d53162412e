# Formal model of multiparty/DP-PIR in Lean 4

## 1. What this is

`/verif/lean` contains a model of the C++ sources under `/repo/DPPIR`, written
function by function, and machine-checked proofs of the properties in
`properties.jsonl`.  `MANIFEST.json` maps each property to the exact theorem
names; all are in the namespace `DPPIR.Props`.

Layout (all below `lean/Verif`):

| directory | contents |
|---|---|
| `Model/` | the model; every definition cites the file and lines it models, and says where it simplifies |
| `Spec/`  | small vocabulary used in theorem statements, independent of the proofs |
| `Proofs/`| helper lemmas |
| `Props/` | the property theorems (`Cnn_...`) and, next to each, an `example` showing that a concrete, non-trivial case meets the hypotheses |

`seeded/LOG.jsonl` records the wrong programs the theorems were tested against. In it
`first_failing_lemmas` are the lemmas and theorems whose proofs Lean rejected after the edit;
`theorems_failed` are those property theorems that are among them or use one of them, and so
are left without a proof. This is not a proof that each of these theorems is false of the
edited program: a lemma may fail because it describes a function more exactly than the claim
needs. The claim that the edit does break is in `claim_broken`; where no theorem for it failed,
or where the edit breaks no claim or does not type-check, there is a `note`. If the first
failures hid the rest, the rejected lemmas were replaced by `sorry` in the scratch copy and the
build repeated.
`tools/` regenerates `properties.jsonl`, `MANIFEST.json`, `lean/Verif.lean` and
Section 8.

## 2. Trusted base

* Lean 4.33.0's kernel.  No `sorry`, no `admit`, no own `axiom`, no
  `native_decide`, no `bv_decide`, no `implemented_by`, no `unsafe`.
* Axioms: Lean's three standard ones at most.  Section 8 lists them per theorem.
* The reading of the C++ code recorded in the model's comments.  The model was
  made by hand; nothing connects it mechanically to the C++ text.
* Assumptions about the environment.  They are hypotheses or parameters of the
  model, never axioms:
  - libsodium's sealed box is an abstract structure `SealedBox` with these laws:
    sealing succeeds, adds 48 bytes, and opening with the matching key pair
    returns the message; whatever opens gives 48 bytes less.  `toyBox` shows that
    the laws can be met.
  - `rand()` after `srand(seed)` is an arbitrary stream determined by the seed.
    Where it matters (C11) its values lie in `[0, 2^31-1]` (glibc's `RAND_MAX`).
    Nobody else calls `rand()` between `srand` and the last use of the stream.
    Before the first `srand` of a process it is the stream of seed 1 (ISO C 7.22.2.2);
    `Generator` (C72, C73) has it so.  The other models let the noise come from arbitrary
    results of `rand()`, C63 from random ones: that is what the code would do if it seeded
    its generator, and all else they say holds for the results it really gets.
  - libsodium's `randombytes_*` return arbitrary values; every theorem holds for
    all of them.  Statements about distributions (C03, C04, C06, C19, C20, C58, C59) count
    uniformly distributed draws or use a measure.
  - TCP delivers bytes in order, without loss or duplication.  One `read` or
    `send` may transfer any part of the data.  A connection holds a bounded
    number of bytes (`cap`, universally quantified); a `send` blocks while there
    is no room.
  - `assert` is active: the documented `--config=opt` only adds `-O3`, no build
    file defines `NDEBUG` (Bazel's own `-c opt` would).
  - Little-endian 64-bit machine; `int` is 32 bits, `size_t` 64.
  - `inet_pton` parses IPv4 addresses as glibc does and leaves its result argument
    alone when it returns 0 (C66).  `std::stoi` and `std::cin >>` read integers as
    libstdc++ does in the "C" locale (C67).
  - An `unordered_map` is traversed in an arbitrary order, which may differ from
    server to server.

## 3. Modelling conventions

* `Res α := Except Fault α` with `Fault = ub | assertFail | exception | hang`.
  Undefined behaviour, failed assertions, thrown exceptions and endless loops
  are distinct outcomes.
* Arrays are lists with checked reads and writes (`rd`, `wr`); an access out of
  range is `Fault.ub`.
* Functions that compute in `uint8_t`, `uint32_t` or `uint64_t` wrap explicitly
  (`wrap8`, `wrap32`, `wrap64`).  Absence of overflow is a theorem (C02, C49).
* Randomness is an argument, so "for all random draws" is a universal quantifier.
* Processes (`Model/Process`): a program computes, sends a byte, waits for a byte
  or marks the call of an API function (`obs`; it has no effect of its own, it
  only lets statements speak about calls).  `Model/Polling` adds `poll` on a set
  of connections (its answer is any set of connections that have data; the
  blocking form has a non-empty answer) and one `read` returning any non-empty
  part of what is there.
* Networks: one FIFO queue per ordered pair of processes.  `Step cap i n m` is
  one step of process `i`; `Reach cap n m` is any finite run.  A statement about
  all `cap` and all reachable states covers every interleaving, every chunking of
  messages, every outcome of `poll` and every size of the socket buffers.
* A process that faults stays where it is; its peers see no more bytes from it.

## 4. Per-property plan and result

| id | model | how it is proved |
|---|---|---|
| C01 | `Incremental`: extended Euclid, inverse, tally, reconstruction | Bezout invariant by recursion; induction over shares; primality of 2^31-1 by Lucas-Lehmer; negation for queries >= p |
| C02 | the same, with unbounded intermediates | bounds on coefficients by recursion; products bounded |
| C03, C04 | the same | last share -> tally is a composition of bijections of Z/p; counting |
| C05, C06 | `Additive`: word-wise XOR of the 52 bytes | loop = bytewise XOR; completing share is unique; n = 0 never returns |
| C07, C08 | `Onion`: two halves of a buffer, seal from one into the other | induction over parties; sizes |
| C09 | install loops of party and backend, with one server and with several | induction over the batch: one bad cipher stops the process before it is stored; all other stages make no such calls (`Still`, `PStill`) |
| C10, C11 | `Shuffle`: Fisher-Yates, `random_bounded` | swaps preserve permutations; inverse table; invariant "arr[p]=p or arr[p]>=i" for the negation of C11 |
| C12-C15 | `ParallelShuffle` | invariants relating counters to the permutation; the plan of all servers described by one matrix |
| C16 | `Noise.findRange` for every rounding of the quotient that is monotone and fixes integers | arithmetic; exact condition; 5 rows / 4 servers violate it.  *Partial because the property as stated is false* |
| C17, C18 | `Noise` over reals with infinities and NaN, any rounding | case analysis; the check compares a value with itself |
| C19, C20 | sampler over exact reals with uniform draws; sampler in double arithmetic (`IsDouble`) with draws from `rand()` | law of the sampler is Laplace; pointwise ratio outside two atoms; the rounded law is close to the exact one on every event.  *C20 partial: false with the configured delta; proved with larger ones* |
| C21 | `ServersMap` | index shift is injective |
| C22-C25 | `LogicalBuffer`, `Sockets`, arbitrary schedules of `read`/`send` | invariant "leftover ++ unread is a suffix of the stream"; crash = stream ends anywhere |
| C26 | `Sockets.poll` | induction over the array |
| C27 | `CipherBatch`: byte array with two cursors | invariant on three regions |
| C28, C29 | `State` | finite-map lemmas; list induction |
| C30, C36-C40, C45, C47, C48 | `Client`, `Party`, `Backend`, `Chain` (one server per party) | each program is a run of a known list of actions (`Runs`); the lists are projections of one global script, so every run follows it and can finish (Kahn network argument, `script_net`) |
| C31, C44, C51-C53 | `ParallelParty`, `Exchange`, `Grid` (S servers per party) | as before with exchanges as segments of the script whose inner order is free (`PProc.Does`); tags by interval arithmetic.  Negative part: `MayDo` (follows the script or stops) and simulation by a program that does not stop |
| C47 with several servers | `Grid`, also with the receive loops (`Loops`) | what is left of a script only gets shorter (`Later`); whoever still has to send more than its peer has left to read has not passed that point (`Inv.past`), from the client down the levels and across the siblings |
| C64 | `Ndebug`: the two onion functions with the assertions left out | induction over the layers, with the two buffers that swap roles.  Negative: the property holds in builds with assertions only (C07, C09) |
| C65 | `Connect`, with arbitrary programs for all other processes | every outcome of a program, whatever it is fed (`CProc.All`), by recursion on the program; kept by all steps of all processes.  Negative: explicit runs |
| C66 | `Address`: `inet_pton` as a loop over characters, and the uninitialised variable it writes to | invariant: the text read so far is the dotted text of the octets read so far.  Negative: a failed call returns 0, which the assertion accepts |
| C67 | `GenText`: `std::stoi`, `std::cin >>` and `getline` after libstdc++, `main` of the generator | decimal digits and their value by induction; the scanner takes exactly a number that a blank follows.  Negative: concrete runs, and any text that does not start with a number |
| C68 | `Chain`, with `Net.conversation` as what an observer of sizes and directions sees; `Grid`, with `PNet.Hears` as what a server has read from each other one | every run follows the script of C36 (C44); the script's directions and lengths computed from the numbers of queries, and for siblings from the plan that all servers make. For `Grid` amounts only: in which order a server reads from its siblings is up to `poll` |
| C69 | `Chain` and `Grid` with both stages, also with the receive loops | tags installed = tags of the tickets of C30 and C43, tags read = tags of the queries, both prefixes of permutations of one list without repetitions; the first query is read after the last secret is installed, also by siblings |
| C70 | two deployments of `Chain` (or `Grid`) that differ in the keys of one client, `preparation` of a record = its calls of the offline stage | the script of the offline stage (C36, C44) does not mention the keys; records are prefixes of scripts |
| C71 | `Start` and `Joint` with the client's draws and keys as parameters of the machines | the started programs are those of `Chain` (`Grid`) with receive loops (C61), which make the same calls as without (C60); so what is seen is what C59 counts; connecting adds and removes nothing (C62) |
| C32, C33 | `Config` byte parser and printer | parser/printer induction; prefix argument |
| C34 | `GenConfig` | arithmetic |
| C35 | `Main` | case split over flags |
| C41-C43 | exchanges in a group of siblings | one round script per exchange; the loop of `SendAndPoll` by induction over what remains |
| C46 | the same, bounded connections | progress when a connection holds what its sender sends; explicit run into a state where both are blocked otherwise |
| C49 | counts in `uint32_t` | exact below 2^32; wraps above; Hoare logic among arbitrary peers: a party that returns had a place in its shuffler for every noise query, so it has counted right.  *Partial: false of the code above 2^32* |
| C50 | `Database`, `Types` | list lookup, bytewise equality |
| C54 | `Connect`: listen, accept (any pending connection), connect (waits until somebody listens and the backlog has room), the id byte | invariant: the stage of every process determines listeners, pending connections and bytes on the way; rank for finiteness; who must bind an address twice never returns |
| C55 | `Crash`: a process stops at any step, any suffix of what it has in transit is lost | simulation: a network with crashes is a network without them in which the crashed processes stay where they stopped and their lost bytes still lie in the connection |
| C56, C57 | `Chain` and `Grid` processes among arbitrary other processes | Hoare logic for a process fed with arbitrary bytes (`Proc.Safe`, and `PProc.Safe` for processes that poll).  *Partial: C56 is false for parties and backends; the possible causes of undefined behaviour are enumerated; for parallel parties and backends in terms of the bytes heard from the siblings (`PNet.Hears`, `PProc.Heeds`, `Misled`)* |
| C59 | `Chain` and `Grid` with the clients' draws random | a one-to-one change of the draws for the backend's secrets that makes up for a change of the keys and leaves every record before the backend as it is |
| C60 | networks with read buffers (`RNet`) | every state, with the buffered bytes put back, is a state of a network with larger connections; a step of the latter gives a step of the former |
| C60, C56, C57 | `Loops`: all processes with the receive loops of the code | simulation (`Sim`, `Rel`): a loop that has read some bytes and handles them is a process of `RNet` with these bytes in its buffer; the handlers of the messages receive nothing themselves; siblings are heard the same in both (`LoopsHear`) |
| C61 | `Start`: a process from its flags, the bytes of the configuration file and all random choices, including where noise samples come from | `main` and the constructors reduce to the programs of `Loops` for the deployment that the file describes; limits follow from C17, C32 and C34 |
| C62 | `Joint`: set-up and protocol of all processes in one network, over the same sockets | every run is a run of `Connect` next to a run of `Loops`: greetings come first on each connection, a process that has returned from set-up has read them all; nobody turns to a process it is not linked with, because a run with connections between linked processes only would otherwise not end |
| C63 | `Start` and `Joint` in the build with DPPIR_SAMPLE, one party's results of `rand()` random | numbers of look-ups = fixed histogram + samples in every complete run of the started programs (C58, C61, C62), samples are the law of C20_rounded; the bits of the parameters mean what IEEE 754 says (`Dbl.ofBits`, C63_doubles) |
| C72 | `Generator`: `Start` with the state of `rand()` in every process | sampling is the first use of `rand()` in a process, `srand` comes later; so a process is one of `Start` whose noise is drawn from the stream of seed 1 (`runG_eq`), and C39, C52, C61, C62 give the look-ups.  *Partial: false of the code* |
| C73 | `Generator` | the origins of the queries go through the same shuffles as the queries (`Chain.origins`, `Grid.origins`), and depend on seeds and counts only.  *Partial: false of the code* |
| C74 | `Start`, and a computation on the configuration and what the first party reads (`World.reveal`) | the ciphers and queries it reads are those of the client in order (C60, C61), C07 opens all layers, C01 gives the key |
| C75 | as C63 | C63 for one change is transitive (`NoBetterThan.trans`); induction over the set of changed queries |
| C76 | `Chain` with a client of another number of rows (`Chain.netWithClient`) | compared with a deployment whose backend has the additional rows: scripts give all its runs, and the real backend does the same until the first look-up outside (`Proc.Dies`) |
| C77 | `Chain`, `Grid`, `Loops`, `Crash`, `launch` and `launchMany` (with `JNet`) | what has been read and sent at any moment is a cut through the scripts of C36 and C44 (`Where`); a server that is past its barrier has a byte from each sibling, so each is past the reading of its batch; the same from party to party along the queries.  A started deployment is a chain or grid with receive loops (C61), and every moment of a run that connects first is one of a connected run (`connecting_moment`) |
| C78 | `Grid`, `Loops` and `launchMany` (with `JNet`), with crashes for the client's view | the script of a client (C44) mentions only this client's data; C59's change of draws for one client, with the tickets and queries of all others related to themselves (`Sim.refl`) through noise and shuffles |
| C79 | `Chain`, `Grid`, `Loops`, `Crash`, `launch` and `launchMany` (with `JNet`) | every buffered send makes the call before the bytes leave (`Sends.ordered`), every read returns after its bytes have come (`Returns`); at a cut through the scripts (`Where`) the bytes on a connection bound the numbers of messages (`PNet.causal`), and both lists are first parts of the same list |
| C80 | `Grid`, `Loops`, `Crash` and `launchMany` (with `JNet`) | C77: whatever goes on behind the first party shows that each of its servers has read its whole batch; C79: then the client has sent it.  A stopped client sends nothing more (`CrashReach.down`).  *The property is false of the code, its negation is proved* |
| C81 | `launch` and `launchMany` with `--stage=offline` (with `JNet`) | the programs are those of `Chain` and `Grid` with `offline = true`, `online = false` (`launch_offline`, `launchMany_offline`), whose runs all follow the script `obsAll` (`every_run_loops`); the script has only calls of the offline stage; a run that connects first has the calls of one that does not (`connects_and_prepares`) |
| C82 | `launch` and `launchMany` with `--stage=online` (with `JNet`) | with identity shares the tally of every query is its key and stays so at each hop, with zero masks its response is the row (`QTicket.Plain`, `qs_plain`, by induction on the party, over own noise and shuffles); every run follows the script `obsAll` (`every_run_loops`).  *The property is false of the code, its negation is proved* |
| C48 (started deployments) | `launch` and `launchMany` with `--stage=all` (with `JNet`) | the tag on the ticket of a query names its creator and position on every hop; tags at the backend are pairwise distinct (`Grid.DistinctTags`), so the look-up with that tag is for that key; C77 gives that all look-ups precede the first result.  *The property is false of the code, its negation is proved* |
| C69, C70 (started deployments) | `launch` and `launchMany` with `--stage=all` or `--stage=offline` (with `JNet`) | C69: no duplicates and inclusion hold in every state; that nothing is left follows by counting from C77 once a client has a result. C70: every moment is a prefix of the script; the offline part of the script is the same for all keys, and all calls in it prepare, so a process that does anything else is past it |
| C39, C52 (started deployments) | `launch` and `launchMany` (with `JNet`) | Every moment is a prefix of the script, whose lookups are counted in C39 and C52; that all of them have happened once a client has a result follows from C77 and C79 |
| C38, C51 (started deployments) | `launch` and `launchMany` (with `JNet`) | Bounds from the script, of which every moment is a prefix; equality once a client has a result from C77 and C79; the sum over the servers' shares is the sum over the rows |
| C47 (started deployments) | `launch` and `launchMany` with `--stage=all` (with `JNet`) | C47 at two moments of one run: the secrets at the first are a prefix of those at the second and as many |
| C40, C53 (started deployments) | `launch` and `launchMany` (with `JNet`) | The programs that `main` starts are those of C40 and C53, read by the receive loops (C60) |
| C55 (started deployments) | `launch`, `launchMany` with `CrashReach`, connections exist | The programs that `main` starts are those of C55; the keys asked for are stated with the random values of the world |
| C76 (receive loops, started deployments) | `Chain.netLoopsWithClient`; `launch` with a client of another file | Every state comes from one without receive loops (C60), in which the real backend follows the one with more rows; progress from the script of the latter, for any capacities |
| C56, C57 (started clients) | `World.run` with `clientFlags` among arbitrary other processes, connections exist | The program that `main` starts is the client of C56 and C57 |
| C58 | `Chain` and `Grid` with one party's samples random | numbers of look-ups = fixed histogram + samples (C39, C52), then the definition of `DP`.  *Partial: as C20* |

Properties that are false of the code are kept, with theorems that state the
negation (`_violated_`) and under which condition the property holds.

## 5. What is modelled, file by file

| file (below `DPPIR/`) | modelled in | left out |
|---|---|---|
| `sharing/incremental.cc`, `additive.cc` | `Incremental`, `Additive` | - |
| `onion/onion.cc` | `Onion`, `Ndebug` | key generation, libsodium itself |
| `shuffle/util.*`, `local_shuffle.cc`, `parallel_shuffle.cc` | `Shuffle`, `ParallelShuffle`, `Generator` (state of `rand`) | libc's `rand` itself |
| `noise/noise.*` | `Noise` | libm (`log` is a parameter, for C20 and C58 of bounded error) |
| `types/types.*`, `database.*`, `state.*`, `containers.h` | `Types`, `State`, `Containers` | allocation failure, destructors |
| `config/config.*`, `gen_config.cc` | `Config`, `GenConfig`, `GenText` (texts of numbers) | values of floating point texts (`std::stod`), file system |
| `sockets/common.*`, `client_socket.cc`, `server_socket.cc`, `parallel_socket.cc` | `Sockets` (buffers, bytes, poll), `Connect` (connection set-up), `Address` (texts of addresses), `ReadAhead` and `Loops` (buffered reads), `Protocol` and `Exchange` (as seen by the protocol) | socket options, port 0 |
| `protocol/client/*` | `Client`, `Loops` | printing |
| `protocol/party/*` | `Party`, `Loops` | printing |
| `protocol/backend/*` | `Backend`, `Loops`, `ParallelParty` (broadcast) | printing |
| `protocol/parallel_party/*` | `ParallelParty`, `Exchange`, `Loops` | printing, time-keeping, `total_progress` (only logged) |
| `main.cc` | `Main`, `Start`, `Joint`, `Chain`, `Grid` | parsing of the flags |

Simplifications that bridge two models: the protocol models read messages byte by
byte and write through the buffer model of `Protocol`; C22-C24 prove that the
socket code delivers the same messages for every fragmentation, and C60 that reading
ahead into a buffer changes no run; `Loops` has the receive loops as they are, and C60
that they have no other runs.  `ServersMap` in
exchanges is a function of the sibling's number; C21 proves that the class is one.
`Poll` reports the readable siblings; C26 proves that the function does.

## 6. Not modelled

* Printing, timing.  In C55 `poll` does not report the end of a connection; the
  `read` that would follow has no effect (`C55_end_of_stream`).  The protocol
  models start with the connections C54 says the processes have; C62 puts connection set-up
  and protocol together for well-behaved processes.
* Cryptographic secrecy of sealed boxes; computational security.
* Overflow of doubles to infinity and signed zeros.  Rounding is covered: `FindRange`
  for all admissible roundings, the sampler (C17, C20, C58) for every arithmetic that
  meets `SoundRounding` or `IsDouble` (`truncOps`, rounding towards zero to 53 bits, does).
* The quality of `rand()`: `codeLaw` takes its results to be uniform and independent.
  As the code stands they are constants (C72).
* `experiments/` and the build.

## 7. Findings

Places where the code does not do what its users would rely on; each has a theorem
unless marked "(read)", which means seen in the source and not modelled.

1. C11: `rand()` has 31 bits, `random_bounded` scales as if it had 32: no shuffle
   of two or more messages ever leaves a message in place.
2. C16: with 5 rows and 4 servers a server's noise range lies outside the
   database, and its length wraps.
3. C18: the check of the size of the noise domain compares a value with itself;
   tiny `delta` runs into undefined behaviour.
4. C20: the mechanism is not private for the configured delta (nor for anything below
   about (1 + e^(eps/2)) delta / 2, whatever eps), only for (eps, 2 e^(eps/2) delta);
   without `DPPIR_SAMPLE` defined (the default) the noise is a
   constant and the result is not private for any delta < 1.
5. C26: `poll` handing out readable siblings reads past the array when a
   connection reports an error or hang-up only.
6. C31: with several servers, two clients with different numbers of queries, or a
   server whose noise is not a multiple of its number of rows, give two secrets the
   same tag, and the offline stage stops at an assertion.  With random noise (`DPPIR_SAMPLE`) the
   latter is the usual case.
7. C33: configuration files other than the canonical ones are accepted.
8. C34, C54: generated ports collide for large deployments (with more than 1001
   servers on one machine the processes never come up), arguments are truncated.
9. C35: `--queries` wraps.
10. C46: siblings that exchange more than the connections hold block each other
    in `send` for ever.
11. C48: the backend learns the order of a client's queries from the tags; with several servers per party the backend servers together learn it for every client. `Spec/TagOrder.lean` says what telling by tags means at a moment of a started deployment.
12. C49: batch counters wrap at 2^32; the party then runs past the end of its
    shuffler.
13. C05: reconstructing a response from no shares does not return.
14. C64: with `NDEBUG`, `assert(crypto_box_seal(...) == 0)` removes the encryption
    itself: every second secret is sent in the clear, the others are lost, and
    ciphers that do not open are accepted.
15. C44: `ServersMap(server_count, server_count + 1)` wraps for 255 servers, and all
    parties and backends stop; `Grid.Valid` therefore asks for at most 254.
16. (read) `ParallelParty::SampleTag` divides by the number of its rows; it is never
    called when that is 0, as there is no noise then.
17. C66: `assert(inet_pton(...) >= 0)` accepts the return value 0 of an invalid
    address; `ConnectTo` then connects to an uninitialised address.  (With `NDEBUG` the
    call disappears, so that happens for every address.)
18. C65: `ListenOn` accepts connections from anyone, so the first to connect takes the
    place of the client or previous party; `ParallelSocket::Initialize` does not notice
    that two connections declare the same id, and then leaves another sibling's socket
    unset.
19. C56: `LoadSecret` does not check that `find` found the tag, and `Lookup` does not
    check the key: one query with an unknown tag, or (at the backend) with a wrong
    tally, is undefined behaviour.
20. C58: in the default build the numbers of look-ups at the backend reveal every query
    to an observer who knows the others.
21. C20: `rand()` has 31 bits, so the released counts lose privacy of the order of
    `cutoff * 2^-31` in delta; for delta well below that it is the larger term of the bound.
22. C56: a server of a parallel party does not check the number of noise messages that
    a sibling announces against the number of messages it gets from it
    (parallel_party_initialization.cc:157-167); `CollectResponses` then writes outside
    of its array (parallel_party_online.cc:44-58).
23. C67: `gen_config` ignores what follows a number on the command line (`std::stoi`,
    gen_config.cc:65), wraps negative numbers of rows and large counts, and uses
    uninitialised variables after a failed `std::cin >>` (gen_config.cc:16-34).
24. C72: `srand` is called by the shufflers only, after the noise was sampled
    (party_offline.cc:114, 183; noise.cc:30), so that with `DPPIR_SAMPLE` all processes sample
    the same noise in every run, and it hides nothing.
25. C73: the shuffles are determined by the configuration file, which all processes read
    (and `gen_config` always writes the same seeds, gen_config.cc:38, 44): the backend can
    undo them all.
26. C74: that file has the secret keys of all parties, too (config.cc:72-73): the first
    party can open every layer and compute all rows that are asked for, unless the keys of
    the others are removed from the file by hand.
27. C76: no process checks a key against the size of the database (database.cc:18,
    backend_handlers.cc:28): a client with another configuration makes the backend read
    outside of its array, and the result is masked and sent back.

## 8. Axioms per theorem

As printed by `#print axioms` (`tools/axioms.py`):

<!-- axioms begin -->
* none (3 theorems): C28_party_simulated, C28_backend_simulated, C64_decrypt_agrees
* `propext` (2 theorems): C21_zero, C67_too_few
* `Quot.sound`, `propext` (31 theorems): C05_no_shares_does_not_return, C08_peel_size, C21_map_semantics, C21_fill, C21_misuse, C22_schedules_cover, C25_crash_exact, C26_poll_overrun, C28_party_store_load, C28_party_absent, C28_backend_store_load, C28_backend_absent, C32_serialize_iff, C32_embedded_nul, C33_accepted_is_consistent, C34_ports_collide, C34_ports, C34_args_truncate, C35_queries_wrap, C50_database_rows, C50_rows_distinct, C55_nothing_new_any, C60_no_new_behaviour, C64_violated_secrets_in_the_clear, C64_violated_secrets_lost, C64_violated_bad_cipher_accepted, C65_violated_first_come, C67_violated_exponent, C67_violated_negative, C67_violated_count, C67_violated_typed
* `Classical.choice`, `Quot.sound`, `propext` (331 theorems): C01_query_sharing_roundtrip, C01_query_sharing_roundtrip_any_shares, C01_query_sharing_mod_p, C01_fails_at_or_above_prime, C02_euclid_no_overflow, C02_mod_inverse, C02_tally_no_overflow, C02_reconstruct_no_overflow, C03_query_hiding, C03_query_hiding_count, C03_query_hiding_draws, C04_tampering_changes_key, C04_displacement_uniform, C04_displacement_draws, C05_masking_roundtrip, C05_reconstruct_bytes, C06_shares_jointly_uniform, C06_masked_response_uniform, C07_onion_is_layered, C07_onion_peel, C07_onion_roundtrip, C08_onion_sizes, C09_party, C09_backend, C09_party_stops, C09_backend_stops, C09_party_parallel, C09_backend_parallel, C10_local_shuffle_bijective, C10_local_shuffle_injective, C10_local_shuffle_repeatable, C11_shuffle_never_fixes_a_message, C11_not_every_arrangement_possible, C11_every_arrangement_possible_with_32bit_rand, C12_plan_exists, C12_siblings_agree, C13_deshuffle_inverts, C13_deshuffle_is_a_permutation, C14_find_source, C14_blocks_contiguous, C15_balanced, C15_conserved, C16_partition_iff, C16_partition_partial, C16_violated, C16_too_small, C17_domain, C17_no_noise, C18_check_never_fires, C18_oversized_is_ub, C18_tiny_delta_is_ub, C19_sampler_is_laplace, C19_cutoff_quantile, C19_invCDF_mirrored, C20_differential_privacy_partial, C20_lower_bound, C20_exact_delta_violated, C20_default_build_violated, C20_rounded_partial, C22_cipher_reads, C22_typed_reads, C22_exact_reads, C23_cipher_writes, C23_typed_writes, C24_sibling_link, C24_chain_link, C25_crash_ciphers, C25_crash_typed, C26_poll, C27_batch, C28_party_collision_stops, C28_backend_collision_stops, C29_client_fifo, C29_noise_fifo, C30_tags_distinct, C31_violated_equal_tags, C31_serves_iff_distinct, C31_violated_unequal_clients, C31_violated_first_client_larger, C31_violated_uneven_noise, C31_tags_distinct, C32_round_trip, C33_truncated, C33_trailing, C33_missing_file, C33_noncanonical_accepted, C34_from_args, C34_interactive, C35_bad_flags, C35_dispatch, C36_end_to_end, C37_online_only, C38_counts_conserved, C38_never_more, C38_one_server, C39_exact_noise, C39_one_server, C40_lookups_in_range, C40_one_server, C41_queries_shuffled, C41_ciphers_shuffled, C41_result_unique, C42_any_answers, C42_progress, C42_runs_finite, C42_own_answers, C43_stores_united, C43_backend_stores_united, C43_progress, C43_backend_progress, C43_equal_tags_stop, C43_backend_equal_tags_stop, C43_runs_finite, C44_end_to_end, C44_distinct_tags, C44_online_only, C44_violated_255_servers, C45_no_deadlock, C46_queries_progress, C46_ciphers_progress, C46_runs_finite, C46_queries_can_block, C46_secrets_can_block, C46_no_capacity_suffices, C47_installed_before_online, C47_installed_before_online_parallel, C47_installed_before_online_loops, C47_installed_before_online_loops_parallel, C47_one_server, C47_many_servers, C48_violated_backend_learns_order, C48_violated_tag_is_position, C48_violated_backend_learns_order_parallel, C48_violated_tag_is_position_parallel, C48_violated_one_server, C48_violated_many_servers, C49_exact_below_partial, C49_violated_announced_wraps, C49_violated_runs_past_the_end, C49_violated_witness, C49_returns_fits_parallel_partial, C49_violated_parallel, C49_returns_exact_partial, C49_violated_never_returns, C49_violated_offline_witness, C50_response_equality, C51_counts_conserved, C51_loads_add_up, C51_many_servers, C52_exact_noise, C52_shares_partition, C52_many_servers, C53_lookups_in_range, C53_many_servers, C54_connects, C54_peers, C54_exactly, C54_generated, C54_violated_generated, C55_nothing_new, C55_nothing_new_parallel, C55_results, C55_results_parallel, C55_end_of_stream, C55_results_loops, C55_results_loops_parallel, C55_one_server, C55_many_servers, C56_party_partial, C56_backend_partial, C56_client, C56_violated_party, C56_violated_backend, C56_client_parallel, C56_backend_parallel_partial, C56_party_parallel_partial, C56_violated_party_parallel, C56_violated_backend_parallel, C56_party_loops_partial, C56_backend_loops_partial, C56_client_loops, C56_client_loops_parallel, C56_backend_loops_parallel_partial, C56_party_loops_parallel_partial, C56_client_one_server, C56_client_many_servers, C57_client_never_wrong, C57_client_never_wrong_parallel, C57_client_never_wrong_loops, C57_client_never_wrong_loops_parallel, C57_one_server, C57_many_servers, C58_noise_of_the_code_rounded_partial, C58_lookups_private, C58_lookups_private_parallel, C58_noise_of_the_code_partial, C58_violated_fixed_samples, C59_finitely_many_draws, C59_parties_learn_nothing, C59_one_view, C59_parties_learn_nothing_parallel, C59_one_view_parallel, C59_needs_offline_stage, C60_receive_loops, C60_receive_loops_parallel, C60_loops_same_calls, C60_loops_same_calls_parallel, C60_loops_refine, C60_loops_refine_parallel, C60_reading_ahead, C60_reading_ahead_parallel, C60_same_calls, C60_same_calls_parallel, C61_one_server, C61_many_servers, C61_samples, C61_generated, C61_generated_many, C61_command_line, C61_command_line_many, C62_connecting, C62_one_server, C62_many_servers, C62_generated, C62_generated_many, C63_doubles, C63_one_server, C63_many_servers, C63_connecting, C63_one_server_connecting, C63_many_servers_connecting, C63_violated_default_build, C65_among_strangers_partial, C65_violated_client_unserved, C65_violated_sibling_missing, C66_address_partial, C66_violated_not_refused, C66_refines, C66_connects, C66_generated_local, C66_generated, C67_number_read, C67_written, C67_args_partial, C67_not_a_number, C67_rest_ignored, C67_typed_partial, C67_typed_undefined, C68_traffic, C68_same_conversation, C68_keys_do_not_show, C68_traffic_parallel, C68_same_traffic_parallel, C68_keys_do_not_show_parallel, C69_one_query_per_secret, C69_one_query_per_secret_loops, C69_one_query_per_secret_parallel, C69_one_query_per_secret_loops_parallel, C69_one_server, C69_many_servers, C70_preparation, C70_preparation_loops, C70_preparation_parallel, C70_preparation_loops_parallel, C70_one_server, C70_many_servers, C71_one_server, C71_one_server_connecting, C71_one_view, C71_many_servers, C71_many_servers_connecting, C71_one_view_many, C72_one_process_partial, C72_one_server_partial, C72_many_servers_partial, C72_violated_one_server, C72_violated_many_servers, C72_violated_reveals, C72_violated_one_server_connecting, C73_violated_one_server, C73_violated_many_servers, C73_violated_place, C73_violated_place_many_servers, C73_counts_partial, C74_violated_one_server, C74_violated_many_servers, C75_one_server, C75_many_servers, C75_one_server_connecting, C75_many_servers_connecting, C76_violated, C76_violated_loops, C76_violated_one_server, C77_queries_wait, C77_responses_wait, C77_queries_wait_parallel, C77_responses_wait_parallel, C77_wait_loops, C77_wait_loops_parallel, C77_wait_crash, C77_wait_crash_parallel, C77_one_server, C77_many_servers, C78_client_view, C78_client_view_loops, C78_client_view_crash, C78_others_learn_nothing, C78_one_view, C78_started_client_view, C78_started, C78_started_connecting, C78_started_one_view, C79_in_order, C79_in_order_parallel, C79_in_order_loops, C79_in_order_loops_parallel, C79_in_order_crash, C79_in_order_crash_parallel, C79_one_server, C79_many_servers, C80_one_client_holds_all, C80_one_client_holds_all_loops, C80_one_client_holds_all_crash, C80_one_crash_stops_all, C80_many_servers, C81_one_server, C81_many_servers, C81_one_server_connecting, C81_many_servers_connecting, C82_violated_one_server, C82_violated_many_servers
<!-- axioms end -->

{"id": "C01", "title": "Query sharing round trip", "statement": "Feeding the tally returned by GenerateIncrementalTally(query, shares) through IncrementalReconstruct once per share, in order, returns exactly the query, for every query below the sharing prime 2^31-1 and all shares PreIncrementalSecretShares can return; for queries at or above the prime the result is the query reduced modulo the prime (so the round trip fails there).", "quantifier": "every 32-bit query, every number of shares, every random draw of every share", "why_tests_cant": "The unit test samples 100k random (query, shares) pairs out of 2^31 * (2^62)^n; a wrong inverse for a single y or a boundary slip at t == x would survive.", "anchors": ["DPPIR/sharing/incremental.cc:PreIncrementalSecretShares", "DPPIR/sharing/incremental.cc:GenerateIncrementalTally", "DPPIR/sharing/incremental.cc:IncrementalReconstruct", "DPPIR/sharing/incremental.cc:ModInverse"]}
{"id": "C02", "title": "Sharing arithmetic never overflows", "statement": "Every intermediate value of the sharing code stays inside its C++ type: the extended-Euclid coefficients stay inside int64_t (bounded by the modulus), and every uint64_t product/sum in tally generation and reconstruction is below 2^64, so machine arithmetic equals integer arithmetic.", "quantifier": "every 32-bit query/tally, every share with x below the prime (every 32-bit share for reconstruction), every non-zero modulus", "why_tests_cant": "Overflow would show only on extreme coefficient sequences; signed overflow is undefined behaviour that a passing test cannot exclude.", "anchors": ["DPPIR/sharing/incremental.cc:GcdExtended", "DPPIR/sharing/incremental.cc:ModInverse", "DPPIR/sharing/incremental.cc:GenerateIncrementalTally", "DPPIR/sharing/incremental.cc:IncrementalReconstruct"]}
{"id": "C03", "title": "Query hiding", "statement": "The tally a client sends, together with the shares of any coalition that misses at least one party, is distributed identically for any two queries: for every query, and every fixed choice of the other parties' shares and of the missing party's multiplier, the missing party's additive share -> tally is a bijection of [0, p).", "quantifier": "all pairs of queries below the prime, every party count, every missing party, every value of the remaining shares, every tally", "why_tests_cant": "Equality of two distributions over 2^62 share values per party cannot be sampled.", "anchors": ["DPPIR/sharing/incremental.cc:PreIncrementalSecretShares", "DPPIR/sharing/incremental.cc:GenerateIncrementalTally"]}
{"id": "C04", "title": "Query non-malleability", "statement": "Whoever changes a tally in flight to any different value (both below the prime) changes the reconstructed key, and for a party whose multiplier share is unknown every non-zero displacement of the reconstructed key is produced by exactly one multiplier, so the attacker cannot steer the key.", "quantifier": "all tallies, all tampered tallies, all shares, any number of remaining parties", "why_tests_cant": "Universally quantified over tamperings and shares.", "anchors": ["DPPIR/sharing/incremental.cc:IncrementalReconstruct", "DPPIR/sharing/incremental.h"]}
{"id": "C05", "title": "Response masking round trip", "statement": "XOR-ing a response with all n shares of GenerateAdditiveSecretShares(n), n >= 1, in any order, gives back the response on all 52 bytes (value and signature); n = 0 underflows the loop bound and never returns normally.", "quantifier": "every response, every n, every random draw, every order of application", "why_tests_cant": "Test samples 100 random responses in one order with 2..6 parties.", "anchors": ["DPPIR/sharing/additive.cc:GenerateAdditiveSecretShares", "DPPIR/sharing/additive.cc:AdditiveReconstruct", "DPPIR/sharing/additive.cc:XOR"]}
{"id": "C06", "title": "Response hiding", "statement": "Any n-1 of the n response shares are jointly uniform (each assignment of the other shares has exactly one completion), and the masked response seen on any hop before the client takes every 52-byte value exactly once as one unknown share varies, whatever the response is.", "quantifier": "every response, every n >= 2, every missing share position, every value of the other shares", "why_tests_cant": "Equality of distributions over 2^416 values.", "anchors": ["DPPIR/sharing/additive.cc:GenerateAdditiveSecretShares", "DPPIR/sharing/additive.cc:AdditiveReconstruct"]}
{"id": "C07", "title": "Onion round trip, layer by layer", "statement": "For an onion made by OnionEncrypt for parties first..count-1, peeling one layer with OnionDecrypt as party first yields exactly that party's OfflineSecret and a NextLayer that is exactly the onion for parties first+1..count-1, so every party in chain order gets its own secret and nothing else is altered.", "quantifier": "every list of secrets, every first party, every party count, every key pair that opens its own seals, every sealing randomness", "why_tests_cant": "The repo's own onion test has its equality check commented out and uses 5 parties only.", "anchors": ["DPPIR/onion/onion.cc:OnionEncrypt", "DPPIR/onion/onion.cc:OnionDecrypt", "DPPIR/onion/onion.h:OnionLayer"]}
{"id": "C08", "title": "Onion sizes and memory safety", "statement": "OnionEncrypt returns exactly CipherSize(count-first) bytes, all memcpy/seal ranges stay within the allocated buffers, the final sanity offset is 0, and each peel shortens the cipher by exactly CipherSize(1).", "quantifier": "every party count 1..255, every first party, all secrets", "why_tests_cant": "Buffer arithmetic with alternating buffers: memory errors need not show in a test.", "anchors": ["DPPIR/onion/onion.cc:CipherSize", "DPPIR/onion/onion.cc:OnionEncrypt", "DPPIR/onion/onion.cc:OnionDecrypt"]}
{"id": "C09", "title": "Bad ciphers are never installed", "statement": "If an incoming onion cipher does not open under the party's key, the party or backend stops (assert) and installs no secret for it; a secret enters the offline state only from a cipher that opened.", "quantifier": "every cipher byte string, every state before it arrives, with one server per party and with several, whatever all other processes do", "why_tests_cant": "Quantifies over all forged or corrupted ciphers.", "anchors": ["DPPIR/onion/onion.cc:OnionDecrypt", "DPPIR/protocol/backend/backend_handlers.cc:HandleOnionCipher", "DPPIR/protocol/party/party_offline.cc:InstallSecrets", "DPPIR/protocol/parallel_party/parallel_party_offline.cc:InstallSecrets"]}
{"id": "C10", "title": "Local shuffle is a permutation with exact inverse", "statement": "After LocalShuffler::Initialize(n), Shuffle maps [0,n) one-to-one onto [0,n), Deshuffle is its two-sided inverse, and neither call nor the initialisation touches memory out of bounds, whatever the random generator returns.", "quantifier": "every n, every seed, every output stream of rand()", "why_tests_cant": "The test runs one size with fixed seeds.", "anchors": ["DPPIR/shuffle/local_shuffle.cc:LocalShuffler::Initialize", "DPPIR/shuffle/local_shuffle.cc:LocalShuffler::Shuffle", "DPPIR/shuffle/local_shuffle.cc:LocalShuffler::Deshuffle", "DPPIR/shuffle/util.h:shuffle"]}
{"id": "C11", "title": "Every arrangement of the batch is possible", "statement": "For every n and every permutation of [0,n) some random-generator output makes the shuffler produce it (a precondition for a uniform shuffle). The code violates this: rand() yields 31-bit values but random_bounded scales as if they were 32-bit, so no shuffle with n >= 2 ever leaves any element in place.", "quantifier": "all batch sizes, all permutations, all rand() streams", "why_tests_cant": "Needs a statement about all random streams; a sample never shows that something is impossible.", "anchors": ["DPPIR/shuffle/util.cc:random_bounded", "DPPIR/shuffle/util.h:shuffle"]}
{"id": "C12", "title": "Sibling servers agree on the shuffle plan", "statement": "For parallel servers of one party initialised with the same seed and the same counts, the number of messages server A plans to send to server B equals the number B expects from A, for all A and B, and it is exactly the number of A's messages that A's ShuffleOne directs to B (likewise for the noise messages at the front of A's batch).", "quantifier": "every server count, every vector of per-server counts, every seed/rand stream, every pair of servers, every noise split", "why_tests_cant": "The test fixes 8 servers and one seed.", "anchors": ["DPPIR/shuffle/parallel_shuffle.cc:ParallelShuffler::Initialize", "DPPIR/shuffle/parallel_shuffle.cc:ParallelShuffler::CountToServer", "DPPIR/shuffle/parallel_shuffle.cc:ParallelShuffler::CountFromServer"]}
{"id": "C13", "title": "Cross-server deshuffle inverts shuffle", "statement": "The k-th DeshuffleOne(t) of a server returns the index of the k-th of its own messages for which ShuffleOne returned t; hence every message sent out is matched with its own reply, and exactly CountToServer(t) such calls are in bounds.", "quantifier": "all counts, seeds, servers, and all interleavings of DeshuffleOne calls over targets", "why_tests_cant": "Requires all call interleavings and all seeds.", "anchors": ["DPPIR/shuffle/parallel_shuffle.cc:ParallelShuffler::ShuffleOne", "DPPIR/shuffle/parallel_shuffle.cc:ParallelShuffler::DeshuffleOne"]}
{"id": "C14", "title": "Source attribution of received messages", "statement": "For every position idx of a server's output slice FindSourceOf(idx) is the server whose block contains it: PrefixSumCountFromServer(s) <= idx < PrefixSumCountFromServer(s) + CountFromServer(s), also when some siblings send nothing.", "quantifier": "every server count, every count vector, every seed, every idx below the slice size", "why_tests_cant": "Zero-length blocks at arbitrary positions are corner cases tests do not enumerate.", "anchors": ["DPPIR/shuffle/parallel_shuffle.cc:ParallelShuffler::FindSourceOf", "DPPIR/shuffle/parallel_shuffle.cc:ParallelShuffler::PrefixSumCountFromServer"]}
{"id": "C15", "title": "Shuffled load is balanced and conserved", "statement": "After the cross-server shuffle every server but the last holds exactly floor(total/servers) messages and the last holds the rest; the slice size equals the number of messages received from all servers, and the slices add up to the total, matching the counts announced to the next party.", "quantifier": "all server counts >= 1, all count vectors with total below 2^32, all seeds", "why_tests_cant": "Universal over counts and seeds.", "anchors": ["DPPIR/shuffle/parallel_shuffle.cc:ParallelShuffler::GetServerSliceSize", "DPPIR/protocol/parallel_party/parallel_party_initialization.cc:InitializeCounts"]}
{"id": "C16", "title": "Noise ranges partition the database", "statement": "FindRange splits [0, db_size) into consecutive, disjoint, in-range key ranges, one per server, whenever db_size >= servers_count (the only precondition it asserts). The code violates this when (servers-1)*ceil(db/servers) > db, e.g. 5 rows on 4 servers: a range leaves the database and another has end < start.", "quantifier": "all server counts 1..255, all database sizes, all servers; every correctly rounded double division", "why_tests_cant": "Only particular (db_size, servers) pairs fail; floating-point ceil must be right for all 2^40 pairs.", "anchors": ["DPPIR/noise/noise.cc:FindRange"]}
{"id": "C17", "title": "Noise samples stay in their domain", "statement": "Every noise sample is an integer between 0 and floor(2*cutoff), in both the sampled and the expected-value build, also when the uniform generator returns its endpoints 0 or 1 (infinite Laplace value); with epsilon = 0 or delta = 0 every sample is 0.", "quantifier": "all epsilon > 0, 0 < delta <= 1, all generator outputs including endpoints", "why_tests_cant": "Endpoint draws have probability 2^-31 and are not hit by the test's million samples.", "anchors": ["DPPIR/noise/noise.h:NoiseDistribution::Sample", "DPPIR/noise/noise.cc:NoiseDistribution::SampleReal", "DPPIR/noise/noise.cc:Laplace", "DPPIR/noise/noise.cc:RandUniform"]}
{"id": "C18", "title": "Oversized noise domains are rejected", "statement": "Constructing a NoiseDistribution whose noise domain does not fit the 32-bit sample type stops the program. The code violates this: the check compares a 32-bit value with itself, so it can never fire.", "quantifier": "all epsilon, delta", "why_tests_cant": "The failing branch is unreachable, so no test input can exercise it.", "anchors": ["DPPIR/noise/noise.cc:NoiseDistribution::NoiseDistribution"]}
{"id": "C19", "title": "Cutoff is the right Laplace quantile", "statement": "The cutoff c computed from (epsilon, delta) is non-negative and a Laplace(0, 2/epsilon) variable exceeds c with probability exactly delta/2 and is below -c with probability exactly delta/2. (The helper InvCDF itself returns the mirror image of what its comment promises: P[X <= InvCDF(p)] = 1-p.)", "quantifier": "all epsilon > 0, all 0 < delta < 1, all probabilities in (0,1)", "why_tests_cant": "A real-valued identity.", "anchors": ["DPPIR/noise/noise.cc:InvCDF", "DPPIR/noise/noise.cc:NoiseDistribution::NoiseDistribution"]}
{"id": "C20", "title": "Differential privacy of the noised histogram", "statement": "With real sampling, the per-key query counts released to the backend when one client changes its query from one key to another satisfy (epsilon, delta) differential privacy. What holds of the code is (epsilon, 2*e^(epsilon/2)*delta): two keys change, and flooring the clamped sample puts mass up to e^(epsilon/2)*delta/2 on each end of the noise domain; the exact (epsilon, delta) claim is refuted, and the default build (constant noise) has no differential privacy at all.", "quantifier": "all epsilon > 0, 0 < delta < 1, all pairs of neighbouring histograms, all sets of outputs", "why_tests_cant": "A statement about all outcome sets of a probability distribution.", "anchors": ["DPPIR/noise/noise.cc:NoiseDistribution::SampleReal", "DPPIR/protocol/party/party_initialization.cc:InitializeNoiseSamples"]}
{"id": "C21", "title": "ServersMap behaves as a map keyed by sibling id", "statement": "A ServersMap(self, count) stores one independent value per id in [0,count) other than self: a read returns the last value written under that id and no other id is affected; all accesses are in bounds; access under self stops the program; and it fails for count 0.", "quantifier": "every self, count, every sequence of reads and writes, every value type", "why_tests_cant": "All access histories and all self/count combinations.", "anchors": ["DPPIR/types/containers.h:ServersMap"]}
{"id": "C22", "title": "Stream reads are independent of TCP fragmentation", "statement": "However the kernel splits the byte stream into reads, the buffers returned by ReadCiphers/ReadQueries/ReadResponses/ReadSecrets, concatenated, are exactly the sent messages in order; after the announced number of messages no byte of the following phase has been consumed and no partial bytes remain in the buffer.", "quantifier": "every message list, every message size that fits the buffer, every fragmentation of the stream into non-empty reads of any sizes", "why_tests_cant": "The number of fragmentations is exponential; loopback tests see only a few.", "anchors": ["DPPIR/types/containers.h:LogicalBuffer", "DPPIR/types/containers.h:CipherLogicalBuffer", "DPPIR/sockets/common.h:Read", "DPPIR/sockets/common.cc:ReadSome"]}
{"id": "C23", "title": "Buffered writes are lossless, ordered and in bounds", "statement": "Any sequence of SendX calls followed by FlushX puts exactly the concatenation of the messages on the wire, once each and in order, however partial the kernel's sends are; the write buffer is never written past its 140000 bytes, for every cipher size the protocol uses.", "quantifier": "every message sequence, every interleaving of explicit flushes, every partial-send schedule, every cipher size 1..140000", "why_tests_cant": "Partial sends and buffer-boundary hits depend on the schedule.", "anchors": ["DPPIR/sockets/client_socket.cc:SendCipher", "DPPIR/sockets/client_socket.cc:FlushCiphers", "DPPIR/sockets/common.cc:Send", "DPPIR/types/containers.h:LogicalBuffer::PushBack", "DPPIR/types/containers.h:LogicalBuffer::Full"]}
{"id": "C24", "title": "Typed messages survive the wire", "statement": "Queries, responses and offline secrets written through one socket's buffers and read through the peer's buffers arrive as the same list of values, even though buffers of different message types share the same physical memory across phases.", "quantifier": "all lists of queries/responses/secrets, all fragmentations of every phase", "why_tests_cant": "All values and all fragmentations.", "anchors": ["DPPIR/types/types.h:Query", "DPPIR/types/types.h:Response", "DPPIR/types/types.h:OfflineSecret", "DPPIR/sockets/server_socket.h", "DPPIR/sockets/client_socket.h"]}
{"id": "C25", "title": "A peer crash never yields torn or partial results", "statement": "If the peer closes the connection after any byte prefix of its messages, the reader delivers only whole messages of that prefix and never leaves its receive loop (read() returning 0 is not treated as an error, so it spins for ever).", "quantifier": "every crash point (byte prefix), every fragmentation before it, every number of further reads", "why_tests_cant": "Every crash point and unbounded number of subsequent polls.", "anchors": ["DPPIR/sockets/common.cc:ReadSome", "DPPIR/sockets/common.cc:Read", "DPPIR/protocol/party/party_online.cc:CollectQueries"]}
{"id": "C26", "title": "Poll reports exactly the readable siblings", "statement": "common::Poll marks exactly the entries that have input pending and returns their number, provided every signalled entry has POLLIN set; an entry signalled only with an error/hang-up event makes it run past the end of the array.", "quantifier": "every array of poll results of any length", "why_tests_cant": "Error-only events cannot be provoked reliably in a test.", "anchors": ["DPPIR/sockets/common.cc:Poll"]}
{"id": "C27", "title": "Cipher batch never clobbers unread ciphers", "statement": "With noise_count short ciphers pushed first and any number of long ciphers pushed after, alternating PopLong/PushShort returns every long cipher exactly as pushed and in order, ends with all short ciphers readable by GetShort in order, and stays within the allocation.", "quantifier": "all counts, all cipher contents, all sizes short < long", "why_tests_cant": "Overlapping in-place compaction: an off-by-one shows only for particular counts.", "anchors": ["DPPIR/types/containers.h:CipherBatch", "DPPIR/protocol/party/party_offline.cc:InstallSecrets"]}
{"id": "C28", "title": "Offline secret store is a collision-free map", "statement": "After storing secrets with pairwise distinct tags, loading any stored tag returns exactly that secret's next tag, key share and response share, independent of insertion order; storing a tag twice stops the program; a simulated store answers every tag with identity shares.", "quantifier": "all sequences of Store/Load/Get calls, all tags and secrets", "why_tests_cant": "All histories and orders.", "anchors": ["DPPIR/types/state.cc:PartyState::Store", "DPPIR/types/state.cc:PartyState::LoadSecret", "DPPIR/types/state.cc:PartyState::GetPreshare", "DPPIR/types/state.cc:BackendState::Store"]}
{"id": "C29", "title": "Client offline material is used first-in first-out", "statement": "The k-th query uses the tag and key shares of the k-th stored secret and the k-th response is unmasked with the k-th stored response share; no stored secret is used twice or skipped, and with as many secrets as queries no access is out of bounds.", "quantifier": "every number of secrets, every stored content, every k", "why_tests_cant": "All lengths and contents.", "anchors": ["DPPIR/types/state.cc:ClientState", "DPPIR/protocol/client/client_handlers.cc:MakeQuery", "DPPIR/protocol/client/client_handlers.cc:ReconstructResponse"]}
{"id": "C30", "title": "Tags never collide in a single-server chain", "statement": "In a deployment with one server per party, the tags reaching every party (client queries and all upstream noise) are pairwise distinct, so installing the offline secrets never hits the collision assertion, for any number of parties and any noise amounts with total batch below 2^32.", "quantifier": "every number of parties, every query count, every noise count per party", "why_tests_cant": "Unbounded number of parties and batch sizes.", "anchors": ["DPPIR/protocol/client/client_handlers.cc:SampleTag", "DPPIR/protocol/party/party_handlers.cc:SampleTag", "DPPIR/types/state.cc:PartyState::Store"]}
{"id": "C31", "title": "Tags never collide with parallel servers", "statement": "With several servers per party, tags of all clients and of all servers' noise are pairwise distinct. True when all clients announce the same number of queries and noise is equal per row; the code violates it when two clients announce different query counts whose tag ranges overlap (e.g. 10 and 5), and when a server's noise is not a multiple of its number of rows: then the offline stage aborts and no client ever gets an answer. Serving the clients is equivalent to the tags being distinct.", "quantifier": "every server count, every per-client query count, every noise amount", "why_tests_cant": "Deployments with unequal clients are not tested; collision is a global property of all processes.", "anchors": ["DPPIR/protocol/client/client_handlers.cc:SampleTag", "DPPIR/protocol/parallel_party/parallel_party_handlers.cc:SampleTag"]}
{"id": "C32", "title": "Configuration round trip", "statement": "Deserialize(Serialize(c)) equals c for every configuration whose party/server lists match its counts and whose IP strings contain no NUL byte; with an embedded NUL the round trip fails.", "quantifier": "every configuration of any size", "why_tests_cant": "The test uses one configuration.", "anchors": ["DPPIR/config/config.cc:Serialize", "DPPIR/config/config.cc:Deserialize"]}
{"id": "C33", "title": "Damaged configurations are not accepted", "statement": "Deserialize never returns a configuration for a proper prefix of a serialized configuration nor for a serialized configuration followed by extra bytes (trailing bytes stop the program; truncation stops it or reads out of bounds).", "quantifier": "every configuration, every truncation point, every non-empty suffix", "why_tests_cant": "All truncation points of all configurations.", "anchors": ["DPPIR/config/config.cc:Deserialize", "DPPIR/config/config.cc:Bin2Int", "DPPIR/config/config.cc:Bin2Str", "DPPIR/config/config.cc:ReadIntoBuffer"]}
{"id": "C34", "title": "Generated endpoints and seeds are distinct", "statement": "gen_config gives every (party, server) its own port, its own sibling port and its own local shuffle seed, no port equals a sibling port, and the produced configuration is well-formed. Violated beyond 1000 servers in total (port ranges 3000.. and 4000.. overlap).", "quantifier": "every party count and server count up to 255", "why_tests_cant": "All sizes; only very large deployments collide.", "anchors": ["DPPIR/config/gen_config.cc:FromArgs", "DPPIR/config/gen_config.cc:Interactive"]}
{"id": "C35", "title": "Role dispatch is total and safe", "statement": "main starts exactly one role, and only with a server id and party id inside the configuration: client for role client, backend for the last party, the single-server party iff server_count is 1, the parallel party otherwise; every other flag combination exits with status 1 without starting a protocol. The number of queries run equals the flag only below 2^32.", "quantifier": "all flag values and all configurations", "why_tests_cant": "All combinations of flags and configurations.", "anchors": ["DPPIR/main.cc:main"]}
{"id": "C36", "title": "End-to-end correctness, one server per party", "statement": "Running offline and online stages with any number of parties >= 2, one server each, the client ends with exactly the database row of each of its keys, in order; no assertion fails and no undefined behaviour occurs, whatever the noise, the shuffles, the random shares and the way messages are chunked by the sockets.", "quantifier": "all party counts 2..255, all key lists, all noise samples, all seeds/rand streams, all share randomness, all sealing randomness, all chunkings, batch total < 2^32, database <= 2^31-1 rows", "why_tests_cant": "Product of all configurations, randomness and schedules.", "anchors": ["DPPIR/protocol/client", "DPPIR/protocol/party", "DPPIR/protocol/backend"]}
{"id": "C37", "title": "End-to-end correctness of the online-only mode", "statement": "With --stage=online (simulated offline state) the client likewise receives exactly the rows of its keys, in order, for any number of parties.", "quantifier": "as C36, without offline stage", "why_tests_cant": "As C36.", "anchors": ["DPPIR/protocol/client/client_offline.cc:SimulateOffline", "DPPIR/protocol/party/party_offline.cc:SimulateOffline", "DPPIR/protocol/backend/backend_offline.cc:SimulateOffline"]}
{"id": "C38", "title": "Batch counts are conserved hop by hop", "statement": "Each party forwards exactly input + noise queries (the count it announced), returns exactly as many responses as it received queries, and the client receives exactly the number of responses it asked for. In a deployment started from the command line nobody ever sends more queries, or reads more responses, than it announced, and no level more than the queries asked for and the noise made before it; once the client has a result, everybody has sent as many queries as it announced, and every level as many as were asked for and the noise made before it.", "quantifier": "all counts, noise amounts, chain lengths; all usable configuration files, start orders, interleavings and moments", "why_tests_cant": "All sizes.", "anchors": ["DPPIR/protocol/party/party_initialization.cc:InitializeCounts", "DPPIR/protocol/party/party_online.cc"]}
{"id": "C39", "title": "Noise is injected exactly as sampled", "statement": "The multiset of database keys the backend looks up is exactly the client's keys plus, for every party, each key of its noise range repeated as many times as that party sampled for it: no noise query is lost, duplicated or aimed at another key. The same holds for a deployment started from the command line: at every moment each key has been looked up at most that often and no key outside the database, and exactly that often once the client has a result.", "quantifier": "all key lists, all noise samples, all parties, all shuffles; all usable configuration files, start orders, interleavings and moments", "why_tests_cant": "The privacy guarantee depends on it, but responses to noise are dropped, so no functional test observes it.", "anchors": ["DPPIR/protocol/party/party_initialization.cc:InitializeNoiseQueries", "DPPIR/protocol/party/party_handlers.cc:MakeNoiseQuery", "DPPIR/protocol/backend/backend_handlers.cc:HandleQuery"]}
{"id": "C40", "title": "Backend never reads outside the database", "statement": "Every key reconstructed by the backend in an honest run, including for noise queries, is a row of the database. The same holds for a deployment that is started from the command line, in any order, with a usable configuration file.", "quantifier": "all honest runs, usable configuration files", "why_tests_cant": "Database::Lookup has no bounds check; an out-of-range read need not crash in a test.", "anchors": ["DPPIR/types/database.cc:Database::Lookup", "DPPIR/protocol/backend/backend_handlers.cc:HandleQuery"]}
{"id": "C41", "title": "Parallel shuffle is schedule independent", "statement": "For every interleaving of sending, polling and partial reads, each server's output batch after the cross-server shuffle is the same: position LocalShuffle(prefix(source)+k) holds the k-th message of that source, all positions are filled exactly once, for ciphers and for queries.", "quantifier": "all server counts, counts, seeds, batches, all poll results and read chunk sizes", "why_tests_cant": "Exponentially many schedules.", "anchors": ["DPPIR/protocol/parallel_party/parallel_party_util.inc:SendAndPoll", "DPPIR/protocol/parallel_party/parallel_party_shuffle.cc:ShuffleQueries", "DPPIR/protocol/parallel_party/parallel_party_shuffle.cc:ShuffleCiphers", "DPPIR/protocol/parallel_party/parallel_party_shuffle.cc:FromSibling"]}
{"id": "C42", "title": "Parallel parties return each response to its own query", "statement": "If the next party answers the i-th query of each server with some function of that query, then each parallel server returns to its predecessor, in input order, exactly the unmasked answer to each of its own input queries, dropping the answers to all noise injected by any sibling.", "quantifier": "all server counts >= 2, all inputs and noise counts per server, all seeds, all schedules", "why_tests_cant": "Exponentially many schedules; index arithmetic across three prefix-sum tables.", "anchors": ["DPPIR/protocol/parallel_party/parallel_party_online.cc:CollectResponses", "DPPIR/protocol/parallel_party/parallel_party_shuffle.cc:DeshuffleResponses", "DPPIR/protocol/parallel_party/parallel_party_shuffle.cc:FromSibling"]}
{"id": "C43", "title": "Secret broadcast makes siblings' stores equal", "statement": "After BroadcastSecrets every sibling (party or backend) can load every secret installed by any sibling and nothing else, for every interleaving, provided tags are distinct; otherwise some sibling stops.", "quantifier": "all server counts, all stores, all iteration orders of the hash map, all schedules", "why_tests_cant": "All schedules and hash orders.", "anchors": ["DPPIR/protocol/parallel_party/parallel_party_offline.cc:BroadcastSecrets", "DPPIR/protocol/backend/backend_offline.cc:BroadcastSecrets"]}
{"id": "C44", "title": "End-to-end correctness with parallel servers", "statement": "With S >= 2 servers per party and one client per server with equal query counts and equal noise per row (or any counts and noise for which no two tags coincide; without any condition in the online-only mode), every client receives exactly the rows of its keys in order, whatever the schedules, seeds and randomness.", "quantifier": "all S in 2..254, all party counts >= 2, all key lists of equal length, all schedules", "why_tests_cant": "Product of all configurations and schedules.", "anchors": ["DPPIR/protocol/parallel_party", "DPPIR/protocol/backend", "DPPIR/protocol/client"]}
{"id": "C45", "title": "The handshake cannot deadlock", "statement": "From start to finish of a run with one server per party, whenever not all processes have finished some process can take its next step, and every run is finite; this holds for every scheduling and every positive socket buffer capacity.", "quantifier": "all chain lengths, all batch sizes, all schedules, all buffer capacities >= 1 message", "why_tests_cant": "All schedules and buffer sizes.", "anchors": ["DPPIR/protocol/client/client_offline.cc", "DPPIR/protocol/party/party_offline.cc:StartOffline", "DPPIR/protocol/backend/backend_offline.cc:StartOffline"]}
{"id": "C46", "title": "When the sibling exchange can deadlock", "statement": "The exchange of queries, of ciphers and of secrets between any number of sibling servers always terminates under every schedule if each connection can hold everything its sender has to send. With less room two siblings can block in send() for ever, whatever the poll interval: poll sees only the bytes that have arrived, so both can go on sending until both connections are full; no buffer size excludes this.", "quantifier": "all server counts, batches, schedules, all buffer capacities", "why_tests_cant": "Deadlock needs both buffers full at once, which loopback tests with large buffers never reach.", "anchors": ["DPPIR/protocol/parallel_party/parallel_party_util.inc:SendAndPoll", "DPPIR/sockets/consts.h:POLL_RATE"]}
{"id": "C47", "title": "Online stage starts only after downstream is ready", "statement": "A client sends its first online query only after every party and the backend, with several servers per party every server of theirs, have finished installing all their offline secrets: as many as queries will come their way. The same holds in a deployment started from the command line for both stages: once any client has sent a query, nobody installs another secret, and everybody has one for every cipher ever sent to it and for every query it will ever read.", "quantifier": "all schedules and chunkings, all chain lengths, all numbers of servers, with and without the receive loops of the code; all usable configuration files and start orders", "why_tests_cant": "All schedules.", "anchors": ["DPPIR/protocol/party/party_offline.cc:StartOffline", "DPPIR/sockets/client_socket.cc:WaitForReady", "DPPIR/sockets/server_socket.cc:SendReady"]}
{"id": "C48", "title": "Backend cannot link queries to client positions by tag", "statement": "The tags the backend sees do not determine a query's position in the client's batch. The code violates this (it is an acknowledged TODO): SampleTag is constant per id, so the tag of the client's i-th query is i on every hop. The same holds at every moment of a deployment started from the command line for both stages: a look-up at the backend for a query with the tag of a client's i-th query is for that client's i-th key, and once the client has a result every one of its keys is told in this way.", "quantifier": "all runs; all usable configuration files, start orders and interleavings", "why_tests_cant": "A property of all runs of the whole pipeline.", "anchors": ["DPPIR/protocol/client/client_handlers.cc:SampleTag", "DPPIR/protocol/client/client_handlers.cc:MakeSecret"]}
{"id": "C49", "title": "Batch counters do not wrap", "statement": "The noise count a party announces equals the true sum of its samples. Holds while input plus noise stays below 2^32; violated beyond (e.g. 2^24 rows with 276 noise queries per row), where the 32-bit counter wraps silently and later writes leave the allocated batch.", "quantifier": "all database sizes, all noise samples", "why_tests_cant": "Needs batches of 2^32 queries.", "anchors": ["DPPIR/protocol/party/party_initialization.cc:InitializeNoiseSamples", "DPPIR/protocol/party/party_initialization.cc:InitializeCounts"]}
{"id": "C50", "title": "Database rows and response equality", "statement": "A Database(rows) answers Lookup(i) with the row built for i for every i < rows, and two responses compare equal exactly when all 52 bytes agree, so the client's final check is neither too weak nor too strong.", "quantifier": "all row counts, all keys, all pairs of responses", "why_tests_cant": "All values.", "anchors": ["DPPIR/types/database.cc:Database", "DPPIR/types/types.cc:operator=="]}
{"id": "C51", "title": "Counts agree with parallel servers", "statement": "With several servers per party, each server announces to its successor exactly as many queries as it later sends, the successor reads exactly those and returns exactly as many responses, and the loads of the servers of a party add up to all clients' queries plus all noise added before. In a deployment started from the command line nobody ever sends more queries, or reads more responses, than it announced, and no level more than the queries asked for and the noise made before it; once any client has a result, everybody has sent as many queries as it announced, and every level as many as were asked for and the noise made before it.", "quantifier": "all server and party counts, query counts, noise amounts, schedules, buffer capacities and poll results; all usable configuration files, start orders, interleavings and moments", "why_tests_cant": "Exponentially many schedules; a lost or duplicated message needs a rare interleaving.", "anchors": ["DPPIR/protocol/parallel_party/parallel_party_initialization.cc:InitializeCounts", "DPPIR/protocol/parallel_party/parallel_party_online.cc"]}
{"id": "C52", "title": "Backend sees exactly the clients' keys and the sampled noise with parallel servers", "statement": "With several servers per party, the keys looked up by all servers of the backend are, as a multiset, the clients' keys plus, for every party, each database key exactly as many times as the one server responsible for that key sampled; every key is the responsibility of exactly one server. The same holds for a deployment started from the command line: at every moment each key has been looked up at most that often and no key outside the database, and exactly that often once any client has a result.", "quantifier": "all server and party counts, all samples, all schedules; all usable configuration files, start orders, interleavings and moments", "why_tests_cant": "Global property over all processes and schedules.", "anchors": ["DPPIR/protocol/parallel_party/parallel_party_initialization.cc:InitializeNoiseSamples", "DPPIR/protocol/parallel_party/parallel_party_initialization.cc:InitializeNoiseQueries", "DPPIR/protocol/parallel_party/parallel_party_shuffle.cc:ShuffleQueries"]}
{"id": "C53", "title": "Backend lookups are in range with parallel servers", "statement": "Every key any server of the backend reconstructs in an honest run with several servers per party is a row of the database. The same holds for a deployment that is started from the command line, in any order, with a usable configuration file.", "quantifier": "all honest runs with two or more servers per party, usable configuration files", "why_tests_cant": "Database::Lookup has no bounds check.", "anchors": ["DPPIR/types/database.cc:Database::Lookup", "DPPIR/protocol/backend/backend_handlers.cc:HandleQuery"]}
{"id": "C54", "title": "The processes of a deployment find each other", "statement": "Started in any order, all processes of a deployment come up: none stops abnormally, no run goes on for ever or gets stuck, and every process ends up with exactly one connection to each of its peers (the next and previous party's server, each sibling under its own id), the other end of which is held by that peer. This needs that the configured addresses lead to the servers' machines and that no two sockets listen at the same port of a machine; the latter is also necessary, and generated configurations violate it with more than 1001 servers on one machine.", "quantifier": "all configurations, placements on machines, start orders and interleavings of listen, accept, connect and the exchange of ids", "why_tests_cant": "Exponentially many orders of start-up; a misassigned sibling needs a rare order of accepts.", "anchors": ["DPPIR/sockets/common.cc:ListenOn", "DPPIR/sockets/common.cc:ConnectTo", "DPPIR/sockets/parallel_socket.cc:ParallelSocket::Initialize", "DPPIR/sockets/server_socket.cc:ServerSocket::Initialize", "DPPIR/sockets/client_socket.cc:ClientSocket::Initialize"]}
{"id": "C55", "title": "Crashes never make an answer wrong", "statement": "When any processes crash at any moments, and any part of what they wrote last is lost, the client still never gets a wrong row: the responses it gets are the rows of its keys in order, and if it returns it has got all of them. The processes that did not crash make the calls they would make in some run without crashes, run into no undefined behaviour or failing assertion of their own and look up rows of the database only. A read that returns no bytes because the sibling has closed the connection changes nothing. The same holds for a deployment that is started from the command line with a usable configuration file.", "quantifier": "all sets of processes that crash, all crash points, all amounts of lost bytes, all schedules, one or several servers per party, usable configuration files", "why_tests_cant": "Every moment of every process is a crash point.", "anchors": ["DPPIR/sockets/common.cc:Read", "DPPIR/sockets/common.cc:Send", "DPPIR/protocol/parallel_party/parallel_party_util.inc:SendAndPoll", "DPPIR/protocol/party/party_online.cc:StartOnline"]}
{"id": "C56", "title": "A misbehaving peer cannot cause undefined behaviour", "statement": "Whatever bytes the processes it is connected to send, and however many, a client, party or backend started with a configuration as the tool makes it only ever returns, waits, or stops deliberately (a failed assertion or an exception). False of the code for parties and backends: a query with a tag for which no secret was installed, or with a tally that reconstructs to no row, is undefined behaviour. These, and a number of queries that does not fit the 32-bit counters, are the only ways; with several servers per party also what the siblings announce: numbers that do not fit, or more noise queries than queries. A client started from the command line with a usable configuration file is safe among any processes.", "quantifier": "all byte streams from all peers, all schedules, buffer capacities and modes", "why_tests_cant": "Peers can send arbitrary bytes; tests run against honest peers.", "anchors": ["DPPIR/types/state.cc:PartyState::LoadSecret", "DPPIR/types/state.cc:BackendState::LoadSecret", "DPPIR/types/database.cc:Database::Lookup", "DPPIR/protocol/party/party_handlers.cc:HandleQuery", "DPPIR/protocol/backend/backend_handlers.cc:HandleQuery"]}
{"id": "C57", "title": "The client never accepts a wrong answer", "statement": "Whatever the servers send, the client asks for its own keys in order, every result it reports except possibly the last one is the row of its key, and when the client returns there is one result per query and all are right: after a wrong one it stops. The same holds for a client started from the command line with a usable configuration file.", "quantifier": "all byte streams from the servers, all schedules, numbers of queries and modes; all usable configuration files", "why_tests_cant": "Servers can send arbitrary bytes.", "anchors": ["DPPIR/protocol/client/client_online.cc:StartOnline", "DPPIR/protocol/client/client_handlers.cc:ReconstructResponse", "DPPIR/types/types.cc:operator=="]}
{"id": "C58", "title": "What the backend counts in a run is differentially private", "statement": "The numbers of look-ups per row that the backend makes in a complete run of a deployment are (epsilon, delta) differentially private with respect to any one query of a client as long as one party samples honestly: changing that one query changes the probability of every set of outcomes by at most a factor e^epsilon plus delta, even for an observer who knows all other queries, all draws of the other parties and chooses the schedule. False with the configured delta itself (see C20), and in the default build, where noise is constant and the numbers reveal the query.", "quantifier": "all databases, clients' queries, draws of the other parties, schedules, modes, one or several servers per party, sets of outcomes; epsilon and delta accepted by the constructor", "why_tests_cant": "A statement about probabilities over all outcomes and about every schedule.", "anchors": ["DPPIR/noise/noise.cc:NoiseDistribution::SampleReal", "DPPIR/noise/noise.h:NoiseDistribution", "DPPIR/protocol/party/party_initialization.cc:InitializeNoiseSamples", "DPPIR/protocol/backend/backend_handlers.cc:HandleQuery"]}
{"id": "C59", "title": "All parties but the backend together learn nothing about the keys", "statement": "In a run with both stages, everything that all parties before the backend together read, send and find in the sealed secrets they open (counts, tags, tallies, shares, masks, responses, sizes of sealed messages) is independent of the clients' keys: if the client's draws are uniform, whatever they see together is equally likely for all lists of keys, given all random choices of the parties. Not so in the online-only mode, where the first party reads the keys themselves.", "quantifier": "all deployments with one or several servers per party, all pairs of lists of keys, all draws, all noise and shuffles of the parties, all schedules, everything that can be seen", "why_tests_cant": "A statement about probabilities over all draws and about every run.", "anchors": ["DPPIR/protocol/client/client_handlers.cc:MakeSecret", "DPPIR/protocol/client/client_handlers.cc:MakeQuery", "DPPIR/sharing/incremental.cc:GenerateIncrementalTally", "DPPIR/sharing/additive.cc:GenerateAdditiveSecretShares", "DPPIR/protocol/party/party_handlers.cc:HandleQuery"]}
{"id": "C60", "title": "Reading ahead changes nothing", "statement": "The receive loops read whatever has arrived into a buffer and then handle the messages in it one by one, so messages are handled, and answered, when later ones have already been read. However much each read returns, the deployment still serves its clients, without deadlock and with nothing left over in a connection or buffer, and every process that returns has made exactly the calls it would make reading byte by byte. Also among misbehaving peers a process does nothing, and stops in no way, that it would not reading byte by byte.", "quantifier": "all deployments with one or several servers per party, all schedules, all capacities of connections, all amounts read at each read, with or without the offline stage", "why_tests_cant": "How much a read returns depends on timing and the network.", "anchors": ["DPPIR/sockets/common.h:Read", "DPPIR/sockets/common.cc:ReadSome", "DPPIR/protocol/party/party_offline.cc:CollectCiphers", "DPPIR/protocol/party/party_online.cc:CollectQueries", "DPPIR/protocol/backend/backend_online.cc:CollectQueries", "DPPIR/protocol/parallel_party/parallel_party_online.cc:CollectResponses", "DPPIR/protocol/party/party_offline.cc:StartOffline", "DPPIR/protocol/party/party_online.cc:StartOnline", "DPPIR/protocol/client/client_online.cc:StartOnline"]}
{"id": "C61", "title": "From the command line to the answers", "statement": "Generate a configuration for 2 to 255 parties, write it to a file, start a client and all parties with that file and --stage=all or --stage=online: no process ever stops abnormally, all return, and the client gets the rows it asks for, in order. The number of queries and the largest number of noise queries together must fit 32 bits. With 2 to 254 servers per party the same holds for every client, as long as the connections between siblings are large enough and every server has rows to make noise for; with --stage=all the program must be built without DPPIR_SAMPLE and all clients have the same --queries. The same for every configuration file, however made, with complete server lists and matching key pairs.", "quantifier": "all configurations, keys, flags of a deployment, random choices, results of rand(), both builds, schedules, capacities and amounts read at each read", "why_tests_cant": "Tests start a few deployments of a few processes; each has unboundedly many runs.", "anchors": ["DPPIR/main.cc:main", "DPPIR/config/gen_config.cc:FromArgs", "DPPIR/config/config.cc:ReadFile", "DPPIR/protocol/client/client_initialization.cc:Client", "DPPIR/protocol/party/party_initialization.cc:Party", "DPPIR/protocol/parallel_party/parallel_party_initialization.cc:ParallelParty", "DPPIR/protocol/backend/backend_initialization.cc:Backend", "DPPIR/noise/noise.h:Sample"]}
{"id": "C62", "title": "Connecting and answering, in any order of events", "statement": "Start the processes of a deployment in any order, on machines that the configured addresses lead to and without two listening sockets at the same port of a machine. Some may be connecting while others already exchange secrets and queries over connections that their peer has not yet accepted or whose greeting it has not yet read. Still no process ever stops abnormally or uses a socket it does not have, greetings and protocol bytes are never mixed up, there is no deadlock and no infinite run, every client gets the rows it asks for, and when all have returned nothing is left in any connection.", "quantifier": "all configurations with the conditions of C61, all machines and addresses that lead to them, all schedules of all processes including start order, capacities and amounts read at each read", "why_tests_cant": "How far the others are when a process has connected depends on timing.", "anchors": ["DPPIR/main.cc:main", "DPPIR/sockets/common.cc:ListenOn", "DPPIR/sockets/common.cc:ConnectTo", "DPPIR/sockets/parallel_socket.cc:Initialize", "DPPIR/protocol/parallel_party/parallel_party_initialization.cc:ParallelParty", "DPPIR/protocol/backend/backend_initialization.cc:Backend"]}
{"id": "C63", "title": "What the backend of a started deployment sees is private", "statement": "Start a deployment from the command line with one configuration file, in a build that samples noise (DPPIR_SAMPLE). If rand() is uniform in one party, the numbers of look-ups per row that the backend makes in a complete run are differentially private with respect to any one query of a client, with the epsilon of the configuration file up to a factor 1 + 2^-50 and an explicit delta, even for an observer who knows all other queries and all results of rand() of all other parties, and chooses start order and schedule. The number of queries and the largest number of noise queries together must fit 32 bits. False of the default build, which does not define DPPIR_SAMPLE: there the counts reveal the query.", "quantifier": "all configuration files with the conditions of C61, keys, flags, other parties' random choices, schedules, sets of outcomes, doubles and logarithms of bounded error; one server per party with either stage, several with the online stage; connecting included", "why_tests_cant": "A statement about probabilities over all outcomes of all runs of whole deployments.", "anchors": ["DPPIR/noise/noise.h:NoiseDistribution::Sample", "DPPIR/noise/noise.cc:NoiseDistribution::SampleReal", "DPPIR/main.cc:main", "DPPIR/protocol/party/party_initialization.cc:InitializeNoiseSamples", "DPPIR/protocol/parallel_party/parallel_party_initialization.cc:InitializeNoiseSamples", "DPPIR/config/config.cc:ReadFile"]}
{"id": "C64", "title": "Encryption does not depend on the build", "statement": "OnionEncrypt seals every layer, and OnionDecrypt refuses what does not open, whether or not assertions are compiled in. False of the code: the call of crypto_box_seal is the argument of an assert. In a build with NDEBUG (as bazel's own -c opt makes it) OnionEncrypt returns every second party's secret in the clear and loses the others, and OnionDecrypt accepts every cipher. The documented builds do not define NDEBUG; for them the property is C07 and C09.", "quantifier": "all secrets, keys, numbers of parties, contents of uninitialised memory, ciphers", "why_tests_cant": "Tests are run in one build; and a round trip of uninitialised memory may pass.", "anchors": ["DPPIR/onion/onion.cc:OnionEncrypt", "DPPIR/onion/onion.cc:OnionDecrypt", ".bazelrc"]}
{"id": "C65", "title": "Strangers cannot take part", "statement": "Only the processes of the configuration become each other's peers, whoever else connects to their ports during set-up. False of the code: a server takes the first connection to its port for the client or the previous party, and believes the id that a connection at its sibling port declares; two connections may declare the same id, and then a sibling is left without a connection. What holds whatever other processes do: a process of the deployment stops during set-up only at an assertion, and if it comes up, it holds connections to the next party and the higher siblings that it has made itself.", "quantifier": "all consistent configurations, all processes of a deployment, all programs of all other processes, all schedules", "why_tests_cant": "Tests run the processes of a deployment only; what others do cannot be enumerated.", "anchors": ["DPPIR/sockets/common.cc:ListenOn", "DPPIR/sockets/common.cc:ConnectTo", "DPPIR/sockets/parallel_socket.cc:Initialize", "DPPIR/sockets/server_socket.cc:Initialize"]}
{"id": "C66", "title": "A process connects to the address that is configured", "statement": "A process that connects to a server uses the IPv4 address that the configuration gives for it, as text in dotted decimal notation; a text that is not such an address is refused. So if every server is configured with an address that leads to its machine, all processes find their peers. False of the code as to the refusal: a host name, or an address with a blank at its end, is not refused, and the process connects to whatever address its uninitialised memory contains.", "quantifier": "all texts, addresses, ports, contents of uninitialised memory, machines and routes between them; all generated configurations", "why_tests_cant": "Tests use one or two addresses; what uninitialised memory contains varies.", "anchors": ["DPPIR/sockets/common.cc:ConnectTo", "DPPIR/sockets/client_socket.cc:Initialize", "DPPIR/sockets/parallel_socket.cc:Initialize", "DPPIR/config/gen_config.cc:FromArgs"]}
{"id": "C67", "title": "The generator writes the numbers it is told", "statement": "gen_config writes a configuration with exactly the number of rows, the parameters, the numbers of parties and servers and the addresses that are given to it as text, on the command line or typed in; a text that is not such a number, or a number that does not fit, is refused and nothing is written. So it is for decimal numbers in range. False of the code otherwise: what follows a number on the command line is ignored (1e6 rows are one row), a negative number of rows wraps modulo 2^32, counts are taken modulo 256; and when something else than a number is typed in, the program goes on with variables that were never assigned.", "quantifier": "all argument lists, all texts typed in, all keys", "why_tests_cant": "Tests give a few numbers; the texts a user may give are unbounded.", "anchors": ["DPPIR/config/gen_config.cc:FromArgs", "DPPIR/config/gen_config.cc:Interactive", "DPPIR/config/gen_config.cc:main", "DPPIR/config/config.cc:WriteToFile"]}
{"id": "C68", "title": "Traffic does not depend on the keys", "statement": "In a deployment with one server per party, which process sends a byte to which, in which order for each process, and how many bytes cross each connection, is determined by the number of parties, the stages and the number of queries that leave each process: 4 bytes of count, 124 bytes per query and remaining party offline, 12 bytes per query and 52 per response online, one byte for each ready message. With several servers per party, how many bytes a server reads from each other one is determined by the numbers of parties and servers, the stages, the number of queries of each client, the amount of noise of each server, and the shared seeds. So somebody who watches the connections and sees no contents learns nothing about the keys that are asked for, nor about the random choices beyond the amount of noise.", "quantifier": "all valid deployments and pairs of them, either stage or both, queue capacities, schedules, moments of a run", "why_tests_cant": "A statement about pairs of runs of whole deployments, for all keys and schedules.", "anchors": ["DPPIR/protocol/client/client_offline.cc", "DPPIR/protocol/client/client_online.cc", "DPPIR/protocol/party/party_offline.cc", "DPPIR/protocol/party/party_online.cc", "DPPIR/protocol/backend/backend_offline.cc", "DPPIR/protocol/backend/backend_online.cc", "DPPIR/protocol/parallel_party", "DPPIR/sockets/client_socket.cc", "DPPIR/sockets/server_socket.cc", "DPPIR/sockets/parallel_socket.cc", "DPPIR/onion/onion.cc:CipherSize"]}
{"id": "C69", "title": "Every offline secret serves one query", "statement": "In a run with both stages, the secrets that a party or the backend installs have different tags, the queries it reads have different tags, and each of these queries has the tag of a secret it has installed before. Once it has returned, each secret has served exactly one query: no secret share is used twice and none is left. With several servers per party, and distinct tags (see C30), the same holds for the secrets that all servers of a party together install and the queries that all of them read, so that no two servers use the same secret. The same holds at every moment of a deployment started from the command line; there every secret of every party has served exactly one query once any client has a result.", "quantifier": "all valid deployments with one or several servers per party, queries, noise, shuffles, schedules, queue capacities, moments of a run; all usable configuration files, start orders and interleavings", "why_tests_cant": "Whether a one-time secret is used twice depends on all queries, noise and shuffles of all processes.", "anchors": ["DPPIR/protocol/client/client_handlers.cc:MakeSecret", "DPPIR/protocol/client/client_handlers.cc:MakeQuery", "DPPIR/protocol/party/party_handlers.cc:HandleQuery", "DPPIR/protocol/party/party_handlers.cc:MakeNoiseQuery", "DPPIR/protocol/backend/backend_handlers.cc:HandleQuery", "DPPIR/protocol/parallel_party/parallel_party_offline.cc"]}
{"id": "C70", "title": "The offline stage does not depend on the keys", "statement": "Let a client ask for other keys, with everything else equal. Whatever the two schedules and queue capacities are, the counts, ready messages, sealed ciphers and secrets that any process sends, reads or installs are the same in both deployments and in the same order, as far as the two runs have got; a process that has returned has got furthest. So the offline stage can be run before the keys are known, and nobody learns anything about them from it. The same holds for two deployments started from the command line with --stage=offline or --stage=all, also if one is started with the one and the other with the other.", "quantifier": "all valid deployments with one or several servers per party, all lists of keys, all stages, pairs of schedules, queue capacities, processes, moments of a run; all usable configuration files, start orders and interleavings", "why_tests_cant": "A statement about pairs of runs of whole deployments, for all keys and schedules.", "anchors": ["DPPIR/protocol/client/client_offline.cc", "DPPIR/protocol/party/party_offline.cc", "DPPIR/protocol/backend/backend_offline.cc", "DPPIR/protocol/parallel_party/parallel_party_offline.cc", "DPPIR/main.cc:main"]}
{"id": "C71", "title": "The parties of a started deployment learn nothing about the keys", "statement": "Start a client and all parties from the command line for both stages, in any order, with the same usable configuration file. Whatever all parties before the backend together may see in a complete run, the number of outcomes of the client's random draws for which they see it is the same for all keys; for every outcome they see exactly one thing, whatever the schedule, in connecting and afterwards. So with uniform draws what they see is independent of the keys, even if they all put together what they know. With several servers per party the same holds for all servers of these parties and all clients, in the default build with equally many queries at each server.", "quantifier": "all machines (World), usable configurations, numbers of queries, keys, draws, views, capacities and schedules of connecting and of the protocol", "why_tests_cant": "A statement about the number of outcomes of cryptographic randomness, for all keys, schedules and deployments.", "anchors": ["DPPIR/main.cc:main", "DPPIR/config/config.cc:ReadFile", "DPPIR/sockets/common.cc", "DPPIR/protocol/client/client_handlers.cc:MakeSecret", "DPPIR/sharing/incremental.cc:PreIncrementalSecretShares", "DPPIR/protocol/party/party_handlers.cc", "DPPIR/protocol/parallel_party"]}
{"id": "C72", "title": "The noise of a party cannot be known in advance", "statement": "In the build with DPPIR_SAMPLE every party draws its noise from randomness of its own: the noise of one run tells nothing about that of another run, party or server, and the number of times the backend looks up a row does not reveal how often it was asked for. False of the code: no process calls srand before it samples, so every process draws the numbers that the C library returns in a fresh process (as after srand(1)). All servers of all parties sample the same noise in every run, and the number of look-ups of a row is the number of queries for it plus a known constant. What holds: a process with such a generator behaves like one whose noise and shuffles come from the streams of these seeds, so that all clients get their rows.", "quantifier": "all machines (World), flags, configuration files, numbers of queries, keys, schedules, capacities, complete runs; pairs of deployments on the same machines", "why_tests_cant": "That a generator is not seeded cannot be seen in a run: each run looks random. The claim relates all runs of all processes.", "anchors": ["DPPIR/noise/noise.cc:RandUniform", "DPPIR/shuffle/util.cc:seed", "DPPIR/protocol/party/party_initialization.cc:InitializeNoiseSamples", "DPPIR/protocol/parallel_party/parallel_party_initialization.cc:InitializeNoiseSamples", "DPPIR/protocol/party/party_offline.cc:Start", "DPPIR/shuffle/local_shuffle.cc:Initialize", "DPPIR/shuffle/parallel_shuffle.cc:Initialize", "DPPIR/main.cc:main"]}
{"id": "C73", "title": "The backend does not know which look-up belongs to which query", "statement": "As long as one party before the backend is honest, the backend cannot tell to which query of which client a look-up belongs. False of the code: the shuffles of all parties are computed from seeds in the configuration file that every process reads, and the noise from a generator that is not seeded. A list that depends only on the configuration, the C library and the numbers of queries tells, for every run, where each look-up comes from; so the backend finds the row of every single query at a place it can compute in advance. What holds: how often each row is looked up does not depend on the order of the queries.", "quantifier": "all machines, usable configurations with one or several servers per party, numbers of queries, keys, schedules, capacities, moments of a run", "why_tests_cant": "A statement about all runs of a deployment and what they have in common.", "anchors": ["DPPIR/config/config.cc:ReadFile", "DPPIR/config/gen_config.cc:FromArgs", "DPPIR/shuffle/local_shuffle.cc:Initialize", "DPPIR/shuffle/parallel_shuffle.cc:Initialize", "DPPIR/shuffle/util.cc:seed", "DPPIR/protocol/backend/backend_handlers.cc:HandleQuery", "DPPIR/main.cc:main"]}
{"id": "C74", "title": "A party can open only the secrets that are meant for it", "statement": "What a party reads and what it is configured with do not let it open the layers of the onion that are meant for other parties, so that no single party can find the rows that are asked for. False of the code: every process reads the same configuration file, and it has the secret keys of all parties. The first party can compute the row of every query from the ciphers and queries it reads, as soon as it has read them.", "quantifier": "all machines, usable configurations with one or several servers per party, numbers of queries, keys, schedules, capacities, moments of a run", "why_tests_cant": "Tests check that the right party can open its layer, not that nobody else can with what it is given.", "anchors": ["DPPIR/config/config.cc:WriteToFile", "DPPIR/config/config.cc:ReadFile", "DPPIR/config/gen_config.cc:FromArgs", "DPPIR/onion/onion.cc:OnionDecrypt", "DPPIR/sharing/incremental.cc:IncrementalReconstruct", "DPPIR/main.cc:main"]}
{"id": "C75", "title": "Several queries together are private in proportion", "statement": "Start a deployment from the command line in a build that samples noise (DPPIR_SAMPLE), and let rand() be uniform in one party. If any m queries change, of one client or of several, the numbers of look-ups per row at the backend in complete runs are differentially private with m times the epsilon for one query and the delta for one query times 1 + e^epsilon + ... + e^((m-1) epsilon). So a client with m queries has a bound on what is learnt about all of them.", "quantifier": "all machines, usable configurations with one or several servers per party, sets of changed queries, positions of the party, what the other parties draw, keys, schedules, sets of outcomes; with and without the set-up of connections", "why_tests_cant": "A statement about probabilities of sets of outcomes for all pairs of query lists.", "anchors": ["DPPIR/noise/noise.h:NoiseDistribution::Sample", "DPPIR/noise/noise.cc:NoiseDistribution::SampleReal", "DPPIR/main.cc:main", "DPPIR/protocol/party/party_initialization.cc:InitializeNoiseSamples", "DPPIR/protocol/parallel_party/parallel_party_initialization.cc:InitializeNoiseSamples", "DPPIR/config/config.cc:ReadFile"]}
{"id": "C76", "title": "A client cannot make the backend read outside of its database", "statement": "Whatever a client asks for, the backend looks up rows of its database only. False of the code: nobody checks the key that the backend reconstructs. If one client is configured with more rows than the backend has and asks for one of the additional rows, then, whatever the schedule and the queue capacities are, the backend never returns, no other process stops abnormally before, and the run goes on until the backend makes a look-up beyond the end of its array, which is undefined behaviour; what it finds there would be sent to the client as the response. The same holds for a deployment that is started from the command line with a usable configuration file, and its client with a file that differs in the number of rows.", "quantifier": "all valid deployments with one server per party, numbers of rows of the client, queries, noise, shuffles, with and without the offline stage, schedules, queue capacities, moments of a run; with messages read one by one or by the receive loops of the code", "why_tests_cant": "Tests use one configuration for all processes; what goes wrong is undefined behaviour in another process than the one that is wrong.", "anchors": ["DPPIR/types/database.cc:Lookup", "DPPIR/protocol/backend/backend_handlers.cc:HandleQuery", "DPPIR/protocol/client/client_online.cc", "DPPIR/types/database.cc:RandomRow", "DPPIR/main.cc:main"]}
{"id": "C77", "title": "A batch is complete before any of it goes on", "statement": "At every moment of every run: if any server of a party has sent a query on, then all servers of that party and of all parties before it have read their whole batch of queries; if any server of the backend has looked up a key, so have all servers of all parties. If any server of a party has sent a response back, then all servers of that party and of all parties after it have read all their responses; if any client has a response, so have all servers of all parties. So nobody learns from timing which queries of a batch came first, and the noise and shuffles of a party always apply to the whole batch; if one client stays away, nothing is looked up or answered for the others. The same holds for a deployment that is started from the command line, in any order, with a usable configuration file.", "quantifier": "all valid deployments with one or several servers per party, queries, noise, shuffles, with and without the offline stage, schedules, queue capacities, crashes, moments of a run; with messages read one by one or by the receive loops of the code", "why_tests_cant": "A missing barrier shows only in schedules where one server is much faster than its siblings.", "anchors": ["DPPIR/protocol/parallel_party/parallel_party_online.cc:StartOnline", "DPPIR/protocol/party/party_online.cc:StartOnline", "DPPIR/protocol/backend/backend_online.cc", "DPPIR/sockets/parallel_socket.cc:BroadcastReady", "DPPIR/sockets/parallel_socket.cc:WaitForReady", "DPPIR/main.cc:main"]}
{"id": "C78", "title": "A client's keys stay secret from the other clients", "statement": "What a client sees in a run is determined by its own configuration, random choices and keys: whatever the other clients ask for and how often, whatever the noise and shuffles of the parties and the schedule are, and whoever crashes, it sees the same calls in the same order as far as it gets. And all parties before the backend together with all other clients learn nothing about a client's keys: whatever they may see together in a complete run of both stages, the number of outcomes of this client's random draws for which they see it is the same for all its keys; for each outcome they see exactly one thing. The random draws of all others are arbitrary, so they may know them. The same holds for a deployment that is started from the command line, in any order, with a usable configuration file.", "quantifier": "all valid deployments with several servers per party, pairs of deployments with the same client, choices of all others, keys, draws, views, schedules, queue capacities, crashes, moments of a run; with messages read one by one or by the receive loops of the code", "why_tests_cant": "A statement about pairs of deployments and about the number of outcomes of cryptographic randomness, for all keys and schedules.", "anchors": ["DPPIR/protocol/client/client_online.cc", "DPPIR/protocol/client/client_offline.cc", "DPPIR/protocol/client/client_handlers.cc", "DPPIR/protocol/parallel_party/parallel_party_online.cc", "DPPIR/protocol/parallel_party/parallel_party_offline.cc", "DPPIR/sharing/incremental.cc:PreIncrementalSecretShares", "DPPIR/main.cc:main"]}
{"id": "C79", "title": "Nothing is read before it was sent", "statement": "At every moment of every run, the queries that a server has read are the first ones, in order, of those that the server before it has passed to its socket so far, and the responses it has read are the first ones of those the server after it has passed to its socket; the backend has looked up a key for every response it has sent, and a client has read a response for every result it returns. So no buffer that is flushed early, and no message that is read from bytes of another one, can produce a query or a response that nobody has sent yet. The same holds for a deployment that is started from the command line, in any order, with a usable configuration file.", "quantifier": "all valid deployments with one or several servers per party, queries, noise, shuffles, with and without the offline stage, schedules, queue capacities, crashes, moments of a run; with messages read one by one or by the receive loops of the code", "why_tests_cant": "A message that is made up from stale or foreign bytes shows only in certain schedules and buffer states, and later is covered by the real one.", "anchors": ["DPPIR/sockets/client_socket.cc:SendQuery", "DPPIR/sockets/client_socket.cc:FlushQueries", "DPPIR/sockets/server_socket.cc:SendResponse", "DPPIR/sockets/server_socket.cc:FlushResponses", "DPPIR/sockets/common.cc:Read", "DPPIR/protocol/party/party_online.cc:StartOnline", "DPPIR/protocol/parallel_party/parallel_party_online.cc:StartOnline", "DPPIR/protocol/backend/backend_handlers.cc:HandleQuery", "DPPIR/main.cc:main"]}
{"id": "C80", "title": "A client that stops does not stop the others", "statement": "Clients are served independently: whether a client gets its results does not depend on the other clients going on. False of the code: as long as one client has not made all the queries it has announced, and forever if it crashes before, no query leaves any server of the first party, nothing is looked up, nobody sends or reads a response and no client returns a result, whatever the schedule is and whoever else crashes. The same holds for a deployment that is started from the command line, in any order, with a usable configuration file.", "quantifier": "all valid deployments with several servers per party, the client that stops and the moment it does, queries, noise, shuffles, with and without the offline stage, schedules, queue capacities, further crashes, moments of a run; with messages read one by one or by the receive loops of the code", "why_tests_cant": "Tests run all clients to the end; that nothing happens in any schedule cannot be observed.", "anchors": ["DPPIR/protocol/parallel_party/parallel_party_online.cc:StartOnline", "DPPIR/sockets/parallel_socket.cc:BroadcastReady", "DPPIR/sockets/parallel_socket.cc:WaitForReady", "DPPIR/protocol/client/client_online.cc", "DPPIR/main.cc:main"]}
{"id": "C81", "title": "The offline stage can be run alone", "statement": "Start a client and all parties with --stage=offline and the same usable configuration file, in any order. They connect, no process stops abnormally or blocks forever, and there is no infinite run. No process asks for a row, sends or reads a query or a response, or looks anything up. When all have returned, every server has read the count that the one before it announced and all the ciphers it sent, in order, as many as announced, and has installed the secret it finds in each; the servers of a party together have sent on the rest of every cipher they read, shuffled with their own ciphers; nothing is left on any connection. With several servers per party this is claimed for builds without DPPIR_SAMPLE and clients with equal numbers of queries, since otherwise tags can collide.", "quantifier": "all machines, usable configurations with one or several servers per party, numbers of queries, keys, schedules, capacities of the connections, results of read and poll, moments of a run; with and without the set-up of connections", "why_tests_cant": "Blocking and failing depend on the schedule and on the bytes each read returns, and the number of messages is unbounded.", "anchors": ["DPPIR/main.cc:main", "DPPIR/protocol/client/client_offline.cc", "DPPIR/protocol/party/party_offline.cc", "DPPIR/protocol/parallel_party/parallel_party_offline.cc", "DPPIR/protocol/backend/backend_offline.cc", "DPPIR/protocol/parallel_party/parallel_party.h:Start"]}
{"id": "C82", "title": "The keys are hidden whatever stages are run", "statement": "Start a deployment from the command line with any stage that main accepts and that answers queries; then the parties do not see the keys and rows. False of the code: with --stage=online no secrets are made, the processes act as if all shares were the identity and all masks were zero. Then at every moment of every run the first party has read the keys of its client as plain numbers, in order, all of them once it sends a query on, and the responses it has sent back are the rows with these keys; and at every hop a query carries the number of the row that its response is.", "quantifier": "all machines, usable configurations with one or several servers per party, numbers of queries, keys, noise, shuffles, schedules, capacities of the connections, results of read and poll, moments of a run; with and without the set-up of connections", "why_tests_cant": "All results are right, so tests of the online stage alone succeed; that every query is in the clear is a statement about all keys and schedules.", "anchors": ["DPPIR/main.cc:main", "DPPIR/protocol/client/client_offline.cc:SimulateOffline", "DPPIR/protocol/party/party_offline.cc:SimulateOffline", "DPPIR/protocol/parallel_party/parallel_party_offline.cc:SimulateOffline", "DPPIR/protocol/backend/backend_offline.cc:SimulateOffline", "DPPIR/protocol/client/client_online.cc", "DPPIR/sharing/incremental.cc"]}

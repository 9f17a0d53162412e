{
 "C09": {
  "status": "proved",
  "note": "With one server per party and with several (_parallel). A server of a parallel party that received a bad cipher never returns and sends nothing more to the previous or next party; before it opens the cipher it meets its siblings, who can make it stop in other ways if they misbehave (C56)."
 },
 "C11": {
  "status": "proved",
  "note": "The property is false of the code; proved: the negation (no arrangement with a fixed message is ever produced), and that it would hold with a 32-bit rand()."
 },
 "C16": {
  "status": "partial",
  "note": "The property as stated is false of the code. Proved: the exact condition under which it holds (iff), a simple sufficient condition, and the counterexample 5 rows / 4 servers."
 },
 "C18": {
  "status": "proved",
  "note": "The property is false of the code. Proved: the negation for all parameters (the check never fires) and that oversized domains run into undefined behaviour."
 },
 "C20": {
  "status": "partial",
  "note": "False of the code with delta itself (C20_exact_delta_violated) and in the default build (C20_default_build_violated). Proved with the factor 2 e^(eps/2) on delta, in exact arithmetic with uniform draws and, with explicit further errors of order 2^-47 and cutoff * 2^-31, in double arithmetic with draws from rand() (C20_rounded_partial). Missing: delta without these terms; that rand() is uniform and independent is assumed, and C72 shows that the code does not see to it: the generator is never seeded before sampling."
 },
 "C31": {
  "status": "proved",
  "note": "The first sentence is false of the code in general; the statement says when it holds. Proved: it holds for equal clients and equal noise per row; a deployment serves its clients if and only if all tags are distinct; the offline stage never ends when two clients' tag ranges overlap, or when a server's noise is not a multiple of its rows (general theorems and concrete deployments)."
 },
 "C38": {
  "status": "proved",
  "note": "For deployments started from the command line: C38_one_server."
 },
 "C39": {
  "status": "proved",
  "note": "For deployments started from the command line: C39_one_server."
 },
 "C46": {
  "status": "proved",
  "note": "Proved: progress and finiteness of every run when each connection holds everything its sender sends; for two servers with less room, a reachable state in which both are blocked in send() for ever; for every capacity below 2 GB there is such a deployment."
 },
 "C47": {
  "status": "proved",
  "note": "One server per party (C47_installed_before_online) and several (_parallel), the latter for deployments with distinct tags, the condition without which the offline stage stops (C31); both also for processes with the receive loops of the code (_loops). For deployments started from the command line: C47_one_server, C47_many_servers; the latter for equal query counts and a build without DPPIR_SAMPLE, as in C61."
 },
 "C48": {
  "status": "proved",
  "note": "The property is false of the code. Proved: the negation, for every deployment, with one server per party and with several: the order in which the backend sees client tags is the order of the client's queries, and each tag is the position at which its owner created it. With several servers the backend servers together recover the list of keys of every single client. Also for deployments started from the command line (C48_violated_one_server, C48_violated_many_servers), at every moment of every run, with or without setting up the connections first; with several servers, for equal query counts and fixed noise samples (as in C61)."
 },
 "C49": {
  "status": "partial",
  "note": "The property as stated is false of the code. Proved: exact counts while input plus noise stays below 2^32; beyond that the announced count wraps, and a party, with or without the offline stage and among arbitrary peers, never returns (general theorems; concrete witnesses running past the end of the shuffler). A party that returns has announced exactly input plus noise, unless the number announced is within one sample of 2^32. Likewise each server of a party with several servers, for the queries it was told of and its own noise."
 },
 "C51": {
  "status": "proved",
  "note": "For deployments started from the command line (C51_many_servers) with both stages: equal query counts and a build without DPPIR_SAMPLE, as in C61."
 },
 "C52": {
  "status": "proved",
  "note": "For deployments started from the command line (C52_many_servers) with both stages: equal query counts and a build without DPPIR_SAMPLE, as in C61."
 },
 "C54": {
  "status": "proved",
  "note": "Proved for all configurations and schedules, with the exact condition on ports (iff); generated configurations with at most 1000 servers meet it on any machines, with more than 1001 on one machine they violate it. Retries of connect are no steps of the model; port 0 and foreign processes that connect are left out."
 },
 "C55": {
  "status": "proved",
  "note": "Crash = the process stops between two steps; a prefix of what it has in transit still arrives. Also for processes that receive with the loops of the code (C55_results_loops) and for those that main starts (C55_one_server, C55_many_servers, and C55_nothing_new_any for any processes), once their connections exist. The end of a connection as reported by poll is covered by C55_end_of_stream. That the surviving processes then wait (C25) is no part of the property."
 },
 "C56": {
  "status": "partial",
  "note": "False of the code for parties and backends, with one and with several servers (C56_violated_*). Proved in full for clients, with one and with several servers per party. For parties and backends with one server, proved that a stop other than by assertion or exception needs an unknown tag, a key outside of the database, or counts that do not fit 32 bits. The same for parties and backends with several servers, where in addition the siblings can mislead by the counts and secrets they announce, which are read off the bytes the process heard (Spec/Hearing.lean). All of this also with the receive loops of the code (theorems with _loops). Missing: the excluded cases, which are violations. For clients started from the command line: C56_client_one_server, C56_client_many_servers (connections exist)."
 },
 "C57": {
  "status": "proved",
  "note": "One and several servers per party. Assertions are enabled, as in the build of the repository. For clients started from the command line, among any processes: C57_one_server, C57_many_servers (connections exist)."
 },
 "C58": {
  "status": "partial",
  "note": "Proved for every law of the samples that is (epsilon, delta) differentially private (C58_lookups_private, C58_lookups_private_parallel), hence for the code's sampler with the delta of C20, in exact and in double arithmetic; with several servers per party for the online stage (with both stages, whether a run completes depends on the samples, C31). Missing: the configured delta itself, which is false as in C20; the default build is not private at all (C58_violated_fixed_samples). The samples of the code are constants (C72), because the generator is never seeded before sampling."
 },
 "C59": {
  "status": "proved",
  "note": "Sealed boxes are taken as opaque to those who do not have the key: of a sealed message only the length is seen. Complete runs. With several servers per party the tags must be distinct, without which no run completes (C31)."
 },
 "C60": {
  "status": "proved",
  "note": "First for networks with read buffers in which a read returns anything that has arrived (C60_reading_ahead, C60_no_new_behaviour), then for the receive loops as they are in the code, with their limits and counters (C60_receive_loops, C60_loops_same_calls, C60_loops_refine). The exchange among siblings is modelled with its reads as they are in both. The same for C56 and C57: their theorems with _loops."
 },
 "C61": {
  "status": "proved",
  "note": "The limits are those of C30, C31 and C44. C61_samples gives the bound on the samples. That the processes find each other is C54; both together are C62. A process one of whose noise samples would be undefined counts as stopped from the start. C61_command_line starts from the generator's arguments in decimal (C67)."
 },
 "C62": {
  "status": "proved",
  "note": "Conditions of C54 and C61. C62_connecting holds for any programs that answer on existing connections; the others apply it to the programs of C61. Local computations of a constructor that come before it connects, and can fail, happen after connecting in the model."
 },
 "C63": {
  "status": "proved",
  "note": "The explicit delta is roundedDelta of C20_rounded; it exceeds the configured delta, as C20 and C58 show it must. With several servers the counts are those of all servers of the backend together, for the online stage only, because C61 has no offline stage with DPPIR_SAMPLE there. C63_violated_default_build: two queries that the default build tells apart with certainty. The theorem takes one party's results of rand() to be random; in the code they are the same in every run (C72), because the generator is never seeded before sampling."
 },
 "C64": {
  "status": "proved",
  "note": "The property is false of the code. Proved: the negation, for builds with NDEBUG: what OnionEncrypt returns contains every second secret in the clear and does not depend on the others, OnionDecrypt accepts every cipher; where a cipher opens both builds agree. For builds with assertions the property is C07 and C09."
 },
 "C65": {
  "status": "partial",
  "note": "The property is false of the code (C65_violated_*): the first connection to a port takes the place of the previous party or the client, for every server of every deployment; and a connection that declares another server's id leaves a sibling without a socket. Proved for all programs of all other processes: the part stated last (C65_among_strangers_partial). Where no stranger connects, C54 and C62 hold."
 },
 "C66": {
  "status": "partial",
  "note": "Proved for every text in dotted decimal notation (exactly the texts inet_pton accepts, modelled after glibc), up to whole generated deployments. Missing: the refusal of other texts, which is false of the code (C66_violated_not_refused, for every such text)."
 },
 "C67": {
  "status": "partial",
  "note": "Proved for decimal numbers in range, on the command line and typed in, up to the file read back; for every file written from arguments, what it says (C67_written); and for every argument how it is read (C67_number_read). Missing: the refusal of everything else, which is false of the code (C67_rest_ignored, C67_typed_undefined, C67_violated_*). The value of a floating point text is a parameter."
 },
 "C69": {
  "status": "proved",
  "note": "For deployments started from the command line (C69_one_server, C69_many_servers) with several servers: equal query counts and a build without DPPIR_SAMPLE, as in C61."
 },
 "C70": {
  "status": "proved",
  "note": "For deployments started from the command line (C70_one_server, C70_many_servers) with several servers: equal query counts and a build without DPPIR_SAMPLE, as in C61."
 },
 "C71": {
  "status": "proved",
  "note": "Sealed boxes are taken as opaque, as in C59; complete runs of both stages. With several servers per party: the conditions of C61 for both stages (default build, equally many queries at each server), without which tags collide (C31). What the parties see is what their programs read, send and open; C74 shows what they could open with the secret keys of the others, which the configuration file has, too."
 },
 "C72": {
  "status": "partial",
  "note": "False of the code: C72_violated_one_server, C72_violated_many_servers (online stage), C72_violated_reveals, and with connecting C72_violated_one_server_connecting. Proved besides: what a process with an unseeded generator does (C72_one_process_partial, all flags and files) and that clients get their rows (C72_one_server_partial, C72_many_servers_partial). Missing: the independence itself, which does not hold."
 },
 "C73": {
  "status": "partial",
  "note": "False of the code: C73_violated_one_server, C73_violated_many_servers, C73_violated_place, C73_violated_place_many_servers, in both builds. Proved besides: the numbers of look-ups do not depend on the order of the queries (C73_counts_partial). Missing: hiding the order, which does not hold."
 },
 "C74": {
  "status": "proved",
  "note": "The property is false of the code. Proved: the negation, for every started deployment with both stages, one server per party or several (default build): World.reveal, which uses nothing but the configuration and what the first party reads, gives the row of every query."
 },
 "C75": {
  "status": "proved",
  "note": "Follows from C63 by changing one query after the other; the notes of C63 apply. Several clients with several servers per party (online stage), with and without connecting."
 },
 "C76": {
  "status": "proved",
  "note": "The property is false of the code; the theorem is its negation, for every deployment whose client asks for a row that the backend does not have; also with the receive loops of the code, and for the processes that main starts once their connections exist. One server per party. That the look-up is undefined behaviour is in the model of Database::Lookup (an index outside of the array is Fault.ub). For a client with the same configuration, C40 and C53 prove that all look-ups are in range."
 },
 "C80": {
  "status": "proved",
  "note": "The property is false of the code; proved: the negation, for every run with and without crashes."
 },
 "C82": {
  "status": "proved",
  "note": "The property is false of the code; proved: the negation, for every run with --stage=online. With --stage=all the keys are hidden as C59 and C78 say."
 }
}
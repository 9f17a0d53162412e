{
 "claims": [
  {
   "property": "C01",
   "status": "proved",
   "theorems": [
    "DPPIR.Props.C01_query_sharing_roundtrip",
    "DPPIR.Props.C01_query_sharing_roundtrip_any_shares",
    "DPPIR.Props.C01_query_sharing_mod_p",
    "DPPIR.Props.C01_fails_at_or_above_prime"
   ],
   "note": ""
  },
  {
   "property": "C02",
   "status": "proved",
   "theorems": [
    "DPPIR.Props.C02_euclid_no_overflow",
    "DPPIR.Props.C02_mod_inverse",
    "DPPIR.Props.C02_tally_no_overflow",
    "DPPIR.Props.C02_reconstruct_no_overflow"
   ],
   "note": ""
  },
  {
   "property": "C03",
   "status": "proved",
   "theorems": [
    "DPPIR.Props.C03_query_hiding",
    "DPPIR.Props.C03_query_hiding_count",
    "DPPIR.Props.C03_query_hiding_draws"
   ],
   "note": ""
  },
  {
   "property": "C04",
   "status": "proved",
   "theorems": [
    "DPPIR.Props.C04_tampering_changes_key",
    "DPPIR.Props.C04_displacement_uniform",
    "DPPIR.Props.C04_displacement_draws"
   ],
   "note": ""
  },
  {
   "property": "C05",
   "status": "proved",
   "theorems": [
    "DPPIR.Props.C05_masking_roundtrip",
    "DPPIR.Props.C05_reconstruct_bytes",
    "DPPIR.Props.C05_no_shares_does_not_return"
   ],
   "note": ""
  },
  {
   "property": "C06",
   "status": "proved",
   "theorems": [
    "DPPIR.Props.C06_shares_jointly_uniform",
    "DPPIR.Props.C06_masked_response_uniform"
   ],
   "note": ""
  },
  {
   "property": "C07",
   "status": "proved",
   "theorems": [
    "DPPIR.Props.C07_onion_is_layered",
    "DPPIR.Props.C07_onion_peel",
    "DPPIR.Props.C07_onion_roundtrip"
   ],
   "note": ""
  },
  {
   "property": "C08",
   "status": "proved",
   "theorems": [
    "DPPIR.Props.C08_onion_sizes",
    "DPPIR.Props.C08_peel_size"
   ],
   "note": ""
  },
  {
   "property": "C09",
   "status": "proved",
   "theorems": [
    "DPPIR.Props.C09_party",
    "DPPIR.Props.C09_backend",
    "DPPIR.Props.C09_party_stops",
    "DPPIR.Props.C09_backend_stops",
    "DPPIR.Props.C09_party_parallel",
    "DPPIR.Props.C09_backend_parallel"
   ],
   "note": "With one server per party and with several (_parallel). A server of a parallel party that received a bad cipher never returns and sends nothing more to the previous or next party; before it opens the cipher it meets its siblings, who can make it stop in other ways if they misbehave (C56)."
  },
  {
   "property": "C10",
   "status": "proved",
   "theorems": [
    "DPPIR.Props.C10_local_shuffle_bijective",
    "DPPIR.Props.C10_local_shuffle_injective",
    "DPPIR.Props.C10_local_shuffle_repeatable"
   ],
   "note": ""
  },
  {
   "property": "C11",
   "status": "proved",
   "theorems": [
    "DPPIR.Props.C11_shuffle_never_fixes_a_message",
    "DPPIR.Props.C11_not_every_arrangement_possible",
    "DPPIR.Props.C11_every_arrangement_possible_with_32bit_rand"
   ],
   "note": "The property is false of the code; proved: the negation (no arrangement with a fixed message is ever produced), and that it would hold with a 32-bit rand()."
  },
  {
   "property": "C12",
   "status": "proved",
   "theorems": [
    "DPPIR.Props.C12_plan_exists",
    "DPPIR.Props.C12_siblings_agree"
   ],
   "note": ""
  },
  {
   "property": "C13",
   "status": "proved",
   "theorems": [
    "DPPIR.Props.C13_deshuffle_inverts",
    "DPPIR.Props.C13_deshuffle_is_a_permutation"
   ],
   "note": ""
  },
  {
   "property": "C14",
   "status": "proved",
   "theorems": [
    "DPPIR.Props.C14_find_source",
    "DPPIR.Props.C14_blocks_contiguous"
   ],
   "note": ""
  },
  {
   "property": "C15",
   "status": "proved",
   "theorems": [
    "DPPIR.Props.C15_balanced",
    "DPPIR.Props.C15_conserved"
   ],
   "note": ""
  },
  {
   "property": "C16",
   "status": "partial",
   "theorems": [
    "DPPIR.Props.C16_partition_iff",
    "DPPIR.Props.C16_partition_partial",
    "DPPIR.Props.C16_violated",
    "DPPIR.Props.C16_too_small"
   ],
   "note": "The property as stated is false of the code. Proved: the exact condition under which it holds (iff), a simple sufficient condition, and the counterexample 5 rows / 4 servers."
  },
  {
   "property": "C17",
   "status": "proved",
   "theorems": [
    "DPPIR.Props.C17_domain",
    "DPPIR.Props.C17_no_noise"
   ],
   "note": ""
  },
  {
   "property": "C18",
   "status": "proved",
   "theorems": [
    "DPPIR.Props.C18_check_never_fires",
    "DPPIR.Props.C18_oversized_is_ub",
    "DPPIR.Props.C18_tiny_delta_is_ub"
   ],
   "note": "The property is false of the code. Proved: the negation for all parameters (the check never fires) and that oversized domains run into undefined behaviour."
  },
  {
   "property": "C19",
   "status": "proved",
   "theorems": [
    "DPPIR.Props.C19_sampler_is_laplace",
    "DPPIR.Props.C19_cutoff_quantile",
    "DPPIR.Props.C19_invCDF_mirrored"
   ],
   "note": ""
  },
  {
   "property": "C20",
   "status": "partial",
   "theorems": [
    "DPPIR.Props.C20_differential_privacy_partial",
    "DPPIR.Props.C20_lower_bound",
    "DPPIR.Props.C20_exact_delta_violated",
    "DPPIR.Props.C20_default_build_violated",
    "DPPIR.Props.C20_rounded_partial"
   ],
   "note": "False of the code with delta itself (C20_exact_delta_violated) and in the default build (C20_default_build_violated). Proved with the factor 2 e^(eps/2) on delta, in exact arithmetic with uniform draws and, with explicit further errors of order 2^-47 and cutoff * 2^-31, in double arithmetic with draws from rand() (C20_rounded_partial). Missing: delta without these terms; that rand() is uniform and independent is assumed, and C72 shows that the code does not see to it: the generator is never seeded before sampling."
  },
  {
   "property": "C21",
   "status": "proved",
   "theorems": [
    "DPPIR.Props.C21_map_semantics",
    "DPPIR.Props.C21_fill",
    "DPPIR.Props.C21_misuse",
    "DPPIR.Props.C21_zero"
   ],
   "note": ""
  },
  {
   "property": "C22",
   "status": "proved",
   "theorems": [
    "DPPIR.Props.C22_cipher_reads",
    "DPPIR.Props.C22_typed_reads",
    "DPPIR.Props.C22_schedules_cover",
    "DPPIR.Props.C22_exact_reads"
   ],
   "note": ""
  },
  {
   "property": "C23",
   "status": "proved",
   "theorems": [
    "DPPIR.Props.C23_cipher_writes",
    "DPPIR.Props.C23_typed_writes"
   ],
   "note": ""
  },
  {
   "property": "C24",
   "status": "proved",
   "theorems": [
    "DPPIR.Props.C24_sibling_link",
    "DPPIR.Props.C24_chain_link"
   ],
   "note": ""
  },
  {
   "property": "C25",
   "status": "proved",
   "theorems": [
    "DPPIR.Props.C25_crash_ciphers",
    "DPPIR.Props.C25_crash_typed",
    "DPPIR.Props.C25_crash_exact"
   ],
   "note": ""
  },
  {
   "property": "C26",
   "status": "proved",
   "theorems": [
    "DPPIR.Props.C26_poll",
    "DPPIR.Props.C26_poll_overrun"
   ],
   "note": ""
  },
  {
   "property": "C27",
   "status": "proved",
   "theorems": [
    "DPPIR.Props.C27_batch"
   ],
   "note": ""
  },
  {
   "property": "C28",
   "status": "proved",
   "theorems": [
    "DPPIR.Props.C28_party_store_load",
    "DPPIR.Props.C28_party_absent",
    "DPPIR.Props.C28_party_collision_stops",
    "DPPIR.Props.C28_party_simulated",
    "DPPIR.Props.C28_backend_store_load",
    "DPPIR.Props.C28_backend_absent",
    "DPPIR.Props.C28_backend_collision_stops",
    "DPPIR.Props.C28_backend_simulated"
   ],
   "note": ""
  },
  {
   "property": "C29",
   "status": "proved",
   "theorems": [
    "DPPIR.Props.C29_client_fifo",
    "DPPIR.Props.C29_noise_fifo"
   ],
   "note": ""
  },
  {
   "property": "C30",
   "status": "proved",
   "theorems": [
    "DPPIR.Props.C30_tags_distinct"
   ],
   "note": ""
  },
  {
   "property": "C31",
   "status": "proved",
   "theorems": [
    "DPPIR.Props.C31_violated_equal_tags",
    "DPPIR.Props.C31_serves_iff_distinct",
    "DPPIR.Props.C31_violated_unequal_clients",
    "DPPIR.Props.C31_violated_first_client_larger",
    "DPPIR.Props.C31_violated_uneven_noise",
    "DPPIR.Props.C31_tags_distinct"
   ],
   "note": "The first sentence is false of the code in general; the statement says when it holds. Proved: it holds for equal clients and equal noise per row; a deployment serves its clients if and only if all tags are distinct; the offline stage never ends when two clients' tag ranges overlap, or when a server's noise is not a multiple of its rows (general theorems and concrete deployments)."
  },
  {
   "property": "C32",
   "status": "proved",
   "theorems": [
    "DPPIR.Props.C32_serialize_iff",
    "DPPIR.Props.C32_round_trip",
    "DPPIR.Props.C32_embedded_nul"
   ],
   "note": ""
  },
  {
   "property": "C33",
   "status": "proved",
   "theorems": [
    "DPPIR.Props.C33_truncated",
    "DPPIR.Props.C33_trailing",
    "DPPIR.Props.C33_accepted_is_consistent",
    "DPPIR.Props.C33_missing_file",
    "DPPIR.Props.C33_noncanonical_accepted"
   ],
   "note": ""
  },
  {
   "property": "C34",
   "status": "proved",
   "theorems": [
    "DPPIR.Props.C34_from_args",
    "DPPIR.Props.C34_ports_collide",
    "DPPIR.Props.C34_ports",
    "DPPIR.Props.C34_args_truncate",
    "DPPIR.Props.C34_interactive"
   ],
   "note": ""
  },
  {
   "property": "C35",
   "status": "proved",
   "theorems": [
    "DPPIR.Props.C35_bad_flags",
    "DPPIR.Props.C35_dispatch",
    "DPPIR.Props.C35_queries_wrap"
   ],
   "note": ""
  },
  {
   "property": "C36",
   "status": "proved",
   "theorems": [
    "DPPIR.Props.C36_end_to_end"
   ],
   "note": ""
  },
  {
   "property": "C37",
   "status": "proved",
   "theorems": [
    "DPPIR.Props.C37_online_only"
   ],
   "note": ""
  },
  {
   "property": "C38",
   "status": "proved",
   "theorems": [
    "DPPIR.Props.C38_counts_conserved",
    "DPPIR.Props.C38_never_more",
    "DPPIR.Props.C38_one_server"
   ],
   "note": "For deployments started from the command line: C38_one_server."
  },
  {
   "property": "C39",
   "status": "proved",
   "theorems": [
    "DPPIR.Props.C39_exact_noise",
    "DPPIR.Props.C39_one_server"
   ],
   "note": "For deployments started from the command line: C39_one_server."
  },
  {
   "property": "C40",
   "status": "proved",
   "theorems": [
    "DPPIR.Props.C40_lookups_in_range",
    "DPPIR.Props.C40_one_server"
   ],
   "note": ""
  },
  {
   "property": "C41",
   "status": "proved",
   "theorems": [
    "DPPIR.Props.C41_queries_shuffled",
    "DPPIR.Props.C41_ciphers_shuffled",
    "DPPIR.Props.C41_result_unique"
   ],
   "note": ""
  },
  {
   "property": "C42",
   "status": "proved",
   "theorems": [
    "DPPIR.Props.C42_any_answers",
    "DPPIR.Props.C42_progress",
    "DPPIR.Props.C42_runs_finite",
    "DPPIR.Props.C42_own_answers"
   ],
   "note": ""
  },
  {
   "property": "C43",
   "status": "proved",
   "theorems": [
    "DPPIR.Props.C43_stores_united",
    "DPPIR.Props.C43_backend_stores_united",
    "DPPIR.Props.C43_progress",
    "DPPIR.Props.C43_backend_progress",
    "DPPIR.Props.C43_equal_tags_stop",
    "DPPIR.Props.C43_backend_equal_tags_stop",
    "DPPIR.Props.C43_runs_finite"
   ],
   "note": ""
  },
  {
   "property": "C44",
   "status": "proved",
   "theorems": [
    "DPPIR.Props.C44_end_to_end",
    "DPPIR.Props.C44_distinct_tags",
    "DPPIR.Props.C44_online_only",
    "DPPIR.Props.C44_violated_255_servers"
   ],
   "note": ""
  },
  {
   "property": "C45",
   "status": "proved",
   "theorems": [
    "DPPIR.Props.C45_no_deadlock"
   ],
   "note": ""
  },
  {
   "property": "C46",
   "status": "proved",
   "theorems": [
    "DPPIR.Props.C46_queries_progress",
    "DPPIR.Props.C46_ciphers_progress",
    "DPPIR.Props.C46_runs_finite",
    "DPPIR.Props.C46_queries_can_block",
    "DPPIR.Props.C46_secrets_can_block",
    "DPPIR.Props.C46_no_capacity_suffices"
   ],
   "note": "Proved: progress and finiteness of every run when each connection holds everything its sender sends; for two servers with less room, a reachable state in which both are blocked in send() for ever; for every capacity below 2 GB there is such a deployment."
  },
  {
   "property": "C47",
   "status": "proved",
   "theorems": [
    "DPPIR.Props.C47_installed_before_online",
    "DPPIR.Props.C47_installed_before_online_parallel",
    "DPPIR.Props.C47_installed_before_online_loops",
    "DPPIR.Props.C47_installed_before_online_loops_parallel",
    "DPPIR.Props.C47_one_server",
    "DPPIR.Props.C47_many_servers"
   ],
   "note": "One server per party (C47_installed_before_online) and several (_parallel), the latter for deployments with distinct tags, the condition without which the offline stage stops (C31); both also for processes with the receive loops of the code (_loops). For deployments started from the command line: C47_one_server, C47_many_servers; the latter for equal query counts and a build without DPPIR_SAMPLE, as in C61."
  },
  {
   "property": "C48",
   "status": "proved",
   "theorems": [
    "DPPIR.Props.C48_violated_backend_learns_order",
    "DPPIR.Props.C48_violated_tag_is_position",
    "DPPIR.Props.C48_violated_backend_learns_order_parallel",
    "DPPIR.Props.C48_violated_tag_is_position_parallel",
    "DPPIR.Props.C48_violated_one_server",
    "DPPIR.Props.C48_violated_many_servers"
   ],
   "note": "The property is false of the code. Proved: the negation, for every deployment, with one server per party and with several: the order in which the backend sees client tags is the order of the client's queries, and each tag is the position at which its owner created it. With several servers the backend servers together recover the list of keys of every single client. Also for deployments started from the command line (C48_violated_one_server, C48_violated_many_servers), at every moment of every run, with or without setting up the connections first; with several servers, for equal query counts and fixed noise samples (as in C61)."
  },
  {
   "property": "C49",
   "status": "partial",
   "theorems": [
    "DPPIR.Props.C49_exact_below_partial",
    "DPPIR.Props.C49_violated_announced_wraps",
    "DPPIR.Props.C49_violated_runs_past_the_end",
    "DPPIR.Props.C49_violated_witness",
    "DPPIR.Props.C49_returns_fits_parallel_partial",
    "DPPIR.Props.C49_violated_parallel",
    "DPPIR.Props.C49_returns_exact_partial",
    "DPPIR.Props.C49_violated_never_returns",
    "DPPIR.Props.C49_violated_offline_witness"
   ],
   "note": "The property as stated is false of the code. Proved: exact counts while input plus noise stays below 2^32; beyond that the announced count wraps, and a party, with or without the offline stage and among arbitrary peers, never returns (general theorems; concrete witnesses running past the end of the shuffler). A party that returns has announced exactly input plus noise, unless the number announced is within one sample of 2^32. Likewise each server of a party with several servers, for the queries it was told of and its own noise."
  },
  {
   "property": "C50",
   "status": "proved",
   "theorems": [
    "DPPIR.Props.C50_database_rows",
    "DPPIR.Props.C50_response_equality",
    "DPPIR.Props.C50_rows_distinct"
   ],
   "note": ""
  },
  {
   "property": "C51",
   "status": "proved",
   "theorems": [
    "DPPIR.Props.C51_counts_conserved",
    "DPPIR.Props.C51_loads_add_up",
    "DPPIR.Props.C51_many_servers"
   ],
   "note": "For deployments started from the command line (C51_many_servers) with both stages: equal query counts and a build without DPPIR_SAMPLE, as in C61."
  },
  {
   "property": "C52",
   "status": "proved",
   "theorems": [
    "DPPIR.Props.C52_exact_noise",
    "DPPIR.Props.C52_shares_partition",
    "DPPIR.Props.C52_many_servers"
   ],
   "note": "For deployments started from the command line (C52_many_servers) with both stages: equal query counts and a build without DPPIR_SAMPLE, as in C61."
  },
  {
   "property": "C53",
   "status": "proved",
   "theorems": [
    "DPPIR.Props.C53_lookups_in_range",
    "DPPIR.Props.C53_many_servers"
   ],
   "note": ""
  },
  {
   "property": "C54",
   "status": "proved",
   "theorems": [
    "DPPIR.Props.C54_connects",
    "DPPIR.Props.C54_peers",
    "DPPIR.Props.C54_exactly",
    "DPPIR.Props.C54_generated",
    "DPPIR.Props.C54_violated_generated"
   ],
   "note": "Proved for all configurations and schedules, with the exact condition on ports (iff); generated configurations with at most 1000 servers meet it on any machines, with more than 1001 on one machine they violate it. Retries of connect are no steps of the model; port 0 and foreign processes that connect are left out."
  },
  {
   "property": "C55",
   "status": "proved",
   "theorems": [
    "DPPIR.Props.C55_nothing_new",
    "DPPIR.Props.C55_nothing_new_parallel",
    "DPPIR.Props.C55_results",
    "DPPIR.Props.C55_results_parallel",
    "DPPIR.Props.C55_end_of_stream",
    "DPPIR.Props.C55_results_loops",
    "DPPIR.Props.C55_results_loops_parallel",
    "DPPIR.Props.C55_one_server",
    "DPPIR.Props.C55_many_servers",
    "DPPIR.Props.C55_nothing_new_any"
   ],
   "note": "Crash = the process stops between two steps; a prefix of what it has in transit still arrives. Also for processes that receive with the loops of the code (C55_results_loops) and for those that main starts (C55_one_server, C55_many_servers, and C55_nothing_new_any for any processes), once their connections exist. The end of a connection as reported by poll is covered by C55_end_of_stream. That the surviving processes then wait (C25) is no part of the property."
  },
  {
   "property": "C56",
   "status": "partial",
   "theorems": [
    "DPPIR.Props.C56_party_partial",
    "DPPIR.Props.C56_backend_partial",
    "DPPIR.Props.C56_client",
    "DPPIR.Props.C56_violated_party",
    "DPPIR.Props.C56_violated_backend",
    "DPPIR.Props.C56_client_parallel",
    "DPPIR.Props.C56_backend_parallel_partial",
    "DPPIR.Props.C56_party_parallel_partial",
    "DPPIR.Props.C56_violated_party_parallel",
    "DPPIR.Props.C56_violated_backend_parallel",
    "DPPIR.Props.C56_party_loops_partial",
    "DPPIR.Props.C56_backend_loops_partial",
    "DPPIR.Props.C56_client_loops",
    "DPPIR.Props.C56_client_loops_parallel",
    "DPPIR.Props.C56_backend_loops_parallel_partial",
    "DPPIR.Props.C56_party_loops_parallel_partial",
    "DPPIR.Props.C56_client_one_server",
    "DPPIR.Props.C56_client_many_servers"
   ],
   "note": "False of the code for parties and backends, with one and with several servers (C56_violated_*). Proved in full for clients, with one and with several servers per party. For parties and backends with one server, proved that a stop other than by assertion or exception needs an unknown tag, a key outside of the database, or counts that do not fit 32 bits. The same for parties and backends with several servers, where in addition the siblings can mislead by the counts and secrets they announce, which are read off the bytes the process heard (Spec/Hearing.lean). All of this also with the receive loops of the code (theorems with _loops). Missing: the excluded cases, which are violations. For clients started from the command line: C56_client_one_server, C56_client_many_servers (connections exist)."
  },
  {
   "property": "C57",
   "status": "proved",
   "theorems": [
    "DPPIR.Props.C57_client_never_wrong",
    "DPPIR.Props.C57_client_never_wrong_parallel",
    "DPPIR.Props.C57_client_never_wrong_loops",
    "DPPIR.Props.C57_client_never_wrong_loops_parallel",
    "DPPIR.Props.C57_one_server",
    "DPPIR.Props.C57_many_servers"
   ],
   "note": "One and several servers per party. Assertions are enabled, as in the build of the repository. For clients started from the command line, among any processes: C57_one_server, C57_many_servers (connections exist)."
  },
  {
   "property": "C58",
   "status": "partial",
   "theorems": [
    "DPPIR.Props.C58_noise_of_the_code_rounded_partial",
    "DPPIR.Props.C58_lookups_private",
    "DPPIR.Props.C58_lookups_private_parallel",
    "DPPIR.Props.C58_noise_of_the_code_partial",
    "DPPIR.Props.C58_violated_fixed_samples"
   ],
   "note": "Proved for every law of the samples that is (epsilon, delta) differentially private (C58_lookups_private, C58_lookups_private_parallel), hence for the code's sampler with the delta of C20, in exact and in double arithmetic; with several servers per party for the online stage (with both stages, whether a run completes depends on the samples, C31). Missing: the configured delta itself, which is false as in C20; the default build is not private at all (C58_violated_fixed_samples). The samples of the code are constants (C72), because the generator is never seeded before sampling."
  },
  {
   "property": "C59",
   "status": "proved",
   "theorems": [
    "DPPIR.Props.C59_finitely_many_draws",
    "DPPIR.Props.C59_parties_learn_nothing",
    "DPPIR.Props.C59_one_view",
    "DPPIR.Props.C59_parties_learn_nothing_parallel",
    "DPPIR.Props.C59_one_view_parallel",
    "DPPIR.Props.C59_needs_offline_stage"
   ],
   "note": "Sealed boxes are taken as opaque to those who do not have the key: of a sealed message only the length is seen. Complete runs. With several servers per party the tags must be distinct, without which no run completes (C31)."
  },
  {
   "property": "C60",
   "status": "proved",
   "theorems": [
    "DPPIR.Props.C60_receive_loops",
    "DPPIR.Props.C60_receive_loops_parallel",
    "DPPIR.Props.C60_loops_same_calls",
    "DPPIR.Props.C60_loops_same_calls_parallel",
    "DPPIR.Props.C60_loops_refine",
    "DPPIR.Props.C60_loops_refine_parallel",
    "DPPIR.Props.C60_reading_ahead",
    "DPPIR.Props.C60_reading_ahead_parallel",
    "DPPIR.Props.C60_same_calls",
    "DPPIR.Props.C60_same_calls_parallel",
    "DPPIR.Props.C60_no_new_behaviour"
   ],
   "note": "First for networks with read buffers in which a read returns anything that has arrived (C60_reading_ahead, C60_no_new_behaviour), then for the receive loops as they are in the code, with their limits and counters (C60_receive_loops, C60_loops_same_calls, C60_loops_refine). The exchange among siblings is modelled with its reads as they are in both. The same for C56 and C57: their theorems with _loops."
  },
  {
   "property": "C61",
   "status": "proved",
   "theorems": [
    "DPPIR.Props.C61_one_server",
    "DPPIR.Props.C61_many_servers",
    "DPPIR.Props.C61_samples",
    "DPPIR.Props.C61_generated",
    "DPPIR.Props.C61_generated_many",
    "DPPIR.Props.C61_command_line",
    "DPPIR.Props.C61_command_line_many"
   ],
   "note": "The limits are those of C30, C31 and C44. C61_samples gives the bound on the samples. That the processes find each other is C54; both together are C62. A process one of whose noise samples would be undefined counts as stopped from the start. C61_command_line starts from the generator's arguments in decimal (C67)."
  },
  {
   "property": "C62",
   "status": "proved",
   "theorems": [
    "DPPIR.Props.C62_connecting",
    "DPPIR.Props.C62_one_server",
    "DPPIR.Props.C62_many_servers",
    "DPPIR.Props.C62_generated",
    "DPPIR.Props.C62_generated_many"
   ],
   "note": "Conditions of C54 and C61. C62_connecting holds for any programs that answer on existing connections; the others apply it to the programs of C61. Local computations of a constructor that come before it connects, and can fail, happen after connecting in the model."
  },
  {
   "property": "C63",
   "status": "proved",
   "theorems": [
    "DPPIR.Props.C63_doubles",
    "DPPIR.Props.C63_one_server",
    "DPPIR.Props.C63_many_servers",
    "DPPIR.Props.C63_connecting",
    "DPPIR.Props.C63_one_server_connecting",
    "DPPIR.Props.C63_many_servers_connecting",
    "DPPIR.Props.C63_violated_default_build"
   ],
   "note": "The explicit delta is roundedDelta of C20_rounded; it exceeds the configured delta, as C20 and C58 show it must. With several servers the counts are those of all servers of the backend together, for the online stage only, because C61 has no offline stage with DPPIR_SAMPLE there. C63_violated_default_build: two queries that the default build tells apart with certainty. The theorem takes one party's results of rand() to be random; in the code they are the same in every run (C72), because the generator is never seeded before sampling."
  },
  {
   "property": "C64",
   "status": "proved",
   "theorems": [
    "DPPIR.Props.C64_violated_secrets_in_the_clear",
    "DPPIR.Props.C64_violated_secrets_lost",
    "DPPIR.Props.C64_violated_bad_cipher_accepted",
    "DPPIR.Props.C64_decrypt_agrees"
   ],
   "note": "The property is false of the code. Proved: the negation, for builds with NDEBUG: what OnionEncrypt returns contains every second secret in the clear and does not depend on the others, OnionDecrypt accepts every cipher; where a cipher opens both builds agree. For builds with assertions the property is C07 and C09."
  },
  {
   "property": "C65",
   "status": "partial",
   "theorems": [
    "DPPIR.Props.C65_among_strangers_partial",
    "DPPIR.Props.C65_violated_first_come",
    "DPPIR.Props.C65_violated_client_unserved",
    "DPPIR.Props.C65_violated_sibling_missing"
   ],
   "note": "The property is false of the code (C65_violated_*): the first connection to a port takes the place of the previous party or the client, for every server of every deployment; and a connection that declares another server's id leaves a sibling without a socket. Proved for all programs of all other processes: the part stated last (C65_among_strangers_partial). Where no stranger connects, C54 and C62 hold."
  },
  {
   "property": "C66",
   "status": "partial",
   "theorems": [
    "DPPIR.Props.C66_address_partial",
    "DPPIR.Props.C66_violated_not_refused",
    "DPPIR.Props.C66_refines",
    "DPPIR.Props.C66_connects",
    "DPPIR.Props.C66_generated_local",
    "DPPIR.Props.C66_generated"
   ],
   "note": "Proved for every text in dotted decimal notation (exactly the texts inet_pton accepts, modelled after glibc), up to whole generated deployments. Missing: the refusal of other texts, which is false of the code (C66_violated_not_refused, for every such text)."
  },
  {
   "property": "C67",
   "status": "partial",
   "theorems": [
    "DPPIR.Props.C67_number_read",
    "DPPIR.Props.C67_written",
    "DPPIR.Props.C67_args_partial",
    "DPPIR.Props.C67_too_few",
    "DPPIR.Props.C67_not_a_number",
    "DPPIR.Props.C67_rest_ignored",
    "DPPIR.Props.C67_typed_partial",
    "DPPIR.Props.C67_typed_undefined",
    "DPPIR.Props.C67_violated_exponent",
    "DPPIR.Props.C67_violated_negative",
    "DPPIR.Props.C67_violated_count",
    "DPPIR.Props.C67_violated_typed"
   ],
   "note": "Proved for decimal numbers in range, on the command line and typed in, up to the file read back; for every file written from arguments, what it says (C67_written); and for every argument how it is read (C67_number_read). Missing: the refusal of everything else, which is false of the code (C67_rest_ignored, C67_typed_undefined, C67_violated_*). The value of a floating point text is a parameter."
  },
  {
   "property": "C68",
   "status": "proved",
   "theorems": [
    "DPPIR.Props.C68_traffic",
    "DPPIR.Props.C68_same_conversation",
    "DPPIR.Props.C68_keys_do_not_show",
    "DPPIR.Props.C68_traffic_parallel",
    "DPPIR.Props.C68_same_traffic_parallel",
    "DPPIR.Props.C68_keys_do_not_show_parallel"
   ],
   "note": ""
  },
  {
   "property": "C69",
   "status": "proved",
   "theorems": [
    "DPPIR.Props.C69_one_query_per_secret",
    "DPPIR.Props.C69_one_query_per_secret_loops",
    "DPPIR.Props.C69_one_query_per_secret_parallel",
    "DPPIR.Props.C69_one_query_per_secret_loops_parallel",
    "DPPIR.Props.C69_one_server",
    "DPPIR.Props.C69_many_servers"
   ],
   "note": "For deployments started from the command line (C69_one_server, C69_many_servers) with several servers: equal query counts and a build without DPPIR_SAMPLE, as in C61."
  },
  {
   "property": "C70",
   "status": "proved",
   "theorems": [
    "DPPIR.Props.C70_preparation",
    "DPPIR.Props.C70_preparation_loops",
    "DPPIR.Props.C70_preparation_parallel",
    "DPPIR.Props.C70_preparation_loops_parallel",
    "DPPIR.Props.C70_one_server",
    "DPPIR.Props.C70_many_servers"
   ],
   "note": "For deployments started from the command line (C70_one_server, C70_many_servers) with several servers: equal query counts and a build without DPPIR_SAMPLE, as in C61."
  },
  {
   "property": "C71",
   "status": "proved",
   "theorems": [
    "DPPIR.Props.C71_one_server",
    "DPPIR.Props.C71_one_server_connecting",
    "DPPIR.Props.C71_one_view",
    "DPPIR.Props.C71_many_servers",
    "DPPIR.Props.C71_many_servers_connecting",
    "DPPIR.Props.C71_one_view_many"
   ],
   "note": "Sealed boxes are taken as opaque, as in C59; complete runs of both stages. With several servers per party: the conditions of C61 for both stages (default build, equally many queries at each server), without which tags collide (C31). What the parties see is what their programs read, send and open; C74 shows what they could open with the secret keys of the others, which the configuration file has, too."
  },
  {
   "property": "C72",
   "status": "partial",
   "theorems": [
    "DPPIR.Props.C72_one_process_partial",
    "DPPIR.Props.C72_one_server_partial",
    "DPPIR.Props.C72_many_servers_partial",
    "DPPIR.Props.C72_violated_one_server",
    "DPPIR.Props.C72_violated_many_servers",
    "DPPIR.Props.C72_violated_reveals",
    "DPPIR.Props.C72_violated_one_server_connecting"
   ],
   "note": "False of the code: C72_violated_one_server, C72_violated_many_servers (online stage), C72_violated_reveals, and with connecting C72_violated_one_server_connecting. Proved besides: what a process with an unseeded generator does (C72_one_process_partial, all flags and files) and that clients get their rows (C72_one_server_partial, C72_many_servers_partial). Missing: the independence itself, which does not hold."
  },
  {
   "property": "C73",
   "status": "partial",
   "theorems": [
    "DPPIR.Props.C73_violated_one_server",
    "DPPIR.Props.C73_violated_many_servers",
    "DPPIR.Props.C73_violated_place",
    "DPPIR.Props.C73_violated_place_many_servers",
    "DPPIR.Props.C73_counts_partial"
   ],
   "note": "False of the code: C73_violated_one_server, C73_violated_many_servers, C73_violated_place, C73_violated_place_many_servers, in both builds. Proved besides: the numbers of look-ups do not depend on the order of the queries (C73_counts_partial). Missing: hiding the order, which does not hold."
  },
  {
   "property": "C74",
   "status": "proved",
   "theorems": [
    "DPPIR.Props.C74_violated_one_server",
    "DPPIR.Props.C74_violated_many_servers"
   ],
   "note": "The property is false of the code. Proved: the negation, for every started deployment with both stages, one server per party or several (default build): World.reveal, which uses nothing but the configuration and what the first party reads, gives the row of every query."
  },
  {
   "property": "C75",
   "status": "proved",
   "theorems": [
    "DPPIR.Props.C75_one_server",
    "DPPIR.Props.C75_many_servers",
    "DPPIR.Props.C75_one_server_connecting",
    "DPPIR.Props.C75_many_servers_connecting"
   ],
   "note": "Follows from C63 by changing one query after the other; the notes of C63 apply. Several clients with several servers per party (online stage), with and without connecting."
  },
  {
   "property": "C76",
   "status": "proved",
   "theorems": [
    "DPPIR.Props.C76_violated",
    "DPPIR.Props.C76_violated_loops",
    "DPPIR.Props.C76_violated_one_server"
   ],
   "note": "The property is false of the code; the theorem is its negation, for every deployment whose client asks for a row that the backend does not have; also with the receive loops of the code, and for the processes that main starts once their connections exist. One server per party. That the look-up is undefined behaviour is in the model of Database::Lookup (an index outside of the array is Fault.ub). For a client with the same configuration, C40 and C53 prove that all look-ups are in range."
  },
  {
   "property": "C77",
   "status": "proved",
   "theorems": [
    "DPPIR.Props.C77_queries_wait",
    "DPPIR.Props.C77_responses_wait",
    "DPPIR.Props.C77_queries_wait_parallel",
    "DPPIR.Props.C77_responses_wait_parallel",
    "DPPIR.Props.C77_wait_loops",
    "DPPIR.Props.C77_wait_loops_parallel",
    "DPPIR.Props.C77_wait_crash",
    "DPPIR.Props.C77_wait_crash_parallel",
    "DPPIR.Props.C77_one_server",
    "DPPIR.Props.C77_many_servers"
   ],
   "note": ""
  },
  {
   "property": "C78",
   "status": "proved",
   "theorems": [
    "DPPIR.Props.C78_client_view",
    "DPPIR.Props.C78_client_view_loops",
    "DPPIR.Props.C78_client_view_crash",
    "DPPIR.Props.C78_others_learn_nothing",
    "DPPIR.Props.C78_one_view",
    "DPPIR.Props.C78_started_client_view",
    "DPPIR.Props.C78_started",
    "DPPIR.Props.C78_started_connecting",
    "DPPIR.Props.C78_started_one_view"
   ],
   "note": ""
  },
  {
   "property": "C79",
   "status": "proved",
   "theorems": [
    "DPPIR.Props.C79_in_order",
    "DPPIR.Props.C79_in_order_parallel",
    "DPPIR.Props.C79_in_order_loops",
    "DPPIR.Props.C79_in_order_loops_parallel",
    "DPPIR.Props.C79_in_order_crash",
    "DPPIR.Props.C79_in_order_crash_parallel",
    "DPPIR.Props.C79_one_server",
    "DPPIR.Props.C79_many_servers"
   ],
   "note": ""
  },
  {
   "property": "C80",
   "status": "proved",
   "theorems": [
    "DPPIR.Props.C80_one_client_holds_all",
    "DPPIR.Props.C80_one_client_holds_all_loops",
    "DPPIR.Props.C80_one_client_holds_all_crash",
    "DPPIR.Props.C80_one_crash_stops_all",
    "DPPIR.Props.C80_many_servers"
   ],
   "note": "The property is false of the code; proved: the negation, for every run with and without crashes."
  },
  {
   "property": "C81",
   "status": "proved",
   "theorems": [
    "DPPIR.Props.C81_one_server",
    "DPPIR.Props.C81_many_servers",
    "DPPIR.Props.C81_one_server_connecting",
    "DPPIR.Props.C81_many_servers_connecting"
   ],
   "note": ""
  },
  {
   "property": "C82",
   "status": "proved",
   "theorems": [
    "DPPIR.Props.C82_violated_one_server",
    "DPPIR.Props.C82_violated_many_servers"
   ],
   "note": "The property is false of the code; proved: the negation, for every run with --stage=online. With --stage=all the keys are hidden as C59 and C78 say."
  }
 ]
}
{
 "claims": [
  {
   "property": "C01",
   "status": "proved",
   "theorems": [
    "Verif.Props.C01_index_pool_refines_contract"
   ],
   "note": ""
  },
  {
   "property": "C02",
   "status": "proved",
   "theorems": [
    "Verif.Props.C02_live_lease_not_handed_out_twice"
   ],
   "note": ""
  },
  {
   "property": "C03",
   "status": "proved",
   "theorems": [
    "Verif.Props.C03_hash_map_refines_finite_map",
    "Verif.Props.C03_contract_map_laws"
   ],
   "note": "Refinement of map.c to the finite map of map.h for every hash function, capacity, key size and legal call sequence, with the program free to write memory the map does not hold."
  },
  {
   "property": "C04",
   "status": "proved",
   "theorems": [
    "Verif.Props.C04_real_capacity",
    "Verif.Props.C04_set_finds_free_slot"
   ],
   "note": ""
  },
  {
   "property": "C05",
   "status": "proved",
   "theorems": [
    "Verif.Props.C05_allocator_blocks"
   ],
   "note": "Also proves that returned blocks are zeroed and characterises exactly when a request is refused."
  },
  {
   "property": "C06",
   "status": "partial",
   "theorems": [
    "Verif.Props.C06_memory_helpers",
    "Verif.Props.C06_config_helpers",
    "Verif.Props.C06_config_get_partial",
    "Verif.Props.C06_config_get_signed_minimum_disagrees"
   ],
   "note": "Memory helpers and the sized configuration getters are proved in full; the generic os_config_get with a non-zero minimum compares as signed numbers, so it rejects in-range values of 2^63 or more (negation proved with a witness)."
  },
  {
   "property": "C07",
   "status": "partial",
   "theorems": [
    "Verif.Props.C07_rows_partial",
    "Verif.Props.C07_rows_prime_height_partial",
    "Verif.Props.C07_find_partial",
    "Verif.Props.C07_rows_claim_false_for_composite_height"
   ],
   "note": "Proved for every height with no common factor with a number up to the capacity (all primes); for composite heights the precondition also accepts, the claim is false (height 4 with 3 backends writes out of bounds)."
  },
  {
   "property": "C42",
   "status": "proved",
   "theorems": [
    "Verif.Props.C42_firewall_refines_expiring_set",
    "Verif.Props.C42_never_violates_contracts",
    "Verif.Props.C42_external_only_if_solicited"
   ],
   "note": "The map is represented by its contract (proved of map.c in C03), the pool by the model of index_pool.c."
  },
  {
   "property": "C43",
   "status": "partial",
   "theorems": [
    "Verif.Props.C43_nat_refines_spec_partial",
    "Verif.Props.C43_spec_step_keeps_ports",
    "Verif.Props.C43_spec_run_distinct_ports",
    "Verif.Props.C43_port_shared_when_table_exceeds_ports"
   ],
   "note": "Proved in full for tables of at most 65536 flows (the number of ports); for larger tables, which the configuration allows, two live flows share a port (proved for every larger size)."
  },
  {
   "property": "C44",
   "status": "partial",
   "theorems": [
    "Verif.Props.C44_rewrite_partial",
    "Verif.Props.C44_checksum_update_valid_iff",
    "Verif.Props.C44_checksum_update_identity_wrong",
    "Verif.Props.C44_inbound_source_address_corrupted",
    "Verif.Props.C44_outbound_checksum_becomes_invalid"
   ],
   "note": "False of the code: the IPv4 checksum is updated at the offset of the source address, and the incremental update does not fold carries. Proved: which bytes change, when exactly an update is right, and both counterexamples."
  },
  {
   "property": "C45",
   "status": "partial",
   "theorems": [
    "Verif.Props.C45_rate_bound_partial",
    "Verif.Props.C45_rate_divides_burst_partial",
    "Verif.Props.C45_buckets_and_forwarding",
    "Verif.Props.C45_rate_claim_false_rounding",
    "Verif.Props.C45_rate_claim_false_large_rate",
    "Verif.Props.C45_rate_claim_false_expiration_wrap"
   ],
   "note": "The bound burst + rate*T is proved when rate divides burst and the expiration time does not wrap; for other rates the integer division burst/rate refills too early (false with three witnesses), and the exact weaker bound is proved. A bucket never holds more than burst (proved always)."
  },
  {
   "property": "C46",
   "status": "proved",
   "theorems": [
    "Verif.Props.C46_bridge_refines_spec",
    "Verif.Props.C46_data_frame",
    "Verif.Props.C46_groups_never_learned",
    "Verif.Props.C46_port_is_last_seen",
    "Verif.Props.C46_root_is_minimum"
   ],
   "note": "Every run is a run of the bridge specification; the data-frame guarantees are then proved of the specification."
  },
  {
   "property": "C47",
   "status": "partial",
   "theorems": [
    "Verif.Props.C47_live_backend_partial",
    "Verif.Props.C47_heartbeat_makes_live",
    "Verif.Props.C47_sticky_without_backend_0_partial",
    "Verif.Props.C47_not_sticky",
    "Verif.Props.C47_init_checked"
   ],
   "note": "Live backends and heartbeats are proved for every packet sequence (table heights as in C07). Stickiness is false of the code: flow_backends is never written; proved with a witness. Stickiness when backend 0 is not live is proved."
  },
  {
   "property": "C48",
   "status": "partial",
   "theorems": [
    "Verif.Props.C48_route_exact",
    "Verif.Props.C48_routes_right_partial",
    "Verif.Props.C48_run_safe_partial",
    "Verif.Props.C48_bad_checksum_forwarded",
    "Verif.Props.C48_valid_packet_dropped",
    "Verif.Props.C48_repeated_command_violates_contract",
    "Verif.Props.C48_nop_exchanges"
   ],
   "note": "The exact forwarding condition is proved for any longest-prefix-match structure meeting lpm.h (there is no implementation). False of the code: checksums are not verified, the total length is read in the wrong byte order, and a repeated management command violates lpm_set's precondition; all three are proved."
  },
  {
   "property": "C49",
   "status": "proved",
   "theorems": [
    "Verif.Props.C49_indices_one_to_one",
    "Verif.Props.C49_transmit",
    "Verif.Props.C49_flood",
    "Verif.Props.C49_flood_except",
    "Verif.Props.C49_transmit_to_input_misdirected",
    "Verif.Props.C49_transmit_to_last_input_out_of_bounds",
    "Verif.Props.C49_flood_update_shares_addresses"
   ],
   "note": "For the tinynf runtime and the driver's assignment of outputs. Also proved: what goes wrong outside the claim (transmitting to the input device; updating addresses while flooding)."
  },
  {
   "property": "C50",
   "status": "partial",
   "theorems": [
    "Verif.Props.C50_swap16_partial",
    "Verif.Props.C50_swap32_partial",
    "Verif.Props.C50_swap32_wrong",
    "Verif.Props.C50_swap64_wrong",
    "Verif.Props.C50_swap32_value",
    "Verif.Props.C50_swap64_value",
    "Verif.Props.C50_sleep_returns_late_enough_partial",
    "Verif.Props.C50_sleep_returns_if_hit_partial",
    "Verif.Props.C50_sleep_never_returns",
    "Verif.Props.C50_metal_sleep_window",
    "Verif.Props.C50_linux_request",
    "Verif.Props.C50_dpdk_delay_partial",
    "Verif.Props.C50_dpdk_delay_wraps"
   ],
   "note": "The 16-bit swap is right; the 32- and 64-bit swaps lose the middle bytes (false). The bare-metal sleep waits for equality with the target and never returns on a clock that skips it (false); it never returns early."
  },
  {
   "property": "C08",
   "status": "proved",
   "theorems": [
    "Verif.Props.C08_merged_meaning",
    "Verif.Props.C08_merged_is_union"
   ],
   "note": "For constraint lists compared by object identity, as the code does."
  },
  {
   "property": "C09",
   "status": "proved",
   "theorems": [
    "Verif.Props.C09_conditions"
   ],
   "note": "Also proves that the merged state admits exactly the union of what the states admit."
  },
  {
   "property": "C10",
   "status": "proved",
   "theorems": [
    "Verif.Props.C10_exact",
    "Verif.Props.C10_lowest_first"
   ],
   "note": "angr's step of a single state and the merge of a pile are assumed exact (merge: C08, C09); triage is the partition proved in C11. Stated for explorations that terminate."
  },
  {
   "property": "C11",
   "status": "proved",
   "theorems": [
    "Verif.Props.C11_partition"
   ],
   "note": "Compatibility is with the first state of the pile, which is what the code checks."
  },
  {
   "property": "C12",
   "status": "proved",
   "theorems": [
    "Verif.Props.C12_fork"
   ],
   "note": "The solver is taken to answer satisfiability exactly."
  },
  {
   "property": "C16",
   "status": "proved",
   "theorems": [
    "Verif.Props.C16_values",
    "Verif.Props.C16_paths"
   ],
   "note": ""
  },
  {
   "property": "C33",
   "status": "partial",
   "theorems": [
    "Verif.Props.C33_model_is_contract",
    "Verif.Props.C33_real_pool_covered",
    "Verif.Props.C33_violations_reported",
    "Verif.Props.C33_alloc_check_vacuous"
   ],
   "note": "Everything is proved except that the allocation precondition is reported: the check in the external is always true, so it is never reported (negation proved)."
  },
  {
   "property": "C34",
   "status": "partial",
   "theorems": [
    "Verif.Props.C34_accepted_use_is_legal_partial",
    "Verif.Props.C34_legal_use_accepted",
    "Verif.Props.C34_ownership_exact",
    "Verif.Props.C34_key_across_elements_modified",
    "Verif.Props.C34_alloc_check_vacuous"
   ],
   "note": "Proved when a key lies within one heap element; a key spanning several elements can be modified while in the map without a report (negation proved), and the allocation check is vacuous."
  },
  {
   "property": "C35",
   "status": "partial",
   "theorems": [
    "Verif.Props.C35_no_route",
    "Verif.Props.C35_results_are_longest",
    "Verif.Props.C35_exact_key_covered_partial",
    "Verif.Props.C35_prefix_match_not_covered",
    "Verif.Props.C35_set_exact",
    "Verif.Props.C35_repeated_set_unreported"
   ],
   "note": "The external's lookup covers only the entry whose key equals the address, so a real longest-prefix match is not covered (negation proved)."
  },
  {
   "property": "C36",
   "status": "partial",
   "theorems": [
    "Verif.Props.C36_covered_if_none_expired_partial",
    "Verif.Props.C36_expired_backends_not_covered"
   ],
   "note": "Covered when no backend has expired; otherwise the real result is excluded (negation proved)."
  },
  {
   "property": "C13",
   "status": "partial",
   "theorems": [
    "Verif.Props.C13_offset_in_element",
    "Verif.Props.C13_sums_back_partial",
    "Verif.Props.C13_sums_back_bytes",
    "Verif.Props.C13_wrong_index"
   ],
   "note": "The sum is the address for objects of bytes, and for others when each remaining term has the size as multiplier or is divisible by it. False otherwise: a multiplier that is another multiple of the size is dropped (base + 8*i with 4-byte elements gives index i); proved. The search for concrete bases (JITed BPF) is not modelled."
  },
  {
   "property": "C14",
   "status": "proved",
   "theorems": [
    "Verif.Props.C14_simplify",
    "Verif.Props.C14_sums_back"
   ],
   "note": "The claripy operations used (excavate, burrow, simplify, If, +) are assumed to preserve meaning; the solver answers exactly. Stated for calls that terminate."
  },
  {
   "property": "C15",
   "status": "partial",
   "theorems": [
    "Verif.Props.C15_symmetric",
    "Verif.Props.C15_reflexive",
    "Verif.Props.C15_same_observations_partial",
    "Verif.Props.C15_transitive_partial",
    "Verif.Props.C15_not_transitive",
    "Verif.Props.C15_string_equals_list",
    "Verif.Props.C15_metadata_merge",
    "Verif.Props.C15_diff_partial",
    "Verif.Props.C15_diff_wrong"
   ],
   "note": "Reflexivity and symmetry are proved. Transitivity and the partition by structural_diff are false in general (witnesses proved) and proved on the values where the comparison is exact."
  },
  {
   "property": "C17",
   "status": "proved",
   "theorems": [
    "Verif.Props.C17_read",
    "Verif.Props.C17_write",
    "Verif.Props.C17_c_accesses"
   ],
   "note": "For devices below 32 and functions below 8, as on every PCI bus."
  },
  {
   "property": "C18",
   "status": "partial",
   "theorems": [
    "Verif.Props.C18_at_most_once",
    "Verif.Props.C18_symbolic_clock_exact",
    "Verif.Props.C18_time_from_cycles",
    "Verif.Props.C18_monotone_partial",
    "Verif.Props.C18_not_monotone"
   ],
   "note": "Everything is proved except monotonicity, which is false when the 64-bit product wraps (frequencies below 10; witness proved)."
  },
  {
   "property": "C37",
   "status": "proved",
   "theorems": [
    "Verif.Props.C37_terminates",
    "Verif.Props.C37_paths",
    "Verif.Props.C37_success_iff",
    "Verif.Props.C37_one_run_per_path"
   ],
   "note": "For specifications without `choose` (C38 covers those with); the solver answers exactly."
  },
  {
   "property": "C38",
   "status": "partial",
   "theorems": [
    "Verif.Props.C38_found",
    "Verif.Props.C38_exhausted",
    "Verif.Props.C38_terminates",
    "Verif.Props.C38_search_partial",
    "Verif.Props.C38_assertion_not_retried",
    "Verif.Props.C38_duplicates_abort"
   ],
   "note": "Soundness, completeness of giving up and termination hold in general; the equivalence holds without built-in exceptions and with disjoint candidates. False otherwise: a failed assert is not retried, and dropping duplicates can empty a candidate list; both proved."
  },
  {
   "property": "C39",
   "status": "partial",
   "theorems": [
    "Verif.Props.C39_compare_partial",
    "Verif.Props.C39_compare_narrower",
    "Verif.Props.C39_symmetric_partial",
    "Verif.Props.C39_compare_truncates",
    "Verif.Props.C39_equality_depends_on_order",
    "Verif.Props.C39_integer_wraps",
    "Verif.Props.C39_arithmetic_partial",
    "Verif.Props.C39_sum_depends_on_order"
   ],
   "note": "Holds when the other operand (and the result) fit the width of the first; false otherwise since wider operands are truncated, proved for all pairs of different widths."
  },
  {
   "property": "C40",
   "status": "partial",
   "theorems": [
    "Verif.Props.C40_view_fields",
    "Verif.Props.C40_unwrap_wrap",
    "Verif.Props.C40_round_trip",
    "Verif.Props.C40_field_bits",
    "Verif.Props.C40_attribute",
    "Verif.Props.C40_as_value",
    "Verif.Props.C40_offsets",
    "Verif.Props.C40_ipv4_bytes_partial",
    "Verif.Props.C40_ipv4_dscp_wrong",
    "Verif.Props.C40_ipv4_flags_wrong",
    "Verif.Props.C40_ports_position",
    "Verif.Props.C40_ports_partial",
    "Verif.Props.C40_ports_with_options_wrong"
   ],
   "note": "Views, field reading and concatenation are proved for all layouts. The IPv4 layout itself has dscp/ecn and flags/fragment offset at the wrong bits, and ports are read at a fixed position even with options; proved."
  },
  {
   "property": "C41",
   "status": "partial",
   "theorems": [
    "Verif.Props.C41_transmit",
    "Verif.Props.C41_flood_partial",
    "Verif.Props.C41_flood_contains_others",
    "Verif.Props.C41_flood_except_partial",
    "Verif.Props.C41_flood_except_ignores_exclusions"
   ],
   "note": "Exact for net_transmit, and for net_flood among existing devices. False for net_flood_except: exclusions are ignored; proved."
  },
  {
   "property": "C19",
   "status": "partial",
   "theorems": [
    "Verif.Props.C19_get_partial",
    "Verif.Props.C19_cross_partial",
    "Verif.Props.C19_new",
    "Verif.Props.C19_new_array",
    "Verif.Props.C20_program_partial",
    "Verif.Props.C20_cross_program_partial",
    "Verif.Props.C20_set_lost",
    "Verif.Props.C19_hint_lost",
    "Verif.Props.C19_hint_updated_lost",
    "Verif.Props.C19_condition_dropped",
    "Verif.Props.C22_hint_unsound"
   ],
   "note": "Proved for every described world when no update was flattened and the invariants read no map, or read for present items maps that are not updated and whose invariants read no map, for single reads and whole programs, starting from new maps, whose contents are proved to be empty or those of an array. False otherwise (witnesses proved): flattened updates, expected values in a part of an invariant or in updated maps, and chains of invariants."
  },
  {
   "property": "C20",
   "status": "partial",
   "theorems": [
    "Verif.Props.C20_program_partial",
    "Verif.Props.C20_cross_program_partial",
    "Verif.Props.C20_set_lost",
    "Verif.Props.C20_unknown_key_wrong"
   ],
   "note": "Proved for all programs of reads, lengths, updates and assumptions that do not flatten an update and do not update the key of the unknown item; false in both cases (witnesses proved)."
  },
  {
   "property": "C22",
   "status": "partial",
   "theorems": [
    "Verif.Props.C22_forall_partial",
    "Verif.Props.C22_cross_partial",
    "Verif.Props.C22_two_foralls_wrong",
    "Verif.Props.C22_hint_unsound",
    "Verif.Props.C20_unknown_key_wrong"
   ],
   "note": "Proved for one forall over a map whose unknown item is still free, with a predicate that reads no map, or that asks whether keys are in other maps that were not updated and for their values there. False for two foralls on one map, for predicates with an expected value in another map, and together with later updates (witnesses proved)."
  },
  {
   "property": "C23",
   "status": "partial",
   "theorems": [
    "Verif.Props.C23_old_version_partial",
    "Verif.Props.C23_old_version_wrong"
   ],
   "note": "Proved for every program that, since the old version, reads and updates its map only at keys not updated since; false in general (witness proved): a read of the new version at a key equal to an updated one changes what the old version reports."
  },
  {
   "property": "C21",
   "status": "partial",
   "theorems": [
    "Verif.Props.C21_consistent_partial",
    "Verif.Props.C21_two_keys_partial",
    "Verif.Props.C21_full_partial",
    "Verif.Props.C21_unknown_disagrees",
    "Verif.Props.C21_unknown_overfull"
   ],
   "note": "Proved for all programs on new maps whose reads are not answered by the unknown item and whose updates make new layers, for every assignment satisfying the final constraints; false when the unknown item answers (witnesses proved)."
  },
  {
   "property": "C24",
   "status": "partial",
   "theorems": [
    "Verif.Props.C24_contents_partial",
    "Verif.Props.C24_cleared_cache_partial",
    "Verif.Props.C24_version_wrong",
    "Verif.Props.C20_set_lost"
   ],
   "note": "Contents and lengths proved unchanged for all maps, and reads proved unchanged if the layer's cache were emptied; false of the code for reads (stale cache) and for versions (witnesses proved)."
  },
  {
   "property": "C25",
   "status": "partial",
   "theorems": [
    "Verif.Props.C25_frozen_get_partial",
    "Verif.Props.C25_frozen_has_partial",
    "Verif.Props.C25_has_reads_newest",
    "Verif.Props.C22_hint_unsound"
   ],
   "note": "MapGet, and MapHas with the right value, proved to use the frozen version after any program restricted as in C23; MapHas without a value always reads the newest version (witness proved)."
  },
  {
   "property": "C26",
   "status": "partial",
   "theorems": [
    "Verif.Props.C26_own_path_partial",
    "Verif.Props.C26_other_path_partial",
    "Verif.Props.C26_exact_partial",
    "Verif.Props.C26_can_merge",
    "Verif.Props.C26_layers_swapped"
   ],
   "note": "For maps that were read but not updated: merging keeps every contents of the merging path and of the other paths, and describes no others. False for updated maps (witness proved): the merged layers take the values of the wrong path."
  },
  {
   "property": "C30",
   "status": "partial",
   "theorems": [
    "Verif.Props.C30_write",
    "Verif.Props.C30_read",
    "Verif.Props.C30_read_after_write",
    "Verif.Props.C30_write_succeeds",
    "Verif.Props.C30_reversed_partial",
    "Verif.Props.C30_reversed_whole_partial",
    "Verif.Props.C30_reversed_wide",
    "Verif.Props.C30_reversed_other_bytes"
   ],
   "note": "Machine byte order: proved in full, for every element size, offset and width. Opposite byte order: proved for accesses within one element at an offset; false for wide accesses and for other bytes (witnesses proved)."
  },
  {
   "property": "C31",
   "status": "partial",
   "theorems": [
    "Verif.Props.C31_bounded",
    "Verif.Props.C31_allocated",
    "Verif.Props.C31_take_give",
    "Verif.Props.C31_take_all_give",
    "Verif.Props.C31_conserved_partial",
    "Verif.Props.C31_write_owned_partial",
    "Verif.Props.C31_write_first_partial",
    "Verif.Props.C31_read_owned_partial",
    "Verif.Props.C31_read_first_partial",
    "Verif.Props.C31_give_wraps",
    "Verif.Props.C31_ephemeral_outside"
   ],
   "note": "Bounds and restoring proved for all operation sequences; ownership checks proved for allocations with fractions. False: a gift of more than 155 may wrap, and ephemeral allocations may be written out of range (witnesses proved)."
  },
  {
   "property": "C32",
   "status": "partial",
   "theorems": [
    "Verif.Props.C32_write_partial",
    "Verif.Props.C32_read_partial",
    "Verif.Props.C32_read_after_write_partial",
    "Verif.Props.C32_write_succeeds",
    "Verif.Props.C32_reversed_partial",
    "Verif.Props.C32_reversed_other"
   ],
   "note": "Machine byte order: proved for all positions. Opposite byte order: proved for whole elements and mirrored offsets; false in general (witness proved)."
  },
  {
   "property": "C27",
   "status": "partial",
   "theorems": [
    "Verif.Props.C27_histories_partial",
    "Verif.Props.C27_flattened_lost",
    "Verif.Props.C27_single_element_lost",
    "Verif.Props.C27_cross_map_lost",
    "Verif.Props.C27_two_initial_states_lost",
    "Verif.Props.C27_guesses_tested"
   ],
   "note": "Proved for every program, number of iterations and packet history for one initial state, invariants that read no other map, and maps into which initialization has put no items. False of the code beyond that, with witnesses: updates flattened into the layer of initialization, arrays of one element that initialization sets, invariants about another map that alone changes, and several initial states whose invariants differ. Guessing relations between maps is not modelled; that every guess that is assumed was tested in every explored state is proved."
  },
  {
   "property": "C28",
   "status": "partial",
   "theorems": [
    "Verif.Props.C28_weakens",
    "Verif.Props.C28_covers_partial",
    "Verif.Props.C28_stops_partial",
    "Verif.Props.C28_symbols_partial",
    "Verif.Props.C28_symbols_escape"
   ],
   "note": "Weakening is proved for all invariants. Covering and the exact condition for stopping are proved for invariants that read no other map. That what is added mentions only symbols all states share is proved for items that are symbols and false for others (witness proved)."
  },
  {
   "property": "C29",
   "status": "partial",
   "theorems": [
    "Verif.Props.C29_histories_partial",
    "Verif.Props.C27_flattened_lost"
   ],
   "note": "Proved where C27 is: lengths that are taken to be constant are, and every relation between lengths holds, after any number of packets. False of the code for updates flattened into the layer of initialization (C27_flattened_lost)."
  },
  {
   "property": "C51",
   "status": "partial",
   "theorems": [
    "Verif.Props.C51_change",
    "Verif.Props.C51_change_pci",
    "Verif.Props.C51_initial_known",
    "Verif.Props.C51_initial_partial",
    "Verif.Props.C51_reserved_floats",
    "Verif.Props.C51_too_large_spills"
   ],
   "note": "Updates are proved for all layouts, old contents and values that fit the field; initial values for all layouts without floating fields, and for those whose floating fields do not follow reserved bits. False of the code beyond that, with witnesses: reserved bits before a floating field are not zero (PFVLVF), and values too large for the field change other bits (no caller passes one)."
  },
  {
   "property": "C52",
   "status": "partial",
   "theorems": [
    "Verif.Props.C52_justified",
    "Verif.Props.C52_access_partial",
    "Verif.Props.C52_read_only_changed",
    "Verif.Props.C52_ignored_bits_stored"
   ],
   "note": "That every changed field is covered by an action with a true precondition is proved for all tables with one-bit preconditions. That no read-only field changes is proved for registers in which none follows a field on which writes are ignored, and is false beyond that, with a witness. Accepted writes also store the bits on which writes are ignored."
  },
  {
   "property": "C53",
   "status": "partial",
   "theorems": [
    "Verif.Props.C53_base_partial",
    "Verif.Props.C53_bytes_partial",
    "Verif.Props.C53_intel",
    "Verif.Props.C53_alternating_wrong",
    "Verif.Props.C53_undescribed_resolves",
    "Verif.Props.C53_three_ranges_wrong"
   ],
   "note": "Base addresses are proved right for all tables with at most two ranges per register, and for the table of the code; other bytes where no other range spans the address. False of the code beyond that, with witnesses: bytes of alternating registers, and registers with three ranges; undescribed addresses between instances resolve too."
  },
  {
   "property": "C54",
   "status": "proved",
   "theorems": [
    "Verif.Props.C54_exactly_once",
    "Verif.Props.C54_nothing_lost",
    "Verif.Props.C54_state",
    "Verif.Props.C54_buffers_apart",
    "Verif.Props.C54_in_bounds"
   ],
   "note": "For every handler whose lengths fit 16 bits (they are size_t in the code, and main.c stores the received 16-bit length unless the network function enlarges it), number of outputs above zero, and interleaving of single accesses of the driver with the cards. The behaviour of the cards is a model of the data sheet as quoted in the driver."
  },
  {
   "property": "C55",
   "status": "partial",
   "theorems": [
    "Verif.Props.C55_catches_up",
    "Verif.Props.C55_keeps_receiving_partial",
    "Verif.Props.C55_reported",
    "Verif.Props.C55_prompt_partial",
    "Verif.Props.C55_any_packets_partial",
    "Verif.Props.C55_stalls",
    "Verif.Props.C55_late_is_final"
   ],
   "note": "The driver always gets to wait for a packet, and a descriptor is then free if the reported heads were less than 192 behind at each recycling. That is so if the cards have sent and reported everything when packets arrive, so any list of packets can be received. False of the code otherwise: C55_stalls gives a run, for every network function, after which nothing is received although everything was sent and reported, and C55_late_is_final shows that one late report suffices."
  },
  {
   "property": "C56",
   "status": "partial",
   "theorems": [
    "Verif.Props.C56_ready",
    "Verif.Props.C56_descriptors",
    "Verif.Props.C56_own_queue",
    "Verif.Props.C56_memory",
    "Verif.Props.C56_succeeds",
    "Verif.Props.C56_too_many",
    "Verif.Props.C56_heads_aligned",
    "Verif.Props.C56_enabled",
    "Verif.Props.C56_unused",
    "Verif.Props.C56_rings_aligned_partial",
    "Verif.Props.C56_rings_misaligned"
   ],
   "note": "Everything but the alignment of rings is proved for every set-up that succeeds; set-up succeeds for 2 to 11 devices and never for 12 or more. Rings are aligned only with an odd number of devices; with an even number each is 64 bytes off, against the comment in the code (proved)."
  },
  {
   "property": "C57",
   "status": "partial",
   "theorems": [
    "Verif.Props.C57_bits",
    "Verif.Props.C57_first_set",
    "Verif.Props.C57_write_read",
    "Verif.Props.C57_set",
    "Verif.Props.C57_clear",
    "Verif.Props.C57_is_cleared",
    "Verif.Props.C57_timeout_partial",
    "Verif.Props.C57_timeout_too_early"
   ],
   "note": "Fields are proved exact for all contents, fields and values that fit. A timeout is reported exactly if the condition holds at ten times, the last of which is a tenth before the end; so it may be reported although the condition ends in time (proved)."
  },
  {
   "property": "C58",
   "status": "partial",
   "theorems": [
    "Verif.Props.C58_linux_partial",
    "Verif.Props.C58_metal_null",
    "Verif.Props.C58_metal_low",
    "Verif.Props.C58_metal_not_zeroed"
   ],
   "note": "Proved for Linux, for all histories. False on bare metal: the array is declared as a pointer in memory_alloc.c, so that the arena starts at the value of its first bytes, zero; the first block is at NULL (proved for every request), and none is in the array if it is above 256 MB."
  },
  {
   "property": "C59",
   "status": "partial",
   "theorems": [
    "Verif.Props.C59_token_bucket_partial",
    "Verif.Props.C59_expired_denied",
    "Verif.Props.C59_expired_refreshed",
    "Verif.Props.C59_tokens_wrap"
   ],
   "note": "Proved for all rates, table sizes and packet histories if packets from the WAN are shorter than the burst and 10^9 times the burst fits into 64 bits. False beyond that, with witnesses: packets as long as the burst or longer to an address that expired but was not evicted, and bursts for which tokens wrap around."
  },
  {
   "property": "C60",
   "status": "partial",
   "theorems": [
    "Verif.Props.C60_sends_partial",
    "Verif.Props.C60_buffers_partial",
    "Verif.Props.C60_kept_partial",
    "Verif.Props.C60_drops_stop",
    "Verif.Props.C60_two_calls_overflow",
    "Verif.Props.C60_two_calls_shared"
   ],
   "note": "Proved for network functions that call the transmit functions at most once per packet: cards are given exactly what was asked, and the only buffers lost are those of dropped packets. False beyond that: dropped packets are never freed, so any network function that drops can be made to receive nothing for good (proved for every such function); two calls for one packet write out of bounds or give one buffer to two cards (witnesses proved)."
  },
  {
   "property": "C61",
   "status": "partial",
   "theorems": [
    "Verif.Props.C61_configured",
    "Verif.Props.C61_pci",
    "Verif.Props.C61_stopped_partial",
    "Verif.Props.C61_waits",
    "Verif.Props.C61_succeeds",
    "Verif.Props.C61_promiscuous",
    "Verif.Props.C61_mac",
    "Verif.Props.C61_pending_ignored",
    "Verif.Props.C61_refuses",
    "Verif.Props.C61_refuses_wrongly",
    "Verif.Props.C61_mac_high_bits"
   ],
   "note": "Everything but the check for pending transactions is proved for all devices that change only their status bits by themselves. That check is false of the code: the Device Status register at 0xAA is read through a port that ignores the two low bits of the register number, so a bit of Device Control is tested instead; devices with pending transactions are reset (witness proved), and others are refused (proved for every device that never stops and has that bit set)."
  },
  {
   "property": "C62",
   "status": "partial",
   "theorems": [
    "Verif.Props.C62_firewall",
    "Verif.Props.C62_firewall_refreshes",
    "Verif.Props.C62_nat",
    "Verif.Props.C62_maglev_live_partial",
    "Verif.Props.C62_maglev_wrong",
    "Verif.Props.C62_policer",
    "Verif.Props.C62_nop",
    "Verif.Props.C62_bridge",
    "Verif.Props.C62_bridge_counts_blocked",
    "Verif.Props.C62_router_partial",
    "Verif.Props.C62_router_wrong"
   ],
   "note": "Proved for firewall, NAT, policer, no-op and bridge. False of the load balancer: when all backends have expired, packets are dropped although the map of backends is not empty (witness proved); proved for histories without expired backends, and with only live backends in the map. False of the router when two commands differ only in bits beyond the prefix (witness for every lpm_search that meets its contract); proved for commands without such bits."
  },
  {
   "property": "C63",
   "status": "partial",
   "theorems": [
    "Verif.Props.C63_init",
    "Verif.Props.C63_addresses_partial",
    "Verif.Props.C63_addresses_wrong",
    "Verif.Props.C63_leases",
    "Verif.Props.C63_replies",
    "Verif.Props.C63_denial_wrong",
    "Verif.Props.C63_byte_order_wrong",
    "Verif.Props.C63_options_wrong",
    "Verif.Props.C63_silent",
    "Verif.Props.C63_port_wrong",
    "Verif.Props.C63_bounds_partial",
    "Verif.Props.C63_overread_wrong",
    "Verif.Props.C63_shipped_wrong"
   ],
   "note": "Proved: bounds of initialization, the addresses for masks of 3 to 32 host bits, leases over all sequences of messages, and the bytes of replies. Leases and replies are about the functions that nf_handle would call if its body were not commented out. False of the code, with proofs: the shipped configuration is rejected; small subnets give several clients 0.0.0.0; denials are not marked as replies; addresses are in the wrong byte order; options are read through a pointer taken from the packet; messages from clients are not recognised and nothing is answered; short packets are read past their end."
  },
  {
   "property": "C64",
   "status": "partial",
   "theorems": [
    "Verif.Props.C64_same",
    "Verif.Props.C64_no_flows_wrong",
    "Verif.Props.C64_debug_partial",
    "Verif.Props.C64_shipped_debug_wrong",
    "Verif.Props.C64_layout",
    "Verif.Props.C64_misaligned_wrong"
   ],
   "note": "The release build is proved equal to the C policer for all configurations and packet sequences, except that it does not start with a table for no flows, where the C policer does (witness proved). The debug build is proved equal to the release build where 1000000000 times the burst fits into 64 bits; with the shipped configuration it panics in nf_init (proved). The layout of the structures is proved; but a reference to the destination address is misaligned for every aligned packet, which is undefined behaviour in Rust (proved)."
  },
  {
   "property": "C65",
   "status": "proved",
   "theorems": [
    "Verif.Props.C65_arith",
    "Verif.Props.C65_modulo_signed",
    "Verif.Props.C65_modulo",
    "Verif.Props.C65_division",
    "Verif.Props.C65_powers",
    "Verif.Props.C65_bits_of_int",
    "Verif.Props.C65_bits_and",
    "Verif.Props.C65_int_of_bits",
    "Verif.Props.C65_pow2",
    "Verif.Props.C65_ghost_map_get",
    "Verif.Props.C65_ghost_map_shape",
    "Verif.Props.C65_ghost_map_forall",
    "Verif.Props.C65_ghost_map_arrays"
   ],
   "note": "All 84 lemmas of the five files over functions that the repository defines or whose definition its proofs show; two helper lemmas about VeriFast's own type Z (bitopsutils.gh:76-82) are left out, and bits_of_int_and_def, which they serve, is proved directly."
  },
  {
   "property": "C66",
   "status": "partial",
   "theorems": [
    "Verif.Props.C66_explores_partial",
    "Verif.Props.C66_always_raises",
    "Verif.Props.C66_init_failure_wrong"
   ],
   "note": "False of the code: execute_nf raises for every program, as the model of a device cannot be made (assert False in device.py:113), proved for all programs. Even with devices that can be made, a program whose initialization may halt is not verified, since the engine's list of trapped states is a variable that does not exist (proved for all such programs). Proved for any way of making devices: whatever is returned is exactly the set of ends of all paths on all indices, and no path halts."
  },
  {
   "property": "C67",
   "status": "partial",
   "theorems": [
    "Verif.Props.C67_accepted",
    "Verif.Props.C67_init",
    "Verif.Props.C67_promiscuous",
    "Verif.Props.C67_mac",
    "Verif.Props.C67_setup",
    "Verif.Props.C67_receive_tail",
    "Verif.Props.C67_transmit_tail",
    "Verif.Props.C67_filters_stopped",
    "Verif.Props.C67_unnamed",
    "Verif.Props.C67_names",
    "Verif.Props.C67_split_refused",
    "Verif.Props.C67_type_refused",
    "Verif.Props.C67_length_refused",
    "Verif.Props.C67_rash",
    "Verif.Props.C67_abrupt"
   ],
   "note": "Proved: the accesses of the driver are accepted under all path constraints, and they are those of the driver (C67_init to C67_setup relate the list of accesses to the models of C56 and C61, the tail writes are those of C54); the rules on tails, filters and unnamed fields hold for all drivers. False of the description: seven actions name a register that does not exist, so the split of headers can never be set; the descriptor type can never be changed; ring lengths that are odd multiples of 128 are refused; receiving may be enabled before the card is ready; and a reset is allowed while queues other than the first are enabled (each proved)."
  },
  {
   "property": "C68",
   "status": "partial",
   "theorems": [
    "Verif.Props.C68_alloc_required",
    "Verif.Props.C68_alloc_accepted",
    "Verif.Props.C68_alloc_partial",
    "Verif.Props.C68_alloc_end_wrong",
    "Verif.Props.C68_alloc_weak",
    "Verif.Props.C68_dpdk_partial",
    "Verif.Props.C68_dpdk_wrong",
    "Verif.Props.C68_config",
    "Verif.Props.C68_config_same",
    "Verif.Props.C68_config_vanishes_wrong",
    "Verif.Props.C68_pci_partial",
    "Verif.Props.C68_pci_count_wrong",
    "Verif.Props.C68_pci_again_wrong",
    "Verif.Props.C68_pci_device",
    "Verif.Props.C68_bar",
    "Verif.Props.C68_phys_metal",
    "Verif.Props.C68_phys_linux",
    "Verif.Props.C68_phys_setup",
    "Verif.Props.C68_phys_linux_wrong"
   ],
   "note": "Proved: blocks of the allocator for all histories, but for a block that ends at the last address (witness); blocks of DPDK's allocator but for one object of 64 bytes (witness); configuration; arrays of two PCI addresses, the devices they denote, and BARs. False of the code, with proofs: only programs for two devices are considered, and enumerating them again gives the same array where the code gives a new one; on Linux physical addresses are not virtual ones. The tool also considers configurations in which a name vanishes."
  },
  {
   "property": "C69",
   "status": "partial",
   "theorems": [
    "Verif.Props.C69_started_partial",
    "Verif.Props.C69_outcome",
    "Verif.Props.C69_three_outcomes",
    "Verif.Props.C69_fsgsbase_wrong",
    "Verif.Props.C69_ts_wrong",
    "Verif.Props.C69_idt_wrong",
    "Verif.Props.C69_multiboot"
   ],
   "note": "Proved: everything that the file claims about the call of _start but three points that are false of the code, with witnesses: FSGSBASE is looked up in a leaf that may not exist; bit 3 of CR0, which disables SSE and AVX, is not cleared; the table of interrupt handlers is that of the boot loader. Proved also: on processors with leaf 7 the code starts exactly if all features are supported and halts otherwise; it faults only with 5-level paging enabled."
  },
  {
   "property": "C70",
   "status": "partial",
   "theorems": [
    "Verif.Props.C70_current",
    "Verif.Props.C70_status",
    "Verif.Props.C70_cached_partial",
    "Verif.Props.C70_stale",
    "Verif.Props.C70_other_command",
    "Verif.Props.C70_inited",
    "Verif.Props.C70_no_states",
    "Verif.Props.C70_names_partial",
    "Verif.Props.C70_names_wrong",
    "Verif.Props.C70_verified_partial"
   ],
   "note": "Proved: without cached results it is the current binary that is verified, and the exit status tells; the execution's loop and the search compose to the claim over all packet histories where C27 is proved. False of the code, with proofs: with cached results it may be another binary or the other command's results; after more than a million symbols, symbols of the verification coincide with those of the execution. A program that never initializes is verified for every specification (proved)."
  },
  {
   "property": "C71",
   "status": "partial",
   "theorems": [
    "Verif.Props.C71_firewall",
    "Verif.Props.C71_firewall_solicited",
    "Verif.Props.C71_nat_partial",
    "Verif.Props.C71_policer",
    "Verif.Props.C71_policer_rate_partial",
    "Verif.Props.C71_bridge",
    "Verif.Props.C71_maglev_partial",
    "Verif.Props.C71_maglev_not_sticky",
    "Verif.Props.C71_maglev_init_checked",
    "Verif.Props.C71_key_bytes",
    "Verif.Props.C71_writes"
   ],
   "note": "Proved for the firewall and the bridge in full. For the NAT, the policer's rate and the balancer with the restrictions under which C43, C45 and C47 are true; that flows are not sticky is proved here also with the hash function of the code."
  },
  {
   "property": "C72",
   "status": "proved",
   "theorems": [
    "Verif.Props.C72_machine",
    "Verif.Props.C72_nothing_lost",
    "Verif.Props.C72_catches_up",
    "Verif.Props.C72_carries_over",
    "Verif.Props.C72_firewall",
    "Verif.Props.C72_firewall_unsolicited",
    "Verif.Props.C72_nat_partial",
    "Verif.Props.C72_policer",
    "Verif.Props.C72_bridge",
    "Verif.Props.C72_maglev_partial"
   ],
   "note": "Proved for any network function; then for the network functions of the repository, where the NAT, the limit of the policer and the balancer keep the restrictions under which C43, C45 and C47 are true."
  },
  {
   "property": "C73",
   "status": "partial",
   "theorems": [
    "Verif.Props.C73_always_handles",
    "Verif.Props.C73_once",
    "Verif.Props.C73_dies_out",
    "Verif.Props.C73_learned",
    "Verif.Props.C73_delivers_partial",
    "Verif.Props.C73_losses_bounded",
    "Verif.Props.C73_frame_lost",
    "Verif.Props.C73_spanning_tree_inert",
    "Verif.Props.C73_storm",
    "Verif.Props.C73_circulates"
   ],
   "note": "Proved for networks without loops: (2), that frames die out, and (4) but for frames of which a bridge made a spanning tree message, at most one per bridge and time between two messages; (3) for all networks. False of the code, with proofs for all networks: the bridges never recognize each other's spanning tree messages, so that no device is ever blocked; if every bridge has two wires, frames for groups circulate for ever, and with three they multiply. Frames of which messages are made are lost."
  },
  {
   "property": "C74",
   "status": "partial",
   "theorems": [
    "Verif.Props.C74_load_partial",
    "Verif.Props.C74_store_partial",
    "Verif.Props.C74_accesses_partial",
    "Verif.Props.C74_exact",
    "Verif.Props.C74_constant_accepted",
    "Verif.Props.C74_other_memory",
    "Verif.Props.C74_wrong_element",
    "Verif.Props.C74_packet_overrun"
   ],
   "note": "Proved for all sequences of accesses, if the decomposition of the addresses is exact (given for objects of bytes; otherwise as in C13) and stores to ephemeral objects, which is the data of the packet, are within them. False of the code without these, with witnesses; and every constant address is accepted, also null."
  },
  {
   "property": "C75",
   "status": "partial",
   "theorems": [
    "Verif.Props.C75_possible_partial",
    "Verif.Props.C75_new_fillable",
    "Verif.Props.C75_forall_known_partial",
    "Verif.Props.C75_forall_later_partial",
    "Verif.Props.C75_forall_spurious"
   ],
   "note": "Proved, (1) and (2), for programs whose reads are not answered by the unknown item (C21_unknown_disagrees shows why) and whose updates make new versions, as in C21; in (1) keys are natural numbers, so that there are always more keys to fill a map with. (3) is false of the code, with a witness that one of the repository's tests expects to fail."
  },
  {
   "property": "C76",
   "status": "partial",
   "theorems": [
    "Verif.Props.C76_present",
    "Verif.Props.C76_function",
    "Verif.Props.C76_found",
    "Verif.Props.C76_guess_fits_partial",
    "Verif.Props.C76_conditions_partial",
    "Verif.Props.C76_value_mismatch",
    "Verif.Props.C76_conditions_fractions"
   ],
   "note": "(1) and (2) are proved; that operands fit their widths, which claripy enforces, is a hypothesis. (3) is proved for relations that do not speak of values or are guessed from one item, and false otherwise, with a witness: the functions to keys and to values may be found for different matches. (4) is proved for maps without fractions, and false with fractions: all conditions are the last one, because the functions share the loop's variable."
  },
  {
   "property": "C77",
   "status": "proved",
   "theorems": [
    "Verif.Props.C77_lengths",
    "Verif.Props.C77_open_chains",
    "Verif.Props.C77_keys_in_table",
    "Verif.Props.C77_partial_chains",
    "Verif.Props.C77_counters",
    "Verif.Props.C77_put_remove",
    "Verif.Props.C77_lists",
    "Verif.Props.C77_updates",
    "Verif.Props.C77_up_to"
   ],
   "note": "Of the lemmas in these four files, those that the C files use; the others serve only to prove these. VeriFast's own list functions have an unspecified value outside of their domain, which the theorems quantify over."
  },
  {
   "property": "C78",
   "status": "proved",
   "theorems": [
    "Verif.Props.C78_contracts",
    "Verif.Props.C78_always",
    "Verif.Props.C78_alloc_loop",
    "Verif.Props.C78_get_loop",
    "Verif.Props.C78_set_loop",
    "Verif.Props.C78_remove_loop"
   ],
   "note": "The permissions that the annotations also state (who owns which memory, in which fractions) are not modelled: the keys' bytes are in a memory that no operation of the map writes."
  },
  {
   "property": "C79",
   "status": "partial",
   "theorems": [
    "Verif.Props.C79_lemmas",
    "Verif.Props.C79_contracts",
    "Verif.Props.C79_alloc_loop",
    "Verif.Props.C79_borrow_loops",
    "Verif.Props.C79_always",
    "Verif.Props.C79_allocator",
    "Verif.Props.C79_assumption_partial",
    "Verif.Props.C79_assumption_metal"
   ],
   "note": "All of it but the last sentence is proved as stated. The assumption of the allocator is proved to hold at every call of a program that writes only to blocks it was given, if it holds at the first one; on bare metal it does not hold at the first one (C79_assumption_metal; see C58). Permissions are not modelled."
  },
  {
   "property": "C80",
   "status": "partial",
   "theorems": [
    "Verif.Props.C80_spanning_tree",
    "Verif.Props.C80_best",
    "Verif.Props.C80_passed_on",
    "Verif.Props.C80_root_port_blocked"
   ],
   "note": "All but the last sentence is proved. The last one, which a comment in the code states, is false (witness proved): a message with a worse root on the port to the root blocks it."
  },
  {
   "property": "C81",
   "status": "partial",
   "theorems": [
    "Verif.Props.C81_dpdk_partial",
    "Verif.Props.C81_dpdk_stuck",
    "Verif.Props.C81_msr_partial",
    "Verif.Props.C81_metal_wrong",
    "Verif.Props.C81_emulated"
   ],
   "note": "Proved for DPDK for all frequencies that are not multiples of 10 GHz, for which the clock is proved to stand still; for Linux; for bare metal if the compiler takes rax for the output of the assembly, false if it takes rdx, which the constraint allows (witness proved); and for the emulation, with the names it uses taken to be defined (they are not imported)."
  },
  {
   "property": "C82",
   "status": "partial",
   "theorems": [
    "Verif.Props.C82_power_of_two",
    "Verif.Props.C82_aligned_partial",
    "Verif.Props.C82_null",
    "Verif.Props.C82_misaligned"
   ],
   "note": "Proved for sizes that are not a multiple of a cache line and whose multiple of a cache line is a power of two, if a block is returned. False of the code beyond that, with witnesses: NULL is returned for empty requests and when there is no memory, and other sizes are not aligned as promised."
  },
  {
   "property": "C83",
   "status": "partial",
   "theorems": [
    "Verif.Props.C83_leases_partial",
    "Verif.Props.C83_replies",
    "Verif.Props.C83_pointer_wrong"
   ],
   "note": "Proved for messages whose header and options are not in the array of clients. The options are reached through a pointer in the message; if it leads into the array, the reply overwrites clients and the claim is false (witness proved). As in C63, about the functions that nf_handle would call if its body were not commented out."
  },
  {
   "property": "C84",
   "status": "partial",
   "theorems": [
    "Verif.Props.C84_carries_over",
    "Verif.Props.C84_in_bounds",
    "Verif.Props.C84_firewall",
    "Verif.Props.C84_firewall_unsolicited",
    "Verif.Props.C84_nat_partial",
    "Verif.Props.C84_policer",
    "Verif.Props.C84_bridge_partial",
    "Verif.Props.C84_maglev_partial",
    "Verif.Props.C84_stops",
    "Verif.Props.C84_firewall_stops",
    "Verif.Props.C84_message_length_fails"
   ],
   "note": "All but the last sentence is proved for two devices, as many as the runtime has; for the network functions under the conditions of C43, C45 and C47. Both parts of the last sentence are false of the code, and the negations proved: buffers of dropped packets are never freed, so that at any time as many dropped packets as there are buffers stop the program for good; and the length set by the network function is not passed on, so that messages of the spanning tree leave with the length of the packet that they replace."
  },
  {
   "property": "C85",
   "status": "partial",
   "theorems": [
    "Verif.Props.C85_search_partial",
    "Verif.Props.C85_search_slow_fails",
    "Verif.Props.C85_generator",
    "Verif.Props.C85_latency",
    "Verif.Props.C85_counters",
    "Verif.Props.C85_heatup",
    "Verif.Props.C85_reverse",
    "Verif.Props.C85_distinct",
    "Verif.Props.C85_firewall",
    "Verif.Props.C85_nat",
    "Verif.Props.C85_schedule"
   ],
   "note": "All proved for network functions with a capacity of at least 78.125 Mb/s per direction (and whose losses at lower rates are not higher by more than 5%). For slower ones the first sentence is false of the code: the rate for the generator is rounded down to whole Mb/s, at 39 Mb/s the script takes the generator for too slow and exits with an error instead of a result (proved for every such network function)."
  },
  {
   "property": "C86",
   "status": "proved",
   "theorems": [
    "Verif.Props.C86_standard",
    "Verif.Props.C86_devices",
    "Verif.Props.C86_nop",
    "Verif.Props.C86_bridge",
    "Verif.Props.C86_bridge_floods",
    "Verif.Props.C86_policer",
    "Verif.Props.C86_policer_single_bucket",
    "Verif.Props.C86_maglev",
    "Verif.Props.C86_maglev_needs_option"
   ],
   "note": "Flooding with two devices sends to the other one (`sentTo`). Both orders of bytes of MoonGen's addresses are covered, up to 65536 flows."
  },
  {
   "property": "C87",
   "status": "partial",
   "theorems": [
    "Verif.Props.C87_bind_partial",
    "Verif.Props.C87_bind_few_lines",
    "Verif.Props.C87_bind_other_domain",
    "Verif.Props.C87_unbind",
    "Verif.Props.C87_unbind_not_only"
   ],
   "note": "Binding is proved for machines with devices of domain 0 whose drivers are among the ten lines after their addresses, while those of the next devices are not. False of the code otherwise: with fewer lines, a device without driver is taken to have that of the next device and is not bound (witness); with a device of another domain, devices given without the domain are never bound (proved for all such machines). Unbinding is proved for devices with at most nine lines before their drivers, but for the words `and only those`: devices that are not given and have no driver get none (proved for all machines)."
  },
  {
   "property": "C88",
   "status": "partial",
   "theorems": [
    "Verif.Props.C88_ends_partial",
    "Verif.Props.C88_never_ends"
   ],
   "note": "Proved, with a bound on the number of iterations, if no relations between maps are guessed, the same maps change in every iteration and what is added to invariants is one of finitely many forms. False of the code otherwise (proved for all numbers of iterations): every iteration replaces a length that changes by a new symbol, and constraints on it may be added to invariants, so that two maps that get a key per packet, with a number up to their length, need a weaker invariant in every iteration. The functions of the environment do not give network functions the length of a map."
  },
  {
   "property": "C89",
   "status": "partial",
   "theorems": [
    "Verif.Props.C89_config_partial",
    "Verif.Props.C89_config_domain",
    "Verif.Props.C89_config_none"
   ],
   "note": "Proved for devices given without the domain. False of the code otherwise (proved for all lists of devices): with the domain, domain, bus and device are taken as bus, device and function, without an error. Without devices the program does not compile."
  },
  {
   "property": "C90",
   "status": "partial",
   "theorems": [
    "Verif.Props.C90_status",
    "Verif.Props.C90_succeeds",
    "Verif.Props.C90_runs_what_was_there",
    "Verif.Props.C90_first_run_fails",
    "Verif.Props.C90_results_partial",
    "Verif.Props.C90_results_stale",
    "Verif.Props.C90_stopped_partial",
    "Verif.Props.C90_slow_lives",
    "Verif.Props.C90_interrupted_lives",
    "Verif.Props.C90_moongen_partial",
    "Verif.Props.C90_moongen_wrong",
    "Verif.Props.C90_other_files_partial",
    "Verif.Props.C90_removes_logs"
   ],
   "note": "The status is proved (success if the other machine has the scripts). False of the code (each proved for all runs): rsync copies the folder of the scripts into the other folder instead of its content, so that the other machine runs what was there before, and every run fails if nothing was; started in another folder, as the main Makefile does, earlier results stay beside those of the run, and all files that end with `.log` there are removed; a network function that starts after 30 seconds, or after Ctrl+C, goes on; after checking out MoonGen failed, later runs go on with another version. Proved otherwise: the results for a script started in its own folder, the end of network functions that start in time, the version of MoonGen if it was not there, and that other files stay."
  },
  {
   "property": "C91",
   "status": "proved",
   "theorems": [
    "Verif.Props.C91_sets",
    "Verif.Props.C91_multisets",
    "Verif.Props.C91_multisubsets"
   ],
   "note": "Every lemma of the three files is a conjunct, with its name and lines. VeriFast's own functions are Lean's where they are the same; its `intersection` is written as VeriFast defines it."
  },
  {
   "property": "C92",
   "status": "proved",
   "theorems": [
    "Verif.Props.C92_positions",
    "Verif.Props.C92_elements",
    "Verif.Props.C92_disjoint"
   ],
   "note": "Every lemma of the file is a conjunct, with its name and lines. The values that VeriFast leaves open outside of the domain of a function are quantified over."
  },
  {
   "property": "C93",
   "status": "proved",
   "theorems": [
    "Verif.Props.C93_positions",
    "Verif.Props.C93_chunks",
    "Verif.Props.C93_splits",
    "Verif.Props.C93_numbered",
    "Verif.Props.C93_naturals",
    "Verif.Props.C93_search"
   ],
   "note": "Every lemma of the two files is a conjunct, with its name and lines."
  },
  {
   "property": "C94",
   "status": "proved",
   "theorems": [
    "Verif.Props.C94_elements",
    "Verif.Props.C94_bounds",
    "Verif.Props.C94_up_to",
    "Verif.Props.C94_pointwise"
   ],
   "note": "Of the 36 lemmas of the two files, the eight that C77 has are left out, and `note`, which ensures what it requires. One lemma (forall_idx_tail) needs that the tail of nil is nil, as in VeriFast."
  },
  {
   "property": "C95",
   "status": "partial",
   "theorems": [
    "Verif.Props.C95_recorded",
    "Verif.Props.C95_drawn",
    "Verif.Props.C95_reached_partial",
    "Verif.Props.C95_ends",
    "Verif.Props.C95_fork",
    "Verif.Props.C95_fork_more",
    "Verif.Props.C95_unreached",
    "Verif.Props.C95_prefix_fails",
    "Verif.Props.C95_return_goes_on"
   ],
   "note": "Every node that is drawn is reached: false of the code for nodes without label to which several edges lead (C95_unreached); of such a state, the state or the next one is reached (C95_reached_partial). A fork whose constraints extend one another cannot be recorded (C95_prefix_fails). A label 'ret' can be that of a state that goes on (C95_return_goes_on)."
  },
  {
   "property": "C96",
   "status": "partial",
   "theorems": [
    "Verif.Props.C96_sums",
    "Verif.Props.C96_one_at_a_time",
    "Verif.Props.C96_columns",
    "Verif.Props.C96_run",
    "Verif.Props.C96_columns_vary"
   ],
   "note": "Everything but the last clause, that each run prints the same columns: it is false of the code (C96_columns_vary): there is no column for work that a run does not do, nor for the invariants if no state reaches the end. Times are exact numbers of microseconds here, where Python adds floats."
  },
  {
   "property": "C97",
   "status": "partial",
   "theorems": [
    "Verif.Props.C97_window_partial",
    "Verif.Props.C97_rates",
    "Verif.Props.C97_files",
    "Verif.Props.C97_count",
    "Verif.Props.C97_drift"
   ],
   "note": "The first clause needs that what the rounds take beyond the times in the script adds up to at most the pause of 50 ms (C97_window_partial); 2 ms for each of the at most 21 rounds are not too much (C97_rates), 3 ms are: then packets are measured under the load of the next rate (C97_drift). The rest is proved."
  },
  {
   "property": "C98",
   "status": "partial",
   "theorems": [
    "Verif.Props.C98_status",
    "Verif.Props.C98_calls_partial",
    "Verif.Props.C98_printed",
    "Verif.Props.C98_passes_without_proofs",
    "Verif.Props.C98_stale",
    "Verif.Props.C98_download",
    "Verif.Props.C98_compile_all",
    "Verif.Props.C98_compile_all_wrong"
   ],
   "note": "Proved: what is printed, and that the nine sources are verified if all three calls succeed. False of the code: the status is that of the search for assumptions, so 0 whatever VeriFast says (C98_status, C98_passes_without_proofs); the last call can succeed with old manifests (C98_stale); after a failed download nothing is downloaded again (C98_download); the status of compile-all is that of the last network function (C98_compile_all_wrong)."
  },
  {
   "property": "C99",
   "status": "partial",
   "theorems": [
    "Verif.Props.C99_matrix",
    "Verif.Props.C99_passes",
    "Verif.Props.C99_never_published",
    "Verif.Props.C99_gaps"
   ],
   "note": "Proved: the list, and when the workflow passes. False of the code: nothing is ever published, as a tag does not start the workflow (C99_never_published); dhcp_ipv4 is not verified and the router not built (C99_gaps)."
  },
  {
   "property": "C100",
   "status": "partial",
   "theorems": [
    "Verif.Props.C100_starts_partial",
    "Verif.Props.C100_blocks",
    "Verif.Props.C100_too_large",
    "Verif.Props.C100_start",
    "Verif.Props.C100_shipped_partial",
    "Verif.Props.C100_router",
    "Verif.Props.C100_no_devices"
   ],
   "note": "Proved for one device or more, and all network functions in C but the DHCP server (C63). False of the code: with the configuration shipped with the router the program always ends with status 1 (C100_router); without devices any two numbers are accepted as devices (C100_no_devices). A table that is too large for the memory is accepted, and the program halts (C100_too_large). lpm_alloc has no implementation, so the memory of the router is not considered."
  },
  {
   "property": "C101",
   "status": "partial",
   "theorems": [
    "Verif.Props.C101_compiles_partial",
    "Verif.Props.C101_program_compiles",
    "Verif.Props.C101_nf_compiles",
    "Verif.Props.C101_renamed",
    "Verif.Props.C101_dynamic_partial",
    "Verif.Props.C101_links_partial",
    "Verif.Props.C101_router",
    "Verif.Props.C101_metal",
    "Verif.Props.C101_refused",
    "Verif.Props.C101_modelled",
    "Verif.Props.C101_hooked"
   ],
   "note": "Proved but for what is false of the code: in a directory whose path has .c or a space no program is compiled (C101_program_compiles, C101_renamed); an object in a directory with .so in its path is taken for a shared library (C101_dynamic_partial); the router uses functions that do not exist (C101_router); DPDK and the policer in Rust are not refused without an operating system although they need the C library (C101_metal)."
  },
  {
   "property": "C102",
   "status": "partial",
   "theorems": [
    "Verif.Props.C102_unambiguous_partial",
    "Verif.Props.C102_read_partial",
    "Verif.Props.C102_fork",
    "Verif.Props.C102_other",
    "Verif.Props.C102_ambiguous",
    "Verif.Props.C102_named"
   ],
   "note": "Proved for conditions made of symbols that claripy numbered with not, and, or of at least two parts. Other conditions are not put in parentheses, so that their negation reads like the negation of their beginning (C102_ambiguous), and a symbol with a name of its own can look like a numbered one (C102_named)."
  },
  {
   "property": "C103",
   "status": "proved",
   "theorems": [
    "Verif.Props.C103_text",
    "Verif.Props.C103_only",
    "Verif.Props.C103_raised",
    "Verif.Props.C103_endless",
    "Verif.Props.C103_not_utf8"
   ],
   "note": "Bytes are taken for Latin-1: a text in UTF-8 with other characters than those of ASCII is not returned as written (C103_not_utf8). The address is a known number, and every address can be loaded."
  }
 ]
}
# Formal model of klint: design

`/repo` holds klint: a Python tool (`tool/kalm`, `tool/klint`) that symbolically executes network functions (NFs) using *ghost
maps*, a C environment (`env/`) with the data structures and OS layer the NFs use, and the NFs themselves (`nf/`). This
directory contains a Lean 4 model of that code (`lean/Verif`), properties of it (`properties.jsonl`) and proofs.
`MANIFEST.json` lists the theorems for each property, `seeded/LOG.jsonl` the wrong programs tried against them.

## Method

* The model mirrors the source function by function, with exceptions as values and loops as structural recursion. Every
  definition cites file and lines and states its simplifications.
* 64-bit machine arithmetic is modelled as `Nat` modulo `2^64` or `BitVec` wherever wrap-around can be observed.
* SMT-solver calls of the tool are parameters, or propositions decided classically, specified by: "unsat is only answered
  when no assignment satisfies the constraints", and where a claim needs it also the converse.
* Claripy expressions are syntax only where the code inspects their shape (`kalm/utils.py`); elsewhere an expression is a
  function from assignments to values.
* Property theorems are in `lean/Verif/Props/`, stated against small specifications in `lean/Verif/Spec/`, in the same file,
  or directly over observable calls. Each has an `example` that its hypotheses can be met.
* Where the code violates a property, the negation is proved with a concrete witness and a `_partial` theorem keeps the part
  that does hold.

## Properties

Model and proof files are below `lean/Verif`. Theorems are in `Verif.Props`.

### C01 Index pool implements its ghost-map contract (proved)

Seen as a map from borrowed index to its last-use time, an index pool created by index_pool_alloc(size, exp) starts empty, and every later index_pool_borrow / refresh / used / return call changes and reports that map exactly as the contract in index_pool.h says: borrow succeeds whenever an index is free or expired and fails only when all 'size' indices are borrowed and young; the returned index is < size, was absent iff out_used is false, and was expired iff out_used is true; refresh sets the time, return removes the index, used is true iff the index is present and young.

* Model: `Env/IndexPool`; proofs: `Props/IndexPool`. `env/src/structs/index_pool.c` as an array of timestamps; step-wise refinement to the map of index_pool.h; induction over call histories.
* Theorems: `C01_index_pool_refines_contract`.

### C02 A live lease is never handed out twice (proved)

If index_pool_borrow at time t returns index i, then i was not reported 'used' at time t just before the call, and immediately afterwards index_pool_used(t, i) is true and the answer for every other index is unchanged.

* Model: `Env/IndexPool`; proofs: `Props/IndexPool`. `env/src/structs/index_pool.c` as an array of timestamps; step-wise refinement to the map of index_pool.h; induction over call histories.
* Theorems: `C02_live_lease_not_handed_out_twice`.

### C03 Hash map behaves as a finite map (proved)

After any sequence of map_set / map_remove calls that meet the preconditions of map.h, map_get(key) returns true with the value of the last map_set of an equal key not removed since, and false if there is none, whatever the hash values of the keys, including all keys colliding and chains that wrap around the table.

* Model: `Env/HashMap`; proofs: `Props/HashMap`. `env/src/structs/map.c`: open addressing with chain counters. Invariant: the chain counter of a slot is the number of stored keys whose probe path passes over it. Refinement to a finite map; induction over histories.
* Theorems: `C03_hash_map_refines_finite_map`, `C03_contract_map_laws`.
* Refinement of map.c to the finite map of map.h for every hash function, capacity, key size and legal call sequence, with the program free to write memory the map does not hold.

### C04 map_set always finds a free slot below capacity (proved)

When fewer than 'capacity' keys are present, map_set stores the new key in a slot that was free, overwrites no other entry, and terminates; the table size is the least power of two >= capacity (0 for 0) and is computed without overflow whenever capacity*64 <= SIZE_MAX.

* Model: `Env/HashMap`; proofs: `Props/HashMap`. `env/src/structs/map.c`: open addressing with chain counters. Invariant: the chain counter of a slot is the number of stored keys whose probe path passes over it. Refinement to a finite map; induction over histories.
* Theorems: `C04_real_capacity`, `C04_set_finds_free_slot`.

### C05 os_memory_alloc returns disjoint, aligned, in-range blocks (proved)

Each successful os_memory_alloc(count, size) returns a block that lies inside the arena, is aligned to size rounded up past a cache line, and overlaps no earlier block; a request that does not fit never returns.

* Model: `Env/MemoryAlloc`; proofs: `Props/MemoryAlloc`. The bump allocator as a state machine; invariant over histories.
* Theorems: `C05_allocator_blocks`.
* Also proves that returned blocks are zeroed and characterises exactly when a request is refused.

### C06 Memory and configuration helpers match their contracts (partial)

os_memory_eq is true iff the two byte ranges are equal; os_memory_copy makes the destination equal to the source and changes nothing else; equal keys have equal os_memory_hash; os_config_try_get returns the value of the first entry with exactly that name and false if none; the bounded os_config_get variants succeed exactly when the value is in range.

* Model: `Env/Memory`; proofs: `Props/Memory`. `os/memory.h`, `os/config.h`: recursion over bytes and configuration entries.
* Theorems: `C06_memory_helpers`, `C06_config_helpers`, `C06_config_get_partial`, `C06_config_get_signed_minimum_disagrees`.
* Memory helpers and the sized configuration getters are proved in full; the generic os_config_get with a non-zero minimum compares as signed numbers, so it rejects in-range values of 2^63 or more (negation proved with a witness).

### C07 Consistent hash table prefers a live backend and never writes out of its row (partial)

cht_alloc(height, capacity) builds, for every bucket, a row listing every backend 0..capacity-1 exactly once, so that cht_find_preferred_available_backend returns a backend that is in use in the pool whenever one below capacity is, returns false otherwise, and always returns the same backend for the same key while the set of live backends is unchanged.

* Model: `Env/Cht`; proofs: `Props/Cht`. `env/src/structs/cht.c`: permutations modulo the height; counting argument for coprime strides.
* Theorems: `C07_rows_partial`, `C07_rows_prime_height_partial`, `C07_find_partial`, `C07_rows_claim_false_for_composite_height`.
* Proved for every height with no common factor with a number up to the capacity (all primes); for composite heights the precondition also accepts, the claim is false (height 4 with 3 backends writes out of bounds).

### C08 Merged path constraints describe exactly the union of the merged paths (proved)

When states are merged, an assignment satisfies the merged constraints together with the i-th merge condition iff it satisfies state i's constraints and the i-th condition, and every assignment satisfying the merged constraints satisfies some merge condition.

* Model: `Tool/Merging`; proofs: `Props/Merging`. `kalm/solver.py`, `merging.py`, `plugins/path.py`, memory merging: constraints as predicates on assignments.
* Theorems: `C08_merged_meaning`, `C08_merged_is_union`.
* For constraint lists compared by object identity, as the code does.

### C09 Merge conditions are exclusive, representable and cover all states (proved)

merge_states over n >= 2 states creates n conditions on a fresh flag such that at most one holds under any assignment, each one is satisfiable, and together with the merged constraints exactly one holds.

* Model: `Tool/Merging`; proofs: `Props/Merging`. `kalm/solver.py`, `merging.py`, `plugins/path.py`, memory merging: constraints as predicates on assignments.
* Theorems: `C09_conditions`.
* Also proves that the merged state admits exactly the union of what the states admit.

### C10 Merging-aware exploration neither loses nor invents program behaviours (proved)

Running the exploration to completion yields final states that together cover exactly the concrete executions of the program from the start state: each concrete run is represented by some final state and each final state represents only concrete runs; each step picks only states at the lowest program counter for merging.

* Model: `Tool/Merging`; proofs: `Props/Merging`. `kalm/executor.py`, `merging.py`: states with a concretisation; invariant over exploration steps.
* Theorems: `C10_exact`, `C10_lowest_first`.
* angr's step of a single state and the merge of a pile are assumed exact (merge: C08, C09); triage is the partition proved in C11. Stated for explorations that terminate.

### C11 Triage for merging partitions the states (proved)

triage_for_merge puts every input state in exactly one non-empty pile, and all states of a pile have equal call stacks, equal return values when triaging on them, and compatible ghost maps.

* Model: `Tool/Merging`; proofs: `Props/Merging`. `kalm/executor.py`, `merging.py`: states with a concretisation; invariant over exploration steps.
* Theorems: `C11_partition`.
* Compatibility is with the first state of the pile, which is what the code checks.

### C12 Forking on a guard covers both outcomes and only feasible ones (proved)

fork_guarded runs the true case on states where the guard can hold and the false case where it can fail: after the call the resulting states together admit exactly the assignments of the original state, with guard true in the 'true' state and false in the 'false' state, and no infeasible state is created.

* Model: `Tool/Merging`; proofs: `Props/Merging`. `kalm/utils.py:fork_guarded`: states as constraint sets.
* Theorems: `C12_fork`.
* The solver is taken to answer satisfiability exactly.

### C13 Pointer decomposition is exact (partial)

For an address expression made of additions, subtractions, constant multiplications, shifts and conditionals, the (base, index, offset) returned by base_index_offset satisfies base + index*size + offset/8 == address modulo 2^64 under every assignment satisfying the path constraints, with offset/8 < size.

* Model: `Tool/Expr`; proofs: `Props/Expr`. `kalm/utils.py`: bit-vector expressions as syntax, evaluated modulo 2^n.
* Theorems: `C13_offset_in_element`, `C13_sums_back_partial`, `C13_sums_back_bytes`, `C13_wrong_index`.
* The sum is the address for objects of bytes, and for others when each remaining term has the size as multiplier or is divisible by it. False otherwise: a multiplier that is another multiple of the size is dropped (base + 8*i with 4-byte elements gives index i); proved. The search for concrete bases (JITed BPF) is not modelled.

### C14 Expression simplification preserves meaning (proved)

simplify(state, e) evaluates to the same value as e under every assignment that satisfies the state's constraints; the linear decomposition used by it sums back to the expression modulo 2^n.

* Model: `Tool/Expr`; proofs: `Props/Expr`. `kalm/utils.py`: bit-vector expressions as syntax, evaluated modulo 2^n.
* Theorems: `C14_simplify`, `C14_sums_back`.
* The claripy operations used (excavate, burrow, simplify, If, +) are assumed to preserve meaning; the solver answers exactly. Stated for calls that terminate.

### C15 Structural equality is an equivalence that implies equal meaning (partial)

structural_eq is reflexive, symmetric and transitive on the nested values it is used on (None, expressions, strings, numbers, lists, dictionaries, named tuples) and equal values evaluate equally; structural_diff partitions its two inputs into left-only, common and right-only.

* Model: `Tool/Structural`; proofs: `Props/Structural`. `kalm/utils.py` structural comparison over an inductive type of Python values.
* Theorems: `C15_symmetric`, `C15_reflexive`, `C15_same_observations_partial`, `C15_transitive_partial`, `C15_not_transitive`, `C15_string_equals_list`, `C15_metadata_merge`, `C15_diff_partial`, `C15_diff_wrong`.
* Reflexivity and symmetry are proved. Transitivity and the partition by structural_diff are false in general (witnesses proved) and proved on the values where the comparison is exact.

### C16 Merging of memory values and path segments is faithful (proved)

After merging n states, reading a location yields, when the i-th merge condition holds, the value it had in state i; the merged call path restricted to segments whose condition holds under the i-th merge condition is exactly the path of state i.

* Model: `Tool/Merging`; proofs: `Props/Merging`. `kalm/solver.py`, `merging.py`, `plugins/path.py`, memory merging: constraints as predicates on assignments.
* Theorems: `C16_values`, `C16_paths`.

### C17 PCI configuration access protocol is enforced and addresses decode correctly (proved)

A PCI configuration read or write reaches the device handlers only after an address was written and flushed since the last address change, with exactly the bus/device/function/register that the C code encoded; any other port or order is rejected.

* Model: `Tool/Pci`; proofs: `Props/Pci`. `kalm/plugins/pci.py` and `os/pci.h` as a port automaton.
* Theorems: `C17_read`, `C17_write`, `C17_c_accesses`.
* For devices below 32 and functions below 8, as on every PCI bus.

### C18 The clock is read at most once per execution and times are consistent (partial)

In one execution the clock can be read at most once, the time it returns is never the reserved maximum, and it equals cycles / frequency * 10 with the cycle count returned by rdtsc; the C clock built on it is monotone in the cycle counter.

* Model: `Tool/Clock`; proofs: `Props/Clock`. `kalm/clock.py`, `os/clock.h`: metadata store and 64-bit arithmetic.
* Theorems: `C18_at_most_once`, `C18_symbolic_clock_exact`, `C18_time_from_cycles`, `C18_monotone_partial`, `C18_not_monotone`.
* Everything is proved except monotonicity, which is false when the 64-bit product wraps (frequencies below 10; witness proved).

### C19 A ghost-map get is sound (partial)

For a ghost map that over-approximates a concrete map, get(key) returns (value, present) such that every concrete map and assignment described by the state before the call is still described after the call, with 'present' true iff the key is in the concrete map and, if so, 'value' its value.

* Model: `Tool/GhostMap, Tool/GhostMapSem, Tool/GhostMapProg, Tool/GhostMapCross`; proofs: `Props/GhostMap*`. `klint/ghostmaps.py`: maps, layers, known items, caches, versions; simulation with concrete maps over all assignments, induction over programs of map operations.
* Theorems: `C19_get_partial`, `C19_cross_partial`, `C19_new`, `C19_new_array`, `C20_program_partial`, `C20_cross_program_partial`, `C20_set_lost`, `C19_hint_lost`, `C19_hint_updated_lost`, `C19_condition_dropped`, `C22_hint_unsound`.
* Proved for every described world when no update was flattened and the invariants read no map, or read for present items maps that are not updated and whose invariants read no map, for single reads and whole programs, starting from new maps, whose contents are proved to be empty or those of an array. False otherwise (witnesses proved): flattened updates, expected values in a part of an invariant or in updated maps, and chains of invariants.

### C20 set and remove are exact updates (partial)

After set(k, v) (resp. remove(k)), get(k) reports (v, present) (resp. not present); for every key different from k it reports what the map before the update reported; the length grows by one iff k was absent (shrinks by one iff present).

* Model: `Tool/GhostMap, Tool/GhostMapSem, Tool/GhostMapProg, Tool/GhostMapCross`; proofs: `Props/GhostMap*`. `klint/ghostmaps.py`: maps, layers, known items, caches, versions; simulation with concrete maps over all assignments, induction over programs of map operations.
* Theorems: `C20_program_partial`, `C20_cross_program_partial`, `C20_set_lost`, `C20_unknown_key_wrong`.
* Proved for all programs of reads, lengths, updates and assumptions that do not flatten an update and do not update the key of the unknown item; false in both cases (witnesses proved).

### C21 Two gets with equal keys agree (partial)

If two gets on the same version of a map use keys that are equal under an assignment, they report the same presence and, when present, the same value; whenever two keys are different and both present the length is at least 2, and a map that can be shown full has no other keys.

* Model: `Tool/GhostMap, Tool/GhostMapSem, Tool/GhostMapProg, Tool/GhostMapCross`; proofs: `Props/GhostMap*`. `klint/ghostmaps.py`: maps, layers, known items, caches, versions; simulation with concrete maps over all assignments, induction over programs of map operations.
* Theorems: `C21_consistent_partial`, `C21_two_keys_partial`, `C21_full_partial`, `C21_unknown_disagrees`, `C21_unknown_overfull`.
* Proved for all programs on new maps whose reads are not answered by the unknown item and whose updates make new layers, for every assignment satisfying the final constraints; false when the unknown item answers (witnesses proved).

### C22 forall is sound (partial)

If forall(pred) is assumed true, then every item of every concrete map considered satisfies pred; if it is assumed false, some item violates it; no concrete map is excluded by evaluating forall.

* Model: `Tool/GhostMap, Tool/GhostMapSem, Tool/GhostMapProg, Tool/GhostMapCross`; proofs: `Props/GhostMap*`. `klint/ghostmaps.py`: maps, layers, known items, caches, versions; simulation with concrete maps over all assignments, induction over programs of map operations.
* Theorems: `C22_forall_partial`, `C22_cross_partial`, `C22_two_foralls_wrong`, `C22_hint_unsound`, `C20_unknown_key_wrong`.
* Proved for one forall over a map whose unknown item is still free, with a predicate that reads no map, or that asks whether keys are in other maps that were not updated and for their values there. False for two foralls on one map, for predicates with an expected value in another map, and together with later updates (witnesses proved).

### C23 Old versions of a map keep their contents (partial)

A get on an older version of a map (as used by the spec's 'old') reports the contents at that version, whatever was set, removed or read on newer versions meanwhile.

* Model: `Tool/GhostMap, Tool/GhostMapSem, Tool/GhostMapProg, Tool/GhostMapCross`; proofs: `Props/GhostMap*`. `klint/ghostmaps.py`: maps, layers, known items, caches, versions; simulation with concrete maps over all assignments, induction over programs of map operations.
* Theorems: `C23_old_version_partial`, `C23_old_version_wrong`.
* Proved for every program that, since the old version, reads and updates its map only at keys not updated since; false in general (witness proved): a read of the new version at a key equal to an updated one changes what the old version reports.

### C24 Flattening update layers does not change the map (partial)

When two consecutive updates are collapsed into one layer, or when a layer is dropped because it rewrites the same key, every later get, length and version query gives the same answer as without the optimisation.

* Model: `Tool/GhostMap, Tool/GhostMapSem, Tool/GhostMapProg, Tool/GhostMapCross`; proofs: `Props/GhostMap*`. `klint/ghostmaps.py`: maps, layers, known items, caches, versions; simulation with concrete maps over all assignments, induction over programs of map operations.
* Theorems: `C24_contents_partial`, `C24_cleared_cache_partial`, `C24_version_wrong`, `C20_set_lost`.
* Contents and lengths proved unchanged for all maps, and reads proved unchanged if the layer's cache were emptied; false of the code for reads (stale cache) and for versions (witnesses proved).

### C25 Invariants that mention other maps are evaluated on the right version (partial)

A MapHas / MapGet inside an invariant refers to the version of the other map that was current when the invariant was established, with or without a value argument.

* Model: `Tool/GhostMap, Tool/GhostMapSem, Tool/GhostMapProg, Tool/GhostMapCross`; proofs: `Props/GhostMap*`. `klint/ghostmaps.py`: maps, layers, known items, caches, versions; simulation with concrete maps over all assignments, induction over programs of map operations.
* Theorems: `C25_frozen_get_partial`, `C25_frozen_has_partial`, `C25_has_reads_newest`, `C22_hint_unsound`.
* MapGet, and MapHas with the right value, proved to use the frozen version after any program restricted as in C23; MapHas without a value always reads the newest version (witness proved).

### C26 Merging ghost maps preserves each side's contents (partial)

If can_merge accepts two maps, the merged map describes under each merge condition exactly the contents the corresponding side had.

* Model: `Tool/GhostMapMerge`; proofs: `Props/GhostMapMerge`. `klint/ghostmaps.py` merging; same semantics as C19.
* Theorems: `C26_own_path_partial`, `C26_other_path_partial`, `C26_exact_partial`, `C26_can_merge`, `C26_layers_swapped`.
* For maps that were read but not updated: merging keeps every contents of the merging path and of the other paths, and describes no others. False for updated maps (witness proved): the merged layers take the values of the wrong path.

### C27 Inferred invariants hold for every packet history (partial)

When the fixed-point loop stops, every inferred map invariant holds in the map contents reached after any number of handled packets, so the verified result states cover every packet of every history.

* Model: `Tool/Infer`; proofs: `Props/Infer*`. `klint/ghostmaps.py` inference and `klint/executor.py`: the inference loop; induction over packet histories.
* Theorems: `C27_histories_partial`, `C27_flattened_lost`, `C27_single_element_lost`, `C27_cross_map_lost`, `C27_two_initial_states_lost`, `C27_guesses_tested`.
* Proved for every program, number of iterations and packet history for one initial state, invariants that read no other map, and maps into which initialization has put no items. False of the code beyond that, with witnesses: updates flattened into the layer of initialization, arrays of one element that initialization sets, invariants about another map that alone changes, and several initial states whose invariants differ. Guessing relations between maps is not modelled; that every guess that is assumed was tested in every explored state is proved.

### C28 Invariant widening only weakens and covers the offending item (partial)

One inference iteration replaces each invariant by a weaker one that holds of every item set in the explored states; if nothing needed weakening the loop stops, otherwise it continues.

* Model: `Tool/Infer`; proofs: `Props/Infer*`. `klint/ghostmaps.py` inference and `klint/executor.py`: the inference loop; induction over packet histories.
* Theorems: `C28_weakens`, `C28_covers_partial`, `C28_stops_partial`, `C28_symbols_partial`, `C28_symbols_escape`.
* Weakening is proved for all invariants. Covering and the exact condition for stopping are proved for invariants that read no other map. That what is added mentions only symbols all states share is proved for items that are symbols and false for others (witness proved).

### C29 Inferred length relations hold for every packet history (partial)

The length constraints assumed for havoced maps (constant, at most the previous bound, less-or-equal between maps) hold of the concrete lengths after any number of packets.

* Model: `Tool/Infer`; proofs: `Props/Infer*`. `klint/ghostmaps.py` inference and `klint/executor.py`: the inference loop; induction over packet histories.
* Theorems: `C29_histories_partial`, `C27_flattened_lost`.
* Proved where C27 is: lengths that are taken to be constant are, and every relation between lengths holds, after any number of packets. False of the code for updates flattened into the layer of initialization (C27_flattened_lost).

### C30 Symbolic heap reads return what was written (partial)

Storing a value at an offset of an allocated object and reading the same bytes back returns the value; bytes not covered by the store are unchanged; this also holds for accesses wider than one element and for both byte orders.

* Model: `Tool/Heap`; proofs: `Props/Heap, Props/HeapOwn`. `klint/heap.py`: elements as bit strings; loops over chunks; invariant on fractions.
* Theorems: `C30_write`, `C30_read`, `C30_read_after_write`, `C30_write_succeeds`, `C30_reversed_partial`, `C30_reversed_whole_partial`, `C30_reversed_wide`, `C30_reversed_other_bytes`.
* Machine byte order: proved in full, for every element size, offset and width. Opposite byte order: proved for accesses within one element at an offset; false for wide accesses and for other bytes (witnesses proved).

### C31 Ownership fractions are conserved (partial)

Every object element's ownership stays between 0 and 100 percent; taking and giving back restores the original ownership; an element can be written only when fully owned, read only when partly owned; nothing outside the allocated range can be read or written.

* Model: `Tool/Heap`; proofs: `Props/Heap, Props/HeapOwn`. `klint/heap.py`: elements as bit strings; loops over chunks; invariant on fractions.
* Theorems: `C31_bounded`, `C31_allocated`, `C31_take_give`, `C31_take_all_give`, `C31_conserved_partial`, `C31_write_owned_partial`, `C31_write_first_partial`, `C31_read_owned_partial`, `C31_read_first_partial`, `C31_give_wraps`, `C31_ephemeral_outside`.
* Bounds and restoring proved for all operation sequences; ownership checks proved for allocations with fractions. False: a gift of more than 155 may wrap, and ephemeral allocations may be written out of range (witnesses proved).

### C32 Descriptor ring / agent memory model is read-after-write consistent (partial)

In the memory used for descriptor rings and agents, reading a range just written returns the written value and other bits of that and other elements are unchanged, in either byte order.

* Model: `Tool/Heap`; proofs: `Props/Heap`. `externals/verif/verif.py`: slices of elements.
* Theorems: `C32_write_partial`, `C32_read_partial`, `C32_read_after_write_partial`, `C32_write_succeeds`, `C32_reversed_partial`, `C32_reversed_other`.
* Machine byte order: proved for all positions. Opposite byte order: proved for whole elements and mirrored offsets; false in general (witness proved).

### C33 Symbolic model of the index pool admits every real pool behaviour (partial)

Whatever the real index pool may answer under its contract is among the outcomes explored by the symbolic model of borrow / refresh / used / return, with the pool contents updated the same way, and precondition violations are always reported.

* Model: `Tool/Structs`; proofs: `Props/Structs`. `externals/structs/*.py`: outcome relations of the externals against those of the contracts.
* Theorems: `C33_model_is_contract`, `C33_real_pool_covered`, `C33_violations_reported`, `C33_alloc_check_vacuous`.
* Everything is proved except that the allocation precondition is reported: the check in the external is always true, so it is never reported (negation proved).

### C34 Symbolic model of the hash map admits every real map behaviour and rejects misuse (partial)

map_get/map_set/map_remove models produce exactly the outcomes of the map.h contract on contents, addresses and key ownership, and any call violating a precondition (too large a capacity, full map, key already present, key memory modified while in the map) is rejected.

* Model: `Tool/Structs`; proofs: `Props/Structs`. `externals/structs/*.py`: outcome relations of the externals against those of the contracts.
* Theorems: `C34_accepted_use_is_legal_partial`, `C34_legal_use_accepted`, `C34_ownership_exact`, `C34_key_across_elements_modified`, `C34_alloc_check_vacuous`.
* Proved when a key lies within one heap element; a key spanning several elements can be modified while in the map without a report (negation proved), and the allocation check is vacuous.

### C35 Symbolic model of the LPM table admits every real longest-prefix match (partial)

For every table content and key, the answer a longest-prefix-match search gives is among the outcomes of the lpm_search model, and each outcome with a result is the value of a longest matching prefix.

* Model: `Tool/Structs`; proofs: `Props/Structs`. `externals/structs/*.py`: outcome relations of the externals against those of the contracts.
* Theorems: `C35_no_route`, `C35_results_are_longest`, `C35_exact_key_covered_partial`, `C35_prefix_match_not_covered`, `C35_set_exact`, `C35_repeated_set_unreported`.
* The external's lookup covers only the entry whose key equals the address, so a real longest-prefix match is not covered (negation proved).

### C36 Symbolic model of the consistent hash table admits every real outcome (partial)

The outcomes of the cht_find_preferred_available_backend model include every answer of the C implementation.

* Model: `Tool/Structs`; proofs: `Props/Structs`. `externals/structs/*.py`: outcome relations of the externals against those of the contracts.
* Theorems: `C36_covered_if_none_expired_partial`, `C36_expired_backends_not_covered`.
* Covered when no backend has expired; otherwise the real result is excluded (negation proved).

### C37 Peer symbolic execution of a spec explores every feasible path exactly once (proved)

For a spec that always terminates, the exploration terminates, the recorded path conditions are pairwise exclusive and cover all assignments satisfying the state's constraints, and the spec is run once per path.

* Model: `Tool/Symbex`; proofs: `Props/Symbex`. `verif/symbex.py`: specifications as decision trees, search by re-execution.
* Theorems: `C37_terminates`, `C37_paths`, `C37_success_iff`, `C37_one_run_per_path`.
* For specifications without `choose` (C38 covers those with); the solver answers exactly.

### C38 Existential choices are searched exhaustively (partial)

Verification succeeds iff some assignment of distinct implementation maps to the spec's maps makes the spec succeed on all paths of all states; in particular a failed spec assertion under one choice leads to trying the next one.

* Model: `Tool/Symbex`; proofs: `Props/SymbexChoose`. `spec_prefix.choose`: search over candidate lists.
* Theorems: `C38_found`, `C38_exhausted`, `C38_terminates`, `C38_search_partial`, `C38_assertion_not_retried`, `C38_duplicates_abort`.
* Soundness, completeness of giving up and termination hold in general; the equivalence holds without built-in exceptions and with disjoint candidates. False otherwise: a failed assert is not retried, and dropping duplicates can empty a candidate list; both proved.

### C39 Spec arithmetic does not depend on operand order or width (partial)

Operations between spec values of different widths compare and compute the mathematical unsigned values, so that a == b iff b == a, and comparing with a wider value never ignores its high bits.

* Model: `Tool/SpecValue`; proofs: `Props/SpecValue`. `value_proxy.py`, `spec_prefix.py`, `tx.py`: numbers tagged with a width; slices.
* Theorems: `C39_compare_partial`, `C39_compare_narrower`, `C39_symmetric_partial`, `C39_compare_truncates`, `C39_equality_depends_on_order`, `C39_integer_wraps`, `C39_arithmetic_partial`, `C39_sum_depends_on_order`.
* Holds when the other operand (and the result) fit the width of the first; false otherwise since wider operands are truncated, proved for all pairs of different widths.

### C40 Typed views and packet headers slice the right bits (partial)

Wrapping a value into a typed record and unwrapping it gives the value back; each packet header field of the spec reads exactly the bits at its position in the packet bytes, and concatenating all fields gives the header.

* Model: `Tool/SpecValue`; proofs: `Props/SpecValue`. `value_proxy.py`, `spec_prefix.py`, `tx.py`: numbers tagged with a width; slices.
* Theorems: `C40_view_fields`, `C40_unwrap_wrap`, `C40_round_trip`, `C40_field_bits`, `C40_attribute`, `C40_as_value`, `C40_offsets`, `C40_ipv4_bytes_partial`, `C40_ipv4_dscp_wrong`, `C40_ipv4_flags_wrong`, `C40_ports_position`, `C40_ports_partial`, `C40_ports_with_options_wrong`.
* Views, field reading and concatenation are proved for all layouts. The IPv4 layout itself has dscp/ecn and flags/fragment offset at the wrong bits, and ports are read at a fixed position even with options; proved.

### C41 The spec sees exactly the devices a packet was sent on (partial)

For each transmission the spec's 'devices' contains exactly the devices on which the runtime sends the packet: one for net_transmit, all but the input for net_flood, and all but the input and the excluded ones for net_flood_except; its length is their number.

* Model: `Tool/SpecValue`; proofs: `Props/SpecValue`. `value_proxy.py`, `spec_prefix.py`, `tx.py`: numbers tagged with a width; slices.
* Theorems: `C41_transmit`, `C41_flood_partial`, `C41_flood_contains_others`, `C41_flood_except_partial`, `C41_flood_except_ignores_exclusions`.
* Exact for net_transmit, and for net_flood among existing devices. False for net_flood_except: exclusions are ignored; proved.

### C42 Firewall admits only solicited traffic (proved)

The firewall forwards an external TCP/UDP packet iff its reversed flow was sent from the internal side (or refreshed by an admitted external packet) within the expiration time and its entry has not been reused; every internal TCP/UDP packet is forwarded; packets go unmodified to the other device.

* Model: `Nf/Firewall`; proofs: `Props/Firewall`. `nf/firewall`: refinement to an expiring set over packet sequences.
* Theorems: `C42_firewall_refines_expiring_set`, `C42_never_violates_contracts`, `C42_external_only_if_solicited`.
* The map is represented by its contract (proved of map.c in C03), the pool by the model of index_pool.c.

### C43 NAT translation is consistent and injective (partial)

While a flow is live all its packets use the same external port, two live flows never share a port, and a packet from outside to a live port is delivered to exactly the internal flow that owns it, and only if it comes from that flow's peer.

* Model: `Nf/Nat, Nf/Checksum`; proofs: `Props/Nat, Props/NatRewrite`. `nf/nat`, `env/include/net/packet`: refinement to a flow specification; bytes of packets; one's complement sums.
* Theorems: `C43_nat_refines_spec_partial`, `C43_spec_step_keeps_ports`, `C43_spec_run_distinct_ports`, `C43_port_shared_when_table_exceeds_ports`.
* Proved in full for tables of at most 65536 flows (the number of ports); for larger tables, which the configuration allows, two live flows share a port (proved for every larger size).

### C44 NAT rewriting changes only the translated address, port and checksum (partial)

A packet forwarded by the NAT differs from the received one only in the translated IPv4 address, the translated port, the IPv4 header checksum and the TCP/UDP checksum, and a valid checksum stays valid.

* Model: `Nf/Nat, Nf/Checksum`; proofs: `Props/Nat, Props/NatRewrite`. `nf/nat`, `env/include/net/packet`: refinement to a flow specification; bytes of packets; one's complement sums.
* Theorems: `C44_rewrite_partial`, `C44_checksum_update_valid_iff`, `C44_checksum_update_identity_wrong`, `C44_inbound_source_address_corrupted`, `C44_outbound_checksum_becomes_invalid`.
* False of the code: the IPv4 checksum is updated at the offset of the source address, and the incremental update does not fold carries. Proved: which bytes change, when exactly an update is right, and both counterexamples.

### C45 Policer enforces the configured rate and burst (partial)

In any time window of length T the bytes forwarded from the WAN to one address are at most burst + rate*T, and a bucket never holds more than burst.

* Model: `Nf/Policer`; proofs: `Props/Policer`. `nf/policer`: token bucket; telescoping bound over packet sequences.
* Theorems: `C45_rate_bound_partial`, `C45_rate_divides_burst_partial`, `C45_buckets_and_forwarding`, `C45_rate_claim_false_rounding`, `C45_rate_claim_false_large_rate`, `C45_rate_claim_false_expiration_wrap`.
* The bound burst + rate*T is proved when rate divides burst and the expiration time does not wrap; for other rates the integer division burst/rate refills too early (false with three witnesses), and the exact weaker bound is proved. A bucket never holds more than burst (proved always).

### C46 Bridge learns and forwards correctly (proved)

A data frame is never sent back on its input device or on a port blocked by the spanning tree when flooded; a frame to a known destination goes only to the device where that source address was last seen; group source addresses are never learned; an unknown destination is flooded.

* Model: `Nf/Bridge`; proofs: `Props/Bridge`. `nf/bridge`: refinement to a bridge specification.
* Theorems: `C46_bridge_refines_spec`, `C46_data_frame`, `C46_groups_never_learned`, `C46_port_is_last_seen`, `C46_root_is_minimum`.
* Every run is a run of the bridge specification; the data-frame guarantees are then proved of the specification.

### C47 Load balancer sends to live backends and keeps flows sticky (partial)

A client packet is forwarded only to a backend that is currently live; packets of one live flow go to the same backend as long as it stays live; heartbeats make a backend live.

* Model: `Nf/Maglev`; proofs: `Props/Maglev`. `nf/maglev`: over the model of the consistent hash table and the pool.
* Theorems: `C47_live_backend_partial`, `C47_heartbeat_makes_live`, `C47_sticky_without_backend_0_partial`, `C47_not_sticky`, `C47_init_checked`.
* Live backends and heartbeats are proved for every packet sequence (table heights as in C07). Stickiness is false of the code: flow_backends is never written; proved with a witness. Stickiness when backend 0 is not live is proved.

### C48 Router forwards valid packets along the longest matching prefix (partial)

The router forwards a non-management IPv4 packet iff its header is valid, its TTL is positive and some prefix matches, and then to the device of a longest matching prefix.

* Model: `Nf/Router`; proofs: `Props/Router`. `nf/router`: over any structure that meets lpm.h.
* Theorems: `C48_route_exact`, `C48_routes_right_partial`, `C48_run_safe_partial`, `C48_bad_checksum_forwarded`, `C48_valid_packet_dropped`, `C48_repeated_command_violates_contract`, `C48_nop_exchanges`.
* The exact forwarding condition is proved for any longest-prefix-match structure meeting lpm.h (there is no implementation). False of the code: checksums are not verified, the total length is read in the wrong byte order, and a repeated management command violates lpm_set's precondition; all three are proved.

### C49 Runtime transmit, flood and device indices agree (proved)

The device passed to the network function and the device used by net_transmit map to each other one-to-one for every input device and output, a flooded packet is sent on every device except the input (and excluded ones) exactly once and never back to the input.

* Model: `Nf/Runtime`; proofs: `Props/Runtime`. `env/src/net/tinynf/main.c`: arithmetic of device and output indices.
* Theorems: `C49_indices_one_to_one`, `C49_transmit`, `C49_flood`, `C49_flood_except`, `C49_transmit_to_input_misdirected`, `C49_transmit_to_last_input_out_of_bounds`, `C49_flood_update_shares_addresses`.
* For the tinynf runtime and the driver's assignment of outputs. Also proved: what goes wrong outside the claim (transmitting to the input device; updating addresses while flooding).

### C50 Byte-order helpers and clock sleep are correct (partial)

Endianness conversions reverse the bytes and are their own inverse; the busy-wait sleep returns once at least the requested time has passed, for every clock progress.

* Model: `Env/Endian`; proofs: `Props/Endian`. `arch/endian.h`, `metal/clock.c`, `linux/clock.c`, DPDK delay: bytes and 64-bit arithmetic.
* Theorems: `C50_swap16_partial`, `C50_swap32_partial`, `C50_swap32_wrong`, `C50_swap64_wrong`, `C50_swap32_value`, `C50_swap64_value`, `C50_sleep_returns_late_enough_partial`, `C50_sleep_returns_if_hit_partial`, `C50_sleep_never_returns`, `C50_metal_sleep_window`, `C50_linux_request`, `C50_dpdk_delay_partial`, `C50_dpdk_delay_wraps`.
* The 16-bit swap is right; the 32- and 64-bit swaps lose the middle bytes (false). The bare-metal sleep waits for equality with the target and never returns on a clock that skips it (false); it never returns early.

### C51 Register field updates change only that field (partial)

Setting or clearing a register field stores the new value in exactly the field's bits and leaves all other bits of the register and all other registers unchanged; initial values have each field at its specified initial value and reserved bits zero.

* Model: `Tool/Registers`; proofs: `Props/RegField`. `klint/fullstack/reg_util.py`: values as functions of assignments; every claim is about single bits.
* Theorems: `C51_change`, `C51_change_pci`, `C51_initial_known`, `C51_initial_partial`, `C51_reserved_floats`, `C51_too_large_spills`.
* Updates are proved for all layouts, old contents and values that fit the field; initial values for all layouts without floating fields, and for those whose floating fields do not follow reserved bits. False of the code beyond that, with witnesses: reserved bits before a floating field are not zero (PFVLVF), and values too large for the field change other bits (no caller passes one).

### C52 Every illegal register write is rejected (partial)

A device register write that changes a read-only or not-accessible field, or that no specified action with a satisfied precondition allows, raises an error; all accepted writes are justified field by field.

* Model: `Tool/Registers`; proofs: `Props/RegWrite`. `reg_util.py`, `ast_util.py`, `device.py:60-79`: the checks of a write, with the register and action tables as parameters.
* Theorems: `C52_justified`, `C52_access_partial`, `C52_read_only_changed`, `C52_ignored_bits_stored`.
* That every changed field is covered by an action with a true precondition is proved for all tables with one-bit preconditions. That no read-only field changes is proved for registers in which none follows a field on which writes are ignored, and is false beyond that, with a witness. Accepted writes also store the bits on which writes are ignored.

### C53 Device addresses resolve to the right register and index (partial)

Every byte address inside a described register instance resolves to that register and to its index, and instance base addresses of different registers never resolve to the wrong one.

* Model: `Tool/Registers`; proofs: `Props/RegAddr`. `reg_util.py:find_reg_from_addr`: cache and linear search; plus the address table of spec_reg.py.
* Theorems: `C53_base_partial`, `C53_bytes_partial`, `C53_intel`, `C53_alternating_wrong`, `C53_undescribed_resolves`, `C53_three_ranges_wrong`.
* Base addresses are proved right for all tables with at most two ranges per register, and for the table of the code; other bytes where no other range spans the address. False of the code beyond that, with witnesses: bytes of alternating registers, and registers with three ranges; undescribed addresses between instances resolve too.

### C54 The driver handles each packet once, in order, and sends what the handler asked (proved)

For every interleaving of the driver's memory and register accesses with the network cards, the packets sent on each output are exactly the results of the network function applied once to each received packet, in order, none is lost, duplicated or changed after handling, and no buffer is used by the driver or an output card while the input card may write to it.

* Model: `Env/Ixgbe`; proofs: `Props/Ixgbe`. The agent takes one step per access to shared memory or a register, and the cards' steps come at any point between; an invariant relates all ring indices to counters since the start, by induction over any interleaving.
* Theorems: `C54_exactly_once`, `C54_nothing_lost`, `C54_state`, `C54_buffers_apart`, `C54_in_bounds`.
* For every handler whose lengths fit 16 bits (they are size_t in the code, and main.c stores the received 16-bit length unless the network function enlarges it), number of outputs above zero, and interleaving of single accesses of the driver with the cards. The behaviour of the cards is a model of the data sheet as quoted in the driver.

### C55 The driver never stops receiving (partial)

From every reachable state, once the output cards have sent what they were given and reported so, the input card gets descriptors to receive further packets.

* Model: `Env/Ixgbe`; proofs: `Props/Ixgbe`. A measure shows that the agent catches up; the stall is built by induction over 255 packets that are received before any is sent, and shown to be closed under all steps. What is reported is the last multiple of 64 sent, by induction; with cards that are done, the heads read are then 64 behind.
* Theorems: `C55_catches_up`, `C55_keeps_receiving_partial`, `C55_reported`, `C55_prompt_partial`, `C55_any_packets_partial`, `C55_stalls`, `C55_late_is_final`.
* The driver always gets to wait for a packet, and a descriptor is then free if the reported heads were less than 192 behind at each recycling. That is so if the cards have sent and reported everything when packets arrive, so any list of packets can be received. False of the code otherwise: C55_stalls gives a run, for every network function, after which nothing is received although everything was sent and reported, and C55_late_is_final shows that one late report suffices.

### C56 Set-up gives every agent its own queues and memory, as the cards require (partial)

After set-up of any number of devices, each agent receives from its device and has one output per other device; all queues are enabled with the right rings, lengths, thresholds and head addresses and were not in use before, every device sends and receives, no two outputs share a queue, no two blocks of memory overlap, descriptors point to the agent's buffers, and rings are aligned to 128 bytes and heads to 16 as the data sheet asks.

* Model: `Env/IxgbeSetup`; proofs: `Props/IxgbeSetup`. Specifications of each function with frame conditions on registers and memory, composed by induction over outputs and agents; success is a second induction with room left in memory, and the flags tx_enabled and rx_enabled are an invariant.
* Theorems: `C56_ready`, `C56_descriptors`, `C56_own_queue`, `C56_memory`, `C56_succeeds`, `C56_too_many`, `C56_heads_aligned`, `C56_enabled`, `C56_unused`, `C56_rings_aligned_partial`, `C56_rings_misaligned`.
* Everything but the alignment of rings is proved for every set-up that succeeds; set-up succeeds for 2 to 11 devices and never for 12 or more. Rings are aligned only with an odd number of devices; with an even number each is 64 bytes off, against the comment in the code (proved).

### C57 Register fields are read, written and polled exactly (partial)

Bit masks contain exactly the named bits; writing a field stores the value in it and leaves all other bits and registers alone; setting, clearing and testing a field do exactly that; and a timeout is reported only if the condition still holds after the whole timeout.

* Model: `Env/IxgbeRegs`; proofs: `Props/IxgbeRegs`. Bit by bit for all registers; the polling loop by induction.
* Theorems: `C57_bits`, `C57_first_set`, `C57_write_read`, `C57_set`, `C57_clear`, `C57_is_cleared`, `C57_timeout_partial`, `C57_timeout_too_early`.
* Fields are proved exact for all contents, fields and values that fit. A timeout is reported exactly if the condition holds at ten times, the last of which is a tenth before the end; so it may be reported although the condition ends in time (proved).

### C58 The allocator hands out the memory that was reserved for it (partial)

On every platform, the arena of the allocator is the memory reserved at start: the array on bare metal, the huge page on Linux; blocks lie in it, are not at NULL and are zeroed.

* Model: `Env/MemoryBoot`; proofs: `Props/MemoryBoot`. The symbol is read as a pointer, as the linked code does; histories on Linux are shown to be those of C05, by induction.
* Theorems: `C58_linux_partial`, `C58_metal_null`, `C58_metal_low`, `C58_metal_not_zeroed`.
* Proved for Linux, for all histories. False on bare metal: the array is declared as a pointer in memory_alloc.c, so that the arena starts at the value of its first bytes, zero; the first block is at NULL (proved for every request), and none is in the array if it is above 256 MB.

### C59 The policer lets through exactly what a token bucket for each address allows (partial)

A packet from the WAN passes if and only if its destination has a bucket used within the expiration time that holds more tokens than the packet has bytes, counting what accrued at the configured rate up to the burst, or has none, there is room for one and the packet is not longer than the burst.

* Model: `Nf/Policer`; proofs: `Props/PolicerExact`. Refinement to `Spec/TokenBucket`, which follows `nf/policer/spec-exact.py` with unbounded numbers, by induction over the packets.
* Theorems: `C59_token_bucket_partial`, `C59_expired_denied`, `C59_expired_refreshed`, `C59_tokens_wrap`.
* Proved for all rates, table sizes and packet histories if packets from the WAN are shorter than the burst and 10^9 times the burst fits into 64 bits. False beyond that, with witnesses: packets as long as the burst or longer to an address that expired but was not evicted, and bursts for which tokens wrap around.

### C60 The DPDK runtime sends what the handler asked and keeps its buffers (partial)

Each packet is handled once and handed to exactly the cards the network function named, in order and with the contents it left; no array is accessed out of bounds; and every buffer is always in exactly one place, so that the runtime never runs out of them.

* Model: `Env/Dpdk`; proofs: `Props/Dpdk`. An iteration is characterized by the targets of each packet; conservation of buffers (as multisets) is an invariant over all interleavings of iterations with completions by the cards; the stop is built by induction over the buffers and shown to be closed under all steps.
* Theorems: `C60_sends_partial`, `C60_buffers_partial`, `C60_kept_partial`, `C60_drops_stop`, `C60_two_calls_overflow`, `C60_two_calls_shared`.
* Proved for network functions that call the transmit functions at most once per packet: cards are given exactly what was asked, and the only buffers lost are those of dropped packets. False beyond that: dropped packets are never freed, so any network function that drops can be made to receive nothing for good (proved for every such function); two calls for one packet write out of bounds or give one buffer to two cards (witnesses proved).

### C61 Devices are reset and configured as the data sheet asks (partial)

A device is reset only after its receive queues are disabled and, unless it hangs, its use of the bus has ended; no register is accessed in the 11 ms after a reset; then every register has its reset value but for the settings that the data sheet asks for, interrupts are masked and rate limits cleared; the PCI device is checked and its address taken from its base address registers. Set-up succeeds with every device that works, and stays within the mapped registers. A device with pending transactions is not reset. Promiscuous mode changes nothing else, and the address read is that of the device.

* Model: `Env/IxgbeDevice`; proofs: `Props/IxgbeDevice`. The driver is a program over a device that may do something by itself at each access; a simulation gives what it does to the bits that the device does not change, and invariants give what holds at the reset. Success is shown by total correctness of each part.
* Theorems: `C61_configured`, `C61_pci`, `C61_stopped_partial`, `C61_waits`, `C61_succeeds`, `C61_promiscuous`, `C61_mac`, `C61_pending_ignored`, `C61_refuses`, `C61_refuses_wrongly`, `C61_mac_high_bits`.
* Everything but the check for pending transactions is proved for all devices that change only their status bits by themselves. That check is false of the code: the Device Status register at 0xAA is read through a port that ignores the two low bits of the register number, so a bit of Device Control is tested instead; devices with pending transactions are reset (witness proved), and others are refused (proved for every device that never stops and has that bit set).

### C62 The network functions keep the specifications shipped with them (partial)

Whatever packets a network function handled before, what it sends for a packet and the state it leaves keep the assertions of its spec.py, read as the tool's specification library defines them and with each specification map being the data structure it is meant for. This holds for the firewall (both specifications), NAT, load balancer, policer, no-op, bridge and router.

* Model: `Tool/NfSpec`; proofs: `Props/NfSpec`. The specifications are functions from the packet, the maps before and after it and the packet sent to `Option Prop`. Fields read by the specification are shown to be the bytes that the C code reads; the rest follows from the invariants of the flow tables and of the load balancer, by induction over the history. Policer, no-op and bridge keep theirs in every state.
* Theorems: `C62_firewall`, `C62_firewall_refreshes`, `C62_nat`, `C62_maglev_live_partial`, `C62_maglev_wrong`, `C62_policer`, `C62_nop`, `C62_bridge`, `C62_bridge_counts_blocked`, `C62_router_partial`, `C62_router_wrong`.
* Proved for firewall, NAT, policer, no-op and bridge. False of the load balancer: when all backends have expired, packets are dropped although the map of backends is not empty (witness proved); proved for histories without expired backends, and with only live backends in the map. False of the router when two commands differ only in bits beyond the prefix (witness for every lpm_search that meets its contract); proved for commands without such bits.

### C63 The DHCP server leases each address to one client at a time (partial)

Initialization never writes outside the arrays and succeeds exactly with a complete configuration, such as the one shipped; the addresses to give out are different host addresses of the subnet, without those of the server, gateway and name server. While a lease lasts, its address is not given to another client, the client is offered it again and its request is confirmed, while a request for another address is denied; a client is refused only if all addresses are leased. Replies are marked as such and carry the configured values as clients read them. The server recognises the messages that clients send, answers them, and reads only bytes of the packet.

* Model: `Nf/Dhcp`; proofs: `Props/Dhcp`. The address array is shown to be a prefix of the filtered range of addresses, by induction over the loop. Leases: the table is related to the log of all grants (each grant is in the table with a later time stamp or has expired, and each entry of the table was granted), an invariant over all sequences of messages. `Props/DhcpProofs` has the lemmas.
* Theorems: `C63_init`, `C63_addresses_partial`, `C63_addresses_wrong`, `C63_leases`, `C63_replies`, `C63_denial_wrong`, `C63_byte_order_wrong`, `C63_options_wrong`, `C63_silent`, `C63_port_wrong`, `C63_bounds_partial`, `C63_overread_wrong`, `C63_shipped_wrong`.
* Proved: bounds of initialization, the addresses for masks of 3 to 32 host bits, leases over all sequences of messages, and the bytes of replies. Leases and replies are about the functions that nf_handle would call if its body were not commented out. False of the code, with proofs: the shipped configuration is rejected; small subnets give several clients 0.0.0.0; denials are not marked as replies; addresses are in the wrong byte order; options are read through a pointer taken from the packet; messages from clients are not recognised and nothing is answered; short packets are read past their end.

### C64 The policer written in Rust does what the one written in C does (partial)

Given the same configuration table, number of devices and packets, the Rust policer as its Makefile builds it and the C policer start or refuse to start together, and for each packet emit the same packets on the same devices; this includes what wraps around. The Rust structures have the C layout. Built with overflow checks it does not panic where the other works.

* Model: `Nf/RustPolicer`; proofs: `Props/RustPolicer`. The Rust code is modelled statement by statement, with arithmetic that wraps or panics depending on the profile and structure layouts computed by the rules of repr(C). Each step is shown equal to the step of the C model; the runs are equal by induction. The debug build follows from an invariant on the buckets.
* Theorems: `C64_same`, `C64_no_flows_wrong`, `C64_debug_partial`, `C64_shipped_debug_wrong`, `C64_layout`, `C64_misaligned_wrong`.
* The release build is proved equal to the C policer for all configurations and packet sequences, except that it does not start with a table for no flows, where the C policer does (witness proved). The debug build is proved equal to the release build where 1000000000 times the burst fits into 64 bits; with the shipped configuration it panics in nf_init (proved). The layout of the structures is proved; but a reference to the destination address is misaligned for every aligned packet, which is undefined behaviour in Rust (proved).

### C65 The lemmas of the proof library are true (proved)

Every lemma that arith.gh, modulo.gh, mod-pow2.gh, bitopsutils.gh and ghost_map.gh state holds for all its arguments that meet its requires clause, with C's division that rounds towards zero; so the VeriFast proofs that use them, of the hash map, the index pool and the allocator, cannot rest on a contradiction.

* Model: `Spec/ProofLib`; proofs: `Props/ProofLib`. Each conjunct is one lemma of the library, with its name and lines. Truncated remainders and quotients are reduced to Lean's for numbers that are not negative; bits of an integer to `Nat.testBit`; lengths of maps over indices to permutations of a range.
* Theorems: `C65_arith`, `C65_modulo_signed`, `C65_modulo`, `C65_division`, `C65_powers`, `C65_bits_of_int`, `C65_bits_and`, `C65_int_of_bits`, `C65_pow2`, `C65_ghost_map_get`, `C65_ghost_map_shape`, `C65_ghost_map_forall`, `C65_ghost_map_arrays`.
* All 84 lemmas of the five files over functions that the repository defines or whose definition its proofs show; two helper lemmas about VeriFast's own type Z (bitopsutils.gh:76-82) are left out, and bits_of_int_and_def, which they serve, is proved directly.

### C66 Verification of whole programs explores every packet on every device (partial)

execute_nf executes the program's initialization on all paths; paths on which initialization halts are allowed to end there; for each index below the number of devices that initialization hands to foreach_index_forever, a packet is received on that device and all paths of the handling function are followed, until inference finds a fixed point; the states returned are exactly the ends of those paths, and a path that halts while handling is an error.

* Model: `Tool/Fullstack`; proofs: `Props/Fullstack`. The program is a tree; paths are the reflexive-transitive closure of single steps, stated apart from the function that executes them. By induction on the tree, an execution that does not raise adds exactly the states that paths reach. With the code's `spec_device_create_default` no reachable state has a device, so the first packet raises.
* Theorems: `C66_explores_partial`, `C66_always_raises`, `C66_init_failure_wrong`.
* False of the code: execute_nf raises for every program, as the model of a device cannot be made (assert False in device.py:113), proved for all programs. Even with devices that can be made, a program whose initialization may halt is not verified, since the engine's list of trapped states is a variable that does not exist (proved for all such programs). Proved for any way of making devices: whatever is returned is exactly the set of ends of all paths on all indices, and no path halts.

### C67 The description of the network card admits the driver and stops wrong drivers (partial)

With the registers of spec_reg.py and the actions of spec_act.py, the tool accepts every access that the driver makes to a device: its set-up, the agents that send to it and receive from it, and the announcements of packets. Drivers that break a rule of the card's manual that the description covers are refused: a tail written for a queue that is not enabled, filters changed while receiving, a field changed that no action names. Every action and condition names a field that exists.

* Model: `Tool/CardSpec`; proofs: `Props/CardSpec, Props/CardRules, Props/CardDriver`. The tables are transcribed as data. A judgement `Exec` says that a list of accesses runs under all constraints; each kind of access has one lemma, with a check of the tables by evaluation of the whole table, and the driver's lists are composed by induction over queues and uses. `Props/CardDriver` shows that runs of the driver models are those lists.
* Theorems: `C67_accepted`, `C67_init`, `C67_promiscuous`, `C67_mac`, `C67_setup`, `C67_receive_tail`, `C67_transmit_tail`, `C67_filters_stopped`, `C67_unnamed`, `C67_names`, `C67_split_refused`, `C67_type_refused`, `C67_length_refused`, `C67_rash`, `C67_abrupt`.
* Proved: the accesses of the driver are accepted under all path constraints, and they are those of the driver (C67_init to C67_setup relate the list of accesses to the models of C56 and C61, the tail writes are those of C54); the rules on tails, filters and unnamed fields hold for all drivers. False of the description: seven actions name a register that does not exist, so the split of headers can never be set; the descriptor type can never be changed; ring lengths that are odd multiples of 128 are refused; receiving may be enabled before the card is ready; and a reset is allowed while queues other than the first are enabled (each proved).

### C68 What stands for the operating system during initialization admits what it does (partial)

The functions that replace os_memory_alloc, os_config_try_get, os_pci_enumerate, os_memory_phys_to_virt and os_memory_virt_to_phys in the tool admit every result of the real ones: each block of the allocator is at an address that the tool considers, with the contents it considers, and is asked for only as the contract allows; whatever the configuration, there is a path with its answers, and equal names give equal values; every array of PCI addresses is considered, an access to a device's configuration reaches that device and no other, and the driver finds the registers of the device whose BARs it reads; physical addresses are those of the operating system.

* Model: `Tool/InitExternals`; proofs: `Props/InitExternals, Props/InitDevices`. An expression is a function of the assignment, and what the tool says of a new symbol is a predicate on its value. The wrap-around of the multiplication in os_memory_alloc leaves the greatest common divisor with 2^64 (Bézout); blocks come from the histories of C05, answers of the configuration from C06 and the ports from C17. The assignment for a configuration is built along the path, by induction over the names. Linux's translation is shown linear on consecutive frames, which gives the assumptions of C56.
* Theorems: `C68_alloc_required`, `C68_alloc_accepted`, `C68_alloc_partial`, `C68_alloc_end_wrong`, `C68_alloc_weak`, `C68_dpdk_partial`, `C68_dpdk_wrong`, `C68_config`, `C68_config_same`, `C68_config_vanishes_wrong`, `C68_pci_partial`, `C68_pci_count_wrong`, `C68_pci_again_wrong`, `C68_pci_device`, `C68_bar`, `C68_phys_metal`, `C68_phys_linux`, `C68_phys_setup`, `C68_phys_linux_wrong`.
* Proved: blocks of the allocator for all histories, but for a block that ends at the last address (witness); blocks of DPDK's allocator but for one object of 64 bytes (witness); configuration; arrays of two PCI addresses, the devices they denote, and BARs. False of the code, with proofs: only programs for two devices are considered, and enumerating them again gives the same array where the code gives a new one; on Linux physical addresses are not virtual ones. The tool also considers configurations in which a name vanishes.

### C69 The code that starts without an operating system does what it claims (partial)

Under the assumptions that boot.asm states, its code halts, faults or calls _start; and when it calls _start, the processor supports all features that the file lists, runs in 64-bit mode with a code segment of level 0 and null selectors otherwise, maps exactly the first 4 GiB to themselves with all permissions, has SSE and AVX enabled, a stack pointer at the aligned end of 1 MiB of memory, and no table of interrupt handlers. It halts only if a feature is missing.

* Model: `Env/Boot`; proofs: `Props/Boot, Props/BootStart`. The instructions are data, run by an interpreter that looks up pages for every fetch, load and store once paging is on. Each part of the code has a lemma that gives the state after it for all states before it, so that registers, memory and features stay symbolic; the page tables are evaluated from what the program loads and the one entry that it writes, level by level.
* Theorems: `C69_started_partial`, `C69_outcome`, `C69_three_outcomes`, `C69_fsgsbase_wrong`, `C69_ts_wrong`, `C69_idt_wrong`, `C69_multiboot`.
* Proved: everything that the file claims about the call of _start but three points that are false of the code, with witnesses: FSGSBASE is looked up in a leaf that may not exist; bit 3 of CR0, which disables SSE and AVX, is not cleared; the table of interrupt handlers is that of the boot loader. Proved also: on processors with leaf 7 the code starts exactly if all features are supported and halts otherwise; it faults only with 5-level paging enabled.

### C70 NF verified means that the specification holds after every packet of the program given (partial)

If the tool prints "NF verified!", then the specification was checked, without finding a violation, on every state in which the program that is in the given file can be after handling a packet, for every number of packets before it; symbols that are made while checking are different from those of the execution; and the tool ends with an error if it does not print this for a specification.

* Model: `Tool/Pipeline`; proofs: `Props/Pipeline`. Files, runs of the tool and changes to files are a history; an invariant over histories says where every cache comes from. The name of a symbol determines its number, since digits contain no underscore. The composition puts together the models of the loop over packets (C27) and of the search (C38).
* Theorems: `C70_current`, `C70_status`, `C70_cached_partial`, `C70_stale`, `C70_other_command`, `C70_inited`, `C70_no_states`, `C70_names_partial`, `C70_names_wrong`, `C70_verified_partial`.
* Proved: without cached results it is the current binary that is verified, and the exit status tells; the execution's loop and the search compose to the claim over all packet histories where C27 is proved. False of the code, with proofs: with cached results it may be another binary or the other command's results; after more than a million symbols, symbols of the verification coincide with those of the execution. A program that never initializes is verified for every specification (proved).

### C71 The network functions obey their specifications on the code of their data structures (partial)

Run on the code of map.c, index_pool.c and cht.c, with keys that are bytes in memory which the code hashes and compares, the firewall, the NAT, the policer, the bridge and the load balancer access nothing out of bounds, keep every contract of the data structures, write only to their keys, the packet and their local variable, and send what their specifications (C42, C43, C45, C46, C47) prescribe. Two packets have the same bytes as key exactly if their flows are the same.

* Model: `Nf/Low`; proofs: `Props/Low`. A simulation: the map of map.c represents the map of its contract (C04) if every key is the encoding of the bytes in its cell; each operation of the contract-level models is matched by the code on bytes, under an encoding that is injective on the values that fit in the fields. The theorems of C42, C43, C45, C46 and C47 are then carried over. What is written is a separate induction.
* Theorems: `C71_firewall`, `C71_firewall_solicited`, `C71_nat_partial`, `C71_policer`, `C71_policer_rate_partial`, `C71_bridge`, `C71_maglev_partial`, `C71_maglev_not_sticky`, `C71_maglev_init_checked`, `C71_key_bytes`, `C71_writes`.
* Proved for the firewall and the bridge in full. For the NAT, the policer's rate and the balancer with the restrictions under which C43, C45 and C47 are true; that flows are not sticky is proved here also with the hash function of the code.

### C72 The whole program: cards, driver, agents, runtime and network function together (proved)

With any number of devices, one agent for each that takes its turn until no packet is left, one network function and one clock, whatever the cards do at any time: the network function handles some sequence of packets, at times that do not decrease; those of each device are the first ones received there, in order; and each other device has sent exactly the first ones that the network function asked for, in order, with the contents and lengths it asked for. Nothing is lost: an agent that waits has handled all packets, an empty queue has sent all, and when no packet arrives any more all agents come to wait. So every specification of nf_handle carries over to the packets on the wire: in particular the firewall sends to the internal network only packets received from the external one whose reversed flow was received from the internal one.

* Model: `Env/Machine, Nf/Machine`; proofs: `Props/Machine`. Each agent alone is the model of C54 with a network function that answers from a list, so that C54 and C55 apply to it; an invariant over the steps of the machine says that the lists of the agents are the calls of the one network function, by device. A measure over all agents decreases while they take turns. The requests of the network function are related to the wire by C49, and C71 gives the network functions.
* Theorems: `C72_machine`, `C72_nothing_lost`, `C72_catches_up`, `C72_carries_over`, `C72_firewall`, `C72_firewall_unsolicited`, `C72_nat_partial`, `C72_policer`, `C72_bridge`, `C72_maglev_partial`.
* Proved for any network function; then for the network functions of the repository, where the NAT, the limit of the policer and the balancer keep the restrictions under which C43, C45 and C47 are true.

### C73 Networks of bridges: frames arrive once, and die out (partial)

Machines that run the bridge are connected by wires, with hosts on the other devices. (1) Whatever the wires, the spanning tree that the bridges agree on keeps frames from going round in circles, so that all frames die out. (2) A frame that a host hands in is handled at most once by every bridge and leaves at most once at every device. (3) If hosts do not move and use addresses of their own, the device recorded for an address leads to that host. (4) When nothing is under way any more, a frame has reached its destination unmodified; a frame for a group has reached all hosts. No bridge ever accesses memory out of bounds.

* Model: `Nf/BridgeNet, Spec/BridgeNet`; proofs: `Props/BridgeNet, Props/BridgeNetDelivery, Props/BridgeNetTrace, Props/BridgeNetRoutes, Props/BridgeNetProofs`. Executions of the network are paired with executions of the specification of each bridge (C46) and the effect of each request on the runtime (C49). Frames carry the way they came; without loops there is one way from a device to a bridge, because two would make a circle when one is followed back. Invariants over all executions: ways are not repeated; recorded devices are on ways from the host; a frame is somewhere on the way to its destination; the destinations of messages are endpoint addresses, whose first byte is zero; the number of frames without known destination does not decrease.
* Theorems: `C73_always_handles`, `C73_once`, `C73_dies_out`, `C73_learned`, `C73_delivers_partial`, `C73_losses_bounded`, `C73_frame_lost`, `C73_spanning_tree_inert`, `C73_storm`, `C73_circulates`.
* Proved for networks without loops: (2), that frames die out, and (4) but for frames of which a bridge made a spanning tree message, at most one per bridge and time between two messages; (3) for all networks. False of the code, with proofs for all networks: the bridges never recognize each other's spanning tree messages, so that no device is ever blocked; if every bridge has two wires, frames for groups circulate for ever, and with three they multiply. Frames of which messages are made are lost.

### C74 Memory accesses that the symbolic execution accepts are in bounds and act on the memory of the machine (partial)

If the symbolic execution accepts a load or a store, then under every assignment of the symbols that satisfies the constraints the bytes accessed are within one allocated object, or the address is a constant one of the program's own memory. Loads return what the memory of the machine contains, and after a store the objects and the rest of the memory contain what the machine's memory does: nothing else changes, in this or another object.

* Model: `Tool/ObjectsMemory`; proofs: `Props/ObjectsMemory`. The machine's memory is one sequence of bits, in which objects lie apart from each other. Reading and writing elements that exist ends within the object, by induction over the elements; C30 gives the bits and C13 and C14 the address. Both are put together to a refinement, and sequences follow by induction. Programs for which the parts of the refinement fail are given.
* Theorems: `C74_load_partial`, `C74_store_partial`, `C74_accesses_partial`, `C74_exact`, `C74_constant_accepted`, `C74_other_memory`, `C74_wrong_element`, `C74_packet_overrun`.
* Proved for all sequences of accesses, if the decomposition of the addresses is exact (given for objects of bytes; otherwise as in C13) and stores to ephemeral objects, which is the data of the packet, are within them. False of the code without these, with witnesses; and every constant address is accepted, also null.

### C75 What the verifier takes for possible of ghost maps is possible of ordinary maps (partial)

Take a program that reads and updates ghost maps and asks for their lengths, and any assignment of the symbols that satisfies the constraints collected in its run. (1) There are ordinary maps that satisfy the invariants and have the assumed lengths, on which the program's reads return the same values and presences, its lengths are the numbers of keys, and the conditions of its branches hold: the verifier follows no path because of contents that no map can have. (2) If `forall` was true, every present key read before it of the same version and every one read after it satisfies the predicate, as long as updates respect it; and a later `forall` with a weaker predicate is true. (3) The results of several `forall` are possible together.

* Model: `Tool/GhostMap, Tool/GhostMapProg`; proofs: `Props/GhostMapExact`. Backwards over the run: what is known of the maps at the end is carried back over each update and read to a finite part of the contents at the beginning, which satisfies the invariants and fits the length; the rest of the maps is then filled up. For `forall`: the invariant that all known items, and the unknown one, satisfy the predicate if the result is true, over all programs.
* Theorems: `C75_possible_partial`, `C75_new_fillable`, `C75_forall_known_partial`, `C75_forall_later_partial`, `C75_forall_spurious`.
* Proved, (1) and (2), for programs whose reads are not answered by the unknown item (C21_unknown_disagrees shows why) and whose updates make new versions, as in C21; in (1) keys are natural numbers, so that there are always more keys to fill a map with. (3) is false of the code, with a witness that one of the repository's tests expects to fail.

### C76 Guessed relations between maps fit the items they are guessed from (partial)

To find invariants that relate maps, the verifier guesses functions from the items of one map to keys and values of another (the same, a replacement within an expression, a part of a concatenation, an index computed back from an address, a constant) and conditions under which to try them. (1) It guesses from set items that are surely in the map, with surely different keys, and from all of these. (2) A function that it finds matches these items of the one map one to one with those of the other, in every explored state, and gives the key (or value) of the match under every assignment; from one item of each map it finds a function in all of these cases. (3) So every guessed relation is true of the items it was guessed from. (4) Every constant that is the value of such an item is tried as a condition.

* Model: `Tool/Guess`; proofs: `Props/Guess`. Induction over the items for the set of items, and over the states for the function, whose match is a permutation of the items of the other map. Replacing an expression by one of the same meaning keeps the meaning (from C28); the parts of concatenations by arithmetic. The items are right about every world a state stands for (from C20).
* Theorems: `C76_present`, `C76_function`, `C76_found`, `C76_guess_fits_partial`, `C76_conditions_partial`, `C76_value_mismatch`, `C76_conditions_fractions`.
* (1) and (2) are proved; that operands fit their widths, which claripy enforces, is a hypothesis. (3) is proved for relations that do not speak of values or are guessed from one item, and false otherwise, with a witness: the functions to keys and to values may be found for different matches. (4) is proved for maps without fractions, and false with fractions: all conditions are the last one, because the functions share the loop's variable.

### C77 The lemmas on hash chains and lists that the proofs of the data structures use are true (proved)

The proofs of the map, the index pool and the memory allocation that VeriFast checks use 35 lemmas on hash chains and 30 on lists. Each lemma states something true of the functions on lists that it speaks of, so that nothing false can be concluded from it: on which keys and counters a table of hash chains has in its slots, which chains cross a slot, how these change when a key is put or removed, that tables stay well-formed, and on taking, dropping, updating and repeating elements.

* Model: `Spec/Buckets, Spec/BucketsProofs`; proofs: `Props/Buckets`. A direct description of a well-formed table (distinct keys, chains shorter than the table, no two ending in one slot) is proved equivalent to the recursive `buckets_ok`; keys and counters of each slot are given by it in closed form (a chain from slot i of length d counts in slot j as often as it covers it), and the lemmas follow slot by slot. Not from the proofs in the .gh files, which recurse over accumulators.
* Theorems: `C77_lengths`, `C77_open_chains`, `C77_keys_in_table`, `C77_partial_chains`, `C77_counters`, `C77_put_remove`, `C77_lists`, `C77_updates`, `C77_up_to`.
* Of the lemmas in these four files, those that the C files use; the others serve only to prove these. VeriFast's own list functions have an unspecified value outside of their domain, which the theorems quantify over.

### C78 What the annotations of the map state holds of its code (proved)

The annotations in map.c state a predicate of a map in memory (`mapp`: the arrays of addresses, hashes, counters and values, the keys that are in memory at these addresses, and a table of hash chains that the counters are computed from), contracts of the four operations in terms of it, and an invariant for each of their loops. They hold of the C code: alloc establishes the predicate of the empty map; get returns what the contract says and set and remove establish the predicate of the changed map, in all states with the predicate and the required arguments; the predicate therefore holds after every legal history; and each loop's invariant holds on entry, is preserved by each iteration that does not return, gives the contract's result in each one that does, and excludes or decides what comes after the loop.

* Model: `Spec/MapPred, Spec/Buckets, Env/HashMap, Env/MapPredProofs`; proofs: `Props/MapPred`. The predicate is proved equivalent to the invariant of C03, in which the counter of a slot is the number of held keys whose way passes it: the ghost table is built from the items, and the counters that `buckets_get_chns` computes from it are those (from C77). The contracts follow from C03. The loops of set and remove, whose invariants speak of a part of a chain added to the counters, are reduced by the lemmas of C77 one iteration at a time.
* Theorems: `C78_contracts`, `C78_always`, `C78_alloc_loop`, `C78_get_loop`, `C78_set_loop`, `C78_remove_loop`.
* The permissions that the annotations also state (who owns which memory, in which fractions) are not modelled: the keys' bytes are in a memory that no operation of the map writes.

### C79 What the annotations of the index pool and the memory allocator state holds of their code (partial)

The annotations in index_pool.c state a predicate of a pool in memory (`poolp`: the timestamps, and that an index is in the ghost map exactly if its timestamp is not TIME_MAX, with that timestamp), contracts of the five operations, an invariant for each of the three loops and lemmas. They hold of the C code: alloc establishes the predicate of the empty pool; borrow, refresh, used and return do what the contracts say in all states with the predicate; the predicate therefore holds after every legal history; each invariant holds on entry, is preserved by each iteration that does not return, gives the contract's result in each one that does, and both together give it at the end of borrow. The annotations in memory_alloc.c assume, without proof and at each call of os_memory_alloc, that the memory is at an address other than NULL, does not reach the end of the address space and is zero where it was not handed out yet. With the assumption the contract holds; and it holds at each call.

* Model: `Spec/PoolPred, Env/IndexPool, Env/MemoryAlloc`; proofs: `Props/PoolPred`. The predicate is proved equivalent to the representation relation of C04, from which the contracts follow; the invariants' steps by cases on the timestamp at the loop's index, and the end of borrow by counting that a map whose keys are all indices below size has size items. The assumption of the allocator is the invariant of the histories of C05.
* Theorems: `C79_lemmas`, `C79_contracts`, `C79_alloc_loop`, `C79_borrow_loops`, `C79_always`, `C79_allocator`, `C79_assumption_partial`, `C79_assumption_metal`.
* All of it but the last sentence is proved as stated. The assumption of the allocator is proved to hold at every call of a program that writes only to blocks it was given, if it holds at the first one; on bare metal it does not hold at the first one (C79_assumption_metal; see C58). Permissions are not modelled.

### C80 The bridge follows the best path to a root that was announced to it (partial)

The root, cost and root port of a bridge are at all times the smallest, in the order root, cost, port, among its own identifier with cost and port 0 and what the spanning tree messages that it read offered (the announced root, the announced cost plus 10, and the port of the message). A message is passed on if and only if it improves this, and then it announces the new root and cost and the bridge's identifier; so no path is passed on twice. A message with a worse root blocks its port and is not passed on. When an announcement is due, the frame that is being handled is turned into one of the current root and cost. All other frames with the spanning tree address are dropped, and frames without it are left to forwarding. The port to the root is enabled.

* Model: `Spec/SpanningTree, Nf/Bridge`; proofs: `Props/SpanningTree`. `nf/bridge/spanning_tree.h`; the specification is a step function on the best path; refinement by cases on a frame, then induction over frames. Minimality and strict improvement by induction on the specification.
* Theorems: `C80_spanning_tree`, `C80_best`, `C80_passed_on`, `C80_root_port_blocked`.
* All but the last sentence is proved. The last one, which a comment in the code states, is false (witness proved): a message with a worse root on the port to the root blocks it.

### C81 Every platform finds the frequency of the time stamp counter (partial)

Initialization finds a numerator and a denominator with which os_clock_time_ns shows the time that has passed, rounded down by less than the denominator, whatever the frequency: on DPDK from the frequency in hertz, ending in panic only if that is not known; on Linux and bare metal from the ratio in bits 15 to 8 of MSR 0xCE, whatever the other bits are. In the tool, the emulated RDMSR gives exactly the frequency that the constraint on the symbolic clock is about, and refuses other registers.

* Model: `Env/Frequency`; proofs: `Props/Frequency`. `dpdk/init.c`, `linux/init.c`, `metal/init.c`, `arch/tsc.h`, `arch/msr.h`, `pyvex/rdmsr.py`: induction on the number of factors of ten; bit vectors.
* Theorems: `C81_dpdk_partial`, `C81_dpdk_stuck`, `C81_msr_partial`, `C81_metal_wrong`, `C81_emulated`.
* Proved for DPDK for all frequencies that are not multiples of 10 GHz, for which the clock is proved to stand still; for Linux; for bare metal if the compiler takes rax for the output of the assembly, false if it takes rdx, which the constraint allows (witness proved); and for the emulation, with the names it uses taken to be defined (they are not imported).

### C82 Allocation on DPDK meets the contract of os_memory_alloc (partial)

On DPDK, os_memory_alloc asks DPDK for an alignment that it accepts, and returns a block, never NULL, that lies in the address space and is aligned to the items' size rounded up past a cache line, as its contract says.

* Model: `Env/DpdkMemory`; proofs: `Props/DpdkMemory`. `os/dpdk/memory.c`, over every rte_calloc that is as documented; powers of two.
* Theorems: `C82_power_of_two`, `C82_aligned_partial`, `C82_null`, `C82_misaligned`.
* Proved for sizes that are not a multiple of a cache line and whose multiple of a cache line is a power of two, if a block is returned. False of the code beyond that, with witnesses: NULL is returned for empty requests and when there is no memory, and other sizes are not aligned as promised.

### C83 The DHCP server obeys its specification on the code of its data structures (partial)

On the code of the map and the index pool, with the clients' addresses as bytes in the same memory as the messages, the server never accesses its arrays out of bounds, its leases are as C63 says (one client per address, the same address again while the lease lasts, refusals only when all are leased), and a reply changes only the bytes of the message that make up the reply and the entry of a new client.

* Model: `Nf/LowDhcp`; proofs: `Props/LowDhcp`. `nf/dhcp_ipv4/dhcp.c` on map.c, index_pool.c and memory.h: a simulation of the server of C63, as for the network functions of C71; the memories of the two agree outside of the array of clients. `Nf/LowDhcpProofs` has the lemmas.
* Theorems: `C83_leases_partial`, `C83_replies`, `C83_pointer_wrong`.
* Proved for messages whose header and options are not in the array of clients. The options are reached through a pointer in the message; if it leads into the array, the reply overwrites clients and the claim is false (witness proved). As in C63, about the functions that nf_handle would call if its body were not commented out.

### C84 The programs with DPDK do what their network functions must (partial)

With the runtime for DPDK, the code of the data structures and the code of the network function together, no array is accessed out of bounds; the packets received, in the order received, and the packets sent are those of a run of the network function's specification (C42, C43, C45, C46, C47): each device sends, in order and with the addresses where asked, exactly what was asked of it but for what its card does not take. In particular, the firewall sends to the inside only packets that were received outside and are of the reverse of a flow that was received inside. Every packet that arrives is handled, also after any number of others; and packets leave with the length that the network function gives them.

* Model: `Nf/DpdkMachine, Env/Dpdk, Nf/Low`; proofs: `Props/DpdkMachine`. `env/src/net/dpdk/main.c` with the network functions of C71. An invariant of the steps of the machine: the packets handled are those received, the network function is in the state after them, and what each device sent is a sublist of what it was asked for (all of it if cards take everything). An iteration by C60, applied to the program that ignores calls that tx.h does not allow, which on the runs of the invariant is the program itself.
* Theorems: `C84_carries_over`, `C84_in_bounds`, `C84_firewall`, `C84_firewall_unsolicited`, `C84_nat_partial`, `C84_policer`, `C84_bridge_partial`, `C84_maglev_partial`, `C84_stops`, `C84_firewall_stops`, `C84_message_length_fails`.
* All but the last sentence is proved for two devices, as many as the runtime has; for the network functions under the conditions of C43, C45 and C47. Both parts of the last sentence are false of the code, and the negations proved: buffers of dropped packets are never freed, so that at any time as many dropped packets as there are buffers stop the program for good; and the length set by the network function is not passed on, so that messages of the spanning tree leave with the length of the packet that they replace.

### C85 The benchmark measures the throughput, and the network functions let its packets through (partial)

For a network function that handles packets up to some rate, the benchmark writes that rate, up to an error of 20 Mb/s per direction (and the maximum if it is above it). Its latency measurements go in steps of at most 500 Mb/s from none to within 100 Mb/s of that rate, with background traffic below it. The heatup sends a batch of every flow, in order; packets of one direction are of the reverse flows of the other, and flows with different numbers differ. Hence the firewall lets all packets of the benchmark through, and the address translator translates them all, packets of the second direction to the flow with their number, if they expire no flow in the time that a pass over the flows takes.

* Model: `Bench/Moongen`; proofs: `Props/Bench`. `benchmarking/bench-moongen.lua`. The search: an invariant of the bounds, whose distance halves. The packets: closed forms of counters and flows. Firewall and translator: invariants of the tables along the trace (which flows are in them, and in the translator at which index), from C42 and the lemmas on the tables; `C85_schedule` shows that heatup and trial, with their times, make such a trace. What MoonGen does is assumed as its documentation says.
* Theorems: `C85_search_partial`, `C85_search_slow_fails`, `C85_generator`, `C85_latency`, `C85_counters`, `C85_heatup`, `C85_reverse`, `C85_distinct`, `C85_firewall`, `C85_nat`, `C85_schedule`.
* All proved for network functions with a capacity of at least 78.125 Mb/s per direction (and whose losses at lower rates are not higher by more than 5%). For slower ones the first sentence is false of the code: the rate for the generator is rounded down to whole Mb/s, at 39 Mb/s the script takes the generator for too slow and exits with an error instead of a result (proved for every such network function).

### C86 The other network functions let the packets of the benchmark through (proved)

The benchmark measures the throughput exactly if its heatup loses at most 1% of the packets, however many the heatup in reverse loses. With cables crossed or not, packets of direction 0 arrive at device 0, and with the option for Maglev at device 1. The network function that does nothing sends every packet of the benchmark to the other device; the bridge does at layer 2, whatever the size of its table, and unmodified until its update time; the policer does if those from the WAN have less bytes than a burst; and the load balancer, with the option, sends all packets of direction 0 to its backend, if each follows one of direction 1 within the expiration time of backends; without the option the benchmark ends with an error. With the configuration of the policer the benchmark uses a single bucket. Addresses of one direction with the most significant byte first, or odd numbers with the least significant first, are group addresses: the bridge floods the packets to them.

* Model: `Bench/Moongen, Nf/Router, Nf/Bridge, Nf/Policer, Nf/Maglev`; proofs: `Props/BenchMore`. Invariants along the trace on top of the specifications: for the bridge, from C46, that each address is known at its side or not at all; for the policer that each bucket has lost at most what was sent to it, and that the table has room; for the load balancer, from C47, that the backend has a recent heartbeat.
* Theorems: `C86_standard`, `C86_devices`, `C86_nop`, `C86_bridge`, `C86_bridge_floods`, `C86_policer`, `C86_policer_single_bucket`, `C86_maglev`, `C86_maglev_needs_option`.
* Flooding with two devices sends to the other one (`sentTo`). Both orders of bytes of MoonGen's addresses are covered, up to 65536 flows.

### C87 The scripts of the benchmark bind exactly the given devices (partial)

bind-devices-to-uio.sh ensures that the devices given, and only those, are bound to a driver for user-space input and output; it touches no device for which this is so already, and others keep their drivers. unbind-devices.sh ensures that the devices given, and only those, are not bound to any driver. Devices of domain 0 may be given with or without the domain.

* Model: `Bench/Devices`; proofs: `Props/Devices`. `benchmarking/bind-devices-to-uio.sh` and `unbind-devices.sh` on lists of characters: what `lspci` prints, what `grep -F`, `grep -A 10` and `cut` select. An address has one full stop, so that a text contains it only where it was printed; which lines `grep -A 10` selects follows from the numbers of lines. The loop: an invariant of the devices treated so far. That other texts contain no addresses, and what the kernel does on writes to its files, is assumed.
* Theorems: `C87_bind_partial`, `C87_bind_few_lines`, `C87_bind_other_domain`, `C87_unbind`, `C87_unbind_not_only`.
* Binding is proved for machines with devices of domain 0 whose drivers are among the ten lines after their addresses, while those of the next devices are not. False of the code otherwise: with fewer lines, a device without driver is taken to have that of the next device and is not bound (witness); with a device of another domain, devices given without the domain are never bound (proved for all such machines). Unbinding is proved for devices with at most nine lines before their drivers, but for the words `and only those`: devices that are not given and have no driver get none (proved for all machines).

### C88 The loop that looks for invariants ends (partial)

Whatever the states that exploring a packet gives, the loop that explores, infers invariants and starts again from weaker ones reaches an iteration in which nothing changes, and returns its states.

* Model: `Tool/Infer`; proofs: `Props/InferEnds, Props/InferEndless`. `tool/klint/executor.py:55-83` around `infer_invariants`. The end: a measure, the number of pairs of an invariant and a form it does not allow yet and of relations between lengths that are left, which every iteration that changes something makes smaller (by C28, the item that did not comply is of the form that is added). The loop without end: an invariant of the states it starts from, with a bound on values that depends on earlier symbols only, while the length is a new symbol.
* Theorems: `C88_ends_partial`, `C88_never_ends`.
* Proved, with a bound on the number of iterations, if no relations between maps are guessed, the same maps change in every iteration and what is added to invariants is one of finitely many forms. False of the code otherwise (proved for all numbers of iterations): every iteration replaces a length that changes by a new symbol, and constraints on it may be added to invariants, so that two maps that get a key per packet, with a number up to their length, need a weaker invariant in every iteration. The functions of the environment do not give network functions the length of a map.

### C89 The program of a benchmark has exactly the devices given (partial)

The configuration that Makefile.benchmarking writes from the PCI addresses of the devices under test compiles to an array with exactly these devices, in the same order. As in the scripts that bind them, they may be given with or without the domain.

* Model: `Bench/Run`; proofs: `Props/BenchRun`. `env/Makefile.benchmarking:16` on lists of characters: splitting what was joined gives the arguments back, and constants of two digits are read back.
* Theorems: `C89_config_partial`, `C89_config_domain`, `C89_config_none`.
* Proved for devices given without the domain. False of the code otherwise (proved for all lists of devices): with the domain, domain, bus and device are taken as bus, device and function, without an error. Without devices the program does not compile.

### C90 A run of the benchmark runs the scripts beside it, ends with its results only, and stops what it started (partial)

bench.sh ends with status 0 only if every command succeeded and the network function was seen, and it does if they do. The other machine runs the scripts that are beside bench.sh, with the version of MoonGen that it checks out. After a run that ends well the folder of results has exactly the results of this run. However it ends, be it because of Ctrl+C, the network function does not run any more. It changes no files but its own results and logs.

* Model: `Bench/Run`; proofs: `Props/BenchRun`. `benchmarking/bench.sh` on files as functions from paths, over all outcomes of its commands; times of the network function, of Ctrl+C and of the trap are numbers of seconds. By cases on where the script ends; the loop that waits by induction. What rsync, scp and rm do is as in their manuals.
* Theorems: `C90_status`, `C90_succeeds`, `C90_runs_what_was_there`, `C90_first_run_fails`, `C90_results_partial`, `C90_results_stale`, `C90_stopped_partial`, `C90_slow_lives`, `C90_interrupted_lives`, `C90_moongen_partial`, `C90_moongen_wrong`, `C90_other_files_partial`, `C90_removes_logs`.
* The status is proved (success if the other machine has the scripts). False of the code (each proved for all runs): rsync copies the folder of the scripts into the other folder instead of its content, so that the other machine runs what was there before, and every run fails if nothing was; started in another folder, as the main Makefile does, earlier results stay beside those of the run, and all files that end with `.log` there are removed; a network function that starts after 30 seconds, or after Ctrl+C, goes on; after checking out MoonGen failed, later runs go on with another version. Proved otherwise: the results for a script started in its own folder, the end of network functions that start in time, the version of MoonGen if it was not there, and that other files stay.

### C91 The lemmas on lists as sets and multisets are true (proved)

Every one of the 95 lemmas that set.gh, multiset.gh and multisubset.gh state holds for all its arguments that meet its requires clause: on inclusion, equality and disjointness of lists regardless of order, with and without counting repetitions, under appending, removing, mapping and filtering. So the proofs on hash chains, which stdex.gh gives them to, cannot rest on a contradiction.

* Model: `Spec/ListLib`; proofs: `Props/ListLib`. `msubset` is that no element occurs more often, and `multiset_eq` is `List.Perm`, both by induction; the lemmas then follow from how often an element occurs in a list after each operation, or from Mathlib on permutations. The statements were produced from the text of the .gh files by a small translator (not trusted: each statement has its name and lines, to compare) and are not proved as the files prove them.
* Theorems: `C91_sets`, `C91_multisets`, `C91_multisubsets`.
* Every lemma of the three files is a conjunct, with its name and lines. VeriFast's own functions are Lean's where they are the same; its `intersection` is written as VeriFast defines it.

### C92 The lemmas on the elements of lists are true (proved)

Every one of the 90 lemmas that listexex.gh states, of which C77 has only those that the C files use, holds for all its arguments that meet its requires clause: on elements by position and taking, dropping, updating, reversing, filtering, mapping and removing them, also with positions that are negative or past the end, and on lists without repeated or common elements.

* Model: `Spec/ListLib, Spec/Buckets`; proofs: `Props/ListLib`. By induction on the list, or with what the functions with an integer index are on natural and on negative numbers.
* Theorems: `C92_positions`, `C92_elements`, `C92_disjoint`.
* Every lemma of the file is a conjunct, with its name and lines. The values that VeriFast leaves open outside of the domain of a function are quantified over.

### C93 The lemmas on parts of lists and numbered lists are true (proved)

Every one of the 62 lemmas that listutils-lemmas.gh and the 4 that natlist.gh state holds for all its arguments that meet its requires clause: on the positions at which a predicate holds, the number of copies of an integer, parts of a list between two positions, cutting a list into parts of one size of which only the beginning is kept, lists of consecutive integers, pairing the elements of two lists, and numbers below a limit.

* Model: `Spec/ListLib`; proofs: `Props/ListLib`. Closed forms, by induction: the parts of a cut list are those from multiples of the size, consecutive integers are a range. The lemmas follow part by part.
* Theorems: `C93_positions`, `C93_chunks`, `C93_splits`, `C93_numbered`, `C93_naturals`, `C93_search`.
* Every lemma of the two files is a conjunct, with its name and lines.

### C94 The other lemmas of the standard library of the proofs are true (proved)

Every lemma of stdex.gh and nth-prop.gh that no C file uses directly (so that C77 does not speak of it) holds for all its arguments that meet its requires clause: on predicates of pairs of elements and of elements with their positions, on bounds of elements, and on properties of all elements up to an index, also of a list that is read around its end.

* Model: `Spec/ListLib, Spec/Buckets`; proofs: `Props/StdLib`. By induction on the lists; `up_to` is that the property holds of all smaller numbers.
* Theorems: `C94_elements`, `C94_bounds`, `C94_up_to`, `C94_pointwise`.
* Of the 36 lemmas of the two files, the eight that C77 has are left out, and `note`, which ensures what it requires. One lemma (forall_idx_tail) needs that the tail of nil is nil, as in VeriFast.

### C95 The graph of an exploration shows the paths that were explored (partial)

The graph that the exploration records has no cycle, and every state is reached in it from the initial state. Of a fork in two, the edge to one state has the first constraint that the other does not have, and the other none, and a constraint is shown rather than its negation; of a fork in more, each edge has the state's own constraint at the first place where not all are the same. Drawing the graph leaves nodes without labels out: each edge that is drawn stands for one or two recorded ones, every node that is drawn is reached from the initial state, and the nodes with a double border are the ends of paths.

* Model: `Tool/Graph`; proofs: `Props/Graph`. An invariant of explorations: edges lead to larger numbers, live states have no edge out, a node without label has at most one edge out, and if one edge leads to a node then it comes from a labelled node. Strong induction on numbers gives the paths; the drawn edges follow from the invariant.
* Theorems: `C95_recorded`, `C95_drawn`, `C95_reached_partial`, `C95_ends`, `C95_fork`, `C95_fork_more`, `C95_unreached`, `C95_prefix_fails`, `C95_return_goes_on`.
* Every node that is drawn is reached: false of the code for nodes without label to which several edges lead (C95_unreached); of such a state, the state or the next one is reached (C95_reached_partial). A fork whose constraints extend one another cannot be recorded (C95_prefix_fails). A label 'ret' can be that of a state that goes on (C95_return_goes_on).

### C96 The statistics of a run are the sums of its phases, each under its name (partial)

The time that is printed for a kind of work is the sum of the durations of all its phases, truncated to whole seconds; work that begins inside other work, or ends when there is none, is an error, whatever happened before. The names that are printed are those recorded, each once and in order, and each value is under its name. A run that executes and verifies prints the number of invariants and the times of inference, symbolic execution and verification, for every number of iterations, and so each run prints the same columns.

* Model: `Tool/Statistics`; proofs: `Props/Statistics`. Induction on the phases, with what storing a value changes; the columns are an insertion sort of names that an invariant shows to be different. The run is the sequence of calls that the main loop makes, by induction on its iterations.
* Theorems: `C96_sums`, `C96_one_at_a_time`, `C96_columns`, `C96_run`, `C96_columns_vary`.
* Everything but the last clause, that each run prints the same columns: it is false of the code (C96_columns_vary): there is no column for work that a run does not do, nor for the invariants if no state reaches the end. Times are exact numbers of microseconds here, where Python adds floats.

### C97 Latencies are measured under the load they are reported for (partial)

Each measurement of a latency, from sending its packet to the end of the wait for it, happens while the background traffic of the rate is sent under whose name it is written. The file of a rate has the latencies of the packets that came back during its round, in the order in which they were sent; a round lasts at least 30 seconds from the end of its first pause, sends no packet after them, and measures at most 30000 packets.

* Model: `Bench/Latency`; proofs: `Props/Latency`. Bounds on the beginning and end of the rounds of both tasks by induction on the rounds, whose difference grows by at most the excess of each round. The witness is a run with equal rounds, whose times have a closed form.
* Theorems: `C97_window_partial`, `C97_rates`, `C97_files`, `C97_count`, `C97_drift`.
* The first clause needs that what the rounds take beyond the times in the script adds up to at most the pause of 50 ms (C97_window_partial); 2 ms for each of the at most 21 rounds are not too much (C97_rates), 3 ms are: then packets are measured under the load of the next rate (C97_drift). The rest is proved.

### C98 The scripts that check the proofs and compile everything fail if a part fails (partial)

verify.sh ends with status 0 exactly if VeriFast verifies all nine sources in the revision that is there, and otherwise with another one; the proofs that it links are those of this revision; what it needs is downloaded if it is not there; and it prints every line of the verified files that has an assumption, with the two lines before it. compile-all ends with status 0 exactly if every network function compiles.

* Model: `Tool/Checks`; proofs: `Props/Checks`. The script as a function of what VeriFast says about each revision of each source, the manifests that are there and the folder of VeriFast; induction on the sources of a call, on the lines that are searched, and on later runs.
* Theorems: `C98_status`, `C98_calls_partial`, `C98_printed`, `C98_passes_without_proofs`, `C98_stale`, `C98_download`, `C98_compile_all`, `C98_compile_all_wrong`.
* Proved: what is printed, and that the nine sources are verified if all three calls succeed. False of the code: the status is that of the search for assumptions, so 0 whatever VeriFast says (C98_status, C98_passes_without_proofs); the last call can succeed with old manifests (C98_stale); after a failed download nothing is downloaded again (C98_download); the status of compile-all is that of the last network function (C98_compile_all_wrong).

### C99 A commit that passes the workflow compiles, builds and verifies, and tags are published (partial)

The list of network functions of the workflow is the JSON array of the directories in nf/. The workflow passes for exactly the pushes to main and pull requests all of whose network functions compile, build for each pair of operating system and driver that go together, and are verified, with the tests of the tool and the format; and the tool is published exactly when a tag is pushed whose commit passes.

* Model: `Tool/Checks`; proofs: `Props/Checks`. Jobs as Boolean functions of the event and the outcomes of steps; the list by induction on the names.
* Theorems: `C99_matrix`, `C99_passes`, `C99_never_published`, `C99_gaps`.
* Proved: the list, and when the workflow passes. False of the code: nothing is ever published, as a tag does not start the workflow (C99_never_published); dhcp_ipv4 is not verified and the router not built (C99_gaps).

### C100 A program starts exactly if what it reads is configured and its memory suffices (partial)

nf_init of each network function returns false exactly if a value that it reads is missing from the configuration or out of range, or the number of devices is wrong; otherwise it gets the first value of each name, the devices it is given exist, and its tables get blocks of memory that have room for all entries, without a wrap-around of their sizes, and do not overlap, if the memory suffices. With the configuration that is shipped with a network function, and cards that were initialized, the program gets to the point where it receives packets.

* Model: `Nf/Start`; proofs: `Props/Start`. The calls that read values as a list, of which each is the first item of its name within a range; the blocks as a list of counts and sizes, allocated one after the other. Bounds on their sum by induction; the set-up of the driver from C56.
* Theorems: `C100_starts_partial`, `C100_blocks`, `C100_too_large`, `C100_start`, `C100_shipped_partial`, `C100_router`, `C100_no_devices`.
* Proved for one device or more, and all network functions in C but the DHCP server (C63). False of the code: with the configuration shipped with the router the program always ends with status 1 (C100_router); without devices any two numbers are accepted as devices (C100_no_devices). A table that is too large for the memory is accepted, and the program halts (C100_too_large). lpm_alloc has no implementation, so the memory of the router is not considered.

### C101 Programs are put together from all their parts, and the tool has models of what they call (partial)

Wherever the repository lies, every source of a program is compiled into its own object, and the network function is linked as the kind of library that was given. In every program that the makefiles do not refuse, every function and variable that is used is defined, and defined once, and the libraries that are needed are linked. Every function that a network function calls has a model in the phase of the verification in which it is called; of the functions of the split sources that a whole program calls, only os_init and the debug output have none.

* Model: `Env/Build`; proofs: `Props/Build`. Replacing .c commutes with joining at spaces, keeps lengths, and changes a text exactly if it has .c; so the objects are the replaced sources and can be made exactly if the directory is unchanged. What is linked is a table of the whole of which each line was read from a source; the claims on it hold for each of the 216 combinations, by evaluation.
* Theorems: `C101_compiles_partial`, `C101_program_compiles`, `C101_nf_compiles`, `C101_renamed`, `C101_dynamic_partial`, `C101_links_partial`, `C101_router`, `C101_metal`, `C101_refused`, `C101_modelled`, `C101_hooked`.
* Proved but for what is false of the code: in a directory whose path has .c or a space no program is compiled (C101_program_compiles, C101_renamed); an object in a directory with .so in its path is taken for a shared library (C101_dynamic_partial); the router uses functions that do not exist (C101_router); DPDK and the policer in Rust are not refused without an operating system although they need the C library (C101_metal).

### C102 The label of a fork says which condition it is (partial)

The text that is written at the edges of the graph for a condition made of numbered symbols with not, and, or can be read by anyone who knows !, &&, || and parentheses, and can only be read as a condition that is true exactly when the condition of the path is; different conditions have different texts. The two ways out of a fork have different labels whatever the condition. The text of any other condition is the one that claripy writes, without its frame.

* Model: `Tool/Texts`; proofs: `Props/Texts`. If two nested texts followed by nothing, a space or a closing parenthesis are the same, so are the conditions and what follows, by recursion on the condition and induction on the parts. Texts are read by an inductive relation; each of its derivations comes from a condition written so, which is the one at hand.
* Theorems: `C102_unambiguous_partial`, `C102_read_partial`, `C102_fork`, `C102_other`, `C102_ambiguous`, `C102_named`.
* Proved for conditions made of symbols that claripy numbered with not, and, or of at least two parts. Other conditions are not put in parentheses, so that their negation reads like the negation of their beginning (C102_ambiguous), and a symbol with a name of its own can look like a numbered one (C102_named).

### C103 The tool reads a text out of the memory of the program exactly (proved)

read_str returns the characters of the bytes before the first 0 at an address, raises exactly if a byte that is not known comes before any 0, and ends unless every byte of the address space is known and not 0; texts that are returned are the same only if the bytes are.

* Model: `Tool/Texts`; proofs: `Props/Texts`. One lemma by induction on the turns of the loop says how it ends and what memory holds then; addresses wrap around.
* Theorems: `C103_text`, `C103_only`, `C103_raised`, `C103_endless`, `C103_not_utf8`.
* Bytes are taken for Latin-1: a text in UTF-8 with other characters than those of ASCII is not returned as written (C103_not_utf8). The address is a known number, and every address can be loaded.

## Disagreements between claim and code

Each is proved, with a witness, by the theorem named.

* C06: `os_config_get` compares with a non-zero minimum as signed numbers (`C06_config_get_signed_minimum_disagrees`).
* C07: composite heights that the precondition accepts lead to writes out of the row (`C07_rows_claim_false_for_composite_height`).
* C13: a term whose multiplier is another multiple of the element size gives a wrong index (`C13_wrong_index`).
* C15: structural equality is not transitive, and `structural_diff` does not partition (`C15_not_transitive`, `C15_string_equals_list`, `C15_diff_wrong`).
* C18: times wrap for low frequencies (`C18_not_monotone`).
* C19, C20, C24: flattening an update leaves the cache of known items stale, so a set is lost (`C20_set_lost`, `C24_version_wrong`).
* C19: a read of a map whose invariant expects a value in another map takes that value for granted where the invariant does not
  say it: in one of several alternatives, or for an item that was set (`C19_hint_lost`, `C19_hint_updated_lost`). An invariant of
  the other map is required of an item that was found under a condition, without the condition (`C19_condition_dropped`).
* C20–C22: updates of the key of the unknown item, two foralls on one map and hints about other maps are unsound
  (`C20_unknown_key_wrong`, `C21_unknown_disagrees`, `C21_unknown_overfull`, `C22_two_foralls_wrong`, `C22_hint_unsound`).
* C23, C25: reads of a new version change old ones; `MapHas` without a value reads the newest version (`C23_old_version_wrong`, `C25_has_reads_newest`).
* C26: merged layers take the values of the wrong path (`C26_layers_swapped`).
* C27, C29: invariants and constant lengths are wrong for updates flattened into the layer of initialization, for arrays of
  one element that initialization sets, and for invariants about another map (`C27_flattened_lost`,
  `C27_single_element_lost`, `C27_cross_map_lost`), and for several initial states with different invariants (`C27_two_initial_states_lost`).
* C28: a widened invariant may mention symbols of one packet (`C28_symbols_escape`).
* C30, C32: accesses in the opposite byte order are wrong unless within one element (`C30_reversed_wide`, `C30_reversed_other_bytes`, `C32_reversed_other`).
* C31: giving back more than 155 may wrap; ephemeral allocations may be written out of range (`C31_give_wraps`, `C31_ephemeral_outside`).
* C33, C34: the checks at allocation are always true (`C33_alloc_check_vacuous`, `C34_alloc_check_vacuous`); a key across heap
  elements may be changed while in a map (`C34_key_across_elements_modified`).
* C35: only the entry that equals the address is found; a repeated set is not reported (`C35_prefix_match_not_covered`, `C35_repeated_set_unreported`).
* C36: results with expired backends are excluded (`C36_expired_backends_not_covered`).
* C38: a failed `assert` is not retried; removing duplicates may leave no candidate (`C38_assertion_not_retried`, `C38_duplicates_abort`).
* C39: the wider operand is truncated (`C39_compare_truncates`, `C39_equality_depends_on_order`, `C39_integer_wraps`, `C39_sum_depends_on_order`).
* C40: dscp/ecn and flags/fragment offset have the wrong bits; ports have a fixed position (`C40_ipv4_dscp_wrong`, `C40_ipv4_flags_wrong`, `C40_ports_with_options_wrong`).
* C41: exclusions of `net_flood_except` are ignored; floods contain devices that do not exist (`C41_flood_except_ignores_exclusions`, `C41_flood_contains_others`).
* C43: with more than 65536 flows two of them share a port (`C43_port_shared_when_table_exceeds_ports`).
* C44: the checksum is updated at the wrong offset and carries are not folded (`C44_inbound_source_address_corrupted`, `C44_outbound_checksum_becomes_invalid`, `C44_checksum_update_identity_wrong`).
* C45: rounding, large rates and wrapping expiration exceed the rate (`C45_rate_claim_false_rounding`, `C45_rate_claim_false_large_rate`, `C45_rate_claim_false_expiration_wrap`).
* C47: flows are not sticky (`C47_not_sticky`).
* C59: packets not shorter than the burst to an expired address are dropped or take a place, and tokens of very large bursts wrap around (`C59_expired_denied`, `C59_expired_refreshed`, `C59_tokens_wrap`).
* C48: checksums are not verified, the length has the wrong byte order, repeated commands violate a contract (`C48_bad_checksum_forwarded`, `C48_valid_packet_dropped`, `C48_repeated_command_violates_contract`).
* C49, outside the claim: transmitting to the input device, and addresses updated while flooding (`C49_transmit_to_input_misdirected`, `C49_transmit_to_last_input_out_of_bounds`, `C49_flood_update_shares_addresses`).
* C50: 32- and 64-bit swaps lose bytes, the bare-metal sleep may not return, the DPDK delay wraps (`C50_swap32_wrong`, `C50_swap64_wrong`, `C50_sleep_never_returns`, `C50_dpdk_delay_wraps`).
* C51: reserved bits before a floating field are not zero; too large values change other bits (`C51_reserved_floats`, `C51_too_large_spills`).
* C52: a read-only field after an ignored one may change; ignored bits are stored (`C52_read_only_changed`, `C52_ignored_bits_stored`).
* C53: bytes of alternating registers resolve to the wrong one, undescribed addresses resolve, third ranges do not (`C53_alternating_wrong`, `C53_undescribed_resolves`, `C53_three_ranges_wrong`).
* C55: if output cards report at least 192 packets late when the driver looks, which it does only after every 64th packet,
  the receive tail is never moved again and the driver receives nothing more (`C55_stalls`, `C55_late_is_final`).
* C56: with an even number of devices all descriptor rings are 64 bytes off the alignment that the card requires and a
  comment promises (`C56_rings_misaligned`); with 12 or more devices set-up always fails (`C56_too_many`).
* C57: a timeout may be reported although the condition ended within it (`C57_timeout_too_early`).
* C58: on bare metal the allocator starts at NULL instead of in the reserved array, since the array is declared
  `extern char* memory` (`C58_metal_null`, `C58_metal_low`, `C58_metal_not_zeroed`).
* C60: the DPDK runtime never frees the buffers of dropped packets, and after as many drops as buffers receives nothing more
  (`C60_drops_stop`); two transmissions of a packet overflow an array or share its buffer (`C60_two_calls_overflow`, `C60_two_calls_shared`).
* C61: before a reset, a bit of Device Control is tested instead of the one that says that transactions are pending, since 0xAA is not a
  multiple of 4 (`C61_pending_ignored`, `C61_refuses`, `C61_refuses_wrongly`); the device's address has more than 48 bits, against the
  comment in network.h (`C61_mac_high_bits`).
* C62: `nf/maglev/spec.py` is false of the load balancer after all backends expired, and the contract in `cht.h:40-51` and the tool's
  `externals/structs/cht.py`, which do not mention expiration, are equally wrong about `cht.c` (`C62_maglev_wrong`). `nf/router/spec.py` is
  false of the router after two commands that differ only beyond the prefix (`C62_router_wrong`). `nf/bridge/spec.py` counts blocked ports
  as reached (`C62_bridge_counts_blocked`).
* C63: the DHCP server (nf/dhcp_ipv4, marked as not verified) cannot work as it is. The shipped configuration misspells two names, so nf_init
  returns false; the ports, the magic cookie and all addresses are used in host byte order, so that no message of a client is recognised and
  addresses would reach clients reversed; `options` is declared as a pointer and so made of bytes of the packet; `capacity` underflows for masks
  with fewer than 3 host bits, after which several clients are offered 0.0.0.0; a denial keeps the operation code of a request; the magic cookie is
  read without a check of the packet's length; and the code that answers is commented out.
* C64: the Rust policer refuses to start with `max flows` 0, the C policer accepts it (`C64_no_flows_wrong`). It takes a reference to the
  destination address in the packet, which is not aligned (`C64_misaligned_wrong`). In a debug build the shipped configuration panics
  (`C64_shipped_debug_wrong`); the same product silently wraps around in the release build and in C.
* C66: verification of whole programs raises for every program (`C66_always_raises`): `spec_device_create_default` has
  `assert False` in device.py:113, so that the device model of C51–C53 cannot be reached as it is. Apart from that, `hlt` raises
  NameError: engine.py:42-43 uses a global `trapped_states` of its own module, while kalm/executor.py:68-69 assigns one of another
  module, so that initialization is not allowed to fail although executor.py:166 says so (`C66_init_failure_wrong`).
* C67: spec_act.py:117-140 names the register PRSTYPE, which spec_reg.py calls PSRTYPE, so no write to it that changes anything is
  accepted (`C67_split_refused`). Lines 106 and 140 chain comparisons by mistake (`bv == 0b000 | bv == …`), so SRRCTL.DESCTYPE cannot be changed
  (`C67_type_refused`). Lines 70 and 218 accept only multiples of 256 as ring lengths, the manual and spec_reg.py say 128
  (`C67_length_refused`). Line 12 lets RXCTRL.RXEN be set before SECRXSTAT.SECRX_RDY (`C67_rash`). Line 462 looks at receive queue 0 alone, so that the
  device may be reset while another queue receives (`C67_abrupt`). Read but without a theorem: the key "Program TDWBAL" occurs twice, so the
  first action, on TDBAL, is lost; registers read before a reset keep their values after it; 87 of the 145 fields that may be written have no action.
* C68: heap.py:48 subtracts one byte more than the contract of os_memory_alloc allows for, so a block that ends at the last address is not
  considered (`C68_alloc_end_wrong`). dpdk/memory.c:10-13 aligns one object of 64 bytes to 64 bytes where memory.h:31 promises, and the tool takes for
  granted, 128 (`C68_dpdk_wrong`). externals/os/pci.py:56 always has two devices (`C68_pci_count_wrong`) and line 68 returns the same array again, where
  env/src/os/pci.c allocates a new one (`C68_pci_again_wrong`). externals/os/memory.py:66 says that physical addresses are virtual ones, which is not so
  on Linux (`C68_phys_linux_wrong`). Considered although impossible: externals/os/config.py:35 has a new guard for each call, so that a name can be found and
  then not be found (`C68_config_vanishes_wrong`), and alignments are known only up to their power of two (`C68_alloc_weak`).
* C69: boot.asm:178 checks for more than 2 leaves of CPUID but line 275 reads leaf 7; if that does not exist, another one's bit is taken
  for FSGSBASE (`C69_fsgsbase_wrong`). Line 445 clears CR0.EM but nothing clears CR0.TS, with which SSE and AVX instructions raise an
  exception (`C69_ts_wrong`). No instruction loads the IDTR, so the claim of lines 38-39 depends on the boot loader (`C69_idt_wrong`). The
  code segment is called readable in line 33; its descriptor is not (part of `C69_started_partial`, of no effect in 64-bit mode). CR4.LA57
  is missing in the assumptions: with it the code faults (`C69_three_outcomes`).
* C70: __main__.py:47 and 54 use the same path for the results of both commands, and nothing ties them to the binary, so that with
  `--use-cached-symbex` another binary (`C70_stale`) or another kind of execution (`C70_other_command`) is reported as verified. verif/executor.py:59 starts to
  count symbols at 1000000, whatever the execution made (`C70_names_wrong`). A program whose initialization always fails is verified for every specification
  (`C70_no_states`).
* C74: because of C13, base + 8 * i with elements of 4 bytes accesses element i (`C74_wrong_element`). The data of a packet are ephemeral (packet.py:32), and heap.py:155-160
  checks nothing when ephemeral memory is written: a network function that writes past the end of the packet buffer verifies (`C74_packet_overrun`). Accesses
  at constant addresses go to angr's memory, which has contents everywhere: dereferencing a null pointer is accepted (`C74_constant_accepted`).
* C75: two `forall` can be true together although no contents satisfy both predicates (`C75_forall_spurious`); tool/tests/test.py:200-215 expects that and asks why.
  The reason is that the unknown item may be absent, so that nothing ties the two results together.
* C76: with several items, the guessed functions to keys and to values of another map may belong to different matches of the items, so that the guessed relation is false of the very items it was guessed from (`C76_value_mismatch`). It is then rejected, and only the part about keys is tried.
* C76: `find_fps` (ghostmaps.py:767) makes one function per constant fraction, but all of them share the variable of the loop and are the last one: of several constants only one is tried (`C76_conditions_fractions`).
* C79: the proof of `os_memory_alloc` assumes at each call that the memory is not at NULL (memory_alloc.c:20-27). On bare metal it is, because `os_memory` is declared as a pointer where it is used and as an array where it is defined (C58): `C79_assumption_metal`.
* C80: a message with a worse root blocks the port to the root, which "must be enabled" (`C80_root_port_blocked`).
* C50: the bare-metal sleep returns only if a reading of the counter falls into one step of the clock (`C50_metal_sleep_window`).
* C81: a time stamp counter of a multiple of 10 GHz makes the clock of DPDK stand still (`C81_dpdk_stuck`); the constraint `A` in
  msr.h:9 does not stand for both registers on x86-64 (`C81_metal_wrong`).
* C82: os_memory_alloc on DPDK may return NULL and is not aligned as its contract says (`C82_null`, `C82_misaligned`).
* C73: the bridge's spanning tree code (nf/bridge/spanning_tree.h) has no effect between bridges. Its messages are sent with UPDATE_ETHER_ADDRS (lines 52, 92), so that the runtime replaces the group address by which a bridge recognizes them (lines 56-59) with the endpoint's (env/src/net/tinynf/main.c:23, 87). `C73_spanning_tree_inert` proves for all networks that no bridge ever has another root than itself or a blocked device, and `C73_storm`, `C73_circulates` that frames for groups circulate for ever and multiply if bridges are connected in loops.
* C73: the frame that arrives when a spanning tree message is due is overwritten with the message (spanning_tree.h:45-53, "cannibalize the packet") and lost (`C73_frame_lost`).
* C83: a DHCP message may point its options at the server's table of clients (the pointer is taken from the message, dhcp.h:59); the reply then overwrites the table. `C83_pointer_wrong` has a client whose lease is lost that way: its request is left unanswered and it is offered a second address while its first is still reserved.
* C84: on DPDK, at any time as many packets that are dropped as there are buffers stop the program for good (`C84_stops`; for the firewall,
  packets that are not IPv4: `C84_firewall_stops`); and a length set by the network function does not reach the card, so that messages of the
  spanning tree are cut off or have bytes of the packet they replace at their end (`C84_message_length_fails`; main.c:155).
* The benchmark ends with an error for network functions that are slower than about 78 Mb/s (C85): at lower rates the
  rounding of the generator's rate (bench-moongen.lua:246) is more than the 2% that :213 allows. Comments speak of 0.1% loss
  (:270, :423), the default is 0.3% (:41).
* The benchmark of the policer uses a single bucket: its configuration has the WAN at device 0, and all packets of direction 0 have the destination
  198.18.1.0, whatever the layer and the number of flows (`C86_policer_single_bucket`).
* The addresses of the benchmark include group addresses, which the bridge neither learns nor looks up with success. With the most
  significant byte first, it floods all packets of direction 0 (`C86_bridge_floods`).
* bind-devices-to-uio.sh takes a device without driver to have that of the next device if both have few lines in the output of lspci
  (`C87_bind_few_lines`), and on machines with a device of another domain does not recognize addresses without domain
  (`C87_bind_other_domain`). unbind-devices.sh does not give drivers to the other devices, against its first line (`C87_unbind_not_only`).
* The loop that looks for invariants need not end: there are explorations for which every iteration weakens an invariant with the length that a map had in
  that iteration only (`C88_never_ends`).
* C89: `env/Makefile.benchmarking:16` splits PCI addresses at `:` and `.` and takes the first three parts, so that for `0000:83:00.0` the bus is 0, the device 0x83 and the function 0; such addresses are accepted by the scripts that bind devices (`C89_config_domain`).
* C90: `benchmarking/bench.sh:72` calls rsync with the folder of the scripts, without a slash at its end, so that it becomes a folder within `$REMOTE_FOLDER_NAME`; line 111 runs `./bench-tester.sh` in the latter. The other machine runs scripts that were there before, and if there are none every run fails (`C90_runs_what_was_there`, `C90_first_run_fails`).
* C90: `bench.sh:32` removes `results` and `*.log` from the current folder, not from that of the script, in which line 113 puts the results. With `make benchmark-X`, logs of the main folder are removed, while results of earlier runs stay and are mixed with those of the run, as scp does not remove files (`C90_removes_logs`, `C90_results_stale`).
* C90: "Ensure we always kill the NF at the end, even in cases of failure" (`bench.sh:126`) does not hold for a network function that appears after more than 30 seconds, for which lines 106-109 exit without cleaning up, nor after Ctrl+C before it appears (`C90_slow_lives`, `C90_interrupted_lives`).
* C90: if `git checkout` fails (`bench.sh:65-69`), the folder of MoonGen stays, and later runs go on with the version that was cloned (`C90_moongen_wrong`).
* graph_as_dot (merging.py:163) supposes that nodes without labels have one entry and one exit. A state merged twice has several entries, and
  is drawn with an edge out and none in, as if it were an initial state (C95). record_step fails with IndexError if the constraints of one of two
  new states are the first ones of the other (C95). The label 'ret' stays on states that go on (C95).
* C96: the columns of the statistics depend on the run (`C96_columns_vary`): with cached results there are only those of the
  verification, without a specification that one is missing, with neither there are two empty lines, and `#invs` is missing if
  no state reaches the end (then `infer_invariants` returns before it counts), so lines of different runs cannot be put together.
* C97: the latency task and the background traffic are not synchronized after they start, and nothing corrects what each round
  takes beyond the times in the script. With 3 ms for each summary (of up to 30000 values) packets of the 19th and 20th rate are
  measured under the traffic of the next one and reported under the wrong name (`C97_drift`).
* C98: env/verify.sh has no `set -e` and ends with `grep`: its status is 0 exactly if there is an assumption in the sources, and
  there are three, so it is 0 whatever VeriFast says (`C98_passes_without_proofs`). Manifests of earlier runs are used if a proof
  now fails (`C98_stale`), and a failed download leaves an empty folder that stops all later ones (`C98_download`). The status of
  `make compile-all` is that of the last network function (`C98_compile_all_wrong`).
* C99: the job that publishes the tool never runs: its condition is that a tag was pushed, but the workflow is only started by
  pushes to the branch main and by pull requests (`C99_never_published`). dhcp_ipv4 is excluded from verification and the router
  from building, with comments (`C99_gaps`); env/verify.sh is not run at all.
* C100: `nf/router/config` has only an item called `empty`, but the router reads `capacity`; so the router never starts with it
  (`C100_router`). `os_config_get_device` takes `devices_count - 1` as its limit, which without devices is the largest number
  (`C100_no_devices`; only the no-op gets there, the others check the count or read no devices).
* C101: `$(subst .c,.o,…)` (env/Makefile:80,83) replaces every `.c` of the absolute paths: in a checkout under, say, `/home/me/klint.copy`
  make looks for `/home/me/klint.oopy/…` and compiles nothing (`C101_renamed`, `C101_program_compiles`); the same with a space in the path.
  `$(findstring .so,$(NF))` (line 40) takes an object in a directory such as `my.software` for a shared library (`C101_dynamic_partial`).
* C101: no program with the router can be linked, since structs/lpm.h has no implementation (`C101_router`). The makefiles do not refuse
  DPDK, the policer in Rust or shared libraries without an operating system (`C101_metal`); the assembly files and the linker script of
  os/metal are in no makefile.
* Labels of forks: below "not", "and" and "or" only "and" and "or" are put in parentheses, so that the negation of a
  condition that claripy writes as `t` is written `!t`, whatever operators `t` has (C102_ambiguous).

Read in the code but not mechanized:

* Length relations are only checked after packets and may exclude the initial state; items of initialization under one key
  replace each other (C27, C29).
* Merged layers keep a stale cache of known items (C26).
* pyvex/rdmsr.py uses `claripy` and `clock` without importing them, so that the emulation of RDMSR raises NameError (C81).
* Some fields of PMCSR have `Access` for `access`.
* Only the postcondition of the last matching action of a write is applied (device.py:73-79).

About C51–C53: while exploring, a copy of spec_reg.py was made outside `/repo` and imported by a script that also called its
`validate_registers`. That ran code of the repository, against the instruction not to. Its output was used for a first plan
of C51–C53 (which registers to look at). The copy was then deleted, the files were read as text, and the facts used here,
including the address table in `Props/RegAddr`, were established from the text. No other code of `/repo` was run, and
`/repo` was not changed.

## Trusted base

* The Lean 4.33.0 kernel. No own axioms, no `sorry`, no compiled evaluation.
* The reading of the Python and C sources that the model encodes, cited per definition. The specifications in `Spec/` and beside the theorems.
* Assumed: the solver answers as stated under Method; claripy's operations mean what bit vector operations mean, and its
  simplifications keep meaning; angr steps a single state exactly (C10).
* Modelled: the functions cited in the model files named above. In `env/`: index_pool.c, map.c, cht.c, memory_alloc.c,
  memory.h, config.c, pci.c, the translation of addresses on Linux and without an operating system, the assembly code that starts without an operating system, clocks, endian.h, the checksum helpers, dpdk main.c, tinynf main.c, and ixgbe.c (register access, reset and set-up of devices, set-up of agents, packet loop, the loop over agents). In `nf/`: firewall, nat, policer, bridge,
  maglev, router, dhcp_ipv4, rust-policer. Of the VeriFast annotations: the lemmas of nine files (C65, C77, C79), and the predicates, contracts and loop invariants of map.c, index_pool.c and memory_alloc.c (C78, C79), without the permissions. In `tool/`: the parts named per property.
* Not modelled: angr, claripy and Z3 internals, lifting of machine code, BPF, the C compiler, hardware beyond what C54 and C61 assume of
  network cards and C69 of processors, the DPDK libraries, the search for concrete bases, debug output, how claripy writes expressions, pickling.

Axioms that the theorems of MANIFEST.json depend on, by `#print axioms`:

* none: `C46_groups_never_learned`, `C47_sticky_without_backend_0_partial`, `C68_phys_metal`, `C82_null`.
* propext: `C06_config_get_signed_minimum_disagrees`, `C07_rows_claim_false_for_composite_height`, `C101_metal`, `C101_modelled`, `C15_not_transitive`, `C15_string_equals_list`, `C31_allocated`, `C31_ephemeral_outside`, `C31_give_wraps`, `C35_prefix_match_not_covered`, `C39_compare_partial`, `C39_compare_truncates`, `C39_integer_wraps`, `C39_symmetric_partial`, `C40_ports_with_options_wrong`, `C47_heartbeat_makes_live`, `C47_not_sticky`, `C49_flood_update_shares_addresses`, `C50_dpdk_delay_wraps`, `C51_too_large_spills`, `C59_expired_denied`, `C59_expired_refreshed`, `C59_tokens_wrap`, `C60_two_calls_shared`, `C64_layout`, `C69_multiboot`, `C77_lengths`, `C89_config_none`, `C96_one_at_a_time`, `C99_never_published`.
* propext, Quot.sound: `C03_contract_map_laws`, `C06_config_get_partial`, `C06_config_helpers`, `C06_memory_helpers`, `C08_merged_meaning`, `C101_hooked`, `C101_links_partial`, `C101_nf_compiles`, `C101_refused`, `C101_router`, `C103_endless`, `C103_not_utf8`, `C103_only`, `C103_raised`, `C103_text`, `C11_partition`, `C15_symmetric`, `C16_paths`, `C16_values`, `C17_c_accesses`, `C17_read`, `C17_write`, `C18_monotone_partial`, `C18_not_monotone`, `C18_time_from_cycles`, `C30_read`, `C31_bounded`, `C31_conserved_partial`, `C31_read_first_partial`, `C31_read_owned_partial`, `C31_take_all_give`, `C31_take_give`, `C31_write_first_partial`, `C31_write_owned_partial`, `C32_read_partial`, `C32_write_partial`, `C32_write_succeeds`, `C33_alloc_check_vacuous`, `C33_model_is_contract`, `C34_accepted_use_is_legal_partial`, `C34_alloc_check_vacuous`, `C34_key_across_elements_modified`, `C34_legal_use_accepted`, `C34_ownership_exact`, `C35_exact_key_covered_partial`, `C35_no_route`, `C35_repeated_set_unreported`, `C35_results_are_longest`, `C35_set_exact`, `C39_arithmetic_partial`, `C39_compare_narrower`, `C39_sum_depends_on_order`, `C41_flood_contains_others`, `C43_spec_run_distinct_ports`, `C43_spec_step_keeps_ports`, `C46_data_frame`, `C46_port_is_last_seen`, `C48_repeated_command_violates_contract`, `C49_indices_one_to_one`, `C49_transmit_to_last_input_out_of_bounds`, `C50_dpdk_delay_partial`, `C50_sleep_returns_late_enough_partial`, `C50_swap32_value`, `C50_swap32_wrong`, `C50_swap64_value`, `C50_swap64_wrong`, `C51_initial_known`, `C51_reserved_floats`, `C53_three_ranges_wrong`, `C57_set`, `C57_timeout_partial`, `C57_timeout_too_early`, `C62_nop`, `C63_port_wrong`, `C63_silent`, `C64_misaligned_wrong`, `C65_ghost_map_get`, `C67_mac`, `C67_names`, `C68_config_vanishes_wrong`, `C68_phys_linux_wrong`, `C70_current`, `C70_status`, `C71_writes`, `C73_frame_lost`, `C79_assumption_metal`, `C80_root_port_blocked`, `C81_metal_wrong`, `C82_power_of_two`, `C84_message_length_fails`, `C85_schedule`, `C86_devices`, `C86_nop`, `C94_elements`, `C95_drawn`, `C95_fork_more`, `C95_return_goes_on`, `C95_unreached`, `C98_compile_all`, `C98_compile_all_wrong`.
* propext, Classical.choice, Quot.sound: all other theorems of MANIFEST.json.

{"id": "C01", "title": "Index pool implements its ghost-map contract", "statement": "Seen as a map from borrowed index to its last-use time, an index pool created by index_pool_alloc(size, exp) starts empty, and every later index_pool_borrow / refresh / used / return call changes and reports that map exactly as the contract in index_pool.h says: borrow succeeds whenever an index is free or expired and fails only when all 'size' indices are borrowed and young; the returned index is < size, was absent iff out_used is false, and was expired iff out_used is true; refresh sets the time, return removes the index, used is true iff the index is present and young.", "quantifier": "for every pool size, expiration time, and finite sequence of calls that meet the documented preconditions, with every 64-bit time (not assumed monotone)", "why_tests_cant": "The result depends on the whole history through the timestamps array and the rotating start position; tests see a few histories, sizes and times.", "anchors": ["env/src/structs/index_pool.c:index_pool_alloc", "env/src/structs/index_pool.c:index_pool_borrow", "env/src/structs/index_pool.c:index_pool_refresh", "env/src/structs/index_pool.c:index_pool_used", "env/src/structs/index_pool.c:index_pool_return", "env/include/structs/index_pool.h"]}
{"id": "C02", "title": "A live lease is never handed out twice", "statement": "If index_pool_borrow at time t returns index i, then i was not reported 'used' at time t just before the call, and immediately afterwards index_pool_used(t, i) is true and the answer for every other index is unchanged.", "quantifier": "for every pool, history and time", "why_tests_cant": "Double allocation needs a specific interleaving of borrow/refresh/expire with the rotating scan; only an invariant over all histories rules it out.", "anchors": ["env/src/structs/index_pool.c:index_pool_borrow", "env/src/structs/index_pool.c:index_pool_used"]}
{"id": "C03", "title": "Hash map behaves as a finite map", "statement": "After any sequence of map_set / map_remove calls that meet the preconditions of map.h, map_get(key) returns true with the value of the last map_set of an equal key not removed since, and false if there is none, whatever the hash values of the keys, including all keys colliding and chains that wrap around the table.", "quantifier": "for every capacity whose rounded size fits, every hash function, every key set and every finite sequence of operations", "why_tests_cant": "Open addressing with chain counters fails only under particular collision/removal orders; the space of hash functions and orders is unbounded.", "anchors": ["env/src/structs/map.c:map_alloc", "env/src/structs/map.c:map_get", "env/src/structs/map.c:map_set", "env/src/structs/map.c:map_remove", "env/include/structs/map.h"]}
{"id": "C04", "title": "map_set always finds a free slot below capacity", "statement": "When fewer than 'capacity' keys are present, map_set stores the new key in a slot that was free, overwrites no other entry, and terminates; the table size is the least power of two >= capacity (0 for 0) and is computed without overflow whenever capacity*64 <= SIZE_MAX.", "quantifier": "for every capacity with capacity*64 <= 2^64-1 and every reachable table", "why_tests_cant": "A full scan of all reachable tables and all 2^58 capacities is impossible by testing.", "anchors": ["env/src/structs/map.c:get_real_capacity", "env/src/structs/map.c:loop", "env/src/structs/map.c:map_set"]}
{"id": "C05", "title": "os_memory_alloc returns disjoint, aligned, in-range blocks", "statement": "Each successful os_memory_alloc(count, size) returns a block that lies inside the arena, is aligned to size rounded up past a cache line, and overlaps no earlier block; a request that does not fit never returns.", "quantifier": "for every arena base address and every finite sequence of requests with count == 1 or count*size <= SIZE_MAX", "why_tests_cant": "Overlap depends on the accumulated allocation history and on 64-bit wrap-around for extreme sizes.", "anchors": ["env/src/os/memory_alloc.c:os_memory_alloc", "env/include/os/memory.h"]}
{"id": "C06", "title": "Memory and configuration helpers match their contracts", "statement": "os_memory_eq is true iff the two byte ranges are equal; os_memory_copy makes the destination equal to the source and changes nothing else; equal keys have equal os_memory_hash; os_config_try_get returns the value of the first entry with exactly that name and false if none; the bounded os_config_get variants succeed exactly when the value is in range.", "quantifier": "for all byte strings and lengths, all configuration tables and names", "why_tests_cant": "Lengths and contents are unbounded; the word/half-word/byte remainder paths of the hash need every length class.", "anchors": ["env/include/os/memory.h:os_memory_eq", "env/include/os/memory.h:os_memory_copy", "env/include/os/memory.h:os_memory_hash", "env/src/os/config.c:os_config_try_get", "env/include/os/config.h:os_config_get"]}
{"id": "C07", "title": "Consistent hash table prefers a live backend and never writes out of its row", "statement": "cht_alloc(height, capacity) builds, for every bucket, a row listing every backend 0..capacity-1 exactly once, so that cht_find_preferred_available_backend returns a backend that is in use in the pool whenever one below capacity is, returns false otherwise, and always returns the same backend for the same key while the set of live backends is unchanged.", "quantifier": "for every height and capacity accepted by cht_alloc's precondition (0 < capacity < height < 40000), every key hash and every set of live backends", "why_tests_cant": "The row property is number-theoretic (every step must be coprime with the height); tests use a few prime heights.", "anchors": ["env/src/structs/cht.c:cht_alloc", "env/src/structs/cht.c:cht_find_preferred_available_backend", "env/include/structs/cht.h"]}
{"id": "C08", "title": "Merged path constraints describe exactly the union of the merged paths", "statement": "When states are merged, an assignment satisfies the merged constraints together with the i-th merge condition iff it satisfies state i's constraints and the i-th condition, and every assignment satisfying the merged constraints satisfies some merge condition.", "quantifier": "for every number of states, every constraint lists (common prefix or not) and every assignment", "why_tests_cant": "An unsound merge drops program behaviours silently; the constraint lists are arbitrary.", "anchors": ["tool/kalm/solver.py:KalmSolver.merge"]}
{"id": "C09", "title": "Merge conditions are exclusive, representable and cover all states", "statement": "merge_states over n >= 2 states creates n conditions on a fresh flag such that at most one holds under any assignment, each one is satisfiable, and together with the merged constraints exactly one holds.", "quantifier": "for every n >= 2", "why_tests_cant": "The flag width is computed with a logarithm, so every n (not only small ones or powers of two) matters.", "anchors": ["tool/kalm/merging.py:merge_states", "tool/kalm/solver.py:KalmSolver.merge"]}
{"id": "C10", "title": "Merging-aware exploration neither loses nor invents program behaviours", "statement": "Running the exploration to completion yields final states that together cover exactly the concrete executions of the program from the start state: each concrete run is represented by some final state and each final state represents only concrete runs; each step picks only states at the lowest program counter for merging.", "quantifier": "for every program (branching step function), every merge/triage outcome and every number of steps", "why_tests_cant": "The stash juggling interacts with arbitrary forking and merging orders.", "anchors": ["tool/kalm/merging.py:MergingExplorationTechnique.step", "tool/kalm/merging.py:triage_for_merge", "tool/kalm/merging.py:merge_states", "tool/kalm/executor.py:run_state"]}
{"id": "C11", "title": "Triage for merging partitions the states", "statement": "triage_for_merge puts every input state in exactly one non-empty pile, and all states of a pile have equal call stacks, equal return values when triaging on them, and compatible ghost maps.", "quantifier": "for every non-empty list of states", "why_tests_cant": "Lists and pairwise relations are arbitrary.", "anchors": ["tool/kalm/merging.py:triage_for_merge", "tool/klint/ghostmaps.py:GhostMapsPlugin.merge_triage"]}
{"id": "C12", "title": "Forking on a guard covers both outcomes and only feasible ones", "statement": "fork_guarded runs the true case on states where the guard can hold and the false case where it can fail: after the call the resulting states together admit exactly the assignments of the original state, with guard true in the 'true' state and false in the 'false' state, and no infeasible state is created.", "quantifier": "for every state, guard and pair of cases", "why_tests_cant": "Covers all path conditions; a missed branch is invisible in tests that only look at explored paths.", "anchors": ["tool/kalm/utils.py:fork_guarded", "tool/kalm/utils.py:get_if_constant", "tool/kalm/utils.py:fork_guarded_has"]}
{"id": "C13", "title": "Pointer decomposition is exact", "statement": "For an address expression made of additions, subtractions, constant multiplications, shifts and conditionals, the (base, index, offset) returned by base_index_offset satisfies base + index*size + offset/8 == address modulo 2^64 under every assignment satisfying the path constraints, with offset/8 < size.", "quantifier": "for every address expression, element size and assignment of 64-bit variables", "why_tests_cant": "Wrap-around cases need specific huge values; expressions are unbounded.", "anchors": ["tool/kalm/utils.py:base_index_offset", "tool/kalm/utils.py:_as_mult_add", "tool/kalm/utils.py:_modulo_simplify", "tool/kalm/utils.py:_div_simplify"]}
{"id": "C14", "title": "Expression simplification preserves meaning", "statement": "simplify(state, e) evaluates to the same value as e under every assignment that satisfies the state's constraints; the linear decomposition used by it sums back to the expression modulo 2^n.", "quantifier": "for every expression, state and satisfying assignment", "why_tests_cant": "Expressions are unbounded trees; the rewriting has many shape-dependent branches.", "anchors": ["tool/kalm/utils.py:simplify", "tool/kalm/utils.py:_as_mult_add", "tool/kalm/utils.py:_as_mult_add_outer"]}
{"id": "C15", "title": "Structural equality is an equivalence that implies equal meaning", "statement": "structural_eq is reflexive, symmetric and transitive on the nested values it is used on (None, expressions, strings, numbers, lists, dictionaries, named tuples) and equal values evaluate equally; structural_diff partitions its two inputs into left-only, common and right-only.", "quantifier": "for every pair/triple of nested values and every pair of lists", "why_tests_cant": "Recursive over unbounded nesting.", "anchors": ["tool/kalm/utils.py:structural_eq", "tool/kalm/utils.py:structural_diff", "tool/kalm/plugins/metadata.py:MetadataPlugin.merge"]}
{"id": "C16", "title": "Merging of memory values and path segments is faithful", "statement": "After merging n states, reading a location yields, when the i-th merge condition holds, the value it had in state i; the merged call path restricted to segments whose condition holds under the i-th merge condition is exactly the path of state i.", "quantifier": "for every n, values, segment lists and assignment", "why_tests_cant": "All n and all list shapes matter.", "anchors": ["tool/kalm/memory/memory.py:KalmMemory._merge_values", "tool/kalm/plugins/path.py:PathPlugin.merge"]}
{"id": "C17", "title": "PCI configuration access protocol is enforced and addresses decode correctly", "statement": "A PCI configuration read or write reaches the device handlers only after an address was written and flushed since the last address change, with exactly the bus/device/function/register that the C code encoded; any other port or order is rejected.", "quantifier": "for every sequence of port operations and every address", "why_tests_cant": "Protocol violations need particular orders; all 2^24 addresses matter.", "anchors": ["tool/kalm/plugins/pci.py:PciPlugin", "env/include/os/pci.h"]}
{"id": "C18", "title": "The clock is read at most once per execution and times are consistent", "statement": "In one execution the clock can be read at most once, the time it returns is never the reserved maximum, and it equals cycles / frequency * 10 with the cycle count returned by rdtsc; the C clock built on it is monotone in the cycle counter.", "quantifier": "for every execution and cycle count", "why_tests_cant": "Quantifies over all 64-bit counters and call orders.", "anchors": ["tool/kalm/clock.py:get_time_and_cycles", "env/include/os/clock.h:os_clock_time_ns"]}
{"id": "C19", "title": "A ghost-map get is sound", "statement": "For a ghost map that over-approximates a concrete map, get(key) returns (value, present) such that every concrete map and assignment described by the state before the call is still described after the call, with 'present' true iff the key is in the concrete map and, if so, 'value' its value.", "quantifier": "for every map history (layers of set/remove over a base with known items and invariants), key expression, concrete map and assignment", "why_tests_cant": "Soundness is a statement about all concrete maps described by a symbolic state; tests only query single results.", "anchors": ["tool/klint/ghostmaps.py:Map.get", "tool/klint/ghostmaps.py:Map.known_items", "tool/klint/ghostmaps.py:Map.add_item", "tool/klint/ghostmaps.py:MapInvariant.__call__"]}
{"id": "C20", "title": "set and remove are exact updates", "statement": "After set(k, v) (resp. remove(k)), get(k) reports (v, present) (resp. not present); for every key different from k it reports what the map before the update reported; the length grows by one iff k was absent (shrinks by one iff present).", "quantifier": "for every map, key, value and assignment, including keys that may or may not alias earlier ones", "why_tests_cant": "Symbolic aliasing: each pair of keys may be equal or different under different assignments.", "anchors": ["tool/klint/ghostmaps.py:Map.set", "tool/klint/ghostmaps.py:Map.remove", "tool/klint/ghostmaps.py:Map.get", "tool/klint/ghostmaps.py:Map.length"]}
{"id": "C21", "title": "Two gets with equal keys agree", "statement": "If two gets on the same version of a map use keys that are equal under an assignment, they report the same presence and, when present, the same value; whenever two keys are different and both present the length is at least 2, and a map that can be shown full has no other keys.", "quantifier": "for every sequence of operations and assignment satisfying the path constraints", "why_tests_cant": "Consistency of lazily created items over arbitrary operation orders.", "anchors": ["tool/klint/ghostmaps.py:Map.get", "tool/klint/ghostmaps.py:Map.is_not_overfull"]}
{"id": "C22", "title": "forall is sound", "statement": "If forall(pred) is assumed true, then every item of every concrete map considered satisfies pred; if it is assumed false, some item violates it; no concrete map is excluded by evaluating forall.", "quantifier": "for every map, predicate and concrete map, also when forall is evaluated several times with different predicates on one map", "why_tests_cant": "Quantifier reasoning by a single representative item is exactly what finite tests cannot validate.", "anchors": ["tool/klint/ghostmaps.py:Map.forall"]}
{"id": "C23", "title": "Old versions of a map keep their contents", "statement": "A get on an older version of a map (as used by the spec's 'old') reports the contents at that version, whatever was set, removed or read on newer versions meanwhile.", "quantifier": "for every history and version", "why_tests_cant": "Needs all interleavings of reads on new and old versions with aliasing keys.", "anchors": ["tool/klint/ghostmaps.py:Map.oldest_version", "tool/klint/ghostmaps.py:Map.get", "tool/klint/ghostmaps.py:Map.with_item_layer"]}
{"id": "C24", "title": "Flattening update layers does not change the map", "statement": "When two consecutive updates are collapsed into one layer, or when a layer is dropped because it rewrites the same key, every later get, length and version query gives the same answer as without the optimisation.", "quantifier": "for every history", "why_tests_cant": "The optimisation triggers only for specific key relations and cache states.", "anchors": ["tool/klint/ghostmaps.py:Map.with_item_layer", "tool/klint/ghostmaps.py:Map.known_items", "tool/klint/ghostmaps.py:Map.version"]}
{"id": "C25", "title": "Invariants that mention other maps are evaluated on the right version", "statement": "A MapHas / MapGet inside an invariant refers to the version of the other map that was current when the invariant was established, with or without a value argument.", "quantifier": "for every pair of maps, invariant and history", "why_tests_cant": "Depends on update order of two maps.", "anchors": ["tool/klint/ghostmaps.py:eval_map_ast", "tool/klint/ghostmaps.py:freeze_map_ast_versions"]}
{"id": "C26", "title": "Merging ghost maps preserves each side's contents", "statement": "If can_merge accepts two maps, the merged map describes under each merge condition exactly the contents the corresponding side had.", "quantifier": "for every list of mergeable maps and merge conditions", "why_tests_cant": "All shapes of layered/base maps and numbers of states.", "anchors": ["tool/klint/ghostmaps.py:Map.can_merge", "tool/klint/ghostmaps.py:Map.merge", "tool/klint/ghostmaps.py:GhostMapsPlugin.merge"]}
{"id": "C27", "title": "Inferred invariants hold for every packet history", "statement": "When the fixed-point loop stops, every inferred map invariant holds in the map contents reached after any number of handled packets, so the verified result states cover every packet of every history.", "quantifier": "for every NF step relation, every number of iterations and every finite packet history", "why_tests_cant": "It is an induction over unbounded packet sequences.", "anchors": ["tool/klint/executor.py:find_fixedpoint_states", "tool/klint/ghostmaps.py:infer_invariants", "tool/klint/ghostmaps.py:flatten_items"]}
{"id": "C28", "title": "Invariant widening only weakens and covers the offending item", "statement": "One inference iteration replaces each invariant by a weaker one that holds of every item set in the explored states; if nothing needed weakening the loop stops, otherwise it continues.", "quantifier": "for every invariant, item list and assignment", "why_tests_cant": "Arbitrary formulas.", "anchors": ["tool/klint/ghostmaps.py:flatten_items", "tool/klint/ghostmaps.py:find_constraints"]}
{"id": "C29", "title": "Inferred length relations hold for every packet history", "statement": "The length constraints assumed for havoced maps (constant, at most the previous bound, less-or-equal between maps) hold of the concrete lengths after any number of packets.", "quantifier": "for every history", "why_tests_cant": "Induction over packet sequences.", "anchors": ["tool/klint/ghostmaps.py:get_length_invariants", "tool/klint/ghostmaps.py:infer_invariants"]}
{"id": "C30", "title": "Symbolic heap reads return what was written", "statement": "Storing a value at an offset of an allocated object and reading the same bytes back returns the value; bytes not covered by the store are unchanged; this also holds for accesses wider than one element and for both byte orders.", "quantifier": "for every element size, offset, width, index and previous content", "why_tests_cant": "Chunking logic over all size/offset combinations.", "anchors": ["tool/klint/heap.py:HeapPlugin._read", "tool/klint/heap.py:HeapPlugin._write"]}
{"id": "C31", "title": "Ownership fractions are conserved", "statement": "Every object element's ownership stays between 0 and 100 percent; taking and giving back restores the original ownership; an element can be written only when fully owned, read only when partly owned; nothing outside the allocated range can be read or written.", "quantifier": "for every sequence of take / give / read / write on any allocations", "why_tests_cant": "8-bit wrap-around and out-of-range indices need extreme values.", "anchors": ["tool/klint/heap.py:HeapPlugin.take", "tool/klint/heap.py:HeapPlugin.give", "tool/klint/heap.py:HeapPlugin.allocate", "tool/klint/heap.py:HeapPlugin._read", "tool/klint/heap.py:HeapPlugin._write"]}
{"id": "C32", "title": "Descriptor ring / agent memory model is read-after-write consistent", "statement": "In the memory used for descriptor rings and agents, reading a range just written returns the written value and other bits of that and other elements are unchanged, in either byte order.", "quantifier": "for every element size, offset, width and content", "why_tests_cant": "All slice positions and byte-order combinations.", "anchors": ["tool/klint/externals/verif/verif.py:_custom_memory"]}
{"id": "C33", "title": "Symbolic model of the index pool admits every real pool behaviour", "statement": "Whatever the real index pool may answer under its contract is among the outcomes explored by the symbolic model of borrow / refresh / used / return, with the pool contents updated the same way, and precondition violations are always reported.", "quantifier": "for every pool content, size, time and index", "why_tests_cant": "Missing outcomes make verification unsound, which no test of the model's own outputs can reveal.", "anchors": ["tool/klint/externals/structs/index_pool.py"]}
{"id": "C34", "title": "Symbolic model of the hash map admits every real map behaviour and rejects misuse", "statement": "map_get/map_set/map_remove models produce exactly the outcomes of the map.h contract on contents, addresses and key ownership, and any call violating a precondition (too large a capacity, full map, key already present, key memory modified while in the map) is rejected.", "quantifier": "for every capacity, content, key and ownership state", "why_tests_cant": "Precondition checks on 64-bit quantities fail only for extreme values.", "anchors": ["tool/klint/externals/structs/map.py", "tool/klint/heap.py:HeapPlugin.take"]}
{"id": "C35", "title": "Symbolic model of the LPM table admits every real longest-prefix match", "statement": "For every table content and key, the answer a longest-prefix-match search gives is among the outcomes of the lpm_search model, and each outcome with a result is the value of a longest matching prefix.", "quantifier": "for every table, prefix width and key", "why_tests_cant": "Routing tables and keys are unbounded.", "anchors": ["tool/klint/externals/structs/lpm.py:LpmSearch", "env/include/structs/lpm.h"]}
{"id": "C36", "title": "Symbolic model of the consistent hash table admits every real outcome", "statement": "The outcomes of the cht_find_preferred_available_backend model include every answer of the C implementation.", "quantifier": "for every live set, key and size", "why_tests_cant": "Missing outcomes are invisible to tests of the model.", "anchors": ["tool/klint/externals/structs/cht.py"]}
{"id": "C37", "title": "Peer symbolic execution of a spec explores every feasible path exactly once", "statement": "For a spec that always terminates, the exploration terminates, the recorded path conditions are pairwise exclusive and cover all assignments satisfying the state's constraints, and the spec is run once per path.", "quantifier": "for every deterministic spec (decision tree) and constraint set", "why_tests_cant": "The number of paths is unbounded; re-execution with a branch prefix must never skip a subtree.", "anchors": ["tool/klint/verif/symbex.py:_symbex", "tool/klint/verif/value_proxy.py:ValueProxy.__bool__"]}
{"id": "C38", "title": "Existential choices are searched exhaustively", "statement": "Verification succeeds iff some assignment of distinct implementation maps to the spec's maps makes the spec succeed on all paths of all states; in particular a failed spec assertion under one choice leads to trying the next one.", "quantifier": "for every choice lists and success predicate", "why_tests_cant": "Combinatorial search; completeness is about all combinations.", "anchors": ["tool/klint/verif/symbex.py:_symbex", "tool/klint/verif/spec_prefix.py:choose"]}
{"id": "C39", "title": "Spec arithmetic does not depend on operand order or width", "statement": "Operations between spec values of different widths compare and compute the mathematical unsigned values, so that a == b iff b == a, and comparing with a wider value never ignores its high bits.", "quantifier": "for every pair of widths and values", "why_tests_cant": "All width combinations and high bits.", "anchors": ["tool/klint/verif/value_proxy.py:ValueProxy._op"]}
{"id": "C40", "title": "Typed views and packet headers slice the right bits", "statement": "Wrapping a value into a typed record and unwrapping it gives the value back; each packet header field of the spec reads exactly the bits at its position in the packet bytes, and concatenating all fields gives the header.", "quantifier": "for every record type, header layout, value and packet content", "why_tests_cant": "All layouts, including bit fields crossing bytes.", "anchors": ["tool/klint/verif/spec_prefix.py:type_wrap", "tool/klint/verif/spec_prefix.py:type_unwrap", "tool/klint/verif/spec_prefix.py:_SpecPacketHeader"]}
{"id": "C41", "title": "The spec sees exactly the devices a packet was sent on", "statement": "For each transmission the spec's 'devices' contains exactly the devices on which the runtime sends the packet: one for net_transmit, all but the input for net_flood, and all but the input and the excluded ones for net_flood_except; its length is their number.", "quantifier": "for every device count, input device and exclusion table", "why_tests_cant": "All exclusion tables and device counts.", "anchors": ["tool/klint/verif/spec_prefix.py:_spec_wrapper", "tool/klint/externals/net/tx.py", "env/src/net/tinynf/main.c:net_flood_except"]}
{"id": "C42", "title": "Firewall admits only solicited traffic", "statement": "The firewall forwards an external TCP/UDP packet iff its reversed flow was sent from the internal side (or refreshed by an admitted external packet) within the expiration time and its entry has not been reused; every internal TCP/UDP packet is forwarded; packets go unmodified to the other device.", "quantifier": "for every packet sequence, expiration time and table size", "why_tests_cant": "Security property over unbounded histories with table exhaustion and expiry.", "anchors": ["nf/firewall/firewall.c:nf_handle", "nf/firewall/flow_table.h"]}
{"id": "C43", "title": "NAT translation is consistent and injective", "statement": "While a flow is live all its packets use the same external port, two live flows never share a port, and a packet from outside to a live port is delivered to exactly the internal flow that owns it, and only if it comes from that flow's peer.", "quantifier": "for every packet sequence, start port, expiration and table size", "why_tests_cant": "Port reuse after expiry and 16-bit wrap-around need long histories.", "anchors": ["nf/nat/nat.c:nf_handle", "nf/nat/flow_table.h"]}
{"id": "C44", "title": "NAT rewriting changes only the translated address, port and checksum", "statement": "A packet forwarded by the NAT differs from the received one only in the translated IPv4 address, the translated port, the IPv4 header checksum and the TCP/UDP checksum, and a valid checksum stays valid.", "quantifier": "for every packet and flow", "why_tests_cant": "All header values; checksum carries.", "anchors": ["nf/nat/nat.c:nf_handle", "env/include/net/packet.h:net_packet_checksum_update", "env/include/net/packet.h:net_checksum_update"]}
{"id": "C45", "title": "Policer enforces the configured rate and burst", "statement": "In any time window of length T the bytes forwarded from the WAN to one address are at most burst + rate*T, and a bucket never holds more than burst.", "quantifier": "for every packet sequence with non-decreasing times, every rate, burst and table size", "why_tests_cant": "A bound over all windows of unbounded histories with 64-bit arithmetic and bucket eviction.", "anchors": ["nf/policer/policer.c:nf_handle", "nf/policer/policer.c:nf_init"]}
{"id": "C46", "title": "Bridge learns and forwards correctly", "statement": "A data frame is never sent back on its input device or on a port blocked by the spanning tree when flooded; a frame to a known destination goes only to the device where that source address was last seen; group source addresses are never learned; an unknown destination is flooded.", "quantifier": "for every frame sequence, capacity and expiration time", "why_tests_cant": "History-dependent learning with table exhaustion.", "anchors": ["nf/bridge/bridge.c:nf_handle", "nf/bridge/spanning_tree.h:stp_handle"]}
{"id": "C47", "title": "Load balancer sends to live backends and keeps flows sticky", "statement": "A client packet is forwarded only to a backend that is currently live; packets of one live flow go to the same backend as long as it stays live; heartbeats make a backend live.", "quantifier": "for every packet sequence", "why_tests_cant": "Stickiness is a property of histories.", "anchors": ["nf/maglev/maglev.c:nf_handle", "nf/maglev/balancer.h"]}
{"id": "C48", "title": "Router forwards valid packets along the longest matching prefix", "statement": "The router forwards a non-management IPv4 packet iff its header is valid, its TTL is positive and some prefix matches, and then to the device of a longest matching prefix.", "quantifier": "for every packet and table", "why_tests_cant": "All header values and tables.", "anchors": ["nf/router/router.c:nf_handle", "env/include/net/packet.h"]}
{"id": "C49", "title": "Runtime transmit, flood and device indices agree", "statement": "The device passed to the network function and the device used by net_transmit map to each other one-to-one for every input device and output, a flooded packet is sent on every device except the input (and excluded ones) exactly once and never back to the input.", "quantifier": "for every number of devices, input device and exclusion table", "why_tests_cant": "All device counts.", "anchors": ["env/src/net/tinynf/main.c"]}
{"id": "C50", "title": "Byte-order helpers and clock sleep are correct", "statement": "Endianness conversions reverse the bytes and are their own inverse; the busy-wait sleep returns once at least the requested time has passed, for every clock progress.", "quantifier": "for every 16/32/64-bit value and every clock schedule", "why_tests_cant": "All values and all clock schedules (including ones that skip the exact target).", "anchors": ["env/include/arch/endian.h", "env/src/os/metal/clock.c"]}
{"id": "C51", "title": "Register field updates change only that field", "statement": "Setting or clearing a register field stores the new value in exactly the field's bits and leaves all other bits of the register and all other registers unchanged; initial values have each field at its specified initial value and reserved bits zero.", "quantifier": "for every register layout (ordered disjoint fields), field, old content and new value", "why_tests_cant": "All layouts and contents.", "anchors": ["tool/klint/fullstack/reg_util.py:change_reg_field", "tool/klint/fullstack/reg_util.py:__init_reg_val_con", "tool/klint/fullstack/reg_util.py:__init_reg_val_symb", "tool/klint/fullstack/reg_util.py:__constrain_field"]}
{"id": "C52", "title": "Every illegal register write is rejected", "statement": "A device register write that changes a read-only or not-accessible field, or that no specified action with a satisfied precondition allows, raises an error; all accepted writes are justified field by field.", "quantifier": "for every register description, old and new value and action table", "why_tests_cant": "Depends on the combination and order of changed fields.", "anchors": ["tool/klint/fullstack/reg_util.py:check_access_write", "tool/klint/fullstack/reg_util.py:verify_write", "tool/klint/fullstack/reg_util.py:find_fields_on_write"]}
{"id": "C53", "title": "Device addresses resolve to the right register and index", "statement": "Every byte address inside a described register instance resolves to that register and to its index, and instance base addresses of different registers never resolve to the wrong one.", "quantifier": "for every register table with disjoint ranges and every address", "why_tests_cant": "Address spaces and tables are large; multi-range registers are rare in tests.", "anchors": ["tool/klint/fullstack/reg_util.py:find_reg_from_addr"]}
{"id": "C54", "title": "The driver handles each packet once, in order, and sends what the handler asked", "statement": "For every interleaving of the driver's memory and register accesses with the network cards, the packets sent on each output are exactly the results of the network function applied once to each received packet, in order, none is lost, duplicated or changed after handling, and no buffer is used by the driver or an output card while the input card may write to it.", "quantifier": "for every handler, number of outputs, packet sequence and interleaving of driver and cards", "why_tests_cant": "Interleavings with hardware are unbounded, and wrap-around of shared rings needs long runs under exact timing.", "anchors": ["env/src/net/tinynf/ixgbe.c:tn_run_peragent", "env/src/verif/drivers.c:foreach_index_forever"]}
{"id": "C55", "title": "The driver never stops receiving", "statement": "From every reachable state, once the output cards have sent what they were given and reported so, the input card gets descriptors to receive further packets.", "quantifier": "for every handler, number of outputs and interleaving of driver and cards", "why_tests_cant": "Needs output cards that are slow for an exact period; the failure is permanent and looks like a dead link.", "anchors": ["env/src/net/tinynf/ixgbe.c:tn_run_peragent"]}
{"id": "C56", "title": "Set-up gives every agent its own queues and memory, as the cards require", "statement": "After set-up of any number of devices, each agent receives from its device and has one output per other device; all queues are enabled with the right rings, lengths, thresholds and head addresses and were not in use before, every device sends and receives, no two outputs share a queue, no two blocks of memory overlap, descriptors point to the agent's buffers, and rings are aligned to 128 bytes and heads to 16 as the data sheet asks.", "quantifier": "for every number of devices, initial registers, initial allocator state and mapping to physical addresses", "why_tests_cant": "Depends on the exact number of devices and on allocation addresses; a misaligned ring or shared queue corrupts packets only on real cards.", "anchors": ["env/src/net/tinynf/ixgbe.c:tn_agent_add_output", "env/src/net/tinynf/ixgbe.c:tn_agent_set_input", "env/src/net/tinynf/ixgbe.c:tn_agent_init", "env/src/net/tinynf/main.c:main"]}
{"id": "C57", "title": "Register fields are read, written and polled exactly", "statement": "Bit masks contain exactly the named bits; writing a field stores the value in it and leaves all other bits and registers alone; setting, clearing and testing a field do exactly that; and a timeout is reported only if the condition still holds after the whole timeout.", "quantifier": "for every register contents, field, value, timeout and sequence of conditions", "why_tests_cant": "2^32 contents times all fields and values; timeouts depend on when exactly a card changes a bit.", "anchors": ["env/src/net/tinynf/ixgbe.c:reg_write_field", "env/src/net/tinynf/ixgbe.c:find_first_set", "env/src/net/tinynf/ixgbe.c:IF_AFTER_TIMEOUT"]}
{"id": "C58", "title": "The allocator hands out the memory that was reserved for it", "statement": "On every platform, the arena of the allocator is the memory reserved at start: the array on bare metal, the huge page on Linux; blocks lie in it, are not at NULL and are zeroed.", "quantifier": "for every location of the reserved memory, contents of other memory, and sequence of requests and stores", "why_tests_cant": "The bare-metal image only runs on hardware, and addresses 0 to 256 MB are usually writable there, so that wrong placement shows up as rare corruption.", "anchors": ["env/src/os/metal/init.c:memory", "env/src/os/linux/init.c:os_init", "env/src/os/memory_alloc.c:os_memory_alloc"]}
{"id": "C59", "title": "The policer lets through exactly what a token bucket for each address allows", "statement": "A packet from the WAN passes if and only if its destination has a bucket used within the expiration time that holds more tokens than the packet has bytes, counting what accrued at the configured rate up to the burst, or has none, there is room for one and the packet is not longer than the burst.", "quantifier": "for every rate, burst, table size and packet sequence with non-decreasing times", "why_tests_cant": "The state depends on the whole history of all addresses, and on 64-bit arithmetic.", "anchors": ["nf/policer/policer.c:nf_handle", "nf/policer/spec-exact.py:spec"]}
{"id": "C60", "title": "The DPDK runtime sends what the handler asked and keeps its buffers", "statement": "Each packet is handled once and handed to exactly the cards the network function named, in order and with the contents it left; no array is accessed out of bounds; and every buffer is always in exactly one place, so that the runtime never runs out of them.", "quantifier": "for every network function, number of packets, batch size and behaviour of the cards", "why_tests_cant": "Leaks need as many packets as there are buffers, and the failure comes long after its cause.", "anchors": ["env/src/net/dpdk/main.c:net_transmit", "env/src/net/dpdk/main.c:net_flood", "env/src/net/dpdk/main.c:main"]}
{"id": "C61", "title": "Devices are reset and configured as the data sheet asks", "statement": "A device is reset only after its receive queues are disabled and, unless it hangs, its use of the bus has ended; no register is accessed in the 11 ms after a reset; then every register has its reset value but for the settings that the data sheet asks for, interrupts are masked and rate limits cleared; the PCI device is checked and its address taken from its base address registers. Set-up succeeds with every device that works, and stays within the mapped registers. A device with pending transactions is not reset. Promiscuous mode changes nothing else, and the address read is that of the device.", "quantifier": "for every device, reset value, old contents and behaviour within the data sheet", "why_tests_cant": "There are 128 KB of registers, most settings show only under load, and hangs of devices cannot be provoked.", "anchors": ["env/src/net/tinynf/ixgbe.c:tn_device_init", "env/src/net/tinynf/ixgbe.c:tn_device_set_promiscuous", "env/src/net/tinynf/ixgbe.c:tn_device_get_mac", "env/include/os/pci.h:os_pci_read"]}
{"id": "C62", "title": "The network functions keep the specifications shipped with them", "statement": "Whatever packets a network function handled before, what it sends for a packet and the state it leaves keep the assertions of its spec.py, read as the tool's specification library defines them and with each specification map being the data structure it is meant for. This holds for the firewall (both specifications), NAT, load balancer, policer, no-op, bridge and router.", "quantifier": "for every configuration, history of packets and packet", "why_tests_cant": "A test checks some packets in some states; the specifications are assertions about all states, and the tool checks them against its own descriptions of the data structures instead of their code.", "anchors": ["nf/firewall/spec.py", "nf/nat/spec.py", "nf/maglev/spec.py", "nf/policer/spec.py", "nf/nop/spec.py", "nf/bridge/spec.py", "nf/router/spec.py", "tool/klint/verif/spec_prefix.py", "tool/klint/verif/spec_utils.py"]}
{"id": "C63", "title": "The DHCP server leases each address to one client at a time", "statement": "Initialization never writes outside the arrays and succeeds exactly with a complete configuration, such as the one shipped; the addresses to give out are different host addresses of the subnet, without those of the server, gateway and name server. While a lease lasts, its address is not given to another client, the client is offered it again and its request is confirmed, while a request for another address is denied; a client is refused only if all addresses are leased. Replies are marked as such and carry the configured values as clients read them. The server recognises the messages that clients send, answers them, and reads only bytes of the packet.", "quantifier": "for every configuration, sequence of messages, memory and packet", "why_tests_cant": "Leases expire after a day; underflow of the count of addresses needs unusual masks; and what the code does with bytes of the packet used as a pointer depends on the rest of the memory.", "anchors": ["nf/dhcp_ipv4/dhcp.c:nf_init", "nf/dhcp_ipv4/dhcp.c:try_create_dhcp_discover_message", "nf/dhcp_ipv4/dhcp.c:is_dhcp_request_message_accepted", "nf/dhcp_ipv4/dhcp.c:nf_handle", "nf/dhcp_ipv4/dhcp.h:net_get_dhcp_header", "nf/dhcp_ipv4/config"]}
{"id": "C64", "title": "The policer written in Rust does what the one written in C does", "statement": "Given the same configuration table, number of devices and packets, the Rust policer as its Makefile builds it and the C policer start or refuse to start together, and for each packet emit the same packets on the same devices; this includes what wraps around. The Rust structures have the C layout. Built with overflow checks it does not panic where the other works.", "quantifier": "for every configuration table, number of devices and sequence of packets", "why_tests_cant": "Whether two programs agree on all inputs cannot be tested; differences can hide in overflow, rarely used configurations and states reached after long histories.", "anchors": ["nf/rust-policer/src/lib.rs:nf_init", "nf/rust-policer/src/lib.rs:nf_handle", "nf/rust-policer/src/defs.rs", "nf/rust-policer/Cargo.toml", "nf/policer/policer.c:nf_init", "nf/policer/policer.c:nf_handle", "env/include/net/skeleton.h:os_config_get_device"]}
{"id": "C65", "title": "The lemmas of the proof library are true", "statement": "Every lemma that arith.gh, modulo.gh, mod-pow2.gh, bitopsutils.gh and ghost_map.gh state holds for all its arguments that meet its requires clause, with C's division that rounds towards zero; so the VeriFast proofs that use them, of the hash map, the index pool and the allocator, cannot rest on a contradiction.", "quantifier": "for all integers, lists of bits, maps, keys, values and predicates", "why_tests_cant": "The lemmas are never executed: they exist only in annotations, and a false one makes every proof that uses it worthless without any test failing.", "anchors": ["env/include/proof/ghost_map.gh", "env/include/proof/modulo.gh", "env/include/proof/mod-pow2.gh", "env/include/proof/bitopsutils.gh", "env/include/proof/arith.gh"]}
{"id": "C66", "title": "Verification of whole programs explores every packet on every device", "statement": "execute_nf executes the program's initialization on all paths; paths on which initialization halts are allowed to end there; for each index below the number of devices that initialization hands to foreach_index_forever, a packet is received on that device and all paths of the handling function are followed, until inference finds a fixed point; the states returned are exactly the ends of those paths, and a path that halts while handling is an error.", "quantifier": "for every program, as a tree of what it may do, every result of inference and every number of iterations", "why_tests_cant": "Programs have unboundedly many paths, and an exploration that leaves some out looks the same as one that is complete; that no program at all can be verified does not show in tests of the other mode.", "anchors": ["tool/klint/executor.py:execute_nf", "tool/klint/executor.py:find_fixedpoint_states", "tool/kalm/executor.py:run_state", "tool/kalm/engine.py:KalmEngine.process_successors", "tool/klint/externals/verif/verif.py:foreach_index_forever", "tool/klint/externals/os/pci.py:get_device", "tool/klint/fullstack/device.py:spec_device_create_default", "tool/klint/fullstack/device.py:receive_packet_on_device"]}
{"id": "C67", "title": "The description of the network card admits the driver and stops wrong drivers", "statement": "With the registers of spec_reg.py and the actions of spec_act.py, the tool accepts every access that the driver makes to a device: its set-up, the agents that send to it and receive from it, and the announcements of packets. Drivers that break a rule of the card's manual that the description covers are refused: a tail written for a queue that is not enabled, filters changed while receiving, a field changed that no action names. Every action and condition names a field that exists.", "quantifier": "for all path constraints that can be met, all memory addresses, all numbers of devices, all sequences of agents and announcements, and all values of the registers at reset", "why_tests_cant": "Registers and path constraints are symbolic, so a run covers infinitely many devices; and an action that never matches, or one that matches too much, shows only for the driver that needs it.", "anchors": ["tool/klint/fullstack/spec_reg.py", "tool/klint/fullstack/spec_act.py", "tool/klint/fullstack/device.py", "tool/klint/fullstack/reg_util.py", "env/src/net/tinynf/ixgbe.c"]}
{"id": "C68", "title": "What stands for the operating system during initialization admits what it does", "statement": "The functions that replace os_memory_alloc, os_config_try_get, os_pci_enumerate, os_memory_phys_to_virt and os_memory_virt_to_phys in the tool admit every result of the real ones: each block of the allocator is at an address that the tool considers, with the contents it considers, and is asked for only as the contract allows; whatever the configuration, there is a path with its answers, and equal names give equal values; every array of PCI addresses is considered, an access to a device's configuration reaches that device and no other, and the driver finds the registers of the device whose BARs it reads; physical addresses are those of the operating system.", "quantifier": "for every history of the allocator, configuration, sequence of names, pair of PCI addresses, state of the ports, set of devices, page map and path constraint", "why_tests_cant": "A result that the tool leaves out is a case that it never looks at, which shows in no test of the tool; the differences are at the end of the address space, for one size of object, or with other numbers of devices.", "anchors": ["tool/klint/externals/os/memory.py:os_memory_alloc", "tool/klint/externals/os/memory.py:os_memory_phys_to_virt", "tool/klint/externals/os/memory.py:os_memory_virt_to_phys", "tool/klint/externals/os/config.py:os_config_try_get", "tool/klint/externals/os/pci.py:get_device", "tool/klint/externals/os/pci.py:os_pci_enumerate", "tool/klint/heap.py:HeapPlugin.allocate", "env/src/os/pci.c:os_pci_enumerate", "env/src/os/linux/memory.c:os_memory_virt_to_phys", "env/src/os/metal/memory.c:os_memory_virt_to_phys", "env/src/os/dpdk/memory.c:os_memory_alloc"]}
{"id": "C69", "title": "The code that starts without an operating system does what it claims", "statement": "Under the assumptions that boot.asm states, its code halts, faults or calls _start; and when it calls _start, the processor supports all features that the file lists, runs in 64-bit mode with a code segment of level 0 and null selectors otherwise, maps exactly the first 4 GiB to themselves with all permissions, has SSE and AVX enabled, a stack pointer at the aligned end of 1 MiB of memory, and no table of interrupt handlers. It halts only if a feature is missing.", "quantifier": "for all processors that describe themselves truly, all contents of registers at the start that the assumptions allow, and all places of the program in the lower 4 GiB", "why_tests_cant": "A machine lacks few of the features at once, and the states in which boot loaders leave the registers are not enumerable; a wrong bit shows as a machine that resets.", "anchors": ["env/src/os/metal/boot.asm", "env/src/os/metal/linker.ld", "env/src/os/metal/multiboot1_header.asm", "env/src/os/metal/multiboot2_header.asm"]}
{"id": "C70", "title": "NF verified means that the specification holds after every packet of the program given", "statement": "If the tool prints \"NF verified!\", then the specification was checked, without finding a violation, on every state in which the program that is in the given file can be after handling a packet, for every number of packets before it; symbols that are made while checking are different from those of the execution; and the tool ends with an error if it does not print this for a specification.", "quantifier": "for every program, specification, history of files and runs of the tool, and history of packets", "why_tests_cant": "The tool is tested on programs that should be verified; what it prints for stale results, for other commands, or for executions with more symbols than any test has is not visible there.", "anchors": ["tool/klint/__main__.py:handle_libnf", "tool/klint/__main__.py:handle_fullstack", "tool/klint/__main__.py:verif", "tool/klint/executor.py:get_libnf_inited_states", "tool/klint/executor.py:execute_libnf", "tool/klint/executor.py:find_fixedpoint_states", "tool/klint/verif/persistence.py:dump_data", "tool/klint/verif/persistence.py:load_data", "tool/klint/verif/executor.py:verify"]}
{"id": "C71", "title": "The network functions obey their specifications on the code of their data structures", "statement": "Run on the code of map.c, index_pool.c and cht.c, with keys that are bytes in memory which the code hashes and compares, the firewall, the NAT, the policer, the bridge and the load balancer access nothing out of bounds, keep every contract of the data structures, write only to their keys, the packet and their local variable, and send what their specifications (C42, C43, C45, C46, C47) prescribe. Two packets have the same bytes as key exactly if their flows are the same.", "quantifier": "for all places in memory that do not overlap, contents of the memory before, configurations within the stated bounds, and sequences of packets", "why_tests_cant": "The specifications speak of sets of flows; that bytes, hashes and collisions, chain counters and reused cells implement them depends on histories of insertions and expirations that tests do not reach.", "anchors": ["nf/firewall/firewall.c:nf_handle", "nf/firewall/flow_table.h:flow_table_learn_internal", "nf/nat/nat.c:nf_handle", "nf/nat/flow_table.h:flow_table_get_internal", "nf/policer/policer.c:nf_handle", "nf/bridge/bridge.c:nf_handle", "nf/maglev/balancer.h:balancer_get_backend", "env/src/structs/map.c:map_set", "env/src/structs/index_pool.c:index_pool_borrow", "env/include/os/memory.h:os_memory_hash"]}
{"id": "C72", "title": "The whole program: cards, driver, agents, runtime and network function together", "statement": "With any number of devices, one agent for each that takes its turn until no packet is left, one network function and one clock, whatever the cards do at any time: the network function handles some sequence of packets, at times that do not decrease; those of each device are the first ones received there, in order; and each other device has sent exactly the first ones that the network function asked for, in order, with the contents and lengths it asked for. Nothing is lost: an agent that waits has handled all packets, an empty queue has sent all, and when no packet arrives any more all agents come to wait. So every specification of nf_handle carries over to the packets on the wire: in particular the firewall sends to the internal network only packets received from the external one whose reversed flow was received from the internal one.", "quantifier": "for all numbers of devices, network functions, interleavings of processor, cards and clock, packets and contents of memory; for the firewall, NAT, policer, bridge and load balancer on the code of their data structures", "why_tests_cant": "Which packets interleave how with the turns of the agents and the accesses of the cards cannot be controlled in a test; a mix-up of agents, outputs or buffers shows only for some of them.", "anchors": ["env/src/net/tinynf/main.c:tinynf_packet_handler", "env/src/net/tinynf/main.c:net_transmit", "env/src/net/tinynf/main.c:net_flood", "env/src/net/tinynf/main.c:net_flood_except", "env/src/net/tinynf/ixgbe.c:tn_run", "env/src/net/tinynf/ixgbe.c:tn_run_peragent", "env/src/verif/drivers.c:foreach_index_forever", "nf/firewall/firewall.c:nf_handle"]}
{"id": "C73", "title": "Networks of bridges: frames arrive once, and die out", "statement": "Machines that run the bridge are connected by wires, with hosts on the other devices. (1) Whatever the wires, the spanning tree that the bridges agree on keeps frames from going round in circles, so that all frames die out. (2) A frame that a host hands in is handled at most once by every bridge and leaves at most once at every device. (3) If hosts do not move and use addresses of their own, the device recorded for an address leads to that host. (4) When nothing is under way any more, a frame has reached its destination unmodified; a frame for a group has reached all hosts. No bridge ever accesses memory out of bounds.", "quantifier": "for all networks (numbers of bridges and devices, wires, configurations, addresses), all frames handed in by hosts, and all interleavings and times at which the bridges handle them", "why_tests_cant": "Claims about whole networks: every network is a different program to test, and what goes wrong depends on loops, on the order in which bridges learn and on when messages are due.", "anchors": ["nf/bridge/bridge.c:nf_handle", "nf/bridge/spanning_tree.h:stp_handle", "nf/bridge/spanning_tree.h:stp_init", "nf/bridge/bridge.c:nf_init", "env/src/net/tinynf/main.c:handle_flags", "env/src/net/tinynf/main.c:net_flood", "env/src/net/tinynf/main.c:net_flood_except", "env/src/net/tinynf/main.c:main"]}
{"id": "C74", "title": "Memory accesses that the symbolic execution accepts are in bounds and act on the memory of the machine", "statement": "If the symbolic execution accepts a load or a store, then under every assignment of the symbols that satisfies the constraints the bytes accessed are within one allocated object, or the address is a constant one of the program's own memory. Loads return what the memory of the machine contains, and after a store the objects and the rest of the memory contain what the machine's memory does: nothing else changes, in this or another object.", "quantifier": "for all states of the memory with any number of objects, all address expressions, sizes and values, all sequences of loads and stores, and all assignments of the symbols", "why_tests_cant": "Addresses are expressions, and one run of the symbolic execution stands for all assignments; a wrong object, element or offset for one form of address makes the verification of every program unsound, without any sign of it.", "anchors": ["tool/kalm/memory/objects.py:ObjectsMemoryMixin.load", "tool/kalm/memory/objects.py:ObjectsMemoryMixin.store", "tool/kalm/memory/objects.py:ObjectsMemoryMixin.set_special_object", "tool/kalm/utils.py:base_index_offset", "tool/klint/heap.py:HeapPlugin.allocate", "tool/klint/heap.py:HeapPlugin._read", "tool/klint/heap.py:HeapPlugin._write", "tool/klint/externals/net/packet.py:alloc", "tool/kalm/executor.py:create_blank_state"]}
{"id": "C75", "title": "What the verifier takes for possible of ghost maps is possible of ordinary maps", "statement": "Take a program that reads and updates ghost maps and asks for their lengths, and any assignment of the symbols that satisfies the constraints collected in its run. (1) There are ordinary maps that satisfy the invariants and have the assumed lengths, on which the program's reads return the same values and presences, its lengths are the numbers of keys, and the conditions of its branches hold: the verifier follows no path because of contents that no map can have. (2) If `forall` was true, every present key read before it of the same version and every one read after it satisfies the predicate, as long as updates respect it; and a later `forall` with a weaker predicate is true. (3) The results of several `forall` are possible together.", "quantifier": "for all programs of reads, updates, lengths and branches, with keys and values that depend on what was read, all new maps, all predicates that read no map, and all assignments that satisfy the constraints", "why_tests_cant": "The repository's tests (tool/tests/test.py) check this for about sixty short sequences by asking a solver; the claim is about every sequence and every assignment, and the contents that make an assignment possible must be constructed.", "anchors": ["tool/klint/ghostmaps.py:Map.get", "tool/klint/ghostmaps.py:Map.set", "tool/klint/ghostmaps.py:Map.remove", "tool/klint/ghostmaps.py:Map.forall", "tool/klint/ghostmaps.py:Map.is_not_overfull", "tool/klint/ghostmaps.py:Map.new", "tool/klint/ghostmaps.py:Map.new_array"]}
{"id": "C76", "title": "Guessed relations between maps fit the items they are guessed from", "statement": "To find invariants that relate maps, the verifier guesses functions from the items of one map to keys and values of another (the same, a replacement within an expression, a part of a concatenation, an index computed back from an address, a constant) and conditions under which to try them. (1) It guesses from set items that are surely in the map, with surely different keys, and from all of these. (2) A function that it finds matches these items of the one map one to one with those of the other, in every explored state, and gives the key (or value) of the match under every assignment; from one item of each map it finds a function in all of these cases. (3) So every guessed relation is true of the items it was guessed from. (4) Every constant that is the value of such an item is tried as a condition.", "quantifier": "for all states and maps in them, all items with any expressions as keys and values, all constraints, and all orders in which Python goes through sets", "why_tests_cant": "The guesses depend on the form of expressions, on what follows from constraints and on the order of sets, which changes from run to run; a wrong guess is rejected by a later check without notice, so that only a proof of a function fails for an unrelated reason.", "anchors": ["tool/klint/ghostmaps.py:get_items_invariants", "tool/klint/ghostmaps.py:find_f", "tool/klint/ghostmaps.py:find_fps", "tool/klint/ghostmaps.py:filter_present", "tool/klint/ghostmaps.py:candidate_finder_various", "tool/klint/ghostmaps.py:candidate_finder_constant"]}
{"id": "C77", "title": "The lemmas on hash chains and lists that the proofs of the data structures use are true", "statement": "The proofs of the map, the index pool and the memory allocation that VeriFast checks use 35 lemmas on hash chains and 30 on lists. Each lemma states something true of the functions on lists that it speaks of, so that nothing false can be concluded from it: on which keys and counters a table of hash chains has in its slots, which chains cross a slot, how these change when a key is put or removed, that tables stay well-formed, and on taking, dropping, updating and repeating elements.", "quantifier": "for all types of keys and elements, all lists and tables of any length, all (also negative) indices and all predicates that meet the requirements of the lemma", "why_tests_cant": "Lemmas are never executed; VeriFast accepts a lemma without a proof, or one whose recursion it does not see to be unfounded, and the statement can be false in a corner that no proof of a data structure happens to reach.", "anchors": ["env/include/proof/chain-buckets.gh:buckets_put_still_ok", "env/include/proof/chain-buckets.gh:buckets_remove_key_still_ok", "env/include/proof/chain-buckets.gh:buckets_get_chns", "env/include/proof/chain-buckets.gh:crossing_chains_keep_key", "env/include/proof/chain-buckets.gh:remove_one_cell_from_partial_chain", "env/include/proof/listexex.gh:update_id", "env/include/proof/nth-prop.gh:by_loop_for_all", "env/include/proof/stdex.gh:repeat_n_contents", "env/src/structs/map.c:map_get"]}
{"id": "C78", "title": "What the annotations of the map state holds of its code", "statement": "The annotations in map.c state a predicate of a map in memory (`mapp`: the arrays of addresses, hashes, counters and values, the keys that are in memory at these addresses, and a table of hash chains that the counters are computed from), contracts of the four operations in terms of it, and an invariant for each of their loops. They hold of the C code: alloc establishes the predicate of the empty map; get returns what the contract says and set and remove establish the predicate of the changed map, in all states with the predicate and the required arguments; the predicate therefore holds after every legal history; and each loop's invariant holds on entry, is preserved by each iteration that does not return, gives the contract's result in each one that does, and excludes or decides what comes after the loop.", "quantifier": "for all hash functions on the bytes of a key, all memory contents, key sizes and capacities, all maps with the predicate (not only those reached from alloc), all arguments that meet the requirements, and all loop states with the invariant", "why_tests_cant": "The predicate quantifies over a ghost table that does not exist at run time, and maps that satisfy it are far more than those a test can build; that an invariant is preserved speaks of loop states that no execution needs to reach.", "anchors": ["env/src/structs/map.c:mapp", "env/src/structs/map.c:mapp_core", "env/src/structs/map.c:buckets_keys_insync", "env/src/structs/map.c:buckets_keys_insync_Xchain", "env/src/structs/map.c:map_alloc", "env/src/structs/map.c:map_get", "env/src/structs/map.c:map_set", "env/src/structs/map.c:map_remove"]}
{"id": "C79", "title": "What the annotations of the index pool and the memory allocator state holds of their code", "statement": "The annotations in index_pool.c state a predicate of a pool in memory (`poolp`: the timestamps, and that an index is in the ghost map exactly if its timestamp is not TIME_MAX, with that timestamp), contracts of the five operations, an invariant for each of the three loops and lemmas. They hold of the C code: alloc establishes the predicate of the empty pool; borrow, refresh, used and return do what the contracts say in all states with the predicate; the predicate therefore holds after every legal history; each invariant holds on entry, is preserved by each iteration that does not return, gives the contract's result in each one that does, and both together give it at the end of borrow. The annotations in memory_alloc.c assume, without proof and at each call of os_memory_alloc, that the memory is at an address other than NULL, does not reach the end of the address space and is zero where it was not handed out yet. With the assumption the contract holds; and it holds at each call.", "quantifier": "for all sizes, expiration times, pools with the predicate (not only those reached from alloc), times, indices and loop states with the invariant; for the allocator, for all counts, sizes, memory contents and histories of requests and writes to blocks that were given", "why_tests_cant": "Invariants speak of loop states that no execution needs to reach. An assumption is not checked by the verifier at all, and not visible in tests until it fails.", "anchors": ["env/src/structs/index_pool.c:poolp", "env/src/structs/index_pool.c:poolp_truths", "env/src/structs/index_pool.c:index_pool_alloc", "env/src/structs/index_pool.c:index_pool_borrow", "env/src/structs/index_pool.c:index_pool_refresh", "env/src/structs/index_pool.c:index_pool_used", "env/src/structs/index_pool.c:index_pool_return", "env/src/structs/index_pool.c:pool_items_young_forall_to_ghostmap", "env/src/os/memory_alloc.c:produce_memory_assumptions", "env/src/os/memory_alloc.c:os_memory_alloc"]}
{"id": "C80", "title": "The bridge follows the best path to a root that was announced to it", "statement": "The root, cost and root port of a bridge are at all times the smallest, in the order root, cost, port, among its own identifier with cost and port 0 and what the spanning tree messages that it read offered (the announced root, the announced cost plus 10, and the port of the message). A message is passed on if and only if it improves this, and then it announces the new root and cost and the bridge's identifier; so no path is passed on twice. A message with a worse root blocks its port and is not passed on. When an announcement is due, the frame that is being handled is turned into one of the current root and cost. All other frames with the spanning tree address are dropped, and frames without it are left to forwarding. The port to the root is enabled.", "quantifier": "for all frame sequences, identifiers, numbers of ports and announcement intervals", "why_tests_cant": "The state depends on the whole history of messages, with ties in each of the three components.", "anchors": ["nf/bridge/spanning_tree.h:stp_init", "nf/bridge/spanning_tree.h:stp_handle", "nf/bridge/bridge.c:nf_handle"]}
{"id": "C81", "title": "Every platform finds the frequency of the time stamp counter", "statement": "Initialization finds a numerator and a denominator with which os_clock_time_ns shows the time that has passed, rounded down by less than the denominator, whatever the frequency: on DPDK from the frequency in hertz, ending in panic only if that is not known; on Linux and bare metal from the ratio in bits 15 to 8 of MSR 0xCE, whatever the other bits are. In the tool, the emulated RDMSR gives exactly the frequency that the constraint on the symbolic clock is about, and refuses other registers.", "quantifier": "for all frequencies, MSR values, counter values and choices of registers by the compiler", "why_tests_cant": "Each machine has one frequency and one compiler; wrong clocks are only slightly wrong.", "anchors": ["env/src/os/dpdk/init.c:os_init", "env/src/os/linux/init.c:linux_msr_read", "env/src/os/metal/init.c:os_init", "env/include/arch/tsc.h:tsc_get_nhz", "env/include/arch/msr.h:msr_read", "tool/kalm/pyvex/rdmsr.py:amd64g_rdmsr"]}
{"id": "C82", "title": "Allocation on DPDK meets the contract of os_memory_alloc", "statement": "On DPDK, os_memory_alloc asks DPDK for an alignment that it accepts, and returns a block, never NULL, that lies in the address space and is aligned to the items' size rounded up past a cache line, as its contract says.", "quantifier": "for every rte_calloc that is as documented, and every count and size whose product fits in 63 bits", "why_tests_cant": "Most blocks happen to be aligned, and memory rarely runs out.", "anchors": ["env/src/os/dpdk/memory.c:os_memory_alloc", "env/include/os/memory.h:os_memory_alloc"]}
{"id": "C83", "title": "The DHCP server obeys its specification on the code of its data structures", "statement": "On the code of the map and the index pool, with the clients' addresses as bytes in the same memory as the messages, the server never accesses its arrays out of bounds, its leases are as C63 says (one client per address, the same address again while the lease lasts, refusals only when all are leased), and a reply changes only the bytes of the message that make up the reply and the entry of a new client.", "quantifier": "for all configurations with 3 to 32 host bits, all places of the array of clients, all sequences of messages and all other changes of the memory between them", "why_tests_cant": "Hash collisions, reuse of entries and pointers into the table depend on the history and on addresses that tests do not control.", "anchors": ["nf/dhcp_ipv4/dhcp.c:nf_init", "nf/dhcp_ipv4/dhcp.c:try_create_dhcp_discover_message", "nf/dhcp_ipv4/dhcp.c:is_dhcp_request_message_accepted", "nf/dhcp_ipv4/dhcp.h:net_dhcp_header"]}
{"id": "C84", "title": "The programs with DPDK do what their network functions must", "statement": "With the runtime for DPDK, the code of the data structures and the code of the network function together, no array is accessed out of bounds; the packets received, in the order received, and the packets sent are those of a run of the network function's specification (C42, C43, C45, C46, C47): each device sends, in order and with the addresses where asked, exactly what was asked of it but for what its card does not take. In particular, the firewall sends to the inside only packets that were received outside and are of the reverse of a flow that was received inside. Every packet that arrives is handled, also after any number of others; and packets leave with the length that the network function gives them.", "quantifier": "for all configurations, batch sizes, numbers of buffers, addresses of devices, sequences of received batches, clock values that do not decrease, numbers of packets that cards take and times at which they finish", "why_tests_cant": "What happens depends on how packets fall into batches, on which buffers are reused when, and on the history of the tables.", "anchors": ["env/src/net/dpdk/main.c:main", "env/src/net/dpdk/main.c:handle_flags", "env/src/net/dpdk/main.c:net_transmit", "env/src/net/dpdk/main.c:net_flood", "env/src/net/dpdk/main.c:net_flood_except", "nf/firewall/firewall.c:nf_handle", "nf/nat/nat.c:nf_handle", "nf/policer/policer.c:nf_handle", "nf/bridge/bridge.c:nf_handle", "nf/maglev/maglev.c:nf_handle"]}
{"id": "C85", "title": "The benchmark measures the throughput, and the network functions let its packets through", "statement": "For a network function that handles packets up to some rate, the benchmark writes that rate, up to an error of 20 Mb/s per direction (and the maximum if it is above it). Its latency measurements go in steps of at most 500 Mb/s from none to within 100 Mb/s of that rate, with background traffic below it. The heatup sends a batch of every flow, in order; packets of one direction are of the reverse flows of the other, and flows with different numbers differ. Hence the firewall lets all packets of the benchmark through, and the address translator translates them all, packets of the second direction to the flow with their number, if they expire no flow in the time that a pass over the flows takes.", "quantifier": "for all rates at which the network function may lose packets, all numbers of flows up to 65536, layers, expiration times, table sizes and traces of the benchmark in the order of their times", "why_tests_cant": "Each run measures one network function on one machine for several minutes; whether the search is right at other rates, and whether packets are lost because of the benchmark itself, is not observable.", "anchors": ["benchmarking/bench-moongen.lua:measureStandard", "benchmarking/bench-moongen.lua:moongenRate", "benchmarking/bench-moongen.lua:_throughputTask", "benchmarking/bench-moongen.lua:heatUp", "benchmarking/bench-moongen.lua:packetConfigs", "benchmarking/bench-moongen.lua:packetInits", "nf/firewall/firewall.c:nf_handle", "nf/nat/nat.c:nf_handle"]}
{"id": "C86", "title": "The other network functions let the packets of the benchmark through", "statement": "The benchmark measures the throughput exactly if its heatup loses at most 1% of the packets, however many the heatup in reverse loses. With cables crossed or not, packets of direction 0 arrive at device 0, and with the option for Maglev at device 1. The network function that does nothing sends every packet of the benchmark to the other device; the bridge does at layer 2, whatever the size of its table, and unmodified until its update time; the policer does if those from the WAN have less bytes than a burst; and the load balancer, with the option, sends all packets of direction 0 to its backend, if each follows one of direction 1 within the expiration time of backends; without the option the benchmark ends with an error. With the configuration of the policer the benchmark uses a single bucket. Addresses of one direction with the most significant byte first, or odd numbers with the least significant first, are group addresses: the bridge floods the packets to them.", "quantifier": "for all numbers of flows, table sizes, expiration times, rates, bursts, layers, cables, hash functions and traces of the benchmark in the order of their times", "why_tests_cant": "A run of the benchmark shows one throughput for one trace; that no packet is lost to the tables of the network function, or which of its cases are measured, is not observable.", "anchors": ["benchmarking/bench-moongen.lua:heatUp", "benchmarking/bench-moongen.lua:measureStandard", "benchmarking/bench-moongen.lua:master", "benchmarking/bench-moongen.lua:packetConfigs", "nf/nop/nop.c:nf_handle", "nf/bridge/bridge.c:nf_handle", "nf/policer/policer.c:nf_handle", "nf/maglev/maglev.c:nf_handle"]}
{"id": "C87", "title": "The scripts of the benchmark bind exactly the given devices", "statement": "bind-devices-to-uio.sh ensures that the devices given, and only those, are bound to a driver for user-space input and output; it touches no device for which this is so already, and others keep their drivers. unbind-devices.sh ensures that the devices given, and only those, are not bound to any driver. Devices of domain 0 may be given with or without the domain.", "quantifier": "for all machines with any number of devices in any order, their drivers, the lines that lspci prints of them, and arguments", "why_tests_cant": "The scripts work on the text that lspci prints of the one machine they run on; what they do with other devices, and with devices that print fewer lines, is not seen there.", "anchors": ["benchmarking/bind-devices-to-uio.sh", "benchmarking/unbind-devices.sh"]}
{"id": "C88", "title": "The loop that looks for invariants ends", "statement": "Whatever the states that exploring a packet gives, the loop that explores, infers invariants and starts again from weaker ones reaches an iteration in which nothing changes, and returns its states.", "quantifier": "for all initial states, sets of maps and functions that explore a packet, over all numbers of iterations", "why_tests_cant": "A test shows that the loop ends for one network function; a loop that goes on cannot be told from a slow one by running it.", "anchors": ["tool/klint/executor.py:find_fixedpoint_states", "tool/klint/ghostmaps.py:infer_invariants", "tool/klint/ghostmaps.py:flatten_items", "tool/klint/ghostmaps.py:find_constraints"]}
{"id": "C89", "title": "The program of a benchmark has exactly the devices given", "statement": "The configuration that Makefile.benchmarking writes from the PCI addresses of the devices under test compiles to an array with exactly these devices, in the same order. As in the scripts that bind them, they may be given with or without the domain.", "quantifier": "for all nonempty lists of PCI addresses of any bus, device and function", "why_tests_cant": "The text goes through tr, awk and the C preprocessor; one test shows it for the addresses of one machine.", "anchors": ["env/Makefile.benchmarking:build", "env/src/os/pci.c:addresses", "env/Makefile"]}
{"id": "C90", "title": "A run of the benchmark runs the scripts beside it, ends with its results only, and stops what it started", "statement": "bench.sh ends with status 0 only if every command succeeded and the network function was seen, and it does if they do. The other machine runs the scripts that are beside bench.sh, with the version of MoonGen that it checks out. After a run that ends well the folder of results has exactly the results of this run. However it ends, be it because of Ctrl+C, the network function does not run any more. It changes no files but its own results and logs.", "quantifier": "for all files of both machines, folders and outcomes of the commands, times at which the network function starts and at which the user presses Ctrl+C", "why_tests_cant": "A benchmark needs two machines and several minutes; what happens when a command fails, or with the files of earlier runs, is not seen when it succeeds, and wrong results look like results.", "anchors": ["benchmarking/bench.sh", "benchmarking/bench-tester.sh", "Makefile"]}
{"id": "C91", "title": "The lemmas on lists as sets and multisets are true", "statement": "Every one of the 95 lemmas that set.gh, multiset.gh and multisubset.gh state holds for all its arguments that meet its requires clause: on inclusion, equality and disjointness of lists regardless of order, with and without counting repetitions, under appending, removing, mapping and filtering. So the proofs on hash chains, which stdex.gh gives them to, cannot rest on a contradiction.", "quantifier": "for all types of elements, all lists of any length, all (also negative) indices, and all functions and predicates that meet the requirements of the lemma", "why_tests_cant": "Lemmas are never executed: they exist only in annotations; VeriFast accepts a lemma without a body, and a statement can be false at an empty list, a repeated element or a negative index that no proof happens to reach.", "anchors": ["env/include/proof/set.gh:set_eq", "env/include/proof/set.gh:distinct_shorter_than_nondistinct", "env/include/proof/multiset.gh:multiset_eq", "env/include/proof/multiset.gh:multiset_eq_trans", "env/include/proof/multisubset.gh:msubset", "env/include/proof/multisubset.gh:msubset_trans"]}
{"id": "C92", "title": "The lemmas on the elements of lists are true", "statement": "Every one of the 90 lemmas that listexex.gh states, of which C77 has only those that the C files use, holds for all its arguments that meet its requires clause: on elements by position and taking, dropping, updating, reversing, filtering, mapping and removing them, also with positions that are negative or past the end, and on lists without repeated or common elements.", "quantifier": "for all types of elements, all lists of any length, all (also negative) indices, and all functions and predicates that meet the requirements of the lemma", "why_tests_cant": "Lemmas are never executed: they exist only in annotations; VeriFast accepts a lemma without a body, and a statement can be false at an empty list, a repeated element or a negative index that no proof happens to reach.", "anchors": ["env/include/proof/listexex.gh:update_remove", "env/include/proof/listexex.gh:nth_remove", "env/include/proof/listexex.gh:forall_upto", "env/include/proof/listexex.gh:disjoint", "env/include/proof/listexex.gh:unique_map_identical_elems"]}
{"id": "C93", "title": "The lemmas on parts of lists and numbered lists are true", "statement": "Every one of the 62 lemmas that listutils-lemmas.gh and the 4 that natlist.gh state holds for all its arguments that meet its requires clause: on the positions at which a predicate holds, the number of copies of an integer, parts of a list between two positions, cutting a list into parts of one size of which only the beginning is kept, lists of consecutive integers, pairing the elements of two lists, and numbers below a limit.", "quantifier": "for all types of elements, all lists of any length, all (also negative) indices, and all functions and predicates that meet the requirements of the lemma", "why_tests_cant": "Lemmas are never executed: they exist only in annotations; VeriFast accepts a lemma without a body, and a statement can be false at an empty list, a repeated element or a negative index that no proof happens to reach.", "anchors": ["env/include/proof/listutils.gh:filter_idx", "env/include/proof/listutils.gh:split_varlim", "env/include/proof/listutils-lemmas.gh:split_varlim_update_unrelevant", "env/include/proof/listutils-lemmas.gh:filter_idx_take", "env/include/proof/listutils-lemmas.gh:integers_list_subset", "env/include/proof/natlist.gh:nat_lt_distinct_few"]}
{"id": "C94", "title": "The other lemmas of the standard library of the proofs are true", "statement": "Every lemma of stdex.gh and nth-prop.gh that no C file uses directly (so that C77 does not speak of it) holds for all its arguments that meet its requires clause: on predicates of pairs of elements and of elements with their positions, on bounds of elements, and on properties of all elements up to an index, also of a list that is read around its end.", "quantifier": "for all types of elements, all lists of any length, all (also negative) indices, and all functions and predicates that meet the requirements of the lemma", "why_tests_cant": "Lemmas are never executed: they exist only in annotations; VeriFast accepts a lemma without a body, and a statement can be false at an empty list, a repeated element or a negative index that no proof happens to reach.", "anchors": ["env/include/proof/stdex.gh:forall2_update", "env/include/proof/stdex.gh:extract_prop_by_idx", "env/include/proof/stdex.gh:lower_and_upper_limit_complement", "env/include/proof/nth-prop.gh:break_down_up_to_by_loop", "env/include/proof/nth-prop.gh:shift_for_append"]}
{"id": "C95", "title": "The graph of an exploration shows the paths that were explored", "statement": "The graph that the exploration records has no cycle, and every state is reached in it from the initial state. Of a fork in two, the edge to one state has the first constraint that the other does not have, and the other none, and a constraint is shown rather than its negation; of a fork in more, each edge has the state's own constraint at the first place where not all are the same. Drawing the graph leaves nodes without labels out: each edge that is drawn stands for one or two recorded ones, every node that is drawn is reached from the initial state, and the nodes with a double border are the ends of paths.", "quantifier": "for all sequences of steps, forks into any number of states, returns and merges of any number of states that the exploration can make, all lists of constraints, labels and times", "why_tests_cant": "The graph depends on the whole history of the exploration: which nodes are left out depends on how often each number occurs in the edges recorded before and after; the drawing is looked at by people and has no tests.", "anchors": ["tool/kalm/merging.py:record_step", "tool/kalm/merging.py:record_merge", "tool/kalm/merging.py:graph_as_dot", "tool/kalm/plugins/marker.py:increment_id"]}
{"id": "C96", "title": "The statistics of a run are the sums of its phases, each under its name", "statement": "The time that is printed for a kind of work is the sum of the durations of all its phases, truncated to whole seconds; work that begins inside other work, or ends when there is none, is an error, whatever happened before. The names that are printed are those recorded, each once and in order, and each value is under its name. A run that executes and verifies prints the number of invariants and the times of inference, symbolic execution and verification, for every number of iterations, and so each run prints the same columns.", "quantifier": "for all sequences of calls, names, times (also if the clock goes back) and values, and for runs with any number of iterations, with or without cached results and specification", "why_tests_cant": "Durations differ from run to run, so that a test cannot compare them; a phase left out, counted twice or printed under another name looks like any other number.", "anchors": ["tool/klint/statistics.py:work_start", "tool/klint/statistics.py:work_end", "tool/klint/statistics.py:set_value", "tool/klint/statistics.py:to_tsv", "tool/klint/executor.py:find_fixedpoint_states", "tool/klint/verif/executor.py:verify"]}
{"id": "C97", "title": "Latencies are measured under the load they are reported for", "statement": "Each measurement of a latency, from sending its packet to the end of the wait for it, happens while the background traffic of the rate is sent under whose name it is written. The file of a rate has the latencies of the packets that came back during its round, in the order in which they were sent; a round lasts at least 30 seconds from the end of its first pause, sends no packet after them, and measures at most 30000 packets.", "quantifier": "for all times that the parts of the two tasks can take, all numbers of rates up to those of the highest throughput, and all latencies and losses", "why_tests_cant": "The two tasks have no other synchronization than their pauses, so that errors add up over half an hour and depend on the machine; a measurement under the wrong load looks like any other number.", "anchors": ["benchmarking/bench-moongen.lua:_latencyTask", "benchmarking/bench-moongen.lua:measureStandard", "benchmarking/bench-moongen.lua:dumpLatencies"]}
{"id": "C98", "title": "The scripts that check the proofs and compile everything fail if a part fails", "statement": "verify.sh ends with status 0 exactly if VeriFast verifies all nine sources in the revision that is there, and otherwise with another one; the proofs that it links are those of this revision; what it needs is downloaded if it is not there; and it prints every line of the verified files that has an assumption, with the two lines before it. compile-all ends with status 0 exactly if every network function compiles.", "quantifier": "for all outcomes of VeriFast on all revisions of the sources, all files left by earlier runs, failed downloads, contents of the files that are searched, and outcomes of compiling each network function", "why_tests_cant": "A test of the scripts sees them succeed on sources that are right; that they also succeed on wrong ones shows only when something is broken, which nobody tries.", "anchors": ["env/verify.sh", "Makefile:compile-all"]}
{"id": "C99", "title": "A commit that passes the workflow compiles, builds and verifies, and tags are published", "statement": "The list of network functions of the workflow is the JSON array of the directories in nf/. The workflow passes for exactly the pushes to main and pull requests all of whose network functions compile, build for each pair of operating system and driver that go together, and are verified, with the tests of the tool and the format; and the tool is published exactly when a tag is pushed whose commit passes.", "quantifier": "for all names of directories without spaces, all outcomes of each step for each network function, operating system and driver, and all events that start workflows", "why_tests_cant": "The workflow runs only on GitHub; which events start it and what an excluded combination or a missing dependency of jobs means is not tested anywhere.", "anchors": [".github/workflows/lint-compile-verify-publish.yml"]}
{"id": "C100", "title": "A program starts exactly if what it reads is configured and its memory suffices", "statement": "nf_init of each network function returns false exactly if a value that it reads is missing from the configuration or out of range, or the number of devices is wrong; otherwise it gets the first value of each name, the devices it is given exist, and its tables get blocks of memory that have room for all entries, without a wrap-around of their sizes, and do not overlap, if the memory suffices. With the configuration that is shipped with a network function, and cards that were initialized, the program gets to the point where it receives packets.", "quantifier": "for all configuration tables, numbers of devices, states of the allocator, mappings to physical addresses and registers of the cards", "why_tests_cant": "Programs are only ever started with the shipped configurations and two devices; limits of sizes, missing or repeated values and the memory that a table needs are not tested.", "anchors": ["nf/nop/nop.c:6-9", "nf/bridge/bridge.c:15-37", "nf/firewall/firewall.c:10-24", "nf/nat/nat.c:11-27", "nf/policer/policer.c:21-42", "nf/maglev/maglev.c:12-38", "nf/router/router.c:9-19", "env/include/os/config.h", "env/include/net/skeleton.h:30-38", "env/src/os/memory_alloc.c", "env/src/net/tinynf/main.c:63-97", "nf/*/config"]}
{"id": "C101", "title": "Programs are put together from all their parts, and the tool has models of what they call", "statement": "Wherever the repository lies, every source of a program is compiled into its own object, and the network function is linked as the kind of library that was given. In every program that the makefiles do not refuse, every function and variable that is used is defined, and defined once, and the libraries that are needed are linked. Every function that a network function calls has a model in the phase of the verification in which it is called; of the functions of the split sources that a whole program calls, only os_init and the debug output have none.", "quantifier": "for all directories, all combinations of operating system, network stack, network function, debug output and kind of library", "why_tests_cant": "Which sources are compiled depends on the path of the checkout and on three choices; the workflow builds few combinations, in one directory, and an undefined function shows only when the combination is linked.", "anchors": ["env/Makefile:SPLIT_OBJ", "env/Makefile:NF_DYNAMIC", "env/src/os/dpdk/Makefile:OS_SRCS", "env/src/os/metal/Makefile:OS_SRCS", "env/src/net/dpdk/Makefile:SRCS-y", "nf/Makefile.nf:LIB", "tool/klint/executor.py:libnf_init_externals", "tool/klint/executor.py:nf_init_externals"]}
{"id": "C102", "title": "The label of a fork says which condition it is", "statement": "The text that is written at the edges of the graph for a condition made of numbered symbols with not, and, or can be read by anyone who knows !, &&, || and parentheses, and can only be read as a condition that is true exactly when the condition of the path is; different conditions have different texts. The two ways out of a fork have different labels whatever the condition. The text of any other condition is the one that claripy writes, without its frame.", "quantifier": "for all conditions, of any depth and with any number of parts and any names, all values of their symbols and all ways to read a text", "why_tests_cant": "Labels are only looked at by people; missing parentheses show only for some nestings, and then the label looks right.", "anchors": ["tool/kalm/utils.py:pretty_print", "tool/kalm/merging.py:label"]}
{"id": "C103", "title": "The tool reads a text out of the memory of the program exactly", "statement": "read_str returns the characters of the bytes before the first 0 at an address, raises exactly if a byte that is not known comes before any 0, and ends unless every byte of the address space is known and not 0; texts that are returned are the same only if the bytes are.", "quantifier": "for all memories with known and unknown bytes, all addresses including those at the end of the address space, and all lengths", "why_tests_cant": "Tests read the few names that the network functions have; memories with unknown bytes or without an end are never tried.", "anchors": ["tool/kalm/utils.py:read_str", "tool/klint/externals/os/config.py:os_config_try_get", "tool/klint/externals/os/log.py:os_debug"]}

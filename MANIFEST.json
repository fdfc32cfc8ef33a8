{"claims": [
  {"property": "C01", "status": "proved", "theorems": ["Verif.Packing.C01_pack_roundtrip"], "note": ""},
  {"property": "C02", "status": "proved", "theorems": ["Verif.Packing.C02_packer_roundtrip"], "note": ""},
  {"property": "C03", "status": "proved", "theorems": ["Verif.Packing.C03_unpack_ignores_target", "Verif.Packing.C03_unpack_replaces"], "note": ""},
  {"property": "C04", "status": "proved", "theorems": ["Verif.Utils.C04_sizesToOffsets", "Verif.Utils.C04_ranges_tile", "Verif.Utils.C04_sizesToOffsets_threads"], "note": "Serial overload and the per-thread overload; values are naturals (no overflow of Ttype)"},
  {"property": "C05", "status": "proved", "theorems": ["Verif.Utils.C05_distribute_partition", "Verif.Utils.C05_distribute_balanced"], "note": "std::ceil(size/(double)threads) modelled as exact integer ceiling division (sizes below 2^53)"},
  {"property": "C06", "status": "proved", "theorems": ["Verif.Utils.C06_sortAndRemoveDuplicates", "Verif.Utils.C06_mergeThreadedUniqueData"], "note": "std::sort trusted to sort"},
  {"property": "C07", "status": "proved", "theorems": ["Verif.Utils.C07_sortWithInplaceMerge", "Verif.Utils.C07_inplaceMerge", "Verif.Utils.C07_sortWithInplaceMerge_threads", "Verif.Utils.C07_inplaceMerge_threads", "Verif.Utils.C07_sortWithUniqueMerge"], "note": "std::sort and std::inplace_merge trusted; OpenMP iterations touch disjoint ranges and are run in index order"},
  {"property": "C08", "status": "proved", "theorems": ["Verif.Utils.C08_mergeAppendedData"], "note": ""},
  {"property": "C09", "status": "proved", "theorems": ["Verif.Utils.C09_permute_elements", "Verif.Utils.C09_permute_perm", "Verif.Utils.C09_permute_inverse"], "note": ""},
  {"property": "C10", "status": "proved", "theorems": ["Verif.Hilbert.C10_hilbert2D_bijection"], "note": "64-bit wrap-around modelled; k up to 32"},
  {"property": "C100", "status": "partial", "theorems": ["Verif.Advection.C100_form_partial", "Verif.Advection.C100_thickness", "Verif.Advection.C100_accumulates", "Verif.Advection.C100_space_wrong"], "note": "C100_form_partial: plane elements without the thickness in the second integral, elements in space without upwinding, and the material computed in every point or \u03c3 = 0. The rest is wrong: C100_thickness, C100_space_wrong, C100_accumulates. Not modelled: the versions of the guarded reciprocal for SVE."},
  {"property": "C101", "status": "partial", "theorems": ["Verif.Stress.C101_results", "Verif.Stress.C101_mises", "Verif.Stress.C101_strain", "Verif.Stress.C101_plane", "Verif.Stress.C101_plane_wrong", "Verif.Stress.C101_store", "Verif.Stress.C101_average_partial", "Verif.Stress.C101_race"], "note": "The results in space and the arrays of the elements are proved without restriction (C101_results, C101_mises, C101_strain, C101_store). In the plane the principal values and components are right (C101_plane), the von Mises value is not (C101_plane_wrong). The averages of the nodes are the means if the additions are made one after another (C101_average_partial); threads may lose additions (C101_race)."},
  {"property": "C102", "status": "partial", "theorems": ["Verif.Sync.C102_sum", "Verif.Sync.C102_agree", "Verif.Sync.C102_average_partial", "Verif.Sync.C102_order_needed"], "note": "C102_sum and C102_agree are proved for all distributions with the common nodes of two processes in the same order; C102_order_needed shows that the order is needed, that the mesh provides it is an assumption. C102_average_partial: the additions of a process one after another (C101_race). The exchange is C27."},
  {"property": "C103", "status": "partial", "theorems": ["Verif.Statistics.C103_nodes", "Verif.Statistics.C103_once", "Verif.Statistics.C103_elements_partial", "Verif.Statistics.C103_elements_wrong", "Verif.Statistics.C103_absmax_wrong", "Verif.Statistics.C103_average_wrong", "Verif.Statistics.C103_overrun"], "note": "The nodes are right (C103_nodes, C103_once). The elements of a process have the right minimum, maximum, sum and norm (C103_elements_partial); their absolute values (C103_elements_wrong, C103_absmax_wrong) and averages (C103_average_wrong) are wrong, and one reset is beyond the array (C103_overrun)."},
  {"property": "C11", "status": "proved", "theorems": ["Verif.Hilbert.C11_hilbert3D_bijection"], "note": "64-bit wrap-around modelled; k up to 21"},
  {"property": "C12", "status": "proved", "theorems": ["Verif.Hilbert.C12_hilbert2D_nested", "Verif.Hilbert.C12_hilbert3D_nested", "Verif.Hilbert.C12_hilbert2D_cell_nested", "Verif.Hilbert.C12_hilbert3D_cell_nested"], "note": ""},
  {"property": "C13", "status": "proved", "theorems": ["Verif.Hilbert.C13_hilbert2D_continuous", "Verif.Hilbert.C13_hilbert3D_continuous"], "note": ""},
  {"property": "C14", "status": "proved", "theorems": ["Verif.Sfc.C14_iterateBuckets_cover", "Verif.Sfc.C14_iterateBuckets_all"], "note": "interval borders must be leaf borders of a well-formed refinement tree (as after setLevel/recurce/finishLevel)"},
  {"property": "C15", "status": "proved", "theorems": ["Verif.Arena.C15_arena_disjoint", "Verif.Arena.C15_reset_empties", "Verif.Arena.C15_arena_new_disjoint", "Verif.Arena.C15_huge_request_is_granted"], "note": "Histories of both arenas; the bound on request sizes is necessary (witness C15_huge_request_is_granted)."},
  {"property": "C16", "status": "partial", "theorems": ["Verif.Arena.C16_arena_free_size_partial", "Verif.Arena.C16_arena_free_size_wrong", "Verif.Arena.C16_arena_new_remaining_partial", "Verif.Arena.C16_arena_new_remaining_wrong"], "note": "False in general: padding past the end wraps the reported size (C16_arena_free_size_wrong, C16_arena_new_remaining_wrong). Proved when the padded offset stays inside the arena / alignment divides the capacity."},
  {"property": "C17", "status": "partial", "theorems": ["Verif.Cbmb.C17_held_disjoint_partial", "Verif.Cbmb.C17_held_aligned_partial", "Verif.Cbmb.C17_release_exact_partial", "Verif.Cbmb.C17_unlocked_reset_overlaps"], "note": "Proved for allocations inside transactions with power-of-two alignments, every pool size and interleaving. The claim for every interleaving is false: an allocation outside a transaction can reset the pool and overlap (C17_unlocked_reset_overlaps)."},
  {"property": "C18", "status": "partial", "theorems": ["Verif.Cbmb.C18_empty_grants_partial", "Verif.Cbmb.C18_progress_partial", "Verif.Cbmb.C18_terminates_partial", "Verif.Cbmb.C18_wrong_pool_size", "Verif.Cbmb.C18_wrong_race", "Verif.Cbmb.C18_wrong_alignment"], "note": "False in general: three permanently blocked histories (C18_wrong_*). Proved for pools whose size is a power of two (or no reset on an empty pool) when the end of a transaction is atomic."},
  {"property": "C19", "status": "proved", "theorems": ["Verif.Comm.C19_allReduce"], "note": "Any rank range, any vectors, any associative and commutative operation, every schedule and every buffering choice of MPI_Send."},
  {"property": "C20", "status": "proved", "theorems": ["Verif.Comm.C20_collectives", "Verif.Comm.C20_stuck_is_finished", "Verif.Comm.C20_no_infinite_execution"], "note": "Semantics of MPI in Base/Mpi.lean: FIFO channels per source, destination and tag; MPI_Send may block or buffer in every single call."},
  {"property": "C21", "status": "proved", "theorems": ["Verif.Comm.C21_allGather"], "note": ""},
  {"property": "C22", "status": "proved", "theorems": ["Verif.Comm.C22_gather", "Verif.Comm.C22_offsets"], "note": "The sizes are exchanged by the library's MPI_Allgather, which is trusted."},
  {"property": "C23", "status": "proved", "theorems": ["Verif.Comm.C23_scatterv", "Verif.Comm.C23_scatter"], "note": "Displacements are monotone and start with 0."},
  {"property": "C24", "status": "proved", "theorems": ["Verif.Comm.C24_allToAll"], "note": "Elements are integers; messages sorted by target, as the code requires."},
  {"property": "C25", "status": "proved", "theorems": ["Verif.Comm.C25_exscan", "Verif.Comm.C25_exscanVec", "Verif.Comm.C25_getDistribution", "Verif.Comm.C25_distribution"], "note": "MPI_Exscan/Bcast/Allgather are trusted by their MPI contracts; native types (exscan does nothing for the others)."},
  {"property": "C26", "status": "proved", "theorems": ["Verif.Comm.C26_balance"], "note": "All interleavings; distributions start at 0 and have the same total."},
  {"property": "C27", "status": "proved", "theorems": ["Verif.Wildcard.C27_exchangeUnknownSize"], "note": "Wildcard receive + barrier model; every execution terminates, none gets stuck, result independent of arrival order, including consecutive calls (rounds)."},
  {"property": "C28", "status": "proved", "theorems": ["Verif.Comm.C28_receiveLower", "Verif.Comm.C28_receiveUpper", "Verif.Comm.C28_receiveLowerKnownSize", "Verif.Comm.C28_receiveUpperKnownSize", "Verif.Wildcard.C28_receiveLowerUnknownSize", "Verif.Wildcard.C28_receiveUpperUnknownSize"], "note": "All executions complete. receiveUpper/LowerUnknownSize hold for neighbour lists without the rank itself (lower: also with)."},
  {"property": "C29", "status": "proved", "theorems": ["Verif.Wildcard.C29_sendVariousTargets", "Verif.Wildcard.C29_duplicates_deadlock", "Verif.Wildcard.C29_duplicates_lost"], "note": "Proved for duplicate-free target lists; duplicates are shown to deadlock or lose a message."},
  {"property": "C30", "status": "proved", "theorems": ["Verif.Parser.C30_split", "Verif.Parser.C30_split_nonempty", "Verif.Parser.C30_split_join", "Verif.Parser.C30_split_join_all", "Verif.Parser.C30_split_last_lost"], "note": "Trailing empty piece is dropped without skipMultiple (C30_split_last_lost)."},
  {"property": "C31", "status": "partial", "theorems": ["Verif.Parser.C31_strip_partial", "Verif.Parser.C31_strip_not_idempotent", "Verif.Parser.C31_removecomments", "Verif.Parser.C31_getLine"], "note": "Idempotence is false for lines with a comment (white space before # is kept): refuted; the rest is proved."},
  {"property": "C32", "status": "proved", "theorems": ["Verif.KdTree.C32_kdtree", "Verif.KdTree.C32_interval_tree", "Verif.KdTree.C32_boxMin", "Verif.KdTree.C32_touching_missed"], "note": "kD-tree and interval tree: tree of ranges over a permutation, split order, sorted leaves, leaf_intervals, boxMin, box queries visit every leaf with an overlapping box (open overlap). C32_touching_missed: boxes that only touch the query, or flat boxes, can be missed."},
  {"property": "C33", "status": "partial", "theorems": ["Verif.Xml.C33_roundtrip_partial", "Verif.Xml.C33_empty_element"], "note": "Round trip of print and load for all trees whose names, values and attributes are free of markup characters and in which no element is completely empty; an element without attributes, text and children is not closed by the loader (witness)."},
  {"property": "C34", "status": "partial", "theorems": ["Verif.Tokenizer.C34_terminates", "Verif.Tokenizer.C34_separators_partial", "Verif.Tokenizer.C34_tokens_partial", "Verif.Tokenizer.C34_reads_past", "Verif.Tokenizer.C34_unfinished", "Verif.Tokenizer.C34_comment_joins", "Verif.Tokenizer.C34_comment_takes_lines"], "note": "Termination for every text; tokens and separators for texts made of complete items; the tokenizer reads behind the end of the text for unfinished or final items and joins texts around comments (witnesses). The line counter and the history for messages are not modelled."},
  {"property": "C35", "status": "proved", "theorems": ["Verif.Config.C35_lookup", "Verif.Config.C35_set", "Verif.Config.C35_defined"], "note": "For every history of registrations, additional registrations, drops, moves, listeners and assignments. Changing one parameter means one variable: parameters bound to the same variable change together; what listeners do is not modelled."},
  {"property": "C36", "status": "partial", "theorems": ["Verif.Flags.C36_roundtrip_partial", "Verif.Flags.C36_accepted_partial", "Verif.Flags.C36_option", "Verif.Flags.C36_empty_set", "Verif.Flags.C36_same_names", "Verif.Flags.C36_bar"], "note": "Round trip for non-empty sets and tables of at most 31 options with non-empty names without | and #, without white space at their ends, different regardless of letter case; false for the empty set and for other names (witnesses)."},
  {"property": "C37", "status": "proved", "theorems": ["Verif.Csx.C37_convert", "Verif.Csx.C37_entries", "Verif.Csx.C37_back"], "note": "convert_csx_csy for all well-formed matrices; integer overflow of the index type not modelled"},
  {"property": "C38", "status": "proved", "theorems": ["Verif.Csx.C38_map"], "note": "convert_csx_csy_map / transpose_csx_csx_map pattern and values"},
  {"property": "C39", "status": "proved", "theorems": ["Verif.Csx.C39_permute", "Verif.Csx.C39_map", "Verif.Csx.C39_symmetric", "Verif.Csx.C39_hermitian_not_permuted"], "note": "permute_csx_csx for every pair of permutations (either absent), the map variant for general and triangular storage, and the symmetric reading. C39_hermitian_not_permuted records that values moved to the mirrored place are not conjugated (hermitian storage)."},
  {"property": "C40", "status": "partial", "theorems": ["Verif.Csx.C40_count_partial", "Verif.Csx.C40_same_partial", "Verif.Csx.C40_other_partial", "Verif.Csx.C40_map_partial", "Verif.Csx.C40_unordered_lost"], "note": "Proved for matrices whose slices are ordered (submatrix_csx_csy and the map variant). The claim for every matrix is false: C40_unordered_lost."},
  {"property": "C41", "status": "proved", "theorems": ["Verif.Csx.C41_concat", "Verif.Csx.C41_quadrisect", "Verif.Csx.C41_roundtrip"], "note": "quadrisect_csx_csy and concat_csx"},
  {"property": "C42", "status": "proved", "theorems": ["Verif.Csx.C42_gemv_rows", "Verif.Csx.C42_gemv_columns"], "note": "gemv_csx in both orders over any commutative semiring; uninitialised result cells modelled as none"},
  {"property": "C43", "status": "partial", "theorems": ["Verif.Csx.C43_complete_partial", "Verif.Csx.C43_pattern", "Verif.Csx.C43_count", "Verif.Csx.C43_trailing_rows_lost", "Verif.Csx.C43_conjugated_wrong"], "note": "Proved for matrices whose last row is not empty (any values, symmetric; hermitian for equal orders), exact behaviour of the pointers for all; the full claim is false: C43_trailing_rows_lost (uninitialised pointers behind the last non-empty row) and C43_conjugated_wrong (wrong triangle conjugated when the orders differ)."},
  {"property": "C44", "status": "proved", "theorems": ["Verif.Csx.C44_pivots_eq", "Verif.Csx.C44_trails_eq", "Verif.Csx.C44_bounds", "Verif.Csx.C44_forward", "Verif.Csx.C44_backward", "Verif.Csx.C44_completed"], "note": "pivots_trails_csx"},
  {"property": "C45", "status": "proved", "theorems": ["Verif.Csx.C45_primary", "Verif.Csx.C45_secondary"], "note": "pruning_subset_csx"},
  {"property": "C46", "status": "partial", "theorems": ["Verif.Pattern.C46_decomposition", "Verif.Pattern.C46_pattern_partial", "Verif.Pattern.C46_csr_partial", "Verif.Pattern.C46_assemble_partial", "Verif.Pattern.C46_domain_partial", "Verif.Pattern.C46_degenerate", "Verif.Pattern.C46_unused_row"], "note": "FETI pattern (matrix.uniform.feti.cpp), filler and CSR arrays. Missing: BEM domains, boundary regions, the direct pattern. The claim for every mesh is false: upper storage loses entries of elements with repeated nodes (C46_degenerate; symmetric element matrices are assumed for upper storage) and a degree of freedom used by no element gets a spurious entry (C46_unused_row)."},
  {"property": "C47", "status": "proved", "theorems": ["Verif.Feti.C47_applyB", "Verif.Feti.C47_applyB_filter", "Verif.Feti.C47_applyBt", "Verif.Feti.C47_adjoint", "Verif.Feti.C47_threaded", "Verif.Feti.C47_threads_progress", "Verif.Feti.C47_extract", "Verif.Feti.C47_insert"], "note": "applyB, applyBt, the filtered and the threaded version over an arbitrary commutative ring (no conjugation); insertDomains and extractDomain. Threads: every interleaving of the atomic additions for every number of threads."},
  {"property": "C48", "status": "partial", "theorems": ["Verif.Serial.C48_uniform", "Verif.Serial.C48_uniform_default", "Verif.Serial.C48_uniform_default_undefined", "Verif.Serial.C48_items_partial", "Verif.Serial.C48_items_default", "Verif.Serial.C48_items_undefined"], "note": "Proved for uniform items and any distribution, for items with boundaries and any distribution whose threads without items are the first or last ones, and for the default distribution. Missing: a thread in the middle without items (the code reads out of range, C48_items_undefined); the default distribution with items of several values also leaves the vectors (C48_uniform_default_undefined)."},
  {"property": "C49", "status": "proved", "theorems": ["Verif.Serial.C49_items", "Verif.Serial.C49_uniform", "Verif.Serial.C49_repeated_item_lost"], "note": "Permutation, selection and repetition of items; distributions counting items or boundaries. C49_repeated_item_lost records the limit when items are repeated so often that the code mistakes the distribution."},
  {"property": "C50", "status": "partial", "theorems": ["Verif.TArr.C50_allocate", "Verif.TArr.C50_roundtrip_partial", "Verif.TArr.C50_serialized_partial", "Verif.TArr.C50_aligned_lost"], "note": "Round trip of thread arrays and serialized data (pointers included) proved whenever data are not shifted by alignment; allocation proved sufficient and aligned for every address. The unrestricted claim is false: C50_aligned_lost."},
  {"property": "C51", "status": "proved", "theorems": ["Verif.Utils.C51_threadDistribution", "Verif.Utils.C51_threadDistribution_flat"], "note": ""},
  {"property": "C52", "status": "proved", "theorems": ["Verif.Comm.C52_uniqueAllGather"], "note": ""},
  {"property": "C53", "status": "proved", "theorems": ["Verif.Comm.C53_allGatherInplace", "Verif.Comm.C53_allGatherInplace_from"], "note": "Native MPI types (mpisize = 1)."},
  {"property": "C54", "status": "proved", "theorems": ["Verif.Comm.C54_exchangeKnownSize", "Verif.Comm.C54_gatherUniformNeighbors", "Verif.Comm.C54_exchangeInPlace"], "note": "exchangeKnownSize, gatherUniformNeighbors and exchangeKnownSizeInPlace under every interleaving."},
  {"property": "C55", "status": "partial", "theorems": ["Verif.Parser.C55_stringwithcommas_partial", "Verif.Parser.C55_large_group"], "note": "Digits and groups behind a comma are right for every number; the first group has at most three digits only below 10^12 (C55_large_group refutes the rest)."},
  {"property": "C56", "status": "proved", "theorems": ["Verif.Parser.C56_irreflexive", "Verif.Parser.C56_transitive", "Verif.Parser.C56_equivalence", "Verif.Parser.C56_prefix", "Verif.Parser.C56_suffix", "Verif.Parser.C56_caseSensitivePreffix_undefined"], "note": "tolower is an arbitrary function. caseSensitivePreffix reads outside for a shorter second string (shown)."},
  {"property": "C57", "status": "proved", "theorems": ["Verif.Csx.C57_sorting", "Verif.Csx.C57_invert"], "note": "std::sort is a parameter with its contract as hypothesis."},
  {"property": "C58", "status": "partial", "theorems": ["Verif.Serial.C58_items_partial", "Verif.Serial.C58_uniform_partial", "Verif.Serial.C58_assigned_uniform_undefined"], "note": "Iterators set up by constructors, unpack and permute, for distributions in which thread 0 holds the leading boundary. After assignment or move of uniform data the set-up reads out of range (C58_assigned_uniform_undefined)."},
  {"property": "C59", "status": "proved", "theorems": ["Verif.KdTree.C59_duplicates", "Verif.KdTree.C59_exact", "Verif.KdTree.C59_two_targets", "Verif.KdTree.C59_drift"], "note": "All point sets and tolerances in exact arithmetic. C59_two_targets: with a positive tolerance merge may be called twice for a point with different targets; C59_drift: merged points may be farther than the tolerance (chain across leaves). Floating point rounding (possible endless loop of the sweep when mid.y - eps > right.y and right.y + eps >= mid.y) is not modelled."},
  {"property": "C60", "status": "proved", "theorems": ["Verif.Feti.C60_multipliers", "Verif.Feti.C60_orthonormal", "Verif.Feti.C60_continuity", "Verif.Feti.C60_enforce"], "note": "EqualityConstrains::set/update/enforce, with applyB (C47) and the synchronization (C61); exact arithmetic in a field of characteristic 0 with the square roots that occur (e.g. the real numbers), std::sort by its contract, degrees of freedom numbered in the same order on all processes, Dirichlet indices increasing"},
  {"property": "C61", "status": "partial", "theorems": ["Verif.Feti.C61_vector", "Verif.Feti.C61_dot", "Verif.Feti.C61_matrix_partial", "Verif.Feti.C61_buffers_partial", "Verif.Feti.C61_matrix_undefined"], "note": "Dual vectors and the dot product for every distribution of multipliers (Shared) described by cmap. Matrices: with buffers for at least nrows rows; the code prepares such buffers only if something is shared with the neighbour 0 (C61_buffers_partial), otherwise C61_matrix_undefined shows a write out of a buffer. The sum over processes of the dot product is the contract of MPI_Allreduce."},
  {"property": "C62", "status": "proved", "theorems": ["Verif.Pcpg.C62_residual", "Verif.Pcpg.C62_conjugate", "Verif.Pcpg.C62_finite", "Verif.Pcpg.C62_minimal"], "note": "PCPG on the vector of all multipliers in exact arithmetic over any field; F, S symmetric and definite on the range of the projector, P a projector with transpose Pt; the operators are parameters (C47, C61 are about gluing and dual vectors)."},
  {"property": "C63", "status": "partial", "theorems": ["Verif.Pcpg.C63_stops", "Verif.Pcpg.C63_reason", "Verif.Pcpg.C63_terminates_partial", "Verif.Pcpg.C63_success_partial", "Verif.Pcpg.C63_nan_reported_as_success", "Verif.Pcpg.C63_arioli_endless", "Verif.Pcpg.C63_arioli_no_success", "Verif.Pcpg.C63_no_stagnation_undefined"], "note": "Proved: the run stops at the first check with a reason and reports it (C63_stops, C63_reason), ends if max_iterations > 0 (C63_terminates_partial), success means that the previous iterate met the criterion (C63_success_partial). The full statement is false: NaN can be reported as success, ARIOLI never ends (witnesses)."},
  {"property": "C64", "status": "proved", "theorems": ["Verif.Feti.C64_apply", "Verif.Feti.C64_rhs", "Verif.Feti.C64_primal", "Verif.Feti.C64_symmetric", "Verif.Feti.C64_constraints"], "note": "The local solver is a function preserving the length; synchronization is C61."},
  {"property": "C65", "status": "proved", "theorems": ["Verif.Feti.C65_lumped", "Verif.Feti.C65_dirichlet"], "note": "The product with K and the Schur complement are functions."},
  {"property": "C66", "status": "proved", "theorems": ["Verif.Feti.C66_applyG", "Verif.Feti.C66_applyInvGGt", "Verif.Feti.C66_applyGt", "Verif.Feti.C66_apply", "Verif.Feti.C66_applyT", "Verif.Feti.C66_initial", "Verif.Feti.C66_coarse", "Verif.Feti.C66_kernels", "Verif.Feti.C66_rhs", "Verif.Feti.C66_feasible", "Verif.Feti.C66_kernel", "Verif.Feti.C66_fixed", "Verif.Feti.C66_idempotent", "Verif.Feti.C66_symmetric"], "note": "G, the kernels and the dense inverse (or its factors) are given by rows of processes; the assembly of G is C67."},
  {"property": "C67", "status": "proved", "theorems": ["Verif.Feti.C67_graph", "Verif.Feti.C67_setG", "Verif.Feti.C67_G", "Verif.Feti.C67_G_rows", "Verif.Feti.C67_product", "Verif.Feti.C67_setGGt", "Verif.Feti.C67_updateGGt", "Verif.Feti.C67_rowsOf", "Verif.Feti.C67_exchanged", "Verif.Feti.C64_constraints"], "note": "Exchanges and sums are those of C25, C27 and C53; C64_constraints gives the assumptions for the constraints of C60. Factorisation of GGt is outside the model."},
  {"property": "C68", "status": "proved", "theorems": ["Verif.Feti.C68_equilibrium", "Verif.Feti.C68_jump", "Verif.Feti.C68_solves", "Verif.Feti.C68_minimises"], "note": ""},
  {"property": "C69", "status": "proved", "theorems": ["Verif.Feti.C69_run", "Verif.Feti.C69_solution", "Verif.Feti.C69_finite", "Verif.Feti.C69_reduces"], "note": "MPI_Allreduce by contract (C69_reduces shows that the all-reduce of C19 meets it); finite values are a hypothesis on the run (no division by zero), C69_finite shows when they are finite"},
  {"property": "C70", "status": "proved", "theorems": ["Verif.Pcpg.C70_residual", "Verif.Pcpg.C70_conjugate", "Verif.Pcpg.C70_finite", "Verif.Pcpg.C70_same", "Verif.Pcpg.C70_minimal", "Verif.Pcpg.C70_stops", "Verif.Pcpg.C70_reason"], "note": "exact arithmetic; a division by zero ends the run"},
  {"property": "C71", "status": "partial", "theorems": ["Verif.Feti.C71_run_partial", "Verif.Feti.C71_solution_partial", "Verif.Feti.C71_finite", "Verif.Feti.C71_reduces", "Verif.Feti.C71_second_solve", "Verif.Feti.C71_no_own_multipliers", "Verif.Feti.C71_last_interval_only"], "note": "proved for the first solve of a new solver and one non-empty interval of multipliers per process; false otherwise: C71_second_solve, C71_no_own_multipliers, C71_last_interval_only"},
  {"property": "C72", "status": "proved", "theorems": ["Verif.Mprgp.C72_feasible", "Verif.Mprgp.C72_optimal", "Verif.Mprgp.C72_error", "Verif.Mprgp.C72_rate", "Verif.Mprgp.C72_stops", "Verif.Mprgp.C72_terminates"], "note": "The loop on vectors of all multipliers in exact arithmetic."},
  {"property": "C73", "status": "partial", "theorems": ["Verif.Mprgp.C73_report_partial", "Verif.Mprgp.C73_exact_max", "Verif.Mprgp.C73_cycle", "Verif.Mprgp.C73_stalls"], "note": "Reported convergence implies the condition; the converse is false when it is satisfied after exactly max_iterations steps (C73_exact_max), the default alpham may cycle (C73_cycle), large delta without gradproj stalls (C73_stalls)."},
  {"property": "C74", "status": "partial", "theorems": ["Verif.Mprgp.C74_feasible", "Verif.Mprgp.C74_result_partial", "Verif.Mprgp.C74_solution_partial", "Verif.Mprgp.C74_report_partial", "Verif.Mprgp.C74_small_load", "Verif.Mprgp.C74_small_load_witness", "Verif.Mprgp.C74_never_converged", "Verif.Mprgp.C74_converged_as_error", "Verif.Mprgp.C74_never_ends"], "note": "Feasibility, the optimality conditions with the tested residuals, the solution for zero residuals and the error of a run without the precision reached are proved. Not proved: that the loop ends for feasible problems. The statement fails for small loads (C74_small_load), for the report (C74_never_converged, C74_converged_as_error) and for the end (C74_never_ends)."},
  {"property": "C75", "status": "proved", "theorems": ["Verif.Fem.C75_basis", "Verif.Fem.C75_nodes", "Verif.Fem.C75_node_index", "Verif.Fem.C75_collapsed", "Verif.Fem.C75_triangle_rows_wrong"], "note": "over the reals for the derivatives, over the rationals for the nodes"},
  {"property": "C76", "status": "partial", "theorems": ["Verif.Fem.C76_jacobian", "Verif.Fem.C76_defined", "Verif.Fem.C76_gradient", "Verif.Fem.C76_linear", "Verif.Fem.C76_face", "Verif.Fem.C76_edge", "Verif.Fem.C76_merged_nodes_wrong"], "note": "proved for all points with a regular Jacobian; false for the nodes of degraded elements, which are singular for all coordinates (C76_merged_nodes_wrong)"},
  {"property": "C77", "status": "proved", "theorems": ["Verif.Fem.C77_exact", "Verif.Fem.C77_weights", "Verif.Fem.C77_volume", "Verif.Fem.C77_volume_exact", "Verif.Fem.C77_volume_defined", "Verif.Fem.C77_square", "Verif.Fem.C77_triangle", "Verif.Fem.C77_triangle6", "Verif.Fem.C77_tetra", "Verif.Fem.C77_tetra4", "Verif.Fem.C77_count"], "note": "Exact arithmetic. Not covered by the volume theorem: PRISMA15 with 9 points and PYRAMID13 with 14 points, whose rules have a lower degree than the determinant of a curved element."},
  {"property": "C78", "status": "partial", "theorems": ["Verif.Fem.C78_measure", "Verif.Fem.C78_measure_partial", "Verif.Fem.C78_measure_wrong", "Verif.Fem.C78_load", "Verif.Fem.C78_flow_partial", "Verif.Fem.C78_flow_wrong"], "note": "False in general: with four or more lanes, unused lanes of the last chunk keep elements of the previous chunk (C78_measure states exactly which are counted twice); proved when no lane is stale."},
  {"property": "C79", "status": "proved", "theorems": ["Verif.Fem.C79_form", "Verif.Fem.C79_defined", "Verif.Fem.C79_constants", "Verif.Fem.C79_columns", "Verif.Fem.C79_symmetric", "Verif.Fem.C79_dissipation", "Verif.Fem.C79_energy", "Verif.Fem.C79_patch", "Verif.Fem.C79_kernel", "Verif.Fem.C79_points"], "note": "one SIMD lane, exact real arithmetic, without advection"},
  {"property": "C80", "status": "proved", "theorems": ["Verif.Fem.C80_symmetric", "Verif.Fem.C80_dissipation", "Verif.Fem.C80_kernel", "Verif.Fem.C80_conservation", "Verif.Fem.C80_dirichlet", "Verif.Fem.C80_convection_wrong"], "note": "conduction only; the convection of the code has no part in the matrix, which makes a problem with convection only unsolvable (C80_convection_wrong)"},
  {"property": "C81", "status": "partial", "theorems": ["Verif.Fem.C81_form", "Verif.Fem.C81_defined", "Verif.Fem.C81_plane_stress", "Verif.Fem.C81_symmetric", "Verif.Fem.C81_energy_nonneg", "Verif.Fem.C81_kernel", "Verif.Fem.C81_rigid", "Verif.Fem.C81_patch", "Verif.Fem.C81_energy", "Verif.Fem.C81_axisymmetric", "Verif.Fem.C81_axisymmetric_rigid", "Verif.Fem.C81_rigid_only_partial"], "note": "one SIMD lane, exact real arithmetic; that only rigid displacements have no strain is proved for TRIANGLE3, SQUARE4 and TETRA4"},
  {"property": "C82", "status": "proved", "theorems": ["Verif.Fem.C82_form", "Verif.Fem.C82_defined", "Verif.Fem.C82_tangent", "Verif.Fem.C82_symmetric", "Verif.Fem.C82_rotation", "Verif.Fem.C82_objective", "Verif.Fem.C82_balance"], "note": "one SIMD lane, exact real arithmetic, Kirchhoff material"},
  {"property": "C83", "status": "partial", "theorems": ["Verif.Fem.C83_symmetric", "Verif.Fem.C83_energy_nonneg", "Verif.Fem.C83_kernel", "Verif.Fem.C83_rigid", "Verif.Fem.C83_rigid_only_partial", "Verif.Fem.C83_supports_partial"], "note": "the kernel and the supports for domains of TRIANGLE3, SQUARE4 and TETRA4; the other parts for all elements"},
  {"property": "C84", "status": "partial", "theorems": ["Verif.Fem.C84_scaled", "Verif.Fem.C84_same_partial", "Verif.Fem.C84_thickness_missing"], "note": "false in general (C84_thickness_missing); proved in space and for unit thickness"},
  {"property": "C85", "status": "partial", "theorems": ["Verif.Fem.C85_work_partial", "Verif.Fem.C85_defined", "Verif.Fem.C85_weight", "Verif.Fem.C85_weight_solid", "Verif.Fem.C85_angular_wrong", "Verif.Fem.C85_coordinates_wrong"], "note": "Proved if the coordinates are interpolated or the data do not depend on them, and in space for angular velocities along an axis of coordinates; the code is wrong otherwise (C85_angular_wrong, C85_coordinates_wrong)."},
  {"property": "C86", "status": "partial", "theorems": ["Verif.Fem.C86_form", "Verif.Fem.C86_defined", "Verif.Fem.C86_symmetric", "Verif.Fem.C86_energy_nonneg", "Verif.Fem.C86_kernel", "Verif.Fem.C86_definite_partial", "Verif.Fem.C86_few_points", "Verif.Fem.C86_prisma15_singular", "Verif.Fem.C86_total", "Verif.Fem.C86_free_fall_partial", "Verif.Fem.C86_heat", "Verif.Fem.C86_thickness_wrong", "Verif.Fem.C86_capacity_wrong"], "note": "The form, symmetry and total mass are proved for all elements; definiteness for the rules of the code other than PRISMA15 with 9 points (singular), free fall up to the thickness that the code ignores; the heat capacity is missing."},
  {"property": "C87", "status": "partial", "theorems": ["Verif.Fem.C87_defined", "Verif.Fem.C87_work_partial", "Verif.Fem.C87_resultant", "Verif.Fem.C87_edge", "Verif.Fem.C87_closed", "Verif.Fem.C87_triangle", "Verif.Fem.C87_closed_surface", "Verif.Fem.C87_coordinates_wrong"], "note": "The work is proved for constant data or axisymmetric elements (pressures depending on the place are evaluated in the origin, C87_coordinates_wrong); the balance on closed surfaces for linear triangles."},
  {"property": "C88", "status": "partial", "theorems": ["Verif.Fem.C88_inverse", "Verif.Fem.C88_material_partial", "Verif.Fem.C88_shear_wrong", "Verif.Fem.C88_undefined", "Verif.Fem.C88_rest"], "note": "first and second derivative of the energy for tensors with C13 = C23 = 0 or C11 = C22 and C13^2 = C23^2; false in general because C13 and C23 are swapped"},
  {"property": "C89", "status": "partial", "theorems": ["Verif.Fem.C89_yield", "Verif.Fem.C89_again", "Verif.Fem.C89_state", "Verif.Fem.C89_incompressible", "Verif.Fem.C89_tangent", "Verif.Fem.C89_tangent_elastic", "Verif.Fem.C89_tangent_partial", "Verif.Fem.C89_tangent_wrong", "Verif.Fem.C89_positions_partial", "Verif.Fem.C89_positions_wrong"], "note": "yield condition, repeated evaluation, saved state and volume in full; the tangent for changes that keep the volume, false otherwise; own states without stresses, false with them; eigenpairs of the trial tensor are inputs, the pull-back is not modelled"},
  {"property": "C90", "status": "proved", "theorems": ["Verif.Regularization.C90_sum", "Verif.Regularization.C90_sizes", "Verif.Regularization.C90_unsorted"], "note": "sums of all well-formed matrices"},
  {"property": "C91", "status": "partial", "theorems": ["Verif.Regularization.C91_heat", "Verif.Regularization.C91_heat_kernel", "Verif.Regularization.C91_single_node", "Verif.Regularization.C91_feti", "Verif.Regularization.C91_solver", "Verif.Regularization.C91_elastic", "Verif.Regularization.C91_elastic_kernel_partial", "Verif.Regularization.C91_elastic_domain_partial"], "note": "heat transfer is complete; elasticity is complete for matrices whose kernel is R1, and that R1 is the kernel is proved for domains of triangles, squares and tetrahedra; false for a heat domain of one node; the choice of the fix points, the algebraic regularization and the SVD are not modelled"},
  {"property": "C92", "status": "proved", "theorems": ["Verif.Transient.C92_step", "Verif.Transient.C92_terminates", "Verif.Transient.C92_run", "Verif.Transient.C92_exact", "Verif.Transient.C92_stable", "Verif.Transient.C92_methods", "Verif.Transient.C92_lag_wrong", "Verif.Transient.C92_short_wrong"], "note": "The defects C92_lag_wrong (the rates start from zero) and C92_short_wrong (durations that are no multiple of the time step) are recorded beside the theorems."},
  {"property": "C93", "status": "proved", "theorems": ["Verif.Transient.C93_step", "Verif.Transient.C93_restart", "Verif.Transient.C93_stable", "Verif.Transient.C93_conserves", "Verif.Transient.C93_swing", "Verif.Transient.C93_default_wrong", "Verif.Transient.C93_start_wrong", "Verif.Transient.C93_stale_wrong"], "note": "The default parameters violate the condition of stability (C93_default_wrong); the start with zero acceleration and the stale matrix of FETI are recorded as C93_start_wrong and C93_stale_wrong."},
  {"property": "C94", "status": "partial", "theorems": ["Verif.Transient.C94_newmark", "Verif.Transient.C94_fixed_point", "Verif.Transient.C94_prescribed", "Verif.Transient.C94_reported", "Verif.Transient.C94_linear_partial", "Verif.Transient.C94_two_iterations_partial", "Verif.Transient.C94_damping_wrong", "Verif.Transient.C94_predictor_wrong"], "note": "The balance for linear inner forces is proved without damping only (C94_linear_partial, C94_two_iterations_partial): with damping it is false, the iteration can diverge (C94_damping_wrong)."},
  {"property": "C95", "status": "proved", "theorems": ["Verif.Transient.C95_prescribed", "Verif.Transient.C95_fixed_point", "Verif.Transient.C95_reported", "Verif.Transient.C95_linear", "Verif.Transient.C95_times", "Verif.Transient.C95_heat"], "note": "The reports of the solver are ignored by the code, so its contract is that it always solves the system."},
  {"property": "C96", "status": "partial", "theorems": ["Verif.Harmonic.C96_matrix", "Verif.Harmonic.C96_vectors", "Verif.Harmonic.C96_harmonic_partial", "Verif.Harmonic.C96_damping", "Verif.Harmonic.C96_upper", "Verif.Harmonic.C96_part", "Verif.Harmonic.C96_gather", "Verif.Harmonic.C96_frequencies"], "note": "Proved for patterns with whole node blocks (direct solvers) and without damping (C96_harmonic_partial). False with damping (C96_damping), for patterns with the upper part only (C96_upper); the highest frequency is never computed (C96_frequencies)."},
  {"property": "C97", "status": "proved", "theorems": ["Verif.Direct.C97_solution", "Verif.Direct.C97_entries", "Verif.Direct.C97_symmetric", "Verif.Direct.C97_restricted", "Verif.Direct.C97_upper"], "note": "For one process; the exchange of the halo (lines 64-92) is not modelled."},
  {"property": "C98", "status": "proved", "theorems": ["Verif.Pattern.Direct.C98_pattern", "Verif.Pattern.Direct.C98_unique", "Verif.Pattern.Direct.C98_symmetric", "Verif.Pattern.Direct.C98_dirichlet", "Verif.Pattern.Direct.C98_assemble"], "note": "For one process: the exchange with neighbouring processes (lines 80-106, 125-165) is not modelled. C98_dirichlet discharges the assumptions of C97 on the pattern."},
  {"property": "C99", "status": "partial", "theorems": ["Verif.Results.C99_gradient", "Verif.Results.C99_flux", "Verif.Results.C99_linear", "Verif.Results.C99_store_partial", "Verif.Results.C99_overrun", "Verif.Results.C99_store_wrong", "Verif.Results.C99_threads"], "note": "The values are proved without restriction. The stores are right if the numbers of elements of the intervals are multiples of the number of lanes (C99_store_partial); in general they are not (C99_store_wrong, C99_overrun, C99_threads)."}
]}

{"id": "C01", "title": "Binary packing round-trips", "statement": "Packing a value (plain object, string, vector of packable values, vectors of vectors) writes exactly packedSize(value) bytes, and unpacking those bytes gives back an equal value and leaves the read cursor exactly behind them, whatever bytes follow.", "quantifier": "every value of every packable shape with sizes below 2^64, every target object unpack writes into, every trailing byte string", "why_tests_cant": "values have unbounded nesting and length; a test samples a few shapes and never every following byte string", "anchors": ["src/basis/utilities/packing.h: packedSize, pack, unpack"]}
{"id": "C02", "title": "Heterogeneous packer streams round-trip", "statement": "A Packer built from any list of fields (also concatenated with +=) reports a size equal to the number of bytes it writes, and unpacking the buffer into the same list of fields restores every field in order.", "quantifier": "every list of fields of every packable shape and every split of the list by +=", "why_tests_cant": "the number and kinds of fields are unbounded", "anchors": ["src/basis/containers/packer.h: Packer::pack, Packer::unpack, Packer::operator+=", "src/basis/utilities/packing.h: packedSize, pack, unpack"]}
{"id": "C03", "title": "Unpacking replaces the target", "statement": "After unpacking a packed value into an object, the object equals the packed value regardless of what it held before.", "quantifier": "every packed value and every previous content of the target", "why_tests_cant": "depends on the pair (packed value, old content); the failing pair (empty list of strings into a non-empty list) is easy to leave out", "anchors": ["src/basis/utilities/packing.h: packedSize, pack, unpack"]}
{"id": "C04", "title": "sizesToOffsets is an exclusive prefix sum", "statement": "sizesToOffsets replaces every size by offset plus the sum of the sizes before it and returns offset plus the sum of all sizes; the two-level variant does the same column by column over threads; hence the ranges [offset_i, offset_i+size_i) are consecutive, disjoint and cover [offset, result).", "quantifier": "every list of sizes, every start offset, every number of threads and columns", "why_tests_cant": "all lengths and all values", "anchors": ["src/basis/utilities/utils.hpp: sizesToOffsets"]}
{"id": "C05", "title": "Thread distribution is an ordered partition", "statement": "tarray::distribute(threads, size, minchunk) returns threads+1 borders starting at 0, ending at size and never decreasing, so each index below size belongs to exactly one thread, and no thread gets more than max(ceil(size/threads), minchunk) indices.", "quantifier": "every positive thread count, every size and every minimal chunk", "why_tests_cant": "unbounded combinations of size, thread count and chunk; border cases are at size not divisible by threads and at minchunk larger than size", "anchors": ["src/basis/containers/tarray.hpp: tarray::distribute"]}
{"id": "C06", "title": "sortAndRemoveDuplicates yields the sorted set", "statement": "After sortAndRemoveDuplicates(data, begin) the first begin entries are unchanged and the rest is strictly increasing and contains exactly the values that were there before; no access is out of range.", "quantifier": "every vector, every begin up to its size, every total order", "why_tests_cant": "all vectors", "anchors": ["src/basis/utilities/utils.hpp: removeDuplicates, sortAndRemoveDuplicates, mergeThreadedUniqueData"]}
{"id": "C07", "title": "Parallel merge sort sorts for any number of parts", "statement": "sortWithInplaceMerge(data, distribution) leaves data sorted and a permutation of the input for any number of parts (not only powers of two) and any part sizes including empty ones; every index it reads from the padded distribution exists.", "quantifier": "every vector, every non-decreasing distribution from 0 to its size", "why_tests_cant": "the merge tree depends on the number of parts; unbounded", "anchors": ["src/basis/utilities/utils.hpp: inplaceMerge, sortWithInplaceMerge, sortWithUniqueMerge"]}
{"id": "C08", "title": "mergeAppendedData merges sorted appended parts", "statement": "If data consists of consecutive sorted parts given by distribution, mergeAppendedData leaves it sorted and a permutation of the input.", "quantifier": "every number of parts and every content", "why_tests_cant": "the padding arithmetic differs from inplaceMerge and its unsigned subtraction depends on the number of parts", "anchors": ["src/basis/utilities/utils.hpp: mergeAppendedData"]}
{"id": "C09", "title": "permute moves whole elements", "statement": "permute(data, permutation, elementsize) with a permutation of the element indices puts element permutation[i] (all its components, in order) at place i, loses nothing, and permuting by the inverse restores the data.", "quantifier": "every vector, element size and permutation", "why_tests_cant": "all permutations", "anchors": ["src/basis/utilities/utils.hpp: permute"]}
{"id": "C10", "title": "2D Hilbert index is a bijection", "statement": "For a grid of 2^k x 2^k cells the 2D coordinate-to-index and index-to-coordinate functions are mutually inverse, with indices below 4^k and coordinates below 2^k; no wrap-around in the 64-bit arithmetic changes the result.", "quantifier": "every depth k up to 31 and every cell / index of that depth", "why_tests_cant": "4^k cells; tests can cover only small k", "anchors": ["src/basis/sfc/hilbertcurve.cpp: D2toD1, D1toD2, rotateD2"]}
{"id": "C11", "title": "3D Hilbert index is a bijection", "statement": "For a grid of 2^k cells in each of three directions the coordinate-to-index and index-to-coordinate functions are mutually inverse, with indices below 8^k and coordinates below 2^k.", "quantifier": "every depth k up to 20 and every cell / index of that depth", "why_tests_cant": "8^k cells", "anchors": ["src/basis/sfc/hilbertcurve.cpp: D3toD1, D1toD3, rotateD3"]}
{"id": "C12", "title": "Hilbert refinement is nested", "statement": "Refining the grid by one level keeps the curve nested: the coarse index of the coarse cell containing a fine cell is the fine index divided by 4 (2D) or 8 (3D) — the same cell order on both levels — up to the orientation the code uses; buckets of a coarse level are therefore unions of consecutive fine buckets.", "quantifier": "every depth and every cell", "why_tests_cant": "all depths; the splitter construction relies on it at every level", "anchors": ["src/basis/sfc/hilbertcurve.cpp: D2toD1, D3toD1", "src/basis/sfc/spacefillingcurve.cpp"]}
{"id": "C13", "title": "Hilbert curve is continuous", "statement": "Cells with consecutive indices are face neighbours: exactly one coordinate differs and it differs by one (2D and 3D); the curve starts in the first cell of the grid.", "quantifier": "every depth and every pair of consecutive indices", "why_tests_cant": "exponentially many pairs", "anchors": ["src/basis/sfc/hilbertcurve.cpp: D1toD2, D1toD3"]}
{"id": "C14", "title": "SFC bucket ranges cover the domain exactly", "statement": "Iterating the buckets of an index interval on a level visits disjoint consecutive bucket ranges that together cover exactly the interval, without empty or overlapping pieces.", "quantifier": "every interval and every depth", "why_tests_cant": "unbounded intervals and levels", "anchors": ["src/basis/sfc/spacefillingcurve.h: SpaceFillingCurve::iterateBuckets", "src/basis/sfc/spacefillingcurve.cpp"]}
{"id": "C15", "title": "Arena allocations never overlap", "statement": "All blocks granted by the arena between two resets lie inside the arena and are pairwise disjoint, and every block after the first starts at a multiple of the alignment relative to the arena start.", "quantifier": "every capacity, alignment and sequence of allocations, releases and resets whose sizes fit the 64-bit address arithmetic", "why_tests_cant": "all allocation histories", "anchors": ["src/basis/utilities/arena_allocator.cpp: arena_allocator_resource::allocate, deallocate, reset_arena, get_free_size", "src/math/primitives_new/allocator_new.h: AllocatorArena_new::alloc, clear, get_remaining_capacity"]}
{"id": "C16", "title": "Arena reported free size can be allocated", "statement": "The free size the arena reports never exceeds its capacity and a request of that size succeeds.", "quantifier": "every allocation history", "why_tests_cant": "fails only for particular histories in which alignment padding passes the end of the arena", "anchors": ["src/basis/utilities/arena_allocator.cpp: arena_allocator_resource::allocate, deallocate, reset_arena, get_free_size", "src/math/primitives_new/allocator_new.h: AllocatorArena_new::alloc, clear, get_remaining_capacity"]}
{"id": "C17", "title": "Circular blocking allocator never hands out overlapping blocks", "statement": "At every moment all blocks granted and not yet released are pairwise disjoint, lie inside the pool and do not wrap over its end.", "quantifier": "every pool size, every interleaving of allocations and releases (also releases out of order) by any number of threads", "why_tests_cant": "all histories and interleavings", "anchors": ["src/basis/utilities/cbmb_allocator.cpp: cbmba_resource::allocate, deallocate, do_transaction"]}
{"id": "C18", "title": "Circular blocking allocator does not get stuck", "statement": "When all granted blocks were released, a request not larger than the pool is granted.", "quantifier": "every history of allocations, releases and transactions", "why_tests_cant": "only some histories leave the bookkeeping in a state where no request fits", "anchors": ["src/basis/utilities/cbmb_allocator.cpp: cbmba_resource::allocate, deallocate, do_transaction"]}
{"id": "C19", "title": "Hand-written all-reduce is correct for any number of ranks", "statement": "Communication::allReduce leaves on every rank the combination (sum, min, max or any commutative associative operation) of the contributions of all ranks, each counted exactly once.", "quantifier": "every number of ranks (not only powers of two), all contributions, every commutative associative operation", "why_tests_cant": "unbounded number of ranks; odd splits are the delicate case", "anchors": ["src/wrappers/mpi/communication.hpp: Communication::allReduce", "src/wrappers/mpi/communication.cpp: RecursiveHalving"]}
{"id": "C20", "title": "Hand-written collectives never deadlock and are deterministic", "statement": "For every number of ranks, every schedule of the ranks and every choice of the MPI library to buffer a standard-mode send or to block until it is received, all-reduce, all-gather, gather, scatter and the targeted all-to-all terminate on every rank, leave no message behind and give the same result.", "quantifier": "every rank count, every interleaving, every buffering decision for every message", "why_tests_cant": "the number of schedules is exponential and the buffering threshold is a property of the library, so a deadlock can stay hidden with small messages", "anchors": ["src/wrappers/mpi/communication.hpp: allReduce, allGatherUnknownSize, gatherUnknownSize, scatterv, scatter, allToAllWithDataSizeAndTarget"]}
{"id": "C21", "title": "allGatherUnknownSize concatenates in rank order", "statement": "After allGatherUnknownSize every rank holds the concatenation of the data of all ranks in rank order, whatever the (different, possibly zero) sizes.", "quantifier": "every number of ranks and every per-rank content", "why_tests_cant": "unbounded", "anchors": ["src/wrappers/mpi/communication.hpp: allGatherUnknownSize"]}
{"id": "C22", "title": "gatherUnknownSize concatenates on the root", "statement": "gatherUnknownSize gives the root the concatenation of the data of all ranks in rank order together with the offset of each rank's part.", "quantifier": "every number of ranks and every per-rank content", "why_tests_cant": "unbounded", "anchors": ["src/wrappers/mpi/communication.hpp: gatherUnknownSize"]}
{"id": "C23", "title": "scatterv and scatter deliver each rank its part", "statement": "scatterv/scatter deliver to each rank exactly the part of the root's buffer described by the displacements (or uniform block), for any number of ranks.", "quantifier": "every number of ranks and every displacement vector", "why_tests_cant": "unbounded", "anchors": ["src/wrappers/mpi/communication.hpp: scatterv, scatter"]}
{"id": "C24", "title": "Targeted all-to-all delivers exactly the addressed messages", "statement": "After allToAllWithDataSizeAndTarget every rank holds exactly the messages addressed to it by all ranks: none lost, none duplicated, none foreign.", "quantifier": "every number of ranks and every set of messages", "why_tests_cant": "unbounded; odd splits forward messages through a third rank", "anchors": ["src/wrappers/mpi/communication.hpp: allToAllWithDataSizeAndTarget"]}
{"id": "C25", "title": "exscan and getDistribution give consistent global ranges", "statement": "exscan turns each rank's count into its global offset and returns the global total on every rank; getDistribution returns the same borders on every rank, starting at 0, with the r-th gap equal to rank r's count.", "quantifier": "every number of ranks and counts", "why_tests_cant": "unbounded", "anchors": ["src/wrappers/mpi/communication.hpp: exscan, getDistribution"]}
{"id": "C26", "title": "balance redistributes without loss", "statement": "Communication::balance moves data between ranks so that the concatenation over ranks is unchanged and every rank ends with exactly its share of the target distribution.", "quantifier": "every current and target distribution", "why_tests_cant": "unbounded pairs of distributions with arbitrary overlaps", "anchors": ["src/wrappers/mpi/communication.hpp: balance"]}
{"id": "C27", "title": "Wildcard exchanges of successive rounds never mix", "statement": "exchangeUnknownSize called repeatedly delivers in each round, to every rank, exactly the buffers its neighbours sent to it in that round, for every symmetric neighbourhood and every schedule, although messages are received from any source with one tag.", "quantifier": "every neighbourhood graph, every number of rounds, every interleaving", "why_tests_cant": "a fast neighbour overtaking by a whole round is a rare race", "anchors": ["src/wrappers/mpi/communication.hpp: exchangeUnknownSize"]}
{"id": "C28", "title": "Chain shifts and one-sided neighbour exchanges never deadlock", "statement": "receiveLower / receiveUpper shift one buffer along the chain of ranks; receiveLowerKnownSize, receiveUpperKnownSize, receiveLowerUnknownSize and receiveUpperUnknownSize deliver exactly the buffers of the lower (upper) neighbours and keep the other receive buffers; for every number of ranks, schedule and buffering choice.", "quantifier": "every rank count, interleaving and buffering decision", "why_tests_cant": "deadlock would depend on the buffering threshold", "anchors": ["src/wrappers/mpi/communication.hpp: receiveLower, receiveUpper, receiveLowerUnknownSize, receiveUpperUnknownSize, receiveLowerKnownSize, receiveUpperKnownSize"]}
{"id": "C29", "title": "sendVariousTargets delivers each message once", "statement": "sendVariousTargets delivers to each rank exactly the buffers addressed to it, reports their sources in increasing order, and leaves no message pending, whenever no rank lists a target twice. (With a duplicate target the receiver counts one message only: the call hangs or leaves a message behind; this is proved as a counterexample.)", "quantifier": "every duplicate-free target list on every rank, every number of calls and every schedule", "why_tests_cant": "all communication graphs", "anchors": ["src/wrappers/mpi/communication.hpp: sendVariousTargets"]}
{"id": "C30", "title": "Parser::split and join are inverse", "statement": "Splitting a joined list of separator-free non-empty pieces returns the pieces; every piece returned by split contains no separator, and split never drops or reorders non-separator characters.", "quantifier": "every string and separator set", "why_tests_cant": "all strings", "anchors": ["src/basis/utilities/parser.cpp: Parser::split, join", "src/basis/utilities/parser.h"]}
{"id": "C31", "title": "Parser::strip removes exactly surrounding white space and comments", "statement": "strip returns the part of the line before the comment character with leading white space removed; the result contains no comment character and stripping is idempotent.", "quantifier": "every string", "why_tests_cant": "all strings", "anchors": ["src/basis/utilities/parser.cpp: Parser::strip, removecomments"]}
{"id": "C32", "title": "kD-tree leaves partition the points", "statement": "Building the tree permutes the points only inside the node ranges; on each level the node ranges partition all points, points left of a split are not greater than those right of it, and queries by boxes visit every leaf that holds a box overlapping the query (boxes that only touch it may be missed).", "quantifier": "every point set, bucket size and depth", "why_tests_cant": "all point sets", "anchors": ["src/basis/structures/kdtree.h", "src/basis/structures/intervaltree.h"]}
{"id": "C33", "title": "XML writer output is read back as the same tree", "statement": "An XML tree written by the library and loaded again has the same elements, attributes, nesting and text.", "quantifier": "every tree with names and values free of markup characters", "why_tests_cant": "unbounded nesting", "anchors": ["src/basis/utilities/xml.cpp: XML::store, XML::load"]}
{"id": "C34", "title": "Configuration tokenizer never reads past the text and classifies every character", "statement": "Tokenising any configuration file yields a token sequence independent of white space and comments around tokens; quoted/bracketed values keep their content; the tokenizer terminates.", "quantifier": "every input text", "why_tests_cant": "all texts", "anchors": ["src/config/reader/tokenizer.cpp: Tokenizer::_next"]}
{"id": "C35", "title": "Configuration lookup is case-insensitive and deterministic", "statement": "Looking up a parameter by name finds it regardless of letter case, the first registered parameter wins, and setting a value changes that parameter only and calls exactly its listeners, in order, only when the value was accepted.", "quantifier": "every configuration object, every name and value sequence", "why_tests_cant": "all histories of registrations and assignments", "anchors": ["src/config/configuration.cpp: ECFParameter::setValue, ECFObject::_getParameter"]}
{"id": "C36", "title": "Flag sets survive printing and parsing", "statement": "Printing the value of a set-of-flags parameter and parsing it again gives the same set.", "quantifier": "every set of flags and every option table", "why_tests_cant": "2^n sets", "anchors": ["src/config/holders/valueholder.h: ECFEnumHolder / ENUM_FLAGS"]}
{"id": "C37", "title": "Sparse format conversion preserves the matrix", "statement": "convert_csx_csy between row- and column-compressed form gives a well-formed matrix with the same (row, column, value) entries, column indices sorted within each row when the source visits rows in order, and all accesses in range; converting back restores the original for sorted matrices.", "quantifier": "every well-formed sparse matrix of any size and pattern", "why_tests_cant": "all matrices", "anchors": ["src/math/operations/convert_csx_csy.cpp: perform_internal", "src/math/operations/convert_csx_dny.cpp"]}
{"id": "C38", "title": "Transposition map", "statement": "The map computed by transpose_csx_csx_map / convert_csx_csy_map is a permutation of the stored entries and applying it to any later value array gives the transposed / converted matrix of these values.", "quantifier": "every pattern and every later value array", "why_tests_cant": "all matrices", "anchors": ["src/math/operations/convert_csx_csy_map.cpp", "src/math/operations/transpose_csx_csx_map.cpp"]}
{"id": "C39", "title": "Sparse permutation permutes the matrix", "statement": "permute_csx_csx gives B with B(i,j) = A(rowperm(i), colperm(j)), well-formed, with sorted indices in each row; the triangular variant keeps a triangular matrix triangular and represents the symmetrically permuted symmetric matrix.", "quantifier": "every well-formed matrix and every pair of permutations", "why_tests_cant": "all matrices and permutations", "anchors": ["src/math/operations/permute_csx_csx.cpp", "src/math/operations/permute_csx_csx_map.cpp"]}
{"id": "C40", "title": "Submatrix extraction", "statement": "submatrix_csx_csy gives exactly the entries with row in [r0,r1) and column in [c0,c1), shifted to the origin; the number of entries announced by the setup equals the number written, so no access is out of range.", "quantifier": "every matrix and every index window inside it", "why_tests_cant": "all matrices and windows", "anchors": ["src/math/operations/submatrix_csx_csy.cpp", "src/math/operations/submatrix_csx_csy_map.cpp"]}
{"id": "C41", "title": "Splitting into quadrants and concatenating is the identity", "statement": "quadrisect_csx_csy followed by concat_csx gives back the original matrix for every cut.", "quantifier": "every matrix and cut", "why_tests_cant": "all matrices and cuts", "anchors": ["src/math/operations/quadrisect_csx_csy.cpp", "src/math/operations/concat_csx.cpp"]}
{"id": "C42", "title": "Sparse matrix-vector product", "statement": "gemv_csx computes y = alpha*A*x + beta*y exactly (over any commutative ring) in both storage orders; with beta = 0 the old content of y (even uninitialised) does not matter.", "quantifier": "every matrix, vectors and scalars", "why_tests_cant": "all matrices", "anchors": ["src/math/operations/gemv_csx.cpp"]}
{"id": "C43", "title": "Completing a triangular matrix", "statement": "complete_csx_csy_map expands an upper or lower triangular matrix to the full symmetric/hermitian one, well-formed in every row (also empty ones), and its map reproduces the values for any later value array.", "quantifier": "every triangular matrix", "why_tests_cant": "only patterns with trailing empty rows expose the defect", "anchors": ["src/math/operations/complete_csx_csy_map.cpp"]}
{"id": "C44", "title": "Pivots and trails", "statement": "pivots_trails_csx returns for each row/column the first/last stored index, and the completed versions are the running max/min, so completed pivots and trails are monotone and bound the stored pattern.", "quantifier": "every sparse pattern with sorted indices", "why_tests_cant": "all patterns", "anchors": ["src/math/operations/pivots_trails_csx.cpp"]}
{"id": "C45", "title": "Pruning keeps exactly the non-empty rows and columns", "statement": "pruning_subset_csx lists exactly the non-empty rows/columns in increasing order, and the announced counts equal the lengths written.", "quantifier": "every sparse pattern", "why_tests_cant": "all patterns", "anchors": ["src/math/operations/pruning_subset_csx.cpp"]}
{"id": "C46", "title": "Element assembly reaches the right matrix entry", "statement": "The FETI pattern builder gives every element-matrix entry a position in the CSR pattern whose row and column are the element's degrees of freedom, so that scattering element matrices through the permutation assembles exactly the sum of the element matrices.", "quantifier": "every mesh connectivity, every number of degrees of freedom per node, full and upper storage", "why_tests_cant": "all meshes", "anchors": ["src/analysis/pattern/matrix.uniform.feti.cpp: buildPattern", "src/analysis/pattern/matrix.uniform.direct.cpp"]}
{"id": "C47", "title": "Gluing operator and its transpose are adjoint", "statement": "applyB and applyBt satisfy <B x, y> = <x, Bt y> for all vectors, and the threaded version gives the same result for every interleaving of the domains (exact arithmetic).", "quantifier": "every decomposition, vectors and thread interleaving", "why_tests_cant": "all sparsity patterns and schedules", "anchors": ["src/feti/common/applyB.h"]}
{"id": "C48", "title": "serializededata::balance keeps contents and aligns threads", "statement": "Balancing serialized data over threads keeps the sequence of items and their boundaries and makes data and boundary distribution agree: each thread owns whole items.", "quantifier": "every boundary array and thread distribution", "why_tests_cant": "all distributions", "anchors": ["src/basis/containers/serializededata.h: serializededata::balance"]}
{"id": "C49", "title": "serializededata::permute reorders items", "statement": "permute reorders items (with all their data) by the permutation for uniform and non-uniform item sizes, and the new boundaries are consistent with the moved data.", "quantifier": "every serialized data and permutation", "why_tests_cant": "all permutations", "anchors": ["src/basis/containers/serializededata.h: permute"]}
{"id": "C50", "title": "tarray pack/unpack round-trips", "statement": "Packing a thread array and unpacking it restores size, thread distribution and data.", "quantifier": "every array, alignment and address the allocator returns", "why_tests_cant": "depends on the address returned by the allocator: with an alignment request and a misaligned address the data are lost", "anchors": ["src/basis/containers/tarray.hpp: pack, unpack, allocate"]}
{"id": "C51", "title": "Thread-local distributions become one global distribution", "statement": "threadDistributionToFullDistribution shifts each thread's local borders so that the concatenation is the border sequence of the concatenated data.", "quantifier": "every number of threads and local borders including empty threads", "why_tests_cant": "unbounded", "anchors": ["src/basis/utilities/utils.hpp: threadDistributionToFullDistribution"]}
{"id": "C52", "title": "uniqueAllGatherUnknownSize gives everyone the sorted union", "statement": "If each rank contributes a sorted duplicate-free list, every rank ends with the sorted duplicate-free union.", "quantifier": "every number of ranks and lists", "why_tests_cant": "unbounded", "anchors": ["src/wrappers/mpi/communication.hpp: uniqueAllGatherUnknownSize"]}
{"id": "C53", "title": "allGatherInplace completes the array of every rank", "statement": "If every rank holds its part at its own offset of an array of the total size, then after allGatherInplace the array of every rank is the concatenation of all parts in rank order and nothing outside of the array is written.", "quantifier": "every number of ranks, every (possibly zero) part sizes, every initial content of the other parts, every schedule", "why_tests_cant": "unbounded number of ranks and sizes; the offset bookkeeping depends on the position of the rank in every level of the tree", "anchors": ["src/wrappers/mpi/communication.hpp: allGatherInplace"]}
{"id": "C54", "title": "Known-size neighbour exchange", "statement": "exchangeKnownSize, exchangeKnownSizeInPlace and gatherUniformNeighbors give every rank the buffer of each of its neighbours at that neighbour's position, for every symmetric neighbourhood, and never deadlock.", "quantifier": "every symmetric neighbourhood, buffer contents and sizes, every schedule and buffering decision", "why_tests_cant": "all graphs and all interleavings", "anchors": ["src/wrappers/mpi/communication.hpp: exchangeKnownSize, exchangeKnownSizeInPlace, gatherUniformNeighbors"]}
{"id": "C55", "title": "stringwithcommas prints the number", "statement": "stringwithcommas(n) is the decimal representation of n with commas that separate groups of three digits counted from the right; removing the commas gives the decimal representation.", "quantifier": "every number", "why_tests_cant": "all numbers of the type; the leading group and the zero padding have many cases", "anchors": ["src/basis/utilities/parser.cpp: Parser::stringwithcommas"]}
{"id": "C56", "title": "StringCompare is a strict weak ordering", "statement": "The case-insensitive comparison used as the comparator of maps is irreflexive, transitive and its incomparability is an equivalence equal to caseInsensitiveEq; the prefix and suffix tests are true exactly for prefixes and suffixes up to the case and never read outside of the strings.", "quantifier": "every pair and triple of strings, every tolower", "why_tests_cant": "all triples of strings", "anchors": ["src/basis/utilities/parser.h: StringCompare"]}
{"id": "C57", "title": "Sorting permutations are permutations that sort", "statement": "sorting_permutation gives two mutually inverse permutations such that reading the vector through the first one gives an ordered sequence with the same values, whatever order the sorting algorithm leaves equal values in; inverting any permutation gives its inverse.", "quantifier": "every vector and every sorting algorithm that meets the std::sort contract", "why_tests_cant": "one run sees one vector and one implementation of std::sort", "anchors": ["src/math/operations/sorting_permutation.cpp", "src/math/primitives_new/permutation_view_new.h"]}
{"id": "C58", "title": "Item iterators visit exactly the items of a thread", "statement": "Iterating serialized data from begin(t) to end(t) visits exactly the items assigned to thread t, each with the range of its own values, and all threads together visit every item once.", "quantifier": "every item sizes, thread distribution and thread", "why_tests_cant": "all distributions, including threads without items and items without values", "anchors": ["src/basis/containers/serializededata.h: iterator_base::move, inititerators"]}
{"id": "C59", "title": "Duplicate nodes are merged consistently", "statement": "The search of duplicate nodes merges only points connected by a chain of points within the tolerance, never merges a point that is the target of another merge, and leaves no two points within the tolerance; with zero tolerance it computes exactly the classes of points with equal coordinates.", "quantifier": "every set of points, every tolerance, every implementation of sort and nth_element and every order of the parallel loop", "why_tests_cant": "all point sets; the search combines the tree, its borders and a sweep", "anchors": ["src/input/builders/input.cpp: Input::searchDuplicateNodes"]}
{"id": "C60", "title": "Equality constraints glue the domains and prescribe Dirichlet values", "statement": "On all processes together, the constraints B x = c built by EqualityConstrains hold if and only if all copies of every degree of freedom without a Dirichlet condition are equal and all copies of the others have the prescribed value; processes sharing a multiplier agree on it and on the order, and the rows of B are orthonormal. enforce writes the prescribed values to all copies and changes nothing else.", "quantifier": "every decomposition to domains and processes, every set of Dirichlet conditions, every vector, every implementation of std::sort and every schedule of messages", "why_tests_cant": "all decompositions and multiplicities; agreement between processes that only see their part", "anchors": ["src/analysis/linearsystem/constrains/equalityconstrains.cpp: EqualityConstrains::set, update, enforce"]}
{"id": "C61", "title": "Dual vectors and matrices are synchronized over processes", "statement": "After the synchronization of a dual vector or matrix, every process has for each of its multipliers the sum of the values of all processes having the multiplier, whatever the order of the messages; the dual dot product counts every multiplier exactly once.", "quantifier": "every number of processes, every distribution of domains, multipliers and values, every schedule of messages", "why_tests_cant": "all decompositions and all interleavings of messages; multipliers shared by several processes, neighbours without a common multiplier", "anchors": ["src/feti/common/dual_map.cpp: Dual_Map::set", "src/feti/common/vector_dual.cpp: Vector_Dual::synchronize, dot", "src/feti/common/matrix_dual.cpp: Matrix_Dual::synchronize"]}
{"id": "C62", "title": "The conjugate projected gradients solve the dual problem", "statement": "In exact arithmetic, the residual kept by PCPG is the residual of the current multipliers, which keep satisfying G x = e; the directions are conjugate, the multipliers minimise the energy over the directions used so far, and after at most as many steps as the dimension of the range of the projector the projected residual is zero and the multipliers are finite.", "quantifier": "every field, every space of multipliers, all symmetric operators F and S definite on the range of the projector, every right-hand side and every number of steps", "why_tests_cant": "all operators and all dimensions; a test sees one system and rounding hides errors of the recurrences", "anchors": ["src/feti/iterativesolver/pcpg.cpp: PCPG::solve"]}
{"id": "C63", "title": "The iterative solver stops for the reported reason and reports success only for a solution", "statement": "PCPG ends, and stops at the first iteration with a reason (the criterion is met, stagnation, the limit of iterations, invalid data) and reports this reason and the number of iterations. When it reports success, the returned multipliers are finite and meet the stopping criterion.", "quantifier": "all operators, all configurations of the stopping criteria and every sequence of norms including NaN and infinity", "why_tests_cant": "all sequences of norms and all sizes of the stagnation buffer; a converged run hides that a different iterate was checked", "anchors": ["src/feti/iterativesolver/iterativesolver.cpp: setInfo, updateInfo", "src/feti/iterativesolver/pcpg.cpp: PCPG::solve"]}
{"id": "C64", "title": "The dual operator, its right-hand side and the primal solution", "statement": "On any distribution over processes the implicit Total FETI dual operator applied to a synchronized vector of multipliers X gives, on every process and for every order of messages, B K+ BT X; the dual right-hand side is B K+ f - c; the primal solution is K+ (f - BT X) on each domain. The operator is symmetric if the local solvers are. The constraints computed by the equality constraints (C60) satisfy the assumptions.", "quantifier": "every number of processes, domains, multipliers and unknowns, all matrices, all local solvers, all values and stale buffers, every schedule of messages", "why_tests_cant": "all decompositions, sizes and interleavings; a missing term in a multiplier shared by three processes or a stale buffer only shows on some decompositions", "anchors": ["src/feti/dualoperator/totalfeti.implicit.cpp: update, _apply, apply, toPrimal, _applyK", "src/feti/common/applyB.h: applyBt, applyB", "src/feti/common/vector_dual.cpp: synchronize"]}
{"id": "C65", "title": "The lumped and Dirichlet preconditioners", "statement": "The lumped preconditioner gives B K BT X and the Dirichlet preconditioner gives B S BT X on every process for every order of messages, where S acts on the unknowns with constraints; the Dirichlet preconditioner finds exactly these unknowns in increasing order, and moving their values in place to the front and back loses nothing that is used.", "quantifier": "every number of processes, domains, multipliers and unknowns, every set of unknowns with constraints, all Schur complements and stale buffers, every schedule of messages", "why_tests_cant": "all sets of unknowns with constraints: in-place moves are only wrong for some orders of indices", "anchors": ["src/feti/preconditioner/lumped.cpp: apply", "src/feti/preconditioner/dirichlet.cpp: update, apply"]}
{"id": "C66", "title": "The orthogonal projector of Total FETI", "statement": "On any distribution over processes and threads the projector applied to a synchronized vector X gives, on every process and for every order of messages, P X = X - GT W G X; likewise PT, GT W G, GT W z and RT W G X, and e = -R f is known to every process, where W is stored as one dense matrix or as two triangular factors by rows of processes. If W is the inverse of G GT then G P X = 0, P keeps every X with G X = 0, P is idempotent and symmetric and the initial multipliers GT W e satisfy G x = e.", "quantifier": "every number of processes, threads, domains, multipliers and kernel vectors (also none on a process), all matrices and values, all stale work vectors and buffers, every schedule of messages", "why_tests_cant": "all decompositions and interleavings; shared multipliers must be counted once, and a wrong offset or a missing synchronization only shows on some numbers of processes", "anchors": ["src/feti/projector/projector.cpp: apply, applyT, apply_GtintGGtG, apply_GtintGGt, apply_RinvGGtG, _apply_G, _apply_Gt, _apply_invGGt, _apply_invL, _apply_invU, _apply_R", "src/feti/projector/vector_kernel.cpp: set, synchronize", "src/feti/common/vector_dual.cpp: copyToWithoutHalo", "src/feti/projector/tfeti.orthogonal.symmetric.cpp: update"]}
{"id": "C67", "title": "The coarse space of Total FETI: the dual graph, G and G GT", "statement": "On any distribution over processes, the dual graph computed from the map of multipliers knows, on every process, its own domains and all domains sharing a multiplier with them, with the right owners, numbers of rows and multipliers. The assembled G has the rows -R BT of the own domains and, after the exchange, the identical rows of the adjacent higher domains of other processes. The gathered pattern and values of GGT are on every process the sorted upper triangle of G GT over all multipliers, every multiplier counted once. The multipliers and gluing matrices made by the equality constraints satisfy the assumptions.", "quantifier": "every number of processes, domains, kernels per domain (also zero), multipliers, all gluing matrices, kernels and values, stale arrays, every schedule of messages", "why_tests_cant": "all decompositions: a row sent to a neighbour twice or a product of rows with different sets of multipliers only shows for some adjacency of domains and processes", "anchors": ["src/feti/projector/dualgraph.cpp: pushVertex, set", "src/feti/projector/tfeti.orthogonal.symmetric.cpp: set, _setG, _updateG, _setGGt, _updateGGt"]}
{"id": "C68", "title": "The solution of the FETI problem from the multipliers", "statement": "For multipliers X with G X = e, the vector u = K+ (f - BT X) + R (the kernel amplitudes W G r), r being the dual residual, satisfies the equilibrium K u + BT X = f on every domain, and the jump B u - c is the projected residual; if the projected residual is zero then (u, X) solves the saddle point problem, and u minimises the energy among all vectors satisfying the constraints. Without G X = e the equilibrium fails.", "quantifier": "every number of domains, unknowns, kernels and multipliers, all matrices K with a generalized inverse K+ and kernels R, all loads f and gaps c, all multipliers", "why_tests_cant": "all decompositions and singular matrices: the sign of the kernel part and the use of the pseudoinverse only cancel for the right combination of G, e and the residual", "anchors": ["src/feti/iterativesolver/iterativesolver.cpp: reconstructSolution", "src/feti/dualoperator/totalfeti.implicit.cpp: update, toPrimal, BtL", "src/feti/projector/tfeti.orthogonal.symmetric.cpp: update"]}
{"id": "C69", "title": "The whole FETI solver on distributed data", "statement": "The dual right-hand side, the conjugate projected gradients with the implicit dual operator, the orthogonal projector and any of the preconditioners NONE, LUMPED and DIRICHLET, and the reconstruction of the solution, run by all processes with all messages and reductions, end on every process for every order of messages with the parts of one global vector u, of BT X and of the multipliers X, and with the same report on all processes; u and X are in equilibrium, the jump differs from c by exactly the projected residual w, and (u, X) solves the problem if and only if w = 0. For symmetric positive semidefinite matrices, independent constraints and a definite preconditioner some iterate, at most as many as there are multipliers, solves the problem.", "quantifier": "every number of processes, domains, unknowns, kernels and multipliers, all matrices, loads and gaps, all configurations and numbers of iterations with finite values, all stale work vectors and buffers, every schedule of messages", "why_tests_cant": "all decompositions, interleavings and numbers of iterations; a single missing synchronization in the long chain of operators shows only for some distributions", "anchors": ["src/feti/iterativesolver/pcpg.cpp: solve", "src/feti/iterativesolver/iterativesolver.cpp: reconstructSolution, setInfo, updateInfo", "src/feti/dualoperator/totalfeti.implicit.cpp", "src/feti/projector/projector.cpp", "src/feti/common/vector_dual.cpp", "src/feti/preconditioner"]}
{"id": "C70", "title": "Full orthogonalization in the conjugate projected gradients", "statement": "OrthogonalizedPCPG keeps r = d - F x and w = P^T r; all directions are conjugate (p_i, F p_j) = 0 for i != j and the new residual is orthogonal to all of them, even when F or the preconditioner is not fully symmetric (only the form of F on the range of P is needed to be symmetric); for definite F some iterate, at most the dimension many, has w = 0; with a symmetric preconditioner the iterates are those of PCPG; every iterate minimises the energy over l plus the span of the directions; the loop stops at the first iterate satisfying one of the criteria and reports the right reason.", "quantifier": "every vector space, all operators with the stated algebraic properties, all numbers of iterations, all configurations with max_stagnation >= 1", "why_tests_cant": "all operators and numbers of iterations; conjugacy to all earlier directions is lost by a wrong sign or index only after several iterations", "anchors": ["src/feti/iterativesolver/orthopcpg.cpp: solve", "src/feti/iterativesolver/iterativesolver.cpp: setInfo, updateInfo"]}
{"id": "C71", "title": "The orthogonalized solver on distributed data", "statement": "update and solve of OrthogonalizedPCPG, with the growing matrices of directions in memory (Matrix_Dual_Orthogonal), all messages and reductions, end on every process for every order of messages and every content of allocated memory with the parts of one global solution, of BT X and of the multipliers X and with the same report, also when the solver object is used again for the next time step; u and X are in equilibrium, the jump differs from c by the projected residual, and (u, X) solves the problem if and only if it is zero.", "quantifier": "every number of processes, domains, unknowns, kernels, multipliers and iterations, all matrices and loads, all distributions of the multipliers, all stale memory, every schedule, every sequence of solves", "why_tests_cant": "distributions with several intervals per process or processes without own multipliers, the reallocation of the matrices and the state left by earlier solves", "anchors": ["src/feti/iterativesolver/orthopcpg.cpp: solve", "src/feti/iterativesolver/orthopcpg.h: update", "src/feti/common/matrix_dual_orthogonal.h: next, apply, applyT", "src/feti/common/matrix_dual.h: resize"]}
{"id": "C72", "title": "The convergence of the modified proportioning with reduced gradient projections", "statement": "For consistent bounds, a symmetric positive definite operator, a positive definite preconditioner, alpha below two over the norm of the operator, delta positive (below one half without gradproj) and a feasible initial guess, the loop of MPRGP divides by no zero, every iterate satisfies the bounds, its gradient is H x - b, the function never increases and approaches its minimum in the bounds with a linear rate, the tested gradient is zero exactly at the minimum, bounds the distance from it, and becomes as small as requested after a bounded number of iterations.", "quantifier": "every number of variables, all operators, preconditioners, bounds and right-hand sides over every ordered field (the end over every Archimedean one), every initial guess, every number of iterations and all admissible settings", "why_tests_cant": "convergence and feasibility are statements about all operators and all sequences of conjugate gradient, mixed, half and proportioning steps", "anchors": ["src/feti/iterativesolver/mprgp.cpp: restrictToFeasibleSet, updateReducedGradient, updateFreeAndActiveSet, getFeasibleStepLength, run"]}
{"id": "C73", "title": "The report of MPRGP and its settings", "statement": "MPRGP::solve reports convergence exactly when the stopping condition is satisfied within max_iterations iterations, and the stopping condition gets satisfied for all settings the configuration allows, in particular for the default alpham.", "quantifier": "every problem and all settings, every number of iterations", "why_tests_cant": "the boundary of the iteration limit and the limit value of the step length appear for particular problems only", "anchors": ["src/feti/iterativesolver/mprgp.cpp: run, solve", "src/config/ecf/linearsolver/feti.cpp: alpham, delta, gradproj, max_iterations"]}
{"id": "C74", "title": "The result of the semimonotonic augmented Lagrangians", "statement": "SMALBE::solve (homogenization of the equality constraint of the kernels, augmented and scaled operator, outer loop with the update of mu and M, reconstruction of the amplitudes) ends; its multipliers satisfy the bounds; when it ends with the precision reached, the equality constraint of the kernels and the optimality conditions hold up to the two tested residuals, and with zero residuals the multipliers minimise the quadratic function under the bounds and the equality constraint, with the reported amplitudes of the kernels as Lagrange multipliers; the report says whether the precision was reached.", "quantifier": "every number of multipliers and kernels, all symmetric positive semidefinite operators, all bounds with zero inside, all loads, all settings with positive rho and alpham over every ordered field, every square root function, every number of iterations", "why_tests_cant": "optimality is a statement about all admissible multipliers; the threshold of the homogenization, the count of iterations and infeasible loads matter for particular inputs only", "anchors": ["src/feti/iterativesolver/smalbe.cpp: solve", "src/feti/iterativesolver/mprgp.cpp: run, updateStoppingGradient"]}
{"id": "C75", "title": "The base functions of all elements", "statement": "The tables N, dN set by BaseFunctions for every element code and every number of integration points are a basis: they are defined in every point, the functions sum to one, their derivatives sum to zero, dN is the exact derivative of N in the direction of its coordinate (the tetrahedra store the coordinates in another fixed order); in the points used for the nodes the functions are one in their node and zero in the others, and each row of NN/dNN belongs to the node that reads it.", "quantifier": "all fourteen element codes, every number of integration points (explicit and degraded tables), all points of the reference element", "why_tests_cant": "a test evaluates the tables in the integration points only; the derivative is a statement about all points, and a wrong sign in one of several hundred polynomials shows in particular meshes only", "anchors": ["src/analysis/assembler/general/basefunctions.h: BaseFunctions, GaussPointsDegraded, GaussPointsDegradedSetter, NNOrder"]}
{"id": "C76", "title": "The geometry of an element", "statement": "IntegrationKernel computes in a point the determinant of the derivative of the position of the element and derivatives dND by the coordinates of the mesh such that every represented function gets its exact gradient (in particular linear functions of the coordinates, the patch test); it divides by zero exactly where the element is degenerate; the boundary kernels compute the area and a unit normal perpendicular to the boundary element; the evaluation in the nodes is defined for the nodes of regular elements.", "quantifier": "all element codes in two and three dimensions, every number of integration points, all points, all coordinates of the nodes, all nodal values", "why_tests_cant": "the coordinates of the nodes are arbitrary reals; a regular element with singular nodes is accepted by every test that looks at the integration points", "anchors": ["src/analysis/assembler/general/op.integration.h: IntegrationKernel::coords, coordsInNodes", "src/analysis/assembler/general/math.h: inv22, inv33, determinant22, determinant33", "src/analysis/assembler/structuralmechanics/kernel.h: 483-490"]}
{"id": "C77", "title": "The integration rules and the volume of an element", "statement": "The integration points and weights of every element integrate all polynomials of the degree of their rule over the reference domain (the Gauss rules up to degree 2n-1 in each coordinate, the tables of the triangles, tetrahedra and prisms up to their total degrees), exactly or up to the rounding of the printed decimals; the weights sum to the volume of the domain; the measured volume of an element is the integral of the determinant of its Jacobian for every element whose rule has that degree, in particular the area of a quadrilateral or triangle and the volume of a tetrahedron.", "quantifier": "all fourteen element codes, every number of integration points the code accepts, all polynomials of the stated degrees, all coordinates of the nodes", "why_tests_cant": "exactness is a statement about all polynomials of a degree and all shapes of elements; one wrong digit in a table of several hundred decimals changes results by less than the tolerance of a comparison of solutions", "anchors": ["src/analysis/assembler/general/basefunctions.h: 33-49, 80-99, 129-146, 200-241, 307-340, 378-404, 478-514, 527-646, 971-1059", "src/analysis/assembler/heattransfer/kernel.h: 218-241"]}
{"id": "C78", "title": "The measure of a region and the prescribed heat flow", "statement": "The volume of an interval of elements and the surface of a boundary, computed chunk by chunk in SIMD lanes, are the sums of the measures of the elements; the loads of a boundary sum to the heat flux times its area, and the loads of a prescribed heat flow sum to this heat flow.", "quantifier": "every number of lanes, every number of elements, all boundary elements, all coordinates and all values of the flow", "why_tests_cant": "the result depends on the number of elements modulo the number of lanes of the processor the program was compiled for", "anchors": ["src/analysis/assembler/general/op.coordinates.h: CoordinatesKernel::simd", "src/analysis/assembler/heattransfer/kernel.h: setElementKernel, setBoundaryKernel, runBoundaryKernel", "src/analysis/assembler/heattransfer/op.externalheat.h: ExternalHeatKernel", "src/analysis/assembler/heattransfer.cpp: 51-67, 325-343"]}
{"id": "C79", "title": "The element matrix of heat conduction", "statement": "For every element, number of integration points, conductivity model (isotropic, diagonal, symmetric, anisotropic), rotation of the material, thickness and nodal coordinates, the kernel computes the quadrature of t grad(S) . C grad(T) with the tensor turned by the rotation; it divides by zero exactly if the Jacobian is singular in an integration point; rows and columns sum to zero; the matrix is symmetric unless the material is anisotropic and reproduces linear temperatures exactly (patch test); with a conducting material, positive thickness and positive Jacobians it is positive semidefinite and vanishes only on constant temperatures.", "quantifier": "all element codes and numbers of points with enough points (all used by the kernels), all coordinates, materials, thicknesses and nodal temperatures", "why_tests_cant": "the statement quantifies over all real coordinates, tensors and temperatures; tests evaluate single elements", "anchors": ["src/analysis/assembler/heattransfer/op.conductivity.h: ConductivityKernel", "src/analysis/assembler/heattransfer/op.matrix.conductivity.h: MatrixConductivityKernel", "src/analysis/assembler/heattransfer/kernel.h: 316-393", "src/analysis/assembler/heattransfer.cpp: 250-260"]}
{"id": "C80", "title": "The heat conduction of a domain", "statement": "The sum of the element matrices that the assembly of C46 puts into the matrix of a domain is symmetric and positive semidefinite, creates no heat, vanishes exactly on the temperatures constant on every connected part of the domain, and with a prescribed temperature in every connected part the temperatures are determined by the equations.", "quantifier": "all domains of conducting elements of any types and sizes", "why_tests_cant": "quantifies over all meshes and temperatures; a singular or indefinite matrix appears only for special meshes", "anchors": ["src/analysis/assembler/general/filler.h: MatrixFillerKernel", "src/analysis/assembler/heattransfer.cpp: 240-320", "src/analysis/assembler/heattransfer/op.externalheat.h: ExternalHeatKernel::simd", "src/analysis/linearsystem/regularization/regularization.heattransfer.cpp"]}
{"id": "C81", "title": "The element matrix of linear elasticity", "statement": "For every element, integration rule, Young modulus, Poisson ratio and nodal coordinates, the kernel computes the quadrature of e(v) : C e(u) with the law of Hooke (plane strain, plane stress, axisymmetric, space); it is defined exactly if the Jacobians are regular and the material is; the matrix is symmetric; displacements of the form a + W x with skew W cause no forces; displacements with constant strain are reproduced exactly (patch test); with a stable material and positive Jacobians it is positive semidefinite and its kernel are the displacements without strain in the integration points, which are the rigid ones.", "quantifier": "all element codes and numbers of points, all coordinates, moduli and displacements", "why_tests_cant": "the statement quantifies over all real coordinates, materials and displacements; a wrong coefficient of the material law keeps the matrix symmetric and plausible", "anchors": ["src/analysis/assembler/structuralmechanics/op.material.h: MaterialStructuralMechanicsKernel", "src/analysis/assembler/structuralmechanics/op.matrix.elasticity.h: MatrixElasticityKernel", "src/analysis/assembler/general/math.h: multAtBA", "src/analysis/assembler/structuralmechanics/kernel.h: 405-450"]}
{"id": "C82", "title": "Inner forces and tangent of large displacements", "statement": "For the Kirchhoff material with large displacements the vector of inner forces of an element is the derivative of the strain energy with the Green strain and the element matrix is the derivative of the inner forces, in every state; the matrix is symmetric; a rotation of the body causes no inner forces and does not change the energy; the inner forces and their moments about the deformed positions are in balance.", "quantifier": "all elements, coordinates, displacements and directions, plane strain, plane stress and space", "why_tests_cant": "a Newton method with a wrong tangent still converges for small loads; the consistency is a statement about derivatives in every state", "anchors": ["src/analysis/assembler/structuralmechanics/op.material.h: MaterialStructuralMechanicsKernel", "src/analysis/assembler/structuralmechanics/op.matrix.elasticity.h: MatrixElasticityKernel", "src/analysis/assembler/general/math.h: multAtB, multAtBA, multABAt"]}
{"id": "C83", "title": "The elasticity of a domain and its rigid motions", "statement": "The sum of the element matrices of a domain is symmetric and positive semidefinite; rigid motions of the domain cause no forces; on a domain whose elements are joined stiffly the kernel are exactly the rigid motions; supports that exclude all rigid motions determine the displacements.", "quantifier": "all domains of stable elements with positive Jacobians, all displacements", "why_tests_cant": "quantifies over all meshes and displacements; the regularization of FETI relies on the kernel exactly being the rigid motions", "anchors": ["src/analysis/assembler/general/filler.h: MatrixFillerKernel", "src/analysis/assembler/structuralmechanics/op.matrix.elasticity.h: MatrixElasticityKernel", "src/analysis/linearsystem/regularization/regularization.elasticity.cpp: setR1"]}
{"id": "C84", "title": "The thickness of plates under small and large displacements", "statement": "The matrix of an element for small displacements is the tangent of the large displacements in the rest state, including the thickness of a plate.", "quantifier": "all elements, coordinates, materials and thicknesses", "why_tests_cant": "both analyses are plausible on their own; the statement compares them for all elements", "anchors": ["src/analysis/assembler/structuralmechanics/op.matrix.elasticity.h: 58, 78"]}
{"id": "C85", "title": "Forces of acceleration and rotation", "statement": "The right-hand side of an element does the work of the acceleration and of the centrifugal forces of the angular velocity on every displacement of the nodes; the total force of a constant acceleration is the mass times the acceleration.", "quantifier": "all elements, integration rules, coordinates, densities, accelerations, angular velocities, thicknesses and displacements", "why_tests_cant": "the statement ranges over all geometries and fields; tests rotate around an axis of coordinates, where the missing products vanish", "anchors": ["src/analysis/assembler/structuralmechanics/op.acceleration.h: 17-55", "src/analysis/assembler/structuralmechanics/op.angularvelocity.h: 17-58", "src/analysis/assembler/structuralmechanics.cpp: 399-401", "src/analysis/assembler/structuralmechanics/kernel.h: 405-442"]}
{"id": "C86", "title": "The mass matrix of an element", "statement": "The mass matrix is symmetric, its quadratic form is the integral of the density times the square of the field, it is positive definite, the mass of a rigid motion is the mass of the element, and the mass matrix times a constant acceleration gives the forces of the acceleration.", "quantifier": "all elements, integration rules, coordinates, densities, thicknesses and fields", "why_tests_cant": "definiteness and the equality of forces concern all fields of all elements", "anchors": ["src/analysis/assembler/general/op.matrix.mass.h: 20-98", "src/analysis/assembler/heattransfer/kernel.h: 190-194, 259, 360"]}
{"id": "C87", "title": "Pressure on a boundary", "statement": "The right-hand side of a boundary element does the work of the pressure on every displacement; the resultant of a constant normal pressure depends on the boundary of the element only and vanishes for closed lines and surfaces.", "quantifier": "all boundary elements, coordinates, pressures, directions and displacements; closed lines of any number of straight and curved edges, closed surfaces of any number of triangles", "why_tests_cant": "the balance concerns all closed meshes, tests look at a few", "anchors": ["src/analysis/assembler/structuralmechanics/op.pressure.h: 40-76", "src/analysis/assembler/structuralmechanics/op.normalpressure.h: 33-70", "src/analysis/assembler/structuralmechanics.cpp: 456", "src/analysis/assembler/general/op.integration.h: 217-302"]}
{"id": "C88", "title": "Neo-Hookean material", "statement": "The stress and the elasticity of the compressible neo-Hookean material are the first and second derivatives of its stored energy with respect to the right Cauchy-Green tensor; without deformation the stress vanishes and the elasticity is that of the Kirchhoff material.", "quantifier": "all right Cauchy-Green tensors, moduli and directions of change", "why_tests_cant": "derivatives in all directions in all states; tests look at a few deformations, mostly without shears in the planes of the third axis", "anchors": ["src/analysis/assembler/structuralmechanics/op.material.h: 362-420, 665-671"]}
{"id": "C89", "title": "Plasticity of Bonet and Wood", "statement": "After a step the stress is within the yield surface of the saved state and on it if the step was plastic; evaluating the saved state with the same deformation is elastic and gives the same stress; the plastic flow keeps the volume; the tangent table is the derivative of the stress; every integration point has its own state.", "quantifier": "all stretches, deformations, states and moduli; any number of chunks, points and nodes", "why_tests_cant": "the consistency concerns all states and directions of change; tests run a few load paths", "anchors": ["src/analysis/assembler/structuralmechanics/op.material.h: 40-60, 422-560", "src/analysis/assembler/structuralmechanics/kernel.h: 381-500"]}
{"id": "C90", "title": "Sum of sparse matrices", "statement": "The sum of two sparse matrices of the same size has exactly the union of their patterns and the sums of their values, fills the counted space, and is sorted if both are.", "quantifier": "all pairs of well-formed matrices of any sizes and patterns", "why_tests_cant": "the merge of two slices has a branch for every order of the columns; tests visit a few patterns", "anchors": ["src/math/math.h: 149-231", "src/feti/dualoperator/totalfeti.implicit.cpp: 57, 83"]}
{"id": "C91", "title": "Analytic regularization", "statement": "The matrix of a domain plus its regularization matrix is symmetric positive definite, and its inverse is a generalised inverse of the matrix of the domain: it solves all systems whose right-hand side is orthogonal to the kernel R1; R1 is the kernel.", "quantifier": "all domains of any size, all numberings, all fix points that fix the rigid motions", "why_tests_cant": "definiteness and the generalised inverse concern all vectors and all meshes; tests only observe converging runs", "anchors": ["src/analysis/linearsystem/regularization/regularization.heattransfer.cpp: 8-40", "src/analysis/linearsystem/regularization/regularization.elasticity.cpp: 301-577"]}
{"id": "C92", "title": "Transient heat transfer", "statement": "A load step of transient heat transfer makes the steps that fit into it and ends; each step is a step of the trapezoidal rule that meets the prescribed temperatures and the balance M V + K U = f of its time, and for alpha >= 1/2 the temperatures of a body without loads do not grow.", "quantifier": "all matrices, loads, prescribed values, time steps and numbers of steps; all solvers that report success only for solutions", "why_tests_cant": "stability and the balance concern all matrices and any number of steps; tests run a few models for a few steps", "anchors": ["src/analysis/physics/heat.transient.linear.cpp: 109-225"]}
{"id": "C93", "title": "Linear transient structural mechanics", "statement": "A step is a step of Newmark's method: the prescribed displacements, the equation of motion M W + K U = f at the new time and Newmark's formulas hold; a step rejected by the coupling leaves the motion and the time; without loads the energy does not grow if alpha >= 1/2 and delta >= alpha / 2.", "quantifier": "all matrices, loads, time steps, parameters and numbers of steps; all solvers that report success only for solutions", "why_tests_cant": "stability is a statement about all matrices and any number of steps; an unstable choice of parameters can look fine in a short test", "anchors": ["src/analysis/physics/structuralmechanics.transient.linear.cpp: 100-256", "src/config/ecf/physics/physicssolver/transientsecondorderimplicit.cpp"]}
{"id": "C94", "title": "Nonlinear transient structural mechanics", "statement": "After each iteration of a step Newmark's formulas and the prescribed displacements hold, the right-hand side is the imbalance of the generalized-alpha method, a motion that the iteration does not change satisfies the equation of motion, and a step reported as converged satisfies the criteria within the allowed iterations; for linear inner forces the iteration reaches the balance.", "quantifier": "all inner forces, matrices, loads, parameters, time steps and numbers of iterations", "why_tests_cant": "the formulas have a dozen coefficients that only show in dynamic runs with damping and old accelerations", "anchors": ["src/analysis/physics/structuralmechanics.transient.nonlinear.cpp: 107-400"]}
{"id": "C95", "title": "Newton's method of the steady analyses", "statement": "A substep reported as converged satisfies the criteria and the prescribed values within the allowed iterations; a state that an iteration does not change is in balance; with linear inner forces the first iteration converges to the solution; the substeps are at equidistant times and the last one at the final time.", "quantifier": "all inner forces, loads, solvers, norms and numbers of substeps and iterations", "why_tests_cant": "the loop ends in many ways, tests see the ones of their models", "anchors": ["src/analysis/physics/structuralmechanics.steadystate.nonlinear.cpp: 97-306", "src/analysis/physics/heat.steadystate.nonlinear.cpp: 80-193"]}
{"id": "C96", "title": "System of the harmonic analysis", "statement": "The system of each frequency is the equation of motion (K - w^2 M + i w C)(re + i im) = fre + i fim, written in real numbers with the real and the imaginary parts of each node next to each other; the frequencies are equidistant from the lowest one.", "quantifier": "all meshes, numbers of degrees of freedom, matrices, loads, frequencies and numbers of samples", "why_tests_cant": "the positions in the matrix of the solver depend on the pattern; a test with one mesh and without damping cannot tell which entries are wrong for others", "anchors": ["src/analysis/physics/structuralmechanics.harmonic.real.linear.cpp: 83-150", "src/analysis/math/math.physics.h: 11-161", "src/analysis/math/selection.h"]}
{"id": "C97", "title": "Prescribed values in the direct solvers", "statement": "The solutions of the system after the prescribed values are set are exactly the vectors with these values that satisfy the original equations of the other degrees of freedom; a symmetric matrix stays symmetric, and for symmetric types the solver is given its upper triangle.", "quantifier": "all matrices with a symmetric pattern, all sets of prescribed degrees of freedom, values and right-hand sides", "why_tests_cant": "the order of the eliminations and neighbouring prescribed values matter; tests with few prescribed values miss pairs of them", "anchors": ["src/analysis/linearsystem/directsolver.cpp: 14-62", "src/analysis/linearsystem/sequentialsolver.h: 32-79"]}
{"id": "C98", "title": "Pattern of the direct solvers", "statement": "For one process the pattern of the matrix of the direct solvers contains for each node exactly the degrees of freedom of the node and of the nodes of its elements, in strictly increasing order; the positions of the elements and of the boundary elements point to the entries of their degrees of freedom, and the assembly through them yields the sum of the element matrices.", "quantifier": "all meshes, numberings, numbers of degrees of freedom, intervals, boundary regions, element matrices and contents of uninitialised memory", "why_tests_cant": "the number of meshes is unbounded; errors in the positions appear for particular numberings and numbers of degrees of freedom only", "anchors": ["src/analysis/pattern/matrix.uniform.direct.cpp: 66-261", "src/analysis/assembler/general/filler.h: 47-94"]}
{"id": "C99", "title": "Gradient and flux of the elements", "statement": "The temperature gradient of an element is the mean over its integration points of the gradient of the interpolated temperature, the flux the mean of the product of the turned conductivity tensor with it; linear temperatures give their exact gradient; and the values are stored at the elements they belong to and nowhere else, in whatever order the intervals are processed.", "quantifier": "all elements, numbers of integration points, coordinates, temperatures, materials, numbers of lanes, intervals and orders of the intervals", "why_tests_cant": "wrong values look plausible; the stores behind the end of the array depend on the numbers of elements of the intervals and on the timing of the threads", "anchors": ["src/analysis/assembler/heattransfer/op.gradient.h: 12-98", "src/analysis/assembler/heattransfer/op.flux.h: 13-184", "src/analysis/assembler/heattransfer/kernel.h: 316-377", "src/analysis/assembler/heattransfer.cpp: 51", "src/analysis/assembler/assembler.cpp: 61-72"]}
{"id": "C100", "title": "Advection of heat", "statement": "With a translation motion the matrix of an element is the quadrature of ∫ t ∇S·(C + σ h |u| I)∇T + ∫ t (S + τ u·∇S) u·∇T, where u is the velocity times density and heat capacity and τ the parameter of the streamline upwind method for the element's size along the flow and its Péclet number.", "quantifier": "all elements, numbers of integration points, coordinates, materials, flows and values of σ", "why_tests_cant": "the matrix is not symmetric and no reference exists for general flows; wrong indices vanish for small Péclet numbers, the accumulation depends on the order of the elements", "anchors": ["src/analysis/assembler/heattransfer/op.advection.h: 8-110", "src/analysis/assembler/heattransfer/kernel.h: 293-362", "src/analysis/assembler/heattransfer/op.conductivity.h: 20-33", "src/wrappers/simd/simd.h: 139-142"]}
{"id": "C101", "title": "Stresses and strains of elements and nodes", "statement": "The results of a point are the principal values in descending order, the components and the von Mises value of the stress and of the Green strain; the value of an element is the mean over its integration points and is stored at the element for all numbers of elements, lanes and orders of the intervals; the value of a node is the mean over the elements with the node.", "quantifier": "all stress and strain tensors, numbers of points, elements, lanes, intervals, orders of intervals and elements, interleavings of threads", "why_tests_cant": "the values are only looked at; a missing principal stress gives plausible numbers, a lost addition depends on the timing of the threads", "anchors": ["src/analysis/assembler/structuralmechanics/op.stress.h: 36-304", "src/analysis/assembler/structuralmechanics/op.stress.cpp", "src/analysis/assembler/general/math.cpp: 19-89", "src/analysis/assembler/structuralmechanics/kernel.h: 382-499", "src/analysis/assembler/structuralmechanics.cpp: 197-208, 861-877", "src/analysis/assembler/general/op.coordinates.h: 40-60", "src/analysis/assembler/assembler.cpp: 59-72"]}
{"id": "C102", "title": "Synchronization of the data of the nodes", "statement": "After the synchronization every process has at each of its nodes, in every direction, the sum of the values of all processes with the node, hence all processes with a node agree; the averages of the nodes are the means over the elements of all processes.", "quantifier": "all numbers of processes and directions, all distributions of nodes with the common nodes of two processes in the same order, all values", "why_tests_cant": "a wrong pointer to the neighbours or offset only shows with particular neighbourhoods of three or more processes; sums of wrong nodes look plausible", "anchors": ["src/mesh/store/nodestore.cpp: 326-365", "src/analysis/assembler/structuralmechanics.cpp: 197-208, 861-877"]}
{"id": "C103", "title": "Statistics of the monitors", "statement": "For every component of a result the monitors show the least and greatest value, the mean, the Euclidean norm, and the least and greatest absolute value over the nodes or elements of a region, over all processes, with every shared node counted once.", "quantifier": "all numbers of processes, regions, distributions of nodes and elements and values up to the largest double", "why_tests_cant": "only the shown numbers are compared, mostly for positive results, for which wrong absolute values are not noticed", "anchors": ["src/mesh/store/statisticsstore.cpp: 13-20", "src/mesh/store/nodestore.cpp: 282-324", "src/mesh/store/elementstore.cpp: 359-396", "src/wrappers/mpi/communication.cpp: 66-76", "src/output/monitors/monitoring.cpp: 181-189, 345-357"]}

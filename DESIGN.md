# Formal model of ESPRESO: design

The code is read as text from `/repo` (C++); nothing is compiled or executed.  The model is a Lean 4
project in `/verif/lean`.  Theorems are about the model; the tie to the code is the line citation on
every definition.

## Conventions

* `size_t` values are `Nat` where the property is not about wrap-around; where the code relies on or is
  broken by unsigned wrap-around the model uses `BitVec 64` / arithmetic modulo `2^64` explicitly.
* Arrays are `List`; a read is `l[i]?`, a write is `wr l i v`, both in `Option`.  `none` is undefined
  behaviour (out-of-range access, read of an uninitialised cell, ...).  Theorems show `some`.
* `eslog::error` / `globalerror` abort: a distinct outcome, never a silent default.
* Loops become structural recursion or folds; fuel only where stated, and then the theorems hold for every sufficient fuel and show that it is
  not exhausted.
* OpenMP loops over disjoint ranges: modelled sequentially; where the interleaving matters (`applyB_threaded`)
  every interleaving is modelled.
* MPI: every rank runs a small program (`send`, `recv`, finished).  A configuration is one program per rank
  plus FIFO channels.  A standard-mode send may be buffered or may synchronise with the receive; every choice and
  every interleaving is a possible execution.
* Specifications do not use helpers of the model; the larger ones are in `Verif/Spec`, the small ones beside the theorem.
* Non-vacuity examples stand beside the theorems.

## Layout

`Verif/Base/*` memory, loops and MPI semantics; `Verif/Spec/*` specifications; `Verif/Model/*` models; `Verif/Proof/*` lemmas;
`Verif/Prop/*` the property theorems `Cnn_*` with examples.  A name ending in `_partial` proves a restricted form of the property.
Names such as `_wrong`, `_lost`, `_undefined`, `_deadlock` are witnesses that the unrestricted claim is false of the code.
`seeded/` holds the edits of the model the theorems were tried against.

## Plan per property

| id | model | proof |
|---|---|---|
| C01-C03 | byte-list encoder/decoder over an inductive universe of packable shapes (`packing.h`, `packer.h`); the old content of the target is an argument of `unpack` | round trip by induction on the shape; C03: counterexample for the empty list of strings plus partial theorem |
| C04 | loop of `sizesToOffsets` and of the two-level variant | induction; closed form with `take`/`sum` |
| C05 | `distribute` with ceiling division | arithmetic; partition statement |
| C06 | `removeDuplicates` with in-place writes; `std::sort` as an abstract sorted permutation | loop invariant |
| C07, C08 | padded distribution and merge tree; `std::inplace_merge` by contract (merge of two sorted adjacent ranges) | induction over levels: blocks of 2^k parts are sorted |
| C09 | double loop of `permute` | pointwise characterisation |
| C10-C13 | `BitVec 64`-style arithmetic on the rotation loops | induction on the depth; recursion on quadrants |
| C14 | interval iteration | induction |
| C15, C16 | arena state machine | invariant; wrap-around counterexample |
| C17, C18 | circular allocator state machine with waiting requests | invariant over all interleavings; counterexample for the unlocked reset |
| C19-C24, C28, C52 | process programs over recursive halving; schedule/buffering independent semantics | general confluence theorem + one explicit run per collective by induction over the halving tree |
| C25, C26 | `exscan`, `getDistribution`, `balance` with MPI collectives as contracts | prefix sums, interval overlap |
| C27, C29 | wildcard receive + barrier state machine | invariant over all interleavings |
| C30, C31 | character loops | induction |
| C32 | tree build with abstract nth_element contract; traversal | invariant by level |
| C33 | printer and loader automaton | round trip by induction on the tree |
| C34 | tokenizer automaton; the character behind the end of the text is a parameter | induction on the items of a text |
| C35 | object with parameters, variables and listeners as a state machine | the state described by the history of operations, induction on the history |
| C36 | printer and parser of values with a table of options | induction on the table; round trip of split/strip/join (C30, C31) |
| C37-C45 | CSX arrays, counting sort etc. | loop invariants; entries as a multiset/function |
| C46 | pattern builder | sorted-unique row lists and position search |
| C47 | `applyB`, `applyBt` | sums over a commutative ring; interleavings commute |
| C48-C50 | serialized data | list algebra; counterexample for aligned pack |
| C51 | local to global borders | induction |
| C60 | multipliers, matrices and right-hand side of the equality constraints, one process; the processes together with C47 and C61 | loop invariants; the multipliers of a process characterised as a set, the common order by a strict total order; sums over a field |
| C61 | map of shared multipliers, packing, non-blocking exchange and addition | positions of the shared multipliers in both processes agree; every schedule completes |
| C62 | conjugate projected gradients on one vector of all multipliers; operators are parameters | conjugacy and orthogonality by induction, linear independence of the preconditioned residuals, minimality by orthogonality to the span |
| C63 | norms with infinity and NaN, ring buffer of the stagnation check, loop | invariant of the ring buffer; first check with a reason; witnesses for the false parts |
| C64 | `_apply`, `update` (right-hand side), `toPrimal` of the implicit operator; the local sparse solver is a function; `Glued`: B1 and D2C are parts of one matrix | loops over domains write `mk n g`; C47 for a process; C61 for the sum over processes; entries of multipliers of other processes are zero; C60 gives the hypotheses |
| C65 | `Lumped::apply`, `Dirichlet::update` (indices) and `apply`; the products with K and the Schur complement are functions | as C64; invariants of the in-place gather and scatter over increasing positions |
| C66 | `Projector` applications as one program per process, `Vector_Kernel`, `copyToWithoutHalo`, the vector e; the rows of G and of the inverse are given (`Configured`, `Kernels`) | `Proof/MpiSeq`: programs composed in sequence complete for every schedule if the parts do; loops write `mk n g`; C53 and C61 for the communications; the algebra of P by finite sums |
| C67 | `DualGraph::set` (without clusters), `_setG`, `_updateG`, `_setGGt`, `_updateGGt` with `std::map` as a sorted list; factorisation of GGt is not modelled | `Proof/OMap`, `Proof/DualGraph` (groups of the map of multipliers), `Proof/CoarseSpace` and `Proof/CoarseProduct` (loops as lists of rows), then all processes together with C25, C27, C53 |
| C68 | the formulas of `update`, `toPrimal` and `reconstructSolution` for one global problem (C64, C66, C69 connect them to the programs) | algebra of sums over domains and multipliers: K K⁺ acts as the identity on vectors orthogonal to the kernel |
| C69 | `update` (right-hand sides), `PCPG::solve`, `reconstructSolution`, `EmptyPreconditioner` as programs of the processes with all messages; the stopping criteria of C63; `MPI_Allreduce` by its contract (met by the all-reduce of C19); a division by zero ends the run | `Proof/FetiSolve`: every operator on all processes by C61, C64-C66, the iterations by simulation of C62 on functions of multipliers; finite termination from C62 with the form of F split over domains |
| C70 | `OrthogonalizedPCPG::solve` on vectors of all multipliers, with the stopping criteria of C63 | induction over the iterations with the invariant that the directions are conjugate; comparison with the recurrence of C62 |
| C71 (partial) | `OrthogonalizedPCPG::update/solve` and `Matrix_Dual_Orthogonal` as programs of the processes: memory blocks with stale contents, growth by doubling, `dgemv` of the reference BLAS with its quick return | `Proof/OrthoRun`: the stored rows are the shares of the directions of C70; proved for the first solve and one non-empty interval per process; three negative theorems for the rest |
| C72 | `MPRGP::run` with the boxes of `restrictToFeasibleSet`, the sets, gradients and step lengths on vectors of all multipliers; the feasible step length is `⊤` without a limit | `Proof/Mprgp`: the projected step is the one of the variational inequality, the directions satisfy `p·g = g_free·z`, a step either decreases the function in proportion or makes one more variable active; `Proof/MprgpRun`: rate, error, end |
| C73 (partial) | the same with the report of `MPRGP::solve` | `C73_report_partial`; false otherwise: `C73_exact_max`, `C73_cycle`, `C73_stalls` |
| C74 (partial) | `SMALBE::solve` on vectors of all multipliers over the loop of C72; `std::sqrt` is an arbitrary function, `normPFP` an arbitrary positive number | feasibility, optimality conditions with the tested residuals, the solution for zero residuals: `C74_feasible`, `C74_result_partial`, `C74_solution_partial`, `C74_report_partial`. False otherwise: `C74_small_load`, `C74_never_converged`, `C74_converged_as_error`, `C74_never_ends`; that the loop ends for feasible problems is not proved |
| C75 | `BaseFunctions` for all codes: the polynomials of `set`, the degraded elements with merged nodes (`NNOrder`), the calls for the nodes, in any field | partition of unity, derivatives (`HasDerivAt` over the reals), nodal values: `C75_basis`, `C75_nodes`, `C75_node_index`, the collapsed elements `C75_collapsed`; the swapped rows of TRIANGLE3: `C75_triangle_rows_wrong` |
| C76 (partial) | `IntegrationKernel` for elements and boundaries with `inv22`, `inv33`, one SIMD lane, division by zero as `none`; the square root over the reals | `C76_jacobian`, `C76_defined`, `C76_gradient` (chain rule), `C76_linear`, `C76_face`, `C76_edge`. False for the nodes of degraded elements: `C76_merged_nodes_wrong` |
| C77 | the points and weights of all rules (Gauss rules, tables of decimals as rationals), `getorder`, the loop of the volume of one element in one lane | moments of all monomials in closed form against the iterated integrals (beta function), linear combination for polynomials, degrees of the determinant by closure rules (`Proof/PolyDegree`): `C77_exact`, `C77_weights`, `C77_volume`, closed forms for straight elements |
| C78 (partial) | `CoordinatesKernel::simd` and the loops over chunks with all lanes, `ExternalHeatKernel` with parameters constant on the boundary | `C78_measure` (the exact result with the elements counted twice), `C78_measure_partial`, `C78_load`, `C78_flow_partial`. False with stale lanes: `C78_measure_wrong`, `C78_flow_wrong` |
| C79 | `ConductivityKernel`, `MatrixConductivityKernel` and the loop over the integration points for one element; the values of the expressions are functions of the point | the loops add the entries of the quadrature (`C79_form`, any field); the real properties from the basis functions (C75, C76), positivity of the rules; kernel: derivatives vanishing on the grid of a Gauss rule vanish everywhere (combinatorial Nullstellensatz), for the explicit rules every difference of nodal values is an explicit combination of the derivatives |
| C80 | the sum of the element matrices (`assembled` of C46) of a domain of conducting elements | sums of the forms of the elements, connectivity by a relation; `C80_convection_wrong`: convection is missing in the matrix |
| C81 | `MaterialStructuralMechanicsKernel` for the Kirchhoff material, `MatrixElasticityKernel`, the products of `general/math.h` and the loop over the integration points for one element | the products add the entries of `B' C B` (`Proof/Elasticity`), these are the contraction of the strains with the law of Hooke (`Proof/ElasticLaw`, `Proof/ElasticPoint`), sum over the points (`C81_form`, any field); definiteness by sums of squares; rigid motions and patch test from C76; partial: that displacements without strain are rigid is proved for TRIANGLE3, SQUARE4 and TETRA4 only (`C81_rigid_only_partial`) |
| C82 | the branch of large displacements of the same kernels (plane strain, plane stress and space; the axisymmetric one ends with an error in the code) | inner forces and matrix are the first and second variation (`C82_form`); energy and work are polynomials of degree at most four of the parameter along a direction, their derivative is computed (`C82_tangent`); rotations: `F' F = 1`; balance: symmetric stresses |
| C83 | the sum of the element matrices (`assembled` of C46) of a domain of elastic elements | sums of the forms of the elements; two (plane) or three (space) common fixed nodes join the rigid motions of neighbours; partial: elements TRIANGLE3, SQUARE4 and TETRA4 for the kernel |
| C84 | as C81 and C82 | `C84_scaled`: the tangent of the rest state is the thickness times the matrix of small displacements; the property holds in space and for thickness one (`C84_same_partial`) and is false otherwise (`C84_thickness_missing`) |
| C85 | `Model/Loads.lean`: the additions of `AccelerationKernel` and `AngularVelocityKernel` in every point, `Spec/Loads.lean`: the work of `rho (a - o x (o x x))` on the interpolated field | the whole right-hand side is the work for every displacement (`C85_work_partial`: coordinates interpolated or constant data, axes of rotation along a coordinate in space), defined iff no determinant vanishes (`C85_defined`), weights `C85_weight`, `C85_weight_solid`; false otherwise: `C85_angular_wrong`, `C85_coordinates_wrong` |
| C86 | `massAdds`, `elementMass`, `heatMass` | `C86_form` gives the bilinear form; `C86_symmetric`, `C86_energy_nonneg`, `C86_kernel`, `C86_definite_partial` (rules that see all nodes; false for PRISMA15 with 9 points, `C86_prisma15_singular`), `C86_total`, `C86_free_fall_partial`; false for plates and heat: `C86_thickness_wrong`, `C86_capacity_wrong` |
| C87 | `pressureLoads`, `normalPressureLoads`, `elementPush` with the normals of `op.integration.h` | `C87_work_partial` (constant data or axisymmetric), `C87_resultant`, `C87_edge`, `C87_closed`, `C87_triangle`, `C87_closed_surface`; false for pressures depending on the place: `C87_coordinates_wrong` |
| C88 | `neoHookean`: `neoJ2`, `neoInverse`, `neoStress`, `neoElasticity` as written; spec is the stored energy as a function of matrices and `HasDerivAt` | false: `C88_inverse` (the table is the inverse exactly for `Lucky` tensors: C13 = C23 = 0, or C11 = C22 and C13² = C23²), `C88_shear_wrong`, `C88_undefined`; `C88_material_partial` (first and second derivative for `Lucky` tensors), `C88_rest` |
| C89 | `returnMap`, `saveState`, `stateWalk`; eigenpairs of LAPACK are inputs, the pull-back and `pbar` are not modelled | `C89_yield`, `C89_again`, `C89_state`, `C89_incompressible`, `C89_tangent_elastic`, `C89_tangent_partial` (changes that keep the volume), `C89_positions_partial` (without stresses); false: `C89_tangent_wrong`, `C89_positions_wrong` |
| C90 | `combine`, `sumCombined`; `alpha` is 1 in all calls and not used by the code | `C90_sum`, `C90_sizes`; without sorted slices the values stay right but a column is stored twice: `C90_unsorted` |
| C91 | `heatRegMat`, `heatR1`, `elasticRegMat`, `updateR1`; `std::sort` and LAPACK's solver by contracts that are shown to be satisfiable; the choice of the fix points (METIS, random, spherical), the algebraic regularization and the SVD are not modelled | `C91_heat`, `C91_heat_kernel`, `C91_elastic` (any matrix with the kernel `R1`), `C91_elastic_kernel_partial`, `C91_elastic_domain_partial` (triangles, squares, tetrahedra), `C91_feti`, `C91_solver` (the hypotheses of the dual operator); false for a domain of one node: `C91_single_node` |
| C92 | `heatStep`, `heatLoop`, `heatInit`; vectors and matrices of the whole system as functions, the assembler (with its flags `updated`) and the solver as parameters with contracts (`FlagsOk`, `SolverOk`) | `C92_step`, `C92_terminates`, `C92_run`, `C92_exact`, `C92_stable`, `C92_methods`; the start with zero rates: `C92_lag_wrong`; a duration that is no multiple of the step: `C92_short_wrong` |
| C93 | `newmarkStep`, `newmarkSteps`, `newmarkInit`; the coupling by `cap` (the limit of the time step) and `restart` | `C93_step`, `C93_restart`, `C93_stable` (by the energy balance `newmark_energy`), `C93_conserves`, `C93_swing`; `C93_default_wrong`, `C93_start_wrong`, `C93_stale_wrong` |
| C94 | `predictor`, `corrector`, `criteria`, `genAlphaLoop`, `genAlphaStep`; the inner forces and their tangent as a parameter, the solver (whose report the code ignores) by a contract | `C94_newmark`, `C94_fixed_point`, `C94_prescribed`, `C94_reported`, `C94_linear_partial`, `C94_two_iterations_partial`; false with damping: `C94_damping_wrong`; the predictor: `C94_predictor_wrong` |
| C95 | `newtonIteration`, `newtonLoop`, `newtonSubstep`, `newtonRun`, `heatNewton`; norms and the assembler as parameters | `C95_prescribed`, `C95_fixed_point`, `C95_reported`, `C95_linear`, `C95_times`, `C95_heat` |
| C96 | `Sel.target`, `scatter`, `gather`, `copyMatrix`, `addMatrix`, `copyVector`, `harmonicMatrix`, `harmonicRhs`, `harmonicParts`, `frequencies`; a matrix is addressed by the row and the position in the row, leaving the row is `none` | `C96_matrix`, `C96_vectors`, `C96_harmonic_partial`, `C96_part`, `C96_frequencies`; false: `C96_damping`, `C96_upper`, `C96_gather` |
| C97 | `clearColumn`, `fixDof`, `setDirichlet`, `upperRow` for one process; a matrix is addressed by the row and the position in the row | `C97_solution`, `C97_entries`, `C97_symmetric`, `C97_restricted`, `C97_upper` |
| C98 | `countNodes`, `fillDiagonal`, `fillNodes`, `listBlocks`, `blockPosition`, `blockPermutation`, `buildDirect` for one process; `serializededata` as lists of lists, uninitialised memory is arbitrary | `C98_pattern`, `C98_unique`, `C98_symmetric`, `C98_dirichlet`, `C98_assemble`; sorted rows by `uniqueRows_spec` of C46, positions by `lower_bound` in a sorted row |
| C99 | `TemperatureGradientKernel`, `TemperatureFluxKernel`, the loop over the points, `store` with lanes and checked indices, the intervals in an arbitrary order | `C99_gradient`, `C99_flux`, `C99_linear` (by `C76_linear`), `C99_store_partial`; negations `C99_overrun`, `C99_store_wrong`, `C99_threads` |
| C100 | `AdvectionKernel` in two and three dimensions with `positive_guarded_recip`, the loop over the points with the conductivity computed in every point or once, the elements of an interval; `sqrt` is a non-negative function | `C100_form_partial` against the forms with width, Péclet number and upwind parameter; negations `C100_thickness`, `C100_space_wrong`, `C100_accumulates` |
| C101 | `StressKernel` in two and three dimensions with `eigSym22Desc` and `eigSym33Desc`, the six results of a point, the chunks with the number of their elements, the intervals in an arbitrary order, the multiplicity of the nodes and the averages; two threads as interleaved loads and stores. LAPACK's eigenvalues are a parameter with a contract shown to be satisfiable (`eig_exists`) | `C101_results`, `C101_mises`, `C101_strain`, `C101_plane`, `C101_store`, `C101_average_partial` against the mean of the values; negations `C101_plane_wrong`, `C101_race` |
| C102 | `NodeData::synchronize`: the pointer to the neighbours, packing, the exchange as in C27, adding with offsets; the multiplicity and the averages of several processes. The order of common nodes, sorted neighbours and sorted ranks are assumptions on the mesh (`Mesh`) | `C102_sum`, `C102_agree` against the sum over the processes with the node; `C102_average_partial` against the mean over the elements of all processes; `C102_order_needed` |
| C103 | `Statistics::reset`, `NodeData::statistics` with the moving iterator of the ranks, `ElementData::statistics`, `_mergeStatistics`, the last step, the call of the monitors; real numbers | `C103_nodes` against least and greatest elements, mean and norm, `C103_once`, `C103_elements_partial`; negations `C103_elements_wrong`, `C103_absmax_wrong`, `C103_average_wrong`, `C103_overrun` |

Floating point is replaced by exact arithmetic in an arbitrary commutative ring (C42, C46, C47, C61, C64-C67) or field (C60, C62, C63, C68-C71) or ordered field (C72-C74) — rounding is outside the model.

## Trusted base

* The kernel of Lean 4.33.0 and at most the axioms `propext`, `Classical.choice`, `Quot.sound` (table at the end).
  No own axioms, no `sorry`, no `native_decide`, no `bv_decide`.
* The reading of the C++ text.  Nothing connects the model to the compiled program except the citations; compiler, OpenMP runtime,
  standard library and MPI library are outside of the model.
* The contracts below.

### Contracts

* `std::sort`: the result is a sorted permutation of the range.  Where ties matter (C32, C57, C59, C60) the sort is a parameter and the theorem holds for
  every function meeting the contract; elsewhere equal keys are equal values.  `std::nth_element` likewise (C32, C59).
  `std::inplace_merge`, `std::lower_bound`, `std::unique`, `memcpy` by their standard contracts.
* Arithmetic on values: exact, in a commutative ring, additive group or ordered group.  Rounding, NaN and infinities are not modelled
  (C05, C32, C42, C46, C47, C59-C61).
* Indices and sizes are unbounded naturals or integers unless the property is about wrap-around (C10-C16).  Overflow of `esint` is not modelled.
* OpenMP loops over disjoint data run in index order.  Every interleaving is modelled for `applyB_threaded` (C47), the circular
  allocator (C17, C18) and the parallel loop of C59.  Weak memory behaviour is not modelled.

### MPI semantics (`Base/Mpi.lean`, `Model/Wildcard.lean`, `Model/Nonblocking.lean`)

* Messages between a source and a destination with one tag arrive in order; messages with other tags do not interfere.
* Each `MPI_Send` may be buffered or may wait for the receiver; each choice is a possible execution.
* `MPI_Isend`/`MPI_Irecv` with `MPI_Waitall`: the send is buffered or delivered before the wait ends; a receive is performed at the wait.
* Wildcard receives (`MPI_ANY_SOURCE` with probe) take any waiting message; `MPI_Barrier` lets nobody leave before everybody has entered.
* Collectives of the library (`MPI_Allgather`, `MPI_Exscan`, `MPI_Bcast`, `MPI_Allreduce`) are trusted by contract.
* Failures of MPI and limits on message sizes are not modelled.

## Not modelled

Input parsers and builders apart from `searchDuplicateNodes`; output; `mesh` (preprocessing, store); the physics kernels and assemblers apart from the base functions, the geometry, the integration rules and the measure of elements, the heat through a boundary, the conduction of heat, the elasticity of the Kirchhoff material, the mass and the loads of acceleration, rotation and pressure;
the constraints other than the equality constraints; FETI projectors other than the orthogonal one of Total FETI, dual operators other than the implicit one, numerical factorization and Schur complements, iterative solvers other than PCPG, OrthogonalizedPCPG and MPRGP (the loop on vectors of all multipliers, not its messages; the estimate of the greatest eigenvalue is not modelled); wrappers of external libraries; GPU code; BEM domains and boundary regions
of the pattern; the direct (non-FETI) pattern; dense matrix operations; the configuration reader on top of the tokenizer, nested configuration
objects and metadata.

## Defects found in the code

Each of these is a theorem with a concrete witness unless marked as a note.

| where | what | theorem |
|---|---|---|
| `arena_allocator.cpp` get_free_size | wraps around when the padded offset passes the end | `C16_arena_free_size_wrong` |
| `allocator_new.h` get_remaining_capacity | the same | `C16_arena_new_remaining_wrong` |
| `arena_allocator.cpp` allocate | a huge request wraps around and is granted | `C15_huge_request_is_granted` |
| `cbmb_allocator.cpp` | three permanently blocked histories: pool size, race, alignment | `C18_wrong_pool_size`, `C18_wrong_race`, `C18_wrong_alignment` |
| `cbmb_allocator.cpp` | allocation outside of a transaction may overlap a held block | `C17_unlocked_reset_overlaps` |
| `communication.hpp` sendVariousTargets | a repeated target deadlocks or loses a message | `C29_duplicates_deadlock`, `C29_duplicates_lost` |
| `parser.cpp` split | drops an empty last piece | `C30_split_last_lost` |
| `parser.cpp` strip | not idempotent for lines with a comment | `C31_strip_not_idempotent` |
| `parser.cpp` stringwithcommas | first group too long from 10^12 on | `C55_large_group` |
| `parser.h` caseSensitivePreffix | reads outside of a shorter string | `C56_caseSensitivePreffix_undefined` |
| `intervaltree.cpp` traverse | strict comparisons miss touching and flat boxes | `C32_touching_missed` |
| `permute_csx_csx_map.cpp` | hermitian values moved to the other triangle are not conjugated | `C39_hermitian_not_permuted` |
| `submatrix_csx_csy.cpp` | loses entries of unordered slices | `C40_unordered_lost` |
| `complete_csx_csy_map.cpp` | pointers of trailing empty rows stay uninitialised | `C43_trailing_rows_lost` |
| `complete_csx_csy_map.cpp` | conjugates the wrong triangle when the orders differ | `C43_conjugated_wrong` |
| `matrix.uniform.feti.cpp` | upper storage loses entries of elements with repeated nodes | `C46_degenerate` |
| `matrix.uniform.feti.cpp` | a row used by no element gets a spurious entry | `C46_unused_row` |
| `serializededata.h` balance | default distribution with several values per item leaves the arrays | `C48_uniform_default_undefined` |
| `serializededata.h` balance | a thread without items between others reads out of range | `C48_items_undefined` |
| `serializededata.h` permute | repeated items may be lost | `C49_repeated_item_lost` |
| `serializededata.h` assignment, move | uniform data: distribution read out of range | `C58_assigned_uniform_undefined` |
| `tarray.hpp` pack | data shifted by alignment are lost | `C50_aligned_lost` |
| `matrix_dual.cpp` synchronize | the buffers are enlarged only if the buffer of the neighbour 0 is too small | `C61_matrix_undefined` |
| `pcpg.cpp` solve | the criterion is checked with the norm of the previous iterate; after exact convergence one more step divides 0 by 0 and NaN is reported as success | `C63_nan_reported_as_success` |
| `iterativesolver.cpp` updateInfo | the ARIOLI norm is never computed: no success, and no end with the default `max_iterations = 0` (printed as AUTO) | `C63_arioli_endless`, `C63_arioli_no_success` |
| `iterativesolver.cpp` updateInfo | `max_stagnation = 0` writes to an empty vector | `C63_no_stagnation_undefined` |
| `orthopcpg.h` update | `yFp` and `pFp` are never cleared: the second solve divides by the products of the first one and ends with wrong multipliers | `C71_second_solve` |
| `matrix_dual_orthogonal.h` apply | a process without own multipliers adds stale coefficients to the sums | `C71_no_own_multipliers` |
| `matrix_dual_orthogonal.h` apply | with several intervals only the last one counts | `C71_last_interval_only` |
| `mprgp.cpp` solve | convergence after exactly `max_iterations` steps is reported as the error `MAX_ITERATIONS_REACHED` | `C73_exact_max` |
| `mprgp.cpp` solve, `feti.cpp` alpham | the default `alpham = 2` takes `alpha` at the limit of the convergence: the iterates may swing between two points for ever | `C73_cycle` |
| `mprgp.cpp` run | without `gradproj` and with `delta` above one half the loop does not move from a point with all variables free | `C73_stalls` |
| `smalbe.cpp` solve 73-74 | the load of the kernels is compared with ten times the relative precision without any scaling: a smaller load is ignored and the forces do not balance it | `C74_small_load`, `C74_small_load_witness` |
| `smalbe.cpp` solve 193, 234 | `info = mprgp_info` overwrites `info.converged`: a run that reached the precision is reported as not converged, and as an error when the last round used the last iteration | `C74_never_converged`, `C74_converged_as_error` |
| `smalbe.cpp` solve 173 | the outer loop is limited by the iterations of the inner one only: when each round stops at once (a load that pulls a body from its supports), the solver does not end | `C74_never_ends` |
| `structuralmechanics/kernel.h` 483-490, `basefunctions.h` | stresses are evaluated in the nodes with `coordsInNodes`; in the merged nodes of TRIANGLE3, TETRA4, PYRAMID5, PRISMA6 and PYRAMID13 the Jacobian is singular for all coordinates: division by zero, NaN stresses in these nodes | `C76_merged_nodes_wrong` |
| `general/op.coordinates.h` 45-53 | at the end of an interval only one unused lane is set to zero, the others keep the coordinates of the previous chunk; with four or more lanes, the volumes and surfaces of regions count these elements twice, and a prescribed heat flow is divided by the wrong surface (five faces in four lanes: five sevenths of the flow) | `C78_measure_wrong`, `C78_flow_wrong` |
| `heattransfer/op.externalheat.h` 40, `heattransfer.cpp` 289-296 | a convection contributes `htc T_ext` to the right-hand side but nothing to the matrix; a body with convection only has no solution | `C80_convection_wrong` |
| `structuralmechanics/op.matrix.elasticity.h` 78 (compare 58) | the matrix of plane elements for small displacements ignores the thickness of the plate, the one for large displacements does not | `C84_thickness_missing` |
| `structuralmechanics/op.angularvelocity.h` 48-57 | the centrifugal forces in space lack the mixed products of the angular velocity: wrong unless the axis is an axis of coordinates | `C85_angular_wrong` |
| `structuralmechanics.cpp` 399-401 | accelerations and densities depending on the coordinates are evaluated in the origin unless the material, the rotation or the axisymmetry needs coordinates | `C85_coordinates_wrong` |
| `structuralmechanics.cpp` 456 | pressures depending on the coordinates are evaluated in the origin unless the elements are axisymmetric | `C87_coordinates_wrong` |
| `general/op.matrix.mass.h` 59 | the mass of plates ignores the thickness, the forces of an acceleration do not | `C86_thickness_wrong` |
| `general/op.matrix.mass.h` 35 | the mass of the transient heat transfer ignores the heat capacity | `C86_capacity_wrong` |
| PRISMA15 with 9 points | the mass matrix is singular: 15 nodes, 9 points | `C86_prisma15_singular` |
| `structuralmechanics/op.material.h` 369-378 | the determinant and the inverse of the right Cauchy-Green tensor use C13 and C23 swapped: wrong stress and elasticity of the neo-Hookean material with shears in these planes, logarithms of negative numbers for regular deformations | `C88_inverse`, `C88_shear_wrong`, `C88_undefined` |
| `structuralmechanics/kernel.h` 483-491 | with stresses the material is evaluated in the nodes as well, which moves the pointer to the plastic state: later elements use and change states of other points, the last ones leave the array | `C89_positions_wrong` |
| `structuralmechanics/op.material.h` 491 | the tangent of a plastic step ignores that the yield limit `sigmaY0 * detF` depends on the volume | `C89_tangent`, `C89_tangent_wrong` |
| `regularization.heattransfer.cpp` 33-40 | a domain with a single node has a zero matrix; the regularization adds the greatest diagonal entry, which is zero | `C91_single_node` |
| `regularization.elasticity.cpp` 587-591, 610-611 | `R1` is set once for the undeformed nodes while the regularization matrix follows the deformed ones (the update is commented out): in large displacements the two belong to different rigid motions, and `C91_elastic` needs the same (by reading) | - |
| elementstore.cpp 361 | `d <= nstatistics()` resets one entry too many, behind the end of the array if there are no monitors of nodes | `C103_overrun` |
| monitoring.cpp 349 | the averages of elements are divided by the number of nodes of the region | `C103_average_wrong` |
| elementstore.cpp 374-375, 383-384 | `absmin` and `absmax` of elements are computed from `min` and `max`: the least absolute value is the minimum, the greatest forgets negative values | `C103_elements_wrong`, `C103_absmax_wrong` |
| op.stress.h 137-151, 281-303 with assembler.cpp 59-72 | the averages of interface nodes are added by several threads without synchronisation | `C101_race` |
| op.stress.h 89, 105, 142, 150 | the von Mises value in the plane has only one of three differences of principal stresses: a bar under tension gets 1/√2 of its stress | `C101_plane_wrong` |
| op.advection.h 60 | the advection of plane elements is not multiplied with the thickness as the conduction is | `C100_thickness` |
| op.advection.h 56-57, 97-99 with kernel.h 293 | a constant conductivity is computed once, and the stabilization is added to it again in every point of every element | `C100_accumulates` |
| op.advection.h 104 | `dND[n * 2 + 0]` instead of `dND[n * 3 + 0]`: the upwinding in space uses the derivatives of other nodes | `C100_space_wrong` |
| op.gradient.h 52, 84, op.flux.h 93, 170 | `end - gradient` counts values, not elements, and ends with the array instead of the interval: the rest of the lanes of the last chunk is written beyond the array or over the first elements of the following interval, possibly after another thread has stored them | `C99_overrun`, `C99_store_wrong`, `C99_threads` |
| `math.physics.h` 137 | `*=` in place of `+=` when a part of a larger matrix is added | `C96_gather` |
| `math.physics.h` 19-21, 127-129 | the position in the row of the solver assumes whole node blocks; with the upper part only (FETI, symmetric matrices) the values go to other rows and beyond the array | `C96_upper` |
| `structuralmechanics.harmonic.real.linear.cpp` 86-90 | the samples end one step before the highest frequency | `C96_frequencies` |
| `structuralmechanics.harmonic.real.linear.cpp` 121-123 | damping is assembled but not used: the real and the imaginary parts are not coupled | `C96_damping` |
| `structuralmechanics.*.nonlinear.cpp`, `heat.steadystate.nonlinear.cpp` | the result of `solver->solve` is ignored (by reading) | - |
| `heat.steadystate.nonlinear.cpp` 164-193 | `check_first_residual` and `check_second_residual` are ignored: the first criterion is always tested, the second never (by reading) | - |
| `structuralmechanics.transient.nonlinear.cpp` 272 | the acceleration of the predictor has `-1/(2 alpha) - 1` where the iterations (line 320) have `+ 1` | `C94_predictor_wrong` |
| `structuralmechanics.transient.nonlinear.cpp` 230, 233-234 | `time.shift` in place of `delta` in `a1`, `a4` and `a5`: the matrix of the iterations is not the derivative of the imbalance if there is damping, and the iterations can diverge for a linear problem | `C94_damping_wrong` |
| `structuralmechanics.transient.linear.cpp` 187-190 | the matrix is not computed again when only the time step changes (coupling); with FETI, which resets `A.updated`, the system mixes two time steps | `C93_stale_wrong` |
| `structuralmechanics.transient.linear.cpp` 107 | the acceleration starts from zero instead of `M W = f - K U` | `C93_start_wrong` |
| `structuralmechanics.transient.linear.cpp` 141-174, `transientsecondorderimplicit.cpp` | `alpha` is Newmark's gamma and `delta` is beta, the nonlinear analysis takes them the other way round; with the defaults (1/4 and 1/2) the linear analysis is unstable for every time step | `C93_default_wrong` |
| `heat.transient.linear.cpp` 117, 170 | the next load step continues at `time.final`, although the last solution belongs to an earlier time if the duration is no multiple of the time step | `C92_short_wrong` |
| `heat.transient.linear.cpp` 168 | the rates `V` start from zero in each load step instead of `M V = f - K U`, so with Crank-Nicolson (the default) and Galerkin the solution lags behind by `(1 - alpha) h` for ever | `C92_lag_wrong` |
| `op.pressure.h` activate | needs both the value and the direction to differ from the default (`&&`), note | - |
| `basefunctions.h` 45-48 | the rows 1 and 2 of `NN`, `dNN` of TRIANGLE3 with 6 points are exchanged (not used by the heat transfer) | `C75_triangle_rows_wrong` |
| `input.cpp` searchDuplicateNodes | a point may be merged to two targets | `C59_two_targets` |
| `input.cpp` searchDuplicateNodes | merged points may be farther apart than the tolerance | `C59_drift` |
| `xml.cpp` load | an element without attributes and content (`<a/>`) is not closed | `C33_empty_element` |
| `tokenizer.cpp` | reads behind the end of the text; unfinished comments, links and texts are not detected | `C34_reads_past`, `C34_unfinished` |
| `tokenizer.cpp` | a comment joins the texts around it | `C34_comment_joins` |
| `valueholder.h` ENUM_FLAGS | the printed empty set is rejected | `C36_empty_set` |

Notes from reading, not proved: the sweep of `searchDuplicateNodes` may not end when rounding makes `mid.y - eps > right.y` and
`right.y + eps >= mid.y`; `KDTree` with zero levels leaves `leaf_intervals` empty; `tarray(0, 0)` casts NaN; unpacking leaks when the packed
distribution equals the old size; `buildPattern` treats LOWER as UPPER while the filler visits `c <= r`; the boundary UPPER permutation visits
another set than the filler for more than one degree of freedom; `exscan` of a non-native type does nothing; `scatterv` copies `displacement[1]`
elements on the root even if `displacement[0]` is not zero; `receiveUpperUnknownSize` hangs if a rank is its own neighbour;
`PermutationData_new` move assignment frees twice; `minmaxavg` starts the maximum at `numeric_limits<T>::min()`;
a rejected text changes the value of a parameter nevertheless; the tokenizer counts some lines twice; `ECFValueMap` erases the key parsed from the name,
so that dropping `01` removes the value of `1`; the projector is reset in `update` only if the sizes of kernels or the number of multipliers change, so a new pattern with the same counts
keeps the old columns of G; a domain without multipliers has an empty row (no diagonal) in GGt (see the example in `Prop/CoarseProduct`).

## Status per property

| id | title | status | what is covered, what is missing |
|---|---|---|---|
| C01 | Binary packing round-trips | proved |  |
| C02 | Heterogeneous packer streams round-trip | proved |  |
| C03 | Unpacking replaces the target | proved |  |
| C04 | sizesToOffsets is an exclusive prefix sum | proved | Serial overload and the per-thread overload; values are naturals (no overflow of Ttype) |
| C05 | Thread distribution is an ordered partition | proved | std::ceil(size/(double)threads) modelled as exact integer ceiling division (sizes below 2^53) |
| C06 | sortAndRemoveDuplicates yields the sorted set | proved | std::sort trusted to sort |
| C07 | Parallel merge sort sorts for any number of parts | proved | std::sort and std::inplace_merge trusted; OpenMP iterations touch disjoint ranges and are run in index order |
| C08 | mergeAppendedData merges sorted appended parts | proved |  |
| C09 | permute moves whole elements | proved |  |
| C10 | 2D Hilbert index is a bijection | proved | 64-bit wrap-around modelled; k up to 32 |
| C11 | 3D Hilbert index is a bijection | proved | 64-bit wrap-around modelled; k up to 21 |
| C12 | Hilbert refinement is nested | proved |  |
| C13 | Hilbert curve is continuous | proved |  |
| C14 | SFC bucket ranges cover the domain exactly | proved | interval borders must be leaf borders of a well-formed refinement tree (as after setLevel/recurce/finishLevel) |
| C15 | Arena allocations never overlap | proved | Histories of both arenas; the bound on request sizes is necessary (witness C15_huge_request_is_granted). |
| C16 | Arena reported free size can be allocated | partial | False in general: padding past the end wraps the reported size (C16_arena_free_size_wrong, C16_arena_new_remaining_wrong). Proved when the padded offset stays inside the arena / alignment divides the capacity. |
| C17 | Circular blocking allocator never hands out overlapping blocks | partial | Proved for allocations inside transactions with power-of-two alignments, every pool size and interleaving. The claim for every interleaving is false: an allocation outside a transaction can reset the pool and overlap (C17_unlocked_reset_overlaps). |
| C18 | Circular blocking allocator does not get stuck | partial | False in general: three permanently blocked histories (C18_wrong_*). Proved for pools whose size is a power of two (or no reset on an empty pool) when the end of a transaction is atomic. |
| C19 | Hand-written all-reduce is correct for any number of ranks | proved | Any rank range, any vectors, any associative and commutative operation, every schedule and every buffering choice of MPI_Send. |
| C20 | Hand-written collectives never deadlock and are deterministic | proved | Semantics of MPI in Base/Mpi.lean: FIFO channels per source, destination and tag; MPI_Send may block or buffer in every single call. |
| C21 | allGatherUnknownSize concatenates in rank order | proved |  |
| C22 | gatherUnknownSize concatenates on the root | proved | The sizes are exchanged by the library's MPI_Allgather, which is trusted. |
| C23 | scatterv and scatter deliver each rank its part | proved | Displacements are monotone and start with 0. |
| C24 | Targeted all-to-all delivers exactly the addressed messages | proved | Elements are integers; messages sorted by target, as the code requires. |
| C25 | exscan and getDistribution give consistent global ranges | proved | MPI_Exscan/Bcast/Allgather are trusted by their MPI contracts; native types (exscan does nothing for the others). |
| C26 | balance redistributes without loss | proved | All interleavings; distributions start at 0 and have the same total. |
| C27 | Wildcard exchanges of successive rounds never mix | proved | Wildcard receive + barrier model; every execution terminates, none gets stuck, result independent of arrival order, including consecutive calls (rounds). |
| C28 | Chain shifts and one-sided neighbour exchanges never deadlock | proved | All executions complete. receiveUpper/LowerUnknownSize hold for neighbour lists without the rank itself (lower: also with). |
| C29 | sendVariousTargets delivers each message once | proved | Proved for duplicate-free target lists; duplicates are shown to deadlock or lose a message. |
| C30 | Parser::split and join are inverse | proved | Trailing empty piece is dropped without skipMultiple (C30_split_last_lost). |
| C31 | Parser::strip removes exactly surrounding white space and comments | partial | Idempotence is false for lines with a comment (white space before # is kept): refuted; the rest is proved. |
| C32 | kD-tree leaves partition the points | proved | kD-tree and interval tree: tree of ranges over a permutation, split order, sorted leaves, leaf_intervals, boxMin, box queries visit every leaf with an overlapping box (open overlap). C32_touching_missed: boxes that only touch the query, or flat boxes, can be missed. |
| C33 | XML writer output is read back as the same tree | partial | Round trip of print and load for all trees whose names, values and attributes are free of markup characters and in which no element is completely empty; an element without attributes, text and children is not closed by the loader (witness). |
| C34 | Configuration tokenizer never reads past the text and classifies every character | partial | Termination for every text; tokens and separators for texts made of complete items; the tokenizer reads behind the end of the text for unfinished or final items and joins texts around comments (witnesses). The line counter and the history for messages are not modelled. |
| C35 | Configuration lookup is case-insensitive and deterministic | proved | For every history of registrations, additional registrations, drops, moves, listeners and assignments. Changing one parameter means one variable: parameters bound to the same variable change together; what listeners do is not modelled. |
| C36 | Flag sets survive printing and parsing | partial | Round trip for non-empty sets and tables of at most 31 options with non-empty names without / and #, without white space at their ends, different regardless of letter case; false for the empty set and for other names (witnesses). |
| C37 | Sparse format conversion preserves the matrix | proved | convert_csx_csy for all well-formed matrices; integer overflow of the index type not modelled |
| C38 | Transposition map | proved | convert_csx_csy_map / transpose_csx_csx_map pattern and values |
| C39 | Sparse permutation permutes the matrix | proved | permute_csx_csx for every pair of permutations (either absent), the map variant for general and triangular storage, and the symmetric reading. C39_hermitian_not_permuted records that values moved to the mirrored place are not conjugated (hermitian storage). |
| C40 | Submatrix extraction | partial | Proved for matrices whose slices are ordered (submatrix_csx_csy and the map variant). The claim for every matrix is false: C40_unordered_lost. |
| C41 | Splitting into quadrants and concatenating is the identity | proved | quadrisect_csx_csy and concat_csx |
| C42 | Sparse matrix-vector product | proved | gemv_csx in both orders over any commutative semiring; uninitialised result cells modelled as none |
| C43 | Completing a triangular matrix | partial | Proved for matrices whose last row is not empty (any values, symmetric; hermitian for equal orders), exact behaviour of the pointers for all; the full claim is false: C43_trailing_rows_lost (uninitialised pointers behind the last non-empty row) and C43_conjugated_wrong (wrong triangle conjugated when the orders differ). |
| C44 | Pivots and trails | proved | pivots_trails_csx |
| C45 | Pruning keeps exactly the non-empty rows and columns | proved | pruning_subset_csx |
| C46 | Element assembly reaches the right matrix entry | partial | FETI pattern (matrix.uniform.feti.cpp), filler and CSR arrays. Missing: BEM domains, boundary regions, the direct pattern. The claim for every mesh is false: upper storage loses entries of elements with repeated nodes (C46_degenerate; symmetric element matrices are assumed for upper storage) and a degree of freedom used by no element gets a spurious entry (C46_unused_row). |
| C47 | Gluing operator and its transpose are adjoint | proved | applyB, applyBt, the filtered and the threaded version over an arbitrary commutative ring (no conjugation); insertDomains and extractDomain. Threads: every interleaving of the atomic additions for every number of threads. |
| C48 | serializededata::balance keeps contents and aligns threads | partial | Proved for uniform items and any distribution, for items with boundaries and any distribution whose threads without items are the first or last ones, and for the default distribution. Missing: a thread in the middle without items (the code reads out of range, C48_items_undefined); the default distribution with items of several values also leaves the vectors (C48_uniform_default_undefined). |
| C49 | serializededata::permute reorders items | proved | Permutation, selection and repetition of items; distributions counting items or boundaries. C49_repeated_item_lost records the limit when items are repeated so often that the code mistakes the distribution. |
| C50 | tarray pack/unpack round-trips | partial | Round trip of thread arrays and serialized data (pointers included) proved whenever data are not shifted by alignment; allocation proved sufficient and aligned for every address. The unrestricted claim is false: C50_aligned_lost. |
| C51 | Thread-local distributions become one global distribution | proved |  |
| C52 | uniqueAllGatherUnknownSize gives everyone the sorted union | proved |  |
| C53 | allGatherInplace completes the array of every rank | proved | Native MPI types (mpisize = 1). |
| C54 | Known-size neighbour exchange | proved | exchangeKnownSize, gatherUniformNeighbors and exchangeKnownSizeInPlace under every interleaving. |
| C55 | stringwithcommas prints the number | partial | Digits and groups behind a comma are right for every number; the first group has at most three digits only below 10^12 (C55_large_group refutes the rest). |
| C56 | StringCompare is a strict weak ordering | proved | tolower is an arbitrary function. caseSensitivePreffix reads outside for a shorter second string (shown). |
| C57 | Sorting permutations are permutations that sort | proved | std::sort is a parameter with its contract as hypothesis. |
| C58 | Item iterators visit exactly the items of a thread | partial | Iterators set up by constructors, unpack and permute, for distributions in which thread 0 holds the leading boundary. After assignment or move of uniform data the set-up reads out of range (C58_assigned_uniform_undefined). |
| C59 | Duplicate nodes are merged consistently | proved | All point sets and tolerances in exact arithmetic. C59_two_targets: with a positive tolerance merge may be called twice for a point with different targets; C59_drift: merged points may be farther than the tolerance (chain across leaves). Floating point rounding (possible endless loop of the sweep when mid.y - eps > right.y and right.y + eps >= mid.y) is not modelled. |
| C60 | Equality constraints glue the domains and prescribe Dirichlet values | proved | EqualityConstrains::set/update/enforce, with applyB (C47) and the synchronization (C61); exact arithmetic in a field of characteristic 0 with the square roots that occur (e.g. the real numbers), std::sort by its contract, degrees of freedom numbered in the same order on all processes, Dirichlet indices increasing |
| C61 | Dual vectors and matrices are synchronized over processes | partial | Dual vectors and the dot product for every distribution of multipliers (Shared) described by cmap. Matrices: with buffers for at least nrows rows; the code prepares such buffers only if something is shared with the neighbour 0 (C61_buffers_partial), otherwise C61_matrix_undefined shows a write out of a buffer. The sum over processes of the dot product is the contract of MPI_Allreduce. |
| C62 | The conjugate projected gradients solve the dual problem | proved | PCPG on the vector of all multipliers in exact arithmetic over any field; F, S symmetric and definite on the range of the projector, P a projector with transpose Pt; the operators are parameters (C47, C61 are about gluing and dual vectors). |
| C63 | The iterative solver stops for the reported reason and reports success only for a solution | partial | Proved: the run stops at the first check with a reason and reports it (C63_stops, C63_reason), ends if max_iterations > 0 (C63_terminates_partial), success means that the previous iterate met the criterion (C63_success_partial). The full statement is false: NaN can be reported as success, ARIOLI never ends (witnesses). |
| C64 | The dual operator, its right-hand side and the primal solution | proved | The local solver is a function preserving the length; synchronization is C61. |
| C65 | The lumped and Dirichlet preconditioners | proved | The product with K and the Schur complement are functions. |
| C66 | The orthogonal projector of Total FETI | proved | G, the kernels and the dense inverse (or its factors) are given by rows of processes; the assembly of G is C67. |
| C67 | The coarse space of Total FETI: the dual graph, G and G GT | proved | Exchanges and sums are those of C25, C27 and C53; C64_constraints gives the assumptions for the constraints of C60. Factorisation of GGt is outside the model. |
| C68 | The solution of the FETI problem from the multipliers | proved |  |
| C69 | The whole FETI solver on distributed data | proved | MPI_Allreduce by contract (C69_reduces shows that the all-reduce of C19 meets it); finite values are a hypothesis on the run (no division by zero), C69_finite shows when they are finite |
| C70 | Full orthogonalization in the conjugate projected gradients | proved | exact arithmetic; a division by zero ends the run |
| C71 | The orthogonalized solver on distributed data | partial | proved for the first solve of a new solver and one non-empty interval of multipliers per process; false otherwise: C71_second_solve, C71_no_own_multipliers, C71_last_interval_only |
| C72 | The convergence of the modified proportioning with reduced gradient projections | proved | The loop on vectors of all multipliers in exact arithmetic. |
| C73 | The report of MPRGP and its settings | partial | Reported convergence implies the condition; the converse is false when it is satisfied after exactly max_iterations steps (C73_exact_max), the default alpham may cycle (C73_cycle), large delta without gradproj stalls (C73_stalls). |
| C74 | The result of the semimonotonic augmented Lagrangians | partial | Feasibility, the optimality conditions with the tested residuals, the solution for zero residuals and the error of a run without the precision reached are proved. Not proved: that the loop ends for feasible problems. The statement fails for small loads (C74_small_load), for the report (C74_never_converged, C74_converged_as_error) and for the end (C74_never_ends). |
| C75 | The base functions of all elements | proved | over the reals for the derivatives, over the rationals for the nodes |
| C76 | The geometry of an element | partial | proved for all points with a regular Jacobian; false for the nodes of degraded elements, which are singular for all coordinates (C76_merged_nodes_wrong) |
| C77 | The integration rules and the volume of an element | proved | Exact arithmetic. Not covered by the volume theorem: PRISMA15 with 9 points and PYRAMID13 with 14 points, whose rules have a lower degree than the determinant of a curved element. |
| C78 | The measure of a region and the prescribed heat flow | partial | False in general: with four or more lanes, unused lanes of the last chunk keep elements of the previous chunk (C78_measure states exactly which are counted twice); proved when no lane is stale. |
| C79 | The element matrix of heat conduction | proved | one SIMD lane, exact real arithmetic, without advection |
| C80 | The heat conduction of a domain | proved | conduction only; the convection of the code has no part in the matrix, which makes a problem with convection only unsolvable (C80_convection_wrong) |
| C81 | The element matrix of linear elasticity | partial | one SIMD lane, exact real arithmetic; that only rigid displacements have no strain is proved for TRIANGLE3, SQUARE4 and TETRA4 |
| C82 | Inner forces and tangent of large displacements | proved | one SIMD lane, exact real arithmetic, Kirchhoff material |
| C83 | The elasticity of a domain and its rigid motions | partial | the kernel and the supports for domains of TRIANGLE3, SQUARE4 and TETRA4; the other parts for all elements |
| C84 | The thickness of plates under small and large displacements | partial | false in general (C84_thickness_missing); proved in space and for unit thickness |
| C85 | Forces of acceleration and rotation | partial | Proved if the coordinates are interpolated or the data do not depend on them, and in space for angular velocities along an axis of coordinates; the code is wrong otherwise (C85_angular_wrong, C85_coordinates_wrong). |
| C86 | The mass matrix of an element | partial | The form, symmetry and total mass are proved for all elements; definiteness for the rules of the code other than PRISMA15 with 9 points (singular), free fall up to the thickness that the code ignores; the heat capacity is missing. |
| C87 | Pressure on a boundary | partial | The work is proved for constant data or axisymmetric elements (pressures depending on the place are evaluated in the origin, C87_coordinates_wrong); the balance on closed surfaces for linear triangles. |
| C88 | Neo-Hookean material | partial | first and second derivative of the energy for tensors with C13 = C23 = 0 or C11 = C22 and C13^2 = C23^2; false in general because C13 and C23 are swapped |
| C89 | Plasticity of Bonet and Wood | partial | yield condition, repeated evaluation, saved state and volume in full; the tangent for changes that keep the volume, false otherwise; own states without stresses, false with them; eigenpairs of the trial tensor are inputs, the pull-back is not modelled |
| C90 | Sum of sparse matrices | proved | sums of all well-formed matrices |
| C91 | Analytic regularization | partial | heat transfer is complete; elasticity is complete for matrices whose kernel is R1, and that R1 is the kernel is proved for domains of triangles, squares and tetrahedra; false for a heat domain of one node; the choice of the fix points, the algebraic regularization and the SVD are not modelled |
| C92 | Transient heat transfer | proved | The defects C92_lag_wrong (the rates start from zero) and C92_short_wrong (durations that are no multiple of the time step) are recorded beside the theorems. |
| C93 | Linear transient structural mechanics | proved | The default parameters violate the condition of stability (C93_default_wrong); the start with zero acceleration and the stale matrix of FETI are recorded as C93_start_wrong and C93_stale_wrong. |
| C94 | Nonlinear transient structural mechanics | partial | The balance for linear inner forces is proved without damping only (C94_linear_partial, C94_two_iterations_partial): with damping it is false, the iteration can diverge (C94_damping_wrong). |
| C95 | Newton's method of the steady analyses | proved | The reports of the solver are ignored by the code, so its contract is that it always solves the system. |
| C96 | System of the harmonic analysis | partial | Proved for patterns with whole node blocks (direct solvers) and without damping (C96_harmonic_partial). False with damping (C96_damping), for patterns with the upper part only (C96_upper); the highest frequency is never computed (C96_frequencies). |
| C97 | Prescribed values in the direct solvers | proved | For one process; the exchange of the halo (lines 64-92) is not modelled. |
| C98 | Pattern of the direct solvers | proved | For one process: the exchange with neighbouring processes (lines 80-106, 125-165) is not modelled. C98_dirichlet discharges the assumptions of C97 on the pattern. |
| C99 | Gradient and flux of the elements | partial | The values are proved without restriction. The stores are right if the numbers of elements of the intervals are multiples of the number of lanes (C99_store_partial); in general they are not (C99_store_wrong, C99_overrun, C99_threads). |
| C100 | Advection of heat | partial | C100_form_partial: plane elements without the thickness in the second integral, elements in space without upwinding, and the material computed in every point or σ = 0. The rest is wrong: C100_thickness, C100_space_wrong, C100_accumulates. Not modelled: the versions of the guarded reciprocal for SVE. |
| C101 | Stresses and strains of elements and nodes | partial | The results in space and the arrays of the elements are proved without restriction (C101_results, C101_mises, C101_strain, C101_store). In the plane the principal values and components are right (C101_plane), the von Mises value is not (C101_plane_wrong). The averages of the nodes are the means if the additions are made one after another (C101_average_partial); threads may lose additions (C101_race). |
| C102 | Synchronization of the data of the nodes | partial | C102_sum and C102_agree are proved for all distributions with the common nodes of two processes in the same order; C102_order_needed shows that the order is needed, that the mesh provides it is an assumption. C102_average_partial: the additions of a process one after another (C101_race). The exchange is C27. |
| C103 | Statistics of the monitors | partial | The nodes are right (C103_nodes, C103_once). The elements of a process have the right minimum, maximum, sum and norm (C103_elements_partial); their absolute values (C103_elements_wrong, C103_absmax_wrong) and averages (C103_average_wrong) are wrong, and one reset is beyond the array (C103_overrun). |

## Axioms of the theorems in MANIFEST.json

Output of `#print axioms`, grouped.

* **Classical.choice, Quot.sound, propext**: `Utils.C04_ranges_tile`, `Utils.C04_sizesToOffsets_threads`, `Utils.C05_distribute_balanced`, `Utils.C06_sortAndRemoveDuplicates`, `Utils.C06_mergeThreadedUniqueData`, `Utils.C07_sortWithInplaceMerge`, `Utils.C07_inplaceMerge`, `Utils.C07_sortWithInplaceMerge_threads`, `Utils.C07_inplaceMerge_threads`, `Utils.C07_sortWithUniqueMerge`, `Utils.C08_mergeAppendedData`, `Utils.C09_permute_elements`, `Utils.C09_permute_perm`, `Utils.C09_permute_inverse`, `Hilbert.C10_hilbert2D_bijection`, `Advection.C100_form_partial`, `Advection.C100_thickness`, `Advection.C100_accumulates`, `Advection.C100_space_wrong`, `Stress.C101_results`, `Stress.C101_mises`, `Stress.C101_strain`, `Stress.C101_plane`, `Stress.C101_plane_wrong`, `Stress.C101_store`, `Stress.C101_average_partial`, `Stress.C101_race`, `Sync.C102_sum`, `Sync.C102_agree`, `Sync.C102_average_partial`, `Sync.C102_order_needed`, `Statistics.C103_nodes`, `Statistics.C103_once`, `Statistics.C103_elements_partial`, `Statistics.C103_elements_wrong`, `Statistics.C103_absmax_wrong`, `Statistics.C103_average_wrong`, `Statistics.C103_overrun`, `Hilbert.C11_hilbert3D_bijection`, `Hilbert.C12_hilbert2D_nested`, `Hilbert.C12_hilbert3D_nested`, `Hilbert.C12_hilbert2D_cell_nested`, `Hilbert.C12_hilbert3D_cell_nested`, `Hilbert.C13_hilbert2D_continuous`, `Hilbert.C13_hilbert3D_continuous`, `Sfc.C14_iterateBuckets_cover`, `Sfc.C14_iterateBuckets_all`, `Arena.C15_arena_disjoint`, `Arena.C15_reset_empties`, `Arena.C16_arena_free_size_partial`, `Arena.C16_arena_new_remaining_partial`, `Cbmb.C17_held_disjoint_partial`, `Cbmb.C17_held_aligned_partial`, `Cbmb.C17_release_exact_partial`, `Cbmb.C18_empty_grants_partial`, `Cbmb.C18_progress_partial`, `Cbmb.C18_terminates_partial`, `Cbmb.C18_wrong_pool_size`, `Cbmb.C18_wrong_race`, `Comm.C19_allReduce`, `Comm.C20_collectives`, `Comm.C20_no_infinite_execution`, `Comm.C21_allGather`, `Comm.C22_gather`, `Comm.C23_scatterv`, `Comm.C23_scatter`, `Comm.C24_allToAll`, `Comm.C25_distribution`, `Comm.C26_balance`, `Wildcard.C27_exchangeUnknownSize`, `Comm.C28_receiveLower`, `Comm.C28_receiveUpper`, `Comm.C28_receiveLowerKnownSize`, `Comm.C28_receiveUpperKnownSize`, `Wildcard.C28_receiveLowerUnknownSize`, `Wildcard.C28_receiveUpperUnknownSize`, `Wildcard.C29_sendVariousTargets`, `Parser.C30_split`, `Parser.C30_split_nonempty`, `Parser.C30_split_join`, `Parser.C30_split_join_all`, `Parser.C30_split_last_lost`, `Parser.C31_strip_partial`, `Parser.C31_strip_not_idempotent`, `KdTree.C32_kdtree`, `KdTree.C32_interval_tree`, `KdTree.C32_boxMin`, `Xml.C33_roundtrip_partial`, `Xml.C33_empty_element`, `Tokenizer.C34_reads_past`, `Tokenizer.C34_unfinished`, `Tokenizer.C34_comment_joins`, `Tokenizer.C34_comment_takes_lines`, `Config.C35_lookup`, `Config.C35_set`, `Config.C35_defined`, `Flags.C36_roundtrip_partial`, `Flags.C36_accepted_partial`, `Flags.C36_option`, `Flags.C36_empty_set`, `Flags.C36_same_names`, `Flags.C36_bar`, `Csx.C37_convert`, `Csx.C37_entries`, `Csx.C37_back`, `Csx.C38_map`, `Csx.C39_permute`, `Csx.C39_map`, `Csx.C39_symmetric`, `Csx.C40_count_partial`, `Csx.C40_same_partial`, `Csx.C40_other_partial`, `Csx.C40_map_partial`, `Csx.C41_concat`, `Csx.C41_quadrisect`, `Csx.C41_roundtrip`, `Csx.C42_gemv_rows`, `Csx.C42_gemv_columns`, `Csx.C43_complete_partial`, `Csx.C43_pattern`, `Csx.C43_count`, `Csx.C43_conjugated_wrong`, `Csx.C44_forward`, `Csx.C44_backward`, `Csx.C44_completed`, `Csx.C45_primary`, `Csx.C45_secondary`, `Pattern.C46_decomposition`, `Pattern.C46_pattern_partial`, `Pattern.C46_csr_partial`, `Pattern.C46_assemble_partial`, `Pattern.C46_domain_partial`, `Pattern.C46_degenerate`, `Feti.C47_applyB`, `Feti.C47_applyB_filter`, `Feti.C47_applyBt`, `Feti.C47_adjoint`, `Feti.C47_threaded`, `Feti.C47_threads_progress`, `Feti.C47_insert`, `Serial.C48_uniform`, `Serial.C48_uniform_default`, `Serial.C48_items_partial`, `Serial.C48_items_default`, `Serial.C49_items`, `Serial.C49_uniform`, `Comm.C52_uniqueAllGather`, `Comm.C53_allGatherInplace`, `Comm.C53_allGatherInplace_from`, `Comm.C54_exchangeKnownSize`, `Comm.C54_gatherUniformNeighbors`, `Comm.C54_exchangeInPlace`, `Parser.C55_stringwithcommas_partial`, `Parser.C55_large_group`, `Parser.C56_irreflexive`, `Parser.C56_equivalence`, `Parser.C56_prefix`, `Parser.C56_suffix`, `Parser.C56_caseSensitivePreffix_undefined`, `Csx.C57_sorting`, `Csx.C57_invert`, `Serial.C58_items_partial`, `KdTree.C59_duplicates`, `KdTree.C59_exact`, `Feti.C60_multipliers`, `Feti.C60_orthonormal`, `Feti.C60_continuity`, `Feti.C60_enforce`, `Feti.C61_vector`, `Feti.C61_dot`, `Feti.C61_matrix_partial`, `Feti.C61_buffers_partial`, `Pcpg.C62_conjugate`, `Pcpg.C62_finite`, `Pcpg.C62_minimal`, `Pcpg.C63_stops`, `Pcpg.C63_reason`, `Pcpg.C63_terminates_partial`, `Pcpg.C63_success_partial`, `Pcpg.C63_nan_reported_as_success`, `Pcpg.C63_arioli_endless`, `Pcpg.C63_arioli_no_success`, `Feti.C64_apply`, `Feti.C64_rhs`, `Feti.C64_primal`, `Feti.C64_symmetric`, `Feti.C64_constraints`, `Feti.C65_lumped`, `Feti.C65_dirichlet`, `Feti.C66_applyG`, `Feti.C66_applyInvGGt`, `Feti.C66_applyGt`, `Feti.C66_apply`, `Feti.C66_applyT`, `Feti.C66_initial`, `Feti.C66_coarse`, `Feti.C66_kernels`, `Feti.C66_rhs`, `Feti.C66_feasible`, `Feti.C66_kernel`, `Feti.C66_fixed`, `Feti.C66_idempotent`, `Feti.C66_symmetric`, `Feti.C67_graph`, `Feti.C67_setG`, `Feti.C67_G`, `Feti.C67_G_rows`, `Feti.C67_product`, `Feti.C67_setGGt`, `Feti.C67_updateGGt`, `Feti.C67_rowsOf`, `Feti.C67_exchanged`, `Feti.C64_constraints`, `Feti.C68_equilibrium`, `Feti.C68_jump`, `Feti.C68_solves`, `Feti.C68_minimises`, `Feti.C69_run`, `Feti.C69_solution`, `Feti.C69_finite`, `Feti.C69_reduces`, `Pcpg.C70_conjugate`, `Pcpg.C70_finite`, `Pcpg.C70_same`, `Pcpg.C70_minimal`, `Pcpg.C70_stops`, `Pcpg.C70_reason`, `Feti.C71_run_partial`, `Feti.C71_solution_partial`, `Feti.C71_finite`, `Feti.C71_reduces`, `Feti.C71_second_solve`, `Feti.C71_last_interval_only`, `Mprgp.C72_feasible`, `Mprgp.C72_optimal`, `Mprgp.C72_error`, `Mprgp.C72_rate`, `Mprgp.C72_stops`, `Mprgp.C72_terminates`, `Mprgp.C73_report_partial`, `Mprgp.C73_exact_max`, `Mprgp.C73_cycle`, `Mprgp.C73_stalls`, `Mprgp.C74_feasible`, `Mprgp.C74_result_partial`, `Mprgp.C74_solution_partial`, `Mprgp.C74_report_partial`, `Mprgp.C74_small_load`, `Mprgp.C74_small_load_witness`, `Mprgp.C74_never_converged`, `Mprgp.C74_converged_as_error`, `Mprgp.C74_never_ends`, `Fem.C75_basis`, `Fem.C75_nodes`, `Fem.C75_node_index`, `Fem.C75_collapsed`, `Fem.C75_triangle_rows_wrong`, `Fem.C76_jacobian`, `Fem.C76_defined`, `Fem.C76_gradient`, `Fem.C76_linear`, `Fem.C76_face`, `Fem.C76_edge`, `Fem.C76_merged_nodes_wrong`, `Fem.C77_exact`, `Fem.C77_weights`, `Fem.C77_volume`, `Fem.C77_volume_exact`, `Fem.C77_volume_defined`, `Fem.C77_square`, `Fem.C77_triangle`, `Fem.C77_triangle6`, `Fem.C77_tetra`, `Fem.C77_tetra4`, `Fem.C77_count`, `Fem.C78_measure`, `Fem.C78_measure_partial`, `Fem.C78_measure_wrong`, `Fem.C78_load`, `Fem.C78_flow_partial`, `Fem.C78_flow_wrong`, `Fem.C79_form`, `Fem.C79_defined`, `Fem.C79_constants`, `Fem.C79_columns`, `Fem.C79_symmetric`, `Fem.C79_dissipation`, `Fem.C79_energy`, `Fem.C79_patch`, `Fem.C79_kernel`, `Fem.C79_points`, `Fem.C80_symmetric`, `Fem.C80_dissipation`, `Fem.C80_kernel`, `Fem.C80_conservation`, `Fem.C80_dirichlet`, `Fem.C80_convection_wrong`, `Fem.C81_form`, `Fem.C81_defined`, `Fem.C81_plane_stress`, `Fem.C81_symmetric`, `Fem.C81_energy_nonneg`, `Fem.C81_kernel`, `Fem.C81_rigid`, `Fem.C81_patch`, `Fem.C81_energy`, `Fem.C81_axisymmetric`, `Fem.C81_axisymmetric_rigid`, `Fem.C81_rigid_only_partial`, `Fem.C82_form`, `Fem.C82_defined`, `Fem.C82_tangent`, `Fem.C82_symmetric`, `Fem.C82_rotation`, `Fem.C82_objective`, `Fem.C82_balance`, `Fem.C83_symmetric`, `Fem.C83_energy_nonneg`, `Fem.C83_kernel`, `Fem.C83_rigid`, `Fem.C83_rigid_only_partial`, `Fem.C83_supports_partial`, `Fem.C84_scaled`, `Fem.C84_same_partial`, `Fem.C84_thickness_missing`, `Fem.C85_work_partial`, `Fem.C85_defined`, `Fem.C85_weight`, `Fem.C85_weight_solid`, `Fem.C85_angular_wrong`, `Fem.C85_coordinates_wrong`, `Fem.C86_form`, `Fem.C86_defined`, `Fem.C86_symmetric`, `Fem.C86_energy_nonneg`, `Fem.C86_kernel`, `Fem.C86_definite_partial`, `Fem.C86_few_points`, `Fem.C86_prisma15_singular`, `Fem.C86_total`, `Fem.C86_free_fall_partial`, `Fem.C86_heat`, `Fem.C86_thickness_wrong`, `Fem.C86_capacity_wrong`, `Fem.C87_defined`, `Fem.C87_work_partial`, `Fem.C87_resultant`, `Fem.C87_edge`, `Fem.C87_closed`, `Fem.C87_triangle`, `Fem.C87_closed_surface`, `Fem.C87_coordinates_wrong`, `Fem.C88_inverse`, `Fem.C88_material_partial`, `Fem.C88_shear_wrong`, `Fem.C88_undefined`, `Fem.C88_rest`, `Fem.C89_yield`, `Fem.C89_again`, `Fem.C89_state`, `Fem.C89_incompressible`, `Fem.C89_tangent`, `Fem.C89_tangent_elastic`, `Fem.C89_tangent_partial`, `Fem.C89_tangent_wrong`, `Regularization.C90_sum`, `Regularization.C90_unsorted`, `Regularization.C91_heat`, `Regularization.C91_heat_kernel`, `Regularization.C91_single_node`, `Regularization.C91_feti`, `Regularization.C91_solver`, `Regularization.C91_elastic`, `Regularization.C91_elastic_kernel_partial`, `Regularization.C91_elastic_domain_partial`, `Transient.C92_step`, `Transient.C92_terminates`, `Transient.C92_run`, `Transient.C92_exact`, `Transient.C92_stable`, `Transient.C92_methods`, `Transient.C92_lag_wrong`, `Transient.C92_short_wrong`, `Transient.C93_step`, `Transient.C93_restart`, `Transient.C93_stable`, `Transient.C93_conserves`, `Transient.C93_swing`, `Transient.C93_default_wrong`, `Transient.C93_start_wrong`, `Transient.C93_stale_wrong`, `Transient.C94_newmark`, `Transient.C94_fixed_point`, `Transient.C94_prescribed`, `Transient.C94_reported`, `Transient.C94_linear_partial`, `Transient.C94_two_iterations_partial`, `Transient.C94_damping_wrong`, `Transient.C94_predictor_wrong`, `Transient.C95_prescribed`, `Transient.C95_fixed_point`, `Transient.C95_reported`, `Transient.C95_linear`, `Transient.C95_times`, `Transient.C95_heat`, `Harmonic.C96_matrix`, `Harmonic.C96_vectors`, `Harmonic.C96_harmonic_partial`, `Harmonic.C96_damping`, `Harmonic.C96_part`, `Harmonic.C96_gather`, `Harmonic.C96_frequencies`, `Direct.C97_solution`, `Direct.C97_entries`, `Direct.C97_symmetric`, `Direct.C97_restricted`, `Direct.C97_upper`, `Pattern.Direct.C98_pattern`, `Pattern.Direct.C98_unique`, `Pattern.Direct.C98_symmetric`, `Pattern.Direct.C98_dirichlet`, `Pattern.Direct.C98_assemble`, `Results.C99_gradient`, `Results.C99_flux`, `Results.C99_linear`
* **Quot.sound, propext**: `Packing.C01_pack_roundtrip`, `Packing.C02_packer_roundtrip`, `Packing.C03_unpack_ignores_target`, `Packing.C03_unpack_replaces`, `Utils.C04_sizesToOffsets`, `Utils.C05_distribute_partition`, `Arena.C15_arena_new_disjoint`, `Arena.C15_huge_request_is_granted`, `Comm.C22_offsets`, `Comm.C25_exscan`, `Comm.C25_exscanVec`, `Comm.C25_getDistribution`, `Wildcard.C29_duplicates_deadlock`, `Wildcard.C29_duplicates_lost`, `Parser.C31_removecomments`, `Parser.C31_getLine`, `KdTree.C32_touching_missed`, `Tokenizer.C34_terminates`, `Tokenizer.C34_separators_partial`, `Tokenizer.C34_tokens_partial`, `Csx.C44_pivots_eq`, `Csx.C44_trails_eq`, `Csx.C44_bounds`, `Pattern.C46_unused_row`, `Feti.C47_extract`, `TArr.C50_allocate`, `TArr.C50_roundtrip_partial`, `TArr.C50_serialized_partial`, `Utils.C51_threadDistribution`, `Utils.C51_threadDistribution_flat`, `Parser.C56_transitive`, `Serial.C58_uniform_partial`, `Serial.C58_assigned_uniform_undefined`, `KdTree.C59_drift`, `Feti.C61_matrix_undefined`, `Pcpg.C62_residual`, `Pcpg.C63_no_stagnation_undefined`, `Pcpg.C70_residual`, `Feti.C71_no_own_multipliers`, `Fem.C89_positions_partial`, `Fem.C89_positions_wrong`, `Regularization.C90_sizes`, `Harmonic.C96_upper`, `Results.C99_store_partial`, `Results.C99_overrun`, `Results.C99_store_wrong`
* **propext**: `Cbmb.C17_unlocked_reset_overlaps`, `Cbmb.C18_wrong_alignment`, `Csx.C39_hermitian_not_permuted`, `Csx.C40_unordered_lost`, `Csx.C43_trailing_rows_lost`, `Serial.C48_uniform_default_undefined`, `Serial.C48_items_undefined`, `Serial.C49_repeated_item_lost`, `KdTree.C59_two_targets`
* **none**: `Arena.C16_arena_free_size_wrong`, `Arena.C16_arena_new_remaining_wrong`, `Comm.C20_stuck_is_finished`, `TArr.C50_aligned_lost`, `Results.C99_threads`

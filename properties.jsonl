{"id": "C01", "title": "Touching MeshBlocks never differ by more than one refinement level", "statement": "On a mesh without polar boundaries, after building the root grid and applying any sequence of refinement requests and derefinement attempts, every two MeshBlocks that touch through a face, edge or corner (also through periodic boundaries) differ by at most one level.", "quantifier": "every root-grid shape in 1D/2D/3D (also non-power-of-two), every combination of periodic / non-periodic boundaries, every finite history of refine and derefine calls", "why_tests_cant": "The set of histories and meshes is infinite; a violation needs a specific chain of refinements reaching across a boundary, and a test only sees a few of them.", "anchors": ["src/mesh/meshblock_tree.cpp: MeshBlockTree::Refine, AddMeshBlock, Derefine, CreateRootGrid"]}
{"id": "C02", "title": "MeshBlocks tile the computational domain exactly once", "statement": "After any history of refine/derefine calls the blocks of the mesh cover every cell of the root domain at every sufficiently fine resolution exactly once; no block lies (even partly) outside the domain.", "quantifier": "every root grid shape, every history of tree operations, every point of the domain", "why_tests_cant": "A hole or an overlap can appear for one particular root-grid shape and history; only an invariant over all trees rules it out.", "anchors": ["src/mesh/meshblock_tree.cpp: CreateRootGrid, Refine, Derefine, GetMeshBlockList"]}
{"id": "C03", "title": "A refinement request is honoured and never loses resolution", "statement": "After a request to create a block at a location inside the domain, a node at exactly that location exists, no block that was refined before became coarser, and no block deeper than the requested level was created by the request.", "quantifier": "every tree reachable by tree operations, every requested location inside the domain", "why_tests_cant": "Requests trigger recursive refinement of neighbours across the whole tree; the recursion pattern depends on the complete tree.", "anchors": ["src/mesh/meshblock_tree.cpp: AddMeshBlock, Refine"]}
{"id": "C04", "title": "Block numbering is a Z-ordered bijection", "statement": "Listing the blocks assigns global ids 0..N-1, each block exactly once, in Z-order (Morton order) of their locations; looking up the location of block g by location finds the node carrying id g.", "quantifier": "every tree", "why_tests_cant": "Trees are unbounded in size and shape.", "anchors": ["src/mesh/meshblock_tree.cpp: GetMeshBlockList, FindMeshBlock, CountMeshBlock"]}
{"id": "C05", "title": "Old-to-new block map after adaptation is exact", "statement": "After the refine calls and then the derefine calls of one adaptation step on a numbered mesh, the old id recorded for each new block is the id of the old block at the same place, of an old ancestor of it (refined) or of the first of its old descendants (derefined).", "quantifier": "every numbered tree and every sequence of refine calls followed by every sequence of derefine calls, the order used by the adaptation step", "why_tests_cant": "Depends on the entire history of the AMR step.", "anchors": ["src/mesh/meshblock_tree.cpp: MeshBlockTree ctor (child), Refine, Derefine, GetMeshBlockList", "src/mesh/amr_loadbalance.cpp: Mesh::RedistributeAndRefineMeshBlocks"]}
{"id": "C06", "title": "Created/destroyed block counters are exact", "statement": "The counters of created and destroyed blocks returned by the tree operations equal the change of the number of blocks: new count = old count + created - destroyed.", "quantifier": "every tree, every request", "why_tests_cant": "Counts are used to size arrays (nbtotal); neighbour-induced refinements make the count history dependent.", "anchors": ["src/mesh/meshblock_tree.cpp: Refine (nnew), Derefine (ndel)", "src/mesh/amr_loadbalance.cpp: UpdateMeshBlockTree"]}
{"id": "C07", "title": "Neighbour search never fails on a reachable mesh", "statement": "For every block of a reachable non-polar mesh and every direction, the neighbour lookup either reports 'no neighbour' (exactly when the direction leaves the domain through a non-periodic boundary) or returns the block that covers the adjacent region (same level or one level coarser) or, if that region is refined, its refined node all of whose children touching the block are blocks; the 'tree is broken' error is unreachable.", "quantifier": "every reachable mesh, block, direction and boundary configuration", "why_tests_cant": "The fatal branch is unreachable only because of a global invariant.", "anchors": ["src/mesh/meshblock_tree.cpp: FindNeighbor"]}
{"id": "C08", "title": "Neighbour relation is symmetric", "statement": "On a reachable non-polar mesh, if the lookup of block A in direction o yields the same-level block B then the lookup of B in direction -o yields A; if it yields a coarser block B then A is one of the finer blocks seen from B in a direction -c, where each component of c is zero or that of o (for a face c = o).", "quantifier": "every reachable mesh, block and direction", "why_tests_cant": "Asymmetric neighbour lists make a run dead-lock only for particular meshes.", "anchors": ["src/mesh/meshblock_tree.cpp: FindNeighbor", "src/bvals/bvals_base.cpp: SearchAndSetNeighbors"]}
{"id": "C09", "title": "Derefinement is safe and complete", "statement": "A derefinement attempt on a node whose children are all blocks removes exactly these children when no touching region is refined two levels deeper, otherwise it leaves the mesh unchanged; in both cases the mesh stays balanced and tiles the domain.", "quantifier": "every reachable non-polar mesh and node", "why_tests_cant": "Decision depends on all 26 neighbourhoods and wrap-around.", "anchors": ["src/mesh/meshblock_tree.cpp: Derefine"]}
{"id": "C10", "title": "Restart rebuilds the identical block tree", "statement": "Rebuilding the tree from the list of block locations stored in a restart file yields exactly the same tree and the same numbering as the tree that wrote the list.", "quantifier": "every tree reachable by tree operations", "why_tests_cant": "All mesh shapes are possible when a dump is written.", "anchors": ["src/mesh/meshblock_tree.cpp: AddMeshBlockWithoutRefine, CreateRootGrid, GetMeshBlockList", "src/mesh/mesh.cpp: Mesh::Mesh (restart)"]}
{"id": "C11", "title": "Refinement keeps the mesh balanced across a pole", "statement": "On 3D meshes with polar x2 boundaries, refining a block also refines the blocks that touch it across the pole and at its sides so that touching blocks differ by at most one level.", "quantifier": "every 3D mesh with polar boundaries, every refinement request", "why_tests_cant": "Needs particular azimuthal positions.", "anchors": ["src/mesh/meshblock_tree.cpp: Refine (polar branch), Derefine"]}
{"id": "C12", "title": "Static refinement regions are resolved as requested", "statement": "For a list of static refinement regions given by physical bounds inside the mesh (not degenerated to a point at the upper mesh edge), the mesh is built without error and every block of the final mesh that overlaps a region is at the level requested for that region or finer.", "quantifier": "every region inside the mesh bounds, every level, every monotone coordinate map", "why_tests_cant": "Region edges may fall anywhere relative to block edges.", "anchors": ["src/mesh/mesh.cpp: Mesh::Mesh (refinement blocks)", "src/mesh/meshblock_tree.cpp: AddMeshBlock"]}
{"id": "C13", "title": "Load balancing gives every process a contiguous, non-empty, exhaustive range of blocks", "statement": "Whenever the load balancer returns normally with at least as many blocks as processes, the process numbers assigned to blocks 0..N-1 are non-decreasing, every process gets at least one block, and the per-process (start,count) tables describe exactly these ranges.", "quantifier": "all cost lists (any real or floating-point costs), all numbers of blocks and processes", "why_tests_cant": "The greedy threshold loop depends on arbitrary measured run times.", "anchors": ["src/mesh/amr_loadbalance.cpp: Mesh::CalculateLoadBalance"]}
{"id": "C14", "title": "Positive costs never abort the load balancer", "statement": "If all block costs are positive and there are at least as many blocks as processes, the load balancer never takes its fatal-error branch.", "quantifier": "all positive cost lists and all process counts (exact arithmetic)", "why_tests_cant": "Infinite set of cost lists.", "anchors": ["src/mesh/amr_loadbalance.cpp: Mesh::CalculateLoadBalance"]}
{"id": "C15", "title": "AMR data-migration messages match one-to-one", "statement": "When blocks are redistributed after adaptation, for every message posted for receiving there is exactly one message sent with the same source process, destination process, tag and kind, and vice versa; no two receives of a process share a tag, including those of the face-field correction; every old block reaches every new block it shares cells with, by one message or one local copy, and nothing else is sent; the request arrays have exactly the number of messages.", "quantifier": "every adaptation step (any tree, any flags) on a mesh without polar boundaries, all old/new assignments of blocks to processes in intervals, any number of processes", "why_tests_cant": "A mismatch dead-locks only for a particular combination of refinement pattern and process layout.", "anchors": ["src/mesh/amr_loadbalance.cpp: Mesh::RedistributeAndRefineMeshBlocks, CreateAMRMPITag"]}
{"id": "C16", "title": "User supplied block costs steer load balancing", "statement": "With manual load balancing, the cost stored for a block equals the cost supplied by the user (up to a tiny positive floor).", "quantifier": "all costs", "why_tests_cant": "Tests only check that load balancing runs.", "anchors": ["src/mesh/meshblock.cpp: MeshBlock::SetCostForLoadBalancing"]}
{"id": "C17", "title": "Refinement flags respect level limits and the derefinement delay", "statement": "The per-block decision never requests refinement at the maximum level nor derefinement at the root level, requests derefinement only if none of the neighbours is finer and the user criterion asked for derefinement in at least the configured number of consecutive checks, and requests refinement exactly when asked below the maximum level.", "quantifier": "every history of user criteria and neighbour levels", "why_tests_cant": "History-dependent counter.", "anchors": ["src/mesh/mesh_refinement.cpp: MeshRefinement::CheckRefinementCondition"]}
{"id": "C18", "title": "Mesh adaptation derefines only complete sibling groups flagged by every member", "statement": "In one adaptation step a parent becomes a block again only if all its children were blocks that requested derefinement; a block requesting refinement is refined; all processes compute the same new tree from the gathered flags.", "quantifier": "every flag assignment, every mesh, every number of processes", "why_tests_cant": "Exponential number of flag patterns.", "anchors": ["src/mesh/amr_loadbalance.cpp: Mesh::UpdateMeshBlockTree"]}
{"id": "C19", "title": "Tasks run exactly once per stage and only after their dependencies", "statement": "In every execution of a stage, on every MeshBlock each task completes exactly once and is attempted only after all tasks it depends on have completed, whatever the order in which communication succeeds.", "quantifier": "every task list (<=128 ids), every sequence of task outcomes (success / fail / next), every interleaving of MeshBlocks", "why_tests_cant": "Schedules are determined by network timing.", "anchors": ["src/task_list/task_list.cpp: TaskList::DoAllAvailableTasks, DoTaskListOneStage", "src/task_list/task_id.cpp"]}
{"id": "C20", "title": "A stage always terminates when tasks eventually succeed", "statement": "If the dependency relation of the list is acyclic and closed (all dependencies are in the list) and every task succeeds after finitely many attempts, then the stage loop terminates with all tasks of all MeshBlocks completed.", "quantifier": "every such list, every fair sequence of task outcomes, any number of MeshBlocks", "why_tests_cant": "Liveness over infinite schedules.", "anchors": ["src/task_list/task_list.cpp: TaskList::DoAllAvailableTasks, DoTaskListOneStage"]}
{"id": "C21", "title": "Task identifiers behave as a set of up to 128 flags", "statement": "Combining, testing and completing task identifiers behaves exactly as union, inclusion and insertion on sets of task numbers 1..128; different task numbers never interfere.", "quantifier": "all task numbers 1..128 and all sets of them", "why_tests_cant": "2^128 sets.", "anchors": ["src/task_list/task_id.cpp: TaskID"]}
{"id": "C22", "title": "Every configuration yields a closed acyclic task graph", "statement": "For every combination of physics modules, refinement, shearing box, orbital advection and super-time-stepping, the main integrator task list only depends on tasks that are in the list and has no cyclic dependencies, so a stage cannot hang.", "quantifier": "all configuration flag combinations", "why_tests_cant": "Only a few configurations are exercised by regression tests.", "anchors": ["src/task_list/time_integrator.cpp: TimeIntegratorTaskList::TimeIntegratorTaskList"]}
{"id": "C23", "title": "Communication buffers are released only after all other tasks of the stage", "statement": "In every execution the task that clears the boundary communication of a block is the last task executed on that block in a stage, although its declared dependencies do not include all tasks.", "quantifier": "all configurations, all sequences of task outcomes where only receive tasks can fail", "why_tests_cant": "Depends on schedule and configuration.", "anchors": ["src/task_list/time_integrator.cpp", "src/task_list/task_list.cpp: DoAllAvailableTasks"]}
{"id": "C24", "title": "Parameter store behaves as a last-write-wins map", "statement": "After any sequence of loads, sets and command-line overrides, reading block/name returns the most recently written value of exactly that block/name, or reports non-existence if it was never written; writes do not affect other parameters.", "quantifier": "all sequences of operations and all names/values", "why_tests_cant": "Unbounded operation sequences.", "anchors": ["src/parameter_input.cpp: AddParameter, SetInteger/SetReal/SetString, DoesParameterExist, GetString"]}
{"id": "C25", "title": "Dumped parameters reload identically", "statement": "For parameters that come from input in the documented form (equals sign before any comment sign, block headers in the first column), the dump succeeds and loading its text recreates the same blocks, parameters, values and comments in the same order.", "quantifier": "all stores built by loading such text, setting or defaulting clean values and overriding on the command line", "why_tests_cant": "Formatting corner cases (empty values, comments, padding) form an infinite set; restarts rely on it.", "anchors": ["src/parameter_input.cpp: ParameterDump, LoadFromStream, ParseLine"]}
{"id": "C26", "title": "Command-line overrides only touch existing parameters", "statement": "Each 'block/name=value' argument either overwrites the value of an existing parameter or aborts; it never creates a parameter and leaves everything else unchanged; other arguments are ignored.", "quantifier": "all argument lists and parameter stores", "why_tests_cant": "Infinite argument space.", "anchors": ["src/parameter_input.cpp: ModifyFromCmdline"]}
{"id": "C27", "title": "Read-or-default is idempotent and recorded", "statement": "A read-with-default returns the stored value if present, otherwise stores and returns the default and changes nothing else; later reads with any default return the same value. For reals this holds exactly when the default survives printing and reading.", "quantifier": "all stores, names, defaults", "why_tests_cant": "Sequence dependent.", "anchors": ["src/parameter_input.cpp: GetOrAddInteger/Real/Boolean/String"]}
{"id": "C28", "title": "The parameter header of a restart file ends where the dump ended", "statement": "Loading parameters from a restart file yields the dumped parameters and positions the file exactly behind the '<par_end>' line for every header up to eleven read chunks, independently of the chunk size and payload, provided the marker does not occur inside the parameters; longer headers are refused.", "quantifier": "all headers and all binary payloads following", "why_tests_cant": "The end marker may straddle a chunk boundary.", "anchors": ["src/parameter_input.cpp: LoadFromFile"]}
{"id": "C29", "title": "Output times stay on schedule across restarts", "statement": "Rolling back and forwarding next output times on restart with unchanged interval leaves everything else unchanged and yields, for every output block, a next time on the original schedule and after the restart time; a time less than two intervals ahead is not moved.", "quantifier": "all times, intervals and output blocks", "why_tests_cant": "Depends on arbitrary real times.", "anchors": ["src/parameter_input.cpp: RollbackNextTime, ForwardNextTime"]}
{"id": "C30", "title": "Restart files are read back exactly", "statement": "In builds whose Real has the size of double, reading a restart file returns exactly the parameters, header, user data, block list and per-block data that were written, for any distribution of blocks over the writing and reading processes and any order in which the writes reach the file; writes of different blocks never overlap; all processes make the same number of collective calls. (In single-precision builds every restart overruns the list buffer.)", "quantifier": "all physics configurations, user data sizes, block counts, process counts of writer and reader", "why_tests_cant": "Offsets depend on configuration and process layout.", "anchors": ["src/outputs/restart.cpp: RestartOutput::WriteOutputFile", "src/mesh/mesh.cpp: restart constructor", "src/mesh/meshblock.cpp: restart constructor, GetBlockSizeInBytes"]}
{"id": "C31", "title": "Gray-radiation restart size agrees with the stored block size", "statement": "When restarting with radiation converted from a gray run the computed per-block size equals the number of bytes the block constructor consumes.", "quantifier": "all physics configurations", "why_tests_cant": "Combination rarely built.", "anchors": ["src/mesh/meshblock.cpp: GetBlockSizeInBytesGray"]}
{"id": "C32", "title": "Pack and unpack are inverse", "statement": "Packing any index box of an array and unpacking the buffer into a box of the same extents reproduces the values cell by cell, touches no other cells, and advances the offset by exactly the number of cells.", "quantifier": "all arrays, boxes (possibly empty), offsets and dimensions", "why_tests_cant": "Infinite boxes.", "anchors": ["src/utils/buffer_utils.cpp: PackData, UnpackData"]}
{"id": "C33", "title": "Array elements never alias", "statement": "Different in-range multi-indices of an array address different memory elements inside the allocation, and every element is addressed by some multi-index; a shallow slice addresses exactly the corresponding elements of its source; a deep copy reproduces every element and leaves all else unchanged.", "quantifier": "all dimensions and indices", "why_tests_cant": "Infinite.", "anchors": ["src/athena_arrays.hpp: AthenaArray::operator()"]}
{"id": "C34", "title": "Boundary message tags identify the message", "statement": "Two boundary messages addressed to the same process have equal tags only if they have equal target block, buffer and physics id (within the encodable ranges); each send is matched by exactly one posted receive and each receive by exactly one send.", "quantifier": "all block ids, buffer ids and physics ids in range", "why_tests_cant": "Large product space.", "anchors": ["src/bvals/bvals_base.cpp: CreateBvalsMPITag", "src/mesh/amr_loadbalance.cpp: CreateAMRMPITag"]}
{"id": "C35", "title": "Buffer slots are distinct and consistent on both sides", "statement": "In each dimensionality, the buffer ids enumerated for a block are distinct and at most 56, the id looked up for a direction is the slot of that direction, the neighbour list is exactly the set of touching blocks, and the target slot stored for a neighbour is the slot under which the neighbour stores this block.", "quantifier": "all reachable meshes (1D/2D/3D, uniform or refined, periodic or not), all blocks and neighbours", "why_tests_cant": "Combinatorial enumeration repeated in two places that must agree.", "anchors": ["src/bvals/bvals_base.cpp: BufferID, FindBufferID, CreateBufferID, SearchAndSetNeighbors"]}
{"id": "C36", "title": "Ghost-zone messages carry exactly the cells the receiver expects", "statement": "For every block of a mesh and every entry of its neighbour list (same level, finer or coarser): the neighbour has an entry for this block with matching buffer numbers; the cells packed by the sender are, in the order of packing, the same cells of the mesh as the cells unpacked by the receiver; the receiver stores them inside its array into ghost cells; the length equals the sizes announced to MPI on both sides and fits both allocated buffers. After the exchange each of these ghost cells has the values of the same cell of the mesh, all others are unchanged. Only active cells are sent if blocks of refined meshes have at least 2*NGHOST cells per direction.", "quantifier": "all reachable meshes without polar or shearing boundaries, 1D to 3D, all block sizes and ghost widths admitted by the constructor, all directions and child positions, any number of variables", "why_tests_cant": "Off-by-one errors depend on sizes and positions.", "anchors": ["src/bvals/cc/bvals_cc.cpp: Load*/Set*, ComputeVariableBufferSize, SetupPersistentMPI"]}
{"id": "C37", "title": "Every ghost cell is filled exactly once", "statement": "Every ghost cell of a block that faces a block of the same or a higher level is set from exactly one entry of the neighbour list; a ghost cell that faces no block or a coarser block is not touched by messages of blocks of the same or a higher level (it is left to physical boundary conditions or prolongation).", "quantifier": "all reachable meshes without polar or shearing boundaries, all block sizes, ghost widths, neighbour level patterns, all ghost cells", "why_tests_cant": "Combinatorial.", "anchors": ["src/bvals/cc/bvals_cc.cpp: SetBoundarySameLevel, SetBoundaryFromFiner"]}
{"id": "C38", "title": "Boundary exchange never consumes stale or missing data", "statement": "Under every interleaving of the loop bodies of receive-start, send, receive, set and clear of all blocks and of the network: the k-th time a block unpacks the buffer of a neighbour it finds what that neighbour packed for it in stage k (nothing is stale, lost, used twice or overwritten before use); no persistent request is started while active; neighbouring processes are at most one stage apart; the exchange is never stuck, and every run that does not only poll takes every process through every stage.", "quantifier": "all interleavings, all networks of paired channels (in particular the neighbour lists of all reachable meshes, any distribution over processes), any number of stages", "why_tests_cant": "Race conditions depend on scheduling.", "anchors": ["src/bvals/bvals_var.cpp: SendBoundaryBuffers, ReceiveBoundaryBuffers, SetBoundaries", "src/bvals/cc/bvals_cc.cpp: StartReceiving, ClearBoundary"]}
{"id": "C39", "title": "Flux differencing conserves every conserved variable", "statement": "The volume-weighted sum of each conserved variable over a block changes exactly by the area-weighted fluxes through the block's outer faces; over a periodic or closed mesh the total is unchanged, also across fine/coarse boundaries after flux correction.", "quantifier": "all block sizes, fluxes, face areas, volumes and dimensions (exact arithmetic)", "why_tests_cant": "Infinite data.", "anchors": ["src/hydro/add_flux_divergence.cpp: Hydro::AddFluxDivergence", "src/bvals/cc/flux_correction_cc.cpp"]}
{"id": "C40", "title": "Constrained transport keeps div B exactly zero", "statement": "The face-centred field update leaves the net magnetic flux out of every cell unchanged, for any edge electric fields.", "quantifier": "all EMFs, geometries, block sizes, 1D/2D/3D", "why_tests_cant": "Infinite data.", "anchors": ["src/field/ct.cpp: Field::CT"]}
{"id": "C41", "title": "Restriction and prolongation conserve and stay bounded", "statement": "Restriction preserves the volume integral and stays within the range of the fine values. Prolongation preserves the volume integral wherever the coarse centres are centres of volume of their fine cells (uniform Cartesian meshes among them), creates no value outside the range of the coarse neighbourhood used by the limiter, reproduces linear functions, and restriction undoes it.", "quantifier": "all coarse and fine data (exact arithmetic)", "why_tests_cant": "Infinite data, limiter branches.", "anchors": ["src/mesh/mesh_refinement.cpp: RestrictCellCenteredValues, ProlongateCellCenteredValues"]}
{"id": "C42", "title": "Field prolongation is divergence preserving", "statement": "Restriction keeps the magnetic flux through every face. After prolongation each fine cell has the same share (a quarter in 2D, an eighth in 3D) of the net outgoing flux of its coarse cell, for any face areas and any choice of outer faces that keep values provided by neighbours; in 1D the second fine cell gets all of it. So a coarse field without divergence gives a fine field without divergence.", "quantifier": "all field values and face areas", "why_tests_cant": "Infinite data.", "anchors": ["src/mesh/mesh_refinement.cpp: ProlongateInternalField, ProlongateSharedFieldX1/X2/X3, RestrictFieldX1/X2/X3"]}
{"id": "C43", "title": "Time integrators have their nominal order", "statement": "The multi-register update with the coded weights is, for every right-hand side, the explicit Runge-Kutta scheme of the stated order (rk1, rk2, vl2, rk3): the order conditions hold exactly and weights sum to one.", "quantifier": "all right-hand sides and initial values", "why_tests_cant": "Convergence tests only estimate the order.", "anchors": ["src/task_list/time_integrator.cpp: TimeIntegratorTaskList ctor, IntegrateHydro", "src/mesh/weighted_ave.cpp"]}
{"id": "C44", "title": "Source terms are evaluated at the stage's own time", "statement": "For every integrator the time handed to time-dependent source terms and boundary functions in a stage is the abscissa of that stage's solution (the time a solution of u'=1 has reached).", "quantifier": "all integrators", "why_tests_cant": "Time-dependent sources are rarely combined with rk4 in tests.", "anchors": ["src/task_list/time_integrator.cpp: sbeta/ebeta computation, AddSourceTerms"]}
{"id": "C45", "title": "ssprk5_4 is consistent in all supported configurations", "statement": "With integrator ssprk5_4 the final solution is a consistent average (coefficients of the previous solution sum to one), also with orbital advection.", "quantifier": "all right-hand sides, all supported orbital-advection settings", "why_tests_cant": "Combination not in the regression suite.", "anchors": ["src/task_list/time_integrator.cpp: IntegrateHydro stage==4 branch"]}
{"id": "C46", "title": "Riemann solvers are consistent, symmetric and keep waves", "statement": "For equal left and right states each approximate Riemann solver returns the physical flux of that state, in each of the three directions, and writes nothing else. HLLE and LLF are the formulas they are named after with positive divisors and return the upwind flux in supersonic flow; HLLC keeps contacts and shear layers exactly and its intermediate states satisfy the jump conditions; Roe's solver is exact for an isolated discontinuity that satisfies the jump conditions. Every solver commutes with reflection, so that no mass, energy or transverse momentum passes a reflecting wall.", "quantifier": "all physically admissible states", "why_tests_cant": "Infinite state space.", "anchors": ["src/hydro/rsolvers/hydro/hlle.cpp", "src/hydro/rsolvers/hydro/llf.cpp", "src/hydro/rsolvers/hydro/hllc.cpp", "src/hydro/rsolvers/hydro/lhllc.cpp", "src/hydro/rsolvers/hydro/roe.cpp"]}
{"id": "C47", "title": "Reconstruction is limited", "statement": "Donor-cell states equal the cell average. PLM states lie between the averages of the cell and of the neighbour on that side, equal the average at an extremum and reproduce linear data, provided the neighbours are at least half as wide as the cell (van Leer limiter; x3 only on uniform spacing; minmod always, for variables n < NWAVE). PPM states on non-uniform or curvilinear meshes lie between the same neighbours and equal the average at an extremum; on uniform Cartesian meshes they do so wherever the interface averages do; constants are always reproduced, and the interface averages are exact for cubics (radial meshes: only in blocks that begin on the axis).", "quantifier": "all cell averages, all index ranges and variable counts, all contents of the scratch arrays, all meshes meeting the stated width conditions", "why_tests_cant": "Limiters are piecewise formulas over all real data and all meshes; a sample leaves most branch boundaries untouched.", "anchors": ["src/reconstruct/plm_simple.cpp", "src/reconstruct/dc_simple.cpp", "src/reconstruct/ppm_simple.cpp", "src/reconstruct/reconstruction.cpp"]}
{"id": "C48", "title": "Conserved/primitive conversion round-trips and enforces floors", "statement": "After ConservedToPrimitive every converted cell has primitive and conserved variables of one and the same gas (density, momentum, internal + kinetic + magnetic energy), density and pressure at least their floors and unchanged momentum; density and energy are only raised, and only by the floors; other cells are untouched. Primitive to conserved and back (and the other way) returns the same state at or above the floors, and repeating the conversion changes nothing. The cell-centred field lies between the two face values and is exact for linear fields. Passive scalars likewise. The fourth-order conversion enforces the floors and, where no floor acts, leaves the conserved variables unchanged; its scalar floor works in one dimension only.", "quantifier": "all states, equations of state (adiabatic or isothermal, with or without field), index ranges and meshes", "why_tests_cant": "Infinite data and the combinations of floor branches; the misplaced scalar floor shows only in 2D or 3D near steep gradients.", "anchors": ["src/eos/adiabatic_hydro.cpp:39", "src/eos/adiabatic_mhd.cpp:40", "src/eos/isothermal_hydro.cpp:34", "src/eos/isothermal_mhd.cpp:36", "src/eos/eos_scalars.cpp:25", "src/eos/eos_high_order.cpp:28", "src/field/field.cpp:112"]}
{"id": "C49", "title": "The run lands on the time limit and the step obeys every limit", "statement": "Without remeshing each new time step is the largest that is at most twice the previous one and at most every block's limit, the user's limit, the super-time-stepping ratio and the time left, identical on all ranks; the simulation time never exceeds tlim and the last step lands on it, within a number of cycles bounded by the smallest limit (or at nlim). The limit of a block obeys the Courant condition in every active cell and direction and every diffusive, Hall, orbital and user limit. False, with witnesses: a remeshing cycle calls NewTimeStep twice, so the step may grow fourfold; a run restarted from a file recomputes the step, so while the step is still growing by doubling the first step differs from the uninterrupted run; with a fixed fluid velocity field and the default nlim = -1 the step is -tlim, so time runs backwards and the run never ends, and with a start time other than 0 it overshoots; the signal speed used for the Courant condition with a negative normal field can be smaller than the fast speed.", "quantifier": "all block time steps, histories, ranks and limits (exact arithmetic)", "why_tests_cant": "Infinite histories.", "anchors": ["src/mesh/mesh.cpp: Mesh::NewTimeStep", "src/main.cpp: main loop", "src/hydro/new_blockdt.cpp", "src/hydro/hydro_diffusion/hydro_diffusion.cpp: NewDiffusionDt", "src/mesh/mesh.cpp: Mesh::Initialize (last statement)"]}
{"id": "C50", "title": "The random generator is overflow-free and equals the reference recurrence", "statement": "For every (re)seeding with seeds of magnitude below the first modulus, each draw updates the two linear congruential states exactly as the mathematical modular recurrences, with no 64-bit overflow, uses only in-range table slots, and returns a value strictly between 0 and 1. (Larger seeds can read outside the table.)", "quantifier": "all seeds below 2147483563 in magnitude, all sequences of draws and reseedings", "why_tests_cant": "Period about 2e18.", "anchors": ["src/utils/ran2.cpp"]}
{"id": "C51", "title": "Mesh spacing generators are monotone and consistent across blocks", "statement": "The mesh generators increase strictly with the logical position and map its ends to xmin and xmax. Every face of every block, active or ghost, in the fine arrays or the coarse buffer, at any level, has the coordinate that its position in the mesh prescribes: equal positions give equal coordinates (adjacent blocks of the same or different level, ghost faces of one and active faces of the other, coarse buffer and coarse neighbour), a later position a larger coordinate. Widths are the differences of faces, are positive, and grow by the input ratio per root cell. Ghost faces at reflecting (and polar) boundaries are the mirror image of the active ones. The ranges of blocks are non-empty, adjacent ones share their boundary, children divide their parent's range.", "quantifier": "all ratios > 0 (and any increasing user generator), all block counts and sizes, levels, boundary flags; exact arithmetic", "why_tests_cant": "Infinite parameter space.", "anchors": ["src/mesh/mesh.hpp: MeshGenerator functions", "src/mesh/mesh.cpp: SetBlockSizeAndBoundaries"]}
{"id": "C52", "title": "Physical boundary functions fill exactly the ghost zone", "statement": "After `ApplyPhysicalBoundaries` every ghost cell and ghost face beyond a reflecting, outflow or polar-wedge boundary, edges and corners included, holds the mirrored or copied value of an active (or communicated) cell with the sign of the components the wall or pole reverses; no active cell and nothing outside the ghost zones is written; conserved variables and cell-centred field there agree with the new primitive variables and faces; applying the boundaries again changes nothing.", "quantifier": "all arrays, block sizes, dimensions, ghost widths and combinations of conditions on the six sides", "why_tests_cant": "Infinite data.", "anchors": ["src/bvals/bvals.cpp", "src/bvals/cc/hydro/reflect_hydro.cpp", "src/bvals/cc/reflect_cc.cpp", "src/bvals/cc/outflow_cc.cpp", "src/bvals/cc/polarwedge_cc.cpp", "src/bvals/fc/reflect_fc.cpp", "src/bvals/fc/outflow_fc.cpp", "src/bvals/fc/polarwedge_fc.cpp"]}
{"id": "C53", "title": "Within a stage, tasks that share data run in data-flow order", "statement": "In every execution of a stage: fluxes are corrected before they are differenced, all source terms act on the integrated variables and before these are sent, ghost zones are received before they are set and set before prolongation, primitives are computed after everything that modifies the conserved variables, and time step and refinement criteria are evaluated last.", "quantifier": "all configurations, all schedules and message delays", "why_tests_cant": "Races depend on message timing, which tests do not control.", "anchors": ["src/task_list/time_integrator.cpp: TimeIntegratorTaskList constructor", "src/task_list/sts_task_list.cpp: SuperTimeStepTaskList constructor", "src/task_list/task_list.cpp: DoAllAvailableTasks"]}
{"id": "C54", "title": "Load balancing is within one block of the ideal", "statement": "With non-negative costs, no process receives more than the average load per process plus the cost of the most expensive block.", "quantifier": "all non-negative cost lists, all block and process counts (exact arithmetic)", "why_tests_cant": "Quality bound over all cost lists.", "anchors": ["src/mesh/amr_loadbalance.cpp: Mesh::CalculateLoadBalance"]}
{"id": "C55", "title": "Every mergeable sibling group asking for derefinement is merged", "statement": "After an adaptation step, a complete sibling group that asked for derefinement has been merged unless its parent touches a location one level finer that is still refined.", "quantifier": "every mesh, every flag assignment", "why_tests_cant": "Depends on the order in which groups on different levels are handled; needs particular nested patterns.", "anchors": ["src/mesh/amr_loadbalance.cpp:285-309"]}
{"id": "C56", "title": "Weighted averages", "statement": "MeshBlock::WeightedAve returns the weighted sum of the output and the inputs for all weights, and touches an input array only if that input or a later one has non-zero weight; for face fields likewise in every component.", "quantifier": "all weights and arrays, allocated or not", "why_tests_cant": "The branch taken depends on exact values of five weights; existing callers reach only a few branches.", "anchors": ["src/mesh/weighted_ave.cpp"]}
{"id": "C57", "title": "Orbital advection splitting", "statement": "With first-order splitting a step is the Runge-Kutta step followed by orbital advection over the full step; with second-order splitting it is half an orbital step, the Runge-Kutta step, half an orbital step; whatever the number of stages the boundary conditions force.", "quantifier": "all integrators, physics, states, with and without shear-periodic boundaries or refinement", "why_tests_cant": "Number and flags of stages differ between configurations; tests compare results to tolerances.", "anchors": ["src/task_list/time_integrator.cpp: TimeIntegratorTaskList ctor, CalculateHydroOrbital"]}
{"id": "C58", "title": "Super-time-stepping is stable, accurate and conservative with the number of stages the main loop picks", "statement": "The number of stages of a super-time-step is odd, satisfies the stability bound of the method for any ratio of the step to the explicit diffusive step, and two stages fewer would not. With it no mode that an explicit step would damp grows, in any stage: each is multiplied by 1 - b + b P(1 + w z) with P a Legendre polynomial. RKL1 is first-order and RKL2 second-order accurate, the result does not depend on what the registers held before, whatever linear quantity the right-hand side conserves is conserved in every stage, and steady states are kept.", "quantifier": "all steps, stage numbers, registers; order for all affine right-hand sides in any vector space, conservation for all right-hand sides (exact arithmetic)", "why_tests_cant": "Unbounded ratio of steps and number of stages.", "anchors": ["src/task_list/sts_task_list.cpp: StartupTaskList, IntegrateHydro_STS, IntegrateScalars_STS, IntegrateField_STS", "src/main.cpp: nstages", "src/hydro/add_flux_divergence.cpp: AddFluxDivergence_STS", "src/field/ct.cpp: CT_STS"]}
{"id": "C59", "title": "Riemann solvers with a magnetic field are consistent and keep waves", "statement": "For equal left and right states each approximate Riemann solver with a magnetic field returns the physical flux of that state and the two transverse components of the electric field -v x B, in each of the three directions, and writes nothing else. HLLE and LLF are the formulas they are named after, with positive divisors and radicands. HLLD, LHLLD and the isothermal HLLD order their waves, have positive intermediate densities, and return the flux of the intermediate state that covers the face, in a fan of waves at each of which the jump conditions hold. HLLD and LHLLD keep contact, tangential and rotational discontinuities of any strength exactly. All return the upwind flux in flow faster than the fast waves. LLF, HLLE and the HLLD family commute with reflection; at a reflecting wall that no field crosses nothing but pressure acts.", "quantifier": "all physically admissible states, any field", "why_tests_cant": "Infinite state space; errors in one wave only show for states that contain that wave.", "anchors": ["src/hydro/rsolvers/mhd/hlle_mhd.cpp", "src/hydro/rsolvers/mhd/llf_mhd.cpp", "src/hydro/rsolvers/mhd/hlld.cpp", "src/hydro/rsolvers/mhd/lhlld.cpp", "src/hydro/rsolvers/mhd/hlld_iso.cpp", "src/hydro/rsolvers/mhd/roe_mhd.cpp", "src/hydro/hydro.cpp: GetWeightForCT"]}
{"id": "C60", "title": "Passive scalars: uniform concentrations stay uniform, concentrations stay within their bounds", "statement": "The flux of a passive scalar is the mass flux times the concentration on the upwind side. If a scalar is a constant multiple of the density, it remains that multiple over a step of every integrator with donor cell, PLM or PPM, through restriction and prolongation, whatever mass fluxes the Riemann solver returns. With limited reconstruction, a cell that loses through its faces no more than the fraction 1/kap of its mass (kap = 1 donor cell, 2 PLM, 1+hp PPM) keeps the concentration between the bounds of its neighbourhood. Diffusion runs from high to low concentration. Conversion enforces the floor and is a round trip above it. The fourth-order conversion does not enforce the floor (negation proved).", "quantifier": "all block sizes, dimensions, numbers of scalars, concentrations, densities, mass fluxes, contents of the work arrays, areas and volumes, limiters and mesh spacings of the stated kind; all integrators and orbital advection splittings", "why_tests_cant": "A test advects a particular profile and compares errors against a threshold; a wrong loop bound, wrong sweep or wrong face that only breaks exact proportionality or the maximum principle stays below the threshold. Statements about all velocity fields, all blocks and all reconstructions cannot be sampled.", "anchors": ["src/scalars/calculate_scalar_fluxes.cpp:43-393", "src/scalars/calculate_scalar_fluxes.cpp:399-417", "src/scalars/scalar_diffusion.cpp:36-140", "src/eos/eos_scalars.cpp:31-173", "src/task_list/time_integrator.cpp:2329-2422"]}
{"id": "C61", "title": "Flux correction on every mesh: messages match and totals are conserved", "statement": "On every mesh that refinement and derefinement can produce: the loops over neighbours that stop at the first entry that is not a face miss no face; at each face a neighbour list has nothing (mesh boundary), one block of the same or the next coarser level, or one finer block at every position. Each message of restricted fluxes goes to a block that waits for it, into the buffer it reads for the sending block, at the opposite face and the position given by the parities of the sender's coordinates; all messages waited for are sent; no two messages share a buffer; the sizes of message, persistent requests and buffers fit. After the corrections, received in any order, the update changes the total of each conserved variable only by what passes through the non-periodic boundaries of the mesh.", "quantifier": "all reachable meshes without polar or shearing boundaries, all block sizes, numbers of variables, fluxes, orders of arrival, weights, and geometries in which coarse faces are made of fine ones", "why_tests_cant": "Conservation tests run on a handful of meshes and compare to round-off tolerances; the pairing of buffers depends on the whole tree around a block, on periodic wrapping and on the order of the neighbour list, which cannot be sampled. An error in one corner configuration loses mass only there.", "anchors": ["src/bvals/cc/flux_correction_cc.cpp:36-166", "src/bvals/cc/flux_correction_cc.cpp:171-355", "src/bvals/cc/bvals_cc.cpp:265-281", "src/bvals/cc/bvals_cc.cpp:640-700", "src/bvals/bvals_var.cpp:44-141", "src/bvals/bvals_base.cpp:54-61", "src/bvals/bvals_base.cpp:318-447"]}
{"id": "C62", "title": "Cartesian, cylindrical and spherical coordinates: exact measures, gas at rest stays at rest, mass, energy and angular momentum are conserved", "statement": "In each of the three coordinate systems the areas, volumes and edge lengths used by the finite-volume update are the integrals of the scale factors over faces, cells and edges, the reconstruction points are centroids and lie inside their cells, and volumes are positive. The geometric terms change only the momentum, by the exact cell means of 1/r and cot(theta)/r times the components of the stress tensor. Gas at rest with uniform pressure (and a uniform axial field in cylindrical coordinates) stays exactly at rest. The update of the azimuthal momentum changes the angular momentum of each cell exactly by the angular-momentum fluxes through its faces. With the face positions each block computes, the areas of a coarse face are the sums of the areas of the fine faces it is made of; the totals of mass and energy on every refined mesh, and the total angular momentum on meshes of one level, change only by what passes through the boundaries.", "quantifier": "all positions of faces with increasing coordinates, radius not negative and polar angle in [0, \u03c0]; all dimensions; all fluxes, primitive variables, fields, viscous fluxes, weights; all reachable meshes without polar or shearing boundaries", "why_tests_cant": "The cancellation of geometric source terms against flux differences is exact only with one particular choice of coefficients per cell; tests compare noisy profiles at a tolerance and one resolution. Angular momentum is not printed by any test; a wrong factor in one coefficient gives a slow spurious torque.", "anchors": ["src/coordinates/coordinates.cpp:95-314", "src/coordinates/cylindrical.cpp:26-160", "src/coordinates/cylindrical.cpp:174-338", "src/coordinates/spherical_polar.cpp:66-310", "src/coordinates/spherical_polar.cpp:316-583", "src/hydro/add_flux_divergence.cpp:29-110", "src/task_list/time_integrator.cpp:1823-1826"]}
{"id": "C63", "title": "Electric field at cell edges: same upwind rule for all components and dimensions, nothing stale, plane-parallel problems, uniform flows, cell-centred field", "statement": "In one, two and three dimensions CT uses on every edge of an active cell the mean of the four faces that meet there plus upwinded differences between face and cell, the same rule for all three components, and the value of the face along directions the block does not extend in. CT never reads anything left in the face, edge or scratch arrays by earlier stages, nor cells further than one ghost cell away. A plane-parallel problem gives the one-dimensional update of the field in any direction and any number of dimensions, with the longitudinal field unchanged. A uniform flow in a uniform field leaves the field unchanged in Cartesian coordinates, and where the electric field is zero nothing changes in any coordinates. The cell-centred field lies between the face values and is exact for linear fields.", "quantifier": "all dimensions, block sizes, primitive variables, fields, face electric fields, weights, previous contents of all arrays; all consistent solvers; all geometries for the frozen field", "why_tests_cant": "The index ranges of three loops over faces and of the loops over edges must fit exactly in each of the three dimensionalities; an edge left out keeps the value of the previous stage, which in smooth flow looks plausible. Symmetry between directions has 3 x 3 cases with different code; tests run one or two of them at a tolerance.", "anchors": ["src/field/calculate_corner_e.cpp:29-330", "src/hydro/calculate_fluxes.cpp:65-102", "src/hydro/calculate_fluxes.cpp:169-223", "src/hydro/calculate_fluxes.cpp:299-343", "src/field/ct.cpp:31-117", "src/field/field.cpp:109-180", "src/hydro/hydro.cpp:154-158", "src/reconstruct/reconstruction.cpp:235-240"]}
{"id": "C64", "title": "Physical source terms: only momentum and energy of active cells change, the energy by the work of the forces; rotating frames and orbital motion agree with an inertial frame; equilibria; self-gravity exerts no net force", "statement": "AddSourceTerms leaves density, passive scalars, ghost cells and (barotropic) the energy alone, changes nothing when the constructor says no source term is defined and nothing in a step of zero length. When the mass fluxes at the faces of a cell are those of its own density and velocity, the energy changes by the work of the forces plus, with orbital advection, what the magnetic stress takes from the shear: exactly in Cartesian coordinates and for the rotating frame and orbital advection in cylindrical coordinates, up to second order in cell size over radius for a point mass and in spherical coordinates. Geometric and physical source terms together give the radial (and polar) force of the gas seen in an inertial frame less the pull of the point mass. Cold gas on circular orbits and the background flow of the shearing box feel no force. The default orbital velocities have the derivatives given for them; the conversion between orbital and normal system preserves internal energy and is done once. On a uniform periodic block self-gravity conserves total momentum.", "quantifier": "all coordinate systems, dimensions, block sizes, parameters, gas states, fields, fluxes, potentials, orbital velocities, time steps", "why_tests_cant": "Each source term is a formula with signs, factors of two and index offsets in up to nine variants (coordinates x dimensions x user or default velocity x field); an error of sign or a term counted twice looks like slow heating or a slight drift, which regression tests at a tolerance do not separate from truncation error.", "anchors": ["src/hydro/srcterms/hydro_srcterms.cpp:30-161", "src/hydro/srcterms/pointmass.cpp:25-45", "src/hydro/srcterms/constant_acc.cpp:20-73", "src/hydro/srcterms/self_gravity.cpp:25-94", "src/hydro/srcterms/shearing_box.cpp:33-90", "src/hydro/srcterms/rotating_system_srcterms.cpp:24-103", "src/hydro/srcterms/orbital_advection_srcterms.cpp:27-288", "src/orbital_advection/default_orbital_velocity.cpp:31-89", "src/orbital_advection/orbital_system_conversion.cpp:25-126"]}
{"id": "C65", "title": "Multigrid gravity: the smoother is red-black over-relaxation, its rest states are the solutions, it lowers the energy, and MeshBlocks together do what one grid would do", "statement": "MGGravity::Smooth, which works in place, changes exactly the cells of one colour of the box, each to the over-relaxed value computed from its six neighbours as they were before the sweep; the two calls with the two colours reach every cell once. Both sweeps leave the potential alone exactly when it solves the discrete Poisson equation with the given source, and exactly then the defect vanishes. For 0 < omega < 2 a sweep never increases the discrete energy and lowers it unless nothing changes. A MeshBlock whose ghost cells hold its neighbours' values is smoothed as the same part of the undivided level. After ApplyPhysicalBoundaries every face ghost cell satisfies its boundary condition, and with periodic boundaries edges and corners are the periodic continuation. With periodic or zero-gradient boundaries only sources of zero total are solvable; SubtractAverage makes the total over all MeshBlocks of all levels zero.", "quantifier": "all box sizes, levels, colours, offsets, potentials, sources, boundary conditions, relaxation factors, numbers of MeshBlocks", "why_tests_cant": "A wrong colour or sign still converges for smooth sources, only slower; the tests of the solver compare a norm at the end with a tolerance.", "anchors": ["src/gravity/mg_gravity.cpp:222-327", "src/multigrid/multigrid.cpp:677-717", "src/multigrid/multigrid_driver.cpp:183-405", "src/multigrid/mgbval_periodic.cpp:26-140", "src/multigrid/mgbval_zerofixed.cpp:29-150", "src/multigrid/mgbval_zerograd.cpp:26-145", "src/bvals/cc/mg/bvals_mg.cpp:374-430"]}
{"id": "C66", "title": "Multigrid gravity: restriction keeps totals, prolongation is exact for the polynomials it is meant for, and the V-cycle leaves solutions alone", "statement": "Restriction gives each coarse cell the mean of its eight fine cells, so that eight times the coarse total is the fine total. Each of the 24 prolongation formulas gives the exact value at the centre of its fine cell: for polynomials of degree two in each variable with the tricubic option and in the full multigrid step, for trilinear functions otherwise. A V-cycle from any level, with full approximation or correction scheme, any numbers of smoothing passes and any boundary conditions that pass CheckBoundaryFunctions, leaves a solution of the discrete equation unchanged (zero mean required where the mean is subtracted with the full approximation scheme).", "quantifier": "all grids, numbers of levels, starting levels, smoothing counts, boundary conditions, potentials and sources", "why_tests_cant": "A wrong weight or an inconsistent coarse equation shows up as a slightly larger final defect or one more iteration.", "anchors": ["src/multigrid/multigrid.cpp:387-480", "src/multigrid/multigrid.cpp:765-1003", "src/multigrid/multigrid_driver.cpp:817-935", "src/multigrid/multigrid_driver.cpp:1038-1081", "src/task_list/mg_task_list.cpp:283-527"]}
{"id": "C67", "title": "Multigrid gravity on refined meshes: the exchange at level boundaries conserves the field flux and is exact for linear potentials", "statement": "Where a MeshBlock meets a finer MeshBlock across a face, the values packed by the sender, unpacked by the receiver and turned into ghost cells are such that the flux of the gravitational field through every coarse cell face equals the sum of the fluxes through the four fine faces it is made of, as the two sides compute them, for any potential. If the potential is a linear function of position at the centres of the cells read, the ghost cells of the finer MeshBlock hold that function at their centres. The values the coarse MeshBlock packs arrive in the cells of the coarse buffer that the formulas read, for all six faces and the four halves of each.", "quantifier": "all block sizes, positions of the finer MeshBlock on the face, potentials, directions and sides, cells of the face", "why_tests_cant": "A wrong weight leaves a small jump of the flux at level boundaries that looks like truncation error; the tests compare the potential with an analytic one within a tolerance.", "anchors": ["src/bvals/cc/mg/bvals_mg_gravity.cpp:35-393", "src/bvals/cc/mg/bvals_mg.cpp:718-1015"]}
{"id": "C68", "title": "Isolated gravity boundary: the multipole boundary functions hold the potential of the multipole expansion of the mass in the mesh", "statement": "With a multipole boundary of order 2 or 4 every ghost cell of a physical boundary is such that its mean with the adjacent cell, that is the value at the face, is the sum over all cells of all MeshBlocks of mass times the Legendre expansion of the inverse distance up to that order about the chosen origin (divided by 4 pi, the normalisation of the solver), provided the dipole is zero where it is left out. With the automatic origin the origin is the centre of mass and the dipole is zero. The expansion itself approximates the inverse distance with a relative error of third and fifth order in the ratio of distances.", "quantifier": "all meshes, mass distributions, origins, cells of the six boundaries; orders 2 and 4", "why_tests_cant": "The error of the expansion falls rapidly with distance and a wrong coefficient of one of the 25 harmonics vanishes for the symmetric mass distributions that tests use.", "anchors": ["src/multigrid/multigrid.cpp:1071-1310", "src/multigrid/multigrid_driver.cpp:2207-2330", "src/multigrid/mgbval_multipole.cpp:28-426", "src/gravity/mg_gravity.cpp:98-121"]}
{"id": "C69", "title": "Multigrid task lists: every block goes through smoothing, restriction and prolongation in the intended order and every list ends", "statement": "The task lists that the multigrid solver builds for going to the coarser level, going to the finer level, the prolongation of the full multigrid step and the boundary exchange make every MeshBlock carry out the intended sequence: each operation is preceded by an exchange of ghost cells of the right kind (sent, received, prolongated at level boundaries, physical boundaries) and followed by the release of the buffers; the requested number of smoothing passes is made, red before black; the right-hand side of the full approximation scheme is computed before the first smoothing. This holds whatever tasks fail and are retried and however tasks of different MeshBlocks interleave, and all MeshBlocks come to the end of the list.", "quantifier": "all combinations of refinement, red-black smoothing and full approximation scheme, numbers of smoothing passes, levels, numbers of blocks, neighbour relations, patterns of failing tasks", "why_tests_cant": "Tests run the default of one pass before and after; a missing dependency shows only under particular timing, and a dependency on a task that was never added as a run that hangs.", "anchors": ["src/task_list/mg_task_list.cpp:30-569", "src/task_list/mg_task_list.hpp:30-142", "src/gravity/mg_gravity.cpp:50-51"]}
{"id": "C70", "title": "Multigrid exchange: with three sets of buffers no message is lost, overwritten or unpacked in the wrong phase", "statement": "In the exchange of ghost cells of the multigrid solver, which writes into the buffers of a neighbour on the same process without looking whether they are free and relies on using three sets of buffers in turn, every message is unpacked exactly once, in order, in the phase in which it was sent; no buffer is written before it has been unpacked and released, no MPI request is started twice, and the exchange does not come to a stop.", "quantifier": "all meshes and distributions of blocks over processes, all interleavings of the loops of all blocks and of the delivery of messages, any number of phases", "why_tests_cant": "The outcome depends on the relative speed of blocks and processes; a race needs one block to get three phases ahead of another.", "anchors": ["src/bvals/cc/mg/bvals_mg.cpp:47", "src/bvals/cc/mg/bvals_mg.cpp:438-502", "src/bvals/cc/mg/bvals_mg.cpp:718-775", "src/bvals/cc/mg/bvals_mg.cpp:968-1015"]}
{"id": "C71", "title": "Orbital advection displaces every row of cells by dt times the orbital velocity, conservatively, across MeshBlock boundaries", "statement": "With orbital advection the conserved variables and scalars of a row of cells along the orbital direction become the cell averages of the reconstructed profile of the whole periodic row, displaced by olen/dx cells, for displacements of either sign and of any number of cells below the block length minus the stencil. The result does not depend on the order in which the messages of the neighbours arrive nor on old contents of buffers. Totals are conserved, whole-cell displacements copy cells, linear profiles are displaced exactly, and with the second order method a new value lies between the two cells it came from. Messages have the announced length and fit into their buffers, and the limit on the time step guarantees it.", "quantifier": "all data, displacements, block sizes, numbers of blocks in a ring, orders of arrival, both orders of reconstruction", "why_tests_cant": "Tests run one problem with one sign of the velocity; index errors in the shifted copies appear only for particular combinations of sign, offset and block boundary.", "anchors": ["src/orbital_advection/set_orbital_advection.cpp:44-109", "src/orbital_advection/set_orbital_advection.cpp:200-245", "src/orbital_advection/orbital_remapping.cpp:33-245", "src/orbital_advection/calculate_orbital_advection.cpp:35-115", "src/bvals/orbital/bvals_orbital.cpp:571-842", "src/bvals/orbital/bvals_orbital.cpp:853-920", "src/bvals/orbital/bvals_orbital.cpp:1105-1195", "src/orbital_advection/orbital_advection.cpp:512-527"]}
{"id": "C72", "title": "Orbital advection of the magnetic field: constrained transport with the remapped fluxes displaces the face fields and keeps their divergence", "statement": "Orbital advection of the magnetic field, done by electric fields that integrate the field over the displacement and constrained transport with weight one, gives each of the two transverse components the cell averages of its reconstructed profile displaced by olen/dx cells, and leaves the divergence in every cell unchanged.", "quantifier": "all fields, displacements, block sizes, orders of arrival, coordinate systems with orbital advection", "why_tests_cant": "A wrong length factor changes the result by the second order of the grid spacing and passes convergence tests; divergence tests pass for any electric field.", "anchors": ["src/orbital_advection/set_orbital_advection.cpp:127-175", "src/orbital_advection/set_orbital_advection.cpp:360-412", "src/orbital_advection/calculate_orbital_advection.cpp:125-283", "src/task_list/time_integrator.cpp:2590-2652", "src/field/ct.cpp:31-117", "src/coordinates/cylindrical.cpp:71-90", "src/coordinates/spherical_polar.cpp:115-134"]}
{"id": "C73", "title": "Heat conduction: downhill, conservative, and within the range of temperatures for the time step it asks for", "statement": "Isotropic conduction moves heat from the hotter to the colder of two cells, not at all between equal temperatures, in every coordinate system; the flux of each face enters the energy flux exactly once; and with a time step below the limit NewDiffusionDt returns no cell takes a temperature outside the range of its neighbours.", "quantifier": "all states, conductivities, block sizes in one to three dimensions; the last part for equal densities around the cell on Cartesian meshes", "why_tests_cant": "Convergence tests use smooth low-amplitude profiles with equal density; sign errors at the one face visited in a special case and the effect of density contrasts do not show.", "anchors": ["src/hydro/hydro_diffusion/conduction.cpp:25-96", "src/hydro/hydro_diffusion/hydro_diffusion.cpp:130-172", "src/hydro/hydro_diffusion/hydro_diffusion.cpp:237-303"]}
{"id": "C74", "title": "Viscosity: the flux is the Navier-Stokes stress, rigid motions feel none, heating is the work of the flux", "statement": "The isotropic viscous flux of momentum is minus density times viscosity times the traceless symmetric velocity gradient, exactly for linear velocity fields; rigid translations and rotations have no viscous fluxes in Cartesian, cylindrical and spherical coordinates; the energy flux is the mean velocity times the momentum flux; the stress tensor is symmetric; and the time step keeps the flow from growing.", "quantifier": "all linear velocity fields, block sizes in one to three dimensions, unequal cells for rigid motions", "why_tests_cant": "A missing scale factor vanishes at radius one or without azimuthal variation and leaves convergence to a wrong equation; tests with a shear layer do not excite it.", "anchors": ["src/hydro/hydro_diffusion/viscosity.cpp:25-201", "src/hydro/hydro_diffusion/viscosity.cpp:217-490", "src/hydro/hydro_diffusion/hydro_diffusion.cpp:174-196", "src/hydro/hydro_diffusion/hydro_diffusion.cpp:237-303", "src/hydro/new_blockdt.cpp:193-222"]}
{"id": "C75", "title": "Resistivity and ambipolar diffusion: curl, Ohm's law, decay of the magnetic energy, Poynting flux", "statement": "The current is the curl of the magnetic field: it vanishes for the gradient of a potential in all coordinates and is exact for linear fields and for fields around the axis; the electric field is the diffusivity times the current (Ohm) or the current across the field (ambipolar), taken at the same point of the edge; a resistive step within the limit of NewDiffusionDt does not increase the magnetic energy of the mesh; the energy flux is E times B; and every diffusivity that limits the time step acts on the field.", "quantifier": "all fields, diffusivities, block sizes in one to three dimensions, numbers of blocks; decay on periodic uniform Cartesian meshes; linear fields for the positions of the averages", "why_tests_cant": "The averages use up to four neighbours in each of three components and differ between one, two and three dimensions; an error in one term leaves a stable scheme that converges to a wrong equation or at lower order.", "anchors": ["src/field/field_diffusion/diffusivity.cpp:28-460", "src/field/field_diffusion/field_diffusion.cpp:36-115", "src/field/field_diffusion/field_diffusion.cpp:186-306", "src/coordinates/coordinates.cpp:390-531", "src/coordinates/cylindrical.cpp:162-275", "src/coordinates/spherical_polar.cpp:250-474"]}
{"id": "C76", "title": "Characteristic variables: eigenvectors, exact inverse, reconstruction of linear data", "statement": "LeftEigenmatrixDotVector turns gradients into quantities that each travel with one wave speed of the equations (fast, Alfven, slow, entropy; or sound) in ascending order; RightEigenmatrixDotVector undoes it exactly; hence xorder = 2c reproduces linear data in all three directions, for every variable, with each limiter.", "quantifier": "all states with positive density and pressure, all magnetic fields including degenerate ones (no transverse field, no normal field, equal fast and slow speed), gases (adiabatic, isothermal), directions, meshes", "why_tests_cant": "The matrices have special branches for degenerate fields which ordinary test problems reach only in single cells, where a wrong value lowers the order of accuracy without any visible failure.", "anchors": ["src/reconstruct/characteristic.cpp:43-515", "src/reconstruct/plm.cpp:27-170", "src/defs.hpp.in:151"]}
{"id": "C77", "title": "Special relativity: conserved variables, accuracy of the inversion, floors", "statement": "PrimitiveToConserved gives the components of the stress-energy tensor of a perfect fluid. ConservedToPrimitive undoes it: exactly when the stored pressure is the true one, and whenever it reports success with an error of the pressure bounded by the tolerance; the conserved variables determine the primitives; whatever the input, the result has density and pressure not below the floors and a Lorentz factor not above the ceiling, and conserved and primitive variables agree in every cell; cells where the iteration succeeds within the limits keep their mass, momentum and energy.", "quantifier": "all primitive states with positive density and pressure, all adiabatic indices 1 < Gamma <= 2, all floors and ceilings, arbitrary (also non-physical) conserved states, all array shapes", "why_tests_cant": "The inversion is an accelerated fixed point iteration with absolute thresholds; whether it succeeds depends on the scale of the problem, and test problems have pressures of order one.", "anchors": ["src/eos/adiabatic_hydro_sr.cpp:67-283", "src/eos/adiabatic_hydro_sr.cpp:324-444"]}
{"id": "C78", "title": "Relativistic Riemann solvers: causal sound speeds, physical mean states, exact contact waves", "statement": "SoundSpeedsSR gives the two phase speeds of sound in the moving gas, which enclose the velocity and are below the speed of light. LLF, HLLE and HLLC give the flux of the stress-energy tensor when both sides agree, in all three directions; a reflection reflects the flux; in supersonic flow the flux is the upwind one. The mean state of HLLE and LLF is that of a gas with positive density and pressure, hence a first-order step with at most half the light crossing time of a cell ends with exactly one physical state. HLLC solves its quadratic equation for a contact speed between the outer waves, so that the jump conditions hold at the three waves with positive densities; contact waves are not diffused.", "quantifier": "all left and right states with positive density and pressure and any velocities, 1 < Gamma <= 2, all three directions", "why_tests_cant": "The claims are inequalities over a ten-dimensional space of states whose critical region is at velocities near that of light; tests use a few shock tubes.", "anchors": ["src/hydro/rsolvers/hydro/hlle_rel.cpp:120-275", "src/hydro/rsolvers/hydro/llf_rel.cpp:95-215", "src/hydro/rsolvers/hydro/hllc_rel.cpp:120-330", "src/eos/adiabatic_hydro_sr.cpp:285-296"]}
{"id": "C79", "title": "General relativity: metrics, inverse metrics, index raising, geometric sources", "statement": "CellMetric and the face metrics of the Schwarzschild and Kerr-Schild coordinates are those metrics and their inverses; RaiseVectorCell and LowerVectorCell undo each other (for a metric of the user exactly if the two matrices given are inverse to each other). AddCoordTermsDivergence adds, for a fluid with or without magnetic field, exactly dt times one half of the derivative of the metric along x^k contracted with the stress-energy tensor to the momentum m_k, and nothing to the energy.", "quantifier": "all masses, spins, positions outside the horizon (Schwarzschild) or at r > 0 (Kerr-Schild) off the axis, all primitive states, any metric of the user with spacelike surfaces of constant time", "why_tests_cant": "The sources are sums of some hundred products of metric coefficients and their derivatives written out by hand; a wrong term is proportional to components that vanish in the usual test problems.", "anchors": ["src/coordinates/schwarzschild.cpp:465-770", "src/coordinates/kerr-schild.cpp:735-1070", "src/coordinates/gr_user.cpp:580-780", "src/coordinates/kerr-schild.cpp:1785-1890"]}
{"id": "C80", "title": "General relativity: fluxes from local frames are the HLLE fluxes of the coordinates", "statement": "At each interface PrimToLocal, the HLLE solver in the local frame and FluxToGlobal together give the HLLE flux of the coordinates: computed from the exact currents rho u^n, T^n_mu and the dual field tensor and the conserved variables of both sides, with the rates at which the two waves cross the coordinates as speeds, upwind if both waves cross the interface in the same sense. In particular equal states give their exact flux.", "quantifier": "all states of the two sides with fields, all wave speeds, Kerr-Schild with any mass and spin and all three directions, Schwarzschild in r and phi, metrics of the user through x^1 and through x^2, x^3 if the shift does not cross", "why_tests_cant": "The frames are square roots of metric coefficients in four files times three directions, and half of the coefficients vanish in diagonal metrics; a wrong one gives plausible but wrong fluxes, as the two that were found.", "anchors": ["src/coordinates/schwarzschild.cpp:770-1402", "src/coordinates/kerr-schild.cpp:1070-1781", "src/coordinates/gr_user.cpp:785-1614", "src/coordinates/gr_user.cpp:1750-1808", "src/hydro/rsolvers/mhd/hlle_mhd_rel.cpp:90-345"]}
{"id": "C81", "title": "Cosmic rays: implicit exchange of energy and momentum with the gas", "statement": "The source step of the cosmic-ray module solves the backward Euler step of the equations of scattering (flux relaxing to the enthalpy carried by the gas, along and across the field with their opacities) exactly and for every time step; it conserves the sum of the momenta of gas and cosmic rays, and the sum of the energies unless one would become negative; the energy of the cosmic rays stays positive if their flux is at most their energy. RotateVec takes the field to the first axis and InvRotateVec undoes it.", "quantifier": "all states of gas and cosmic rays, all opacities, all time steps, all fields; gas and waves slower than about 0.87 vmax", "why_tests_cant": "The step is a hand-eliminated 4x4 system in a rotated frame; a wrong coefficient leaves static and uniform tests untouched, and the checks of negative energies act only in extreme cells.", "anchors": ["src/cr/integrators/cr_source.cpp:84-206", "src/utils/rotate_vectors.cpp:19-71", "src/cr/cr.cpp:73-135"]}
{"id": "C82", "title": "Cosmic rays: fluxes, diffusion speeds and streaming", "statement": "The flux between two cells is the HLL mean of the fluxes of the transport equations, equal to them for equal states, with signal speeds that enclose 0 and stay below vmax/sqrt 3; the reduction with optical depth keeps the numerical diffusion below sqrt 2/taucell times the physical one; the streaming velocity is the Alfven velocity down the gradient of the pressure, and the opacity of streaming makes the steady flux that of enthalpy carried by gas and waves plus diffusion.", "quantifier": "all states, velocities, opacities, cell widths, fields and gradients", "why_tests_cant": "Whether the numerical diffusion is below the physical one depends on a limit of large optical depth; the choice of the opacity of streaming is right only if two factors from different functions cancel.", "anchors": ["src/cr/integrators/cr_flux.cpp:36-95", "src/cr/integrators/cr_transport.cpp:82-173", "src/cr/cr.cpp:73-215"]}
{"id": "C83", "title": "Radiation: the angular grids integrate isotropic radiation exactly", "statement": "The directions of each angular grid are unit vectors, and its weights give isotropic radiation of unit intensity energy density one, no flux and a pressure tensor of a third of the unit tensor: for the level symmetric grid (two and three dimensions), the grid of angle_flag = 10 and the grid of equal cells in zeta and psi; every angle finds its weight and its place in the arrays.", "quantifier": "all numbers of levels, of angles in zeta and in psi; all families of permutations", "why_tests_cant": "The weights come out of a linear system over families of permutations, and the last level is fixed only implicitly; regression tests use one or two angles per octant, where any symmetric weights are right.", "anchors": ["src/nr_radiation/angulargrid.cpp:36-295", "src/nr_radiation/angulargrid.cpp:298-597", "src/utils/permutation.cpp:19-44", "src/nr_radiation/radiation.cpp:143-198"]}
{"id": "C84", "title": "Radiation: absorption, emission and scattering solve the implicit equations", "statement": "The source step of radiation solves the transfer equation along each ray and the energy equation of the gas, both differenced backward in time: the quartic for the temperature has exactly one nonnegative root and the code finds it; temperature and intensities stay positive; gas and radiation that exchange energy end between the hottest and the coldest of the two, for any time step and opacity; equilibrium is kept and is the only state that is kept.", "quantifier": "all numbers of angles, time steps, opacities, temperatures and intensities", "why_tests_cant": "The stiff limits of opacity and time step, the branches of the root finder and the anisotropy of intensities span many orders of magnitude; tests relax one uniform medium.", "anchors": ["src/nr_radiation/integrators/srcterms/absorption_scattering.cpp:33-150", "src/utils/fourth_polynomial_root.cpp:22-59"]}
{"id": "C85", "title": "Radiation: frames of the gas, and energy and momentum of gas plus radiation", "statement": "Boosting intensities to the frame of the gas and back gives the same intensities; boosted directions are unit vectors and boosted weights sum to one; the source step conserves the energy and the momentum of gas plus radiation.", "quantifier": "all velocities below the speed of light, directions, angular grids and intensities", "why_tests_cant": "Tests with moving gas check one velocity to a tolerance; the branches that break conservation (velocity limit, temperature ceiling, negative internal energy) do not occur in them.", "anchors": ["src/nr_radiation/integrators/frame_transform.cpp:44-160", "src/nr_radiation/integrators/rad_source.cpp:60-160", "src/nr_radiation/integrators/rad_source.cpp:422-579"]}
{"id": "C86", "title": "The LU decomposition with pivoting inverts every regular matrix", "statement": "InverseMatrix returns the inverse of every matrix with nonzero determinant: the decomposition with scaled partial pivoting, done in place, always finds a pivot, and the substitutions with the recorded interchanges solve the system for every right hand side; so the weights of the angular grid of the radiation module solve the equations they are meant to.", "quantifier": "all sizes, matrices and right hand sides", "why_tests_cant": "The order of interchanges and the shortcut for leading zeros of the right hand side matter only for matrices that force interchanges; no test calls the solver but for the fixed small matrices of the angular grid.", "anchors": ["src/utils/matrix_mult.cpp:24-188", "src/nr_radiation/angulargrid.cpp:140-144"]}
{"id": "C87", "title": "The chemistry solver integrates over exactly the time step and never drains an abundance", "statement": "The subcycled forward Euler solver of the chemistry follows Euler's polygon for exactly the time step of the mesh, with pieces short enough that no abundance above the floor of the time scale and no energy changes by more than the fraction cfl of itself; sums that the network keeps are kept; density, momentum and magnetic energy are untouched; the H2 network keeps hydrogen.", "quantifier": "all networks, parameters with cfl, yfloor >= 0, states and time steps for which the solver returns", "why_tests_cant": "The number and lengths of the pieces follow from the stiffness of the reactions in each cell; tests run a few initial conditions and compare with loose tolerances.", "anchors": ["src/chemistry/forward_euler.cpp:74-229", "src/chemistry/network/H2.cpp:88-106"]}
{"id": "C88", "title": "The chemical networks do what their lists of reactions say", "statement": "Each reaction of a network changes the species as listed, with a speed proportional to the listed reactants; so elements and charge are conserved, and an abundance that is zero is not made negative.", "quantifier": "all abundances and all rate coefficients that are not negative", "why_tests_cant": "A wrong index or stoichiometric coefficient in a table of dozens of numbers changes a result by some percent in one regime of density and temperature; tests of equilibrium abundances with tolerances cannot tell.", "anchors": ["src/chemistry/network/gow17.cpp:46-268,434-526,745-764", "src/chemistry/network/G14Sod.cpp:45-144,172-270"]}
{"id": "C89", "title": "Blocks agree on the electric field of every edge that they share", "statement": "After the exchange of electric fields the value at an edge is, in every block that has the edge, the mean over all blocks around the edge of what they computed, each counted once; so the magnetic field on shared faces stays the same on both sides after the step that uses it.", "quantifier": "all three-dimensional blocks of one level without poles or shearing boundary, all sets of existing blocks, all electric fields, every edge of every block", "why_tests_cant": "Which neighbors contribute to an edge and by what the sum is divided depends on whether the edge lies inside a face, between two faces, and on where the mesh ends; a wrong factor or index at the end of one loop touches single edges and shows as a slow loss of div B only where four blocks meet.", "anchors": ["src/bvals/fc/flux_correction_fc.cpp:51-307,689-936,1355-1544,1610-1749", "src/bvals/fc/bvals_fc.cpp:1129-1192", "src/bvals/bvals_base.cpp:54-66"]}
{"id": "C90", "title": "Ghost zones of the magnetic field hold the field of the neighbors", "statement": "After the exchange every face in the arrays of a block, ghost zones included, holds the number that the blocks of the mesh have on that face, whatever the order of the messages and also with the larger messages of a multilevel mesh; faces beyond the mesh are not touched; on a mesh of one level no active face is written; every message has as many numbers as the receiver reads and fills its buffer exactly.", "quantifier": "all three-dimensional blocks of one level at least as wide as the ghost zone, all box-shaped sets of blocks (also infinite ones: periodic), all orders of the neighbors, all fields that agree on shared faces", "why_tests_cant": "Each of the 26 neighbors has its own index ranges for each of three components, with and without the overlapping faces; a range wrong by one leaves single ghost faces with old data that enter the solution only through diagonal stencils.", "anchors": ["src/bvals/fc/bvals_fc.cpp:235-268,344-397,583-684,978-991"]}
{"id": "C91", "title": "Each column of the history file holds what its label says", "statement": "A line of the history file has as many numbers as the header has labels, and every number is what its label says: time, time step, the total (sum of volume times density over the active cells of all blocks on all processes) of mass, momenta, kinetic, gravitational and magnetic energies, scalars, radiation and cosmic rays, and the sum, largest or smallest value of every function enrolled by the user; the totals do not depend on the distribution of the blocks over the processes.", "quantifier": "all configurations, all numbers of scalars, bands and user-defined outputs, all meshes, all distributions of the blocks over the processes", "why_tests_cant": "The position of every column depends on all enabled modules; tests look at single columns of single configurations.", "anchors": ["src/outputs/history.cpp:43-57", "src/outputs/history.cpp:62-77", "src/outputs/history.cpp:100-190", "src/outputs/history.cpp:203-293", "src/outputs/history.cpp:300-352", "src/outputs/history.cpp:376-455"]}
{"id": "C92", "title": "The equation of the gas temperature is solved exactly", "statement": "For a positive coefficient the solver of `coef4 T^4 + T + tconst = 0` returns a root if and only if there is one that is not negative, and returns that root, which is unique; with `tconst <= 0` it always finds it, and it lies between 0 and `-tconst`. For a negative coefficient it returns the positive root, as the effective temperature of the last frequency bin requires.", "quantifier": "all real coefficients", "why_tests_cant": "The solution is a chain of nested roots; a wrong sign or constant gives plausible numbers for samples, and a NaN is turned into a silent fallback.", "anchors": ["src/utils/fourth_polynomial_root.cpp:22-60", "src/nr_radiation/frequencygrid.cpp:156-170", "src/nr_radiation/integrators/srcterms/absorption_scattering.cpp:114-122"]}
{"id": "C93", "title": "Interpolation in tables is piecewise linear, continuous and stays within the table", "statement": "The table of the equation of state is interpolated by the bilinear function of the cell that contains the point, the outermost cells being continued beyond the table; at nodes the result is the number of the table, inside the table it is within all bounds of the numbers, functions linear in each variable are reproduced everywhere, and no element outside of the table is read. The same holds for the one- and two-dimensional interpolation of the chemistry on nodes that are not equidistant.", "quantifier": "all tables with at least two nodes per direction, all points whose scaled coordinates fit into an int", "why_tests_cant": "Errors of one in an index show up only at single points (nodes, borders of the table).", "anchors": ["src/utils/interp_table.cpp:27-97", "src/utils/interp.hpp:28-46", "src/utils/interp.cpp:19-61"]}
{"id": "C94", "title": "Gas and radiation exchange energy and momentum consistently", "statement": "For one frequency group the exchange by absorption, emission and scattering solves the implicit (backward) equations for all intensities and the gas temperature; the temperature and the intensities stay non-negative; with gas at rest the energy of gas and radiation is conserved and the temperature that follows from the conserved energy is that of the implicit equation; thermal equilibrium is kept and is the only solution starting from it. The source terms conserve the total energy and momentum for any number of groups, the velocity stays below its limit, and the internal energy does not become negative.", "quantifier": "all opacities, densities, temperatures, all numbers of angles and all intensities, all velocities (transformation coefficients)", "why_tests_cant": "The solution eliminates all intensities in favor of one polynomial for the temperature; errors in the coefficients give plausible but not conservative results.", "anchors": ["src/nr_radiation/integrators/srcterms/absorption_scattering.cpp:50-149", "src/nr_radiation/integrators/rad_source.cpp:422-516", "src/nr_radiation/integrators/rad_source.cpp:520-580"]}
{"id": "C95", "title": "Exchange with several frequency groups and Compton scattering are consistent", "statement": "With several frequency groups every pass of the temperature iteration solves the implicit equations of all groups with the emission spectrum at the temperature of the pass before, and the result is the last pass with the intensities that belong to it; for gas at rest the energy of gas and all groups is conserved whatever the number of passes. Compton scattering with one group solves its implicit equations, conserves energy for gas at rest, and heat flows from the hotter to the colder without overshoot. It does not keep the intensities non-negative.", "quantifier": "all numbers of groups, angles and passes, all emission spectra, opacities, temperatures and intensities", "why_tests_cant": "The elimination couples all groups in one polynomial whose coefficients change with every pass; a mismatch between the spectrum used for the temperature and for the intensities shows only as a slow drift of the energy.", "anchors": ["src/nr_radiation/integrators/srcterms/multigroup_abs_sca.cpp:51-191", "src/nr_radiation/integrators/srcterms/compton.cpp:44-109"]}
{"id": "C96", "title": "The equation of state of partially ionized hydrogen is consistent and its inversion is correct", "statement": "The degree of ionization solves the equation of Saha; pressure and energy increase with the temperature, so each positive pressure and each positive energy belongs to exactly one temperature; the sound speed in use is the derivative of the pressure along curves of constant entropy. A result of the inversion is within the precision of the exact temperature, or the pressure (energy) at the result within the relative precision. The inversion of a pressure never stops with the fatal error; the inversion of an energy does not either, if the specific energy is at least 10/9 of the ionization energy.", "quantifier": "all densities, temperatures, pressures and energies; any number of passes of the iteration; any value of the variable that is not initialized", "why_tests_cant": "The closed formula for the sound speed cannot be checked from samples; the iteration has branches that depend on the history of the iterates; failures need extreme densities.", "anchors": ["src/eos/general/hydrogen.cpp:37-63", "src/eos/general/hydrogen.cpp:69-132", "src/eos/general/hydrogen.cpp:138-167"]}
{"id": "C97", "title": "Conversions for a general equation of state round-trip and keep the energy floor", "statement": "For every pair of functions pressure(density, energy) and energy(density, pressure): the conversion to primitive variables describes the same state as the conserved ones, keeps the momentum, keeps density and internal energy at or above their floors and changes them only below; if the functions invert each other, both round trips change nothing above the floors. The correction of both sets of variables changes nothing above both floors and sets both at or below both floors.", "quantifier": "all equations of state, states, fields and floors", "why_tests_cant": "Floors act in rare cells only; a comparison with the wrong floor changes the energy by a small amount and nothing fails.", "anchors": ["src/eos/general/general_hydro.cpp:34-207", "src/eos/general/general_mhd.cpp:74-239", "src/eos/general/ideal.cpp:20-36"]}
{"id": "C98", "title": "Maps between the frequency grids of the lab and the co-moving frame conserve radiation and undo each other", "statement": "The map of the intensities to the Doppler-shifted grid and the map back keep the sum over frequency for every spectrum; every bin is spread in proportion to the integral of the linear spectrum between its faces over the part of the shifted bin in each bin of the grid (the last bin as the tail of a black body); no intensity becomes negative; if the code finds the stored map invertible, mapping to the co-moving grid and back returns the intensities unchanged, and whichever way they return their sum is kept.", "quantifier": "all numbers of bins, increasing grids, shifts, spectra, face values and earlier contents of the work arrays", "why_tests_cant": "A ratio put in a neighbouring slot or a search that stops one bin early still conserves energy or looks plausible for the shifts tried; which bins overlap depends on velocity, angle and grid.", "anchors": ["src/nr_radiation/integrators/multi_group.cpp:73-506", "src/nr_radiation/integrators/rad_source.cpp:195-222"]}
{"id": "C99", "title": "Implicit transport of radiation is conservative and consistent", "statement": "Once the iteration has converged, the equation solved for a direction in a cell is the finite-volume balance with fluxes of Harten, Lax and van Leer type of the new intensities, the same for both iteration schemes and in any dimension; summed over a block, what the gas gains is what the radiation loses less what leaves through the surface; the flux is exact for uniform radiation, upwind without opacity, and its diffusion falls off with the optical depth; angular fluxes only move radiation between directions.", "quantifier": "all blocks, areas, volumes, velocities, optical depths, intensities and numbers of angles", "why_tests_cant": "The coefficients of the matrix are spread over an implicit part, an explicit part and neighbours for each direction; a slip in one of them keeps symmetric test problems and shows as a slow loss of energy elsewhere.", "anchors": ["src/nr_radiation/implicit/implicit_first_order.cpp:60-406", "src/nr_radiation/implicit/implicit_angular_flux.cpp:40-211", "src/nr_radiation/integrators/rad_integrators.cpp:547-660", "src/nr_radiation/integrators/rad_source.cpp:440-520"]}
{"id": "C100", "title": "Frequency grid, emission of the gas in its bins, and the Wien tail of the last bin", "statement": "A frequency grid that is accepted with a positive lowest frequency begins at zero, increases and ends at the highest frequency asked for (or at the last step of the given ratio below it); the emission of the gas in the bins sums to one at every temperature, each bin between zero and one; for a Wien spectrum in the last bin the integrals used for Compton scattering are exact, and turning the photon number back into energy is exact.", "quantifier": "all numbers of bins, limits, ratios, temperatures, and all strengths and temperatures of the Wien spectrum", "why_tests_cant": "A fit glued from branches can fall at a seam, and a wrong coefficient in one moment shows only for bins of certain width and temperature; the exact integrals range over all spectra.", "anchors": ["src/nr_radiation/frequencygrid.cpp:35-148", "src/nr_radiation/frequencygrid.cpp:377-455", "src/nr_radiation/radiation.cpp:47-59"]}
{"id": "C101", "title": "Moments of the radiation field, in the lab and in the frame of the gas", "statement": "Each entry of the array of moments is the energy, flux or pressure component its index names, summed over groups and directions; the pressure is symmetric with the energy as its trace; the flux never exceeds the energy; the velocity used for the other frame stays below light and keeps its direction; energy and flux in the frame of the gas are the Lorentz transforms of the moments in the lab, up to the common factor that makes the weights in that frame sum to one.", "quantifier": "all numbers of directions and groups, weights, intensities and gas velocities", "why_tests_cant": "Moments are what users look at, and most test problems have one dimension or one dominant component, where exchanged indices or a wrong power of the Lorentz factor do not show.", "anchors": ["src/nr_radiation/get_moments.cpp:37-278", "src/nr_radiation/radiation.hpp:36-37"]}
{"id": "C102", "title": "Explicit fluxes of radiation between angles", "statement": "Explicit angular fluxes only move radiation between directions: with no floor acting, the sum over the first angle, and over each row of the second angle, is kept; with first-order states and a step that takes no more than an angle holds, intensities stay non-negative. Uniform isotropic radiation should be at rest; the residue in spherical polar coordinates is given exactly and has a bound.", "quantifier": "all numbers of angles, faces of the angular grid, intensities, reconstructed states, radii and time steps", "why_tests_cant": "A leak between angles or a drift of isotropic radiation is small per step, depends on the resolution of both grids, and is hidden by other truncation errors in any one run.", "anchors": ["src/nr_radiation/integrators/rad_transport.cpp:345-460", "src/nr_radiation/integrators/rad_transport.cpp:690-822", "src/coordinates/coordinates.cpp:782-870", "src/coordinates/spherical_polar.cpp:775-803", "src/nr_radiation/angulargrid.cpp:336-364"]}
{"id": "C103", "title": "Reflecting boundary of radiation", "statement": "A reflecting boundary fills every ghost cell, for every group and direction, with the intensity of the cell at the same distance inside, in the direction mirrored at the face, and touches no other cell.", "quantifier": "all intensities, numbers of ghost cells, groups and angles per octant, positions of the face", "why_tests_cant": "A run with a reflecting wall looks plausible with wrong angles in the ghost cells; writes into the neighbouring cell of the same array are no memory error a checker could see.", "anchors": ["src/bvals/cc/nr_radiation/reflect_rad.cpp:31-248", "src/nr_radiation/angulargrid.cpp:155-225", "src/nr_radiation/radiation.cpp:139-195", "src/utils/gauleg.cpp:22-53"]}
{"id": "C104", "title": "Turns of radiation in ghost cells", "statement": "After a periodic copy the options rotate_phi and rotate_theta turn the directions in ghost cells: the half turn gives each direction the intensity of the direction turned by pi about the third axis; the quarter turn should do so for pi/2, in opposite senses at both ends of the domain, and be a rotation, not a mirror, at the x2 faces.", "quantifier": "all intensities, numbers of angles per octant, directions", "why_tests_cant": "With few angles, isotropic or one-directional fields a permutation of octants looks like a turn; the wrong angle within an octant changes moments only slightly.", "anchors": ["src/bvals/cc/nr_radiation/rotate_rad.cpp:66-335", "src/nr_radiation/angulargrid.cpp:200-225"]}
{"id": "C105", "title": "Vacuum boundary of radiation lets nothing in", "statement": "A vacuum boundary fills every ghost cell with the intensity of the edge cell in the directions that leave the domain and with zero in the others, touches no other cell, and the first-order flux of energy through the face is never inward.", "quantifier": "all intensities, directions, weights, numbers of ghost cells, groups and angles", "why_tests_cant": "A sign error in the test of one face shows only in set-ups with radiation at grazing or inward directions at that face.", "anchors": ["src/bvals/cc/nr_radiation/vacuum_rad.cpp:35-240", "src/bvals/cc/nr_radiation/outflow_rad.cpp:42-53"]}

# Formal model of athena: design

Status of each claim: see MANIFEST.json. This file describes the plan, the
trusted base and the boundary between what is modelled and what is not.

## Trusted base

* Lean 4.33.0 kernel. No axioms are added; theorems depend at most on
  `propext`, `Classical.choice`, `Quot.sound`.
* The model is a hand transcription of the C++ text; each definition cites the
  file and lines. That transcription is trusted (not machine checked against C++).
* Floating-point arithmetic is not modelled: where real numbers matter the model
  is generic over a (linearly ordered) field, or over an arbitrary type with
  uninterpreted operations when no law is needed. Theorems stated over fields
  are about exact arithmetic.
* C++ `int` is modelled by unbounded `Int`/`Nat` unless the comment says otherwise
  (overflow is treated where relevant: ran2, tags, task ids).

## Plan per property

* **C01 Touching MeshBlocks never differ by more than one refinement level** - Model the oct-tree and the boundary flags; `Refine`/`AddMeshBlock` as recursive tree transformers, `Derefine` with its 27-direction test. Prove an invariant (every refined location has all ancestors of its touching same-level locations refined) by induction on the level and then over operation sequences; conclude the <=1 level statement about touching leaf boxes.
* **C02 MeshBlocks tile the computational domain exactly once** - Same tree model; invariant that exactly the in-domain children exist at each refined root-level node and all children below; prove each in-domain fine cell has exactly one leaf above it.
* **C03 A refinement request is honoured and never loses resolution** - Same tree model; postcondition of AddMeshBlock by induction on depth.
* **C04 Block numbering is a Z-ordered bijection** - Model GetMeshBlockList as accumulating DFS; prove Nodup, Morton-sortedness, length = CountMeshBlock and lookup by location.
* **C05 Old-to-new block map after adaptation is exact** - Nodes carry gid; invariant relating every leaf's recorded gid to the original numbering.
* **C06 Created/destroyed block counters are exact** - Counters threaded through the model; equality with leaf count.
* **C07 Neighbour search never fails on a reachable mesh** - Model FindNeighbor with explicit error outcomes; use the balance invariant to show errors unreachable.
* **C08 Neighbour relation is symmetric** - Corollary of the FindNeighbor characterisation and the involution of directional shifts with wrap.
* **C09 Derefinement is safe and complete** - Model Derefine; preservation of invariants and characterisation.
* **C10 Restart rebuilds the identical block tree** - Model AddMeshBlockWithoutRefine + restart rebuild; show equality with the original tree.
* **C11 Refinement keeps the mesh balanced across a pole** - The polar branch is modelled as coded. The claim is false: (a) inner pole, `nloc.lx3` is shifted for `oy=-1` and not reset (meshblock_tree.cpp:207-230): `polar_refine_unbalanced`; (b) outer pole, `Derefine` tests the children on the wrong side across the pole: `polar_derefine_unbalanced`. Proved part: outer pole only, no derefinement (`outer_pole_balanced_partial`).
* **C12 Static refinement regions are resolved as requested** - `Verif/Model/Smr.lean`: the two index searches, the parity adjustment and the nested `AddMeshBlock` loops (mesh.cpp:346-480), generic over an ordered type of positions with monotone, level-consistent face positions. Simplified: floating-point face positions are an abstract monotone map; shear checks (bvals.cpp:282-330) not modelled. The checks of the constructor accept a zero-width region at the upper mesh edge, for which `AddMeshBlock` is called outside the mesh: `region_at_upper_edge_fails`.
* **C13 Load balancing gives every process a contiguous, non-empty, exhaustive range of blocks** - `Verif/Model/LoadBalance.lean`: CalculateLoadBalance with the arithmetic of costs as a parameter (so any rounding); invariants of the two loops.
* **C14 Positive costs never abort the load balancer** - Same model over ordered fields. Zero costs do abort (`zero_costs_abort`).
* **C15 AMR data-migration messages match one-to-one** - `Model/Migrate.lean`: oldtonew loop, Steps 3-6 of RedistributeAndRefineMeshBlocks (which messages and local copies, tags), face-field-correction pairs and messages. First the adaptation step is proved to keep, split once or merge once every block (refined_once: one level per step follows from minimality of refinement), so block lists are sequences of segments and the oldtonew loop inverts newtoold; then sends and receives are the same set. Packing of buffers not modelled here.
* **C16 User supplied block costs steer load balancing** - `Verif/Model/AmrFlag.lean`: the setter as coded. False: `std::min` with TINY_NUMBER makes all ordinary costs equal (`manual_costs_ignored`).
* **C17 Refinement flags respect level limits and the derefinement delay** - `Verif/Model/AmrFlag.lean`: one check as a state transformer; exact characterisation of the flag over histories. Simplified: `nblevel` is the list of entries inside the loop ranges.
* **C18 Mesh adaptation derefines only complete sibling groups flagged by every member** - `Model/Adapt.lean`: UpdateMeshBlockTree on per-process flag lists (gather = concatenation in rank order, sibling scan, partial sort as a parameter with the contract of std::sort on all but the last element, Refine and Derefine loops). Collected groups are exactly the fully flagged ones (Z-order contiguity); the step refines what asked, merges only flagged groups, counts exactly, is minimal and never crashes (no poles).
* **C19 Tasks run exactly once per stage and only after their dependencies** - Model scheduler as step machine with an outcome oracle; invariant by induction on executions.
* **C20 A stage always terminates when tasks eventually succeed** - Progress measure for the same machine.
* **C21 Task identifiers behave as a set of up to 128 flags** - TaskID as two 64-bit words; refinement to sets of task numbers.
* **C22 Every configuration yields a closed acyclic task graph** - Model the task-graph constructor as a function of configuration booleans and prove closure/acyclicity for all configurations (the configuration type is finite, so complete case analysis is exhaustive).
* **C23 Communication buffers are released only after all other tasks of the stage** - General scheduler theorem about ancestors + list order, instantiated for all configurations.
* **C24 Parameter store behaves as a last-write-wins map** - Model/Params.lean models the block and line lists, SetString, LoadFromStream, ModifyFromCmdline. `last_write_wins`: for every sequence of operations each read returns the last assignment to that block/name (assignments listed by `Op.writes`). `exists_iff_readable`.
* **C25 Dumped parameters reload identically** - `dump_reload` over the inductive `Reach`; Spec/Params.lean defines plain lines and clean entries. False for a comment sign before the equals sign (`hash_before_equals_changes`); an indented header gets a wrong name (`indented_header_name`).
* **C26 Command-line overrides only touch existing parameters** - `cmdline_frame`, `cmdline_aborts_iff`, `argTarget_plain`, `argTarget_other`. A file path containing `=` given to an option stops the program (`path_with_equals_aborts`).
* **C27 Read-or-default is idempotent and recorded** - `getOrAddString_spec`, `getOrAddInteger_spec` (unbounded integers, `atoi` of the printed number is the number), `getOrAddBoolean_spec`, `getOrAddReal_idempotent_iff`. Printing with bounded length loses values (`getOrAddReal_not_idempotent`; the code prints six digits). An empty boolean is read into an uninitialised variable (`empty_boolean_uninitialised`).
* **C28 The parameter header of a restart file ends where the dump ended** - `chunking_irrelevant`, `restart_header`, `input_without_marker` for every chunk size (4096 in the code). False if a comment mentions the marker (`marker_in_comment_misplaces`, which the input reader accepts).
* **C29 Output times stay on schedule across restarts** - `restart_schedule` on whole stores over an ordered field with exact printing, `restart_total`, `forwardTime_spec`, `forwardTime_fresh`. Defects: a start two or more intervals ahead moves one interval earlier at each restart (`late_start_moves_earlier`); the flag for new outputs leaks to later blocks (`fresh_flag_leaks`). The `int` cast is unbounded in the model; `dt = 0` divides by zero in the code and is excluded by `0 < d`.
* **C30 Restart files are read back exactly** - `Model/Restart.lean`: writes at byte offsets per process, codecs of fixed size for native values (only representable values are assumed to survive), block packing through a reused buffer, both readers. Round trip end to end with the parameter text of C28. Hypotheses: all blocks have equal size, the marker is not inside the parameters, `sizeof(Real) = sizeof(double)`. Finding: the reader's list element uses `sizeof(Real)` (mesh.cpp:838), the writer's `sizeof(double)` (restart.cpp:88); in single precision every restart reads past the buffer (`single_precision_list`).
* **C31 Gray-radiation restart size agrees with the stored block size** - Sizes and consumed bytes over configuration booleans. Finding: `GetBlockSizeInBytesGray` omits the chemistry step sizes and the chemistry radiation intensities (`gray_size_wrong`); proved when both are off (`gray_size_partial`).
* **C32 Pack and unpack are inverse** - Model/Array.lean: the nested loops on a heap with array and buffer pointers; pack, arbitrary transport of the buffer, unpack into a shifted box.
* **C33 Array elements never alias** - Model/Array.lean: base address plus extents, verbatim index formulas; injective, in range, surjective for 1 to 6 dimensions; slices and copies on a heap.
* **C34 Boundary message tags identify the message** - Bit-field encodings; injectivity; with C35: every send has exactly one matching receive and conversely. Finding: the pole correction (bvals_fc.cpp:1370-1391) stores `lx3` in the 6-bit buffer field; with more than 64 blocks around the pole tags collide (`pole_tags_collide`).
* **C35 Buffer slots are distinct and consistent on both sides** - `Model/Neighbors.lean`: BufferID, FindBufferID, SearchAndSetNeighbors with its loops as a list of passages (direction, width, children, target ids, conditions) over the tree model. Finite exhaustive check over dimension, multilevel and parities relates the enumerations; the tree lemmas lift it to all meshes. Also: the list is exactly the set of touching blocks. `nblevel` and the list of polar neighbours are not modelled.
* **C36 Ghost-zone messages carry exactly the cells the receiver expects** - `Model/Ghost.lean` models the index boxes of the three load and three set functions, the buffer size and the MPI sizes. `ghost_message` combines them with the neighbour lists of C34/C35 (`Listed.pair_geo` records how the entry and its counterpart lie to each other); `SamePlace` of the specification numbers cells from the edge of the mesh. `ghost_data` adds the packing loops of C32. Finding (F49): `ghost_message_active` needs 2*NGHOST cells per block and direction; mesh.cpp:254-275 accepts blocks with NGHOST cells (if `2*(xorder-1)` is not larger), and then `LoadBoundaryBufferToCoarser` restricts, and `LoadBoundaryBufferToFiner` packs, ghost cells that have not been set in this stage (`ghost_small_blocks_witness`: NGHOST = 4, blocks of 4x4). Not modelled: the reversed loop of polar entries, shearing-box shifts, `PolarBoundarySingleAzimuthalBlock`, face-centred variables (bvals_fc.cpp).
* **C37 Every ghost cell is filled exactly once** - Same model; `Beyond` tells the direction of a ghost cell, `Facing` whether blocks of the same or a higher level lie there. `ghost_filled_once` (existence through `facing_leaf`: the children facing the block are leaves; uniqueness through the halves chosen by `fi1`, `fi2`) and `ghost_not_filled`.
* **C38 Boundary exchange never consumes stale or missing data** - `Model/Exchange.lean`: transition system with one step per loop body (`StartReceiving`, `SendBoundaryBuffers` with `CopyVariableBufferSameProcess`, `ReceiveBoundaryBuffers`, `SetBoundaries`, `ClearBoundary`), the two barriers of `DoTaskListOneStage`, and MPI given by its guarantees (no overtaking between two matched persistent requests, see C34 for the matching; `MPI_Start` of an active request is an error; `MPI_Test` of an inactive request succeeds). Buffer contents are represented by the stage in which they were packed; contents proper are C36. Invariant `Inv` (`Lemmas/Exchange.lean`): delivered messages, messages under way and the message in the send buffer are together the stages 0, 1, ... of the sender. Progress through the process with the least stage; termination of stages through a count of events. `mesh_net`, `mesh_net_paired` instantiate the network with the neighbour lists. Not modelled: initial exchange, flux correction and shearing-box buffers, remeshing between cycles.
* **C39 Flux differencing conserves every conserved variable** - Exact arithmetic over a field. `addFluxDivergence`, the flux-correction messages (`loadToCoarser`, `setFromFiner`, any arrival order) modelled loop by loop on arrays as functions of indices; per block by telescoping (`block_balance`), per refined face by pairing fine cell faces (`correction_exact`), whole mesh by an involution on same-level faces and a bijection between coarse slots and fine faces (`total_conserved`). Assumed: neighbours of equal level hold the same flux at the common face, coarse areas are sums of fine areas and not zero.
* **C40 Constrained transport keeps div B exactly zero** - `Field::CT` modelled loop by loop (`ct`), including the skipped faces at a pole; each face gets w/area times the circulation around it, circulations around a cell cancel (`ct_keeps_divergence`). The averaging of the electric field at the pole is a hypothesis (`AtPole`).
* **C41 Restriction and prolongation conserve and stay bounded** - `restrictCC`, `prolongCC` model `RestrictCellCenteredValues` and `ProlongateCellCenteredValues` (first overloads; those for radiation arrays have the same text with another index order and are not modelled) loop by loop in 1D, 2D, 3D. Values of a cell after the loops (`restrictCC_eq`, `prolongCC_eq`), then ordered-field algebra with the coded limiter. The condition `Centred` (coarse centre = centre of volume of the fine cells) is proved for uniform Cartesian meshes.
* **C42 Field prolongation is divergence preserving** - `restrictX1/2/3`, `prolongX1/2/3`, `internal1/2/3`, `prolongField` model the face routines, both branches of `fluxinterp_`, all dimensions, and the caller with the outer faces it leaves alone (`Skip`, hypothesis `Given`: such a face carries the flux of the coarse field). Toth-Roe formulas by linear combination over a field; loops by the invariant that faces on coarse surfaces do not change. Findings: at a pole `RestrictFieldX2` sets only every other entry of the scratch row it reads (`restrict_pole_reads_stale`); with `fluxinterp_` the x1 routine divides by a coarse face area that is zero at r=0 (excluded by `Fit1.area`), while the x2 routine adds TINY_NUMBER.
* **C43 Time integrators have their nominal order** - Exact rational weights; a step of the register machine (`step`, every stage, any physics) equals `Tableau.eval` of Euler, Heun, midpoint and Shu-Osher; Butcher's order conditions exact (rk4 and ssprk5_4: fourth order to within 1e-14); for linear fluxes the Taylor polynomial.
* **C44 Source terms are evaluated at the stage's own time** - Stage times compared with a clock variable carried through the stages. Holds for rk1, rk2, vl2, rk3 without orbital advection (`stage_times_partial`); false for rk4 and ssprk5_4 (`rk4_times_wrong`, `ssprk54_times_wrong`), with the consequence that they miss second order for `du/dt = t` (`time_source_wrong`). With orbital advection sources are all taken at the time 0 or 1/2 of the step (see C57).
* **C45 ssprk5_4 is consistent in all supported configurations** - `consistent_partial`: state kept and uniform flux applied once, for every integrator and splitting except ssprk5_4 with second-order splitting, where it is false (`ssprk54_orbital_wrong`: factor 0.862, the hard-coded `stage == 4` is then the third main stage and `u2` predates the orbital half step). Also false for source terms of ssprk5_4: total weight 0.9363 (`ssprk54_source_wrong`).
* **C46 Riemann solvers are consistent, symmetric and keep waves** - `hlle`, `llf`, `hllc`, `lhllc`, `roe` model the body of the loop of each solver for one interface over the reals, `load` and `store` the rotation of the components. `Consistent` speaks about the arrays in each direction. `hlle_formula`, `llf_formula` identify the algebra; the branch `bp == bm` of HLLE and `q < 0` of Roe's solver are never taken for admissible states (`roeQ_pos`). For Roe's solver the wave strengths are shown to sum to the jump and the weighted sum to the flux difference (`roe_waves`); exactness for isolated waves follows since the eigenvectors are independent (`sum5_zero`). `lhllc_mirror` and `roe_mirror_iso` are reflection for LHLLC and for the isothermal Roe solver. The branches GENERAL_EOS and the relativistic solvers are not modelled. `lhllc_pressure`: the contact pressure of LHLLC is that of HLLC with the velocity term weighted by a factor in [0,1] that is at most twice the Mach number and is 1 for supersonic gas; `lhllc_is_hllc`: for fast gas away from shocks LHLLC is HLLC.
* **C47 Reconstruction is limited** - `donorX1`, `donorT`, `plmX1..3`, `ppmX1`, `ppmT` model the routines of dc_simple.cpp, plm_simple.cpp and ppm_simple.cpp with their loop bounds and work arrays, over any ordered field; `uniformW`, `stretchedW`, `cylW`, `sphW` the weights set in the Reconstruction constructor. The range statements go through one relation `Lim` (a slope that is a limited share of both one-sided slopes); the weights are exact for cubics by field arithmetic. Not modelled: the characteristic variants (their eigenvectors), the polar-angle weights (they need sin and cos), the floors applied to the states after reconstruction, and the logic in the constructor that picks the branch. Findings: F34 in PLM with the minmod limiter the x1 loops run over n < NWAVE, so further variables (more than NWAVE scalars, or the five cosmic-ray variables when NWAVE is 4) use whatever the scratch arrays hold (`plm_x1_stale`); F35 the van Leer limiter overshoots next to a cell three times as wide as its neighbours (`plm_mesh_overshoot`); F36 uniform radial PPM weights are computed from the index in the block and are wrong for every block that does not begin at r = 0, and at the ghost face below (`ppm_radial_offset`); F37 x3 PLM uses the uniform limiter also on non-uniform x3 meshes and overshoots even for a width ratio of 0.9 (`plm_x3_overshoot`).
* **C48 Conserved/primitive conversion round-trips and enforces floors** - `toPrim`, `toCons` model the conversion loops of the four non-relativistic equation-of-state files (flags `ad`, `mag`), `scalarToPrim`, `scalarToCons` those of the scalars, `toPrimAvg`, `scalarToPrimAvg` the fourth-order versions with their Laplacians and scratch arrays, `cellField` the cell-centred field; all over any ordered field. Proved through the relation `Same` (one gas in two sets of variables) and a rule for loop nests in which each cell is written once. Not modelled: general tables, relativistic files, the floors of the internal energy option of general EOS. Finding F41: the fourth-order scalar conversion calls ApplyPassiveScalarFloors, which writes r(n,i), a two-index access to a four-dimensional array: in 2D and 3D it floors a row of the first scalar instead of the cell (`scalar_avg_unfloored`, `scalar_avg_floor_2d_fails`).
* **C49 The run lands on the time limit and the step obeys every limit** - `newTimeStep`, `cycle`, `run` model NewTimeStep on every rank (the MPI minimum is the minimum over ranks), the main loop and the second call made after a remesh; the limits of the blocks are arbitrary inputs. A run is any list of block limits. `newBlockDt` models new_blockdt.cpp loop by loop, `diffDt` the diffusive limit, `fastSpeed` the fast speed over the reals. `new_dt` characterises the new step as a greatest lower bound. Findings: F38 (`remesh_quadruples`): the step may grow fourfold in a cycle that refines, since Mesh::Initialize (mesh.cpp:1965, called after the redistribution) and the main loop (main.cpp:541) both call NewTimeStep. F39 (`restart_changes_step`): Mesh::Initialize calls NewTimeStep with the dt of the restart file, so a run restarted while the step is still doubling takes a first step up to twice the one it would have taken. F40 (`mhdSpeed_sign`): new_blockdt.cpp adds |b_face - bcc| to the signed bcc, so with bcc < 0 the field used is too small and the speed below the fast speed (`mhdSpeed_ge_partial` holds for bcc >= 0). F42 (`fixed_never_ends`, `fixed_overshoots`): with fluid_setup fixed dt = tlim/nlim, negative for the default nlim = -1. NaN and infinite limits, radiation, cosmic-ray and relativistic speeds, and rounding are not modelled.
* **C50 The random generator is overflow-free and equals the reference recurrence** - Model/Ran2.lean: integer state with explicit 64-bit overflow and table-range checks (`none`); closed forms 40014^k seed mod m; exact-arithmetic return value (rounding not modelled). Finding: seed -10^12 makes the second draw read table index 1025 (large_seed_out_of_range).
* **C51 Mesh spacing generators are monotone and consistent across blocks** - `Model/MeshGen.lean` models `ComputeMeshGeneratorX` with C++ integer division, both families of generators (`Real.rpow` for `std::pow`), `SetBlockSizeAndBoundaries` for one direction and the face part of the `Coordinates` constructor as loops over arrays. Specification: `geoFace`, `faceNo`, `Dir.GenOk` for generators in general. `faces_spec` by induction over the mirroring loops; `faces_order` compares any two faces of any two blocks; `faces_neighbor` spells out the neighbour cases; `region_faces` discharges for the real generators what the refinement-region theorem (C12: `regions_resolved`) assumes about face positions. Not modelled: rounding (in floating point `x1f` of neighbours at different levels may differ in the last bit, and the uniform generator may miss `xmax` by a rounding error in the region search), directions with one cell, the warning about neighbouring widths. A negative ratio is not rejected by the constructor when no user generator is enrolled (mesh.cpp:292, 1450): then `std::pow` returns NaN; the theorems ask for a positive ratio.
* **C52 Physical boundary functions fill exactly the ghost zone** - `ccRefl*`, `ccOut*`, `fcRefl*`, `fcOut*`, `fcWedge*` model each boundary function loop by loop, `dispatch` and `applyPhysicalBoundaries` the order of the sides and the growing transverse ranges. Every loop nest is shown equal to a closed form on a box (`nest4_eq`: targets distinct, no source is a target), the two sides of a coordinate are combined (`Pass1`, `Pass2`, `Pass3`), then the three passes. The conversions to `bcc` and conserved variables are an arbitrary function per cell (`Conv`). User functions, radiation, cosmic rays, and the `vacuum` flag (which no input can select) are not modelled. Finding F33: the polar wedge sets the field on the pole to zero after the x1 pass has already used it for `bcc` and the total energy in the x1 ghost cells (`boundary_pole_stale`).
* **C53 Within a stage, tasks that share data run in data-flow order** - Requirement table checked against the task graph of every configuration by a sound order analysis (ancestors plus list order); races exhibited by concrete executions.
* **C54 Load balancing is within one block of the ideal** - Invariant of the greedy loop: the target per process never rises.
* **C55 Every mergeable sibling group asking for derefinement is merged** - Order of handling: sorted except for the last element (defect); prove completeness with exactly this exception and exhibit a missed merger.
* **C56 Weighted averages** - Branch structure modelled verbatim, unallocated arrays as `none`. True for cell-centred arrays (`weightedAve_sum`, `weightedAve_none_iff`); for face fields false in the branch `wght[0] == 1`, `wght[4] != 0`, whose second component reads `b_in3.x3f` (`weightedAveFace_wrong`), true otherwise. No caller reaches that branch.
* **C57 Orbital advection splitting** - `orbital_first`, `orbital_second` (all integrators but ssprk5_4 in second order) with an arbitrary orbital operator; the theorems also say at which single time the sources are taken.
* **C58 Super-time-stepping is stable, accurate and conservative with the number of stages the main loop picks** - `coef` models StartupTaskList, `stage` the three Integrate tasks (register swaps, weighted average, update, the stored first update of RKL2), `stages` and `superStep` the loop of main.cpp. The right-hand side is an arbitrary function of the state (the spatial discretisation, boundary exchange and coordinate source terms are inside it). For affine right-hand sides the state after j stages is a polynomial of the operator given in closed form by Legendre polynomials (`grow_eq`, `stages_affine`); |P_n| <= 1 on [-1,1] is proved from the recurrence by a decreasing energy (`legendre_energy`). `sts_stages` works over the reals with the truncating cast as floor of a non-negative number.
* **C59 Riemann solvers with a magnetic field are consistent and keep waves** - `Model/RiemannMhd.lean` and `Model/RiemannMhdRoe.lean` model the loop body of each solver for one interface over the reals; `load`, `stateArr`, `storeFlux`, `storeE` the rotation of components and the sign and place of the electric field. `Fan` and `IsoFan` of the specification list the jump conditions; `KeepsWaves` the exact solutions. Limits of the statements: (F43) the averaged transverse field of HLLE and Roe is the root of a negative number for `gamma > 2` and very unequal densities, so the theorems ask for `gamma <= 2`, an isothermal gas or equal densities (`SoftGas`); (F44) in the degenerate case of HLLD (`|d sdl sdml - bx^2| < SMALL_NUMBER*ptst`) and of the isothermal HLLD the star state copies the transverse velocity, or the transverse momentum for the isothermal solver although its density changes, and the jump conditions do not hold; (F45) the isothermal HLLD is consistent only for densities not below the floor (`hlldIso_floor` is a witness; reconstruction applies the floor before). Findings in roe_mhd.cpp, each with a machine-checked witness: (F46) line 481 has `v1*bet3` where the eigenvector needs `v2*bet3`, so the energy flux of an Alfven wave that moves to the right is wrong (`roe_alfven_energy`: an exact solution whose energy flux is off by 5/16); (F47) if the averaged transverse field vanishes, `bet2 = bet3 = 0` removes the transverse parts of all eigenvectors and a shear layer gets the central flux without upwinding (`roe_shear_central`, all strengths); (F48) the LLF fall-back for negative intermediate densities does not overwrite the flux of the transverse field (`roe_fallback_field`). The Roe property (strengths sum to the jump) is proved for hydrodynamics only (C46). Reflection (`Props/RiemannMhdMirror.lean`): the normal velocity and the normal field change sign (the reflection of an axial vector up to the overall sign of the field). If the middle wave of HLLD stands still exactly, the two sides of it give the same flux only without degenerate sides, which is the hypothesis of `hlld_mirror`; `lhlld_mirror` excludes a standing middle wave; the wall theorems need no such hypothesis, a wall is never degenerate. (F50) The isothermal HLLD replaces the intermediate density by the floor but not the mass flux it was computed with: where the floor acts at a wall, mass flows through the wall (`hlldIso_wall_floor`). Roe's solver is left out: F46 breaks the symmetry of the energy flux. Not modelled: GENERAL_EOS, relativistic solvers.
* **C60 Passive scalars: uniform concentrations stay uniform, concentrations stay within their bounds** - `Model/Scalars.lean` models the three sweeps of `CalculateFluxes` with their loop limits, the carry of `rlb_` from plane to plane, `ComputeUpwindFlux`, the diffusive fluxes and the conversions; the reconstructions are those of C47. Each sweep is shown to leave on every face of the interior cells the upwind flux of the two reconstructed values, by an indexed loop invariant. `uniform_step` combines it with the integrators of C43 and any way to fill ghost cells that keeps proportionality; the hypothesis that the density is positive is asked for the states at the beginning of the stages only. `scalar_bounds` is the maximum principle under a condition on the outflow of the cell. Findings: (F51) `ApplyPassiveScalarFloors(r, n, k, j, i)` (eos_scalars.cpp:161-173) addresses the array as `r(n, i)`; the fourth-order conversion passes the four-dimensional array of concentrations, so the floor is applied to the cell `(0, 0, n, i)` in the ghost zone and not to the cell `(n, k, j, i)` (`fourth_order_floor_hits`; `fourth_order_floor_missed_3d`: no interior cell of a 3D block is ever floored). (F52) `PassiveScalarConservedToPrimitiveCellAverage` uses `ph->scr1_nkji_`, which hydro.cpp:140 allocates with NHYDRO components, for NSCALARS components; with more scalars than that it writes past the end (`fourth_order_work_overrun`). By F34 the minmod branch of `PiecewiseLinearX1` leaves values unset if NSCALARS > NWAVE; `Rec.Consistent` asks for NSCALARS <= NWAVE there. Not modelled: fourth-order flux corrections, PPM fast, WENO.
* **C61 Flux correction on every mesh: messages match and totals are conserved** - Joins the neighbour lists of C35 with the conservation proof of C39 (which assumed a mutual relation between blocks): `lists_conserved` (`Lemmas/FluxMesh.lean`) reads the links off the neighbour lists; `face_entries`, `correction_message`, `correction_expected`, `correction_buffers` show they are mutual on every reachable tree. `Delivered` says where the messages go (gid and targetid of the entry); `delivered_exists` shows that it can be met. `mesh_conserved_grid` takes the areas from one grid for the mesh (`GlobalGeom.Nested`) instead of assuming that they fit. Assumed: blocks of the same level compute the same flux on the face they share. Not modelled: shearing box and polar boundaries; the transport of the messages (C38); flux corrections of fields (the arithmetic is in C40).
* **C62 Cartesian, cylindrical and spherical coordinates: exact measures, gas at rest stays at rest, mass, energy and angular momentum are conserved** - `Model/Coord.lean` has the coefficients, areas, centroids and the loops of `AddCoordTermsDivergence`; `Spec/Coord.lean` the scale factors and interval integrals (Mathlib). `measures`, `centroids`, `face_centroids` compare them by computing the integrals; `geometric_sources` compares the source terms with the exact cell means of `1/r` and `cot θ / r` times the stress tensor; `rest_stays` and `angular_momentum_cell` are algebra after the loops have been reduced to single cells (`addCoordTerms_at`). `angular_momentum_cell` is stated multiplied by the moment of the cell, because the lever arm may be zero when one cell reaches from pole to pole. Mesh-wide: `gpos` is one grid of positions for all levels, the faces of all blocks lie on it (C51), so that its areas nest (`geom_nested`) and C61 applies; the angular momentum uses C61 with areas times lever arms. With refinement angular momentum is not conserved exactly, because the lever arm of a coarse face is not that of its parts. Finding (F53): with one cell in polar angle that is not symmetric about the equator, gas at rest is accelerated: the source term of `IM2` is not balanced (`rest_moves_off_equator`). Not modelled: relativistic metrics, the arrays used by resistivity, super-time-stepping variants, cosmic-ray terms, polar boundaries.
* **C63 Electric field at cell edges: same upwind rule for all components and dimensions, nothing stale, plane-parallel problems, uniform flows, cell-centred field** - `Model/CornerE.lean` has the calls of the solver in `CalculateFluxes` with their index ranges, the three branches of `ComputeCornerE` with the scratch array, and the data of the cell-centred field; every array has arbitrary previous contents. `Spec/CornerE.lean` has one formula `edgeE` for an edge between two directions. `stageE_at` reduces the loops to one edge; `corner_e`, `no_stale_field`, `planar_e`, `planar_ct`, `stageE_const`, `frozen_field`, `uniform_flow` follow (the last with the consistent solvers of C59). Finding (F54): `CalculateCellCenteredField` takes the unweighted mean whenever the mesh ratio is 1, without looking at `curvilinear_`, so in cylindrical and spherical coordinates the radial field of a cell is the value at the middle and not, as its comment says, at the volume centre (`cell_field_radial`); with a ratio other than 1 it is (`cell_field`). Not modelled: general relativity, the second solve of `order == 4`.
* **C64 Physical source terms: only momentum and energy of active cells change, the energy by the work of the forces; rotating frames and orbital motion agree with an inertial frame; equilibria; self-gravity exerts no net force** - `Model/SrcTerms.lean` has the constructor of `HydroSourceTerms`, every source term function and `AddSourceTerms`, the default orbital velocities and the conversion of variables. `addSourceTerms_at` reduces the loops to one cell. `untouched`, `undefined_is_nothing`, `zero_step`; `no_heating_cartesian`, `no_heating_cylindrical`, `no_heating_spherical` (the last with the bound `(b-a)^2/(a+b)^3` on the difference of the two means of `1/r`); `inertial_cylindrical`, `inertial_spherical` together with `AddCoordTermsDivergence` of C62; `azimuthal_force` with `HasDerivAt`; `kepler_balance`, `shear_background`, `shear_box_orbital`; `default_derivatives`; `conversion_consistent`, `convert_once`; `self_gravity_momentum` by shift invariance of sums over a period. Findings: (F55) with a magnetic field in three dimensional Cartesian coordinates and an orbital velocity given by the user that depends on x3 the energy gets `B2*B3` without time step and shear (orbital_advection_srcterms.cpp:112-114; `user_velocity_field_energy`); (F56) in three dimensional cylindrical coordinates with the default orbital velocity the work of the vertical gravity is added twice (orbital_advection_srcterms.cpp:148-163; `vertical_gravity_twice`); (F57) `CylOrbitalVelocity3D_z` divides by d^2 instead of d^3 (default_orbital_velocity.cpp:57-60; `cyl3_z_wrong`), stored in `dvKc2`, which the default source terms do not read; (F58) `OrbitalVelocityDerivative` is not initialised when the user gives an orbital velocity without derivatives, and then read (orbital_advection.cpp:92-98, 696); (F59) `shboxcoord` other than 1 without shear-periodic boundaries applies the shearing box forces in the plane `ks` only (shearing_box.cpp:67-88), and a rotation rate without shear parameter in Cartesian coordinates gives no Coriolis force without a message. Not modelled: source terms enrolled by the user, the choice of the potential (`gflag`), general relativity.
* **C65 Multigrid gravity: the smoother is red-black over-relaxation, its rest states are the solutions, it lowers the energy, and MeshBlocks together do what one grid would do** - `Model/Multigrid.lean` has the kernels of `MGGravity` and `Multigrid`, `Model/MgCycle.lean` boundary functions and driver. `smooth_is_sweep` by an invariant of the loop (cells already visited have the other colour than the neighbours read); `two_colours`, `smooth_fixed_iff`, `defect_zero_iff`; `smooth_energy` cell by cell (the energy falls by `3 omega (2-omega) d^2`); `smooth_block`; `physical_faces`, `physical_periodic`; `gauss_law`, `closed_source_zero_total`; `subtract_average_total`; `check_spec` says what `CheckBoundaryFunctions` accepts and decides. Not modelled: OpenMP, octets of refined levels, masks, user boundary functions.
* **C66 Multigrid gravity: restriction keeps totals, prolongation is exact for the polynomials it is meant for, and the V-cycle leaves solutions alone** - The weights in `Model/Multigrid.lean` are copied from the source by a script and proved equal to products of one dimensional weights. `restrict_total`, `restrict_outside`, `correction_exact`, `fmg_exact`. `Model/MgCycle.lean` is the V-cycle as a state machine on the arrays `u_`, `uold_`, `src_` of all levels, each level one array for the whole mesh (the division among MeshBlocks is C65's `smooth_block`); `vcycle_fixed` by induction down and up the levels. Finding (F60): `SolveCoarsestGrid` takes the mean of the coarsest level, but `Multigrid::SubtractAverage` subtracts it from `u_[nlevel_-1]`, the finest level of the root grid (multigrid.cpp:704, multigrid_driver.cpp:1048-1078; `subtract_wrong_level`); the potential of the root grid is shifted by a constant that the last SubtractAverage removes. Also noticed: a user-defined boundary function that imposes a value does not switch on the full approximation scheme (only the multipole boundary does), so `fas` must be set by the user. Not proved: rates of convergence.
* **C67 Multigrid gravity on refined meshes: the exchange at level boundaries conserves the field flux and is exact for linear potentials** - `Model/MgFlux.lean` has the packing to coarser and finer neighbours, the unpacking and `ProlongateMultigridBoundariesFluxCons` of `MGGravityBoundaryValues`, loops copied from the source by a script, face neighbours only. `coarse_arrives_x1..3`, `flux_x1..3`, `affine_x1..3`. The flux is `fieldFlux` of `Spec/Multigrid.lean`, area times difference quotient. Not modelled: same-level messages of the multigrid solver, octets.
* **C68 Isolated gravity boundary: the multipole boundary functions hold the potential of the multipole expansion of the mass in the mesh** - `Model/MgMultipole.lean`: moments of the blocks, scaling, centre of mass and the six boundary functions, copied from the source by a script. `Spec/Multipole.lean` defines Legendre polynomials by their recursion and the expansion; the real harmonics of the code are not mentioned in the statements. `expansion2_sound`, `expansion4_sound`, `multipole2`, `center_no_dipole`, `multipole_inner_x1` to `multipole_outer_x3`. Order 4 is false of the code. Finding (F61): the zonal harmonic of degree three is computed as `z*(z2-3.0*r2)` instead of `z*(5.0*z2-3.0*r2)`, in the moments and in all six boundary functions; `multipole4_wrong` is a concrete case, `multipole4_error` gives the difference for every mass distribution, `multipole4_partial` the claim where the moments concerned vanish (for instance masses symmetric about the plane z=0).
* **C69 Multigrid task lists: every block goes through smoothing, restriction and prolongation in the intended order and every list ends** - `Model/MgTasks.lean` is generated from the source by a script: ids, dependencies and the branches on the number of passes. `Spec/MgTasks.lean` gives the intended sequences as lists of operations. `mg_coarser_order_partial`, `mg_finer_order_partial`, `mg_fmg_order`, `mg_boundary_order`, `mg_no_deadlock` for at most two passes. Finding (F62): the number of passes is read without a check and other numbers fail. Three or more passes to the coarser level, and zero, three or more to the finest level, leave a dependency on a task that was never added (`MG_CLEARBND0`, `MG_CLEARBND2B`) or no tasks at all, and the loop over blocks never ends (`mg_coarser_hangs`, `mg_finer_hangs`); below the finest level three or more passes to the finer level are silently one (`mg_finer_one_pass`). Not modelled: the bodies of the tasks.
* **C70 Multigrid exchange: with three sets of buffers no message is lost, overwritten or unpacked in the wrong phase** - `Model/MgExchange.lean` is a transition system of all blocks, flags, requests, buffers and messages under way, one step per passage through the body of a loop. `mg_exchange_in_order`, `mg_exchange_no_overwrite`, `mg_exchange_no_error`, `mg_exchange_requests_free`, `mg_exchange_no_deadlock` under the condition `Close` of `Spec/MgExchange.lean` that what the sender has waited for keeps it within two phases of the receiver; `mg_mesh_exchange_partial` for all meshes when every neighbour gets a message in every phase, which is so without refinement. Finding (F63): with refinement the condition fails. In phases with `mg_faceonly` messages to coarser blocks across edges and corners are left out, but those to finer blocks are sent, so a coarse block may be ahead of a fine block it touches with a corner by three phases and overwrites the message the fine block has yet to unpack (`mg_exchange_race`, phase 4 unpacked in phase 1; the message of phase 1 is lost). `mg_race_mesh` shows that the five blocks of the counterexample occur with these neighbours in a mesh of 36 blocks that the code builds; the run itself is that of the five blocks alone. It takes a second process that is slow; the prolongation, red and black passes and last exchange of one list to the finest level are such four phases. Also noticed: `FindMultigrid` accepts a gid one past the last block (`tgid > nblist+first`, multigrid_driver.cpp); `mgmode` defaults to "none", which is then rejected although the message says that FMG is the default.
* **C71 Orbital advection displaces every row of cells by dt times the orbital velocity, conservatively, across MeshBlock boundaries** - `Model/Orbital.lean` models offsets, the copy into the orbital buffers, loading and setting of messages, both remapping functions and the update, once for both directions. `Spec/Orbital.lean`: cells of a ring, profiles, displaced means as integrals. `orbital_displaces`, `orbital_displaces_scalars`, `orbital_whole_cells`, `orbital_linear_profile`, `orbital_plm_between`, `orbital_conserves`, `offsets_fit`, `orbital_message_cc`, `orbital_message_fc`, `orbital_message_fits`, `orbital_limit`. For the third order method the new value can be negative for positive data (`orbital_ppm_negative`). Finding (F64): the limit on the time step is not strict. It is not multiplied by the CFL number (new_blockdt.cpp:205-208), and a step equal to it gives the offset `onx - xgh + 1`; a row then needs `onx + 1` cells of the neighbour, the last of them a ghost cell of the sender, and if all rows move alike the message is longer than the buffer (`orbital_limit_reached`). Exact arithmetic: in floating point `static_cast<int>(olen/dx)` and `fmod(olen,dx)` may disagree when `olen/dx` is close to an integer. Not modelled: neighbours of other levels, flags and requests of the exchange, the variants for radiation. Also noticed: `orbital_advection.cpp:486` divides by `h32f(j)`, which vanishes at a pole, while `SetOrbitalEdgeFC` guards against that.
* **C72 Orbital advection of the magnetic field: constrained transport with the remapped fluxes displaces the face fields and keeps their divergence** - `advectField1`, `advectField2` compose the exchange, the fluxes (`pfluxFC`, `emf1`, `emf2`) and `Field::CT` with the areas and lengths of `Model/Coord.lean`. `orbital_field_x1f` (radial field in Cartesian and cylindrical coordinates) and `orbital_field_x3f_cartesian` are the full statement; `orbital_keeps_divergence1`, `orbital_keeps_divergence2` (with poles). Finding (F65): in curvilinear coordinates the other components are not displaced by `olen`. The electric field is computed with the length `h2v(i)*dx`, `h2v` being the volume centroid of the cell, while the area of the face belongs to the arithmetic mean of the radii; the change of the field is too large by the ratio, `4/3 (R²+Rr+r²)/(R+r)²` in cylindrical coordinates. `orbital_field_x3f_factor`, `cylindrical_factor`, `orbital_field_x3f_cylindrical` (a row moved by exactly one cell does not take the values of the neighbours), `orbital_field_x1f_spherical`, `orbital_field_x2f_spherical`, `spherical_factor`. Rows of `-B` are reconstructed where the code stores `-B`.
* **C73 Heat conduction: downhill, conservative, and within the range of temperatures for the time step it asks for** - `Model/Diffusion.lean` (`thermalFlux`, `addEnergyFlux`, `newDt`), `Props/Conduction.lean`: `energy_flux_once`, `conduction_isothermal`, `conduction_downhill`, `conduction_bounds` (unequal cells, variable conductivity), `conduction_within` (with `newDt`). The last two assume equal densities around the cell and `γ - 1 ≤ 1`. Finding (F66): the flux carries the mean density of the two cells, the limit does not know the density. A cell thinner than its neighbours loses more heat than it has for every positive time step, if the contrast is large enough: `conduction_undershoots`. Not modelled: `ThermalFluxAniso` is an empty function, so `kappa_aniso` changes only the time step.
* **C74 Viscosity: the flux is the Navier-Stokes stress, rigid motions feel none, heating is the work of the flux** - `Model/Diffusion.lean` (all nine `Face*` functions, `DivVelocity`, `ViscousFluxIso` in its variants for one to three dimensions), `Props/Viscosity.lean`: `viscous_linear`, `viscous_curvilinear` (all components for velocities linear apart from the scale factors, any orthogonal coordinates), `viscous_work`, `viscous_rigid`, `viscous_rotation_cylindrical`, `viscous_rotation_spherical`. Finding (F67): `FaceZdx` does not divide the azimuthal derivative of the radial velocity by `h31v(i)*h32v(j)`, `FaceXdz` does. In spherical coordinates in three dimensions the stress is not symmetric and the flux of radial momentum through azimuthal faces is wrong by the factor `r sin θ`: `viscous_spherical_asymmetric`. Finding (F68): the compressive viscosity is 4/3 ν and the alternating flow sees none of the divergence correction, so the fastest mode decays at `8ν/h²`, twice what the limit `h²/(2ν)` assumes. In one dimension Courant numbers above 1/2 (accepted up to 1) let an alternating flow grow in every step: `viscous_alternating`, `viscous_growth`. Also noticed: with magnetic fields the columns `is-1` and `ie+1` of `fx_`, `fy_`, `fz_` are used unset (only the mass flux is read there, which has no viscous part); `ViscousFluxAniso` is an empty function.
* **C75 Resistivity and ambipolar diffusion: curl, Ohm's law, decay of the magnetic energy, Poynting flux** - `Model/Resist.lean` (`current`, `ohmicEMF`, `ambipolarEMF`, `diffusionEMF`, `poynting`, `addPoynting`, `newDtOA`, `newDtH`, the lengths and areas of the grid of cell centres in the three coordinate systems), `Props/Resist.lean`: `current_potential`, `current_linear`, `current_cylindrical`, `current_spherical`, `ohmic_linear`, `ambipolar_linear`, `across_dissipates`, `dissipation_1d`, `emf_copies`, `poynting_linear`, `poynting_added`; `Props/ResistDecay.lean`: `ohmic_decay`, by the norm of the curl on a periodic mesh (`Lemmas/Curl.lean`) with the exchange of boundary values as hypothesis (`Filled`). Finding (F69): `eta_hall` is read, `etaB(hall)` is computed and limits the time step (`hall_limits_dt`), but no electric field comes from it (`hall_no_emf`): there is no function for it, `e_h` is allocated and never used, and nothing tells the user. Not claimed: decay with ambipolar diffusion in two and three dimensions (the averages of current and field are taken at different edges), on refined meshes or in curvilinear coordinates; the special values of `coord_area1vc_j_` next to the poles are not modelled.
* **C76 Characteristic variables: eigenvectors, exact inverse, reconstruction of linear data** - `Model/Charact.lean` (`leftM`, `rightM`, `leftH`, `rightH`, `gather`, `slopesC`, `faces`), the matrix of the equations in `Spec/Charact.lean` (`quasi`, `Speeds`, `waves`), `Props/Charact.lean`: `left_eigen_mhd` (including all degenerate branches), `left_eigen_hydro`, `right_left_mhd` (transverse field not zero), `right_left_hydro`, `plm_char_linear`, `plm_char_arrays`. Finding (F70): without a transverse field `LeftEigenmatrixDotVector` uses `bet2 = 1, bet3 = 0`, as its comment explains, but `RightEigenmatrixDotVector` uses `bet2 = bet3 = 0` (lines 328-335, 401-408), so all transverse velocities and fields are lost on the way back (`right_left_lost`); with xorder = 2c they are reconstructed as constants in such cells (`plm_char_flat`), whatever the data. Not modelled: the floors at the end of plm.cpp, `3c`.
* **C77 Special relativity: conserved variables, accuracy of the inversion, floors** - `Model/SrHydro.lean` (`toCons`, `invert` with the 15 steps and the Aitken acceleration, `limits`, `raise`, `invertTwice`, `ceil`, `toPrimCell`, loops over cells, floors at faces), the tensor in `Spec/SrHydro.lean`. `Props/SrHydro.lean`: `conserved_are_stress`, `energy_exceeds_momentum`, `conserved_determine_primitives`, `invert_exact`, `primitive_round_trip`, `inversion_accuracy`. `Props/SrInvert.lean`: `primitives_respect_floors`, `invert_lorentz`, `loops_are_cellwise`, `face_floors`, and the negations. Finding (F71): the iteration never goes below the absolute pressure `pgas_uniform_min = 1e-12`, and rejects that value; for gas with a pressure up to 1e-12 whose stored pressure is as low the inversion therefore always fails (`cold_fails`), and the cell is replaced by gas at rest at the floors, so that its mass, momentum and energy are lost (`cold_gas_is_lost`); the fallback of lines 121-142 is overwritten. Finding (F72): when the accelerated value is rejected, `pgas[0]` is not replaced, so that the same three steps are repeated until the iteration fails (`rejected_is_failure`). Finding (F73): when the primitives are raised to the floors, line 153 adds `+ pgas_add` to the energy where the tensor has `- pgas_add`, and the momentum is not adapted (`floors_add_too_much_energy`); the second inversion therefore does not return the floors. Convergence within 15 steps from an arbitrary stored pressure is not claimed.
* **C78 Relativistic Riemann solvers: causal sound speeds, physical mean states, exact contact waves** - `Model/SrRiemann.lean` (`soundSpeeds`, `side`, `sideFlux`, `consHll`, `fluxHll`, `hlle`, `llf`, `lamStar`, `consStar`, `fluxStar`, `hllc`, `load`, `store`, `face`), `Spec/SrRiemann.lean` (`Acoustic`, `density`, `flux`, `Adm`, `Outer`, `Fan`). `Props/SrRiemann.lean`: `sound_speeds`, `sound_speeds_causal`, `mean_state_admissible`, `density_admissible`, `first_order_step_admissible`, `supersonic_upwind`. `Props/SrExists.lean`: `admissible_iff_gas` (which conserved variables belong to a gas), `first_order_step_gas`. `Props/SrHllc.lean`: `hllc_fan`, `hllc_contact`, `relativistic_solvers_consistent`, `relativistic_mirror`. HLLC is claimed where the mean energy flux is zero or exceeds `TINY_NUMBER` in size; between these the code solves a linear instead of the quadratic equation. Not claimed: positive pressure in the star region of HLLC. Not modelled: the change of frame in general relativity, and the solvers with magnetic field.
* **C79 General relativity: metrics, inverse metrics, index raising, geometric sources** - `Model/GrMetric.lean` (metrics, inverses, `schRaise`, `schLower`, `schSrc`, `ksRaise`, `ksLower`, `ksSrc`, `userApply`, `userSrc`), `Spec/GrTensor.lean` (`schwarzschild`, `kerr`, `FourVel`, `FourField`, `stress`, `force`). The derivatives are those of Mathlib (`HasDerivAt`). `Props/GrMetric.lean`: `metric_schwarzschild`, `metric_kerr`, `inverse_schwarzschild`, `inverse_kerr`, `lower_raise_schwarzschild`, `lower_raise_kerr`, `lower_raise_user`, `state_determined`, `sources_schwarzschild`, `sources_kerr`, `sources_user`. Finding (F76, latent, not in a theorem): kerr-schild.cpp sets in the branch `j == juu` the coefficients `metric_face2_j1_(j)`, `metric_face2_j2_(j)` of the upper face where the index should be `j+1`, which overwrites the face below; only faces of the last ghost cell are concerned. Not modelled: the user's functions that give a metric and its derivatives (the derivatives are arbitrary symmetric matrices), the tabulation of coefficients over cells.
* **C80 General relativity: fluxes from local frames are the HLLE fluxes of the coordinates** - `Model/GrFrame.lean` (`primToLocal`, `solverSide`, `hlleLocal`, `vInterface`, `fluxToGlobal`, `interfaceFlux` and the coefficients `schM`, `schE`, `ksM`, `ksE`, `userM`, `userE`), `Spec/GrTensor.lean` (`Frame`, `coordSpeed`, `Spacelike`), `Spec/GrFlux.lean` (`current`, `hlleFlux`). `Lemmas/GrFrame.lean` proves the statement for any orthonormal frame adapted to the surfaces (`interface_exact`), `Lemmas/GrFrames.lean` and `Lemmas/GrUserFrame.lean` that the coefficients form such frames. `Props/GrFrame.lean`: `interface_kerr`, `interface_schwarzschild_partial`, `interface_user_partial`, `interface_user_read`, `light_speeds`, `hlle_consistent`. Findings: (F74) schwarzschild.cpp:928 has `mx_2 = 1.0/r` in `PrimToLocal2` where the metric needs `r`: the mass flux through surfaces of constant theta is too small by `r^2` for equal states (`theta_mass_flux`, `theta_mass_flux_wrong`). (F75) `FluxToGlobal2`, `FluxToGlobal3` of gr_user.cpp (lines 1434-1436, 1546-1548) read the momenta of `cons` from IM1, IM2, IM3, but the solvers store them in cyclic order: wrong fluxes of momentum if g^{0n} is not zero (`user_momentum_flux_wrong`; with the right slots there is no exception, `interface_user_read`). The wave speeds are parameters of the model. Not modelled: the solvers without transformation, HLLC and HLLD in general relativity, rounding.
* **C81 Cosmic rays: implicit exchange of energy and momentum with the gas** - `Model/CosmicRay.lean` (`rotateVec`, `invRotateVec`, `bAngle`, `implicit`, `newCr`, `addSource`), `Spec/CosmicRay.lean` (`drag`, `slip`, `dot`). `Props/CosmicRay.lean`: `rotation`, `field_angles`, `field_angles_axis`, `field_angles_ok`, `source_hydro`, `source_mhd`, `momentum_conserved`, `energy_conserved`, `energy_nonneg`, `energy_nonneg_mhd`, `gas_passive`, `fast_gas_divides_by_zero`. Findings: F77 the checks of negative energies create energy (`energy_not_conserved`: the gas receives the energy before the cosmic rays are given it back; `energy_not_conserved_gas`); F78 with magnetic fields, `vs_flag = 0` and the default opacity function the angles of the field are never set, and each source step wipes out the flux of the cosmic rays (`flux_lost`). Not modelled: curvilinear terms, user source terms, how `ec_source_` is obtained from the fluxes.
* **C82 Cosmic rays: fluxes, diffusion speeds and streaming** - `Model/CosmicRay.lean` (`bm`, `bp`, `crFlux`, `diffv`, `vDiff`, `vDiffRot`, `vAdv`, `sigmaAdv`, `opacityReads`), `Spec/CosmicRay.lean` (`physFlux`, `hll`, `sgn`). `Props/CosmicRayFlux.lean`: `signal_speeds`, `flux_hll`, `flux_consistent`, `reduction`, `reduction_branches`, `diffusion_bounded`, `streaming_down`, `streaming_flux`, `opacity_reads_inside`. Findings: F79 with magnetic fields the diffusion speeds are rotated like a vector and can vanish: for isotropic opacity and a field along the diagonal the speed along x is 0 (`rotated_speed_zero`, `diagonal_field`) and the flux is the plain mean without upwinding (`central_flux`); F80 the default opacity function reads in front of `u_cr` in one and two dimensions if there is a field and streaming (`opacity_reads_outside`, `opacity_reads_outside_2d`). Partial: with a magnetic field there is no theorem that the signal speeds bound the speeds of the cosmic rays, since it is false. Not modelled: reconstruction, flux divergence, `vflx`.
* **C83 Radiation: the angular grids integrate isotropic radiation exactly** - `Model/RadAngles.lean` (`mu2`, `wtmp`, `permutation`, `families`, `pmat`, `grid3`, `grid2`, `grid10`, `coszeta`, `psiV`, `gridZ`, `gridZ1`, `gridPlane`, `nangZeta`), `Spec/RadAngles.lean` (`quad`, `Isotropic`, `IsotropicPlane`, `Unit`). `Props/RadAngles.lean`: `level_unit`, `level_isotropic`, `level_isotropic_plane` (the result of `InverseMatrix` enters as a solution of the equations of the first levels; `families_invertible` shows there is exactly one, and C86 that it is the one computed: `level_grid`), `labels_in_range`, `ten_isotropic_plane`, `zeta_unit`, `zeta_isotropic`. The claim is false of the code in these cases: F81 seven or more levels: there are more families than equations and `wpf` is read past its end (`labels_out_of_range`), from nine levels on the table of families overflows too (`table_overflow`); `nmu` is not checked. F82 `polar_angle` switches the renormalisation of the cosines off, and the pressure along the axis is never a third (`polar_not_isotropic`). F83 in two dimensions with `npsi = 1` the pressures are 2/3 and 1/3 (`slab_pressure`), on the circle (`nzeta = 0`) 1/2 (`circle_pressure`), and with `nzeta > 0`, `npsi > 1` outside spherical polar coordinates most angles keep a zero direction but have weight (`plane_zeta_pressure`). F84 odd `nzeta*npsi` in three dimensions and odd `npsi` on the circle: the loops write past the last angle (`odd_angles_overflow`). Not modelled: `Gauleg` (one dimension), `ConvertAngle`, angular cell faces.
* **C84 Radiation: absorption, emission and scattering solve the implicit equations** - `Model/RadExchange.lean` (`quarticRoot`, `suma0` to `suma3`, `coef0`, `coef1`, `newT`, `newJ`, `newI`), `Spec/RadExchange.lean` (`Physical`, `mean`, `Transfer`, `gasResidual`). `Props/RadExchange.lean`: `quartic_root`, `exchange_transfer`, `exchange_gas`, `transfer_conserves`, `exchange_positive`, `no_overheating`, `no_overcooling`, `equilibrium`. Intensities at the floor `TINY_NUMBER` are excluded by a hypothesis, as the floor adds energy; the energy equation holds exactly, or to 1e-20 when the coefficient of the quartic is tiny or its discriminant is big. One frequency group, no Compton scattering; a look at the text shows that with several groups `implicit_coef(0)` in line 96 against `implicit_coef(nang*ifr)` elsewhere could matter, but only `nfreq = 1` calls the function.
* **C85 Radiation: frames of the gas, and energy and momentum of gas plus radiation** - `Model/RadExchange.lean` (`labToCom`, `comToLab`, `comAngle`, `tranCoef`, `wmuCm`, `comoving`, `labOut`, `radSource`, `addSource`). `Props/RadFrames.lean`: `frames_round_trip`, `com_angle` (a unit vector, and the one of the boost), `comoving_weights`, `comoving_physical` (the hypotheses of C84 hold in the frame of the gas), `moving_equilibrium`, `total_conserved`, `rest_consistent`. Findings: F85 the velocity limit cuts the momentum of the gas without giving the difference to the radiation (`velocity_limit`); F86 with `set_source_flag = 2`, a negative internal energy or a temperature above the ceiling the energy of the gas is set and the total changes (the other branches of `total_conserved`). Not modelled: `nfreq > 1`, Compton scattering, the implicit scheme's iteration.
* **C86 The LU decomposition with pivoting inverts every regular matrix** - `Model/LinAlg.lean` (`upper`, `lower`, `column`, `columns`, `ludcmp`, `forward`, `backward`, `lubksb`, `inverseMatrix`, `matVec`), loop invariants in `Lemmas/LinAlg.lean` (`forward_spec`, `backward_solves`, `column_inv`, `pivot_exists`), `Props/LinAlg.lean`: `solve_correct`, `inverse_correct`, `refused_iff`, `family_weights`, `level_grid` (C83 without the hypothesis on the solve). Finding F87: a singular matrix is only refused if it has a row of zeros; otherwise the zero pivot becomes `TINY_NUMBER` and numbers of the order 1e20 come back without a message (`singular_accepted`). In exact arithmetic; rounding is not modelled.
* **C87 The chemistry solver integrates over exactly the time step and never drains an abundance** - `Model/ChemSolver.lean` (`timeOf`, `chemTime`, `subStep`, `oneStep`, `cycle`, `integrate`, `h2rhs`), specification `Spec/ChemSolver.lean` (`Polygon`, `Limited`), `Props/ChemSolver.lean`: `euler_polygon`, `invariants_kept`, `substep_positive`, `integrate_cell`, `h2_network`, `h2_hydrogen`. Partial: finding F88: an abundance below `yfloor` can become negative, because its time scale is computed with `yfloor` in its place (`trace_negative`, with the default parameters); the floor at the end then makes matter. The right hand side is a parameter of the solver; `time` enters no network. The CVODE solver is not modelled.
* **C88 The chemical networks do what their lists of reactions say** - `Model/ChemNetwork.lean` (tables, `GetGhostSpecies`, `RHS` of both networks with rate coefficients as parameters), `Spec/ChemNetwork.lean` (composition of the species and the reactions as listed in the comments), sums over the loops in `Lemmas/ChemNetwork.lean`, `Props/ChemNetwork.lean`. gow17: `gow_listed`, `gow_balanced`, `gow_elements`, `gow_positive`, `gow_hydrogen_bound`, `he_recombination_pos`. Finding F89: the schematic cosmic ray reaction (5) binds a hydrogen nucleus that is not a reactant, so atomic hydrogen can become negative (`gow_hydrogen_negative`), by no more than that. G14Sod: `g14_listed_partial`, `g14_balanced`, `g14_neutral`, `g14_helium`, `g14_positive`. Finding F90: four of the twenty reactions of G14Sod are not the listed ones: (12) makes two H2 instead of two H, (13) makes H2+ instead of H, (19) has H2 for the reactant H, and for (20) the table `stoich_in2body2` has 19 entries so that the H on the left is not used up; the number of hydrogen nuclei changes by `g14_hydrogen` (`g14_hydrogen_made`). The formulas of the coefficients are not modelled but for the one of `he_recombination_pos`. KIDA networks are not modelled.
* **C89 Blocks agree on the electric field of every edge that they share** - `Model/EmfExchange.lean` (`loadPos`, `setPos`, `addBuf`, `receive`, `halfPos`, `count`, `edgePos`, `average`, `exchange`), specification `Spec/EmfExchange.lean` (edges and faces of the mesh, the blocks that have them, and where), `Lemmas/EmfExchange.lean`, `Lemmas/EmfClosed.lean`, `Props/EmfExchange.lean`: `edge_mean`, `holders_finite`, `edges_agree`, `edge_kept`, `faces_agree` (with the model of `Field::CT`). Not modelled: one and two dimensions, contributions of finer blocks, poles, shearing boundary; messages arrive once and in full (C37).
* **C90 Ghost zones of the magnetic field hold the field of the neighbors** - `Model/FaceExchange.lean` (`cellLoad`, `faceLoad`, `cellSet`, `faceSet`, `loadPos`, `setPos`, `exchange`, `bufSize`), specification `Spec/FaceExchange.lean` (`Agree`, `Within`, `IsBox`; faces of the mesh from `Spec/EmfExchange.lean`), `Lemmas/FaceExchange.lean`, `Props/FaceExchange.lean`: `ghost_faces`, `outer_faces`, `active_faces`, `message_size`. That shared faces agree is C89 (`faces_agree`). Not modelled: one and two dimensions, messages between levels, poles, shearing boundary.
* **C91 Each column of the history file holds what its label says** - `Model/History.lean` (`adds`, `sums`, `userOne`, `reduce`, `header`, `row`), specification `Spec/History.lean` (`density`, `total`, `UserValue`, `Good`, `Holds`), `Lemmas/History.lean`, `Props/History.lean`: `history_columns_partial`, `history_distribution`; it fails outside `Good`: `groups_fatal`, `groups_mislabelled`, `bands_overlap` (F91, F92). Exact arithmetic; a process without blocks is covered. Partial: the claim is false for several frequency groups and for chemistry radiation together with cosmic rays or radiation. **F91** (history.cpp:175-184, 271-287, header 420-433): with 2 or 3 frequency groups the header has 4 labels per group but the line always has NRAD = 14 numbers for the radiation, so all later columns (cosmic rays, user-defined) are shifted against their labels; with 4 or more groups the program always stops (NRAD is fixed by configure.py). **F92** (history.cpp:142-192): the index of the columns of radiation and cosmic rays leaves out the `pchemrad->nfreq` columns of the chemistry radiation, so with both enabled two quantities are added into the same columns.
* **C92 The equation of the gas temperature is solved exactly** - `Model/Quartic.lean` (`cpow` with NaN as `none`, `polyRoot`, `effective`), `Props/Quartic.lean`: `root_found_partial`, `root_exists_partial` (Cardano's formula for the resolvent cubic, then a factor of the quartic). Partial: real numbers instead of floating point, the branch `delta1 > BIG_NUMBER` uses an approximation and is excluded by hypothesis, and the claim is false for negative coefficients: **F94** (fourth_polynomial_root.cpp:48, frequencygrid.cpp:163-169): `std::pow(coef4, -2.0/3.0)` is NaN for a negative base, so the return value is always -1 (`negative_fails`) and `EffectiveBlackBody`, the only caller with a negative coefficient, always takes its fallback `a_nu^(-1/4)`, which is never a solution of the equation it states (`effective_never_solved`).
* **C93 Interpolation in tables is piecewise linear, continuous and stays within the table** - `Model/Interp.lean`, specification `Spec/Interp.lean` (`InCell`, `lin`, `bilin`, `nodes`), `Props/Interp.lean`: `table_bilinear`, `table_node`, `table_exact`, `table_bounds`, `lp1d_linear_partial`, `lp2d_bilinear_partial`. Since the bilinear function is the result for every closed cell that contains the point, the result is continuous. **F93** (interp.hpp:35-38): at the first node of the chemistry tables `LinearInterpIndex` returns -1 and the element before the array is read (`lp1d_first_node`); e.g. the CO cooling at exactly 10 K (thermo.cpp:64, 599). The logarithms and powers around the table and the readers of tables are not modelled.
* **C94 Gas and radiation exchange energy and momentum consistently** - `Model/RadSource.lean` (`absorb`, `radSource`, `addSource`), specification `Spec/RadSource.lean` (`Ok`, `Solves`), `Props/RadSource.lean`: `absorb_solves_partial`, `energy_conserved`, `equilibrium_kept`, `momentum_conserved`, `source_energy`, `velocity_limited`, `internal_nonneg`, `temperature_consistent`; the root of the polynomial is C92. Partial: real numbers; the case of a coefficient below TINY_NUMBER (then neglected) and the approximate branch of the solver are excluded; multi-group exchange and Compton scattering are C95, frequency maps C98; the terms of implicit transport in `GetHydroSourceTerms` are in C99.
* **C95 Exchange with several frequency groups and Compton scattering are consistent** - `Model/RadMulti.lean` (`absorbMulti`, `compton`), specification in `Props/RadMulti.lean` (`Spec.SolvesMulti`, `Spec.SolvesCompton`), `Props/RadMulti.lean`: `multi_solves_partial`, `multi_energy`, `compton_solves_partial`, `compton_energy`, `compton_negative`. Partial: real numbers; a coefficient below TINY_NUMBER and the approximate branch of the solver are excluded; `MultiGroupCompton` is not modelled (frequency maps: C98). Finding F95 (`compton_negative`): `Compton` adds its source to every direction without a floor, so with radiation hotter than the gas each direction without light gets a negative intensity; the lab-frame floor afterwards (rad_source.cpp:230 ff.) removes it and adds energy to the radiation.
* **C96 The equation of state of partially ionized hydrogen is consistent and its inversion is correct** - `Model/Hydrogen.lean` (`frac`, `presT`, `engT`, `asqT`, `invert` with outcomes fatal error, NaN, no result yet, result), `Props/Hydrogen.lean`: `saha_equation`, `pres_mono`, `eng_mono`, `energy_temperature`, `pressure_temperature`, `sound_speed`, `pressure_bracketed`, `energy_bracketed_partial`, `invert_spec_partial`, `pressure_inverted_partial`, `energy_inverted_partial`, `energy_unbracketed`, `first_pass_undefined`. Partial: real numbers; that the iteration ends and that it does not try a temperature that is not positive are not proved. Finding F96 (`energy_unbracketed`): the lower end `max(es-1, 0.1*es)/3` is not below the solution at low density, so that for example a specific energy of 0.9 at a density of at most 1e-18 stops the code with "Root not bracketed" although the temperature exists (`energy_temperature`). Finding F97 (`first_pass_undefined`): `Td` is read in the first pass before it is set; the method of Brent starts with the flag set to avoid this.
* **C97 Conversions for a general equation of state round-trip and keep the energy floor** - `Model/GenEos.lean` (`floors`, `toPrim`, `toCons`, `primConsFloors`), specification in `Props/GenEos.lean` (`Spec.internal`, `Spec.Same`), `Props/GenEos.lean`: `gen_cons_to_prim`, `gen_prim_to_cons`, `gen_round_trip`, `gen_cons_round_trip`, `gen_floors_partial`, `floors_inconsistent`, `ideal_inverse`, `hydrogen_below_floor`. One cell; the loops are those of C48. Partial: exact arithmetic; the correction of both sets of variables is not consistent between the two floors. Finding F98 (`floors_inconsistent`): `ApplyPrimitiveConservedFloors` compares the pressure with `energy_floor_` (general_hydro.cpp:203, general_mhd.cpp:233); an ideal gas with 1 < gamma < 2 and pressure between the floors loses energy although its energy is above the floor, and its pressure is kept. Finding F99 (`hydrogen_below_floor`): the conversion keeps the floor of the energy only; with the default floors hydrogen at that floor has less than two thirds of the floor of the pressure.
* **C98 Maps between the frequency grids of the lab and the co-moving frame conserve radiation and undo each other** - `Model/FreqMap.lean` (`up`, `down`, `splitLinear`, `rowUp`, `rowDown`, `forward`, `backward`, `mapFreq`, `diagOk`, `solveUp`, `solveDown`, `inverse`, `toLab`), specification `Spec/FreqMap.lean` (`Grid`, `lin`, `area`, `overlap`, `shape`, `tailPart`), `Props/FreqMap.lean`: `forward_energy`, `backward_energy`, `forward_share`, `backward_share`, `forward_tail`, `forward_nonneg`, `backward_nonneg`, `inverse_solves_partial`, `round_trip_partial`, `lab_energy_partial`, `lab_nonneg_partial`, `reads_past_end`, `diagonal_before_row`, `last_row_too_wide`, `stale_diagonal`. The `+=` of the maps is written as a sum over source bins, the reuse of `split_ratio` between cells is the parameter `old`; `FitIntPlanckFunc` and `EffectiveBlackBody` are left open. Partial: exact arithmetic; for shifts to lower frequencies the inverse is right only if slots of `split_ratio` that the map has not written hold no ratios. Finding F100 (`reads_past_end`): the searches compare `nu > nu_lab[l_bd+1]` before `l_bd < nfreq-1`, so every shift to higher frequencies reads one entry behind `nu_grid` (multi_group.cpp:114, 116, and 425, 427 behind `nu_shift_`). Finding F101 (`diagonal_before_row`): `FreMapMatrix` reads `split_ratio(ifr, ifr-map_bin_start(ifr))` at a negative index when the shift to higher frequencies exceeds a bin (multi_group.cpp:247). Finding F102 (`last_row_too_wide`): the width of the last row is not compared with `nmax_map_` for shifts to lower frequencies; if the grid is shifted below its first positive frequency the row has `nfreq` entries in `nfreq/2+1` slots (multi_group.cpp:157-188, 472-503). Finding F103 (`stale_diagonal`): for a shift to lower frequencies by more than a bin the test of the diagonal looks at a slot last written for another cell; a value there makes the code divide by the zero diagonal.
* **C99 Implicit transport of radiation is conservative and consistent** - `Model/RadTransport.lean` (`tauFactor`, `speeds`, `Face.inv`, `splitL`, `splitR`, `coefIm`, `coefEx`, `coefL`, `coefR`, `Step.const`, `Step.exp`, `Step.adv`, `Step.div`, `Step.given`, `radSource`, `zetaTerm`, `psiTerm`), specification in `Props/RadTransport.lean` (`Spec.flux`, `Spec.outflow`, `Spec.boundary`): `transport_partial`, `block_energy_partial`, `flux_consistent`, `speeds_enclose`, `tau_factor_range`, `vacuum_upwind`, `thick_flux`, `zeta_conserves_partial`, `psi_conserves_partial`, `psi_sign_needed`, `along_face_carried`. Partial: exact arithmetic, a converged iteration (the iteration itself and its convergence are not modelled), faces whose speeds differ by at least TINY_NUMBER or are both zero; the angular terms are not combined with the spatial ones; the areas of angular cells are parameters, and `g_psi` must not change sign within a cell (at the face psi = pi, sin(pi) rounds to a small positive number, so there the balance holds up to rounding). Finding F104 (`along_face_carried`): with `adv_flag_ > 0` and a direction with exactly zero component normal to the face both signal speeds are zero and the implicit flux with velocity `-adv` is dropped while the explicit flux `+adv I` is kept.
* **C100 Frequency grid, emission of the gas in its bins, and the Wien tail of the last bin** - `Model/FreqGrid.lean` (`unit`, `Input`, `trunc`, `log10`, `fit`, `intPlanck`, `emission`, `wien`, `wien2`, `unwien`, `toNumber`, `ofNumber`), `Props/FreqGrid.lean`: `unit_pos`, `grid_proper` (gives the hypothesis `Grid` of C98), `grid_count`, `zero_frequency`, `negative_bins`, `emission_total`, `fit_range`, `fit_mono_partial`, `emission_nonneg_partial`, `wien_exact` (against integrals of the spectrum), `wien_round_trip`, `number_not_inverse`. Partial: exact arithmetic (in `grid_count` the quotient of logarithms may round below an integer); bins with their lower face between 1.94 and 1.9434 in units of the temperature are left out: numerically the middle branch begins about 5e-10 below the end of the first, so a bin narrower than about 3e-9 across the seam would emit a negative amount (evaluated in floating point, not proved). `EffectiveBlackBody` and the other fits are not modelled; `PI_FOUR_POWER * ONE_PI_FOUR_POWER = 1` is a hypothesis of `wien_round_trip`, true up to the rounding of the two constants. Finding F105 (`zero_frequency`): the default `frequency_min = 0` is accepted with logarithmic spacing; with a given ratio all faces are zero (without one the ratio is infinite and the faces not a number). Finding F106 (`negative_bins`): with `n_frequency <= 2` and a given ratio the limits are not compared, and the number of bins found may be negative. Finding F107 (`number_not_inverse`): `InverseConvertBBJNNu2` is said to be the exact inverse of `ConvertBBJNNu2`, but uses other coefficients; neither is called at present.
* **C101 Moments of the radiation field, in the lab and in the frame of the gas** - `Model/RadMoments.lean` (`factor`, `group`, `lab`, `limited`, `lorz`, `vnc`, `wcm`, `toCm`, `angcoef`, `cosCm`, `com`, `comEnergy`, `comFlux`), specification in `Props/RadMoments.lean` (`Spec.pr`, `Spec.fr`, `Spec.mean`): `moments_meaning`, `trace_energy`, `flux_limited`, `limited_speed`, `com_energy`, `com_flux`. The frequency map of a direction is a parameter that keeps the sum over groups, which C98 (`forward_energy`) proves of the code. Real numbers; the copies of opacities for output are not modelled.
* **C102 Explicit fluxes of radiation between angles** - `Model/RadAngular.lean` (`faceFlux`, `zetaFlux`, `donorL`, `donorR`, `zetaUpdate`, `zetaArea`, `lenZeta`, `normalization`, `cosCentre`, `geomFlat`, `x1v`, `geomSpherical`, `radialDiv`, `psiWrite`, `psiFill`, `psiDiv`), `Props/RadAngular.lean`: `zeta_conserves`, `zeta_positive`, `psi_conserves_partial`, `isotropic_residual`. Partial: the general claims fail outside spherical polar coordinates. Finding F108 (`flat_space_rotates`): the default geometric factor is one, not zero, so with `angle_flag == 1` in Cartesian coordinates uniform isotropic radiation is changed in every direction off the equator; nothing forbids the combination. Finding F109 (`isotropic_residual`): in spherical polar coordinates the radial and angular divergence of uniform isotropic radiation differ by the factor q*normalization - 1 with 1 < q <= 9/8, never zero, because 1/r is averaged in two ways and the cosines at the centres are renormalised. Finding F110 (`shared_slot`): the last face of a row of the second angle has the array index of the first face of the next row, so unless the factor vanishes there (`psi_conserves_partial`) the sum over a row is not kept. Real numbers: sin(pi) = 0, which in floating point holds up to rounding. Second-order states in angle enter as arbitrary states in `zeta_conserves` and `psi_conserves_partial`; the second angle with the first in one update is the sum of the two divergences and is not put together.
* **C103 Reflecting boundary of radiation** - `Model/RadReflect.lean` (`run`, `copyIntensity`, `octantsX1`, `base`, `reflectX1`, `reflectInnerX1`, `reflectOuterX1`, `cosX`, `octantsX2`, `octantsX3`, `reflectRows`, `reflectInner`, `reflectOuter`, `cosAxis`): cells of cells as flat memory, so an index past the angles of a cell is the next cell. `Props/RadReflect.lean` with `Spec.mirror`, `Spec.flip`, `Spec.Pairs`: `reflect_inner_partial`, `reflect_outer_partial` (two or eight octants: contents and frame), `reflect_inner_rows_partial`, `reflect_outer_rows_partial` (x2 and x3 faces, eight octants), `mirror_cosine`, `flip_cosine`, `mirror_flip`. Partial, as the claim is false of the code in one and two dimensions. Finding F111 (`two_dimensions`, and `two_dimensions_general` for all numbers of ghost cells, groups and angles): with four octants `noct > 3` holds, so octants 4 to 7, the angles of the next cell, are copied too: the first cell inside the domain is overwritten with the mirrored second one and the first ghost cell gets the third. Finding F113 (`two_dimensions_outer`): at the outer face the cell after the last ghost cell is written, in the next row or past the array. Finding F112 (`one_dimension`): the Gauss-Legendre cosines are sorted, so the mirror of angle n is 2*nmu-1-n, while n+nmu is taken; right only for nmu = 1 or the middle angle. The sortedness and antisymmetry of the cosines are hypotheses (Newton iteration is not modelled). `two_dimensions` and `two_dimensions_outer` are for all intensities but one angle per octant, one group and two ghost cells. Not modelled: `angle_flag` 1 and 10, `polar_angle`; the x2 face in two dimensions has the same test and is not stated.
* **C104 Turns of radiation in ghost cells** - `Model/RadRotate.lean` (`swap2`, `cycle4`, `loop`, `copy3`, `copy4`, `copy5`), with `cosAxis` and `Spec.flip` of C103; `Props/RadRotate.lean` (`Spec.from4`): `half_turn`, `quarter_octants`. Partial, as the rest is false of the code: finding F114 (`quarter_turn_iff`) the quarter turn keeps the number of the angle within the octant, so the direction is the turned one only where the first two cosines agree; finding F115 (`both_ends`) the argument `direction` is ignored and both ends turn the same way, so passing both is a half turn; finding F116 (`theta_mirror`) the turn at the x2 faces reverses one cosine, which is a mirror. The text also shows that `RotateHPi_OuterX2` is called for coarse buffers only (bvals_refine.cpp:496), while bvals.cpp turns the inner x2 face alone; which faces call the turns is not modelled. One cell and group (the loops over ghost cells are not modelled), eight octants, `angle_flag == 0`; cosines are those of Cartesian axes.
* **C105 Vacuum boundary of radiation lets nothing in** - `Model/RadVacuum.lean` (`vacBody`, `vacuum`, `vacuumInner`, `vacuumOuter`, `outflowInner`, `faceEnergy`), `Props/RadVacuum.lean`: `vacuum_inner`, `vacuum_outer`, `nothing_enters`, `nothing_enters_outer`; for contrast `outflow_feeds`: the outflow boundary copies inward directions too. One line of cells across the face, the cosine across it as parameter, so the three axes are one theorem; the flux is the first-order upwind flux of a direction, not the implicit scheme of C99.

## Not modelled at all

MPI implementation, OpenMP, I/O libraries (HDF5, FITS), rate coefficients of the chemical networks, the KIDA
networks and CVODE, FFT library and FFT gravity solver, diffusion of cosmic rays by multigrid (`src/crdiffusion`), explicit transport of
radiation and the iteration of the implicit one in `src/nr_radiation` (its angular grids, source terms,
frequency groups, frequency maps and implicit fluxes are modelled: C83 to C85, C92, C94, C95, C98, C99), equations of state read from tables
(`eos_table_class.cpp`; the interpolation is C93), orbital advection across refinement levels, problem generators.

# Design of the formal model of larsblatny/matter

The C++ sources under `/repo/src` were read as text; nothing was compiled or run. The model is
written in Lean 4 under `lean/Verif`, function by function; every definition cites file and lines,
and says where it simplifies.

* `Verif/Model/*` the model (definitions only)
* `Verif/Spec.lean` small vocabulary of the statements (regular grid, node positions, tensor-product
  shape function, momentum, ...), independent of how the code visits nodes and particles
* `Verif/Lemmas/*` helper lemmas
* `Verif/Props/*` the property theorems `Cnn_...`; concrete cases meeting their hypotheses are
  `example`s in the same files, in `Props/Examples.lean` (transfer, steps), in
  `Props/RunExamples.lean` (whole runs) and in the other `Props/*Examples.lean`
* `properties.jsonl` the properties, `MANIFEST.json` which theorem proves which property,
  `seeded/LOG.jsonl` wrong programs tried against the theorems

## Trusted base

* The Lean 4.33.0 kernel.
* Axioms: every theorem depends on a subset of `propext`, `Classical.choice`, `Quot.sound`
  (`#print axioms`). No own axioms, no `sorry`, no `native_decide`/`bv_decide`. A few concrete
  examples over `ℚ` use `decide +kernel`, which only uses the kernel.
* The meaning of the Mathlib notions in the statements (`ℝ`, matrices, finite sums, `HasDerivAt`,
  `IsLeast`, ...).
* The reading of the C++ code recorded in the comments of `Verif/Model`, in particular the
  idealisations below.

## Idealisations

* **Arithmetic.** `typedef double T` is an arbitrary linearly ordered field (with floor) where the
  code uses only `+ - * / < floor`, and `ℝ` where it uses `sqrt`, `exp`, `log`, `pow`, `sinh`, `cosh`,
  trigonometric functions. Rounding, overflow and signed zeros are not modelled, except for the rounding of times
  in the main loop (C98), of grid and
  stencil coordinates (C99), of masses, velocities and friction coefficients in the transfers (C100) and of forces and
  velocities in a step without walls (C119).
  In the Cam-Clay mappings, the viscous models and the samplers an operation that would give
  inf/NaN (division by zero, root of a negative number) yields `none`, an outcome separate from
  every result; elsewhere the theorems assume the parameters that make denominators non-zero.
* **Undefined behaviour** (index outside of an array, conversion of a negative or too large floating-point
  number to an integer, read of an uninitialised variable, `max_element` of an empty list) is `none`
  respectively `Result.ub`, never assumed away. Exceptions, which only affect diagnostics: `plastic_count`
  is incremented in parallel without synchronisation; it is not modelled in runs.
* **Integers.** `unsigned` indices are natural numbers. The flat index is also modelled modulo 2^32 (C16).
  Other 32-bit overflow (grids with 2^31 nodes per axis) is not modelled.
* **Parallelism.** A parallel loop with thread-local arrays merged in a critical section is an arbitrary
  distribution of the iterations to threads in arbitrary order (`P2G`, `MUSL`). Parallel loops over
  independent particles/nodes are `map`s. `PBCAdd` appends to shared arrays in a parallel loop without
  a lock, which is a data race; the model appends in an arbitrary order (C24).
* **Dimension** (`THREEDIM`) and **spline degree** (`SPLINEDEG`) are parameters. Statements hold for every
  dimension unless plates or objects are involved, which are 2D/3D.
* **`Eigen::JacobiSVD`** is a parameter with the contract `IsSvd` (factors orthogonal, singular values
  non-negative, product equal to the matrix); every theorem holds for every choice meeting it. That such a
  choice exists is proved (`exists_svd`).
* **Unqualified `abs`** in three files may resolve to the integer function; it is a parameter `cabs` and the
  theorems hold for every choice.
* **Literals** such as `0.666...6` are taken as `2/3`.
* **External code.** The Poisson-disk sampler, OpenVDB and `tinyply` are not in the repository: sampled points are
  parameters; objects are `inside`/`normal` functions. `ObjectVdb` is modelled with OpenVDB replaced by its documented
  behaviour (`Model/Vdb`: trilinear sampling, central differences at active voxels); only C96 depends on that.

## What is modelled

| file in /repo/src | model | not modelled |
|---|---|---|
| `tools.hpp` | `Model/Tools` (`N`, `dNdu`, `d2Ndu2`, `arange`, `sgn`, `selfDoubleDot`), `Model/Enums` | `debug` printing |
| `data_structures.hpp` | `Model/Transfer` (`Particle`, `Cell`) | |
| `simulation/p2g.cpp`, `explicit_euler_update.cpp`, `g2p.cpp`, `musl.cpp`, `deformation_update.cpp`, `position_update.cpp` | `Model/Transfer`, `Model/Checks` (`overwriteGridVelocity` and the two conservation checks as functions; nothing calls them) | external gravity hook (empty body) |
| `simulation/remesh.cpp` | `Model/Grid`, `Model/Remesh` | |
| `simulation/pbc.cpp` | `Model/Pbc` | |
| `simulation/boundary_collision.cpp`, `objects/*` | `Model/Boundary`, `Model/Vdb` | OpenVDB itself |
| `simulation/plasticity.cpp` | `Model/Plasticity` | console output |
| `plasticity_helpers/*` | `Model/CamClay` | console output |
| `simulation/update_dt.cpp`, `simulate` in `simulation.cpp` | `Model/Time` | timers, console output |
| `advanceStep`, `moveObjects` in `simulation.cpp`; whole program | `Model/Step`, `Model/Run` | debug checks (never called) |
| `simulation/save_data.cpp` | `Model/Remesh` (`savedRow`), `Model/Plasticity` (`savedP`, `savedQ`), `Model/Sampling` (`computeAvg`), `Model/Time` (which files are written, `Event`), `Model/Run` (`World`: the arrays written), `Model/Files` (names, columns, contents, order of writing) | byte encoding of the files (tinyply is modelled by its contract), failures of the file system, `saveAvgData` (not called) |
| `sampling/*` | `Model/Sampling` | Poisson-disk sampler |
| `mpm.cpp` (= `examples/collapse.cpp`), `examples/cube_rotating.cpp`, the set-up file in `README.md`, the members of `Simulation` and `initialize` | `Model/Input` | names of directories, other examples |

## Properties

"partial" means that the property as a user would expect it is false of the code: a theorem ending in `_false`
is a concrete counterexample, the other theorems state what does hold.

| id | property | model and method | status | theorems |
|---|---|---|---|---|
| C01 | Grid mass equals particle mass after transfer | `P2G`: fold over thread-local arrays. Partition of unity, exchange of sums; cut-off error bound by counting stencil nodes | proved | `C01_total`, `C01_bounds` |
| C02 | Grid momentum equals particle momentum after transfer | `P2G`; first moment of the weights is zero | proved | `C02_momentum` |
| C03 | Transfer result does not depend on threads or schedule | `P2G`, `MUSL` with an arbitrary list of threads; permutation invariance of the accumulated sums | proved | `C03_p2g`, `C03_musl` |
| C04 | One step changes total momentum only through gravity | `stepOnGrid` (P2G, Euler, G2P, MUSL, position update) with an arbitrary stress update; gradients of weights sum to zero | proved | `C04_step` |
| C05 | Momentum balance over a whole run | sequence of `advanceStep`; induction on the number of steps | proved | `C05_run` |
| C06 | APIC conserves angular momentum in the transfers | same functions; second moment of the weights, symmetric stress | proved | `C06_p2g`, `C06_step` |
| C07 | Rigid translation is reproduced exactly | `stepOnGrid` on a uniform velocity field, with gravity | proved | `C07_free_fall`, `C07_rigid` |
| C08 | Affine velocity fields are reproduced exactly | `P2G`/`G2P`; first and second moments | proved | `C08_g2p`, `C08_p2g` |
| C09 | Interpolated velocities respect the grid's bounds | convexity of the weights | proved | `C09_p2g`, `C09_g2p` |
| C10 | PIC transfers never create kinetic energy | convexity (Jensen / Cauchy-Schwarz) per node and per particle | proved | `C10_p2g`, `C10_g2p` |
| C11 | Interpolation weights form a partition of unity | `N`, `dNdu` and the four stencil nodes; case split on the pieces | proved | `C11_nonneg`, `C11_sum_one`, `C11_first_moment`, `C11_grad_sum_zero`, `C11_grad_linear`, `C11_support` |
| C12 | The gradient function is the derivative of the weight function | `HasDerivAt` on each piece, glued at the breakpoints | proved | `C12_gradient`, `C12_derivative`, `C12_second_derivative`, `C12_continuous` |
| C13 | No out-of-range grid access in the first step | `arange`, `remeshInit`, `baseP2G`; floor/ceiling arithmetic | proved | `C13_first_step`, `C13_box` |
| C14 | No out-of-range grid access in later steps | `remeshCont`; false in the 1e-8 window, witnesses; `_partial` outside of it and an exact characterisation | partial | `C14_later_steps_partial`, `C14_false`, `C14_false_low`, `C14_exact` |
| C15 | Re-meshing keeps the grid on one lattice | `arange`, `remeshInit`, `remeshCont` | proved | `C15_lattice`, `C15_increasing`, `C15_border` |
| C16 | Node numbering is one-to-one and matches the saved order | `flatIndex`, its 32-bit version, `savedPositions` | proved | `C16_bijection`, `C16_formula`, `C16_no_overflow`, `C16_overflow_collision`, `C16_saved_rows` |
| C17 | Time step size bounds | `updateDt` | proved | `C17_dt`, `C17_defined` |
| C18 | Frames are output at their nominal time | `simulate` loop with an arbitrary physics; loop invariant | proved | `C18_time`, `C18_short_frames_lost` |
| C19 | Exactly the requested frames are written, in order | same; induction over frames | proved | `C19_memory`, `C19_files`, `C19_no_frames`, `C19_no_saving` |
| C20 | The simulation loop terminates | same; time grows by at least min_dt | proved | `C20_terminates`, `C20_limit_irrelevant` |
| C21 | A fatal error stops the run without further output | same | proved | `C21_error_stops`, `C21_output_kept`, `C21_failed_iff` |
| C22 | Invalid set-ups are refused without side effects | `accepted`, `simulate` | proved | `C22_refused` |
| C23 | Gravity ramp | `rampGravity` inside the loop | proved | `C23_gravity`, `C23_monotone`, `C23_second_run_false` |
| C24 | Periodic ghosts leave no trace | `pbcAdd`, `pbcDel` on the eight parallel arrays | proved | `C24_no_trace`, `C24_column`, `C24_ghost_particles` |
| C25 | Periodic transfer is periodic | `P2G` with `ghosts`; re-indexing of sums | proved | `C25_inside`, `C25_periodic`, `C25_edge_false` |
| C26 | Periodic wrapping keeps particles in the domain | `wrapX` inside `positionParticle` | proved | `C26_wrap`, `C26_large_step_false` |
| C27 | No-slip walls impose their velocity | `boundaryCollision2/3` | proved | `C27_plate2`, `C27_plate3`, `C27_object2`, `C27_object3` |
| C28 | Walls are not penetrated | same | proved | `C28_plates2`, `C28_plates3`, `C28_object2`, `C28_object3` |
| C29 | Coulomb friction at walls | same; false for 3D plates, witness | partial | `C29_plate2`, `C29_object2`, `C29_object3`, `C29_plate3_partial`, `C29_plate3_false` |
| C30 | Walls never add kinetic energy | same; norm estimates, induction over the walls | proved | `C30_energy2`, `C30_energy3`, `C30_relative2`, `C30_relative3` |
| C31 | Untouched nodes are unaffected by walls | same | proved | `C31_untouched2`, `C31_untouched3` |
| C32 | Plate motion is the integral of its velocity | `Plate.move2/3`; induction over steps | proved | `C32_motion2`, `C32_motion3`, `C32_first_step_unscaled` |
| C33 | Object normals are unit and perpendicular to the surface | objects; `HasDerivAt` of the surface | partial | `C33_bump`, `C33_curve`, `C33_gate`, `C33_ramp`, `C33_ground2`, `C33_ground3_iff`, `C33_ground3_false`, `C33_silo` |
| C34 | Von Mises: stress stays admissible | `plasticity` (VM) on matrices | proved | `C34_vonMises` |
| C35 | Drucker-Prager: stress stays admissible | same (DP) | proved | `C35_druckerPrager` |
| C36 | Softening Drucker-Prager: stress stays admissible | same (DPSoft) | proved | `C36_softening` |
| C37 | Viscoplastic von Mises solves its flow equation | same (VMVisc) | proved | `C37_viscousVonMises`, `C37_monotone` |
| C38 | Viscoplastic Drucker-Prager: admissible and consistent | same (DPVisc); false at the tip, witness | partial | `C38_viscousDruckerPrager`, `C38_tip_false` |
| C39 | mu(I) Drucker-Prager update | same (DPMui, MCCMui) | proved | `C39_camClay`, `C39_muI`, `C39_other`, `C39_reverse_shear` |
| C40 | Cam-Clay return mappings always land on the yield ellipse | return mappings with the Newton loops as written; loop invariants | proved | `C40_explicit`, `C40_explicit_defined`, `C40_explicitOnevar`, `C40_implicitThree`, `C40_implicitExponential`, `C40_implicitSinh`, `C40_camClay`, `C40_camClay_defined`, `C40_viscousCamClay` |
| C41 | Implicit Cam-Clay hardening is consistent | same | proved | `C41_implicit`, `C41_exponential`, `C41_sinh` |
| C42 | Stored stress is the elastic stress of the stored deformation | `plasticity`, all models; any decomposition meeting its contract | proved | `C42_neoHookean_run`, `C42_stored`, `C42_hencky`, `C42_neoHookean`, `C42_neoHookean_defined`, `C42_elastic`, `C42_capped_false` |
| C43 | Saved p and q are the invariants used by the yield conditions | `savedP`, `savedQ` | proved | `C43_invariants`, `C43_any` |
| C44 | Stress is symmetric and objective | `plasticity` called twice with unrelated decompositions; uniqueness of the spectral calculus | proved | `C44_symmetric`, `C44_objective`, `C44_undeformed`, `C44_henckyPiola`, `C44_neoHookeanPiola` |
| C45 | Regular sampling fills the box with the right mass | `regular2/3`, `regularVdb2/3` | proved | `C45_regular2`, `C45_regular3`, `C45_regularVdb2`, `C45_regularVdb3`, `C45_inside`, `C45_spacing`, `C45_mass`, `C45_defined2`, `C45_defined3` |
| C46 | Random sampling conserves total mass | `sample2/3`, `sampleVdb2/3` with arbitrary points | proved | `C46_random2`, `C46_random3`, `C46_randomVdb2`, `C46_randomVdb3`, `C46_mass` |
| C47 | Velocity update blends as documented | `blendVelocity`, `positionParticle` | proved | `C47_blend` |
| C48 | MUSL re-projection conserves momentum | `MUSL` | proved | `C48_musl` |
| C49 | Volume averages | `computeAvg` | proved | `C49_means`, `C49_bounds`, `C49_homogeneous`, `C49_virial` |
| C50 | Material-induced boundary friction is an average | `P2G` | proved | `C50_friction`, `C50_own`, `C50_grid` |
| C51 | Newton loops never fail silently | Newton loops of VMVisc, DPVisc | proved | `C51_vonMises`, `C51_druckerPrager`, `C51_defined` |
| C52 | Limited search terminates | `limitedSearch` | proved | `C52_search`, `C52_no_limit` |
| C53 | Linear hat functions are not a consistent choice | hat functions; concrete deformation | proved | `C53_deforms`, `C53_hat` |
| C54 | Nodal values are the textbook weighted sums | `P2G` against the sum over all nodes and particles | proved | `C54_p2g_nodes` |
| C55 | Particle values are the textbook sums over all grid nodes | `G2P` against the sum over all nodes | proved | `C55_g2p_sums` |
| C56 | Yield conditions hold in every saved file | `runProgram`; invariant of every step and every written file | proved | `C56_vonMises`, `C56_druckerPrager`, `C56_elastic` |
| C57 | Momentum of a whole free run | `runProgram`; C04 along the run | proved | `C57_momentum` |
| C58 | A run leaves the grid only through the remeshing window | `runProgram`; every failure is traced to the window; a concrete crashing run | proved | `C58_only_window`, `C58_window_reached` |
| C59 | Files of a run are comparable line by line | `runProgram`; relation between worlds of different steps | proved | `C59_same_particles`, `C59_plastic_strain` |
| C60 | A free body falls like a point mass for a whole run | `runProgram`; C07 and the constitutive update along the run | proved | `C60_free_fall` |
| C61 | Runs complete | `runProgram`; C58 + C20 + C19; the resting body avoids the window | proved | `C61_completes`, `C61_rest` |
| C62 | Threads and particle order do not matter for a whole run | `runProgram` (the whole program). Threads: the transfer depends only on the multiset of particles (C03). Order: a map of the world that commutes with one step commutes with `simulate` (`simulate_map`, induction over the main loop); the grid depends only on extrema (permutation invariant), the other phases act particle by particle. | proved | `C62_threads`, `C62_order` |
| C63 | The origin of the coordinates does not matter for a whole run | `runProgram` with `simulate_map`: arange, extrema, remembered box, stencils, both transfers, node positions, walls (2D, 3D, inside and move) and objects commute with a translation; the constitutive update neither reads nor writes the position (all models). | proved | `C63_shift2`, `C63_shift3` |
| C64 | The saved plastic rate is the rate of the saved plastic strain | `plasticity` per model (`Book`), then `runProgram`; false without MUSL and for DPMui, witnesses | partial | `C64_update`, `C64_muI_tip_false`, `C64_stale_false`, `C64_run_partial`, `C64_run_usl_partial` |
| C65 | Plastic strains account exactly for the elastic strain removed | `plasticity`: every branch of every model writes `a dir + b` and books `norm - a`, `trace - d b` (`Book`); one case analysis over all models | proved | `C65_volume`, `C65_shear`, `C65_mccMui`, `C65_step_musl`, `C65_step_usl`, `C65_step` |
| C66 | Plastic flow does not create elastic energy | energy as a function of the saved pressure and shear stress (C42, C43), then the stress results C34 - C39, C51 | proved | `C66_vonMises`, `C66_druckerPrager`, `C66_softening`, `C66_viscousVonMises`, `C66_viscousDruckerPrager`, `C66_muI`, `C66_gap_false` |
| C67 | Momentum and free fall in periodic domains | the grid of real particles and ghosts in one period is the fold of the grid of the real particles (`raw_all_fold`, from C25); summation over one period; the run by an invariant as in C57; the MUSL counterexample by evaluating the two node velocities over the rationals | partial | `C67_step`, `C67_free_fall_partial`, `C67_run`, `C67_free_fall_false` |
| C68 | Periodic runs are memory-safe exactly while the particles are inside the grid | invariant of the periodic grid over the steps; stencil defined iff inside (C16); undefined behaviour of the loop traced to a step (as C58); completion from C19, C20 | proved | `C68_only_outside`, `C68_outside`, `C68_completes` |
| C69 | Walls change the momentum only by what they take from the nodes | `physStep` with walls: node momentum before the walls is the free one (C02, C04), particle momentum afterwards is that of the blended node velocities (C09); sign of the wall velocity change per node from C27-C31; run by an invariant over the steps | proved | `C69_step`, `C69_run` |
| C70 | Walls hold the material back, up to part of a cell | `C70_node`: every wall scales the velocity component along the normal by a factor in [0,1] and the plate stops inward motion, so a node never ends both behind the plate and further back than it was; `C70_step`: the spline average of such node displacements (1D lemma on the mean of min(node, row) over a stencil); `C70_run` by an invariant on the lattice of grids of the run | proved | `C70_step`, `C70_node`, `C70_run`, `C70_exact_false` |
| C71 | Saved stresses obey the yield condition, for the models with memory | invariant `the kept volume is not negative' along the run (`saved_history`), then the update theorems C37-C43 for the last step before the file; `C71_tip_false` is a run of one particle at rest with F = diag(2, 1/2) | partial | `C71_tip_false`, `C71_viscousDruckerPrager_partial`, `C71_isochoric_shear`, `C71_viscousDruckerPrager_bound_partial`, `C71_muI_partial`, `C71_softening`, `C71_camClay`, `C71_viscousVonMises`, `C71_viscousDruckerPrager_exponent_partial`, `C71_viscousVonMises_exponent` |
| C72 | The centre of mass moves like a point mass | sum over particles of the interpolated node velocity equals the momentum the nodes carry (partition of unity), so positions and velocities see the same sum (`C72_step`, `wall_sums`); runs by an invariant over the steps with the accumulated factors of gravity | proved | `C72_step`, `C72_run` |
| C73 | Coulomb's law for whole runs | the functional (tangential + mu * normal component) of the node velocity is not decreased by a wall contact (`slide2_change`, `slide3_change`); momentum balance of C69 turns it into one for the particles, summed over the run (`directed_run`); equality while sliding | proved | `C73_coulomb`, `C73_sliding` |
| C74 | Young's modulus, Poisson's ratio and the elastic time step limit mean what they say | `Model/Input` assembles the parameters of a run from the members of `Simulation`; Hooke's law from the stress of C42/C63 by solving the isotropic law for the strain; the wave speed from the stiffness of the same law (`pWave_stiffness`) and the time step of C20 | partial | `C74_hooke3`, `C74_hooke2`, `C74_courant`, `C74_courant_false` |
| C75 | The shipped input file does what it is meant to do | the input file is modelled statement by statement (`mpm2`, `mpm3`); C46 gives the sampled particles, C61 the end of the run and the list of files, C71 the yield condition, C70 the floor, all instantiated for its parameters | proved | `C75_mpm2`, `C75_mpm3`, `C75_not_copied`, `C75_initialize` |
| C76 | The particles have the density of the simulation | mass of sampled boxes (C46) carried through arbitrary later assignments; `cube2` is the example modelled statement by statement | partial | `C76_density2`, `C76_density3`, `C76_order_false` |
| C77 | The grid files show the mass and the momentum of the particles | the world of a run carries the grid arrays `grid.mass`, `grid.v` as they are when `saveGridData` reads them; `physStep_grid` relates them to the transfer of the last step; the sums by the partition of unity and linear reproduction of the splines, momentum with walls as in C69 | proved | `C77_rows`, `C77_mass`, `C77_momentum` |
| C78 | In the grid files no node moves into a fixed wall | the velocity of a node of C70 read off the grid file (`row_velocity`), an invariant for the plates, an exact one-step run for the witness | partial | `C78_musl_false`, `C78_usl`, `C78_noslip`, `C78_musl` |
| C79 | The Cam-Clay return mappings solve the equations of associated flow by Newton's method | a solver is a sequence of states with a step relation and a stopping test (`Reached`); the step relation is stated with `HasDerivAt` of the equations of flow; induction over the passes of the loop, and the closed forms of all partial derivatives | partial | `C79_explicit`, `C79_explicitOnevar`, `C79_camClay`, `C79_normal`, `C79_accuracy`, `C79_implicitExponential`, `C79_camClay_implicit`, `C79_newton_step`, `C79_implicit_root`, `C79_implicit_stiffness_false`, `C79_implicitSinh_partial`, `C79_sinh_false` |
| C80 | The viscous models find the plastic multiplier by Newton's method with the exact derivative | as C79 with one unknown: `viscResid` is the discrete flow law, its derivative by the calculus rules for powers | proved | `C80_vonMises`, `C80_druckerPrager`, `C80_camClay` |
| C81 | With APIC a free body keeps its spin | the first moment of the grid momentum equals that of the particles including their affine part (partition of unity and linear precision of the splines), symmetric stress has no torque, walls act node by node; induction over the steps of the run with the motion of the centre of mass (C72) | proved | `C81_step`, `C81_run`, `C81_default_false` |
| C82 | With use_mibf the walls use the friction coefficient of the material | the coefficient of the plastic update is computed for each model from the specification of its return mapping (a point of the ellipse has q / sqrt((p + beta pc)(pc - p)) = M); the coefficient of a node is between those of two particles (C50); induction over the steps of the run | partial | `C82_constant`, `C82_camClay`, `C82_camClay_implicit`, `C82_viscousCamClay`, `C82_camClay_nonneg`, `C82_noHard_false`, `C82_druckerPrager`, `C82_tension_negative`, `C82_cohesion_false`, `C82_run_constant`, `C82_run_camClay`, `C82_run_camClay_implicit`, `C82_run_camClay_nonneg`, `C82_run_viscous`, `C82_run_muI` |
| C83 | Particles are not turned inside out while neighbouring grid nodes move alike | summation by parts writes the velocity gradient as an average of difference quotients over neighbouring nodes of positive weight; 1 + dt L is then strictly diagonally dominant, so its determinant is positive (Gershgorin and the intermediate value theorem); every plastic model multiplies det F by a positive number; induction over the steps | proved | `C83_plastic`, `C83_step`, `C83_run`, `C83_run_speed`, `C83_cfl_false`, `C83_gradient` |
| C84 | The output directory: a complete, unambiguous set of files, at the end and at any time | a file system is a map from paths to contents, each saving function a list of changes; names are injective because decimal printing is; the final contents by induction over the frames from C19; interruption by induction over the events of the run, for every prefix of the list of changes | proved | `C84_names`, `C84_separate`, `C84_directory`, `C84_leftover`, `C84_silent`, `C84_aborted`, `C84_anytime`, `C84_last_written_false`, `C84_printed`, `C84_printed_nat`, `C84_printed_false` |
| C85 | The columns of the particle and grid files can be read back | the file is modelled as one list of values, vertex by vertex; reading a column by name and stride; general lemma on lists of rows of constant width, then the groups of every option | proved | `C85_particles`, `C85_grid` |
| C86 | Energy balance: kinetic energy grows only by the work of gravity, stresses and walls | discrete adjointness of the transfers; interpolation to particles is a contraction for the energy with the affine part (affine_scalar: Bessel's inequality for the affine functions in the weighted inner product of the stencil); convexity for the transfer to the grid; resting plates multiply every velocity component by a factor in [0,1], one terrain object projects; induction over the steps | proved | `C86_step`, `C86_corner_false`, `C86_default_false`, `C86_run_step`, `C86_run` |
| C87 | The choice of units does not matter | the conversion commutes with every part of a step (transfers, update of the grid, walls, deformation, each plastic model, choice of the step size, mesh); induction over the steps (simulate_scale) | proved | `C87_run2`, `C87_run3`, `C87_files2`, `C87_particle_columns`, `C87_grid_columns`, `C87_mesh_false`, `C87_dp_false` |
| C88 | The definition of the equivalent shear stress is a convention | special case of C87 with only the factor of q | proved | `C88_convention2`, `C88_convention3` |
| C89 | The strength parameters of the input file bound the stresses in the files | the run theorems C56 and C71 for the set-up made from the members, with the formulas spelled out in the members (`sim_files`, `sim_history`) | proved | `C89_vonMises`, `C89_druckerPrager`, `C89_softening`, `C89_muI`, `C89_viscousDruckerPrager`, `C89_camClay`, `C89_viscousVonMises` |
| C90 | The README describes the program | the set-up file is modelled statement by statement (`readme2`, `readme3`); C46, C61, C56, C70 for its parameters; the tables with bounds for tan of the angles from bounds for pi | proved | `C90_readme2`, `C90_readme3`, `C90_defaults` |
| C91 | The rotating cube of the examples rotates and moves as announced | `cube2`, `cube3` statement by statement; C46, C61, C57, C72 for its parameters | proved | `C91_cube2`, `C91_cube3` |
| C92 | use_mibf is the same as walls with the material's friction where that is constant | simulation relation: the step with `use_mibf` and the step without it commute with forgetting `muI` (`physStep_own`), lifted to runs along the reachable states (`loop_map_reach`); C82 gives the constant coefficient | proved | `C92_run`, `C92_constant`, `C92_camClay`, `C92_druckerPrager`, `C92_columns`, `C92_tiny_false` |
| C93 | Measuring the bulk modulus from the averages | C49 gives the averages, C56 the stress of every saved particle; `x log x` is convex (Jensen, with the case of equality) | proved | `C93_measured`, `C93_error`, `C93_true` |
| C94 | Re-insertion of particles | the two steps differ in the last map only; runs by induction over the steps made (`loop_congr`) | proved | `C94_step`, `C94_unused`, `C94_file` |
| C95 | Material models with common parameters coincide | the plastic updates of the two models are equal under the stated conditions; `runProgram_swap` carries this to steps and to runs by induction over the steps made | proved | `C95_druckerPrager`, `C95_plainDruckerPrager`, `C95_vonMises`, `C95_camClay`, `C95_tip_false` |
| C96 | Terrain and bodies from level set files | mean and variance of the trilinear weights (product structure) bound the interpolation error of a 1-Lipschitz function by sqrt(3)/2 voxels; cutting off preserves this; sampling by C45 and C46 with this `inside` | proved | `C96_surface`, `C96_plane`, `C96_normal`, `C96_energy`, `C96_unfilled`, `C96_regular2`, `C96_regular3`, `C96_random2`, `C96_random3`, `C96_file` |
| C97 | Bodies that do not touch do not influence each other | a step as one formula per particle (`physStep_good`); every node with a weight for a particle of the group has none for the others, so its mass, momentum and force are the same in both runs, wherever the grids begin (`Lemmas/Local`); induction over two loops side by side (`loop_rel`) | proved | `C97_separate_bodies`, `C97_reference_point` |
| C98 | Rounding errors do not derail the time loop | the loop with a rounding after every operation (`Model/Round`, equal to `Model/Time` for the identity, `C98_exact`); the invariants of C18/C19 with error terms; the last end of frame and the final time are the same rounded product; exactness of differences of nearby numbers for the steps cut short by the end of a frame | proved | `C98_files`, `C98_end`, `C98_terminates`, `C98_terminates_limits`, `C98_terminates_false`, `C98_exact` |
| C99 | Rounding errors do not take particles off the grid | the grid construction with a rounding after every operation (`Model/RoundGrid`); induction over the nodes for the accumulated error; the length of the list as the first node not before the end; weights by the Lipschitz bound of the splines and the partition of unity at the nearest offset in the cell | partial | `C99_first_step`, `C99_later_steps_partial` |
| C100 | Rounding errors in the transfers stay small | the transfers with a rounding after every operation (`Model/RoundTransfer`); a calculus of sums computed with at most k roundings (`Near`), all weights being non-negative so that the error of the nodal mass is relative; quotients as weighted means; partition of unity from C99 | proved | `C100_order`, `C100_velocity`, `C100_friction`, `C100_mass`, `C100_total_mass`, `C100_interpolation`, `C100_translation` |
| C101 | The choice of the singular value decomposition does not matter | two decompositions of one regular matrix give the same functions of the singular values (`svd_fun_left`, `svd_fun_two`), every plastic model is such a function (`iso_plastModel`); then equality of the steps | proved | `C101_update`, `C101_run`, `C101_singular_false` |
| C102 | Deformation gradients are the Jacobians of the motion | the shape functions are differentiable (C12), so the velocity field and the step map are; the gradient of the field is what G2P sums; chain rule along the steps (`motion_run`) | proved | `C102_step`, `C102_run`, `C102_volume` |
| C103 | The inside of a body under uniform stress feels no force (patch test) | shape functions over a lattice of spacing dx/k: splitting the lattice by residues modulo k gives k shifted unit lattices, on each of which splines sum to one and their derivatives to zero (`sum_N_lattice`, `sum_dN_lattice`); products over the directions; the neighbouring nodes have the velocity of the body, so interpolation returns it | proved | `C103_node`, `C103_step`, `C103_sampled` |
| C104 | The numbering of the axes does not matter | every grid quantity is a sum over particles of products over directions, which a permutation reorders (`Equiv.prod_comp`, `Equiv.sum_comp`); the node arrays agree at corresponding nodes and are zero beyond the grid (`raw_perm_axes`, `eq_permField`); the constitutive update sees the deformation only through the decomposition, whose rows are permuted (`plasticity_perm`); `simulate_map` lifts a step to a run; `C101_run` allows any other decomposition | proved | `C104_objects`, `C104_swap2`, `C104_swap3`, `C104_front_false` |
| C105 | The program carries out the textbook material point method | refinement: the method in Spec/Mpm.lean sums over all particles and over all nodes of an infinite lattice (`finsum`); splines vanish beyond the block of a particle, so the finite sums of the code equal them (`overNodes_eq`, `raw_near`); the grid of every step lies on one lattice (`run_lattice`); induction over the steps of a run gives `Mpm.Evolves` | proved | `C105_step`, `C105_run`, `C105_grid` |
| C106 | The mirror image of a problem has the mirror image as its solution | Lemmas/Mirror.lean: every operation of the method of Spec/Mpm.lean commutes with the mirror (splines are even, so are their derivatives odd; tensors are conjugated with a diagonal matrix of signs; the decomposition is mirrored and any other one gives the same, C101); `loop_rel` carries the relation through the main loop; the two lattices coincide because the extents are whole numbers of cells | proved | `C106_2d`, `C106_3d`, `C106_lattice_false` |
| C107 | The order in which walls and objects are added | only the walls that cover the point act (`collidePlates_filter`), so the boundary treatment is the same function; `simulate_map` carries this through the run | proved | `C107_walls`, `C107_objects`, `C107_corner_false` |
| C108 | Symmetric problems have symmetric solutions | the mirrored run is a reordered run of the same problem (C62, C107), and the mirror image of the run (C106, with the decomposition of nonsingular matrices) | proved | `C108_lattice_false`, `C108_2d`, `C108_3d` |
| C109 | Output options and the number of frames do not influence the simulation | induction over the loop: filtering the files commutes with every iteration; while the shorter run is not over, cutting the step at the final time is implied by cutting it at the end of the frame, the loop can only end right after a frame was saved, and afterwards only files of later frames are written | proved | `C109_output`, `C109_frames` |
| C110 | Parameters that do not belong to the chosen model do not matter | the update of a particle is the same function of the state for both materials, model by model; for Cam-Clay without viscosity the two formulas for the friction coincide | proved | `C110_run`, `C110_files` |
| C111 | The built-in conservation checks raise no false alarm | totals over the grid are sums over the stencils; what the cut-off drops is at most 4^d*1e-25 of every particle; triangle inequality; witness: one particle on a node and one 1e-13 cells left of a cell boundary | partial | `C111_mass`, `C111_momentum_partial`, `C111_labels`, `C111_momentum_digits`, `C111_momentum_false`, `C111_override` |
| C112 | A step looks the same to every observer: Galilean invariance and the equivalence principle | via the textbook scheme of C105: partition of unity and vanishing gradient sums cancel the common velocity in both transfers; the plastic update does not read positions and velocities; witness for the plate: a node that meets the plate within the step | proved | `C112_step`, `C112_plate_false` |
| C113 | Calling simulate again continues the simulation | simulation relation between the second loop and the rest of the single loop, shifted by N frames; the single loop reaches the end state of the first call because it does not stop there | proved | `C113_continue`, `C113_files` |
| C114 | The plotting script shows the particles of the run | model of load_ply.py on the modelled directory; composed with C84 (contents of the directory) and C85 (columns of the files) | proved | `C114_plot`, `C114_label`, `C114_missing`, `C114_single_false`, `C114_space_false` |
| C115 | A rotating body: velocities are exact, but it is stretched a little in every step | on the textbook scheme of C105: affine fields are reproduced by the node sums (partition of unity, first and second moments); Hencky stress has the eigenvectors of F F^T | proved | `C115_step`, `C115_stretch`, `C115_plane`, `C115_size`, `C115_space`, `C115_rigid_false` |
| C116 | The total energy of a run grows at most by terms of second order in the time step | trace inequality: the squared cosines between the principal directions before and after are doubly stochastic, so second-order bounds for log and log^2 on numbers become bounds for the strain energy; combined with C86 and C66 by induction over the steps | proved | `C116_power`, `C116_neoHookean_power`, `C116_materials`, `C116_neoHookean`, `C116_elastic`, `C116_step`, `C116_run`, `C116_rate`, `C116_conserved_false` |
| C117 | A body in equilibrium stays at rest | the nodal pull is the acceleration of the textbook scheme of C105; carried nodes are stopped by the plates (case analysis of slide2 / slide3), so the nodes are at rest, the deformation does not change and the return mapping is not active; then induction over the run | proved | `C117_step`, `C117_run`, `C117_grid`, `C117_completes` |
| C118 | Influences spread by a few cells per step | by the textbook scheme of C105: a nodal value depends on the particles within half a width, an interpolated value on the nodes within half a width; filters by a cube commute with the step; induction over the steps of both runs | proved | `C118_slow`, `C118_step`, `C118_run` |
| C119 | Rounding errors do not create momentum | rounded models of the nodal forces, of explicitEulerUpdate and of the velocity update; running error bounds for the sums at the nodes; the computed gradients of a particle sum to zero and its weights balance up to e and u; scatter and gather are exchanged as finite sums | proved | `C119_momentum` |
| C120 | Particles crossing cell boundaries do not make the grid jump | shape functions and gradients are Lipschitz (their derivatives are bounded; pieces for the quadratic gradient), the square of a gradient is at most twice the weight over dx^2, so what the cut-off drops is small; then term by term on the nodal sums of C54 | proved | `C120_mass`, `C120_force`, `C120_momentum`, `C120_linear_false`, `C120_strain_false` |
| C121 | The position of the periodic seam is invisible | the particles together with their ghosts are the images of the domain particles within reach of the grid; the sum over images at a node is a sum over whole periods, which is the same for the moved particles at the moved node; then the grid velocities agree node by node along the moved stencils, the plastic update does not see the position, and the loop is related step by step | proved | `C121_step`, `C121_run`, `C121_musl_false` |
| C122 | A 2D simulation is a slice of a 3D one | the sum over layers of the shape function in the third direction is the number of layers per cell, that of its derivative is zero (regular lattice, as in C103), so masses, momenta and forces of nodes inside the layers are those of the plane times a constant, which cancels; on the way back the weights of the third direction add up to one and their derivatives and first moments to zero. Hencky: a function of the singular values carried by the left singular vectors depends on F F^T only, so the decomposition in space may be taken as that of the plane with a third singular value one | proved | `C122_step`, `C122_elastic`, `C122_plastic_false` |
| C123 | Plastic flow does not amplify differences of stress | for every model the new Hencky strain is a multiple of the trial direction plus a multiple of one (C65), so the deviator of the new stress is that of the elastic stress times a factor between 0 and 1, which the laws of C34, C35, C37 give; a map that shortens vectors along their direction and does not spread their lengths does not spread the vectors (Cauchy-Schwarz) | proved | `C123_vonMises`, `C123_viscousVonMises`, `C123_druckerPrager`, `C123_viscousDruckerPrager_false` |
| C124 | Inside a smooth body a step is the step of the equations of motion | the moments of a spline and of its slope over a regular lattice up to degree two do not depend on the offset (Strang-Fix), so the sum of stress times slope over the particles is k^d times minus the divergence (defined by partial derivatives, independent of the model); mass and momentum are sums of the same kind; G2P of an affine nodal field is the field (C102, C103) | proved | `C124_node`, `C124_step`, `C124_equilibrium` |
| C125 | The inside of a body in equilibrium stays at rest until its surface makes itself felt | induction over the steps of the run: where the particles are as at the beginning, the lattice and the stress are still those of C124_equilibrium, so the step leaves them in place with their deformation gradient, and an elastic particle whose deformation does not change keeps its stress and plastic record (C94); the region shrinks by the reach of the spline and the largest movement | proved | `C125_step`, `C125_steps`, `C125_run` |
| C126 | A particle is as good as several lighter ones at the same place | n copies multiply the sums over the particles by n, which cancels in the velocities and frictions of the nodes, against the volume in the forces, and in MUSL; extent and largest speed do not depend on multiplicities; the ghosts of copies are copies; one step commutes with copying, so the loop does (simulate_map, as for C62) | proved | `C126_run`, `C126_twice`, `C126_density` |
| C127 | Walls that are never hit leave no trace | the loops over objects and plates in boundaryCollision test the same position, so those whose test fails can be dropped; the grid update only calls it for nodes with mass, at the position given by the textbook sums (C105); hence every step taken agrees and with it the loop (loop_map_taken) | proved | `C127_step`, `C127_run` |
| C128 | The mu(I) rheology with equal friction coefficients is Drucker-Prager | with equal coefficients the quadratic equation for the rate factorises, its positive root is (q_trial - q_yield)/(f_mu dt); hence the updates agree up to the records (mui_visc), no step reads the records (physStep_bare), and both loops are the loop of one and the same map on worlds without records | proved | `C128_run`, `C128_rate_false` |
| C129 | A run remembers of a particle only what its material model reads | noninterference: the update maps particles equal up to the unread quantities to such particles (updated_memory, model by model), so does every part of a step (physStep_kept), hence both loops are the loop of one map on worlds without these quantities (run_kept) | proved | `C129_run`, `C129_read` |
| C130 | A new simulation does not depend on remains of an earlier one in the grid and the helper variables | noninterference: P2G maps particles equal up to the helper variables to the same grid (P2G_unhelped), G2P overwrites the helper variables (g2pFull_unhelped), the first step makes the grid anew, so the first steps of both runs are equal (C130_step); the loop only appends to the files (loop_after), so the rest is the same run | proved | `C130_step`, `C130_run`, `C130_first`, `C130_affine` |
| C131 | A periodic simulation can be restarted from its particles | the periodic grid depends on the domain only and is kept from the first step on (restart_grid), so the first steps of both runs are equal by the noninterference of C130 (physStep_unhelped), later steps do not read the step number (loop_recount); counterexample for open boundaries evaluated by the kernel | proved | `C131_restart`, `C131_open_false`, `C131_parts` |
| C132 | A simulation needs particles, and the program does not check that there are some | evaluation of the first iteration of the loop for the empty list; floor of a quotient below 1; C13 and the periodic grid for the converse | proved | `C132_empty`, `C132_first`, `C132_thin`, `C132_box2`, `C132_box3` |

## Disagreements between code and expectation found on the way

Proved (the theorem named is a witness):

1. `remeshFixedCont` subtracts `1e-8*dx` before truncating: a cloud that has moved outward by a whole number of cells
   plus at most `1e-8` cells gets a grid that is one cell too short, and P2G/G2P read outside of the grid
   (`C14_false`, `C14_false_low`). A plain run reaches this: one particle flying half a cell per step crashes in its
   third step (`C58_window_reached`).
2. Plates in 3D, slip-stick: the first tangential velocity component is overwritten before the second one is
   computed, so friction depends on the order of the axes and is too small (`C29_plate3_false`, `C104_front_false`).
3. `VMVisc`, capped branch: `F` is set to `U Vᵀ` but the strain used for the stress is not, so the stored stress
   is not the stress of the stored deformation (`C42_capped_false`).
4. `DPVisc`, `DPMui`: a trial pressure exactly at the tip satisfies neither branch and stays outside of the cone
   (`C38_tip_false`); `DPSoft` uses `<=`. This is not a rare state: without cohesion every deformation of
   unchanged volume is there (`C71_isochoric_shear`), and such a stress is what the files of a run show
   (`C71_tip_false`).
5. `DPMui` with cohesion and tension: the new shear stress can lie below the static yield stress and even reverse
   (`C39_reverse_shear`); tip increments are not divided by `dt`, and the volume correction is accumulated and
   reset although `use_pradhana` is off (`C39_other`).
6. Periodic boundaries: a particle exactly at `Lx` gets no ghost (`C25_edge_false`); a displacement of more than
   one period is wrapped only once (`C26_large_step_false`).
7. The load factor of moving plates is not applied in the first step, `moveObjects` runs at its end
   (`C32_first_step_unscaled`).
8. Calling `simulate()` a second time with `gravity_special` ramps to the wrong gravity (`C23_second_run_false`).
9. `ObjectGround` in 3D leaves `n(2)` uninitialised (`C33_ground3_false`).
10. The flat node index wraps modulo 2^32 (`C16_overflow_collision`).
11. Frames shorter than `1.1*min_dt` can be skipped (`C18_short_frames_lost`).
12. `SPLINEDEG 1` deforms a particle sitting on a grid line in a uniform velocity field (`C53_deforms`).
13. Without MUSL nothing resets `delta_gamma`: a particle that stops flowing keeps the old rate in all later files in
    VM, DP, VMVisc, MCC*, DPMui (`C64_stale_false`); at the tip `DPMui` stores the increment, not the rate
    (`C64_muI_tip_false`).
14. `DP` with cohesion moves a stress in the gap of width `1e-10/M` above the tip back to the tip, which adds a
    (tiny) amount of elastic energy (`C66_gap_false`).
15. MUSL with periodic boundaries: the grid mass includes the ghosts, the re-projected momentum does not. Two
    particles next to the seam moving with the same velocity, without any load, are stretched by half the velocity
    gradient `v/dx` (`C67_free_fall_false`).
16. Periodic boundaries: the grid starts at `-dx` in y, so a particle slightly below `y = 0` makes the next step
    read outside of the grid (`C68_outside`).
17. Walls leak: with quadratic splines a particle next to a wall can get up to half a cell behind it, since only nodes
    that would pass the wall are stopped (`C70_exact_false`; `C70_run` is the bound).
18. The elastic time step uses the wave speed `sqrt(E/rho)` instead of that of pressure waves: for Poisson's ratio 0.49
    such a wave passes more than two cells per step at the default `cfl_elastic = 0.5` (`C74_courant_false`).
19. `examples/cube_rotating.cpp` sets the density after sampling: the particles have the mass of the default density
    and the time step is too long for them (`C76_order_false`).
20. If the input file can not be copied to the output directory, `simulate` returns without writing a file
    (`C75_not_copied`).
21. With MUSL the grid files do not show the velocities the walls acted on: a node with mass below a fixed no-slip floor
    moves downwards in them (`C78_musl_false`).
22. The implicit Cam-Clay mappings use `mu` where the equations of associated flow have `2 q_prefac^2 mu`
    (`C79_implicit_stiffness_false`); the explicit mapping uses the latter.
23. `MCCRMAImplicitSinhOnevar` takes `0.5*(helper+helper-p0_min)` as derivative of the hardening law; it is off by half
    the lower bound (`C79_sinh_false`), so its steps are not Newton steps.
24. The default `flip_ratio = -0.95` does not conserve angular momentum: the affine part of the particles is that of
    pure APIC while their velocity is a blend (`C81_default_false`).
25. With `use_mibf`, viscous Drucker-Prager material with cohesion gets a negative friction coefficient under slight
    tension, and plates with `SlipStick` then speed up the flow along them (`C82_cohesion_false`).
26. The time step limits (`cfl`, `cfl_elastic`) look at particle speeds and the wave speed only: a particle at rest with a
    strong affine velocity field is turned inside out in one step (`C83_cfl_false`); stresses come from singular values,
    which do not see this.
27. `last_written.txt` is written before the stream of the particle file is closed (save_data.cpp:164-170): a program that
    waits for `last_written.txt` to say `n` can find `particles_fn.ply` incomplete (`C84_last_written_false`); the files of
    earlier frames are complete.
28. A shorter run into the directory of a longer one leaves the later frames of the old run in place (`C84_leftover`), and
    `info.txt` holds `dx`, `fps` and `particle_volume` with six significant digits only (`C84_printed_false`).
29. Terrain objects are applied one after the other, each on the velocity the one before has left. In the ground common
    to two gentle frictionless slopes that form a valley this turns a velocity downwards into one that points up: a body at
    rest rises against gravity, and its energy grows (`C86_corner_false`).
30. With the default `flip_ratio = -0.95` energy is not bounded by the work of the forces: 95 % of the velocities are kept
    as in FLIP, and the affine matrices are filled from the grid in addition, so that relative motion of neighbouring
    particles is counted twice (`C86_default_false`: 14 % in one step of two particles without any force). Only
    `flip_ratio < -1` (APIC) and `0 <= flip_ratio <= 1` (PIC/FLIP without affine matrices) are safe (`C86_step`).
31. The mesh depends on the unit of length: the tolerance when it is extended is `1e-8 * dx` where a number of cells is
    meant (remesh.cpp:230-280), so with `dx = 1e-3` it is 1e-11 cells and with `dx = 1e3` it is 1e-5 cells
    (`C87_mesh_false`).
32. Constants with a unit: `DP` sends a state to the tip when the yield stress there is below `1e-10`, whatever the unit of
    stress, which changes even an undeformed particle of a material of smaller cohesion (`C87_dp_false`); similar constants
    are the speed 1e-10 in `updateDt`, the bounds 1e-3 and 0.1 of the Cam-Clay models, the residual 1e-2 of the viscous
    flow rules, and the distances used for reinsertion. C87 says under which of them a run is independent of the units.
33. With `use_mibf`, viscous Drucker-Prager material stores the friction coefficient `1e10` when it flows at a pressure below
    `1e-10`: at walls it then sticks, although the ratio of its stresses is `M` (`C92_tiny_false`).
34. `min_dt` does not guarantee that a run ends: its default `1e-14` is below the resolution of a double from 128 seconds
    on. If a particle gets so fast that the time step is `min_dt`, the time stops and the loop does not end
    (`C98_terminates_false`; in exact arithmetic it ends, C20).

Seen while modelling (recorded in the comments of the model, not all turned into theorems):

35. `MCCMui` with `NoHard` reads an uninitialised `perform_rma`; `MCC` with `NoHard` and `use_mibf` reads an
    uninitialised `p_c`; `use_mibf` with periodic boundaries reads `muI` of ghosts outside of the array (all `none`
    in the model).
36. The Newton loops raise the error flag in the last iteration even if that iteration converges.
37. `use_mibf` divides 0/0 at empty nodes (not read later).
38. `PBCAdd` races on shared vectors; ghosts exist only in x.
39. `ObjectSilo` in 2D indexes `X_in(2)`.
40. `arange` with step `<= 0` and `start < stop` does not end; sampling casts `int(L/spacing)` without range check.
41. Plates apply slip-stick friction also to separating material, general objects only to approaching material.
42. Unqualified `abs` (see above). With the integer version the Newton loops of three mappings stop early; the
    result still lies on the ellipse (C40).
43. The implicit one-variable Cam-Clay mappings return from inside the loop without clipping `p`.
44. `MCC`: the instantaneous deviatoric plastic strain can be negative, and with it the initial guess of `MCCVisc`.
45. `MCCMui`: with `q_trial <= q_yield + tol` after a return mapping the plastic shear strain and `delta_gamma`
    are not updated.
46. `checkMomentumConservation`/`checkMassConservation` are never called; the momentum check prints swapped labels (C111).
47. `DP` with a cohesion in `(0, 1e-10)` projects the stress-free state to the tip (hence `StressFreeOk` in C60).
48. The final particle file is written twice (same content, C19).
49. `MCCRMAImplicitExponential` (unused) has `+2 beta p0 dp0` where the derivative has a minus sign.
50. The explicit and the implicit exponential mapping report nothing if they do not converge (`// exit = 1`); the
    test for the centre of the ellipse in the implicit mappings looks at the pressure of the pass before.
51. A neo-Hookean particle whose deformation gradient has a determinant `<= 0` gets a stress that is not a number
    (`log` of it, or division by zero), without a message; in the model this is the outcome `none` (C42).
52. The lattice of nodes goes through the lower corner of the initial cloud. Unless the extent of the cloud is a whole number of
    cells, a symmetric problem has no symmetric grid and hence no symmetric solution (C106, C108).
53. Where walls overlap (corners) the one added last decides (C107).
54. With `use_mibf` the slope `M` is the friction of the walls also for models that have no `M` (no plasticity, von Mises; C110).
55. `checkMomentumConservation` compares with the size of the total momentum, so for particles moving in opposite directions a dropped weight of `1e-26` stops the run; it also prints the momentum of the grid under the label of the particles and the other way round (C111).
56. The contact test of a plate compares the position a node would reach at the end of the step with the position of the plate at its beginning. A node approaching a resting plate is caught before it penetrates; a plate approaching a resting node is noticed one step late (C112).
57. A second call of `simulate` keeps the step counter, the grid and the plates, but restarts the clock and the numbering of the frames: its files overwrite those of the first call, the gravity ramp and the loading phase of plates are repeated, and with `use_mibf` the friction coefficients of all particles are reset (C113, C23).
58. `postprocess/load_ply.py` fails when a single frame is to be plotted (`plt.subplots(1, 1)` returns no array), and computes the speed from `vx` and `vy` only, also for 3D runs (C114).
59. A rigidly rotating elastic body acquires tension: the deformation gradient is updated with `1 + dt C`, which for a rotation stretches the plane of rotation by `√(1 + (ω dt)²)` (C115).
60. The total energy of a closed system is not bounded by its initial value: a spinning elastic wheel without gravity and walls has more energy after a step, by a term of second order in the time step (C116).
61. `simulate` does not check that there are particles: without any, the time step is computed from the largest element of an empty list. Regular sampling of a box that is narrower than the particle spacing gives no particles, without a message (C132).
62. A simulation without periodic boundaries can not be restarted from its particles without a change of the result: the new nodes go through the lower corner of the current cloud, the old ones through that of the first one (`C131_open_false`).

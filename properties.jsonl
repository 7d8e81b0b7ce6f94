{"id": "C01", "title": "Grid mass equals particle mass after transfer", "statement": "After the particle-to-grid transfer the sum of all nodal masses equals (number of particles) x (mass per particle). The code skips nodes whose weight is at most 1e-25, so the exact statement is: the total never exceeds the particle mass, falls short of it by at most (nodes per stencil) x 1e-25 of the particle mass, and is exactly equal whenever no positive weight is below the cut-off.", "quantifier": "for every number of particles, every particle position inside the grid, grid spacing, 2D and 3D, quadratic and cubic splines", "why_tests_cant": "positions are real-valued and the particle number is unbounded; a test samples a handful of clouds", "anchors": ["src/simulation/p2g.cpp:P2G", "src/simulation/simulation.cpp:checkMassConservation", "src/tools.hpp:N"]}
{"id": "C02", "title": "Grid momentum equals particle momentum after transfer", "statement": "After the particle-to-grid transfer the sum over nodes of mass x velocity equals the sum over particles of mass x velocity, for PIC/FLIP as well as for the affine (APIC/AFLIP) transfer, for any affine matrices carried by the particles (no positive weight below the cut-off).", "quantifier": "for every particle cloud, velocity field, affine matrices, flip_ratio, dimension, quadratic and cubic splines", "why_tests_cant": "quantifies over all velocity fields and affine matrices", "anchors": ["src/simulation/p2g.cpp:P2G", "src/simulation/simulation.cpp:checkMomentumConservation"]}
{"id": "C03", "title": "Transfer result does not depend on threads or schedule", "statement": "The nodal mass, velocity, force and friction produced by the parallel particle-to-grid transfer are the same for every number of threads, every assignment of particles to threads, every processing order within a thread and every order in which threads enter the merging critical section (exact arithmetic).", "quantifier": "for every number of threads, every loop schedule, every interleaving of critical sections, every particle cloud", "why_tests_cant": "the set of schedules is exponential and chosen by the OpenMP runtime; a run exercises one", "anchors": ["src/simulation/p2g.cpp:P2G", "src/simulation/musl.cpp:MUSL"]}
{"id": "C04", "title": "One step changes total momentum only through gravity", "statement": "With no boundary object touching the material, one explicit step changes the total particle momentum by exactly dt x total mass x gravity, for PIC, FLIP, APIC and AFLIP blends, whatever the stresses are: internal forces cancel.", "quantifier": "for every particle cloud, stress state, velocity field, dt, gravity, flip_ratio; quadratic and cubic splines; weights in (0,1e-25], which the code drops, excluded", "why_tests_cant": "infinitely many stress and velocity states; a test checks a tolerance on one", "anchors": ["src/simulation/p2g.cpp:P2G", "src/simulation/explicit_euler_update.cpp:explicitEulerUpdate", "src/simulation/g2p.cpp:G2P", "src/simulation/position_update.cpp:positionUpdate"]}
{"id": "C05", "title": "Momentum balance over a whole run", "statement": "Over any number of steps with varying dt the total momentum equals the initial one plus total mass x sum of dt x gravity, as long as nothing touches a boundary and particles stay inside the grid; in particular without gravity it is an invariant of the run.", "quantifier": "for every initial state and every number of steps, every constitutive update of the stresses; quadratic and cubic splines; weights in (0,1e-25], which the code drops, excluded", "why_tests_cant": "induction over unboundedly many steps", "anchors": ["src/simulation/simulation.cpp:simulate", "src/simulation/simulation.cpp:advanceStep"]}
{"id": "C06", "title": "APIC conserves angular momentum in the transfers", "statement": "With the pure APIC setting (flip_ratio < -1) the total angular momentum (orbital plus the affine part stored in the particle matrices) is the same on the particles and on the grid after the particle-to-grid transfer, and is preserved again by the grid-to-particle transfer; symmetric stresses exert no net torque on the grid.", "quantifier": "for every particle cloud, velocity field, affine matrices and symmetric stresses; 2D; quadratic and cubic splines; whole steps: without periodic boundaries and change_particle_positions; weights in (0,1e-25], which the code drops, excluded", "why_tests_cant": "real-valued identity over all states", "anchors": ["src/simulation/p2g.cpp:P2G", "src/simulation/g2p.cpp:G2P", "src/simulation/simulation.cpp:simulate (apicDinverse)"]}
{"id": "C07", "title": "Rigid translation is reproduced exactly", "statement": "If all particles have the same velocity (and zero affine matrices, zero stress, no gravity, no boundaries), every massive node gets that velocity, every particle gets it back, the deformation gradient is unchanged and every particle is displaced by dt x velocity.", "quantifier": "for every cloud, velocity, dt, flip_ratio, grid position; quadratic and cubic splines; without periodic boundaries and change_particle_positions; weights in (0,1e-25], which the code drops, excluded", "why_tests_cant": "any velocity and any cloud; a test uses one", "anchors": ["src/simulation/p2g.cpp:P2G", "src/simulation/g2p.cpp:G2P", "src/simulation/position_update.cpp:positionUpdate"]}
{"id": "C08", "title": "Affine velocity fields are reproduced exactly", "statement": "If the nodal velocities are an affine function a + C x of position, then each particle receives velocity a + C x_p, velocity gradient exactly C, and (APIC/AFLIP) an affine matrix B with B x apicDinverse = C, so that the next particle-to-grid transfer reproduces the affine field.", "quantifier": "for every affine field, particle position, grid spacing; quadratic and cubic splines; 2D and 3D", "why_tests_cant": "all affine fields and positions", "anchors": ["src/simulation/g2p.cpp:G2P", "src/simulation/p2g.cpp:P2G", "src/simulation/simulation.cpp:simulate (apicDinverse)", "src/tools.hpp:N", "src/tools.hpp:dNdu"]}
{"id": "C09", "title": "Interpolated velocities respect the grid's bounds", "statement": "Each component of the velocity interpolated to a particle lies between the smallest and the largest value of that component on the nodes of its stencil; each nodal velocity after a PIC/FLIP transfer lies between the extremes of the contributing particle velocities.", "quantifier": "for every nodal velocity field and particle position", "why_tests_cant": "universal statement over real data", "anchors": ["src/simulation/g2p.cpp:G2P", "src/simulation/p2g.cpp:P2G"]}
{"id": "C10", "title": "PIC transfers never create kinetic energy", "statement": "With flip_ratio >= 0 the kinetic energy on the grid after particle-to-grid transfer is at most the particle kinetic energy, and the kinetic energy of the interpolated (PIC) particle velocities is at most that of the grid.", "quantifier": "for every cloud and velocity field (second part: weights in (0,1e-25], which the code drops, excluded)", "why_tests_cant": "an inequality over all real data", "anchors": ["src/simulation/p2g.cpp:P2G", "src/simulation/g2p.cpp:G2P"]}
{"id": "C11", "title": "Interpolation weights form a partition of unity", "statement": "For any particle position the four one-dimensional weights used by the code are non-negative, sum to one, have zero first moment about the particle, and the derivative weights sum to zero and differentiate linear functions exactly; all nodes outside the visited stencil would have weight zero.", "quantifier": "for every real particle position relative to the grid; quadratic and cubic splines", "why_tests_cant": "continuum of positions with piecewise cases at every breakpoint", "anchors": ["src/tools.hpp:N", "src/tools.hpp:dNdu", "src/simulation/p2g.cpp:P2G"]}
{"id": "C12", "title": "The gradient function is the derivative of the weight function", "statement": "The function used for weight gradients is the exact derivative of the weight function everywhere (quadratic and cubic), and the second-derivative function is the derivative of the gradient function away from its breakpoints; weight and gradient are continuous.", "quantifier": "for every real argument", "why_tests_cant": "breakpoints have measure zero, finite-difference tests miss them", "anchors": ["src/tools.hpp:N", "src/tools.hpp:dNdu", "src/tools.hpp:d2Ndu2"]}
{"id": "C13", "title": "No out-of-range grid access in the first step", "statement": "After the initial grid construction (safety factor 2) every particle's 4-node stencil in every direction lies inside the constructed grid, whatever the particle cloud and the optional grid reference point: no index is negative or past the end.", "quantifier": "for every non-empty particle cloud, dx > 0, reference point", "why_tests_cant": "depends on floor/ceil of arbitrary reals", "anchors": ["src/simulation/remesh.cpp:remeshFixedInit", "src/simulation/p2g.cpp:P2G", "src/simulation/g2p.cpp:G2P", "src/tools.hpp:arange"]}
{"id": "C14", "title": "No out-of-range grid access in later steps", "statement": "After every later re-meshing each particle's stencil lies inside the grid. This is false for the code: if a bounding particle has moved outward by k cells plus less than 1e-8*dx (k >= 1) the grid is one cell too short; it is true for every cloud outside that window.", "quantifier": "for every particle cloud at any later step, dx > 0", "why_tests_cant": "the failing window has width 1e-8*dx; random tests never hit it", "anchors": ["src/simulation/remesh.cpp:remeshFixedCont", "src/simulation/p2g.cpp:P2G", "src/simulation/g2p.cpp:G2P"]}
{"id": "C15", "title": "Re-meshing keeps the grid on one lattice", "statement": "All grids built during a run consist of nodes of one fixed lattice (first grid's origin plus integer multiples of dx), uniformly spaced by dx, strictly increasing; in a re-meshed grid every particle is at least dx - 1e-8 dx^2 away from the grid border.", "quantifier": "for every sequence of particle clouds", "why_tests_cant": "all histories of particle motion", "anchors": ["src/simulation/remesh.cpp:remeshFixedInit", "src/simulation/remesh.cpp:remeshFixedCont", "src/tools.hpp:arange"]}
{"id": "C16", "title": "Node numbering is one-to-one and matches the saved order", "statement": "The flat index of grid nodes is a bijection from index tuples to 0..(number of nodes - 1), as long as the number of nodes fits in 32 bits; the positions written in a saved grid file are listed in exactly that order, so row r of the file holds position, velocity and mass of one and the same node.", "quantifier": "for every grid size", "why_tests_cant": "all grid sizes, including ones whose node count overflows unsigned int", "anchors": ["src/simulation/simulation.hpp:ind", "src/simulation/save_data.cpp:saveGridData"]}
{"id": "C17", "title": "Time step size bounds", "statement": "The chosen time step is never below min_dt; if it exceeds min_dt it is at most the elastic limit cfl_elastic*dx/wave_speed, at most the advection limit cfl*dx/v for every particle speed v > 1e-10, and reaches neither past the end of the current frame nor past the final time.", "quantifier": "for every particle velocity set and time", "why_tests_cant": "all real states", "anchors": ["src/simulation/update_dt.cpp:updateDt"]}
{"id": "C18", "title": "Frames are output at their nominal time", "statement": "If the frame interval is at least 1.1*min_dt, every frame n is written at a simulated time t with n/fps - 1.1*min_dt < t <= n/fps, the time never passes the end of the current frame, and time is strictly increasing with increments >= min_dt.", "quantifier": "for every evolution of particle velocities, every fps, min_dt, end_frame", "why_tests_cant": "every possible sequence of dt choices", "anchors": ["src/simulation/simulation.cpp:simulate", "src/simulation/update_dt.cpp:updateDt"]}
{"id": "C19", "title": "Exactly the requested frames are written, in order", "statement": "If no error occurs and saving is enabled, a run writes the particle files for frames 0,1,...,end_frame in this order, each frame exactly once except the last, which is written twice with identical content; grid files (if enabled) for 1..end_frame; then the timing file.", "quantifier": "for every evolution and every end_frame", "why_tests_cant": "unbounded number of frames and step patterns", "anchors": ["src/simulation/simulation.cpp:simulate", "src/simulation/save_data.cpp:saveParticleData"]}
{"id": "C20", "title": "The simulation loop terminates", "statement": "The main loop performs at most n steps, for any n >= 1 with n*min_dt >= final_time, for every possible behaviour of the physics, provided min_dt > 0.", "quantifier": "for every evolution of the particle state", "why_tests_cant": "termination is not observable by testing", "anchors": ["src/simulation/simulation.cpp:simulate", "src/simulation/update_dt.cpp:updateDt"]}
{"id": "C21", "title": "A fatal error stops the run without further output", "statement": "If any step raises the error flag, the loop returns at the end of that step: no later step is executed, and nothing (particle, grid or timing file) is written after the failing step; the frames written before are unaffected.", "quantifier": "for every step at which the error occurs", "why_tests_cant": "all error points", "anchors": ["src/simulation/simulation.cpp:simulate"]}
{"id": "C22", "title": "Invalid set-ups are refused without side effects", "statement": "simulate() does nothing (no output, no state change of particles) when the simulation was not initialized, when a plastic model is combined with non-Hencky elasticity, or when initialization failed to copy the set-up file or to create its output directory.", "quantifier": "for every configuration", "why_tests_cant": "all flag combinations", "anchors": ["src/simulation/simulation.cpp:simulate", "src/simulation/simulation.cpp:initialize", "src/simulation/simulation.cpp:createDirectory"]}
{"id": "C23", "title": "Gravity ramp", "statement": "With gravity_special, the effective gravity at time t is (t/gravity_time) x final gravity for t < gravity_time and the final gravity afterwards; it stays between zero and the final value and is non-decreasing in magnitude.", "quantifier": "for all times and gravity vectors", "why_tests_cant": "real-valued", "anchors": ["src/simulation/update_dt.cpp:updateDt"]}
{"id": "C24", "title": "Periodic ghosts leave no trace", "statement": "Adding periodic ghost particles and deleting them again leaves positions, velocities, deformation gradients, affine matrices, stresses and the particle count exactly as before, for every order in which threads append ghosts.", "quantifier": "for every particle cloud, safety factor and append order", "why_tests_cant": "all schedules", "anchors": ["src/simulation/pbc.cpp:PBCAddParticles", "src/simulation/pbc.cpp:PBCDelParticles"]}
{"id": "C25", "title": "Periodic transfer is periodic", "statement": "If the period is a whole number n of cells, all particles lie in [0,Lx) and Lx is at least 8 cells, then with the ghost particles the nodal mass and velocity at two nodes one period apart are identical, for every pair of such nodes whose supports the ghosts must cover; a particle exactly at Lx breaks this (it gets no ghost at 0).", "quantifier": "for every cloud, period, stress and velocity field; without use_mibf (not available with periodic boundaries); the other coordinates of the particles inside the domain; nodes within two cells of the boundary", "why_tests_cant": "continuum of positions; exact-boundary cases", "anchors": ["src/simulation/pbc.cpp:PBCAddParticles", "src/simulation/p2g.cpp:P2G", "src/simulation/remesh.cpp:remeshFixed"]}
{"id": "C26", "title": "Periodic wrapping keeps particles in the domain", "statement": "With periodic boundaries, a particle in [0,Lx] that moves less than one period in a step stays in [0,Lx] and its new coordinate differs from the unwrapped one by 0 or one period.", "quantifier": "for every position, velocity, dt with |dt*v| <= Lx", "why_tests_cant": "all real inputs", "anchors": ["src/simulation/position_update.cpp:positionUpdate"]}
{"id": "C27", "title": "No-slip walls impose their velocity", "statement": "A node whose predicted position lies inside a no-slip plate (and in no later plate) leaves the boundary treatment with exactly the plate's velocity; inside a no-slip object (and in no later object and no plate) with zero velocity.", "quantifier": "for every node position, velocity, plate list", "why_tests_cant": "all configurations", "anchors": ["src/simulation/boundary_collision.cpp:boundaryCollision"]}
{"id": "C28", "title": "Walls are not penetrated", "statement": "After contact with a slip-stick plate the velocity normal to the plate equals the plate's normal velocity; after contact with a slip-free plate or object (unit normal) the relative normal velocity never points into the wall, and separation velocities are left unchanged (C31_untouched2, C31_untouched3). Several plates may be hit at once (corners) if they have the same velocity; an object must be the only wall hit.", "quantifier": "for every velocity, plate type, friction >= 0, unit normal", "why_tests_cant": "all real inputs", "anchors": ["src/simulation/boundary_collision.cpp:boundaryCollision", "src/objects/object_plate.hpp:ObjectPlate"]}
{"id": "C29", "title": "Coulomb friction at walls", "statement": "When material hits a frictional wall, the tangential relative velocity keeps its direction and its magnitude is reduced to max(0, |v_t| - friction*|v_n|). True for 2D plates and for all general objects; for 3D plates it is false: direction changes and the reduction is too small.", "quantifier": "for every velocity and friction >= 0", "why_tests_cant": "real-valued inputs; axis-aligned tests (one tangential component zero) do not reveal the 3D defect", "anchors": ["src/simulation/boundary_collision.cpp:boundaryCollision"]}
{"id": "C30", "title": "Walls never add kinetic energy", "statement": "In the frame of the wall the speed after contact is never larger than before, for every boundary type, plate or object, in 2D and 3D; a list of resting walls never increases a node's speed.", "quantifier": "for every velocity, list of walls, friction >= 0", "why_tests_cant": "all lists and inputs", "anchors": ["src/simulation/boundary_collision.cpp:boundaryCollision"]}
{"id": "C31", "title": "Untouched nodes are unaffected by walls", "statement": "A node whose predicted position is inside no object and no plate keeps its velocity; so does a node that is inside slip-free walls only and moves away from all of them.", "quantifier": "for every list of walls", "why_tests_cant": "all configurations", "anchors": ["src/simulation/boundary_collision.cpp:boundaryCollision"]}
{"id": "C32", "title": "Plate motion is the integral of its velocity", "statement": "After any number of steps a plate's position has moved by the sum over steps of dt x (prescribed velocity x load factor at that step), its extent (upper minus lower end) is unchanged, and its velocity equals the original velocity, divided by vmin_factor exactly while time < load_factor*frame interval. In the very first step the wall velocity seen by the material is the unscaled one.", "quantifier": "for every sequence of time steps", "why_tests_cant": "induction over steps", "anchors": ["src/objects/object_plate.hpp:move", "src/simulation/simulation.cpp:moveObjects", "src/simulation/simulation.cpp:advanceStep"]}
{"id": "C33", "title": "Object normals are unit and perpendicular to the surface", "statement": "For each analytic terrain object the returned normal has length one, is orthogonal to the surface tangent at that abscissa, and points out of the region reported as inside.", "quantifier": "for every point", "why_tests_cant": "continuum of points", "anchors": ["src/objects/object_bump.hpp", "src/objects/object_curve.hpp", "src/objects/object_gate.hpp", "src/objects/object_ground.hpp", "src/objects/object_ramp.hpp", "src/objects/object_silo.hpp"]}
{"id": "C34", "title": "Von Mises: stress stays admissible", "statement": "After the plastic update with the VM model the saved shear stress q is at most q_max, the volumetric part (pressure and determinant) is unchanged, elastic states are left untouched, and the accumulated plastic strain does not decrease.", "quantifier": "for every trial deformation, material parameters; Hencky elasticity, positive bulk and shear modulus and q_prefac, q_max >= 0; the determinant for principal stretches of at least 1e-4 (the clamp of the code)", "why_tests_cant": "all deformation gradients", "anchors": ["src/simulation/plasticity.cpp:plasticity (VM)"]}
{"id": "C35", "title": "Drucker-Prager: stress stays admissible", "statement": "After the DP update the stress satisfies q <= M p + q_cohesion and p >= -q_cohesion/M; states beyond the tip are mapped to the tip with zero shear; states left of the cone in the shear direction keep their pressure; elastic states untouched; accumulated plastic strains change by the removed strain.", "quantifier": "for every trial deformation, M > 0, cohesion >= 0; Hencky elasticity, positive bulk and shear modulus and q_prefac; the tip region is M p + q_cohesion < 1e-10 as in the code", "why_tests_cant": "all deformation gradients", "anchors": ["src/simulation/plasticity.cpp:plasticity (DP)"]}
{"id": "C36", "title": "Softening Drucker-Prager: stress stays admissible", "statement": "After the DPSoft update the stress lies on or inside the (shifted) cone with the softened tip pressure used by the update, plastic shear strain never decreases, and the softened cohesion never increases and never becomes negative.", "quantifier": "for every trial state and history variables; Hencky elasticity, positive bulk and shear modulus and q_prefac, M > 0, cohesion >= 0, xi >= 0", "why_tests_cant": "all states", "anchors": ["src/simulation/plasticity.cpp:plasticity (DPSoft)"]}
{"id": "C37", "title": "Viscoplastic von Mises solves its flow equation", "statement": "For exponent 1 (no softening) the VMVisc update satisfies the Perzyna respectively Duvaut-Lions equation exactly, the new q lies between the yield stress and the trial q, it tends monotonically to the rate-independent result as visc_time decreases, and zero viscosity gives exactly q = q_max.", "quantifier": "for every trial state, dt > 0, visc_time >= 0; Hencky elasticity, positive bulk and shear modulus and q_prefac, q_max >= 0; pressure not below p_min", "why_tests_cant": "all parameters", "anchors": ["src/simulation/plasticity.cpp:plasticity (VMVisc)"]}
{"id": "C38", "title": "Viscoplastic Drucker-Prager: admissible and consistent", "statement": "The DPVisc update returns tip states to the tip, otherwise (exponent 1) solves its flow equation with q between yield and trial value, keeping pressure. False in one case: a trial pressure exactly at the tip with non-zero shear is treated as elastic although it violates the yield condition.", "quantifier": "for every trial state; Hencky elasticity, positive bulk and shear modulus and q_prefac, M > 0, cohesion >= 0, visc_time >= 0, dt > 0", "why_tests_cant": "the failing case is a measure-zero set (e.g. pure shear of a cohesionless material)", "anchors": ["src/simulation/plasticity.cpp:plasticity (DPVisc)"]}
{"id": "C39", "title": "mu(I) Drucker-Prager update", "statement": "For a plastic state right of the tip the DPMui update finds the unique positive strain rate solving its quadratic, mu(I) lies strictly between mu_1 and mu_2, viscosity is positive, and without cohesion and volume correction the new stress satisfies q = mu(I) p.", "quantifier": "for every trial state; Hencky elasticity, positive bulk and shear modulus and q_prefac, 0 < mu_1 < mu_2, fac_Q > 0, cohesion and stress_tolerance >= 0, dt > 0", "why_tests_cant": "all real parameters", "anchors": ["src/simulation/plasticity.cpp:plasticity (DPMui)"]}
{"id": "C40", "title": "Cam-Clay return mappings always land on the yield ellipse", "statement": "Whenever a Cam-Clay return mapping reports that it changed the stress, the returned (p,q) satisfies q >= 0, p in [-beta*p_c, p_c] and the ellipse equation exactly for the preconsolidation pressure of its last iteration, even if the Newton iteration did not converge; otherwise the stress is returned unchanged.", "quantifier": "for every trial state, whatever the Newton iterates are; that the result is defined: without use_mibf or with hardening", "why_tests_cant": "Newton iterates can be arbitrary", "anchors": ["src/plasticity_helpers/mcc_rma_explicit.hpp", "src/plasticity_helpers/mcc_rma_explicit_onevar.hpp", "src/plasticity_helpers/mcc_rma_implicit_exponential.hpp", "src/plasticity_helpers/mcc_rma_implicit_exponential_onevar.hpp", "src/plasticity_helpers/mcc_rma_implicit_sinh_onevar.hpp"]}
{"id": "C41", "title": "Implicit Cam-Clay hardening is consistent", "statement": "For the implicit hardening laws the preconsolidation pressure of the ellipse on which the stress ends equals the hardening law evaluated at the new plastic volumetric strain, as long as the final pressure was not clipped.", "quantifier": "for every trial state", "why_tests_cant": "all iterates", "anchors": ["src/plasticity_helpers/mcc_rma_implicit_exponential_onevar.hpp", "src/plasticity_helpers/mcc_rma_implicit_sinh_onevar.hpp", "src/simulation/plasticity.cpp:plasticity (MCC)"]}
{"id": "C42", "title": "Stored stress is the elastic stress of the stored deformation", "statement": "After every plastic update with Hencky elasticity, for every plastic model and every branch except the capped branch of VMVisc, the stored Kirchhoff stress equals the Hencky stress of the stored elastic deformation gradient (singular values not below the 1e-4 clip). In the capped branch of VMVisc it does not: the deformation is reset but the stress is computed from the trial strain. With neo-Hookean elasticity (which runs without plasticity only) the stress in every file of a run is the neo-Hookean stress of the deformation in the same file, defined exactly if the determinant is positive.", "quantifier": "for every plastic model, trial state with singular values >= 1e-4", "why_tests_cant": "all branches and states", "anchors": ["src/simulation/plasticity.cpp:plasticity"]}
{"id": "C43", "title": "Saved p and q are the invariants used by the yield conditions", "statement": "The pressure and shear stress written to particle files equal -K tr(strain) and e_mu*|dev(strain)| of the elastic Hencky strain, i.e. exactly the quantities for which the plastic update enforces the yield condition, in 2D and 3D.", "quantifier": "for every particle state", "why_tests_cant": "all states; couples two modules", "anchors": ["src/simulation/save_data.cpp:saveParticleData", "src/simulation/plasticity.cpp:plasticity", "src/simulation/simulation.cpp:calculateBulkModulus"]}
{"id": "C44", "title": "Stress is symmetric and objective", "statement": "The stored Kirchhoff stress is symmetric, and rotating the deformation rotates the stress; the undeformed state is stress free.", "quantifier": "for every deformation gradient, rotation", "why_tests_cant": "all rotations", "anchors": ["src/simulation/plasticity.cpp:plasticity", "src/simulation/simulation.hpp:NeoHookeanPiola", "src/simulation/simulation.hpp:HenckyPiola"]}
{"id": "C45", "title": "Regular sampling fills the box with the right mass", "statement": "Regular sampling produces nx*ny(*nz) distinct points, all inside the box, equally spaced; the recorded volume and mass per particle are consistent with rho, and total mass never exceeds rho x box volume up to the recorded particle volume definition.", "quantifier": "for every box size, spacing", "why_tests_cant": "all real parameters", "anchors": ["src/sampling/regular_sampling_particles.hpp"]}
{"id": "C46", "title": "Random sampling conserves total mass", "statement": "With uncropped random sampling the total mass of the particles equals rho x box volume exactly for any number of sampled points, and dx is chosen such that the prescribed number of particles per cell results; every returned particle satisfies the crop condition.", "quantifier": "for every sample returned by the sampler", "why_tests_cant": "any sampler output", "anchors": ["src/sampling/sampling_particles.hpp"]}
{"id": "C47", "title": "Velocity update blends as documented", "statement": "flip_ratio = 0 gives the PIC velocity, 1 the FLIP velocity, values in (0,1) the convex combination, values in [-1,0) the AFLIP blend with weight -flip_ratio, values below -1 pure APIC; positions always move with the PIC velocity.", "quantifier": "for every flip_ratio and state", "why_tests_cant": "real parameter", "anchors": ["src/simulation/position_update.cpp:positionUpdate", "src/simulation/musl.cpp:MUSL"]}
{"id": "C48", "title": "MUSL re-projection conserves momentum", "statement": "In MUSL mode (no periodic boundaries) the re-projected grid velocities have total momentum equal to the updated particle momentum, and equal the plain transfer of the updated particles.", "quantifier": "for every state; weights in (0,1e-25], which the code drops, excluded", "why_tests_cant": "all states", "anchors": ["src/simulation/musl.cpp:MUSL"]}
{"id": "C49", "title": "Volume averages", "statement": "The averaged Cauchy and Kirchhoff stresses of a homogeneous particle state equal the common values (given positive determinant), and the average volume ratio lies between the extremes.", "quantifier": "for every number of particles", "why_tests_cant": "unbounded", "anchors": ["src/simulation/save_data.cpp:computeAvgData"]}
{"id": "C50", "title": "Material-induced boundary friction is an average", "statement": "With use_mibf the friction used at a node with mass is a weighted average of the friction values of contributing particles: it lies between their minimum and maximum, and the coefficients of the walls do not matter; without use_mibf only the coefficients of the walls do.", "quantifier": "for every cloud", "why_tests_cant": "all clouds", "anchors": ["src/simulation/p2g.cpp:P2G", "src/simulation/boundary_collision.cpp:boundaryCollision"]}
{"id": "C51", "title": "Newton loops never fail silently", "statement": "When a viscoplastic Newton loop finishes without raising the error flag, the returned increment is non-negative and the flow equation holds within 1e-2 in stress units.", "quantifier": "for every trial state and iteration history", "why_tests_cant": "arbitrary iterates", "anchors": ["src/simulation/plasticity.cpp:plasticity (VMVisc, DPVisc, MCCVisc)"]}
{"id": "C52", "title": "Limited search terminates", "statement": "The search for an admissible Newton step in the implicit Cam-Clay mappings ends after at most 64 tries and returns a step that satisfies its admissibility test, or the interval midpoint marker, or reports failure.", "quantifier": "for every input", "why_tests_cant": "arbitrary real inputs", "anchors": ["src/plasticity_helpers/limited_search_exponential.hpp", "src/plasticity_helpers/limited_search_sinh.hpp"]}
{"id": "C53", "title": "Linear hat functions are not a consistent choice", "statement": "With SPLINEDEG 1 the weights still sum to one, but the gradient weights do not sum to zero when a particle sits exactly on a grid line, so that a uniform velocity field deforms the particle; away from grid lines they do sum to zero.", "quantifier": "for every position", "why_tests_cant": "exact grid-line hits", "anchors": ["src/tools.hpp:N", "src/tools.hpp:dNdu", "src/simulation/g2p.cpp:G2P"]}
{"id": "C54", "title": "Nodal values are the textbook weighted sums", "statement": "After the particle-to-grid transfer every grid node holds mass = sum of weight*m, velocity = mass-weighted mean of the (affine) particle velocities and internal force = sum of stress*gradient of weight, with the weights of the tensor-product B-spline centred at that node, over all particles of the cloud (weights <= 1e-25 dropped).", "quantifier": "for every node, cloud, grid spacing, spline degree, number of threads", "why_tests_cant": "unboundedly many particles, nodes and schedules", "anchors": ["src/simulation/p2g.cpp:P2G"]}
{"id": "C55", "title": "Particle values are the textbook sums over all grid nodes", "statement": "After the grid-to-particle transfer every particle holds PIC velocity, FLIP increment, affine matrix and velocity gradient equal to the sums over all grid nodes of nodal velocity times spline weight (respectively gradient), and its trial deformation gradient is (I + dt grad v) F.", "quantifier": "for every particle and grid velocity field", "why_tests_cant": "all real velocity fields and positions", "anchors": ["src/simulation/g2p.cpp:G2P", "src/simulation/deformation_update.cpp:deformationUpdate"]}
{"id": "C56", "title": "Yield conditions hold in every saved file", "statement": "In every particle file a run writes, except the one of the initial state, each particle's saved shear stress is at most the yield stress (von Mises), respectively below the yield line with the pressure not below the tip (Drucker-Prager); for every plastic model except the viscous von Mises one the saved stress is symmetric and is the elastic stress of the saved deformation gradient unless that has a singular value below 1e-4.", "quantifier": "for every run, initial state, number of steps, boundary set-up, thread schedule", "why_tests_cant": "unboundedly many steps and files", "anchors": ["src/simulation/simulation.cpp:simulate", "src/simulation/simulation.cpp:advanceStep", "src/simulation/plasticity.cpp:plasticity", "src/simulation/save_data.cpp:saveParticleData"]}
{"id": "C57", "title": "Momentum of a whole free run", "statement": "Without walls and periodic boundaries the momentum of the particles in every file of a run is the initial momentum plus total mass x gravity x time; with the gravity ramp the factor is some value between zero and that time. No particle is lost or created.", "quantifier": "for every run length, cloud, adaptive time step, flip ratio, USL and MUSL, thread schedule (weights in (0,1e-25] excluded); quadratic and cubic splines", "why_tests_cant": "errors would accumulate over unboundedly many steps", "anchors": ["src/simulation/simulation.cpp:simulate", "src/simulation/simulation.cpp:advanceStep"]}
{"id": "C58", "title": "A run leaves the grid only through the remeshing window", "statement": "A fresh simulation without periodic boundaries and with at least one particle never accesses memory outside of the grid (and has no undefined conversion or 0/0) unless, at the start of some later step, an outermost particle has moved by a whole number of cells plus at most 1e-8 cells with respect to the initial domain.", "quantifier": "for every run, cloud, velocity, boundary set-up", "why_tests_cant": "needs all reachable states", "anchors": ["src/simulation/simulation.cpp:simulate", "src/simulation/remesh.cpp:remeshFixedCont", "src/simulation/p2g.cpp:P2G", "src/simulation/g2p.cpp:G2P"]}
{"id": "C59", "title": "Files of a run are comparable line by line", "statement": "All particle files of a run hold the same number of particles in order of time, and line k of every file belongs to the same particle: its accumulated plastic shear strain never decreases from an earlier to a later file (for the rate independent models).", "quantifier": "for every run and pair of files", "why_tests_cant": "unboundedly many files", "anchors": ["src/simulation/simulation.cpp:simulate", "src/simulation/save_data.cpp:saveParticleData", "src/simulation/plasticity.cpp:plasticity"]}
{"id": "C60", "title": "A free body falls like a point mass for a whole run", "statement": "A stress-free body with uniform velocity, without walls and periodic boundaries, keeps its shape for the whole run: in every particle file each deformation gradient is the initial one, the stress is zero, and all particles share the velocity c + g t and the displacement c t + u g with u between t^2/2 and t^2/2 + t*dt_max/2 (with the gravity ramp: 0 <= velocity increment <= g t).", "quantifier": "for every run length, cloud, initial velocity, gravity, adaptive time step, flip ratio, USL and MUSL, thread schedule (weights in (0,1e-25] excluded); quadratic and cubic splines, without change_particle_positions", "why_tests_cant": "errors would accumulate over unboundedly many steps", "anchors": ["src/simulation/simulation.cpp:simulate", "src/simulation/simulation.cpp:advanceStep", "src/simulation/plasticity.cpp:plasticity"]}
{"id": "C61", "title": "Runs complete", "statement": "A fresh run with a sensible time configuration and a total plastic model ends normally and has then written exactly the files of the frames 0..end_frame in order, unless the remeshing window is hit; in particular a stress-free body at rest without gravity always completes and all its files show the initial state.", "quantifier": "for every run length, cloud, boundary set-up, thread schedule; without periodic boundaries; the body at rest: quadratic and cubic splines, without change_particle_positions, no walls", "why_tests_cant": "termination and absence of undefined behaviour over all executions", "anchors": ["src/simulation/simulation.cpp:simulate", "src/simulation/save_data.cpp:saveParticleData", "src/simulation/remesh.cpp:remeshFixedCont"]}
{"id": "C62", "title": "Threads and particle order do not matter for a whole run", "statement": "A whole run writes the same files and ends in the same way however the particles are distributed to threads in any of its steps; and if the initial particles are listed in another order, every particle file of the run lists the same particles in that other order and nothing else changes.", "quantifier": "for every run, schedule of every step, permutation of the particles, boundary set-up, model (exact arithmetic)", "why_tests_cant": "all schedules and permutations over unboundedly many steps", "anchors": ["src/simulation/simulation.cpp:simulate", "src/simulation/p2g.cpp:P2G", "src/simulation/g2p.cpp:G2P", "src/simulation/musl.cpp:MUSL", "src/simulation/remesh.cpp:remeshFixedInit"]}
{"id": "C63", "title": "The origin of the coordinates does not matter for a whole run", "statement": "If the initial particles, all plates (position and ends), objects and the grid reference point are moved by the same constant vector, then the run ends in the same way and every file it writes shows the same particles moved by that vector, all other particle data being unchanged.", "quantifier": "for every run, translation vector, plate and object set-up, plastic model, 2D and 3D, without periodic boundaries and without the hard-coded re-insertion (exact arithmetic)", "why_tests_cant": "all translations over unboundedly many steps", "anchors": ["src/simulation/simulation.cpp:simulate", "src/simulation/remesh.cpp:remeshFixedInit", "src/simulation/remesh.cpp:remeshFixedCont", "src/simulation/boundary_collision.cpp:boundaryCollision", "src/objects/object_plate.hpp:move"]}
{"id": "C64", "title": "The saved plastic rate is the rate of the saved plastic strain", "statement": "In every particle file of a run but that of the initial state, the saved plastic shear rate of a particle (delta_gamma) is the change of its saved accumulated plastic shear strain during the last step divided by the length of that step, times the constant relating the two measures; in particular it is zero for a particle that did not flow in that step.", "quantifier": "for every run, particle, plastic model, USL and MUSL", "why_tests_cant": "unboundedly many steps; alternation of plastic and elastic steps", "anchors": ["src/simulation/plasticity.cpp:plasticity", "src/simulation/deformation_update.cpp:deformationUpdate", "src/simulation/g2p.cpp:G2P", "src/simulation/save_data.cpp:saveParticleData"]}
{"id": "C65", "title": "Plastic strains account exactly for the elastic strain removed", "statement": "A plastic update keeps the principal directions of the deformation gradient; the change of the saved volumetric plastic strain is exactly the logarithmic volume it takes out of the deformation gradient, and it scales the deviatoric logarithmic strain by a factor such that the magnitude removed is exactly the change of the saved deviatoric plastic strain (MCCMui: up to the stress tolerance). Over a step, logarithmic volume plus volumetric plastic strain changes only by log|det(1 + dt grad v)|.", "quantifier": "for every plastic model, hardening law, state and time step (singular values of the trial deformation gradient at least 1e-4); the last part: quadratic and cubic splines, without periodic boundaries and change_particle_positions", "why_tests_cant": "all real matrices and all branches", "anchors": ["src/simulation/plasticity.cpp:plasticity", "src/simulation/deformation_update.cpp:deformationUpdate", "src/simulation/g2p.cpp:G2P"]}
{"id": "C66", "title": "Plastic flow does not create elastic energy", "statement": "For the von Mises and Drucker-Prager families (VM, DP, DPSoft, VMVisc, DPVisc, DPMui) the Hencky energy of the deformation gradient after the plastic update is at most that before it. With cohesion this excludes the volume correction, for DP trial pressures within 1e-10/M above the tip, and for DPMui tensile states right of the tip; where the Newton iteration is used, it must not raise the error flag and the yield stress must be at least 1e-2, its tolerance.", "quantifier": "for every state, time step and material of these models", "why_tests_cant": "all real states and parameters", "anchors": ["src/simulation/plasticity.cpp:plasticity"]}
{"id": "C67", "title": "Momentum and free fall in periodic domains", "statement": "With periodic boundaries and no walls, every step changes the total momentum of the particles by exactly dt times total mass times gravity, whatever the stresses, and the momentum in the files of a whole run is the initial one plus that of gravity acting for the elapsed time; a stress-free body moving with a uniform velocity keeps moving uniformly under gravity and is not deformed, wherever the seam of the domain cuts it.", "quantifier": "for every cloud of particles inside the domain, velocity, stress, flip_ratio, USL and MUSL, material, period of a whole number of at least 8 cells, number of steps; quadratic and cubic splines, without change_particle_positions; without use_mibf (not available with periodic boundaries)", "why_tests_cant": "all particle configurations relative to the seam, unboundedly many steps", "anchors": ["src/simulation/pbc.cpp:PBCAddParticles", "src/simulation/p2g.cpp:P2G", "src/simulation/g2p.cpp:G2P", "src/simulation/musl.cpp:MUSL", "src/simulation/remesh.cpp:remeshFixed"]}
{"id": "C68", "title": "Periodic runs are memory-safe exactly while the particles are inside the grid", "statement": "A fresh simulation with periodic boundaries accesses memory outside of the grid only if at the beginning of some step a particle is outside of the region covered by the fixed grid (below the domain, or more than four cells outside elsewhere); conversely a particle below the domain makes the next step do so. As long as the particles stay in that region, the run ends normally and writes the files of all frames at their nominal times.", "quantifier": "for every run, particle configuration, boundary set-up; completion for the models that never raise the error flag", "why_tests_cant": "unboundedly many steps and all configurations", "anchors": ["src/simulation/pbc.cpp:PBCAddParticles", "src/simulation/remesh.cpp:remeshFixed", "src/simulation/simulation.cpp:simulate", "src/simulation/p2g.cpp:P2G", "src/simulation/g2p.cpp:G2P"]}
{"id": "C69", "title": "Walls change the momentum only by what they take from the nodes", "statement": "Without periodic boundaries, a step changes the total momentum of the particles by dt times total mass times gravity plus the sum over the grid nodes of the node mass times the velocity change made by the plates and objects there. Hence for a whole run: frictionless walls standing beside an axis leave the momentum along that axis what gravity alone makes it, and walls standing on one side only (a floor, a back wall) can only push away from them: the momentum in every file is at least what gravity alone gives.", "quantifier": "for every run, particle cloud, stress, plastic model, plates and objects (SlipFree/SlipStick beside the axis need zero friction coefficient), USL and MUSL, without material-induced friction for the runs (weights in (0,1e-25] excluded); quadratic and cubic splines", "why_tests_cant": "unboundedly many steps and all wall set-ups", "anchors": ["src/simulation/boundary_collision.cpp:boundaryCollision", "src/simulation/explicit_euler_update.cpp:explicitEulerUpdate", "src/simulation/simulation.cpp:simulate", "src/simulation/g2p.cpp:G2P", "src/simulation/musl.cpp:MUSL"]}
{"id": "C70", "title": "Walls hold the material back, up to part of a cell", "statement": "A plate that does not move keeps the material on its open side, whatever its boundary condition (NoSlip, SlipStick, SlipFree) and friction: if in the initial configuration no particle is more than half a cell (quadratic splines; one cell for cubic, none for linear) behind a row of grid nodes that lies on or behind the plate, then no particle is in any file. The half cell is needed: a particle just above a floor on which a row of nodes lies can be below it after one step.", "quantifier": "for every run without periodic boundaries, material-induced friction and change_particle_positions; every plate type, material, gravity, flip_ratio, USL and MUSL, number of steps; other plates may move along their surface; as long as no node with mass would pass the ends of the plate in one step", "why_tests_cant": "unboundedly many steps and all configurations", "anchors": ["src/simulation/boundary_collision.cpp:boundaryCollision", "src/objects/object_plate.hpp:inside", "src/simulation/explicit_euler_update.cpp:explicitEulerUpdate", "src/simulation/g2p.cpp:G2P", "src/simulation/position_update.cpp:positionUpdate", "src/simulation/remesh.cpp:remeshFixedInit"]}
{"id": "C71", "title": "Saved stresses obey the yield condition, for the models with memory", "statement": "In every particle file but that of the initial state: viscous Drucker-Prager material (exponent 1) has no tension beyond the tip, and its shear stress is at most the yield stress at its pressure or exceeds the yield stress (at the pressure shifted by the volume correction) by exactly the viscous overstress of the saved shear rate; mu(I) material has a saved friction coefficient between mu_1 and mu_2 and a shear stress not above it times pressure plus cohesion plus the stress tolerance; softening Drucker-Prager, Cam clay and viscous von Mises obey their yield conditions with the hardening variables in the file. For the viscous and the mu(I) model this fails for states exactly at the tip: a cohesionless particle sheared at constant volume keeps any shear stress while its yield stress is zero.", "quantifier": "for every run, material of the model, particle configuration, boundary set-up, USL and MUSL", "why_tests_cant": "unboundedly many steps and all states", "anchors": ["src/simulation/plasticity.cpp:plasticity", "src/simulation/simulation.cpp:simulate", "src/simulation/save_data.cpp:saveParticleData", "src/simulation/deformation_update.cpp:deformationUpdate"]}
{"id": "C72", "title": "The centre of mass moves like a point mass", "statement": "Every step without periodic boundaries moves the centre of mass of the particles by dt times the new total momentum over the total mass. Hence in every file of a run, along an axis along which no wall acts, momentum and centre of mass are those of a point mass under gravity (up to the first-order error of the time steps, at most t*dt_max/2 times gravity), whatever the material does; and walls on one side only push the centre of mass away from them.", "quantifier": "for every run, particle cloud, initial velocities, stresses, material, flip_ratio, USL and MUSL, quadratic and cubic splines, without change_particle_positions (weights in (0,1e-25] excluded)", "why_tests_cant": "unboundedly many steps and all configurations", "anchors": ["src/simulation/g2p.cpp:G2P", "src/simulation/position_update.cpp:positionUpdate", "src/simulation/musl.cpp:MUSL", "src/simulation/explicit_euler_update.cpp:explicitEulerUpdate", "src/simulation/simulation.cpp:simulate"]}
{"id": "C73", "title": "Coulomb's law for whole runs", "statement": "With one-sided walls (SlipFree plates, or flat SlipFree objects) of friction coefficient at most mu on one side of the material, the momentum which the walls have given to the material along any direction of their surface up to any file is at most mu times the momentum they have given along their normal, and the same for the displacement of the centre of mass due to the walls. In 2D on a single plate it is exactly mu times, against the motion, if all nodes in contact slide in one direction; this is what the unit test of the code checks for one block on an incline.", "quantifier": "for every run without periodic boundaries, material-induced friction and change_particle_positions; every material, gravity, motion of the plates, flip_ratio, USL and MUSL, number of steps; frictionless side walls allowed; quadratic and cubic splines; weights in (0,1e-25], which the code drops, excluded", "why_tests_cant": "unboundedly many steps and all configurations", "anchors": ["src/simulation/boundary_collision.cpp:boundaryCollision", "src/objects/object_plate.hpp:inside", "src/simulation/explicit_euler_update.cpp:explicitEulerUpdate", "src/simulation/simulation.cpp:simulate", "tests/tests.cpp:CoulombFrictionTest"]}
{"id": "C74", "title": "Young's modulus, Poisson's ratio and the elastic time step limit mean what they say", "statement": "In every particle file of a run with the Hencky law, the principal Kirchhoff stresses and the logarithmic principal stretches of every particle obey Hooke's law with the members E and nu of the simulation (3D; plane strain in 2D): under uniaxial stress the strain is stress/E and the lateral contraction nu times it (E/(1-nu^2) and nu/(1-nu) in plane strain), and the saved pressure is minus the bulk modulus times the volumetric strain. A user also expects that a pressure wave travels at most cfl_elastic cells per time step; it travels cfl_elastic*sqrt((1-nu)/((1+nu)(1-2nu))) cells, which is more for every nu other than 0 and more than two cells for nu = 0.49 with the default cfl_elastic.", "quantifier": "for every simulation with E > 0, -1 < nu < 1/2, every plastic model but VMVisc, every run and every saved particle with stretches of at least 1e-4", "why_tests_cant": "real-valued parameters, all deformations, all runs", "anchors": ["src/simulation/simulation.hpp:Simulation", "src/simulation/simulation.cpp:simulate", "src/simulation/plasticity.cpp:plasticity", "src/simulation/update_dt.cpp:updateDt"]}
{"id": "C75", "title": "The shipped input file does what it is meant to do", "statement": "The program as shipped (src/mpm.cpp, a column of granular material collapsing on a floor): whatever points the sampler returns, the particles have together mass 1000 (5000 in 3D); the run ends, writes 20 frames of particles and grid at the times 0.1, 0.2, ... (up to 1.1e-14), and never drops a particle; the pressure of every saved particle is non-negative and its shear stress at most tan(30 degrees) times its pressure unless it is at the tip of the cone; no particle gets more than half a cell below the floor. If the input file can not be copied to the output directory nothing is written.", "quantifier": "for all non-empty lists of sampled points above the floor, 2D and 3D, any schedule of the threads; completion for runs in which no step starts in a critical position of C58, the floor while the particles are within its extent of 1e15", "why_tests_cant": "unboundedly many steps, all sampled clouds", "anchors": ["src/mpm.cpp:main", "examples/collapse.cpp:main", "src/simulation/simulation.cpp:initialize", "src/simulation/simulation.cpp:simulate", "src/sampling/sampling_particles.hpp:sampleParticles"]}
{"id": "C76", "title": "The particles have the density of the simulation", "statement": "If rho is set before the particles are sampled and not changed, then at the call of simulate the number of particles times particle_mass is rho times the volume of the box, whatever else the input file changes. In the shipped example examples/cube_rotating.cpp rho is assigned after sampling: its cube is announced with density 1550 and has the mass of density 1000, and its elastic time step is computed for the wrong wave speed.", "quantifier": "for all box sizes, numbers and positions of sampled points, 2D and 3D, all assignments between sampling and simulate that keep mass and number of particles", "why_tests_cant": "all input files and all sampled clouds", "anchors": ["examples/cube_rotating.cpp:main", "src/sampling/sampling_particles.hpp:sampleParticles", "src/simulation/simulation.hpp:Simulation"]}
{"id": "C77", "title": "The grid files show the mass and the momentum of the particles", "statement": "Every grid file is written together with the particle file of the same frame. It has one row per node and every node once; the mass in a row is the mass of the particles around the position in the row. The masses of all rows add up to the mass of all particles, the sum of mass times velocity over the rows is the total momentum of the particles in the particle file of the same frame, and the rows advanced by the last time step with their velocities have the centre of mass of these particles. This is what the debugging functions checkMassConservation and checkMomentumConservation would test.", "quantifier": "for every run without periodic boundaries, all walls, every flip_ratio, with and without MUSL, every grid file; momentum for quadratic and cubic splines; exact unless the transfer drops weights of at most 1e-25, total mass within 4^d*1e-25 in general; the comparison with the displacement of the particles without change_particle_positions", "why_tests_cant": "all runs, all particle clouds, unboundedly many steps", "anchors": ["src/simulation/save_data.cpp:saveGridData", "src/simulation/simulation.cpp:checkMassConservation", "src/simulation/simulation.cpp:checkMomentumConservation", "src/simulation/p2g.cpp:P2G", "src/simulation/musl.cpp:MUSL"]}
{"id": "C78", "title": "In the grid files no node moves into a fixed wall", "statement": "Behind the surface of a fixed plate, the velocity in every row of a grid file that has mass does not point into the plate, and with no-slip plates only, every such row is at rest unless its node does not reach the plates in the step. With MUSL this fails: the velocities in the file are the particle velocities averaged anew over the nodes, after the walls have acted, and nodes behind a no-slip floor move downwards.", "quantifier": "for every run without MUSL, periodic boundaries and material-induced friction, all boundary conditions, objects and other plates that do not push along the normal, every grid file; with MUSL the exact average for every row of every grid file, and a witness", "why_tests_cant": "all runs and all node positions; the failure depends on the order of two updates within a step", "anchors": ["src/simulation/save_data.cpp:saveGridData", "src/simulation/boundary_collision.cpp:boundaryCollision", "src/simulation/musl.cpp:MUSL", "src/simulation/explicit_euler_update.cpp:explicitEulerUpdate"]}
{"id": "C79", "title": "The Cam-Clay return mappings solve the equations of associated flow by Newton's method", "statement": "A trial stress outside of the ellipse is corrected by Newton's method for the equations of associated plastic flow: each pass solves the linear system of the exact partial derivatives (with a fixed small step if the determinant is small, and, with implicit hardening, a limited step), the iteration starts at the trial stress and ends at the first pass that meets the tolerances, at most 40 passes (30 with implicit exponential hardening). A solution of the equations is on the yield surface and removes from the principal strains the multiplier times the gradient of the yield function. With explicit hardening the pressure in the particle files is the result of this iteration clipped to the ellipse. With implicit hardening the shear modulus stands in place of the shear stiffness, so the flow is associated only for q_prefac = 1/sqrt(2); with the sinh law the slope used is never the derivative of the law.", "quantifier": "for all trial stresses, all Cam-Clay parameters, all hardening laws, dimensions two and three", "why_tests_cant": "correctness of each partial derivative over all real inputs; a wrong derivative still converges, only slower, and the final projection hides it", "anchors": ["src/plasticity_helpers/mcc_rma_explicit.hpp:MCCRMAExplicit", "src/plasticity_helpers/mcc_rma_implicit_exponential_onevar.hpp:MCCRMAImplicitExponentialOnevar", "src/plasticity_helpers/mcc_rma_implicit_sinh_onevar.hpp:MCCRMAImplicitSinhOnevar", "src/plasticity_helpers/limited_search_exponential.hpp:limited_search_exponential", "src/simulation/plasticity.cpp:plasticity"]}
{"id": "C80", "title": "The viscous models find the plastic multiplier by Newton's method with the exact derivative", "statement": "With an exponent other than one (or hardening), the plastic multiplier of the viscous von Mises, Drucker-Prager and Cam-Clay models is obtained by Newton steps for the discrete flow law with its exact derivative, including the change of the yield stress, starting from one per cent of the rate-independent multiplier, with the derivative kept away from zero and the multiplier kept positive, ending at the first pass with a residual below 1e-2; an error is reported exactly if the last of the sixty passes is reached.", "quantifier": "for all trial stresses, both flow laws (Perzyna, Duvaut-Lions), all exponents >= 0, all viscous times >= 0, all time steps > 0; von Mises above the tension cut-off, Drucker-Prager off the tip with M > 0; Cam-Clay with the Perzyna law and the yield stress not above the trial stress (with implicit hardening its own solver can report an error too)", "why_tests_cant": "correctness of a derivative over all real inputs and of every iterate of an unbounded family of iterations", "anchors": ["src/simulation/plasticity.cpp:plasticity"]}
{"id": "C81", "title": "With APIC a free body keeps its spin", "statement": "With flip_ratio < -1 (pure APIC) the angular momentum about the centre of mass is the same in every particle file as at the start, for each pair of axes along which no plate and no object acts on the grid, whatever the material, gravity and the particle velocities are; without gravity along these axes the total angular momentum is the same as well. In every step the angular momentum changes by the torque of gravity, the torque of the impulses of the walls, and the torque of the difference between the velocity a particle gets and the velocity it is moved with. The last one is not zero with the default flip_ratio = -0.95: there a body free of forces loses spin.", "quantifier": "for all runs with quadratic or cubic splines, all particle data with symmetric stress, all materials, with and without MUSL, all thread schedules, all time steps, dimensions two and three; without periodic boundaries and change_particle_positions; weights in (0,1e-25], which the code drops, excluded", "why_tests_cant": "an exact conservation law over arbitrarily long runs of all particle configurations; rounding and blending hide the loss in a test with a tolerance", "anchors": ["src/simulation/p2g.cpp:P2G", "src/simulation/g2p.cpp:G2P", "src/simulation/explicit_euler_update.cpp:explicitEulerUpdate", "src/simulation/position_update.cpp:positionUpdate", "src/simulation/musl.cpp:MUSL"]}
{"id": "C82", "title": "With use_mibf the walls use the friction coefficient of the material", "statement": "With use_mibf the coefficient of every particle, in all particle files, and that of every grid node with mass, in all grid files and as used by plates and objects in that step, is M for elastic, von Mises and rate-independent Drucker-Prager material and for Cam-Clay with explicit hardening (rate-independent or Duvaut-Lions), between mu_1 and mu_2 for the mu(I) models, and at least M for cohesionless viscous Drucker-Prager material and Perzyna Cam-Clay with explicit hardening; for Cam-Clay with implicit hardening it is not negative, and at most M for the rate-independent one with the exponential law. A plate can therefore never push the material along.", "quantifier": "for all runs without periodic boundaries, all particle data, time steps, thread schedules, spline degrees, material parameters in the stated ranges, dimensions two and three; viscous Drucker-Prager with visc_exponent = 1 and M at most 1e10; positive minimal time step", "why_tests_cant": "the coefficient is computed from internal states of iterative return mappings and averaged over all particles near a node; its range over arbitrary runs cannot be enumerated", "anchors": ["src/simulation/plasticity.cpp:plasticity", "src/simulation/p2g.cpp:P2G", "src/simulation/boundary_collision.cpp:boundaryCollision", "src/simulation/simulation.cpp:simulate"]}
{"id": "C83", "title": "Particles are not turned inside out while neighbouring grid nodes move alike", "statement": "Every component of the velocity gradient used to deform a particle is at most the largest velocity difference between neighbouring grid nodes around it, divided by the grid spacing. So if in every step the velocities in the grid file, of any two neighbouring nodes around a particle, differ per component by at most delta with (number of dimensions) * dt * delta < dx (in particular if no node near a particle moves by dx / (2 * number of dimensions) or more along an axis), then particles with det F > 0 at the start have det F > 0 in all particle files, whatever the material does. The time step limits of the program do not ensure this by themselves.", "quantifier": "for all runs without periodic boundaries, quadratic and cubic splines, all materials, walls, particle data, time steps, with or without MUSL, dimensions two and three", "why_tests_cant": "inversion depends on the whole velocity field in every step; the bound must hold for all positions of a particle within its cell and all node velocities", "anchors": ["src/simulation/g2p.cpp:G2P", "src/simulation/deformation_update.cpp:deformationUpdate", "src/simulation/plasticity.cpp:plasticity", "src/simulation/simulation.cpp:simulate"]}
{"id": "C84", "title": "The output directory: a complete, unambiguous set of files, at the end and at any time", "statement": "A completed saving run leaves, whatever was in the directory before, a particle file particles_f<n>.ply for every frame n = 0..end_frame showing the particles at a time in (n/fps - 1.1 min_dt, n/fps] (frame 0: the initial state), with save_grid a grid file for every frame n = 1..end_frame of the same time, last_written.txt with end_frame, info.txt and info_timing.txt; no other file is created, changed or removed. Files of different frames or kinds never share a name, and runs with different names (without slash) in the same directory do not touch each other's files. A run that gives up, or that is stopped, has complete particle files for all frames up to the one named in last_written.txt. At any moment of a run in a fresh directory, even while files are being written, the frames before the one named in last_written.txt are complete. Numbers in info.txt have a relative error of at most 5e-6 and integers below a million are exact.", "quantifier": "for all runs (2D and 3D, all materials, options, lengths, thread distributions), all previous contents of the directory, all points in time between two changes of the file system; the completed run with end_frame at least 1 and 1.1 min_dt at most 1/fps", "why_tests_cant": "statements about all previous directory contents, all interruption points and all numbers of frames", "anchors": ["src/simulation/save_data.cpp:saveParticleData", "src/simulation/save_data.cpp:saveGridData", "src/simulation/save_data.cpp:saveInfo", "src/simulation/save_data.cpp:saveTiming", "src/simulation/simulation.cpp:simulate"]}
{"id": "C85", "title": "The columns of the particle and grid files can be read back", "statement": "Every particle file is a table without repeated column names and with one row per particle in the order of the particles: x, y(, z), vx, vy(, vz) are the position and velocity, p the mean pressure -trace(tau)/dim, q the shear stress from the deviator of tau, Je the determinant of F; with a plastic model eps_pl_vol, eps_pl_dev and delta_gamma follow; muI is present exactly for the mu(I) models and, with use_mibf, for the viscous Drucker-Prager and Cam-Clay models; viscosity exactly for the mu(I) models. Every grid file has one row per grid node in lexicographic order with the node's position, velocity and mass, and with use_mibf the friction coefficient.", "quantifier": "for all particles and grids of a 2D or 3D simulation, all plastic models, with or without use_mibf", "why_tests_cant": "the columns depend on the options and the rows on the whole state; a reader relies on names and row order for every file", "anchors": ["src/simulation/save_data.cpp:saveParticleData", "src/simulation/save_data.cpp:saveGridData"]}
{"id": "C86", "title": "Energy balance: kinetic energy grows only by the work of gravity, stresses and walls", "statement": "With APIC (flip_ratio < -1) or a PIC/FLIP blend (0 <= flip_ratio <= 1) and splines of degree 2 or 3, a step increases the kinetic energy of the particles (for APIC including that of their affine motion) by at most the work of gravity on their displacements, minus the work dt * volume * (stress : velocity gradient) of their stresses, plus the work the walls do at the nodes. Walls at rest (any number of plates, or one terrain object) never do positive work. So in every file of a run the kinetic energy is at most the initial one plus the work of gravity and of the stresses in all steps before; with constant gravity the work of gravity is the one on the displacement of the centre of mass.", "quantifier": "for all particles, states of stress, velocities, materials, step sizes, walls at rest, thread distributions, in 2D and 3D, all steps and all frames of a run without periodic boundaries, without MUSL (single steps: with it too); without change_particle_positions; weights in (0,1e-25], which the code drops, excluded; runs without use_mibf", "why_tests_cant": "an inequality over all states and all numbers of steps; a test sees single trajectories whose energy error is hidden by dissipation", "anchors": ["src/simulation/p2g.cpp:P2G", "src/simulation/explicit_euler_update.cpp:explicitEulerUpdate", "src/simulation/g2p.cpp:G2P", "src/simulation/boundary_collision.cpp:boundaryCollision"]}
{"id": "C87", "title": "The choice of units does not matter", "statement": "Converting every input of a simulation to other units of length, time and stress (positions, velocities, volumes, elastic and strength parameters, density, gravity, relaxation times, frame rate, end time, walls) gives the same run: it ends the same way, with the same steps and the same files, and every column of every file is the old one converted. Another unit of length is covered with periodic boundaries and without reinsertion of particles; other units of time and stress for elastic material, von Mises, softening Drucker-Prager and the viscous von Mises (without softening) and Drucker-Prager models with exponent 1, another unit of stress for mu(I), another unit of time for plain Drucker-Prager, and units of time and stress for the Cam-Clay models with implicit exponential hardening (the viscous one with Duvaut-Lions or exponent 1), as long as the threshold 1e-10 on the largest speed does not decide the step size.", "quantifier": "for all unit factors, all initial states, materials of the listed models, boundaries, thread distributions, all frames, in 2D and 3D", "why_tests_cant": "a relation between two runs over a five-parameter family of conversions; hard-coded constants with a unit show up only for particular magnitudes", "anchors": ["src/simulation/simulation.cpp:simulate", "src/simulation/plasticity.cpp:plasticity", "src/simulation/update_dt.cpp:updateDt", "src/simulation/save_data.cpp:saveParticleData", "src/simulation/remesh.cpp:remeshFixedCont"]}
{"id": "C88", "title": "The definition of the equivalent shear stress is a convention", "statement": "The factor in q = factor * ||dev(tau)|| (q_prefac) may be chosen freely: if the strength parameters (yield stresses, cohesion, slope M, relaxation time) are given for the chosen definition, the run is the same, file by file; only the reported rate delta_gamma is divided by the ratio of the factors.", "quantifier": "for all positive factors, all initial states and boundaries, for no plasticity, von Mises, softening Drucker-Prager, and the viscous variants with exponent 1, without use_mibf, in 2D and 3D", "why_tests_cant": "equality of two whole runs for all factors and states", "anchors": ["src/simulation/simulation.hpp:q_prefac", "src/simulation/plasticity.cpp:plasticity", "src/simulation/simulation.cpp:initialize"]}
{"id": "C89", "title": "The strength parameters of the input file bound the stresses in the files", "statement": "With the members of Simulation set by the user: von Mises, q <= q_max; Drucker-Prager, q <= M p + q_cohesion and p >= -q_cohesion / M, with softening the cohesion is q_cohesion * exp(-xi e) for a plastic shear strain e not above the saved one; mu(I), the saved friction coefficient is between mu_1 and mu_2, is mu_1 below the static yield line, and otherwise follows the mu(I) law with I_ref, grain_diameter and rho_s at the saved shear rate; viscous Drucker-Prager and von Mises, the stress above the yield stress is what the saved rate gives with visc_time and visc_exponent; Cam-Clay, q^2 <= M^2 (pc - p)(p + beta pc) with the consolidation pressure pc of the saved plastic volume strain, starting at p0. This holds for every particle in every file after the first.", "quantifier": "for all parameter values in the physical range, all initial states, boundaries and thread distributions, all frames, in 2D and 3D; the volume correction not negative at the start; viscous Drucker-Prager with visc_exponent = 1 and without use_pradhana; Cam-Clay without or with implicit hardening, in the latter case for particles with shear stress; viscous von Mises above the tension cut-off and up to 0.01", "why_tests_cant": "a bound on all particles of all files for all parameters; a test shows it for one run", "anchors": ["src/simulation/simulation.hpp:Simulation", "src/simulation/plasticity.cpp:plasticity", "src/simulation/save_data.cpp:saveParticleData"]}
{"id": "C90", "title": "The README describes the program", "statement": "The set-up file printed in the README, for all points the sampler returns: the particles have together mass 1000; the run ends and writes 20 particle files at the times 0.1, 0.2, ...; no particle is lost, gravity is 9.81 downwards in every step, pressure is non-negative and shear stress at most half the pressure, and no particle gets more than one and a half cells below the floor. The default values in the README's tables are those of the program, with mu_1 and mu_2 rounded to three digits.", "quantifier": "for all non-empty sets of sampled points, all thread distributions and decompositions, all frames, in 2D and 3D", "why_tests_cant": "documentation is not executed by tests, and the claims are about whole runs for all samples", "anchors": ["README.md:Example of setup file", "src/simulation/simulation.hpp:Simulation", "src/objects/object_plate.hpp:ObjectPlate"]}
{"id": "C91", "title": "The rotating cube of the examples rotates and moves as announced", "statement": "examples/cube_rotating.cpp, for all points the sampler returns in the box: the centred cube starts stress-free with the velocity of a rigid body that turns counterclockwise by one radian per second while its centre moves with (0.5, 0.5); the run ends and writes 20 frames of particles and grid at the times 1, 2, ...; in every file the momentum is the initial one and the centre of mass is where that of the rigid body is at that time.", "quantifier": "for all non-empty sets of sampled points, splines of degree 2 and 3, all thread distributions, all frames, in 2D and 3D", "why_tests_cant": "the example prints only the energies at the start and the end; the claim is about the whole run for all samples", "anchors": ["examples/cube_rotating.cpp:main", "src/simulation/simulation.cpp:simulate"]}
{"id": "C92", "title": "use_mibf is the same as walls with the material's friction where that is constant", "statement": "If the friction coefficient of the material is constant - elastic, von Mises, viscous von Mises and Drucker-Prager material, Cam-Clay with explicit hardening (rate-independent or Duvaut-Lions), and viscous Drucker-Prager material with visc_time = 0 - then a run with use_mibf is, step by step, the run without it in which all plates and objects have the friction M of the material, whatever friction was given for them: it ends in the same way at the same time and writes the same files, without the column muI of the particles and the column friction of the grid.", "quantifier": "for all initial states with muI = 0, terrain, plates, schedules, numbers of steps, USL and MUSL, in 2D and 3D; for viscous Drucker-Prager material as long as no particle gets the coefficient 1e10 that stands for a pressure below 1e-10; viscous Drucker-Prager with visc_exponent = 1; without periodic boundaries", "why_tests_cant": "the unit test of use_mibf compares the position of the foremost particle at the end of two runs of one set-up; the claim is equality of all files for all set-ups", "anchors": ["tests/tests.cpp:BoundaryTest", "src/simulation/p2g.cpp:P2G", "src/simulation/boundary_collision.cpp:boundaryCollision", "src/simulation/plasticity.cpp:plasticity"]}
{"id": "C93", "title": "Measuring the bulk modulus from the averages", "statement": "For a run of an elastic (Hencky) material, let measured_K be the average pressure over -log(Javg), both from computeAvgData. If the body is compressed on average, measured_K is at most the bulk modulus lambda + 2 mu / dim of the material (E / (3 (1 - 2 nu)) in 3D), if it is expanded on average, at least; it is equal if and only if all particles have the same volume. If all particles of a compressed body keep between the parts lo and hi of their volume, measured_K is at least log(hi) / log(lo) of the bulk modulus.", "quantifier": "for every file but the initial one of every run without plasticity, in 2D and 3D, all walls, gravity, schedules, numbers of particles; no particle inverted or with a principal stretch below 1e-4; no volumetric plastic strain at the start; the comparison for equality if the average volume ratio is not 1", "why_tests_cant": "the unit test compares the two for one set-up, up to 3 percent; the claim says for all set-ups in which direction they differ and by how much at most", "anchors": ["tests/tests.cpp:ElasticityTest", "src/simulation/save_data.cpp:computeAvgData", "src/simulation/simulation.cpp:calculateBulkModulus", "src/simulation/plasticity.cpp:plasticity"]}
{"id": "C94", "title": "Re-insertion of particles", "statement": "With change_particle_positions every step is the step without it, after which each particle with x > 0.8 is moved to x = -0.1 and lifted by 0.27; nothing else about the particles, the grid and the walls changes. Hence no particle of any file but the initial one is beyond x = 0.8, and if no particle gets there the option has no effect: the run ends in the same way with the same files.", "quantifier": "for all set-ups (materials, walls, periodic boundaries, USL and MUSL), 2D and 3D, all numbers of steps", "why_tests_cant": "no test uses the option; equality of whole runs for all set-ups", "anchors": ["src/simulation/position_update.cpp:positionUpdate", "src/simulation/simulation.hpp:change_particle_positions"]}
{"id": "C95", "title": "Material models with common parameters coincide", "statement": "Runs of two material models that reduce to the same law are the same run - same files, same end: DPSoft with xi = 0 and DPVisc with visc_time = 0, visc_exponent = 1 (as the collapse tests DruckerPragerOne and DruckerPragerTwo expect), as long as no particle is exactly at the tip of the yield surface with shear stress or with a volume correction; DP and DPSoft with xi = 0 and without the volume correction (MUSL), as long as no yield stress is positive and below 1e-10; VM and VMVisc with visc_time = 0, visc_exponent = 1, xi = 0, as long as no pressure is below p_min; MCC and MCCVisc with visc_time = 0, visc_exponent = 1, always with the Duvaut-Lions law, and with the Perzyna law as long as no accumulated plastic shear strain decreases. At the tip DPSoft and DPVisc do differ.", "quantifier": "for all material parameters, set-ups (walls, periodic boundaries, hardening laws, USL and MUSL unless said), 2D and 3D, all numbers of steps; DPSoft and DPVisc without use_mibf; positive moduli and minimal time step; Drucker-Prager with M > 0 and q_cohesion >= 0, von Mises with q_max >= 0", "why_tests_cant": "the unit tests run two of the pairs on one collapse and compare the front position with a tolerance; the claim is equality of whole runs for all set-ups, with the exact exceptions", "anchors": ["tests/tests.cpp:CollapseTest", "src/simulation/plasticity.cpp:plasticity"]}
{"id": "C96", "title": "Terrain and bodies from level set files", "statement": "A terrain loaded from a .vdb file that holds a signed distance (cut off outside a narrow band wider than sqrt(3)/2 voxels) has its surface where the true one is, up to sqrt(3)/2 voxels: points deeper than that are inside, points further out than that are not. A plane is reproduced exactly, with its normal. Every normal has length one or is zero, so such terrain never speeds up a grid node. Where no voxel around a node is active (a level set whose interior was not filled) the normal is zero: no-slip terrain still stops the node, terrain with slip does not act at all. Sampling a body from a .vdb file, regularly or at random, gives only points within sqrt(3)/2 voxels of the body and all lattice or sampler points deeper than that. Of a file with several grids the last one is used.", "quantifier": "for all signed distance functions, voxel sizes, grids, points, in 2D (the slice z = 0) and 3D, all boundary conditions and friction coefficients; the friction coefficient used at least 0 where a node is not to be sped up", "why_tests_cant": "there is no unit test of level sets; the claims are over all distance functions and points", "anchors": ["src/objects/object_vdb.hpp:ObjectVdb", "src/sampling/sampling_particles_vdb.hpp:sampleParticlesFromVdb"]}
{"id": "C97", "title": "Bodies that do not touch do not influence each other", "statement": "If, during a run, a group of particles stays at least the width of the shape functions (3 cells for quadratic, 4 for cubic splines) away from all other particles in some direction, a simulation with that group alone gives the same particle files for it: the same frames at the same times with the same positions, velocities, deformation gradients, stresses and plastic variables. This needs the two grids to be parts of one lattice (always so if grid_reference_point is below and left of everything) and the same time steps (the group contains a fastest particle, or the elastic time step limit is the smaller one for all particles).", "quantifier": "for all particle clouds, groups, numbers and orders of particles, materials, walls, objects, step counts, 2D and 3D, quadratic and cubic splines, with and without MUSL; without periodic boundaries; runs that start afresh; the run of the group does not leave its own grid", "why_tests_cant": "tests can only compare some pairs of clouds; the claim is about every separated group and a whole run", "anchors": ["src/simulation/p2g.cpp:P2G", "src/simulation/g2p.cpp:G2P", "src/simulation/musl.cpp:MUSL", "src/simulation/remesh.cpp:remeshFixedCont", "src/simulation/update_dt.cpp:updateDt", "src/simulation/simulation.cpp:advanceStep"]}
{"id": "C98", "title": "Rounding errors do not derail the time loop", "statement": "Also with rounded (floating-point) arithmetic a run that finishes has written each frame once, in order, the last one twice, and stops at the last frame. Frame n is written at a time at most 1.12 min_dt before n/fps and not after it, up to ten rounding errors of the final time. The run ends after a bounded number of steps if min_dt, or the time step limits from particle and wave speeds, are above the resolution of the time.", "quantifier": "for all roundings with a relative error of at most 1/1000, end_frame, fps, min_dt (with 1.2 min_dt and twelve rounding errors of the final time shorter than a frame), all physics, however it is computed, and all numbers of steps", "why_tests_cant": "tests run a few values of fps and end_frame; whether n/fps, its rounding and the accumulated time meet is a matter of each single value", "anchors": ["src/simulation/simulation.cpp:simulate", "src/simulation/update_dt.cpp:updateDt"]}
{"id": "C99", "title": "Rounding errors do not take particles off the grid", "statement": "Also with rounded (floating-point) arithmetic, in every direction: building the grid ends; for each particle the index of the first visited node is not negative and the four nodes exist, so no transfer reads or writes outside of the grid; all nodes not visited are two cells away and the weights sum to one, up to rounding. In later steps this holds unless an outermost particle is in a window around a whole number of cells outside of the initial box (without rounding the window of C14).", "quantifier": "for all roundings with relative error u, cell sizes dx (up to 10^8 in later steps), all clouds and reference points with coordinates up to B, 10 dx <= B and 1000 u (B/dx)^2 <= 1", "why_tests_cant": "whether the accumulated node positions, the computed index and the end of the grid agree is a matter of each single coordinate; with rounding tests cannot find the rare ones where they may not", "anchors": ["src/simulation/remesh.cpp:remeshFixedInit", "src/simulation/remesh.cpp:remeshFixedCont", "src/tools.hpp:arange", "src/simulation/p2g.cpp:P2G", "src/simulation/g2p.cpp:G2P"]}
{"id": "C100", "title": "Rounding errors in the transfers stay small", "statement": "Also with rounded (floating-point) arithmetic: the transfer to the grid succeeds; the mass of a node is the sum of the spline weights of all particles there times the particle mass and the masses of all nodes sum to the mass of all particles; the velocity of a node with mass, even with a tiny one, is in the range of the velocities of the particles, and zero at a node without mass, likewise the friction coefficient; the number of threads and the distribution of the particles among them do not matter; an interpolated velocity is in the range of the velocities of the nodes; a common velocity of all particles survives the way to the grid and back. All up to explicit rounding errors, which are proportional to u and to the number of particles plus threads in the worst case, and the weights below 1e-25 that the code drops.", "quantifier": "for all roundings with relative error u, 1-3 dimensions, splines of degree 1, 2 and 3, all particles placed as by C99, numbers of threads and distributions of the particles, as long as (2 Np + T + 2) u <= 1/10", "why_tests_cant": "dividing a sum by a tiny nodal mass looks like it amplifies rounding errors without bound; tests see single clouds, the claim is about all of them, with masses down to 1e-25", "anchors": ["src/simulation/p2g.cpp:P2G", "src/simulation/g2p.cpp:G2P", "src/tools.hpp:N"]}
{"id": "C101", "title": "The choice of the singular value decomposition does not matter", "statement": "A run gives the same files and the same final state whichever singular value decomposition the linear algebra library returns for a deformation gradient: another order of the singular values, other signs or, for equal singular values, other vectors. For singular (flattened) deformations this is false: the plastic update can turn the flattened direction either way round.", "quantifier": "for all pairs of functions that return valid decompositions and agree on singular matrices, all elastic and plastic models, set-ups and runs, in 2D and 3D", "why_tests_cant": "the decomposition is not unique; tests see the one of the installed version of Eigen, and a dependence on order or signs would only show with another", "anchors": ["src/simulation/plasticity.cpp:plasticity"]}
{"id": "C102", "title": "Deformation gradients are the Jacobians of the motion", "statement": "The velocity fields of the steps move the points of space; composed over a run they give a differentiable motion. In every particle file of a run without plasticity the position of a particle is the image of its initial position under this motion, and its deformation gradient is the Jacobian matrix of the motion there times its initial deformation gradient. With plasticity the logarithm of the volume ratio plus the accumulated volumetric plastic strain changes by the logarithm of the determinant of the Jacobian.", "quantifier": "for all elastic and plastic models, walls, particles, gravity and runs with quadratic or cubic splines, without MUSL, periodic boundaries and re-insertion, in 2D and 3D; volumes: as long as no principal trial stretch is below 1e-4", "why_tests_cant": "the property concerns the composition of all the steps of a run and derivatives with respect to the position; a test compares numbers of one deformation", "anchors": ["src/simulation/g2p.cpp:G2P", "src/simulation/deformation_update.cpp:deformationUpdate", "src/simulation/position_update.cpp:positionUpdate"]}
{"id": "C103", "title": "The inside of a body under uniform stress feels no force (patch test)", "statement": "Inside a body whose particles form a regular lattice with k particles per cell and direction, move alike and all have the same stress, every grid node has the mass of one cell full of material and no internal force. In a step of a run a particle deep enough inside such a body moves as in free fall, whatever the stress, keeps a zero affine velocity matrix, and its deformation gradient does not change except by plastic flow. Bodies made with the regular samplers are such lattices if the number of particles per cell is the square (3D: cube) of a whole number, as by default.", "quantifier": "for all spacings, k, stresses, velocities, gravity, flip ratios, plastic models, with and without MUSL, quadratic and cubic splines, 2D and 3D, wherever the body lies relative to the grid; without periodic boundaries and re-insertion; weights in (0,1e-25], which the code drops, excluded; no wall near the particle", "why_tests_cant": "the sums over the particles cancel for every position of the lattice relative to the grid; a test fixes one position and sees a force of rounding size", "anchors": ["src/simulation/p2g.cpp:P2G", "src/simulation/explicit_euler_update.cpp:explicitEulerUpdate", "src/simulation/g2p.cpp:G2P", "src/simulation/deformation_update.cpp:deformationUpdate", "src/sampling/regular_sampling_particles.hpp:regularSampleParticles"]}
{"id": "C104", "title": "The numbering of the axes does not matter", "statement": "Renumbering the axes of a whole problem (particles with their deformation and stress, gravity, objects, reference point) renumbers the axes of everything in every file and changes nothing else: same time steps, same files, same end, although the grid nodes are stored and visited in another order. In 2D this includes all walls (left becomes bottom, right becomes top). In 3D it holds for every renumbering if there are no walls, and for exchanging the first two axes with all walls except front and back walls with friction; with those it fails, because the code reduces the first tangential component before it computes the second.", "quantifier": "for all permutations of the axes, particles, objects, plastic models, flip ratios, with and without MUSL, all spline degrees, all decompositions of regular matrices and distributions to threads, all numbers of steps; front and back walls in 3D NoSlip or frictionless (and then without use_mibf); without periodic boundaries and re-insertion", "why_tests_cant": "a test compares two runs of one problem up to rounding; swapped indices in one branch (one wall type, one stencil loop) stay unseen unless that branch is taken", "anchors": ["src/simulation/p2g.cpp:P2G", "src/simulation/g2p.cpp:G2P", "src/simulation/explicit_euler_update.cpp:explicitEulerUpdate", "src/simulation/remesh.cpp:remeshFixedInit", "src/simulation/boundary_collision.cpp:boundaryCollision", "src/objects/object_plate.hpp:inside", "src/objects/object_plate.hpp:move", "src/simulation/plasticity.cpp:plasticity"]}
{"id": "C105", "title": "The program carries out the textbook material point method", "statement": "One step of the method can be written down without grid arrays, indices, stencils and threads: masses, momenta, forces and friction coefficients at a point X are sums over all particles of the spline weight at X; velocities, affine matrices and velocity gradients at a particle are sums over all nodes of an infinite lattice. Every particle file of a run that starts afresh without periodic boundaries contains the particles this method yields, on the lattice through the lower corner of the initial cloud, after steps whose lengths sum up to the time of the file, with the gravity of the time and the walls moved along. Every row of a grid file is a node of that lattice with the mass and velocity of the method, and no node with mass is missing.", "quantifier": "for all particles, walls, objects, elastic and plastic models, flip ratios (PIC, FLIP, APIC, AFLIP), with and without MUSL, material-induced friction and re-insertion, quadratic and cubic splines, dimensions from 2 up, all distributions to threads, all numbers of steps", "why_tests_cant": "the moving box of nodes, the flat node numbers, the block of nodes around a particle and the order of the threads must be invisible in every configuration; a test compares with numbers from the same program", "anchors": ["src/simulation/simulation.cpp:advanceStep", "src/simulation/p2g.cpp:P2G", "src/simulation/g2p.cpp:G2P", "src/simulation/explicit_euler_update.cpp:explicitEulerUpdate", "src/simulation/musl.cpp:MUSL", "src/simulation/deformation_update.cpp:deformationUpdate", "src/simulation/position_update.cpp:positionUpdate", "src/simulation/remesh.cpp:remeshFixed", "src/simulation/save_data.cpp:saveGridData"]}
{"id": "C106", "title": "The mirror image of a problem has the mirror image as its solution", "statement": "Reverse any of the axes and shift the origin: particles with all their data, gravity, objects and walls (left becomes right, bottom becomes top, front becomes back, friction and speeds mirrored along). If the extent of the initial cloud (with the reference point) in the reversed directions is a whole number of cells and the run finishes, then the mirrored run (unless it leaves its grid) finishes after the same steps at the same times, and its files are the mirror images: particles in the same order with all their data, and the rows with mass of the grid files. The decomposition and the distribution to threads of the mirrored run may be others. Without the condition on the extent this is false: the lattice goes through the lower corner of the cloud, so the mirrored cloud gets another lattice.", "quantifier": "for all particles, gravities, objects, lists of walls with friction >= 0 (2D) or any friction (3D), elastic and plastic models, flip ratios, with and without MUSL and material-induced friction, quadratic and cubic splines, all numbers of steps; without periodic boundaries and re-insertion", "why_tests_cant": "six kinds of walls with three conditions each are six pieces of code with swapped signs; a test on one side of a box says nothing about the other sides", "anchors": ["src/simulation/boundary_collision.cpp:boundaryCollision", "src/objects/object_plate.hpp:ObjectPlate", "src/simulation/simulation.cpp:advanceStep", "src/simulation/p2g.cpp:P2G", "src/simulation/g2p.cpp:G2P", "src/simulation/remesh.cpp:remeshFixed", "src/simulation/plasticity.cpp:plasticity", "src/tools.hpp:N"]}
{"id": "C107", "title": "The order in which walls and objects are added", "statement": "Walls may be listed in another order, or twice, and so may objects, as long as at every point and every time the walls (objects) that cover the point come in the same order: the run is the same. For instance the walls on opposite sides of a box can be exchanged. Where walls overlap the order matters: in the corner of a moving and a fixed no-slip wall the wall that was added last decides the velocity.", "quantifier": "for all set-ups, lists of walls (fixed or moving) and objects, all numbers of steps, with every outcome (finished, failed, undefined)", "why_tests_cant": "all lists and all positions", "anchors": ["src/simulation/boundary_collision.cpp:boundaryCollision", "src/objects/object_plate.hpp:ObjectPlate", "src/simulation/simulation.cpp:simulate"]}
{"id": "C108", "title": "Symmetric problems have symmetric solutions", "statement": "If a problem is its own mirror image (particles up to their order, walls up to an admissible reordering, objects, reference point and gravity), its extent across is a whole number of cells, and the run finishes without a particle whose trial deformation is singular, then every particle file and every grid file is its own mirror image: the mirror exchanges the same particles as at the start. Without the condition on the extent this is false: two equal particles half a cell apart have a grid file that is not symmetric.", "quantifier": "for all symmetric problems in 2D and 3D with one, two or three reversed axes, all models, flip ratios, with and without MUSL, all distributions to threads, all numbers of steps; quadratic and cubic splines, without periodic boundaries and change_particle_positions; in 2D walls with friction at least 0", "why_tests_cant": "the decomposition of the deformation, the order of the particles and the lattice are not symmetric, only the result is", "anchors": ["src/simulation/simulation.cpp:simulate", "src/simulation/boundary_collision.cpp:boundaryCollision", "src/simulation/plasticity.cpp:plasticity", "src/simulation/remesh.cpp:remeshFixed", "src/simulation/save_data.cpp:saveParticleData", "src/simulation/save_data.cpp:saveGridData"]}
{"id": "C109", "title": "Output options and the number of frames do not influence the simulation", "statement": "save_sim and save_grid only select files: with any setting the run takes the same steps and ends in the same way with the same particles, and the files are those wanted among the files of the run that saves everything. A run with a larger end_frame begins like one with a smaller: if the shorter run finishes, both write the same particle and grid files, with the same contents, for all frames that the shorter run completes.", "quantifier": "for all set-ups, initial states, numbers of frames N <= M, min_dt >= 0, fps >= 0, all numbers of steps and all outcomes of the longer run except undefined behaviour", "why_tests_cant": "the time step is cut at the end of a frame and at the end of the run, and the last frame is saved twice; that this never differs between two lengths has to hold for all of them", "anchors": ["src/simulation/simulation.cpp:simulate", "src/simulation/update_dt.cpp:updateDt", "src/simulation/save_data.cpp:saveParticleData", "src/simulation/save_data.cpp:saveGridData"]}
{"id": "C110", "title": "Parameters that do not belong to the chosen model do not matter", "statement": "Two materials with the same elastic and plastic model that agree on the parameters of this model (listed for each of the ten models in the theorem's specification) give the same run and the same files, whatever the other parameters are. The inertial-number models depend on reference number, grain diameter and grain density only through I_ref/(d*sqrt(rho_s)). The choice between the two flow rules does not matter for Cam-Clay without viscosity, even with material-induced friction.", "quantifier": "for all materials with E > 0, nu > -1, q_prefac > 0, all set-ups, initial states, numbers of steps and outcomes", "why_tests_cant": "25 parameters and 10 models in one function; a test changes one parameter at one value", "anchors": ["src/simulation/plasticity.cpp:plasticity", "src/simulation/simulation.cpp:simulate", "src/simulation/save_data.cpp:saveParticleData", "src/simulation/simulation.hpp:Simulation"]}
{"id": "C111", "title": "The built-in conservation checks raise no false alarm", "statement": "Called after the transfer to the grid, the mass check prints the two totals and leaves the exit flag as it was; the momentum check leaves it as it was unless the momenta of the particles cancel to more than 13 digits. (In general false for the momentum check: it compares with the total momentum, so two particles moving in opposite directions stop the run because a weight below 1e-25 was dropped; moreover its two printed labels are exchanged.) The override of the grid velocity changes the vertical component only, in a band at the top and one at the bottom.", "quantifier": "for all particles on all grids, degrees, particle masses >= 0, dimensions 2 and 3", "why_tests_cant": "the difference of the totals is the sum over all particles of weights below 1e-25; the alarm depends on cancellation in the total momentum", "anchors": ["src/simulation/simulation.cpp:checkMassConservation", "src/simulation/simulation.cpp:checkMomentumConservation", "src/simulation/simulation.cpp:overwriteGridVelocity", "src/simulation/p2g.cpp:P2G"]}
{"id": "C112", "title": "A step looks the same to every observer: Galilean invariance and the equivalence principle", "statement": "Without walls, if all particles are faster by V and gravity is stronger by G, one step gives the same deformation gradients, affine matrices, stresses, plastic strains and all other material variables, and the same decision to end the run; the particles end dt (V + dt G) further on and faster by V + dt G. Grid, grid masses and friction coefficients are the same and the velocity of every node with mass differs by V + dt G. (With a moving plate this is false: the position a node would reach is compared with the position of the plate at the beginning of the step.)", "quantifier": "for all particles, V, G, step lengths, every flip_ratio, with and without MUSL, all materials, quadratic and cubic splines, dimensions 2 and 3, if no weight lies below the cut-off 1e-25; without periodic boundaries and change_particle_positions", "why_tests_cant": "one would have to compare two steps for all V and G; the common velocity must cancel in every sum over nodes of every transfer", "anchors": ["src/simulation/simulation.cpp:advanceStep", "src/simulation/p2g.cpp:P2G", "src/simulation/g2p.cpp:G2P", "src/simulation/explicit_euler_update.cpp:explicitEulerUpdate", "src/simulation/musl.cpp:MUSL", "src/simulation/boundary_collision.cpp:boundaryCollision"]}
{"id": "C113", "title": "Calling simulate again continues the simulation", "statement": "If a first call of simulate ends after N frames exactly at the time N/fps, a second call with M frames on the same object takes the same steps and ends in the same way and in the same state as a single call with N + M frames would have done after frame N; its files of the frames 1, 2, ... have the contents of the files N + 1, N + 2, ... of the single call. But the numbering starts again at 0, so files of the first call are overwritten, and a mixture of both remains if M < N.", "quantifier": "for all set-ups with constant gravity, plates without loading phase and use_mibf off, all N, M >= 1, in 2D and 3D; with a gravity ramp it is false (see the negative part of C23); 1.1 min_dt at most 1/fps", "why_tests_cant": "needs the comparison of two executions of arbitrary length; the state that survives between calls (step counter, grid, box of the first step) is spread over the object", "anchors": ["src/simulation/simulation.cpp:simulate", "src/simulation/simulation.cpp:advanceStep", "src/simulation/update_dt.cpp:updateDt", "src/simulation/save_data.cpp:saveParticleData"]}
{"id": "C114", "title": "The plotting script shows the particles of the run", "statement": "After a finished 2D run with save_sim, postprocess/load_ply.py, pointed at the output directory with two or more of the frames of the run, succeeds: each panel shows every particle of its frame at its position with its speed |v|, the printed maximum is the greatest speed rounded to three digits, and the time in the label is the time of the frame up to the rounding to two digits, 1.1 min_dt and the six digits of fps in info.txt (exactly frame/fps rounded, for whole-numbered fps below 10^6). It fails for a frame that was not written. It also fails for a single frame, and for a 3D run it shows too small speeds because vz is left out.", "quantifier": "for all 2D runs with particles that finish, all set-ups, all directories with any earlier contents, all lists of frames; end_frame at least 1 and 1.1 min_dt at most 1/fps", "why_tests_cant": "the script is only run by hand; the claim joins the file contents for every possible run with the reader", "anchors": ["postprocess/load_ply.py", "src/simulation/save_data.cpp:saveParticleData", "src/simulation/save_data.cpp:saveInfo"]}
{"id": "C115", "title": "A rotating body: velocities are exact, but it is stretched a little in every step", "statement": "A body without stresses that moves with an affine velocity field a + C x keeps its velocities and velocity gradients in a step (APIC or AFLIP, with and without MUSL), and its deformation gradient is multiplied by 1 + dt C. A rigid rotation therefore does not leave an elastic body free of stresses: in 2D a step produces the uniform tension (lambda + mu) log(1 + (omega dt)^2) <= (lambda + mu) (omega dt)^2 and no shear stress; in 3D lambda log(1 + |omega|^2 dt^2) along the axis and (lambda + mu) log(1 + |omega|^2 dt^2) perpendicular to it.", "quantifier": "for all bodies, grids, step lengths, angular velocities, elastic parameters, quadratic and cubic splines; elastic materials for the stresses, all materials for the motion; without periodic boundaries and change_particle_positions; weights in (0,1e-25], which the code drops, excluded; without walls; the stresses for bodies that start undeformed or turned (F orthogonal)", "why_tests_cant": "the error is of second order in the step length and invisible in a test with a tolerance; its exact size needs the polar decomposition of 1 + dt C", "anchors": ["src/simulation/p2g.cpp:P2G", "src/simulation/g2p.cpp:G2P", "src/simulation/musl.cpp:MUSL", "src/simulation/deformation_update.cpp:deformationUpdate", "src/simulation/plasticity.cpp:plasticity"]}
{"id": "C116", "title": "The total energy of a run grows at most by terms of second order in the time step", "statement": "The saved stress of a Hencky-elastic or neo-Hookean particle is the derivative of its strain energy. Hence between resting walls, with constant gravity and without MUSL, kinetic plus elastic plus potential energy of the particles in any file is at most the initial total plus a stiffness times the sum over the steps of the squared strain increments; if the velocity gradients stay below gamma, the growth is at most a constant times gamma^2 times the longest time step, per time and particle. Plastic flow (von Mises, Drucker-Prager, softening, viscous and mu(I) Drucker-Prager) does not add to it.", "quantifier": "for all particles, grids, walls, runs of any length, APIC and PIC/FLIP blends, strains up to a bound s with explicit constants, quadratic and cubic splines; without periodic boundaries and change_particle_positions; weights in (0,1e-25], which the code drops, excluded; without use_mibf", "why_tests_cant": "an energy balance over arbitrarily many steps with an explicit error constant; a test sees one trajectory and cannot tell a drift of second order from a missing force term", "anchors": ["src/simulation/p2g.cpp:P2G", "src/simulation/explicit_euler_update.cpp:explicitEulerUpdate", "src/simulation/g2p.cpp:G2P", "src/simulation/deformation_update.cpp:deformationUpdate", "src/simulation/plasticity.cpp:plasticity"]}
{"id": "C117", "title": "A body in equilibrium stays at rest", "statement": "Let the particles be at rest with stresses that belong to their deformation and are below yield (elastic, von Mises, Drucker-Prager, Cam-Clay), and let the pull of stresses and gravity vanish at every loaded node, or be resisted by resting plates the node is behind of: no-slip, perpendicular to the plate, or inside the friction cone. Then the run writes all its frames, every particle file shows the initial positions, zero velocities and the initial stresses, deformations and plastic strains, and all node velocities in the grid files are zero.", "quantifier": "for all particle sets, deformations and stresses in equilibrium, any number and kind of resting plates, runs of any length, with and without MUSL, 2D and 3D, quadratic and cubic splines; without periodic boundaries, change_particle_positions, gravity_special, terrain objects and use_mibf; principal stretches above 1e-4", "why_tests_cant": "a static state has to survive arbitrarily many steps for every stress field and wall arrangement; a test that sees a column standing for some frames cannot tell a slow creep from rest, and the friction cone is a boundary case", "anchors": ["src/simulation/p2g.cpp:P2G", "src/simulation/explicit_euler_update.cpp:explicitEulerUpdate", "src/simulation/boundary_collision.cpp:boundaryCollision", "src/simulation/g2p.cpp:G2P", "src/simulation/plasticity.cpp:plasticity"]}
{"id": "C118", "title": "Influences spread by a few cells per step", "statement": "Two runs of the same set-up (same parameters, walls, gravity, grid lattice) whose particles agree inside a cube, and which take the same time steps, agree after each step inside the cube made smaller by the width of a shape function (two widths with MUSL) and by the distance particles move in a step, whatever the particles outside are. Hence the particle files for the same time agree in a cube smaller by as many such distances as steps were taken, at most t / min_dt. The time steps are the same as long as no particle is so fast that the Courant condition becomes active.", "quantifier": "for all pairs of particle sets, cubes, materials, walls, runs of any length, with and without MUSL, 2D and 3D, quadratic and cubic splines; without periodic boundaries; the grids of the two runs on one lattice", "why_tests_cant": "an influence reaching further than the stencil shows only for particular arrangements of particles far from the place looked at; two unbounded families of initial states are compared", "anchors": ["src/simulation/p2g.cpp:P2G", "src/simulation/g2p.cpp:G2P", "src/simulation/musl.cpp:MUSL", "src/simulation/deformation_update.cpp:deformationUpdate", "src/simulation/update_dt.cpp:updateDt"]}
{"id": "C119", "title": "Rounding errors do not create momentum", "statement": "In floating-point arithmetic, a step without walls changes the total momentum of the particles by gravity alone, up to a stated bound on rounding errors, whatever the stresses, the number of particles and threads and the order of summation. The error per particle, relative to the fastest speed plus the largest velocity change by stress (dt volume stress / (mass dx)) plus dt g, is at most 40 e + 2500 K u + 1e-9, where u is the unit roundoff, e the error of stencil coordinates, K the number of additions per node; the last term is due to the cut-off of small weights.", "quantifier": "for all particles, stresses, affine parts, distributions to threads, time steps, flip ratios up to 1, roundings with relative error u, 2D and 3D, quadratic and cubic splines", "why_tests_cant": "a test sees the rounding errors of one configuration and machine; the bound is over all particle sets, orders of summation and roundings", "anchors": ["src/simulation/p2g.cpp:P2G", "src/simulation/explicit_euler_update.cpp:explicitEulerUpdate", "src/simulation/g2p.cpp:G2P", "src/simulation/position_update.cpp:positionUpdate"]}
{"id": "C120", "title": "Particles crossing cell boundaries do not make the grid jump", "statement": "When particles are displaced by at most eta (sum over the axes), with everything else unchanged, the mass, the momentum and the stress force of every grid node change at most in proportion to eta, with stated constants that do not depend on where in their cells the particles are or whether they enter other cells, plus a term for the cut-off of tiny weights (1e-25 for masses, 1e-12/dx for gradients). For the force this needs SPLINEDEG 2 or 3: with SPLINEDEG 1 the force on a node changes sign while a particle passes it. It does not carry over to strains with SPLINEDEG 2: the strain increment of a particle at the edge of a body jumps where its support reaches a new node.", "quantifier": "for all grids, particles, displacements, distributions to threads, transfer schemes and dimensions", "why_tests_cant": "a test moves a particle between two positions; a jump at a cell boundary is visible only at that boundary, and the claim is about all positions", "anchors": ["src/simulation/p2g.cpp:P2G", "src/tools.hpp:N", "src/tools.hpp:dNdu"]}
{"id": "C121", "title": "The position of the periodic seam is invisible", "statement": "In a periodic run without MUSL the place where the domain is cut makes no difference: starting with all particles moved by a whole number of cells along the periodic direction, those beyond the end put back by whole periods, the run ends in the same way, takes the same steps, writes the same files at the same times, and in every file the particles differ from the original ones only by that number of cells and whole periods; velocities, strains, stresses and plastic variables are identical. This holds for obstacles that are the same all along the periodic direction, no plates, at least eight cells in the period, and particles inside the domain. With MUSL it fails: two particles moving with equal velocity are stretched by 5 percent in a step if the seam is between them and not at all if it is elsewhere.", "quantifier": "for all particles, displacements by whole cells, materials, transfer schemes (without MUSL), step sizes, numbers of steps, distributions to threads and dimensions; without change_particle_positions; without use_mibf (not available with periodic boundaries)", "why_tests_cant": "a test compares two positions of one body; ghosts, wrapping and stencils interact differently for each position of the seam", "anchors": ["src/simulation/remesh.cpp:remeshFixed", "src/simulation/pbc.cpp:PBCAddParticles", "src/simulation/p2g.cpp:P2G", "src/simulation/g2p.cpp:G2P", "src/simulation/position_update.cpp:positionUpdate"]}
{"id": "C122", "title": "A 2D simulation is a slice of a 3D one", "statement": "The 2D build simulates plane strain: take a 2D simulation and a 3D one whose particles, around some height, are layers of the 2D particles (the same number of layers in every cell, moving alike and within the plane), with the same density, gravity in the plane and walls at right angles to it. After a step with an elastic material (Hencky or neo-Hookean) the layers that are at least 3 (quadratic splines) or 4 (cubic) cells from where the layers end are again the particles of the 2D simulation: same positions, velocities, affine state, deformation gradient and in-plane stress; only the stress across the plane is extra, and there is no motion and no strain across it. The stress does not depend on which singular value decomposition the external routine returns. For plastic materials this fails: a von Mises particle stretched equally in both directions of the plane does not yield in 2D, but does in 3D, because the 2D build takes the deviator in the plane.", "quantifier": "for all particles, numbers of layers, step sizes, gravity, walls, transfer schemes (without MUSL and periodicity), distributions to threads, elastic parameters and singular value decompositions; without change_particle_positions; weights in (0,1e-25], which the code drops, excluded; without use_mibf", "why_tests_cant": "the two builds are separate programs; a test would compare one step of one body in both, and could not separate the effect of the ends of the layers", "anchors": ["src/simulation/p2g.cpp:P2G", "src/simulation/explicit_euler_update.cpp:explicitEulerUpdate", "src/simulation/g2p.cpp:G2P", "src/simulation/plasticity.cpp:plasticity", "src/simulation/position_update.cpp:positionUpdate"]}
{"id": "C123", "title": "Plastic flow does not amplify differences of stress", "statement": "The plastic update is a continuous change of the stress that does not spread nearby stresses apart. For von Mises, and for viscous von Mises (exponent one, no softening, pressure above p_min), the shear stresses (deviators, as matrices) of any two particles of a material differ after the update at most as much as the elastic stresses before it, and their pressures differ exactly as much; so there is no jump when yielding begins, and a particle that crosses the yield surface a little earlier or later ends up nearly the same. For Drucker-Prager the pressures differ at most as much as before and the shear stresses at most as much as before plus M times the difference of the pressures, apart from the cut-off of 1e-10 at the tip of the yield surface. For viscous Drucker-Prager this fails: at the tip there are particles whose elastic stresses are arbitrarily close and whose shear stresses after the update differ by a fixed amount, because on one side the viscosity holds back the flow and on the other the shear stress is dropped at once.", "quantifier": "for all pairs of particles with stretches of at least 1e-4, step sizes, material parameters, dimensions, viscosities and singular value decompositions", "why_tests_cant": "a test compares chosen pairs of states; a bound for all pairs, and the existence of a jump at one point of the stress space, are not visible from any finite number of them", "anchors": ["src/simulation/plasticity.cpp:plasticity", "src/tools.hpp:selfDoubleDot"]}
{"id": "C124", "title": "Inside a smooth body a step is the step of the equations of motion", "statement": "Where the particles of a body form a regular lattice (a whole number of particles per cell and direction, at any offset from the grid), have a velocity that is an affine function of position (with the APIC matrix that goes with it, if APIC is used) and a stress that is a polynomial of degree at most two in position, the scheme makes no error in space: each node there gets the velocity of the body at that point and, in the update, the acceleration (vol/m) div(stress) + gravity with the exact divergence at that point. Every particle there leaves the step with exactly the velocity v + dt ((vol/m) div(stress) + gravity) of its place, moves by dt times that velocity, keeps the matching APIC matrix, and hands F + dt grad(v) F to the plastic update; with and without MUSL and for every flip_ratio. In particular a body at rest whose stress balances gravity (pressure growing linearly with depth) stays exactly at rest there, wherever the grid lies.", "quantifier": "for all lattices (spacing dx/k, any offset), affine velocities, stresses of degree at most two, step sizes, gravities, flip ratios, dimensions, quadratic and cubic splines, other particles farther away, and schedules of the threads; without periodic boundaries and change_particle_positions; weights in (0,1e-25], which the code drops, excluded; no wall near the particle", "why_tests_cant": "a test can compare one body and one grid offset with the exact solution; exactness of the divergence for every offset, number of particles per cell and field is an identity of the splines", "anchors": ["src/simulation/p2g.cpp:P2G", "src/simulation/explicit_euler_update.cpp:explicitEulerUpdate", "src/simulation/g2p.cpp:G2P", "src/simulation/position_update.cpp:positionUpdate", "src/simulation/musl.cpp:MUSL"]}
{"id": "C125", "title": "The inside of a body in equilibrium stays at rest until its surface makes itself felt", "statement": "Take a run whose particles, in some region, form a regular lattice, are at rest and elastic, and have a stress of degree at most two in position that balances gravity (e.g. the hydrostatic or geostatic initial state). After k steps, every particle deeper in the region than k (2 reach of the spline + largest movement of a particle in a step) is exactly as it was at the beginning - same position, velocity zero, deformation gradient, stress, plastic record - and no other particle has come there, no matter what happens at the surface of the region, in the rest of the scene or at the walls outside of the region. This holds for every step and every particle file of the run.", "quantifier": "for all runs, regions, stresses and gravities in balance, states of the rest of the scene, plastic models with sensible parameters, flip ratios, with and without MUSL, dimensions, quadratic and cubic splines, and schedules of the threads; without periodic boundaries, change_particle_positions and gravity_special; weights in (0,1e-25], which the code drops, excluded", "why_tests_cant": "a test sees a small drift as rounding; that no disturbance is generated inside at any step of any run is a statement about all executions", "anchors": ["src/simulation/simulation.cpp:simulate", "src/simulation/p2g.cpp:P2G", "src/simulation/explicit_euler_update.cpp:explicitEulerUpdate", "src/simulation/g2p.cpp:G2P", "src/simulation/deformation_update.cpp:deformationUpdate", "src/simulation/plasticity.cpp:plasticity", "src/simulation/position_update.cpp:positionUpdate", "src/simulation/musl.cpp:MUSL"]}
{"id": "C126", "title": "A particle is as good as several lighter ones at the same place", "statement": "Replacing every particle by n particles of 1/n of its mass and volume, at the same place and in the same state, changes nothing: the run takes the same steps, ends in the same way, the particle files list every particle n times and the grid files are the same. More generally only the ratio of mass and volume of the particles counts: with both multiplied by any factor, or with every particle listed n times with the mass and volume it had, the particles move exactly as before, and only the masses in the grid files change by that factor.", "quantifier": "for all set-ups (walls, plates, periodic, MUSL, material-induced friction, all materials, flip ratios and spline degrees), particles, numbers n, factors, runs and schedules of the threads", "why_tests_cant": "a test can compare two runs; that the two runs agree step by step for every set-up is an invariance of the whole program", "anchors": ["src/simulation/simulation.cpp:simulate", "src/simulation/p2g.cpp:P2G", "src/simulation/explicit_euler_update.cpp:explicitEulerUpdate", "src/simulation/musl.cpp:MUSL", "src/simulation/update_dt.cpp:updateDt", "src/simulation/remesh.cpp:remeshFixedInit", "src/simulation/pbc.cpp:PBCAddParticles"]}
{"id": "C127", "title": "Walls that are never hit leave no trace", "statement": "Let a run end normally, and let certain plates and objects never be hit: in no step is a node of the grid with mass about to be inside one of them (the position it would reach with its velocity, changed by the stresses and gravity). Then the program without these plates and objects also ends normally, after the same steps at the same times, and its files hold the same particles, nodes and other plates. The plates may move. So a wall acts on the nodes that would enter it and on nothing else: not on the time step, the extent of the grid, the other walls or the constitutive law.", "quantifier": "for all set-ups without periodic boundaries (quadratic and cubic splines, with or without MUSL and material-induced friction, all materials), particles, plates and objects, choices of the walls to leave out, runs and schedules of the threads", "why_tests_cant": "a test compares a run with and without one wall; that the wall has no influence before it is hit concerns every set-up and every quantity of the state", "anchors": ["src/simulation/simulation.cpp:simulate", "src/simulation/boundary_collision.cpp:boundaryCollision", "src/simulation/explicit_euler_update.cpp:explicitEulerUpdate", "src/simulation/simulation.cpp:moveObjects", "src/objects/object_plate.hpp:move"]}
{"id": "C128", "title": "The mu(I) rheology with equal friction coefficients is Drucker-Prager", "statement": "A run with the mu(I) rheology of Drucker-Prager type (DPMui) with mu_1 = mu_2 = M and stress_tolerance = 0 is the run with the viscous Drucker-Prager model (DPVisc) with the same M and cohesion and no viscosity (visc_time = 0, visc_exponent = 1), with or without use_pradhana: both end in the same way after the same steps, write the same files, and in the files and at the end all particles have the same positions, velocities, affine matrices, deformation gradients, stresses and accumulated plastic strains. Only the saved rate, viscosity and friction coefficient (and the accumulated volume, if use_pradhana is off) can differ; the saved rate does differ: DPMui keeps the one of the last step when a particle stops flowing.", "quantifier": "for all Hencky materials with positive moduli, M, grain diameter and density and I_ref at least zero, all runs with a positive minimal time step and without use_mibf (all splines, with or without MUSL and periodic boundaries, plates, objects), particles and schedules of the threads", "why_tests_cant": "a test compares two models on a few stress states; that a limit of one model is the other along whole runs, including states at the tip and with volume correction, concerns all states", "anchors": ["src/simulation/plasticity.cpp:plasticity", "src/simulation/simulation.cpp:simulate"]}
{"id": "C129", "title": "A run remembers of a particle only what its material model reads", "statement": "Take two runs of the same set-up whose initial particles agree except for the saved rate (delta_gamma), viscosity and friction coefficient (muI) and those accumulated plastic strains that the material model does not read. Then both runs end in the same way after the same steps and write the same files, and in all files and at the end positions, velocities, affine matrices, deformation gradients, stresses and the accumulated strains that are read agree; with use_mibf, where the walls use muI, also muI agrees, because simulate sets it at the start. Read are: the plastic shear strain by DPSoft and VMVisc (if xi is not zero), the plastic volumetric strain by VMVisc (if xi is not zero) and by the Cam-Clay models with hardening, the volume correction by the Drucker-Prager models DPSoft, DPVisc and DPMui with use_pradhana; nothing by no plasticity, VM and DP. So these quantities may be given any value, e.g. when a simulation is set up from the files of another one.", "quantifier": "for all materials and runs that simulate accepts (all splines, flip ratios, with or without MUSL, use_mibf and periodic boundaries, plates, objects), particles, initial values of the quantities named, schedules of the threads", "why_tests_cant": "that a quantity is never read along any path of a whole run is a statement about pairs of runs for all values of the quantity", "anchors": ["src/simulation/plasticity.cpp:plasticity", "src/simulation/p2g.cpp:P2G", "src/simulation/g2p.cpp:G2P", "src/simulation/simulation.cpp:simulate"]}
{"id": "C130", "title": "A new simulation does not depend on remains of an earlier one in the grid and the helper variables", "statement": "Take two new simulations (no step made yet) of the same set-up, with the same gravity, whose particles and plates agree except for the interpolated velocities pic and flip of the particles and, if flip_ratio is not negative, their affine matrices, and whose grids (coordinates, box, masses, velocities, friction coefficients) may differ in any way. Then they are the same simulation: they end in the same way after the same steps, in the same final state, and write the same files; the file of the initial state has the same contents, too. At any later step the same holds as long as the box and the coordinates of the grid agree. With negative flip_ratio the affine matrices are read and so must agree.", "quantifier": "for all set-ups (all materials, splines, flip ratios, with or without MUSL, use_mibf and periodic boundaries, plates, objects), at least one frame, all particles and all values of the quantities named, all schedules of the threads; with periodic boundaries the box of the grid, which is never read then, is supposed to agree", "why_tests_cant": "that no step reads a stale value is a statement about pairs of runs for all stale values; a test compares some runs from a clean state", "anchors": ["src/simulation/g2p.cpp:G2P", "src/simulation/p2g.cpp:P2G", "src/simulation/remesh.cpp:remeshFixedInit", "src/simulation/simulation.cpp:simulate"]}
{"id": "C131", "title": "A periodic simulation can be restarted from its particles", "statement": "A simulation with periodic boundaries, started from a new Simulation object, has ended normally. Then it does not matter whether it is continued by calling simulate again or by a new Simulation object with the same settings that is given the particles (position, velocity, deformation, stress, plastic variables and, with negative flip_ratio, affine matrix), the plates and the gravity of the end: both make the same steps, end in the same way and in the same state and write the same files, except that the new object counts its steps from zero and that the interpolated velocities (and unused affine matrices) of the initial particles may differ. Without periodic boundaries this is not so: the new object builds its grid around the present particles, so its nodes lie at other places than those of the continued simulation.", "quantifier": "for all set-ups with periodic boundaries (all materials, splines, flip ratios, MUSL, plates, objects), all numbers of frames (at least one) of the first and the second part, all schedules of the threads; both parts with the same settings except for the number of frames", "why_tests_cant": "equality of two whole runs for all set-ups and particles; needs that the steps read nothing of the object but what is handed over", "anchors": ["src/simulation/simulation.cpp:simulate", "src/simulation/simulation.cpp:advanceStep", "src/simulation/remesh.cpp:remeshFixed", "src/simulation/g2p.cpp:G2P"]}
{"id": "C132", "title": "A simulation needs particles, and the program does not check that there are some", "statement": "A simulation that passes the checks of simulate, has at least one frame and no particles has undefined behaviour, whatever the other settings: the time step is computed from the largest velocity, i.e. from the largest element of an empty list. This can happen by accident: regularly sampling a box gives no particles if one of its sides is shorter than the particle spacing (dx / sqrt(ppc) in 2D, dx / cbrt(ppc) in 3D), and without a crop only then. With at least one particle the time step and the first grid are well defined, wherever the particles are and however fast they move.", "quantifier": "for all set-ups and initial states without particles; all boxes up to 2^31 particles wide, spacings, densities and crops, 2D and 3D; for the converse all set-ups with positive grid spacing and non-negative domain lengths and all non-empty lists of particles", "why_tests_cant": "undefined behaviour may go unnoticed in any test; the converse is about all particle lists", "anchors": ["src/simulation/update_dt.cpp:updateDt", "src/simulation/simulation.cpp:simulate", "src/simulation/remesh.cpp:remeshFixedInit", "src/sampling/regular_sampling_particles.hpp:regularSampleParticles"]}

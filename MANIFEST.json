{
 "claims": [
  {
   "property": "C01",
   "status": "proved",
   "theorems": [
    "Verif.Props.C01_total",
    "Verif.Props.C01_bounds"
   ],
   "note": "Exact equality under NoTinyWeights (the code drops weights <= 1e-25); C01_bounds gives two-sided bounds without that hypothesis."
  },
  {
   "property": "C02",
   "status": "proved",
   "theorems": [
    "Verif.Props.C02_momentum"
   ],
   "note": ""
  },
  {
   "property": "C03",
   "status": "proved",
   "theorems": [
    "Verif.Props.C03_p2g",
    "Verif.Props.C03_musl"
   ],
   "note": ""
  },
  {
   "property": "C04",
   "status": "proved",
   "theorems": [
    "Verif.Props.C04_step"
   ],
   "note": ""
  },
  {
   "property": "C05",
   "status": "proved",
   "theorems": [
    "Verif.Props.C05_run"
   ],
   "note": "Without periodic boundaries; grid inside-ness of each step is a hypothesis discharged by C13/C14."
  },
  {
   "property": "C06",
   "status": "proved",
   "theorems": [
    "Verif.Props.C06_p2g",
    "Verif.Props.C06_step"
   ],
   "note": ""
  },
  {
   "property": "C07",
   "status": "proved",
   "theorems": [
    "Verif.Props.C07_free_fall",
    "Verif.Props.C07_rigid"
   ],
   "note": ""
  },
  {
   "property": "C08",
   "status": "proved",
   "theorems": [
    "Verif.Props.C08_g2p",
    "Verif.Props.C08_p2g"
   ],
   "note": ""
  },
  {
   "property": "C09",
   "status": "proved",
   "theorems": [
    "Verif.Props.C09_p2g",
    "Verif.Props.C09_g2p"
   ],
   "note": ""
  },
  {
   "property": "C10",
   "status": "proved",
   "theorems": [
    "Verif.Props.C10_p2g",
    "Verif.Props.C10_g2p"
   ],
   "note": ""
  },
  {
   "property": "C11",
   "status": "proved",
   "theorems": [
    "Verif.Props.C11_nonneg",
    "Verif.Props.C11_sum_one",
    "Verif.Props.C11_first_moment",
    "Verif.Props.C11_grad_sum_zero",
    "Verif.Props.C11_grad_linear",
    "Verif.Props.C11_support"
   ],
   "note": ""
  },
  {
   "property": "C12",
   "status": "proved",
   "theorems": [
    "Verif.Props.C12_gradient",
    "Verif.Props.C12_derivative",
    "Verif.Props.C12_second_derivative",
    "Verif.Props.C12_continuous"
   ],
   "note": ""
  },
  {
   "property": "C13",
   "status": "proved",
   "theorems": [
    "Verif.Props.C13_first_step",
    "Verif.Props.C13_box"
   ],
   "note": ""
  },
  {
   "property": "C14",
   "status": "partial",
   "theorems": [
    "Verif.Props.C14_later_steps_partial",
    "Verif.Props.C14_false",
    "Verif.Props.C14_false_low",
    "Verif.Props.C14_exact"
   ],
   "note": "False when the particle box has moved by a whole number of cells plus at most 1e-8 dx (C14_false, C14_false_low are witnesses). C14_later_steps_partial holds outside that window; C14_exact characterises the safe positions."
  },
  {
   "property": "C15",
   "status": "proved",
   "theorems": [
    "Verif.Props.C15_lattice",
    "Verif.Props.C15_increasing",
    "Verif.Props.C15_border"
   ],
   "note": ""
  },
  {
   "property": "C16",
   "status": "proved",
   "theorems": [
    "Verif.Props.C16_bijection",
    "Verif.Props.C16_formula",
    "Verif.Props.C16_no_overflow",
    "Verif.Props.C16_overflow_collision",
    "Verif.Props.C16_saved_rows"
   ],
   "note": ""
  },
  {
   "property": "C17",
   "status": "proved",
   "theorems": [
    "Verif.Props.C17_dt",
    "Verif.Props.C17_defined"
   ],
   "note": ""
  },
  {
   "property": "C18",
   "status": "proved",
   "theorems": [
    "Verif.Props.C18_time",
    "Verif.Props.C18_short_frames_lost"
   ],
   "note": "C18_short_frames_lost shows the lower bound on the frame interval is needed."
  },
  {
   "property": "C19",
   "status": "proved",
   "theorems": [
    "Verif.Props.C19_memory",
    "Verif.Props.C19_files",
    "Verif.Props.C19_no_frames",
    "Verif.Props.C19_no_saving"
   ],
   "note": ""
  },
  {
   "property": "C20",
   "status": "proved",
   "theorems": [
    "Verif.Props.C20_terminates",
    "Verif.Props.C20_limit_irrelevant"
   ],
   "note": ""
  },
  {
   "property": "C21",
   "status": "proved",
   "theorems": [
    "Verif.Props.C21_error_stops",
    "Verif.Props.C21_output_kept",
    "Verif.Props.C21_failed_iff"
   ],
   "note": ""
  },
  {
   "property": "C22",
   "status": "proved",
   "theorems": [
    "Verif.Props.C22_refused"
   ],
   "note": ""
  },
  {
   "property": "C23",
   "status": "proved",
   "theorems": [
    "Verif.Props.C23_gravity",
    "Verif.Props.C23_monotone",
    "Verif.Props.C23_second_run_false"
   ],
   "note": "C23_second_run_false: calling simulate() a second time ramps to the wrong gravity."
  },
  {
   "property": "C24",
   "status": "proved",
   "theorems": [
    "Verif.Props.C24_no_trace",
    "Verif.Props.C24_column",
    "Verif.Props.C24_ghost_particles"
   ],
   "note": ""
  },
  {
   "property": "C25",
   "status": "proved",
   "theorems": [
    "Verif.Props.C25_inside",
    "Verif.Props.C25_periodic",
    "Verif.Props.PerEx.C25_edge_false"
   ],
   "note": "x < Lx is needed: C25_edge_false."
  },
  {
   "property": "C26",
   "status": "proved",
   "theorems": [
    "Verif.Props.C26_wrap",
    "Verif.Props.C26_large_step_false"
   ],
   "note": "Displacements of more than one period leave the domain: C26_large_step_false."
  },
  {
   "property": "C27",
   "status": "proved",
   "theorems": [
    "Verif.Props.C27_plate2",
    "Verif.Props.C27_plate3",
    "Verif.Props.C27_object2",
    "Verif.Props.C27_object3"
   ],
   "note": ""
  },
  {
   "property": "C28",
   "status": "proved",
   "theorems": [
    "Verif.Props.C28_plates2",
    "Verif.Props.C28_plates3",
    "Verif.Props.C28_object2",
    "Verif.Props.C28_object3"
   ],
   "note": ""
  },
  {
   "property": "C29",
   "status": "partial",
   "theorems": [
    "Verif.Props.C29_plate2",
    "Verif.Props.C29_object2",
    "Verif.Props.C29_object3",
    "Verif.Props.C29_plate3_partial",
    "Verif.Props.C29_plate3_false"
   ],
   "note": "Holds for objects and for plates in 2D; false for plates in 3D, where the first tangential component is overwritten before the second is computed (C29_plate3_false)."
  },
  {
   "property": "C30",
   "status": "proved",
   "theorems": [
    "Verif.Props.C30_energy2",
    "Verif.Props.C30_energy3",
    "Verif.Props.C30_relative2",
    "Verif.Props.C30_relative3"
   ],
   "note": ""
  },
  {
   "property": "C31",
   "status": "proved",
   "theorems": [
    "Verif.Props.C31_untouched2",
    "Verif.Props.C31_untouched3"
   ],
   "note": ""
  },
  {
   "property": "C32",
   "status": "proved",
   "theorems": [
    "Verif.Props.C32_motion2",
    "Verif.Props.C32_motion3",
    "Verif.Props.C32_first_step_unscaled"
   ],
   "note": "The load factor is not applied in the very first step (C32_first_step_unscaled)."
  },
  {
   "property": "C33",
   "status": "partial",
   "theorems": [
    "Verif.Props.C33_bump",
    "Verif.Props.C33_curve",
    "Verif.Props.C33_gate",
    "Verif.Props.C33_ramp",
    "Verif.Props.C33_ground2",
    "Verif.Props.C33_ground3_iff",
    "Verif.Props.C33_ground3_false",
    "Verif.Props.C33_silo"
   ],
   "note": "Holds for every shipped object except ObjectGround in 3D, which leaves the third component of the normal uninitialised (C33_ground3_false; C33_ground3_iff says when it is fine)."
  },
  {
   "property": "C34",
   "status": "proved",
   "theorems": [
    "Verif.Props.C34_vonMises"
   ],
   "note": ""
  },
  {
   "property": "C35",
   "status": "proved",
   "theorems": [
    "Verif.Props.C35_druckerPrager"
   ],
   "note": ""
  },
  {
   "property": "C36",
   "status": "proved",
   "theorems": [
    "Verif.Props.C36_softening"
   ],
   "note": ""
  },
  {
   "property": "C37",
   "status": "proved",
   "theorems": [
    "Verif.Props.C37_viscousVonMises",
    "Verif.Props.C37_monotone"
   ],
   "note": ""
  },
  {
   "property": "C38",
   "status": "partial",
   "theorems": [
    "Verif.Props.C38_viscousDruckerPrager",
    "Verif.Props.C38_tip_false"
   ],
   "note": "A trial pressure exactly at the tip is left unprojected by DPVisc and DPMui (C38_tip_false); everything else is proved for exponent one without softening; other exponents are in C51 and C71."
  },
  {
   "property": "C39",
   "status": "proved",
   "theorems": [
    "Verif.Props.C39_camClay",
    "Verif.Props.C39_muI",
    "Verif.Props.C39_other",
    "Verif.Props.C39_reverse_shear"
   ],
   "note": "With cohesion and tension the shear stress may fall below the static yield stress or reverse (C39_reverse_shear); tip increments are not divided by dt and the volume bookkeeping is always on (C39_other). C39_camClay covers the mu(I) Cam-Clay model."
  },
  {
   "property": "C40",
   "status": "proved",
   "theorems": [
    "Verif.Props.C40_explicit",
    "Verif.Props.C40_explicit_defined",
    "Verif.Props.C40_explicitOnevar",
    "Verif.Props.C40_implicitThree",
    "Verif.Props.C40_implicitExponential",
    "Verif.Props.C40_implicitSinh",
    "Verif.Props.C40_camClay",
    "Verif.Props.C40_camClay_defined",
    "Verif.Props.C40_viscousCamClay"
   ],
   "note": "For runs without an undefined floating point operation; C40_explicit_defined and C40_camClay_defined prove that there is none for the explicit mappings. The unqualified abs is a parameter. Covers also the viscous and mu(I) variants and the mappings no model calls."
  },
  {
   "property": "C41",
   "status": "proved",
   "theorems": [
    "Verif.Props.C41_implicit",
    "Verif.Props.C41_exponential",
    "Verif.Props.C41_sinh"
   ],
   "note": "Both implicit laws, whenever some shear stress is left (otherwise the pressure was clipped to an end of the ellipse)."
  },
  {
   "property": "C42",
   "status": "proved",
   "theorems": [
    "Verif.Props.C42_neoHookean_run",
    "Verif.Props.C42_stored",
    "Verif.Props.C42_hencky",
    "Verif.Props.C42_neoHookean",
    "Verif.Props.C42_neoHookean_defined",
    "Verif.Props.C42_elastic",
    "Verif.Props.C42_capped_false"
   ],
   "note": "Every plastic model at once; the exception named in the statement is C42_capped_false (general and with a concrete state). Neo-Hookean: exactly the deformations with a positive determinant have a stress (C42_neoHookean_defined; otherwise it is not a number, outcome `none`), and it is that in the files of a run (C42_neoHookean_run)."
  },
  {
   "property": "C43",
   "status": "proved",
   "theorems": [
    "Verif.Props.C43_invariants",
    "Verif.Props.C43_any"
   ],
   "note": "Any dimension, any decomposition of the stored deformation gradient."
  },
  {
   "property": "C44",
   "status": "proved",
   "theorems": [
    "Verif.Props.C44_symmetric",
    "Verif.Props.C44_objective",
    "Verif.Props.C44_undeformed",
    "Verif.Props.C44_henckyPiola",
    "Verif.Props.C44_neoHookeanPiola"
   ],
   "note": "Objectivity and isotropy of the whole update including all plastic models, with unrelated decompositions in the two calls."
  },
  {
   "property": "C45",
   "status": "proved",
   "theorems": [
    "Verif.Props.C45_regular2",
    "Verif.Props.C45_regular3",
    "Verif.Props.C45_regularVdb2",
    "Verif.Props.C45_regularVdb3",
    "Verif.Props.C45_inside",
    "Verif.Props.C45_spacing",
    "Verif.Props.C45_mass",
    "Verif.Props.C45_defined2",
    "Verif.Props.C45_defined3"
   ],
   "note": "Box and level-set variants, 2D and 3D, with crop; C45_defined2/3 give conditions for the call being defined."
  },
  {
   "property": "C46",
   "status": "proved",
   "theorems": [
    "Verif.Props.C46_random2",
    "Verif.Props.C46_random3",
    "Verif.Props.C46_randomVdb2",
    "Verif.Props.C46_randomVdb3",
    "Verif.Props.C46_mass"
   ],
   "note": "The points returned by the external Poisson sampler are a parameter, so the theorems hold for whatever it returns."
  },
  {
   "property": "C47",
   "status": "proved",
   "theorems": [
    "Verif.Props.C47_blend"
   ],
   "note": ""
  },
  {
   "property": "C48",
   "status": "proved",
   "theorems": [
    "Verif.Props.C48_musl"
   ],
   "note": ""
  },
  {
   "property": "C49",
   "status": "proved",
   "theorems": [
    "Verif.Props.C49_means",
    "Verif.Props.C49_bounds",
    "Verif.Props.C49_homogeneous",
    "Verif.Props.C49_virial"
   ],
   "note": "Weighted means, component-wise bounds and the homogeneous case."
  },
  {
   "property": "C50",
   "status": "proved",
   "theorems": [
    "Verif.Props.C50_friction",
    "Verif.Props.C50_own",
    "Verif.Props.C50_grid"
   ],
   "note": ""
  },
  {
   "property": "C51",
   "status": "proved",
   "theorems": [
    "Verif.Props.C51_vonMises",
    "Verif.Props.C51_druckerPrager",
    "Verif.Props.C51_defined"
   ],
   "note": "VMVisc, DPVisc for exponents without closed form; MCCVisc within C40_viscousCamClay, there for a trial shear stress not below the ellipse point."
  },
  {
   "property": "C52",
   "status": "proved",
   "theorems": [
    "Verif.Props.C52_search",
    "Verif.Props.C52_no_limit"
   ],
   "note": "All 64 trials are characterised; C52_no_limit shows that the bound of the model does not cut the loop off."
  },
  {
   "property": "C53",
   "status": "proved",
   "theorems": [
    "Verif.Props.C53_deforms",
    "Verif.Props.C53_hat"
   ],
   "note": ""
  },
  {
   "property": "C54",
   "status": "proved",
   "theorems": [
    "Verif.Props.C54_p2g_nodes"
   ],
   "note": ""
  },
  {
   "property": "C55",
   "status": "proved",
   "theorems": [
    "Verif.Props.C55_g2p_sums"
   ],
   "note": ""
  },
  {
   "property": "C56",
   "status": "proved",
   "theorems": [
    "Verif.Props.C56_vonMises",
    "Verif.Props.C56_druckerPrager",
    "Verif.Props.C56_elastic"
   ],
   "note": "Whole-run statements about the files written by the modelled program; the singular value decomposition is any function meeting its contract."
  },
  {
   "property": "C57",
   "status": "proved",
   "theorems": [
    "Verif.Props.C57_momentum"
   ],
   "note": "The excluded weights are those in (0,1e-25], in the steps actually taken."
  },
  {
   "property": "C58",
   "status": "proved",
   "theorems": [
    "Verif.Props.C58_only_window",
    "Verif.Props.C58_window_reached"
   ],
   "note": "For the models listed in Robust (total plastic update); the window itself is C14. C58_window_reached exhibits a run that crashes there."
  },
  {
   "property": "C59",
   "status": "proved",
   "theorems": [
    "Verif.Props.C59_same_particles",
    "Verif.Props.C59_plastic_strain"
   ],
   "note": "C59_plastic_strain for the models listed in Accumulates."
  },
  {
   "property": "C60",
   "status": "proved",
   "theorems": [
    "Verif.Props.C60_free_fall"
   ],
   "note": "Decomposition arbitrary; all plastic models; StressFreeOk lists the parameters (a yield surface that contains the stress-free state) and excludes a cohesion in (0,1e-10), for which DP projects the stress-free state to the tip. The excluded weights are those in (0,1e-25]."
  },
  {
   "property": "C61",
   "status": "proved",
   "theorems": [
    "Verif.Props.C61_completes",
    "Verif.Props.C61_rest"
   ],
   "note": "NeverFails/Robust list the models: elastic, von Mises, Drucker-Prager with and without softening, mu(I) Drucker-Prager, Cam clay with explicit hardening, viscous von Mises (xi = 0) and viscous Drucker-Prager with exponent one. C61_rest covers all plastic models for which the stress-free state is admissible (StressFreeOk; MCCMui needs a hardening law) and asks for the weights on the fixed lattice only."
  },
  {
   "property": "C62",
   "status": "proved",
   "theorems": [
    "Verif.Props.C62_threads",
    "Verif.Props.C62_order"
   ],
   "note": "Exact arithmetic; the two parts compose. The environment's choices (decomposition, abs overload) are the same in both runs."
  },
  {
   "property": "C63",
   "status": "proved",
   "theorems": [
    "Verif.Props.C63_shift2",
    "Verif.Props.C63_shift3"
   ],
   "note": "Exact arithmetic; excludes pbc and change_particle_positions, whose coordinates are absolute. Objects are arbitrary functions of the position and are moved by precomposition."
  },
  {
   "property": "C64",
   "status": "partial",
   "theorems": [
    "Verif.Props.C64_update",
    "Verif.Props.C64_muI_tip_false",
    "Verif.Props.C64_stale_false",
    "Verif.Props.C64_run_partial",
    "Verif.Props.C64_run_usl_partial"
   ],
   "note": "Holds with MUSL for every model but DPMui (C64_run_partial). Without MUSL nothing resets the rate of a particle that stops flowing (C64_stale_false; C64_run_usl_partial states what holds); DPMui stores the increment instead of the rate at the tip (C64_muI_tip_false)."
  },
  {
   "property": "C65",
   "status": "proved",
   "theorems": [
    "Verif.Props.C65_volume",
    "Verif.Props.C65_shear",
    "Verif.Props.C65_mccMui",
    "Verif.Props.C65_step_musl",
    "Verif.Props.C65_step_usl",
    "Verif.Props.C65_step"
   ],
   "note": "Every plastic model; C65_mccMui is the weaker statement for MCCMui, whose code skips the bookkeeping within the stress tolerance."
  },
  {
   "property": "C66",
   "status": "proved",
   "theorems": [
    "Verif.Props.C66_vonMises",
    "Verif.Props.C66_druckerPrager",
    "Verif.Props.C66_softening",
    "Verif.Props.C66_viscousVonMises",
    "Verif.Props.C66_viscousDruckerPrager",
    "Verif.Props.C66_muI",
    "Verif.Props.C66_gap_false"
   ],
   "note": "C66_gap_false shows that the gap above the tip has to be excluded for DP with cohesion."
  },
  {
   "property": "C67",
   "status": "partial",
   "theorems": [
    "Verif.Props.C67_step",
    "Verif.Props.C67_free_fall_partial",
    "Verif.Props.C67_run",
    "Verif.Props.PerEx.C67_free_fall_false"
   ],
   "note": "Momentum balance (C67_step, C67_run) holds for USL and MUSL. Uniform motion without deformation holds without MUSL (C67_free_fall_partial) and is false with MUSL (C67_free_fall_false): the grid mass includes the ghosts, the re-projected momentum does not. The excluded weights are those in (0,1e-25]."
  },
  {
   "property": "C68",
   "status": "proved",
   "theorems": [
    "Verif.Props.C68_only_outside",
    "Verif.Props.C68_outside",
    "Verif.Props.C68_completes"
   ],
   "note": "Without material-induced friction, for the models listed in Robust/NeverFails. Between L+4dx and L+5dx beyond the upper sides the outcome depends on the rounding of the number of nodes."
  },
  {
   "property": "C69",
   "status": "proved",
   "theorems": [
    "Verif.Props.C69_step",
    "Verif.Props.C69_run"
   ],
   "note": "The walls in C69_run move and act as the modelled boundaryCollision says; the excluded weights are those in (0,1e-25]."
  },
  {
   "property": "C70",
   "status": "proved",
   "theorems": [
    "Verif.Props.C70_step",
    "Verif.Props.C70_node",
    "Verif.Props.C70_run",
    "Verif.Props.C70_exact_false"
   ],
   "note": "C70_run; hypothesis hcov excludes nodes that would pass the ends of the plate. C70_exact_false shows that particles do get below the floor itself."
  },
  {
   "property": "C71",
   "status": "partial",
   "theorems": [
    "Verif.Props.RunEx.C71_tip_false",
    "Verif.Props.C71_viscousDruckerPrager_partial",
    "Verif.Props.C71_isochoric_shear",
    "Verif.Props.C71_viscousDruckerPrager_bound_partial",
    "Verif.Props.C71_muI_partial",
    "Verif.Props.C71_softening",
    "Verif.Props.C71_camClay",
    "Verif.Props.C71_viscousVonMises",
    "Verif.Props.C71_viscousDruckerPrager_exponent_partial",
    "Verif.Props.C71_viscousVonMises_exponent"
   ],
   "note": "The claim without exception is false for DPVisc and DPMui (C71_tip_false, C71_isochoric_shear): missing are states exactly at the (shifted) tip and, for DPMui, negative pressures. C71_softening, C71_camClay and C71_viscousVonMises are complete. For exponents other than one (or softening with viscosity) the flow law holds up to the tolerance 0.01 of the iteration (C71_*_exponent)."
  },
  {
   "property": "C72",
   "status": "proved",
   "theorems": [
    "Verif.Props.C72_step",
    "Verif.Props.C72_run"
   ],
   "note": "C72_step, C72_run. The excluded weights are those in (0,1e-25]."
  },
  {
   "property": "C73",
   "status": "proved",
   "theorems": [
    "Verif.Props.C73_coulomb",
    "Verif.Props.C73_sliding"
   ],
   "note": "C73_coulomb (2D and 3D), C73_sliding (2D, one plate). SlipStick walls pull, so the law is not stated for them. Whether a node slides is a hypothesis on the node velocities before the wall acts."
  },
  {
   "property": "C74",
   "status": "partial",
   "theorems": [
    "Verif.Props.C74_hooke3",
    "Verif.Props.C74_hooke2",
    "Verif.Props.C74_courant",
    "Verif.Props.C74_courant_false"
   ],
   "note": "Hooke's law is proved (C74_hooke3, C74_hooke2). The expectation on the time step is false: dt_max uses sqrt(E/rho), the speed of waves in a thin rod, not that of pressure waves (C74_courant gives the exact number of cells, C74_courant_false is the witness)."
  },
  {
   "property": "C75",
   "status": "proved",
   "theorems": [
    "Verif.Props.C75_mpm2",
    "Verif.Props.C75_mpm3",
    "Verif.Props.C75_not_copied",
    "Verif.Props.C75_initialize"
   ],
   "note": "C75_mpm2, C75_mpm3, C75_not_copied, C75_initialize. examples/collapse.cpp is the same file. The run is only known to end if no step starts in a critical position (C58_window_reached shows that the hypothesis is needed in general)."
  },
  {
   "property": "C76",
   "status": "partial",
   "theorems": [
    "Verif.Props.C76_density2",
    "Verif.Props.C76_density3",
    "Verif.Props.C76_order_false"
   ],
   "note": "C76_density2, C76_density3 for rho set before sampling; C76_order_false is the shipped example that sets it afterwards."
  },
  {
   "property": "C77",
   "status": "proved",
   "theorems": [
    "Verif.Props.C77_rows",
    "Verif.Props.C77_mass",
    "Verif.Props.C77_momentum"
   ],
   "note": "C77_rows, C77_mass, C77_momentum."
  },
  {
   "property": "C78",
   "status": "partial",
   "theorems": [
    "Verif.Props.RunEx.C78_musl_false",
    "Verif.Props.C78_usl",
    "Verif.Props.C78_noslip",
    "Verif.Props.C78_musl"
   ],
   "note": "C78_usl and C78_noslip without MUSL; with MUSL the claim is false (C78_musl_false), C78_musl says what the rows contain."
  },
  {
   "property": "C79",
   "status": "partial",
   "theorems": [
    "Verif.Props.C79_explicit",
    "Verif.Props.C79_explicitOnevar",
    "Verif.Props.C79_camClay",
    "Verif.Props.C79_normal",
    "Verif.Props.C79_accuracy",
    "Verif.Props.C79_implicitExponential",
    "Verif.Props.C79_camClay_implicit",
    "Verif.Props.C79_newton_step",
    "Verif.Props.C79_implicit_root",
    "Verif.Props.C79_implicit_stiffness_false",
    "Verif.Props.C79_implicitSinh_partial",
    "Verif.Props.C79_sinh_false"
   ],
   "note": "Explicit hardening: C79_explicit, C79_explicitOnevar (the one-variable variant), C79_camClay, C79_normal, C79_accuracy. Implicit exponential hardening: C79_implicitExponential, C79_camClay_implicit, C79_newton_step, C79_implicit_root; the equations solved have mu in place of the shear stiffness, C79_implicit_stiffness_false. Implicit sinh hardening: C79_implicitSinh_partial; the slope used is not the derivative of the law, C79_sinh_false."
  },
  {
   "property": "C80",
   "status": "proved",
   "theorems": [
    "Verif.Props.C80_vonMises",
    "Verif.Props.C80_druckerPrager",
    "Verif.Props.C80_camClay"
   ],
   "note": "C80_vonMises, C80_druckerPrager, C80_camClay (Perzyna law with the yield stress not above the trial stress)."
  },
  {
   "property": "C81",
   "status": "proved",
   "theorems": [
    "Verif.Props.C81_step",
    "Verif.Props.C81_run",
    "Verif.Props.RunEx.C81_default_false"
   ],
   "note": "C81_step is the balance of a step with arbitrary walls, C81_run the conservation in all files. The loss with the default flip_ratio is RunEx.C81_default_false. As in C57, no particle may be so close to the edge of a cell that the cut-off of tiny weights acts."
  },
  {
   "property": "C82",
   "status": "partial",
   "theorems": [
    "Verif.Props.C82_constant",
    "Verif.Props.C82_camClay",
    "Verif.Props.C82_camClay_implicit",
    "Verif.Props.C82_viscousCamClay",
    "Verif.Props.C82_camClay_nonneg",
    "Verif.Props.C82_noHard_false",
    "Verif.Props.C82_druckerPrager",
    "Verif.Props.C82_tension_negative",
    "Verif.Props.C82_cohesion_false",
    "Verif.Props.C82_run_constant",
    "Verif.Props.C82_run_camClay",
    "Verif.Props.C82_run_camClay_implicit",
    "Verif.Props.C82_run_camClay_nonneg",
    "Verif.Props.C82_run_viscous",
    "Verif.Props.C82_run_muI"
   ],
   "note": "C82_run_* are the run-level theorems, the others the update-level ones. False of the code in two cases: viscous Drucker-Prager material with cohesion gets negative coefficients under slight tension, with which a plate speeds up the flow along it (C82_cohesion_false, C82_tension_negative), and Cam-Clay without hardening reads an uninitialised variable (C82_noHard_false). With implicit hardening a state clipped to an end of the ellipse may get zero: between zero and M with the exponential law (C82_run_camClay_implicit), never negative for any Cam-Clay variant (C82_run_camClay_nonneg)."
  },
  {
   "property": "C83",
   "status": "proved",
   "theorems": [
    "Verif.Props.C83_plastic",
    "Verif.Props.C83_step",
    "Verif.Props.C83_run",
    "Verif.Props.C83_run_speed",
    "Verif.Props.RunEx.C83_cfl_false",
    "Verif.Props.C83_gradient"
   ],
   "note": "C83_run and C83_run_speed are the run-level theorems. C83_cfl_false shows that the time step limits of the program (cfl, cfl_elastic) do not suffice: a particle at rest with a strongly squeezing affine field (APIC) is turned inside out in its first step."
  },
  {
   "property": "C84",
   "status": "proved",
   "theorems": [
    "Verif.Props.C84_names",
    "Verif.Props.C84_separate",
    "Verif.Props.C84_directory",
    "Verif.Props.C84_leftover",
    "Verif.Props.C84_silent",
    "Verif.Props.C84_aborted",
    "Verif.Props.C84_anytime",
    "Verif.Props.C84_last_written_false",
    "Verif.Props.C84_printed",
    "Verif.Props.C84_printed_nat",
    "Verif.Props.C84_printed_false"
   ],
   "note": "C84_last_written_false: the frame named in last_written.txt itself may be incomplete at that moment, because the stream of the particle file is only closed afterwards. C84_leftover: files of frames beyond end_frame and grid_f0.ply from earlier runs stay. C84_printed_false: dx read from info.txt is in general not the one of the run. Failures of the file system are not modelled."
  },
  {
   "property": "C85",
   "status": "proved",
   "theorems": [
    "Verif.Props.C85_particles",
    "Verif.Props.C85_grid"
   ],
   "note": "The library tinyply is not part of the repository; it is modelled by its contract: values vertex by vertex in the order in which the properties were added."
  },
  {
   "property": "C86",
   "status": "proved",
   "theorems": [
    "Verif.Props.C86_step",
    "Verif.Props.RunEx.C86_corner_false",
    "Verif.Props.RunEx.C86_default_false",
    "Verif.Props.C86_run_step",
    "Verif.Props.C86_run"
   ],
   "note": "C86_default_false: not true for the default flip_ratio -0.95 (-1 <= flip_ratio < 0). C86_corner_false: not true where terrain objects overlap. With MUSL the stresses work on another velocity gradient than the one that changes F; the balance of single steps is stated with the former."
  },
  {
   "property": "C87",
   "status": "proved",
   "theorems": [
    "Verif.Props.C87_run2",
    "Verif.Props.C87_run3",
    "Verif.Props.C87_files2",
    "Verif.Props.C87_particle_columns",
    "Verif.Props.C87_grid_columns",
    "Verif.Props.RunEx.C87_mesh_false",
    "Verif.Props.RunEx.C87_dp_false"
   ],
   "note": "Scales.Fits lists what each plastic model allows. C87_mesh_false: without periodic boundaries the mesh depends on the unit of length. C87_dp_false: plain Drucker-Prager depends on the unit of stress."
  },
  {
   "property": "C88",
   "status": "proved",
   "theorems": [
    "Verif.Props.C88_convention2",
    "Verif.Props.C88_convention3"
   ],
   "note": "C87_dp_false shows it false for plain Drucker-Prager. The Cam-Clay models and mu(I) are not covered: for them q enters stopping criteria and ellipses with fixed numbers."
  },
  {
   "property": "C89",
   "status": "proved",
   "theorems": [
    "Verif.Props.C89_vonMises",
    "Verif.Props.C89_druckerPrager",
    "Verif.Props.C89_softening",
    "Verif.Props.C89_muI",
    "Verif.Props.C89_viscousDruckerPrager",
    "Verif.Props.C89_camClay",
    "Verif.Props.C89_viscousVonMises"
   ],
   "note": "One theorem per plastic model. Cam-Clay: the hardening laws without hardening and the implicit ones; the explicit ones are C79. C89_viscousDruckerPrager is for visc_exponent = 1 and without use_pradhana; C89_viscousVonMises above the tension cut-off and up to the tolerance 1e-2 of its solver. C89_softening gives a strain not above the saved one: the code uses the strain before the step."
  },
  {
   "property": "C90",
   "status": "proved",
   "theorems": [
    "Verif.Props.C90_readme2",
    "Verif.Props.C90_readme3",
    "Verif.Props.C90_defaults"
   ],
   "note": "The run is only known to end if no step starts in a critical position (C58_window_reached); particles stay above -3/2 dx if the free velocities do not carry a node beyond the plate's length 1e15."
  },
  {
   "property": "C91",
   "status": "proved",
   "theorems": [
    "Verif.Props.C91_cube2",
    "Verif.Props.C91_cube3"
   ],
   "note": "The run is only known to end if no step starts in a critical position (C58_window_reached). The motion of the centre of mass needs that no weight is below 1e-25 without being zero (NoTinyWeights), as in C57. The density of the example is C76_order_false."
  },
  {
   "property": "C92",
   "status": "proved",
   "theorems": [
    "Verif.Props.C92_run",
    "Verif.Props.C92_constant",
    "Verif.Props.C92_camClay",
    "Verif.Props.C92_druckerPrager",
    "Verif.Props.C92_columns",
    "Verif.Props.InputEx.C92_tiny_false"
   ],
   "note": "Without periodic boundaries (there the code reads coefficients of ghosts outside of the array). Cam-Clay needs a hardening law (with NoHard the code reads an uninitialised p_c). C92_tiny_false: with visc_time = 0 the ratio of shear stress and pressure after flow is M, but the code stores 1e10 at pressures below 1e-10, hence the condition in C92_druckerPrager. C92_run is the general statement: a run in which all coefficients are M."
  },
  {
   "property": "C93",
   "status": "proved",
   "theorems": [
    "Verif.Props.C93_measured",
    "Verif.Props.C93_error",
    "Verif.Props.C93_true"
   ],
   "note": "On the particles of every saved frame (computeAvgData reads the particles as they are; after simulate these are the ones of the last frame). The example is a body held in place by terrain."
  },
  {
   "property": "C94",
   "status": "proved",
   "theorems": [
    "Verif.Props.C94_step",
    "Verif.Props.C94_unused",
    "Verif.Props.C94_file"
   ],
   "note": "C94_step is stated for one step of the whole program and used for runs."
  },
  {
   "property": "C95",
   "status": "proved",
   "theorems": [
    "Verif.Props.C95_druckerPrager",
    "Verif.Props.C95_plainDruckerPrager",
    "Verif.Props.C95_vonMises",
    "Verif.Props.C95_camClay",
    "Verif.Props.RunEx.C95_tip_false"
   ],
   "note": "The exceptions are part of the statement; C95_tip_false is a run in which DPSoft and DPVisc differ at the tip. The conditions on a run are stated on the saved quantities of the particles before and after each step (EveryStep)."
  },
  {
   "property": "C96",
   "status": "proved",
   "theorems": [
    "Verif.Props.C96_surface",
    "Verif.Props.C96_plane",
    "Verif.Props.C96_normal",
    "Verif.Props.C96_energy",
    "Verif.Props.C96_unfilled",
    "Verif.Props.C96_regular2",
    "Verif.Props.C96_regular3",
    "Verif.Props.C96_random2",
    "Verif.Props.C96_random3",
    "Verif.Props.C96_file"
   ],
   "note": "OpenVDB itself is modelled by its documented behaviour: trilinear BoxSampler, second-order central differences at active voxels, uniform voxels; values are real numbers instead of float. The box of active voxels is a parameter of the sampling theorems. C96_unfilled shows why the comment in object_vdb.hpp asks to fill the interior."
  },
  {
   "property": "C97",
   "status": "proved",
   "theorems": [
    "Verif.Props.C97_separate_bodies",
    "Verif.Props.C97_reference_point"
   ],
   "note": "Exact arithmetic, no periodic boundaries. The run with the group alone is assumed not to leave its own grid (the window of C14); the run with everything is assumed to end normally."
  },
  {
   "property": "C98",
   "status": "proved",
   "theorems": [
    "Verif.Props.C98_files",
    "Verif.Props.C98_end",
    "Verif.Props.C98_terminates",
    "Verif.Props.C98_terminates_limits",
    "Verif.Props.C98_terminates_false",
    "Verif.Props.C98_exact"
   ],
   "note": "The roundings of each operation on times are modelled (relative error at most u, no overflow, underflow or contraction to fused operations); speeds, gravity and physics are arbitrary functions. trunc_floats shows that numbers with p binary digits rounded to zero meet the assumptions. C98_terminates_false: min_dt alone does not make the loop end, the time may stop (default min_dt, 53 digits, 128 seconds, an extremely fast particle)."
  },
  {
   "property": "C99",
   "status": "partial",
   "theorems": [
    "Verif.Props.C99_first_step",
    "Verif.Props.C99_later_steps_partial"
   ],
   "note": "One direction at a time (the code treats directions alike); splines of degree 1, 2 and 3. Later steps: the claim without the window is false also in exact arithmetic (C14_false), so C99_later_steps_partial assumes that the outermost particles are off a window, which contains that of C14 and grows with the rounding error."
  },
  {
   "property": "C100",
   "status": "proved",
   "theorems": [
    "Verif.Props.C100_order",
    "Verif.Props.C100_velocity",
    "Verif.Props.C100_friction",
    "Verif.Props.C100_mass",
    "Verif.Props.C100_total_mass",
    "Verif.Props.C100_interpolation",
    "Verif.Props.C100_translation"
   ],
   "note": "Masses, velocities (with the affine part of APIC) and friction coefficients to the grid, PIC velocities back. Nodal forces, velocity gradients and the APIC matrix are not modelled with rounding. The hypothesis `Setting` is what C99 concludes (r_setting derives it for a 2D example computed with 52 digits)."
  },
  {
   "property": "C101",
   "status": "proved",
   "theorems": [
    "Verif.Props.C101_update",
    "Verif.Props.C101_run",
    "Verif.Props.RunEx.C101_singular_false"
   ],
   "note": "C101_run: equality of complete results for all runs; the two libraries agree on singular matrices, where C101_singular_false shows that the choice matters."
  },
  {
   "property": "C102",
   "status": "proved",
   "theorems": [
    "Verif.Props.C102_step",
    "Verif.Props.C102_run",
    "Verif.Props.C102_volume"
   ],
   "note": "C102_step: one step, with MUSL the deformation follows the field of the grid file and positions the field before the velocities are projected again. C102_run: positions and deformation gradients over runs without plasticity. C102_volume: volumes with any plastic model; plastic updates where all trial stretches are at least 1e-4 (below, the code replaces them)."
  },
  {
   "property": "C103",
   "status": "proved",
   "theorems": [
    "Verif.Props.C103_node",
    "Verif.Props.C103_step",
    "Verif.Props.C103_sampled"
   ],
   "note": "C103_node: mass and force of a node. C103_step: a particle with a regular neighbourhood of twice the width of a shape function, no wall there and no weights below the cut-off of 1e-25. C103_sampled: the regular samplers. Without periodic boundaries and re-insertion; linear splines excluded, their gradient jumps at the nodes."
  },
  {
   "property": "C104",
   "status": "proved",
   "theorems": [
    "Verif.Props.C104_objects",
    "Verif.Props.C104_swap2",
    "Verif.Props.C104_swap3",
    "Verif.Props.C104_front_false"
   ],
   "note": "C104_objects: any permutation, no walls. C104_swap2: 2D with walls. C104_swap3: 3D with walls, first two axes. C104_front_false: the exception for front and back walls is needed. Without periodic boundaries and re-insertion, both of which treat direction 0 specially."
  },
  {
   "property": "C105",
   "status": "proved",
   "theorems": [
    "Verif.Props.C105_step",
    "Verif.Props.C105_run",
    "Verif.Props.C105_grid"
   ],
   "note": "A refinement theorem: Spec/Mpm.lean is the method, schemeOf the instance of a set-up. C105_step: one step and its grid. C105_run: particle files. C105_grid: grid files. The boundary treatment and the constitutive law are parameters of the method, instantiated with the code's; other properties are about them. Degree 1 and periodic boundaries are left out."
  },
  {
   "property": "C106",
   "status": "proved",
   "theorems": [
    "Verif.Props.C106_2d",
    "Verif.Props.C106_3d",
    "Verif.Props.C106_lattice_false"
   ],
   "note": "C106_2d, C106_3d: simulation relation between a run and the mirrored run, on the method of C105. C106_lattice_false: the condition on the extent is needed. Degree 1, periodic boundaries and re-insertion are left out; with material-induced friction in 2D the friction of the nodes has to be >= 0 (C82)."
  },
  {
   "property": "C107",
   "status": "proved",
   "theorems": [
    "Verif.Props.C107_walls",
    "Verif.Props.C107_objects",
    "Verif.Props.C107_corner_false"
   ],
   "note": "C107_walls (the order has to be kept also for the moved walls), C107_objects; C107_corner_false: in a corner the last wall wins."
  },
  {
   "property": "C108",
   "status": "proved",
   "theorems": [
    "Verif.Props.C108_lattice_false",
    "Verif.Props.C108_2d",
    "Verif.Props.C108_3d"
   ],
   "note": "C108_2d, C108_3d: from C106, C107 and the independence of the particle order (C62). C108_lattice_false: the condition on the extent is needed."
  },
  {
   "property": "C109",
   "status": "proved",
   "theorems": [
    "Verif.Props.C109_output",
    "Verif.Props.C109_frames"
   ],
   "note": "C109_output, C109_frames. With C19 the shorter run completes exactly the frames 0 to N."
  },
  {
   "property": "C110",
   "status": "proved",
   "theorems": [
    "Verif.Props.C110_run",
    "Verif.Props.C110_files"
   ],
   "note": "C110_run, C110_files; SameModel lists the parameters of each model. With use_mibf the slope M belongs to every model except mu(I), also to von Mises."
  },
  {
   "property": "C111",
   "status": "partial",
   "theorems": [
    "Verif.Props.C111_mass",
    "Verif.Props.C111_momentum_partial",
    "Verif.Props.C111_labels",
    "Verif.Props.C111_momentum_digits",
    "Verif.Props.C111_momentum_false",
    "Verif.Props.C111_override"
   ],
   "note": "C111_mass (full), C111_momentum_partial (no weight below the cut-off, every flip_ratio), C111_momentum_digits (PIC/FLIP, dropped weights allowed), C111_momentum_false (false alarm for two particles), C111_labels, C111_override. The calls of the three functions are commented out or missing in the program; a user has to add them."
  },
  {
   "property": "C112",
   "status": "proved",
   "theorems": [
    "Verif.Props.C112_step",
    "Verif.Props.C112_plate_false"
   ],
   "note": "C112_step: one step without walls, periodic boundaries and re-insertion. C112_plate_false: two moving observers disagree about the contact with a plate."
  },
  {
   "property": "C113",
   "status": "proved",
   "theorems": [
    "Verif.Props.C113_continue",
    "Verif.Props.C113_files"
   ],
   "note": "C113_continue (all ways to end, also errors and undefined behaviour), C113_files (the contents of the directory after both calls). The end of the first call may come up to 1.1 min_dt early (C18); then the clocks differ by that much. The second call also repeats the gravity ramp (C23_second_run_false), the loading phase of plates, and with use_mibf resets muI."
  },
  {
   "property": "C114",
   "status": "proved",
   "theorems": [
    "Verif.Props.C114_plot",
    "Verif.Props.C114_label",
    "Verif.Props.C114_missing",
    "Verif.Props.C114_single_false",
    "Verif.Props.C114_space_false"
   ],
   "note": "C114_plot, C114_label, C114_missing. Defects of the script: C114_single_false (a single frame raises an exception), C114_space_false (3D speeds without vz). numpy, plyfile and matplotlib are not in the repository; their few used operations are modelled from their documentation."
  },
  {
   "property": "C115",
   "status": "proved",
   "theorems": [
    "Verif.Props.C115_step",
    "Verif.Props.C115_stretch",
    "Verif.Props.C115_plane",
    "Verif.Props.C115_size",
    "Verif.Props.C115_space",
    "Verif.Props.RunEx.C115_rigid_false"
   ],
   "note": "C115_step, C115_stretch (any dimension), C115_plane (Hencky and neo-Hookean), C115_space, C115_size. C115_rigid_false: a concrete run in which a rigidly turning, stress-free wheel is under tension in the first frame. One step only: afterwards the positions and the affine matrices no longer belong to one affine field."
  },
  {
   "property": "C116",
   "status": "proved",
   "theorems": [
    "Verif.Props.C116_power",
    "Verif.Props.C116_neoHookean_power",
    "Verif.Props.C116_materials",
    "Verif.Props.C116_neoHookean",
    "Verif.Props.C116_elastic",
    "Verif.Props.C116_step",
    "Verif.Props.C116_run",
    "Verif.Props.C116_rate",
    "Verif.Props.RunEx.C116_conserved_false"
   ],
   "note": "C116_power, C116_neoHookean_power (stress power, any dimension), C116_elastic, C116_step, C116_run, C116_rate for every material with an energy law, C116_materials and C116_neoHookean (the materials that have one: Hencky alone or with von Mises, Drucker-Prager, softening, viscous and mu(I) Drucker-Prager; neo-Hookean). C116_conserved_false: the second-order term cannot be dropped, the total energy of a free spinning wheel grows. Cam-Clay models, viscous von Mises and MUSL are not covered by C116_materials / C116_run; walls rest."
  },
  {
   "property": "C117",
   "status": "proved",
   "theorems": [
    "Verif.Props.C117_step",
    "Verif.Props.C117_run",
    "Verif.Props.C117_grid",
    "Verif.Props.C117_completes"
   ],
   "note": "C117_step, C117_run, C117_grid, C117_completes. Without the material-induced boundary friction and terrain objects; singular values of the deformation above the cut-off 1e-4. Examples: a compressed column on slippery ground, a block on rough ground with gravity inside the friction cone."
  },
  {
   "property": "C118",
   "status": "proved",
   "theorems": [
    "Verif.Props.C118_slow",
    "Verif.Props.C118_step",
    "Verif.Props.C118_run"
   ],
   "note": "C118_step, C118_run, C118_slow. No periodic boundaries; both initial states non-empty, with origins of their grids on one lattice. Example: two falling particles with and without a third one far away."
  },
  {
   "property": "C119",
   "status": "proved",
   "theorems": [
    "Verif.Props.C119_momentum"
   ],
   "note": "C119_momentum. Without walls and MUSL; the hypothesis on the stencil (e) is what C99 proves of the grid that the first step builds. Example: three particles under stress in AFLIP transfers with 52 binary digits, error below 5e-8."
  },
  {
   "property": "C120",
   "status": "proved",
   "theorems": [
    "Verif.Props.C120_mass",
    "Verif.Props.C120_force",
    "Verif.Props.C120_momentum",
    "Verif.Props.CrossEx.C120_linear_false",
    "Verif.Props.CrossEx.C120_strain_false"
   ],
   "note": "C120_mass, C120_momentum, C120_force. The two limits named in the statement have their own theorems: C120_linear_false (SPLINEDEG 1, any displacement) and C120_strain_false (SPLINEDEG 2, strain increments -4 and -6 for positions 1e-11 cells apart)."
  },
  {
   "property": "C121",
   "status": "proved",
   "theorems": [
    "Verif.Props.C121_step",
    "Verif.Props.C121_run",
    "Verif.Props.C121_musl_false"
   ],
   "note": "C121_step for one step (any ordered field), C121_run for whole runs with all their files; C121_musl_false shows that the restriction to no MUSL is needed."
  },
  {
   "property": "C122",
   "status": "proved",
   "theorems": [
    "Verif.Props.C122_step",
    "Verif.Props.C122_elastic",
    "Verif.Props.C122_plastic_false"
   ],
   "note": "C122_step for the step with any constitutive law of which the plane is a slice, C122_elastic that both elastic laws are such; C122_plastic_false shows that the von Mises law is not (the statement says so)."
  },
  {
   "property": "C123",
   "status": "proved",
   "theorems": [
    "Verif.Props.C123_vonMises",
    "Verif.Props.C123_viscousVonMises",
    "Verif.Props.C123_druckerPrager",
    "Verif.Props.C123_viscousDruckerPrager_false"
   ],
   "note": "C123_vonMises, C123_viscousVonMises, C123_druckerPrager; C123_viscousDruckerPrager_false shows the jump at the tip for the Duvaut-Lions option (the statement says so)."
  },
  {
   "property": "C124",
   "status": "proved",
   "theorems": [
    "Verif.Props.C124_node",
    "Verif.Props.C124_step",
    "Verif.Props.C124_equilibrium"
   ],
   "note": "C124_node for the nodes, C124_step for the particles over a step of the run, C124_equilibrium for a body at rest under gravity. Positions where the weight is above zero but below the cut-off of 1e-25 are excluded (NoTinyWeights), as in C103."
  },
  {
   "property": "C125",
   "status": "proved",
   "theorems": [
    "Verif.Props.C125_step",
    "Verif.Props.C125_steps",
    "Verif.Props.C125_run"
   ],
   "note": "C125_step for one step, C125_steps after any number of steps, C125_run for the particle files. The largest movement per step is a parameter of the theorem (as in C118); exact arithmetic; gravity constant (gravity_special = false); tiny weights excluded as in C103."
  },
  {
   "property": "C126",
   "status": "proved",
   "theorems": [
    "Verif.Props.C126_run",
    "Verif.Props.C126_twice",
    "Verif.Props.C126_density"
   ],
   "note": "C126_run for n copies of c/n of mass and volume; C126_twice and C126_density are the cases c = n and n = 1. Equality of the whole result of the run, undefined behaviour included. Exact arithmetic."
  },
  {
   "property": "C127",
   "status": "proved",
   "theorems": [
    "Verif.Props.C127_step",
    "Verif.Props.C127_run"
   ],
   "note": "C127_step for one step, C127_run for whole runs; the position a node is about to have is written with the sums of the textbook method (Spec/Mpm.lean). The marking of the plates to be left out must not change when they move (e.g. by their type). Exact arithmetic."
  },
  {
   "property": "C128",
   "status": "proved",
   "theorems": [
    "Verif.Props.C128_run",
    "Verif.Props.RunEx.C128_rate_false"
   ],
   "note": "C128_run; bare and bareWorld drop exactly the quantities named in the claim. C128_rate_false shows that the saved rate has to be left out. With C95_druckerPrager (off the tip) the same holds for DPSoft with xi = 0. Exact arithmetic."
  },
  {
   "property": "C129",
   "status": "proved",
   "theorems": [
    "Verif.Props.C129_run",
    "Verif.Props.RunEx.C129_read"
   ],
   "note": "C129_run; memory lists what is read, kept drops the rest. C129_read: for DPSoft the plastic shear strain is really read. With use_mibf the friction coefficients are read by the walls; fillMuI overwrites them at the start, so they are among the quantities that agree afterwards. Exact arithmetic."
  },
  {
   "property": "C130",
   "status": "proved",
   "theorems": [
    "Verif.Props.C130_step",
    "Verif.Props.C130_run",
    "Verif.Props.C130_first",
    "Verif.Props.C130_affine"
   ],
   "note": "C130_run (the two runs have the same end r, apart from the files written before the first step); C130_first: the columns of the initial file agree; C130_step: one step at any time; C130_affine: the affine matrix is read if flip_ratio < 0. Exact arithmetic."
  },
  {
   "property": "C131",
   "status": "proved",
   "theorems": [
    "Verif.Props.C131_restart",
    "Verif.Props.C131_open_false",
    "Verif.Props.C131_parts"
   ],
   "note": "C131_restart: the new object makes the run r, the continued one the same run with the steps counted from t.step (recount changes only this number, in the state and in the timings file). C131_open_false: without periodic boundaries the grids differ (shown for the grid of the next step, not for a whole run). C131_parts: with C113, N + M frames are N frames and a new simulation of M frames, with the same files, under the conditions of C113 (the first part ends exactly at its last frame time, no use_mibf, no special gravity, plates without a loading phase). Calling simulate again on the same object is C113. Exact arithmetic."
  },
  {
   "property": "C132",
   "status": "proved",
   "theorems": [
    "Verif.Props.C132_empty",
    "Verif.Props.C132_first",
    "Verif.Props.C132_thin",
    "Verif.Props.C132_box2",
    "Verif.Props.C132_box3"
   ],
   "note": "C132_empty (undefined behaviour without particles), C132_thin, C132_box2, C132_box3 (the boxes of which sampling gives none), C132_first (with particles, time step and first grid are defined). Exact arithmetic."
  }
 ]
}

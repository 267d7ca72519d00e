{
 "claims": [
  {
   "property": "C01",
   "status": "proved",
   "theorems": [
    "Fbstab.C01_validation_total_real",
    "Fbstab.C01_dense",
    "Fbstab.C01_mpc",
    "Fbstab.C01_validation_total_xreal",
    "Fbstab.C01_xreal_inRange",
    "Fbstab.C01_nan_survives",
    "Fbstab.C01_reachable_dense",
    "Fbstab.C01_reachable_mpc",
    "Fbstab.C01_validation_total",
    "Fbstab.C01_inRange",
    "Fbstab.C01_binary64",
    "Fbstab.C01_binary64_dense",
    "Fbstab.C01_binary64_mpc"
   ],
   "note": ""
  },
  {
   "property": "C02",
   "status": "proved",
   "theorems": [
    "Fbstab.C02_inRange_unchanged",
    "Fbstab.C02_fieldwise",
    "Fbstab.C02_idempotent",
    "Fbstab.C02_presets",
    "Fbstab.C02_fresh",
    "Fbstab.C02_values",
    "Fbstab.C02_keeps",
    "Fbstab.C02_unchanged",
    "Fbstab.C02_twice",
    "Fbstab.C02_presets_any",
    "Fbstab.C02_binary64"
   ],
   "note": ""
  },
  {
   "property": "C03",
   "status": "proved",
   "theorems": [
    "Fbstab.C03_dense",
    "Fbstab.C03_mpc",
    "Fbstab.C03_solve_dense",
    "Fbstab.C03_solve_mpc",
    "Fbstab.C03_binary64_dense",
    "Fbstab.C03_binary64_mpc"
   ],
   "note": ""
  },
  {
   "property": "C04",
   "status": "proved",
   "theorems": [
    "Fbstab.C04_dense",
    "Fbstab.C04_mpc",
    "Fbstab.C04_binary64_dense",
    "Fbstab.C04_binary64_mpc"
   ],
   "note": ""
  },
  {
   "property": "C05",
   "status": "proved",
   "theorems": [
    "Fbstab.C05_dense",
    "Fbstab.C05_mpc"
   ],
   "note": ""
  },
  {
   "property": "C06",
   "status": "proved",
   "theorems": [
    "Fbstab.C06_dense",
    "Fbstab.C06_mpc"
   ],
   "note": ""
  },
  {
   "property": "C07",
   "status": "proved",
   "theorems": [
    "Fbstab.C07_dense",
    "Fbstab.C07_mpc",
    "Fbstab.C07_stale"
   ],
   "note": "True on SUCCESS and on the Newton limit; the claim is FALSE on the proximal limit, the negation C07_stale is proved end to end."
  },
  {
   "property": "C08",
   "status": "proved",
   "theorems": [
    "Fbstab.C08_dense",
    "Fbstab.C08_mpc"
   ],
   "note": ""
  },
  {
   "property": "C09",
   "status": "proved",
   "theorems": [
    "Fbstab.C09_history_unchecked_dense",
    "Fbstab.C09_binary64_mpc",
    "Fbstab.C09_binary64_unchecked_dense",
    "Fbstab.C09_finite_dense",
    "Fbstab.C09_dense'",
    "Fbstab.C09_dense",
    "Fbstab.C09_mpc",
    "Fbstab.C09_history_mpc",
    "Fbstab.C09_history_dense",
    "Fbstab.C09_blind_dense",
    "Fbstab.C09_not_dense"
   ],
   "note": ""
  },
  {
   "property": "C10",
   "status": "proved",
   "theorems": [
    "Fbstab.C10_binary64_mpc",
    "Fbstab.C10_dense",
    "Fbstab.C10_mpc",
    "Fbstab.C10_next_dense",
    "Fbstab.C10_next_mpc"
   ],
   "note": ""
  },
  {
   "property": "C11",
   "status": "proved",
   "theorems": [
    "Fbstab.C11_dense",
    "Fbstab.C11_mpc"
   ],
   "note": ""
  },
  {
   "property": "C12",
   "status": "proved",
   "theorems": [
    "Fbstab.C12_dense",
    "Fbstab.C12_mpc",
    "Fbstab.C12_only_dense",
    "Fbstab.C12_only_mpc"
   ],
   "note": ""
  },
  {
   "property": "C13",
   "status": "proved",
   "theorems": [
    "Fbstab.C13_dense",
    "Fbstab.C13_mpc",
    "Fbstab.C13_absTol_dense",
    "Fbstab.C13_absTol_mpc",
    "Fbstab.C13_presets",
    "Fbstab.C13_throws_order_dense",
    "Fbstab.C13_throws_order_mpc",
    "Fbstab.C13_throws_between_dense",
    "Fbstab.C13_throws_between_mpc",
    "Fbstab.C13_not_binary64_dense",
    "Fbstab.C13_not_binary64_mpc"
   ],
   "note": "A theorem of exact arithmetic; in IEEE double precision it is false, C13_not_binary64_dense and C13_not_binary64_mpc are runs that throw on convex problems with a solution."
  },
  {
   "property": "C14",
   "status": "proved",
   "theorems": [
    "Fbstab.C14_off_dense",
    "Fbstab.C14_off_mpc",
    "Fbstab.C14_summary_dense",
    "Fbstab.C14_summary_mpc",
    "Fbstab.C14_throw_dense",
    "Fbstab.C14_throw_mpc",
    "Fbstab.C14_result_dense",
    "Fbstab.C14_result_mpc",
    "Fbstab.C14_parts_dense",
    "Fbstab.C14_parts_mpc"
   ],
   "note": ""
  },
  {
   "property": "C15",
   "status": "proved",
   "theorems": [
    "Fbstab.C15_binary64_dense",
    "Fbstab.C15_binary64_mpc",
    "Fbstab.C15_dense",
    "Fbstab.C15_mpc"
   ],
   "note": ""
  },
  {
   "property": "C16",
   "status": "proved",
   "theorems": [
    "Fbstab.C16_dense",
    "Fbstab.C16_mpc",
    "Fbstab.C16_solve_dense",
    "Fbstab.C16_solve_mpc"
   ],
   "note": ""
  },
  {
   "property": "C17",
   "status": "proved",
   "theorems": [
    "Fbstab.C17_dense",
    "Fbstab.C17_mpc"
   ],
   "note": ""
  },
  {
   "property": "C18",
   "status": "proved",
   "theorems": [
    "Fbstab.C18_dense",
    "Fbstab.C18_mpc",
    "Fbstab.C18_suboptimal_dense",
    "Fbstab.C18_suboptimal_mpc",
    "Fbstab.C18_not_better_dense",
    "Fbstab.C18_not_better_mpc"
   ],
   "note": ""
  },
  {
   "property": "C19",
   "status": "proved",
   "theorems": [
    "Fbstab.C19_zero",
    "Fbstab.C19_unique",
    "Fbstab.C19_fixed"
   ],
   "note": ""
  },
  {
   "property": "C20",
   "status": "proved",
   "theorems": [
    "Fbstab.C20_dense",
    "Fbstab.C20_mpc",
    "Fbstab.C20_nonneg_dense",
    "Fbstab.C20_nonneg_mpc"
   ],
   "note": ""
  },
  {
   "property": "C21",
   "status": "proved",
   "theorems": [
    "Fbstab.C21_dense",
    "Fbstab.C21_mpc",
    "Fbstab.C21_not_missed_dense",
    "Fbstab.C21_not_missed_mpc"
   ],
   "note": ""
  },
  {
   "property": "C22",
   "status": "proved",
   "theorems": [
    "Fbstab.C22_false_alarm",
    "Fbstab.C22_not_sound",
    "Fbstab.C22_false_alarms_dense",
    "Fbstab.C22_false_alarms_mpc",
    "Fbstab.C22_false_alarm_mpc",
    "Fbstab.C22_not_sound_mpc",
    "Fbstab.C22_exact",
    "Fbstab.C22_far_dense",
    "Fbstab.C22_far_mpc"
   ],
   "note": "Certificate theorems proved; FALSE end to end as implemented: C22_false_alarm / C22_not_sound prove a feasible convex problem is flagged PRIMAL_INFEASIBLE; C22_false_alarms_dense / _mpc prove it for every convex problem with symmetric bounds at its equilibrium, C22_not_sound_mpc for FBstabMpc."
  },
  {
   "property": "C23",
   "status": "proved",
   "theorems": [
    "Fbstab.C23_false_alarm",
    "Fbstab.C23_not_sound",
    "Fbstab.C23_false_alarms_dense",
    "Fbstab.C23_false_alarms_mpc",
    "Fbstab.C23_false_alarm_mpc",
    "Fbstab.C23_not_sound_mpc",
    "Fbstab.C23_exact",
    "Fbstab.C23_far_dense",
    "Fbstab.C23_far_mpc"
   ],
   "note": "Certificate theorems proved; FALSE end to end with positive tolerance: C23_false_alarm / C23_not_sound; C23_false_alarms_dense / _mpc prove it for every convex problem with a slope of curvature at most 1e-8 from the cold start, C23_not_sound_mpc for FBstabMpc."
  },
  {
   "property": "C24",
   "status": "proved",
   "theorems": [
    "Fbstab.C24_dense",
    "Fbstab.C24_throws"
   ],
   "note": ""
  },
  {
   "property": "C25",
   "status": "proved",
   "theorems": [
    "Fbstab.C25_riccati",
    "Fbstab.C25_throws"
   ],
   "note": ""
  },
  {
   "property": "C26",
   "status": "proved",
   "theorems": [
    "Fbstab.C26_agree",
    "Fbstab.C26_exists",
    "Fbstab.C26_log"
   ],
   "note": ""
  },
  {
   "property": "C27",
   "status": "proved",
   "theorems": [
    "Fbstab.C27_mpc",
    "Fbstab.C27_dense",
    "Fbstab.C27_gemvGT",
    "Fbstab.C27_adjoint_A",
    "Fbstab.C27_adjoint_G"
   ],
   "note": ""
  },
  {
   "property": "C28",
   "status": "proved",
   "theorems": [
    "Fbstab.C28_states",
    "Fbstab.C28_controls",
    "Fbstab.C28_false"
   ],
   "note": ""
  },
  {
   "property": "C29",
   "status": "proved",
   "theorems": [
    "Fbstab.C29_feasible",
    "Fbstab.C29_quadratic",
    "Fbstab.C29_objective",
    "Fbstab.C29_optimal",
    "Fbstab.C29_convex"
   ],
   "note": ""
  },
  {
   "property": "C30",
   "status": "proved",
   "theorems": [
    "Fbstab.C30_mpc",
    "Fbstab.C30_dense",
    "Fbstab.C30_stages"
   ],
   "note": ""
  },
  {
   "property": "C31",
   "status": "proved",
   "theorems": [
    "Fbstab.C31_gradient",
    "Fbstab.C31_limiting",
    "Fbstab.C31_inside_false",
    "Fbstab.C31_positive"
   ],
   "note": ""
  },
  {
   "property": "C32",
   "status": "proved",
   "theorems": [
    "Fbstab.C32_dense",
    "Fbstab.C32_mpc"
   ],
   "note": ""
  },
  {
   "property": "C33",
   "status": "proved",
   "theorems": [
    "Fbstab.C33_dense_throws",
    "Fbstab.C33_dense_succeeds",
    "Fbstab.C33_mpc_throws",
    "Fbstab.C33_mpc_succeeds"
   ],
   "note": ""
  },
  {
   "property": "C34",
   "status": "proved",
   "theorems": [
    "Fbstab.C34_dense"
   ],
   "note": ""
  },
  {
   "property": "C35",
   "status": "proved",
   "theorems": [
    "Fbstab.C35_mpc",
    "Fbstab.C35_columns_not_checked"
   ],
   "note": ""
  },
  {
   "property": "C36",
   "status": "proved",
   "theorems": [
    "Fbstab.C36_dense",
    "Fbstab.C36_mpc"
   ],
   "note": ""
  },
  {
   "property": "C37",
   "status": "proved",
   "theorems": [
    "Fbstab.C37_y_not_checked"
   ],
   "note": ""
  },
  {
   "property": "C38",
   "status": "proved",
   "theorems": [
    "Fbstab.C38_new",
    "Fbstab.C38_overflow",
    "Fbstab.C38_map_new",
    "Fbstab.C38_read",
    "Fbstab.C38_map_read",
    "Fbstab.C38_write",
    "Fbstab.C38_assign",
    "Fbstab.C38_ofSequence"
   ],
   "note": ""
  },
  {
   "property": "C39",
   "status": "proved",
   "theorems": [
    "Fbstab.C39_log_mpc",
    "Fbstab.C39_dense",
    "Fbstab.C39_dense_unchecked",
    "Fbstab.C39_mpc",
    "Fbstab.C39_not_dense"
   ],
   "note": "True part proved (C39_mpc, C39_dense, C39_dense_unchecked); the failure with NaN memory is proved as C39_not_dense."
  },
  {
   "property": "C40",
   "status": "proved",
   "theorems": [
    "Fbstab.C40_variable_dense",
    "Fbstab.C40_variable_mpc",
    "Fbstab.C40_data_mpc",
    "Fbstab.C40_memory_dense",
    "Fbstab.C40_memory_mpc",
    "Fbstab.C40_returned_dense",
    "Fbstab.C40_returned_mpc",
    "Fbstab.C40_owning_mpc"
   ],
   "note": ""
  },
  {
   "property": "C41",
   "status": "proved",
   "theorems": [
    "Fbstab.C41_throws_iff",
    "Fbstab.C41_closest",
    "Fbstab.C41_any"
   ],
   "note": ""
  },
  {
   "property": "C42",
   "status": "proved",
   "theorems": [
    "Fbstab.C42_copy",
    "Fbstab.C42_doubleIntegrator",
    "Fbstab.C42_servoMotor",
    "Fbstab.C42_spacecraft",
    "Fbstab.C42_copolymerization",
    "Fbstab.C42_problemSize",
    "Fbstab.C42_getters",
    "Fbstab.C42_solvable_doubleIntegrator",
    "Fbstab.C42_solvable_servoMotor",
    "Fbstab.C42_solvable_spacecraft",
    "Fbstab.C42_solvable_copolymerization"
   ],
   "note": ""
  },
  {
   "property": "C43",
   "status": "proved",
   "theorems": [
    "Fbstab.C43_fejer"
   ],
   "note": ""
  },
  {
   "property": "C44",
   "status": "proved",
   "theorems": [
    "Fbstab.C44_any_guess_dense",
    "Fbstab.C44_any_guess_mpc",
    "Fbstab.C44_stalled_dense",
    "Fbstab.C44_stalled_mpc",
    "Fbstab.C44_large_residual",
    "Fbstab.C44_stall_example"
   ],
   "note": ""
  },
  {
   "property": "C45",
   "status": "proved",
   "theorems": [
    "Fbstab.C45_dense",
    "Fbstab.C45_mpc",
    "Fbstab.C45_example"
   ],
   "note": ""
  },
  {
   "property": "C46",
   "status": "proved",
   "theorems": [
    "Fbstab.C46_iter_dense",
    "Fbstab.C46_detailed_dense",
    "Fbstab.C46_iter_mpc",
    "Fbstab.C46_detailed_mpc"
   ],
   "note": ""
  },
  {
   "property": "C47",
   "status": "proved",
   "theorems": [
    "Fbstab.C47_dense",
    "Fbstab.C47_mpc",
    "Fbstab.C47_example"
   ],
   "note": ""
  },
  {
   "property": "C48",
   "status": "proved",
   "theorems": [
    "Fbstab.C48_dense",
    "Fbstab.C48_mpc",
    "Fbstab.C48_example",
    "Fbstab.C48_example_mpc"
   ],
   "note": ""
  },
  {
   "property": "C49",
   "status": "proved",
   "theorems": [
    "Fbstab.C49_dense",
    "Fbstab.C49_mpc",
    "Fbstab.C49_history_dense"
   ],
   "note": ""
  },
  {
   "property": "C50",
   "status": "proved",
   "theorems": [
    "Fbstab.C50_dense",
    "Fbstab.C50_mpc",
    "Fbstab.C50_bound_dense",
    "Fbstab.C50_bound_mpc"
   ],
   "note": ""
  },
  {
   "property": "C51",
   "status": "proved",
   "theorems": [
    "Fbstab.C51_dense",
    "Fbstab.C51_mpc"
   ],
   "note": ""
  },
  {
   "property": "C52",
   "status": "proved",
   "theorems": [
    "Fbstab.C52_dense",
    "Fbstab.C52_mpc"
   ],
   "note": ""
  },
  {
   "property": "C53",
   "status": "proved",
   "theorems": [
    "Fbstab.C53_dense",
    "Fbstab.C53_mpc"
   ],
   "note": ""
  },
  {
   "property": "C54",
   "status": "proved",
   "theorems": [
    "Fbstab.C54_unique",
    "Fbstab.C54_dense",
    "Fbstab.C54_mpc"
   ],
   "note": ""
  },
  {
   "property": "C55",
   "status": "proved",
   "theorems": [
    "Fbstab.C55_doubleIntegrator",
    "Fbstab.C55_servoMotor",
    "Fbstab.C55_spacecraft",
    "Fbstab.C55_copolymerization",
    "Fbstab.C55_unpopulated"
   ],
   "note": ""
  },
  {
   "property": "C56",
   "status": "proved",
   "theorems": [
    "Fbstab.C56_weak",
    "Fbstab.C56_iff",
    "Fbstab.C56_dense",
    "Fbstab.C56_mpc",
    "Fbstab.C56_gap_dense",
    "Fbstab.C56_gap_mpc",
    "Fbstab.C56_readme"
   ],
   "note": ""
  },
  {
   "property": "C57",
   "status": "proved",
   "theorems": [
    "Fbstab.C57_infeasible_dense",
    "Fbstab.C57_unbounded_dense",
    "Fbstab.C57_not_solved_dense",
    "Fbstab.C57_not_solved_unbounded_dense",
    "Fbstab.C57_infeasible_mpc",
    "Fbstab.C57_unbounded_mpc",
    "Fbstab.C57_not_solved_mpc",
    "Fbstab.C57_not_solved_unbounded_mpc",
    "Fbstab.C57_example",
    "Fbstab.C57_rounded_dense",
    "Fbstab.C57_rounded_mpc",
    "Fbstab.C57_binary64_lastBit"
   ],
   "note": ""
  },
  {
   "property": "C58",
   "status": "proved",
   "theorems": [
    "Fbstab.C58_shift",
    "Fbstab.C58_least",
    "Fbstab.C58_alternative",
    "Fbstab.C58_noticed_dense",
    "Fbstab.C58_dense",
    "Fbstab.C58_detected_dense",
    "Fbstab.C58_noticed_mpc",
    "Fbstab.C58_mpc",
    "Fbstab.C58_detected_mpc",
    "Fbstab.C58_example",
    "Fbstab.C58_minimiser"
   ],
   "note": ""
  },
  {
   "property": "C59",
   "status": "proved",
   "theorems": [
    "Fbstab.C59_method",
    "Fbstab.C59_dense",
    "Fbstab.C59_mpc"
   ],
   "note": ""
  },
  {
   "property": "C60",
   "status": "proved",
   "theorems": [
    "Fbstab.C60_data_dense",
    "Fbstab.C60_data_mpc",
    "Fbstab.C60_guess_dense",
    "Fbstab.C60_guess_mpc",
    "Fbstab.C60_mpc",
    "Fbstab.C60_bounds_dense",
    "Fbstab.C60_forcing_dense",
    "Fbstab.C60_not_dense"
   ],
   "note": "Proved for FBstabMpc without exception and for FBstabDense with NaN in A, b, the guess, or (finite convex rest) f, h; FALSE for a NaN in the dense Hessian: C60_not_dense is a run with default options that returns SUCCESS with residual NaN."
  },
  {
   "property": "C61",
   "status": "proved",
   "theorems": [
    "Fbstab.C61_never_dense",
    "Fbstab.C61_never_mpc",
    "Fbstab.C61_false_success_dense",
    "Fbstab.C61_false_success_mpc"
   ],
   "note": "The expectation \"an infinite bound is no constraint\" is FALSE of the code; what happens instead is proved for all problems: never SUCCESS without a positive multiplier there (C61_never_*), immediate SUCCESS with the unchanged guess and residual inf otherwise (C61_false_success_*)."
  },
  {
   "property": "C62",
   "status": "proved",
   "theorems": [
    "Fbstab.C62_dense",
    "Fbstab.C62_mpc"
   ],
   "note": "Stated for the y that Solve returns, which the code keeps by increments; SUCCESS by the stall test (last step below stall_tol) is the stated alternative, as in C06. Binary64.rounding proves that IEEE binary64 (ties to even) satisfies the assumptions."
  },
  {
   "property": "C63",
   "status": "proved",
   "theorems": [
    "Fbstab.C63_primal_dense",
    "Fbstab.C63_primal_mpc",
    "Fbstab.C63_dual_dense",
    "Fbstab.C63_dual_mpc",
    "Fbstab.C63_far_primal",
    "Fbstab.C63_far_dual"
   ],
   "note": ""
  },
  {
   "property": "C64",
   "status": "proved",
   "theorems": [
    "Fbstab.C64_dense",
    "Fbstab.C64_mpc",
    "Fbstab.C64_right",
    "Fbstab.C64_example",
    "Fbstab.C64_example_mpc"
   ],
   "note": ""
  },
  {
   "property": "C65",
   "status": "proved",
   "theorems": [
    "Fbstab.C65_not_dense",
    "Fbstab.C65_dense",
    "Fbstab.C65_mpc"
   ],
   "note": "The unrestricted claim (SUCCESS implies the constraints up to tolerance and rounding) is false in floating point: C65_not_dense is a complete run in binary64 with default options."
  },
  {
   "property": "C66",
   "status": "proved",
   "theorems": [
    "Fbstab.C66_parts_dense",
    "Fbstab.C66_parts_mpc",
    "Fbstab.C66_dense",
    "Fbstab.C66_mpc",
    "Fbstab.C66_final_dense",
    "Fbstab.C66_final_mpc",
    "Fbstab.C66_binary64_dense",
    "Fbstab.C66_binary64_mpc"
   ],
   "note": ""
  },
  {
   "property": "C67",
   "status": "proved",
   "theorems": [
    "Fbstab.C67_quasiDefinite",
    "Fbstab.C67_constructor",
    "Fbstab.C67_sizes",
    "Fbstab.C67_solves"
   ],
   "note": ""
  },
  {
   "property": "C68",
   "status": "proved",
   "theorems": [
    "Fbstab.C68_dense",
    "Fbstab.C68_mpc",
    "Fbstab.C68_example_mpc"
   ],
   "note": ""
  },
  {
   "property": "C69",
   "status": "proved",
   "theorems": [
    "Fbstab.C69_dense",
    "Fbstab.C69_mpc",
    "Fbstab.C69_solution_dense",
    "Fbstab.C69_solution_mpc"
   ],
   "note": ""
  },
  {
   "property": "C70",
   "status": "proved",
   "theorems": [
    "Fbstab.C70_dense",
    "Fbstab.C70_mpc"
   ],
   "note": ""
  },
  {
   "property": "C71",
   "status": "proved",
   "theorems": [
    "Fbstab.C71_method",
    "Fbstab.C71_dense",
    "Fbstab.C71_checked_dense",
    "Fbstab.C71_mpc",
    "Fbstab.C71_checked_mpc",
    "Fbstab.C71_not_dense",
    "Fbstab.C71_not_mpc"
   ],
   "note": ""
  },
  {
   "property": "C72",
   "status": "proved",
   "theorems": [
    "Fbstab.C72_method",
    "Fbstab.C72_dense",
    "Fbstab.C72_mpc",
    "Fbstab.C72_drop_mpc",
    "Fbstab.C72_not_dense",
    "Fbstab.C72_not_mpc"
   ],
   "note": ""
  },
  {
   "property": "C73",
   "status": "proved",
   "theorems": [
    "Fbstab.C73_dense",
    "Fbstab.C73_mpc",
    "Fbstab.C73_looser_real",
    "Fbstab.C73_looser_rounded",
    "Fbstab.C73_larger_dense",
    "Fbstab.C73_larger_mpc"
   ],
   "note": ""
  },
  {
   "property": "C74",
   "status": "proved",
   "theorems": [
    "Fbstab.C74_dense",
    "Fbstab.C74_mpc"
   ],
   "note": ""
  },
  {
   "property": "C75",
   "status": "proved",
   "theorems": [
    "Fbstab.C75_dense",
    "Fbstab.C75_mpc"
   ],
   "note": ""
  },
  {
   "property": "C76",
   "status": "proved",
   "theorems": [
    "Fbstab.C76_method",
    "Fbstab.C76_dense",
    "Fbstab.C76_mpc",
    "Fbstab.C76_drop_dense",
    "Fbstab.C76_drop_mpc",
    "Fbstab.C76_ragged_mpc"
   ],
   "note": ""
  }
 ]
}
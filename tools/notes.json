{
 "C07": {
  "note": "True on SUCCESS and on the Newton limit; the claim is FALSE on the proximal limit, the negation C07_stale is proved end to end."
 },
 "C22": {
  "note": "Certificate theorems proved; FALSE end to end as implemented: C22_false_alarm / C22_not_sound prove a feasible convex problem is flagged PRIMAL_INFEASIBLE; C22_false_alarms_dense / _mpc prove it for every convex problem with symmetric bounds at its equilibrium, C22_not_sound_mpc for FBstabMpc."
 },
 "C23": {
  "note": "Certificate theorems proved; FALSE end to end with positive tolerance: C23_false_alarm / C23_not_sound; C23_false_alarms_dense / _mpc prove it for every convex problem with a slope of curvature at most 1e-8 from the cold start, C23_not_sound_mpc for FBstabMpc."
 },
 "C39": {
  "status": "proved",
  "note": "True part proved (C39_mpc, C39_dense, C39_dense_unchecked); the failure with NaN memory is proved as C39_not_dense."
 },
 "C60": {
  "note": "Proved for FBstabMpc without exception and for FBstabDense with NaN in A, b, the guess, or (finite convex rest) f, h; FALSE for a NaN in the dense Hessian: C60_not_dense is a run with default options that returns SUCCESS with residual NaN."
 },
 "C61": {
  "note": "The expectation \"an infinite bound is no constraint\" is FALSE of the code; what happens instead is proved for all problems: never SUCCESS without a positive multiplier there (C61_never_*), immediate SUCCESS with the unchanged guess and residual inf otherwise (C61_false_success_*)."
 },
 "C62": {
  "note": "Stated for the y that Solve returns, which the code keeps by increments; SUCCESS by the stall test (last step below stall_tol) is the stated alternative, as in C06. Binary64.rounding proves that IEEE binary64 (ties to even) satisfies the assumptions."
 },
 "C65": {
  "note": "The unrestricted claim (SUCCESS implies the constraints up to tolerance and rounding) is false in floating point: C65_not_dense is a complete run in binary64 with default options."
 },
 "C13": {
  "note": "A theorem of exact arithmetic; in IEEE double precision it is false, C13_not_binary64_dense and C13_not_binary64_mpc are runs that throw on convex problems with a solution."
 }
}
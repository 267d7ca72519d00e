import Verif.Spec.Ocp
import Mathlib.Data.Fin.VecNotation
import Mathlib.Analysis.SpecialFunctions.Pow.Real

/-!
# The benchmark problems, as control problems

What the four problem creators of `test::OcpGenerator` are documented to produce
(fbstab/test/ocp_generator.h:74-135 and the comments in ocp_generator.cc), written as systems with
limits and a running cost, without reference to the code.
-/

namespace Fbstab
open Matrix

/-- A regulation problem for a discrete time system: from `start`, the state follows `next`; the control
has to satisfy `inputOk` at every stage, the state `stateOk` at every stage but the first; the total of
`cost` over the stages is to be minimised.  `output` and `T` are for closed loop simulation. -/
structure Plant (nx nu ny : Nat) where
  start : Fin nx → ℝ
  next : (Fin nx → ℝ) → (Fin nu → ℝ) → Fin nx → ℝ
  inputOk : (Fin nu → ℝ) → Prop
  stateOk : (Fin nx → ℝ) → Prop
  cost : (Fin nx → ℝ) → (Fin nu → ℝ) → ℝ
  output : (Fin nx → ℝ) → Fin ny → ℝ
  T : Nat

/-- The optimal control problem is the regulation problem: the admissible trajectories are those of the
system that respect the limits, and the objective is the total cost. -/
structure Ocp.Regulates {N nx nu nc ny : Nat} (p : Ocp N nx nu nc) (P : Plant nx nu ny) : Prop where
  start : p.x0 = P.start
  next : ∀ i x u, p.A i *ᵥ x + p.B i *ᵥ u + p.c i = P.next x u
  limits : ∀ i x u, (∀ j, (p.E i *ᵥ x) j + (p.L i *ᵥ u) j + p.d i j ≤ 0) ↔
    P.inputOk u ∧ (i ≠ 0 → P.stateOk x)
  admissible : ∀ x u, p.Admissible x u ↔
    x 0 = P.start ∧ (∀ i : Fin N, x i.succ = P.next (x i.castSucc) (u i.castSucc)) ∧
      (∀ i, P.inputOk (u i)) ∧ ∀ i : Fin N, P.stateOk (x i.succ)
  cost : ∀ x u, p.cost x u = ∑ i, P.cost (x i) (u i)

/-! ### The four problems -/

/-- The constrained double integrator: position and velocity in `[0, 2]`, acceleration in `[-1, 1]`. -/
noncomputable def doubleIntegratorPlant : Plant 2 1 2 where
  start := ![0, 0]
  next x u := ![x 0 + x 1, x 1 + u 0]
  inputOk u := |u 0| ≤ 1
  stateOk x := (0 ≤ x 0 ∧ x 0 ≤ 2) ∧ (0 ≤ x 1 ∧ x 1 ≤ 2)
  cost x u := (2 * x 0 ^ 2 + x 1 ^ 2 + 2 * u 0 * x 0 + 3 * u 0 ^ 2) / 2 - 2 * x 0
  output x := x
  T := 40

/-- The torque in the shaft of the servo motor: stiffness times the torsion (load angle minus motor angle
through a gear of ratio 20). -/
noncomputable def shaftTorque (x : Fin 4 → ℝ) : ℝ := 1280.2 * (x 0 - x 2 / 20)

/-- The servo motor of Bemporad and Mosca, states load angle and velocity, motor angle and velocity, input
voltage: load inertia 10 with friction 25, motor inertia 0.5 with friction 0.1, motor constant 10,
resistance 20; forward Euler with step 0.05.  The load is to be turned to 30 degrees; the shaft torque is
limited to 78.5358, the voltage to 220. -/
noncomputable def servoMotorPlant : Plant 4 1 2 where
  start := 0
  next x u := x + (0.05 : ℝ) • ![x 1, (-shaftTorque x - 25 * x 1) / 10, x 3,
    (shaftTorque x / 20 - 0.1 * x 3 + 10 * (u 0 - 10 * x 3) / 20) / 0.5]
  inputOk u := |u 0| ≤ 220
  stateOk x := |shaftTorque x| ≤ 78.5358
  -- up to the constant 1000 (30 pi / 180)^2 / 2
  cost x u := 1000 * (x 0 ^ 2 / 2 - 30 * 3.1415926535897 / 180 * x 0) + 1e-4 * u 0 ^ 2 / 2
  output x := ![x 0, shaftTorque x]
  T := 40

/-- The mean motion of a circular orbit at 650 km. -/
noncomputable def meanMotion : ℝ := √(398600.4418 / (6371 + 650) ^ 3)

/-- The right hand side of the equations of relative motion as coded.  (The Clohessy-Wiltshire equations
have `3 n²` in the place of the first `2 n²`.) -/
noncomputable def relativeMotion (x : Fin 6 → ℝ) : Fin 6 → ℝ :=
  ![x 3, x 4, x 5, 2 * meanMotion ^ 2 * x 0 + 2 * meanMotion * x 4, -2 * meanMotion * x 3,
    -meanMotion ^ 2 * x 2]

/-- Spacecraft relative motion: an impulsive velocity change of `30 u`, then a forward Euler step of 30 s. -/
noncomputable def spacecraftPlant : Plant 6 3 6 where
  start := ![-2.8, -0.01, -1, 0, 0, 0]
  next x u :=
    let y := x + ![0, 0, 0, 30 * u 0, 30 * u 1, 30 * u 2]
    y + (30 : ℝ) • relativeMotion y
  inputOk u := ∀ j, |u j| ≤ 1e-3
  stateOk x := |x 3| ≤ 1e-3 ∧ |x 4| ≤ 1e-3 ∧ |x 5| ≤ 1e-3
  cost x u := (x 0 ^ 2 + x 1 ^ 2 + x 2 ^ 2 + 1e-3 * (x 3 ^ 2 + x 4 ^ 2 + x 5 ^ 2) +
    (u 0 ^ 2 + u 1 ^ 2 + u 2 ^ 2)) / 2
  output x := x
  T := 100

/-- The outputs of the copolymerization reactor. -/
noncomputable def reactorOutput (x : Fin 18 → ℝ) : Fin 4 → ℝ :=
  ![0.8 * x 0 + x 3 + 0.0416666666666667 * x 6 + 0.333333333333333 * x 7 + 25.9553571428571 * x 11 +
      1.80245535714286 * x 12,
    -0.340248962655602 * x 1 + 0.874172185430464 * x 4 - 0.413793103448276 * x 8 - 0.93 * x 13,
    0.47244 * x 2 + 0.63636 * x 5 - 0.52593 * x 9 - 0.2952 * x 10 - 9.1992 * x 15,
    1.6757 * x 16 + 1.8214 * x 17]

/-- The copolymerization reactor: the modal realisation of the 4 x 5 transfer function; `sine k` is the
value of `sin(k)`. -/
noncomputable def reactorPlant (sine : Nat → ℝ) : Plant 18 5 4 where
  start k := 0.2 * sine (k.1 + 1)
  next x u :=
    ![0.55531 * x 0 + 0.18899 * u 0, 0.81264 * x 1 + 0.22577 * u 0, 0.82131 * x 2 + 0.11347 * u 0,
      0.30408 * x 3 + 0.14614 * u 1, 0.71811 * x 4 + 0.21282 * u 1, 0.72276 * x 5 + 0.21347 * u 1,
      0.97319 * x 6 - 0.16471 * x 7 + 0.24707 * u 2, 0.12353 * x 6 + 0.98966 * x 7 + 0.015512 * u 2,
      0.70834 * x 8 + 0.21145 * u 2, 0.69048 * x 9 + 0.41785 * u 2, 0.83152 * x 10 + 0.11415 * u 3,
      -0.016569 * x 11 - 0.040608 * x 12 + 0.14554 * u 4, 0.07277 * x 11 + 0.17835 * x 12 + 2.9448 * u 4,
      0.53526 * x 13 + 0.1859 * u 4, -0.015422 * x 14 - 0.093847 * x 15 + 0.04805 * u 4,
      0.04805 * x 14 + 0.2924 * x 15 + 0.36229 * u 4, -0.22577 * x 16 - 0.38505 * x 17 + 0.21563 * u 4,
      0.43126 * x 16 + 0.2517 * x 17 + 0.41905 * u 4]
  inputOk u := ∀ j, |u j| ≤ 0.05
  stateOk _ := True
  cost x u := (∑ k, reactorOutput x k ^ 2 + 0.1 * ∑ j, u j ^ 2) / 2
  output := reactorOutput
  T := 200

end Fbstab

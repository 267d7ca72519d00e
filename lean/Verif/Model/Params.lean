import Verif.Model.Scalar

/-!
# Algorithm parameters

`AlgorithmParameters` of fbstab_algorithm.h:47-82 and its three methods.
-/

namespace Fbstab

/-- `enum class Display`, fbstab_algorithm.h:39-45. -/
inductive Display where
  | off | final | iter | iterDetailed
deriving DecidableEq, Repr

/-- The numeric values of the enumeration, for `>=` comparisons. -/
def Display.toNat : Display → Nat
  | .off => 0 | .final => 1 | .iter => 2 | .iterDetailed => 3

/-- `struct AlgorithmParameters`, fbstab_algorithm.h:48-74.  `int` fields are `Int`. -/
structure Params (K : Type) where
  sigma0 : K
  sigmaMax : K
  sigmaMin : K
  alpha : K
  beta : K
  eta : K
  delta : K
  gamma : K
  absTol : K
  relTol : K
  stallTol : K
  infeasTol : K
  innerTolMax : K
  innerTolMin : K
  maxNewtonIters : Int
  maxProxIters : Int
  maxInnerIters : Int
  maxLinesearchIters : Int
  checkFeasibility : Bool
  nonmonotoneLinesearch : Bool
  displayLevel : Display

variable {K : Type} [Scalar K]

/-- `std::max(int, int)` -/
def imax (a b : Int) : Int := if a < b then b else a

/-- `AlgorithmParameters::ValidateOptions`, fbstab_algorithm-impl.h:7-31. -/
def Params.validate (o : Params K) : Except Err (Params K) := do
  let o := { o with sigma0 := cmax o.sigma0 1e-10 }
  let o := { o with sigmaMax := ← saturate o.sigmaMax 1e-6 1e2 }
  let o := { o with sigmaMin := ← saturate o.sigmaMin 1e-13 1e-8 }
  let o := { o with sigma0 := ← saturate o.sigma0 o.sigmaMin o.sigmaMax }
  let o := { o with alpha := ← saturate o.alpha 0.001 0.999 }
  let o := { o with beta := ← saturate o.beta 0.1 0.99 }
  let o := { o with eta := ← saturate o.eta 1e-12 0.499 }
  let o := { o with delta := ← saturate o.delta 0.0001 0.99 }
  let o := { o with gamma := ← saturate o.gamma 0.001 0.9 }
  let o := { o with absTol := cmax o.absTol 1e-14 }
  let o := { o with relTol := cmax o.relTol 0 }
  let o := { o with stallTol := cmax o.stallTol 1e-14 }
  let o := { o with infeasTol := cmax o.infeasTol 1e-14 }
  let o := { o with innerTolMax := ← saturate o.innerTolMax 1e-8 1e2 }
  let o := { o with innerTolMin := ← saturate o.innerTolMin 1e-14 1e-2 }
  let o := { o with maxNewtonIters := imax o.maxNewtonIters 1 }
  let o := { o with maxProxIters := imax o.maxProxIters 1 }
  let o := { o with maxInnerIters := imax o.maxInnerIters 1 }
  let o := { o with maxLinesearchIters := imax o.maxLinesearchIters 1 }
  return o

/-- `AlgorithmParameters::DefaultParameters`, fbstab_algorithm-impl.h:33-59 (every field is
assigned, so the previous contents do not matter). -/
def Params.defaults : Params K where
  sigma0 := 1e-8
  sigmaMax := 1e-6
  sigmaMin := 1e-12
  alpha := 0.95
  beta := 0.75
  eta := 1e-8
  delta := 0.2
  gamma := 0.1
  absTol := 1e-6
  relTol := 1e-12
  stallTol := 1e-10
  infeasTol := 1e-8
  innerTolMax := 1e-2
  innerTolMin := 1e-12
  maxNewtonIters := 200
  maxProxIters := 30
  maxInnerIters := 50
  maxLinesearchIters := 20
  checkFeasibility := true
  nonmonotoneLinesearch := true
  displayLevel := .final

/-- `AlgorithmParameters::ReliableParameters`, fbstab_algorithm-impl.h:61-74. -/
def Params.reliable : Params K :=
  { (Params.defaults : Params K) with
    sigma0 := 1e-4
    sigmaMax := 1e-2
    sigmaMin := 1e-10
    beta := 0.9
    absTol := 1e-4
    relTol := 1e-6
    maxLinesearchIters := 40
    maxNewtonIters := 500
    maxProxIters := 100
    nonmonotoneLinesearch := false }

/-- A freshly default-constructed `AlgorithmParameters`, fbstab_algorithm.h:49-74. -/
def Params.fresh : Params K where
  sigma0 := 1e-8
  sigmaMax := 1e-8
  sigmaMin := 1e-10
  alpha := 0.95
  beta := 0.7
  eta := 1e-8
  delta := 1 / 5.0
  gamma := 1 / 10.0
  absTol := 1e-6
  relTol := 1e-12
  stallTol := 1e-10
  infeasTol := 1e-8
  innerTolMax := 1e-1
  innerTolMin := 1e-12
  maxNewtonIters := 500
  maxProxIters := 100
  maxInnerIters := 100
  maxLinesearchIters := 20
  checkFeasibility := true
  nonmonotoneLinesearch := true
  displayLevel := .final

end Fbstab

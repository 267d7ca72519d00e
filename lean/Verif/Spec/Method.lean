import Verif.Spec.RealApi
import Verif.Spec.Newton
import Verif.Spec.Outcome

/-!
# The method

The proximally stabilised Fischer-Burmeister method, in mathematical notation and with everything the
solver does to the iterates, the counters, the tolerances and the log.  Nothing here refers to the code,
except that options, exit flags, reports and messages are named as in the API.  C54 says that `Solve`
does exactly this on convex problems, over the reals.
-/

namespace Fbstab
open Matrix

/-- A primal-dual point `(z, l, v)`. -/
@[ext] structure PD (nz nl nv : Nat) where
  z : Fin nz → ℝ
  l : Fin nl → ℝ
  v : Fin nv → ℝ

namespace PD
variable {nz nl nv : Nat}

/-- `x + t * d` -/
def along (x : PD nz nl nv) (t : ℝ) (d : PD nz nl nv) : PD nz nl nv :=
  ⟨x.z + t • d.z, x.l + t • d.l, x.v + t • d.v⟩

/-- `x - x'` -/
def diff (x x' : PD nz nl nv) : PD nz nl nv := ⟨x.z - x'.z, x.l - x'.l, x.v - x'.v⟩

/-- Negative multipliers replaced by zero. -/
noncomputable def clip (x : PD nz nl nv) : PD nz nl nv := { x with v := fun i => max (x.v i) 0 }

/-- The all-ones vector. -/
def ones : PD nz nl nv := ⟨fun _ => 1, fun _ => 1, fun _ => 1⟩

/-- The Euclidean norm. -/
noncomputable def length (x : PD nz nl nv) : ℝ := √(x.z ⬝ᵥ x.z + x.l ⬝ᵥ x.l + x.v ⬝ᵥ x.v)

end PD

namespace Method

/-- The norms of the three parts of a residual: stationarity, equations, complementarity. -/
@[ext] structure Parts where
  z : ℝ
  l : ℝ
  v : ℝ

/-- The norm of the residual. -/
noncomputable def Parts.norm (p : Parts) : ℝ := √(p.z ^ 2 + p.l ^ 2 + p.v ^ 2)

/-- The penalized Fischer-Burmeister function. -/
noncomputable def phi (alpha a b : ℝ) : ℝ :=
  alpha * (a + b - √(a ^ 2 + b ^ 2)) + (1 - alpha) * max 0 a * max 0 b

/-- The slopes used for it: its partial derivatives, except close to the origin. -/
noncomputable def phiSlopes (alpha a b : ℝ) : ℝ × ℝ :=
  let r := √(a ^ 2 + b ^ 2)
  if r < 1e-13 then (alpha * (1 - 1 / √2), alpha * (1 - 1 / √2))
  else if 0 < a ∧ 0 < b then
    (alpha * (1 - a / r) + (1 - alpha) * b, alpha * (1 - b / r) + (1 - alpha) * a)
  else (alpha * (1 - a / r), alpha * (1 - b / r))

variable {nz nl nv : Nat} (q : QP nz nl nv) (o : Params ℝ)

/-- The residual of the quadratic program at a point. -/
noncomputable def residual (x : PD nz nl nv) : Parts :=
  let y := q.b - q.A *ᵥ x.z
  ⟨euclid (q.lagrangeGrad x.z x.l x.v), euclid (q.h - q.G *ᵥ x.z),
    euclid fun i => o.alpha * min (y i) (x.v i) + (1 - o.alpha) * max 0 (y i) * max 0 (x.v i)⟩

/-- The first members of the complementarity pairs of the subproblem at `c`; the second members are the
entries of `x.v`. -/
def pairs (c x : PD nz nl nv) (i : Fin nv) : ℝ :=
  q.b i - (q.A *ᵥ x.z) i + o.sigma0 * (x.v i - c.v i)

/-- The residual of the proximal subproblem at `c`. -/
noncomputable def subResidual (c x : PD nz nl nv) : Parts :=
  ⟨euclid (q.lagrangeGrad x.z x.l x.v + o.sigma0 • (x.z - c.z)),
    euclid (q.h - q.G *ᵥ x.z + o.sigma0 • (x.l - c.l)),
    euclid fun i => phi o.alpha (pairs q o c x i) (x.v i)⟩

/-- The merit function of the subproblem. -/
noncomputable def merit (c x : PD nz nl nv) : ℝ := (subResidual q o c x).norm ^ 2 / 2

/-- `d` is the Newton direction of the subproblem at `x`. -/
def IsDirection (c x d : PD nz nl nv) : Prop :=
  q.NewtonSystem o.sigma0 (fun i => (phiSlopes o.alpha (pairs q o c x i) (x.v i)).1)
    (fun i => (phiSlopes o.alpha (pairs q o c x i) (x.v i)).2)
    (-(q.lagrangeGrad x.z x.l x.v + o.sigma0 • (x.z - c.z)))
    (-(q.h - q.G *ᵥ x.z + o.sigma0 • (x.l - c.l)))
    (fun i => -phi o.alpha (pairs q o c x i) (x.v i)) d.z d.l d.v

/-- What a new merit is compared with, given the merits of the iterates of the subproblem up to now,
newest first: the newest, or the largest of the five newest. -/
noncomputable def reference (ms : List ℝ) : ℝ :=
  if o.nonmonotoneLinesearch then (ms.take 5).foldr max 0 else ms.headD 0

/-- The test of sufficient decrease for the step `t` from `x` along `d`; `ms` as before, the first is
the merit of `x`. -/
def Passes (c x d : PD nz nl nv) (ms : List ℝ) (t : ℝ) : Prop :=
  merit q o c (x.along t d) ≤ reference o ms - 2 * t * o.eta * merit q o c x

/-- The line search ends after `j` reductions of the step: the first step that passes the test, or the
limit is reached. -/
structure Reductions (c x d : PD nz nl nv) (ms : List ℝ) (j : Nat) : Prop where
  le : (j : Int) ≤ o.maxLinesearchIters
  failed : ∀ i < j, ¬Passes q o c x d ms (o.beta ^ i)
  passed : (j : Int) < o.maxLinesearchIters → Passes q o c x d ms (o.beta ^ j)

/-- A Newton iterate solves the subproblem at `c` well enough: it is within the tolerance and better
than `c`, or within the smallest tolerance. -/
def Acceptable (c : PD nz nl nv) (tol : ℝ) (x : PD nz nl nv) : Prop :=
  ((subResidual q o c x).norm ≤ tol ∧ (residual q o x).norm < (residual q o c).norm) ∨
    (subResidual q o c x).norm ≤ o.innerTolMin

/-- What a subproblem yields. -/
structure Found (nz nl nv : Nat) where
  /-- Newton iterations so far -/
  newtons : Nat
  x : PD nz nl nv
  /-- the residual of the last Newton iterate whose residual was computed -/
  seen : Parts
  /-- the last residual of the subproblem that was computed -/
  sub : ℝ
  log : List (Msg ℝ)

/-- The line about Newton iterate `i`, which was reached with the step `t`. -/
noncomputable def line (c : PD nz nl nv) (i : Nat) (t : ℝ) (x : PD nz nl nv) : Msg ℝ :=
  let p := subResidual q o c x
  .detailedLine i t p.z p.l p.v

/-- The Newton iterations of the subproblem at `c`, from iterate number `i`, `x`, which was reached with
the step `t` after `n` Newton iterations in all; `ms` are the merits of the earlier iterates, newest
first. -/
inductive Inner (c : PD nz nl nv) (tol : ℝ) :
    Nat → ℝ → Nat → List ℝ → PD nz nl nv → Found nz nl nv → Prop
  | accept {i : Nat} {t} {n : Nat} {ms x} (hi : (i : Int) < o.maxInnerIters) (h : Acceptable q o c tol x) :
      Inner c tol i t n ms x ⟨n, x, residual q o x, (subResidual q o c x).norm,
        [line q o c i t x, .detailedFooter (subResidual q o c x).norm tol]⟩
  | newtonLimit {i : Nat} {t} {n : Nat} {ms x} (hi : (i : Int) < o.maxInnerIters) (h : ¬Acceptable q o c tol x)
      (hn : o.maxNewtonIters ≤ (n : Int)) :
      Inner c tol i t n ms x ⟨n, x, residual q o x, (subResidual q o c x).norm, [line q o c i t x]⟩
  | innerLimit {i : Nat} {t} {n : Nat} {ms x d j} (hi : (i : Int) + 1 = o.maxInnerIters) (h : ¬Acceptable q o c tol x)
      (hn : (n : Int) < o.maxNewtonIters) (hd : IsDirection q o c x d)
      (hj : Reductions q o c x d (merit q o c x :: ms) j) :
      -- (when the line search reached its limit, the residual was not computed for the last step)
      Inner c tol i t n ms x ⟨n + 1, x.along (o.beta ^ j) d, residual q o x,
        (subResidual q o c (x.along (o.beta ^ min j (o.maxLinesearchIters.toNat - 1)) d)).norm,
        [line q o c i t x]⟩
  | step {i : Nat} {t} {n : Nat} {ms x d j f} (hi : (i : Int) + 1 < o.maxInnerIters) (h : ¬Acceptable q o c tol x)
      (hn : (n : Int) < o.maxNewtonIters) (hd : IsDirection q o c x d)
      (hj : Reductions q o c x d (merit q o c x :: ms) j)
      (hr : Inner c tol (i + 1) (o.beta ^ j) (n + 1) (merit q o c x :: ms) (x.along (o.beta ^ j) d) f) :
      Inner c tol i t n ms x { f with log := line q o c i t x :: f.log }

/-- The tolerance the residual is compared with. -/
noncomputable def tolerance : ℝ :=
  o.absTol + o.relTol * (1 + √(q.f ⬝ᵥ q.f + q.h ⬝ᵥ q.h + q.b ⬝ᵥ q.b))

/-- A proximal iterate, and what is known when it is looked at. -/
structure Iterate (nz nl nv : Nat) where
  /-- its number -/
  k : Nat
  /-- Newton iterations so far -/
  newtons : Nat
  x : PD nz nl nv
  /-- the length of the step that led to it -/
  step : ℝ
  /-- the last tolerance for subproblems -/
  tol : ℝ
  /-- the residual of the last Newton iterate that was looked at -/
  seen : Parts
  /-- the last residual of a subproblem that was computed -/
  sub : ℝ

/-- The iterate is good enough, or the last step was too short to go on. -/
def Stops (s : Iterate nz nl nv) : Prop :=
  (residual q o s.x).norm ≤ tolerance q o ∨ s.step ≤ o.stallTol

/-- What is printed about a proximal iterate at level ITER. -/
noncomputable def iterLine (s : Iterate nz nl nv) : Msg ℝ :=
  let p := residual q o s.x
  .iterLine s.k s.newtons p.z p.l p.v s.sub s.tol

/-- What is printed, at the levels ITER_DETAILED and ITER, before a subproblem. -/
noncomputable def opening (s : Iterate nz nl nv) : List (Msg ℝ) :=
  [.detailedHeader s.k s.newtons (residual q o s.x).norm, .detailedColumns, iterLine q o s]

/-- The tolerance for the next subproblem. -/
noncomputable def nextTol (s : Iterate nz nl nv) : ℝ :=
  max (min (s.tol * o.delta) (residual q o s.x).norm) o.innerTolMin

/-- A subproblem is solved at `s`. -/
structure Solved (s : Iterate nz nl nv) (f : Found nz nl nv) : Prop where
  goes : ¬Stops q o s
  bounds : o.innerTolMin ≤ (residual q o s.x).norm
  inner : Inner q o s.x (nextTol q o s) 0 1 s.newtons [] s.x f

/-- The flag raised for the step `d`. -/
inductive Flag (d : PD nz nl nv) : ExitFlag → Prop
  | primal (h : q.PrimalCertificate o.infeasTol d.l d.v) (h' : ¬q.DualCertificate o.infeasTol d.z) :
      Flag d .primalInfeasible
  | dual (h : ¬q.PrimalCertificate o.infeasTol d.l d.v) (h' : q.DualCertificate o.infeasTol d.z) :
      Flag d .dualInfeasible
  | both (h : q.PrimalCertificate o.infeasTol d.l d.v) (h' : q.DualCertificate o.infeasTol d.z) :
      Flag d .primalDualInfeasible

/-- What a call yields: what is printed (at all levels together), and the report with the point it is
about, or nothing if an exception is thrown. -/
structure Result (nz nl nv : Nat) where
  log : List (Msg ℝ)
  value : Option (SolverOut ℝ × PD nz nl nv)

/-- The exception, if one is thrown. -/
def toleranceError : Err :=
  .runtimeError "In tools::saturate: upper bound must be larger than the lower bound"

/-- The call returns: the summary is printed. -/
noncomputable def finish (before : List (Msg ℝ)) (out : SolverOut ℝ) (p : Parts) (x : PD nz nl nv) :
    Result nz nl nv :=
  ⟨before ++ summary o out p.z p.l p.v (tolerance q o), some (out, x)⟩

/-- The proximal iteration from the iterate `s`; `E0` is the residual of the initial guess. -/
inductive Outer (E0 : ℝ) : Iterate nz nl nv → Result nz nl nv → Prop
  | proxLimit {s} (hk : (s.k : Int) = o.maxProxIters) :
      Outer E0 s (finish q o [] ⟨.maxIterations, s.seen.norm, s.newtons, s.k, E0⟩ s.seen s.x)
  | success {s} (hk : (s.k : Int) < o.maxProxIters) (h : Stops q o s) :
      Outer E0 s (finish q o [iterLine q o s]
        ⟨.success, (residual q o s.x).norm, s.newtons, s.k, E0⟩ (residual q o s.x) s.x)
  | throws {s} (hk : (s.k : Int) < o.maxProxIters) (h : ¬Stops q o s)
      (hb : (residual q o s.x).norm < o.innerTolMin) : Outer E0 s ⟨opening q o s, none⟩
  | newtonLimit {s f x} (hk : (s.k : Int) < o.maxProxIters) (hf : Solved q o s f)
      (hn : o.maxNewtonIters ≤ (f.newtons : Int))
      (hx : (f.seen.norm < (residual q o s.x).norm ∧ x = f.x.clip) ∨
        (¬f.seen.norm < (residual q o s.x).norm ∧ x = s.x)) :
      Outer E0 s (finish q o (opening q o s ++ f.log)
        ⟨.maxIterations, (residual q o x).norm, f.newtons, s.k, E0⟩ (residual q o x) x)
  | infeasible {s f e} (hk : (s.k : Int) < o.maxProxIters) (hf : Solved q o s f)
      (hn : (f.newtons : Int) < o.maxNewtonIters) (hc : o.checkFeasibility = true)
      (he : Flag q o (f.x.clip.diff s.x) e) :
      Outer E0 s (finish q o (opening q o s ++ f.log) ⟨e, f.seen.norm, f.newtons, s.k, E0⟩ f.seen
        (f.x.clip.diff s.x))
  | step {s f r} (hk : (s.k : Int) < o.maxProxIters) (hf : Solved q o s f)
      (hn : (f.newtons : Int) < o.maxNewtonIters)
      (hc : o.checkFeasibility = true → ∀ e, ¬Flag q o (f.x.clip.diff s.x) e)
      (hr : Outer E0 ⟨s.k + 1, f.newtons, f.x.clip, (f.x.clip.diff s.x).length, nextTol q o s, f.seen,
        f.sub⟩ r) :
      Outer E0 s ⟨opening q o s ++ f.log ++ r.log, r.value⟩

/-- A call with the initial guess `x`.  The last argument is the number shown as residual of the
subproblem before there was one. -/
inductive Run (x : PD nz nl nv) (sub : ℝ) : Result nz nl nv → Prop
  | throws (h : o.innerTolMax < o.innerTolMin) : Run x sub ⟨[], none⟩
  | starts {r} (h : o.innerTolMin ≤ o.innerTolMax)
      (hr : Outer q o (residual q o x).norm ⟨0, 0, x, PD.length (PD.ones : PD nz nl nv),
        max (min (residual q o x).norm o.innerTolMax) o.innerTolMin, residual q o x, sub⟩ r) :
      Run x sub ⟨.iterHeader :: r.log, r.value⟩

/-- Which messages are shown at a display level. -/
def visible : Display → Msg ℝ → Bool
  | d, .iterHeader | d, .iterLine .. => d = .iter
  | d, .detailedHeader .. | d, .detailedColumns | d, .detailedLine .. | d, .detailedFooter .. =>
    d = .iterDetailed
  | d, _ => d ≠ .off

end Method
end Fbstab

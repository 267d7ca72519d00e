import Verif.Spec.XReal
import Verif.Spec.Options
import Verif.Spec.Api

/-!
# Real numbers as finite IEEE numbers

`up` embeds the reals in the reals with infinities and NaN, and is extended to everything that is
made of numbers: vectors, problems, guesses, options, results and messages.
-/

namespace Fbstab

/-- A real number as a finite number. -/
noncomputable def up (a : ℝ) : XReal := .val (a : EReal)

/-- Entry by entry. -/
def Vec.map {A B : Type} {n : Nat} (g : A → B) (x : Vec A n) : Vec B n := Vec.ofFn fun i => g (x i)

noncomputable def Vec.up {n : Nat} (x : Vec ℝ n) : Vec XReal n := Vec.ofFn fun i => Fbstab.up (x i)

noncomputable def DVec.up (x : DVec ℝ) : DVec XReal := ⟨x.data.map Fbstab.up⟩

noncomputable def DMat.up (x : DMat ℝ) : DMat XReal :=
  ⟨x.rows, x.cols, x.data.map Fbstab.up, by rw [Array.size_map]; exact x.size_eq⟩

noncomputable def Params.up (o : Params ℝ) : Params XReal where
  sigma0 := Fbstab.up o.sigma0
  sigmaMax := Fbstab.up o.sigmaMax
  sigmaMin := Fbstab.up o.sigmaMin
  alpha := Fbstab.up o.alpha
  beta := Fbstab.up o.beta
  eta := Fbstab.up o.eta
  delta := Fbstab.up o.delta
  gamma := Fbstab.up o.gamma
  absTol := Fbstab.up o.absTol
  relTol := Fbstab.up o.relTol
  stallTol := Fbstab.up o.stallTol
  infeasTol := Fbstab.up o.infeasTol
  innerTolMax := Fbstab.up o.innerTolMax
  innerTolMin := Fbstab.up o.innerTolMin
  maxNewtonIters := o.maxNewtonIters
  maxProxIters := o.maxProxIters
  maxInnerIters := o.maxInnerIters
  maxLinesearchIters := o.maxLinesearchIters
  checkFeasibility := o.checkFeasibility
  nonmonotoneLinesearch := o.nonmonotoneLinesearch
  displayLevel := o.displayLevel

noncomputable def SolverOut.up (o : SolverOut ℝ) : SolverOut XReal :=
  ⟨o.eflag, Fbstab.up o.residual, o.newtonIters, o.proxIters, Fbstab.up o.initialResidual⟩

noncomputable def Msg.up : Msg ℝ → Msg XReal
  | .iterHeader => .iterHeader
  | .iterLine p n a b c d e =>
    .iterLine p n (Fbstab.up a) (Fbstab.up b) (Fbstab.up c) (Fbstab.up d) (Fbstab.up e)
  | .detailedHeader p n r => .detailedHeader p n (Fbstab.up r)
  | .detailedColumns => .detailedColumns
  | .detailedLine i a b c d =>
    .detailedLine i (Fbstab.up a) (Fbstab.up b) (Fbstab.up c) (Fbstab.up d)
  | .detailedFooter a b => .detailedFooter (Fbstab.up a) (Fbstab.up b)
  | .finalBanner => .finalBanner
  | .finalFlag e => .finalFlag e
  | .finalTime => .finalTime
  | .finalProx p l => .finalProx p l
  | .finalNewton n l => .finalNewton n l
  | .finalColumns => .finalColumns
  | .finalNorms a b c d => .finalNorms (Fbstab.up a) (Fbstab.up b) (Fbstab.up c) (Fbstab.up d)
  | .finalBlank => .finalBlank

noncomputable def CallerVar.up (x : CallerVar ℝ) : CallerVar XReal :=
  ⟨x.isMap, x.z.up, x.l.up, x.v.up, x.y.up⟩

noncomputable def DenseProblem.up (p : DenseProblem ℝ) : DenseProblem XReal :=
  ⟨p.H.up, p.f.up, p.G.up, p.h.up, p.A.up, p.b.up⟩

noncomputable def MapSequence.up (s : MapSequence ℝ) : MapSequence XReal where
  data := s.data.map fun a => a.map Fbstab.up
  N := s.N
  nr := s.nr
  nc := s.nc
  block := by
    intro d hd
    cases h : s.data with
    | none => rw [h] at hd; cases hd
    | some a =>
      rw [h] at hd
      obtain rfl : Array.map Fbstab.up a = d := by simpa using hd
      simpa using s.block a h
  nonnull := by simpa using s.nonnull

noncomputable def MpcProblem.up (p : MpcProblem ℝ) : MpcProblem XReal :=
  ⟨p.Q.up, p.R.up, p.S.up, p.q.up, p.r.up, p.A.up, p.B.up, p.c.up, p.E.up, p.L.up, p.d.up, p.x0.up⟩

/-- Workspaces without infinities and NaN. -/
def FeasWs.Finite {nz nl nv : Nat} (w : FeasWs XReal nz nl nv) : Prop :=
  (∃ a, w.tz = Vec.up a) ∧ (∃ a, w.tl = Vec.up a) ∧ (∃ a, w.tv = Vec.up a)

end Fbstab

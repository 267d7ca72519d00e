import Verif.Spec.XReal
import Verif.Spec.Api

/-!
# Inputs that contain NaN or infinities
-/

namespace Fbstab

/-- Some entry is NaN. -/
def DVec.HasNaN (x : DVec XReal) : Prop := XReal.nan ∈ x.data

/-- Some entry is NaN. -/
def DMat.HasNaN (x : DMat XReal) : Prop := XReal.nan ∈ x.data

/-- Some entry of some matrix of the sequence reads as NaN. -/
def MapSequence.HasNaN (s : MapSequence XReal) : Prop :=
  ∃ (k : Int) (i j : Nat), s.read k i j = .ok XReal.nan

/-- Some entry of the data of the problem is NaN. -/
def DenseProblem.HasNaN (p : DenseProblem XReal) : Prop :=
  p.H.HasNaN ∨ p.f.HasNaN ∨ p.G.HasNaN ∨ p.h.HasNaN ∨ p.A.HasNaN ∨ p.b.HasNaN

/-- Some entry of the data of the problem is NaN. -/
def MpcProblem.HasNaN (p : MpcProblem XReal) : Prop :=
  p.Q.HasNaN ∨ p.R.HasNaN ∨ p.S.HasNaN ∨ p.q.HasNaN ∨ p.r.HasNaN ∨ p.A.HasNaN ∨ p.B.HasNaN ∨
  p.c.HasNaN ∨ p.E.HasNaN ∨ p.L.HasNaN ∨ p.d.HasNaN ∨ p.x0.HasNaN

/-- Some entry of the initial guess is NaN (`y` is not read by `Solve`). -/
def CallerVar.HasNaN (x : CallerVar XReal) : Prop := x.z.HasNaN ∨ x.l.HasNaN ∨ x.v.HasNaN

/-- `+inf` -/
noncomputable def XReal.inf : XReal := .val ⊤

/-- `-inf` -/
noncomputable def XReal.negInf : XReal := .val ⊥

end Fbstab

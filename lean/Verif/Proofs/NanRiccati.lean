import Verif.Proofs.Inf
import Verif.Proofs.NanRun

/-!
# The Riccati factorisation does not fail on NaN

`LLT` tests `pivot <= 0`, which is false for NaN.
-/

namespace Fbstab

theorem llt_nan {n : Nat} {A : Mat XReal n n} (h : ∀ i, A i i = .nan) :
    (llt A).1 = true ∧ ∀ i, (llt A).2 i i = .nan := by
  refine forFin_induct (P := fun _ (s : Bool × Mat XReal n n) => s.1 = true ∧ ∀ i, s.2 i i = .nan) ⟨rfl, h⟩ ?_
  rintro k ⟨b, A⟩ ⟨hb, hA⟩
  simp only at hb hA
  unfold lltStep
  rw [if_pos hb]
  simp only
  rw [hA k, XReal.nan_sub', if_neg XReal.nan_le]
  refine ⟨rfl, fun i => ?_⟩
  simp only [Mat.get_ofFn]
  by_cases e : i = k
  · rw [if_pos e, if_pos e, XReal.sqrt_nan']
  · rw [if_neg e]
    exact hA i

theorem lowerSolve_diag_nan {n : Nat} {L : Mat XReal n n} (h : ∀ i, L i i = .nan) (x : Vec XReal n)
    (i : Fin n) : lowerSolve L x i = .nan := by
  have := forFin_induct (n := n) (P := fun t (s : Vec XReal n) => i.1 < t → s i = .nan)
    (f := fun i x => x.set i ((x i - dotIf n (fun j => j < i) (fun j => L i j) (fun j => x j)) / L i i)) (s := x)
    (fun h => absurd h (Nat.not_lt_zero _)) ?_
  · exact this i.2
  · intro k s hs hk
    rw [Vec.get_set]
    split
    · rename_i e
      subst e
      rw [h, XReal.div_nan']
    · rename_i e
      exact hs (by have : i.1 ≠ k.1 := fun h => e (Fin.ext h); omega)

theorem pfbGradient_inf {a : XReal} (ha : a = XReal.inf ∨ a = .nan) (alpha : XReal) {v : ℝ} (hv : ¬0 < v) :
    (pfbGradient alpha a (up v)).1 = .nan := by
  have hv' : ¬(0 : XReal) < up v := by rw [up_zero, up_lt]; exact hv
  unfold pfbGradient
  dsimp only
  rcases ha with rfl | rfl
  · rw [XReal.inf_mul_inf, up_mul, XReal.inf_add_up, XReal.sqrt_inf, if_neg, if_neg (fun h => hv' h.2)]
    · have : XReal.inf / XReal.inf = .nan := by
        show XReal.div (.val ⊤) (.val ⊤) = _
        simp [XReal.div]
      simp only [this, XReal.sub_nan', XReal.mul_nan']
    · rw [up_ofScientific]
      show ¬(⊤ : EReal) < _
      exact not_top_lt
  · rw [XReal.nan_mul', XReal.nan_add', XReal.sqrt_nan', if_neg XReal.nan_lt, if_neg (fun h => hv' h.2)]
    simp

namespace RiccatiWs
variable {N nx nu nc : Nat} {d : MpcData XReal N nx nu nc}

theorem right_nan {n m : Nat} {L : Mat XReal n n} (h : ∀ i, L i i = .nan) (X : Mat XReal m n) (i : Fin m)
    (j : Fin n) : solveOnTheRightT L X i j = .nan := by
  unfold solveOnTheRightT
  show (Vec.ofFn fun i => lowerSolve L (X.row i)) i j = _
  rw [Vec.get_ofFn]
  exact lowerSolve_diag_nan h _ _

/-- The stage Hessians have NaN on their diagonals. -/
def NanDiag (w : RiccatiWs XReal N nx nu nc) (i : Fin (N + 1)) : Prop :=
  (∀ j, w.Q i j j = .nan) ∧ ∀ j, w.R i j j = .nan

theorem mul_self_nan {r c : Nat} {A : Mat XReal r c} {B : Mat XReal c r} {j : Fin r} {k : Fin c}
    (h : A j k = .nan) (i : Fin r) : (A * B) j i = .nan := by
  rw [Mat.get_mul]
  exact dotFin_nan k (by rw [h, XReal.nan_mul'])

theorem augment_nan {sigma : XReal} {w : RiccatiWs XReal N nx nu nc} (hG : ∀ k, (colBlock w.Gamma k).HasNaN) :
    ∀ i, (forFin (N + 1) (augment d sigma) w).NanDiag i := by
  have := forFin_induct (n := N + 1) (f := augment d sigma) (s := w)
    (P := fun t s => s.Gamma = w.Gamma ∧ ∀ i : Fin (N + 1), i.1 < t → s.NanDiag i)
    ⟨rfl, fun i h => absurd h (Nat.not_lt_zero _)⟩ ?_
  · exact fun i => this.2 i i.2
  · rintro k s ⟨h1, h2⟩
    refine ⟨h1, fun i hi => ?_⟩
    by_cases e : i = k
    · subst e
      obtain ⟨m, hm⟩ := hG i
      rw [← h1] at hm
      constructor
      · intro j
        simp only [augment, Vec.get_set, if_true, Mat.get_assignLower, le_refl, Mat.get_add]
        have : ((d.E i).transpose * Mat.diagMul (colBlock s.Gamma i) (d.E i)) j j = .nan := by
          rw [Mat.get_mul]
          exact dotFin_nan m (by rw [Mat.get_diagMul, hm, XReal.nan_mul', XReal.mul_nan'])
        rw [this, XReal.add_nan']
      · intro j
        simp only [augment, Vec.get_set, if_true, Mat.get_assignLower, le_refl, Mat.get_add]
        have : ((d.L i).transpose * Mat.diagMul (colBlock s.Gamma i) (d.L i)) j j = .nan := by
          rw [Mat.get_mul]
          exact dotFin_nan m (by rw [Mat.get_diagMul, hm, XReal.nan_mul', XReal.mul_nan'])
        rw [this, XReal.add_nan']
    · obtain ⟨a, b⟩ := h2 i (by have : i.1 ≠ k.1 := fun h => e (Fin.ext h); omega)
      constructor
      · intro j
        simp only [augment, Vec.get_set, if_neg e]
        exact a j
      · intro j
        simp only [augment, Vec.get_set, if_neg e]
        exact b j

theorem factorStage_nan {w : RiccatiWs XReal N nx nu nc} (A : Option (Mat XReal nx nx)) (i : Fin (N + 1))
    (hw : w.NanDiag i) : (factorStage A i w).1 = true ∧ (factorStage A i w).2.Q = w.Q ∧
      (factorStage A i w).2.R = w.R ∧ ∀ j, (factorStage A i w).2.SG i j j = .nan := by
  unfold factorStage
  dsimp only
  have h1 := llt_nan (A := (w.M.set i ((w.M i).assignLower (w.Q i + lowerTSolveMat (w.L i)
    (lowerSolveMat (w.L i) Mat.identity)))) i) (by
      intro j
      simp only [Vec.get_set, if_true, Mat.get_assignLower, le_refl, Mat.get_add]
      rw [hw.1 j, XReal.nan_add'])
  rw [h1.1]
  simp only [Bool.not_true, Bool.false_eq_true, if_false]
  have key : ∀ v : RiccatiWs XReal N nx nu nc, v.R = w.R →
      ∀ S : Mat XReal nu nx, (∀ j, (v.R i - S * S.transpose) j j = .nan) := by
    intro v hv S j
    rw [hv, Mat.get_sub, hw.2 j, XReal.nan_sub']
  cases A with
  | some A =>
    simp only [Vec.get_set, if_true]
    refine ⟨(llt_nan (key w rfl _)).1, ?_, ?_, ?_⟩
    · trivial
    · trivial
    · intro j
      exact (llt_nan (key w rfl _)).2 j
  | none =>
    simp only [Vec.get_set, if_true]
    refine ⟨(llt_nan (key w rfl _)).1, ?_, ?_, ?_⟩
    · trivial
    · trivial
    · intro j
      exact (llt_nan (key w rfl _)).2 j

theorem factorStep_nan {sigma : XReal} (hu : 0 < nu) (i : Fin N) {s : Bool × RiccatiWs XReal N nx nu nc}
    (h1 : s.1 = true) (hw : ∀ k, s.2.NanDiag k) :
    (factorStep d sigma i s).1 = true ∧ ∀ k, (factorStep d sigma i s).2.NanDiag k := by
  obtain ⟨a, b, c, e⟩ := factorStage_nan (some (d.A i)) i.castSucc (hw i.castSucc)
  unfold factorStep
  rw [h1]
  simp only [Bool.not_true, Bool.false_eq_true, if_false, a]
  refine ⟨(llt_nan ?_).1, fun k => ⟨?_, ?_⟩⟩
  · intro j
    simp only [Vec.get_set, if_true, Mat.get_add]
    rw [mul_self_nan (k := ⟨0, hu⟩) (right_nan e _ _ _), XReal.add_nan', XReal.nan_add']
  · intro j
    show (factorStage (some (d.A i)) i.castSucc s.2).2.Q k j j = _
    rw [b]
    exact (hw k).1 j
  · intro j
    show (factorStage (some (d.A i)) i.castSucc s.2).2.R k j j = _
    rw [c]
    exact (hw k).2 j

/-- If every stage has a NaN in its barrier, the factorisation reports success. -/
theorem initPair_nan {sigma : XReal} (hu : 0 < nu)
    {x xbar : Point XReal ((N + 1) * (nx + nu)) ((N + 1) * nx) ((N + 1) * nc)}
    {w : RiccatiWs XReal N nx nu nc}
    (hG : ∀ k, ∃ j, pfbGamma w.alpha sigma x.y x.v xbar.v (flatIdx k j) = .nan) :
    (initPair d x xbar sigma w).1 = true := by
  unfold initPair
  dsimp only
  have h1 := augment_nan (d := d) (sigma := sigma) (w := barrier x xbar sigma w) (by
    intro k
    obtain ⟨j, h⟩ := hG k
    refine ⟨j, ?_⟩
    rw [colBlock_get]
    simp only [barrier, Vec.get_ofFn, h, XReal.nan_div'])
  generalize forFin (N + 1) (augment d sigma) (barrier x xbar sigma w) = w' at h1 ⊢
  generalize w'.L.set 0 (Scalar.sqrt sigma * (Mat.identity : Mat XReal nx nx)) = L'
  have h2 := forFin_induct (n := N) (f := factorStep d sigma) (s := (true, { w' with L := L' }))
    (P := fun _ s => s.1 = true ∧ ∀ k, s.2.NanDiag k) ⟨rfl, h1⟩
    (fun i s hs => factorStep_nan hu i hs.1 hs.2)
  rw [h2.1]
  simp only [Bool.not_true, Bool.false_eq_true, if_false]
  exact (factorStage_nan none _ (h2.2 _)).1

/-- Infinite bounds, without positive multipliers, in every stage: the factorisation reports success. -/
theorem factor_inf (hu : 0 < nu) (alpha : XReal) {sigma : ℝ} (hs : 0 < sigma)
    (x xbar : Point XReal ((N + 1) * (nx + nu)) ((N + 1) * nx) ((N + 1) * nc))
    (hx : ∀ k, ∃ j, (x.y (flatIdx k j) = XReal.inf ∨ x.y (flatIdx k j) = .nan) ∧
      ∃ v : ℝ, x.v (flatIdx k j) = Fbstab.up v ∧ ¬0 < v) :
    ∃ g, factor d alpha x xbar (Fbstab.up sigma) = .ok (some g) := by
  unfold factor
  rw [if_neg (by rw [up_zero, up_le]; exact not_le.2 hs), if_pos]
  · exact ⟨_, rfl⟩
  · refine initPair_nan hu fun k => ?_
    obtain ⟨j, h, v, e, hv⟩ := hx k
    refine ⟨j, ?_⟩
    unfold pfbGamma
    rw [e]
    refine pfbGradient_inf ?_ _ hv
    rcases h with h | h
    · rw [h]; exact XReal.inf_add_cases _
    · rw [h, XReal.nan_add']; exact .inr rfl

end RiccatiWs
end Fbstab

import Verif.Proofs.NanMpc
import Verif.Proofs.ApiSem

/-!
# From NaN in the caller's memory to NaN in the model's vectors
-/

namespace Fbstab

/-! ## Sizes of objects -/

theorem FBstabDense.Reachable.pos {K : Type} [Scalar K] {s : FBstabDense K} (h : s.Reachable) :
    0 < s.nz ∧ 0 < s.nv := by
  obtain ⟨junk, nz, nl, nv, s0, hist, h1, rfl⟩ := h
  have step : ∀ (c : DenseCall K) (s : FBstabDense K), (c.apply s).nz = s.nz ∧ (c.apply s).nv = s.nv := by
    intro c s
    cases c with
    | updateOptions o =>
      simp only [DenseCall.apply, FBstabDense.updateOptions]
      split <;> exact ⟨rfl, rfl⟩
    | solve qp x =>
      simp only [DenseCall.apply, FBstabDense.solve]
      split
      · exact ⟨rfl, rfl⟩
      · split <;> exact ⟨rfl, rfl⟩
  have all : ∀ (hist : List (DenseCall K)) (s : FBstabDense K),
      (s.after hist).nz = s.nz ∧ (s.after hist).nv = s.nv := by
    intro hist
    induction hist with
    | nil => intro s; exact ⟨rfl, rfl⟩
    | cons c t ih =>
      intro s
      obtain ⟨a1, a2⟩ := ih (c.apply s)
      obtain ⟨b1, b2⟩ := step c s
      exact ⟨a1.trans b1, a2.trans b2⟩
  obtain ⟨e1, e2⟩ := all hist s0
  rw [e1, e2]
  clear e1 e2 all step
  unfold FBstabDense.new at h1
  by_cases hb : nz ≤ 0 ∨ nv ≤ 0 ∨ nl < 0
  · rw [if_pos hb] at h1
    cases h1
  · rw [if_neg hb] at h1
    have hc : ∀ m, componentCheck m nz nl nv = .ok () := fun m => by
      unfold componentCheck; rw [if_neg (by omega)]
    simp only [hc] at h1
    by_cases hi : (intLimit : Int) ≤ nz + nl
    · rw [if_pos hi] at h1; cases h1
    · rw [if_neg hi] at h1
      cases h1
      simp only
      omega

theorem FBstabMpc.Reachable.pos {K : Type} [Scalar K] {s : FBstabMpc K} (h : s.Reachable) :
    0 < s.nx := by
  obtain ⟨junk, N, nx, nu, nc, s0, hist, h1, rfl⟩ := h
  have step : ∀ (c : MpcCall K) (s : FBstabMpc K), (c.apply s).nx = s.nx := by
    intro c s
    cases c with
    | updateOptions o =>
      simp only [MpcCall.apply, FBstabMpc.updateOptions]
      split <;> rfl
    | solve qp x =>
      simp only [MpcCall.apply, FBstabMpc.solve]
      split
      · rfl
      · split
        · rfl
        · split <;> rfl
  have all : ∀ (hist : List (MpcCall K)) (s : FBstabMpc K), (s.after hist).nx = s.nx := by
    intro hist
    induction hist with
    | nil => intro s; rfl
    | cons c t ih => intro s; exact (ih (c.apply s)).trans (step c s)
  rw [all hist s0]
  clear all step
  unfold FBstabMpc.new at h1
  by_cases hb : N < 1 ∨ nx < 1 ∨ nu < 1 ∨ nc < 1
  · rw [if_pos hb] at h1
    cases h1
  · rw [if_neg hb] at h1
    simp only [not_or, not_lt] at hb
    obtain ⟨b1, b2, b3, b4⟩ := hb
    have p1 : 0 < (nx + nu) * (N + 1) := mul_pos (by omega) (by omega)
    have p2 : 0 < nx * (N + 1) := mul_pos (by omega) (by omega)
    have p3 : 0 < nc * (N + 1) := mul_pos (by omega) (by omega)
    have hc : ∀ m, componentCheck m ((nx + nu) * (N + 1)) (nx * (N + 1)) (nc * (N + 1)) = .ok () :=
      fun m => by
        unfold componentCheck; rw [if_neg (by rintro (h | h | h) <;> omega)]
    simp only [hc] at h1
    by_cases hi : (intLimit : Int) ≤ (nx + nu) * (N + 1) ∨ (intLimit : Int) ≤ nx * (N + 1) ∨
      (intLimit : Int) ≤ nc * (N + 1)
    · rw [if_pos hi] at h1; cases h1
    · rw [if_neg hi, if_neg (by rintro (h | h | h | h) <;> omega)] at h1
      cases h1
      simp only
      omega

/-! ## Entries -/

theorem getD_of_mem {d : Array XReal} (h : XReal.nan ∈ d) : ∃ k, k < d.size ∧ d.getD k 0 = .nan := by
  obtain ⟨k, hk, e⟩ := Array.mem_iff_getElem.1 h
  exact ⟨k, hk, by simp [Array.getD, hk, e]⟩

theorem DVec.HasNaN.toVec {x : DVec XReal} (h : x.HasNaN) {n : Nat} (hn : x.size = n) :
    (x.toVec n).HasNaN := by
  obtain ⟨k, hk, e⟩ := getD_of_mem h
  exact ⟨⟨k, hn ▸ hk⟩, by rw [DVec.toVec, Vec.get_ofFn]; exact e⟩

theorem DMat.HasNaN.toMat {x : DMat XReal} (h : x.HasNaN) {r c : Nat} (hr : x.rows = r)
    (hc : x.cols = c) : ∃ i j, x.toMat r c i j = .nan := by
  obtain ⟨k, hk, e⟩ := getD_of_mem h
  rw [x.size_eq, hr, hc] at hk
  have hr0 : 0 < r := Nat.pos_of_ne_zero (by rintro rfl; simp at hk)
  refine ⟨⟨k % r, Nat.mod_lt _ hr0⟩, ⟨k / r, Nat.div_lt_of_lt_mul hk⟩, ?_⟩
  rw [DMat.toMat, Mat.get_ofFn, ← e, hr]
  congr 1
  exact Nat.div_add_mod' k r

theorem MapSequence.HasNaN.toMat {s : MapSequence XReal} (h : s.HasNaN) {N r c : Nat} (hN : s.N = N)
    (hr : s.nr = r) (hc : s.nc = c) : ∃ (k : Fin N) (i : Fin r) (j : Fin c), s.toMat r c k i j = .nan := by
  obtain ⟨k, i, j, h⟩ := h
  unfold MapSequence.read at h
  split at h
  · cases h
  · rename_i hk
    split at h
    · cases h
    · rename_i d hd
      split at h
      · rename_i hij
        injection h with h
        subst hN hr hc
        refine ⟨⟨k.toNat, by omega⟩, ⟨i, hij.1⟩, ⟨j, hij.2⟩, ?_⟩
        rw [MapSequence.toMat, Mat.get_ofFn, hd]
        exact h
      · cases h

theorem MapSequence.HasNaN.toVec {s : MapSequence XReal} (h : s.HasNaN) {N r : Nat} (hN : s.N = N)
    (hr : s.nr = r) (hc : s.nc = 1) : ∃ (k : Fin N), (s.toVec r k).HasNaN := by
  obtain ⟨k, i, j, h⟩ := h.toMat hN hr hc
  refine ⟨k, i, ?_⟩
  rw [MapSequence.toMat, Mat.get_ofFn] at h
  rw [MapSequence.toVec, Vec.get_ofFn, ← h]
  congr 1
  have : j.1 = 0 := by have := j.2; omega
  rw [this]
  omega

/-! ## Problems -/

/-- NaN in the data of a dense problem, entry by entry. -/
theorem DenseProblem.HasNaN.toData {p : DenseProblem XReal} (h : p.HasNaN) {nz nl nv : Nat}
    {x : CallerVar XReal} (hf : DenseFits nz nl nv p x) :
    let d := p.toData nz nl nv
    (∃ i j, d.H i j = .nan) ∨ d.f.HasNaN ∨ (∃ i j, d.G i j = .nan) ∨ d.h.HasNaN ∨
      (∃ i j, d.A i j = .nan) ∨ d.b.HasNaN := by
  rcases h with h | h | h | h | h | h
  · exact .inl (h.toMat hf.Hr hf.Hc)
  · exact .inr (.inl (h.toVec hf.f))
  · exact .inr (.inr (.inl (h.toMat hf.Gr hf.Gc)))
  · exact .inr (.inr (.inr (.inl (h.toVec hf.h))))
  · exact .inr (.inr (.inr (.inr (.inl (h.toMat hf.Ar hf.Ac)))))
  · exact .inr (.inr (.inr (.inr (.inr (h.toVec hf.b)))))

/-- NaN in MPC data, entry by entry. -/
def MpcData.HasNaN {N nx nu nc : Nat} (d : MpcData XReal N nx nu nc) : Prop :=
  (∃ k i j, d.Q k i j = .nan) ∨ (∃ k i j, d.R k i j = .nan) ∨ (∃ k i j, d.S k i j = .nan) ∨
  (∃ k, (d.q k).HasNaN) ∨ (∃ k, (d.r k).HasNaN) ∨ (∃ k i j, d.A k i j = .nan) ∨
  (∃ k i j, d.B k i j = .nan) ∨ (∃ k, (d.c k).HasNaN) ∨ (∃ k i j, d.E k i j = .nan) ∨
  (∃ k i j, d.L k i j = .nan) ∨ (∃ k, (d.d k).HasNaN) ∨ d.x0.HasNaN

theorem MpcProblem.HasNaN.toData {p : MpcProblem XReal} (h : p.HasNaN) {N nx nu nc : Nat}
    {x : CallerVar XReal} (hf : MpcFits N nx nu nc p x) (hc : p.Columns) :
    (p.toData N nx nu nc).HasNaN := by
  unfold MpcData.HasNaN MpcProblem.toData
  simp only [Vec.get_ofFn]
  obtain ⟨c1, c2, c3, c4⟩ := hc
  rcases h with h | h | h | h | h | h | h | h | h | h | h | h
  · exact .inl (h.toMat hf.Q.1 hf.Q.2.1 hf.Q.2.2)
  · exact .inr (.inl (h.toMat hf.R.1 hf.R.2.1 hf.R.2.2))
  · exact .inr (.inr (.inl (h.toMat hf.S.1 hf.S.2.1 hf.S.2.2)))
  · exact .inr (.inr (.inr (.inl (h.toVec hf.q.1 hf.q.2 c1))))
  · exact .inr (.inr (.inr (.inr (.inl (h.toVec hf.r.1 hf.r.2 c2)))))
  · exact .inr (.inr (.inr (.inr (.inr (.inl (h.toMat hf.A.1 hf.A.2.1 hf.A.2.2))))))
  · exact .inr (.inr (.inr (.inr (.inr (.inr (.inl (h.toMat hf.B.1 hf.B.2.1 hf.B.2.2)))))))
  · exact .inr (.inr (.inr (.inr (.inr (.inr (.inr (.inl (h.toVec hf.c.1 hf.c.2 c3))))))))
  · exact .inr (.inr (.inr (.inr (.inr (.inr (.inr (.inr (.inl
      (h.toMat hf.E.1 hf.E.2.1 hf.E.2.2)))))))))
  · exact .inr (.inr (.inr (.inr (.inr (.inr (.inr (.inr (.inr (.inl
      (h.toMat hf.L.1 hf.L.2.1 hf.L.2.2))))))))))
  · exact .inr (.inr (.inr (.inr (.inr (.inr (.inr (.inr (.inr (.inr (.inl
      (h.toVec hf.d.1 hf.d.2 c4)))))))))))
  · exact .inr (.inr (.inr (.inr (.inr (.inr (.inr (.inr (.inr (.inr (.inr
      (h.toVec hf.x0)))))))))))

/-! ## Residuals -/

/-- NaN in dense data: either the residual of every point or the forcing term is NaN. -/
theorem DenseData.nan_residual {nz nl nv : Nat} {d : DenseData XReal nz nl nv}
    (h : (∃ i j, d.H i j = .nan) ∨ d.f.HasNaN ∨ (∃ i j, d.G i j = .nan) ∨ d.h.HasNaN ∨
      (∃ i j, d.A i j = .nan) ∨ d.b.HasNaN) :
    (∀ z l v, (gradLagrangian d.ops z l v).HasNaN) ∨ d.ops.forcingNorm = .nan := by
  rcases h with ⟨i, j, h⟩ | h | ⟨i, j, h⟩ | h | ⟨i, j, h⟩ | h
  · exact .inl fun z l v => ⟨i, d.grad_nan i (.inr (.inl ⟨j, h⟩))⟩
  · exact .inr (forcingNorm_nan (.inl h))
  · exact .inl fun z l v => ⟨j, d.grad_nan j (.inr (.inr (.inl ⟨i, h⟩)))⟩
  · exact .inr (forcingNorm_nan (.inr (.inl h)))
  · exact .inl fun z l v => ⟨j, d.grad_nan j (.inr (.inr (.inr (.inl ⟨i, h⟩))))⟩
  · exact .inr (forcingNorm_nan (.inr (.inr h)))

/-- NaN in MPC data: either the residual of every point or the forcing term is NaN. -/
theorem MpcData.nan_residual {N nx nu nc : Nat} {d : MpcData XReal N nx nu nc} (h : d.HasNaN) :
    (∀ z l v, (gradLagrangian d.ops z l v).HasNaN) ∨ d.ops.forcingNorm = .nan := by
  rcases h with ⟨k, i, j, h⟩ | ⟨k, i, j, h⟩ | ⟨k, i, j, h⟩ | h | h | ⟨k, i, j, h⟩ | ⟨k, i, j, h⟩ | h |
    ⟨k, i, j, h⟩ | ⟨k, i, j, h⟩ | h | h
  · exact .inl fun z l v => ⟨_, d.grad_x_nan k i (.inr (.inl ⟨j, h⟩))⟩
  · exact .inl fun z l v => ⟨_, d.grad_u_nan k i (.inr (.inr (.inl ⟨j, h⟩)))⟩
  · exact .inl fun z l v => ⟨_, d.grad_u_nan k i (.inr (.inl ⟨j, h⟩))⟩
  · exact .inr (forcingNorm_nan (.inl h))
  · exact .inr (forcingNorm_nan (.inr (.inl h)))
  · exact .inl fun z l v => ⟨_, d.grad_A_nan k i j h⟩
  · exact .inl fun z l v => ⟨_, d.grad_B_nan k i j h⟩
  · exact .inr (forcingNorm_nan (.inr (.inr (.inr (.inl h)))))
  · exact .inl fun z l v => ⟨_, d.grad_x_nan k j (.inr (.inr (.inl ⟨i, h⟩)))⟩
  · exact .inl fun z l v => ⟨_, d.grad_u_nan k j (.inr (.inr (.inr (.inl ⟨i, h⟩))))⟩
  · exact .inr (forcingNorm_nan (.inr (.inr (.inl h))))
  · exact .inr (forcingNorm_nan (.inr (.inr (.inr (.inr h)))))

theorem residual_nan {nz nl nv : Nat} {q : QPOps XReal nz nl nv}
    (h : (∀ z l v, (gradLagrangian q z l v).HasNaN) ∨ q.forcingNorm = .nan) (o : Params XReal)
    (x : Point XReal nz nl nv) : ¬residualNorm q o.alpha x ≤ stoppingTol q o := by
  rcases h with h | h
  · unfold residualNorm
    rw [norm3_nan (.inl (h _ _ _))]
    exact XReal.nan_le
  · unfold stoppingTol
    rw [h]
    simp only [XReal.add_nan', XReal.mul_nan']
    exact XReal.le_nan

/-- NaN in a point makes its residual NaN. -/
theorem DenseData.point_nan {nz nl nv : Nat} (d : DenseData XReal nz nl nv) (hz : 0 < nz) (alpha : XReal)
    {x : Point XReal nz nl nv} (h : x.HasNaN) : residualNorm d.ops alpha x = .nan := by
  refine norm3_nan (.inl ⟨⟨0, hz⟩, d.grad_nan _ ?_⟩)
  exact .inr (.inr (.inr (.inr h)))

theorem MpcData.point_nan {N nx nu nc : Nat} (d : MpcData XReal N nx nu nc) (hx : 0 < nx) (alpha : XReal)
    {x : Point XReal ((N + 1) * (nx + nu)) ((N + 1) * nx) ((N + 1) * nc)} (h : x.HasNaN) :
    residualNorm d.ops alpha x = .nan := by
  refine norm3_nan (.inl ?_)
  rcases h with ⟨a, h⟩ | ⟨a, h⟩ | ⟨a, h⟩
  · rcases xuIdx_surj a with ⟨i, j, rfl⟩ | ⟨i, j, rfl⟩
    · exact ⟨_, d.grad_x_nan i j (.inr (.inr (.inr (.inl ⟨j, by simpa [xBlock] using h⟩))))⟩
    · exact ⟨_, d.grad_u_nan i j (.inr (.inr (.inr (.inr (.inr (.inl ⟨j, by simpa [uBlock] using h⟩))))))⟩
  · obtain ⟨i, j, rfl⟩ := flatIdx_surj a
    exact ⟨_, d.grad_x_nan i j (.inr (.inr (.inr (.inr (.inr (.inl h))))))⟩
  · obtain ⟨i, j, rfl⟩ := flatIdx_surj a
    exact ⟨_, d.grad_x_nan i ⟨0, hx⟩ (.inr (.inr (.inr (.inr (.inr (.inr ⟨j, by simpa [colBlock] using h⟩))))))⟩

theorem CallerVar.HasNaN.guess {nz nl nv : Nat} {q : QPOps XReal nz nl nv} {x : CallerVar XReal}
    (h : x.HasNaN) (hz : x.z.size = nz) (hl : x.l.size = nl) (hv : x.v.size = nv) :
    (x.guess q).HasNaN := by
  rcases h with h | h | h
  · exact .inl (h.toVec hz)
  · exact .inr (.inl (h.toVec hl))
  · exact .inr (.inr (h.toVec hv))

end Fbstab

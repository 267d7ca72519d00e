import Verif.Props.OptionsBinary64
import Verif.Props.Isolation
import Verif.Props.LineSearch
import Verif.Proofs.Witness

/-!
# Histories in `double`: C09, C15, C39

The theorems about histories and logs for IEEE double precision, with dot products computed in any order.
-/

namespace Fbstab

/-- Options that pass validation keep the switch of the feasibility check. -/
theorem validate_checkFeasibility {K : Type} [Scalar K] {o o' : Params K} (h : o.validate = .ok o') :
    o'.checkFeasibility = o.checkFeasibility := by
  unfold Params.validate at h
  have bind_ok : ∀ {α β : Type} {a : Except Err α} {f : α → Except Err β} {b : β},
      (a >>= f) = .ok b → ∃ t, a = .ok t ∧ f t = .ok b := by
    intro α β a f b h
    cases a with
    | error e => cases h
    | ok t => exact ⟨t, rfl, h⟩
  iterate 10
    obtain ⟨_, -, h⟩ := bind_ok h
  cases h
  rfl

/-- C09, C39 for FBstabDense with the feasibility check switched off, in any arithmetic: two objects constructed with the
same sizes, whatever uninitialised memory they were given and whatever has been called on them since (with the check on or
off, with NaN or without), do the same in the next call if their last `UpdateOptions` was the same and switched the
check off. -/
theorem C09_history_unchecked_dense {K : Type} [Scalar K] (hv : ValidationTotal K)
    (junk junk' : DenseJunk K) (nz nl nv : Int) (s s' : FBstabDense K)
    (hs : FBstabDense.new junk nz nl nv = .ok s) (hs' : FBstabDense.new junk' nz nl nv = .ok s')
    (h h' : List (DenseCall K)) (o : Params K) (hh : DenseCall.lastOptions h = some o)
    (hh' : DenseCall.lastOptions h' = some o) (hc : o.checkFeasibility = false)
    (qp : DenseProblem K) (x : CallerVar K) :
    ((s.after h).solve qp x).SameAs ((s'.after h').solve qp x) := by
  obtain ⟨-, a1, a2, a3, -⟩ := FBstabDense.new_facts hs
  obtain ⟨-, b1, b2, b3, -⟩ := FBstabDense.new_facts hs'
  obtain ⟨c1, c2, c3⟩ := s.after_sizes h
  obtain ⟨d1, d2, d3⟩ := s'.after_sizes h'
  have o1 := C03_dense hv junk nz nl nv s hs h
  have o2 := C03_dense hv junk' nz nl nv s' hs' h'
  rw [hh] at o1
  rw [hh'] at o2
  have o1 : o.validate = .ok (s.after h).options := o1
  have o2 : o.validate = .ok (s'.after h').options := o2
  have ho : (s'.after h').options = (s.after h).options := by
    have := o2.symm.trans o1
    injection this
  have hoff : (s.after h).options.checkFeasibility = false := (validate_checkFeasibility o1).trans hc
  exact C09_dense' _ _ (fun e => by rw [hoff] at e; cases e) (by omega) (by omega) (by omega) ho qp x x
    rfl rfl rfl rfl rfl

/-- C09, C39 in `double`, FBstabMpc: whatever uninitialised memory two objects of the same sizes were given and whatever
has been called on them since, with infinities and NaN or without, the next call does the same if their last
`UpdateOptions` was the same (or there was none). -/
theorem C09_binary64_mpc (d : DotOrder) (junk junk' : MpcJunk (Binary64.WithOrder d)) (N nx nu nc : Int)
    (s s' : FBstabMpc (Binary64.WithOrder d))
    (hs : FBstabMpc.new junk N nx nu nc = .ok s) (hs' : FBstabMpc.new junk' N nx nu nc = .ok s')
    (h h' : List (MpcCall (Binary64.WithOrder d))) (hh : MpcCall.lastOptions h = MpcCall.lastOptions h')
    (p : MpcProblem (Binary64.WithOrder d)) (x : CallerVar (Binary64.WithOrder d)) :
    ((s.after h).solve p x).SameAs ((s'.after h').solve p x) :=
  C09_history_mpc (Binary64.rounding_of_order d).beqOk.zero (C01_binary64 d).2 junk junk' N nx nu nc s s' hs hs' h h' hh
    p x

/-- C09, C39 in `double`, FBstabDense with the feasibility check switched off. -/
theorem C09_binary64_unchecked_dense (d : DotOrder) (junk junk' : DenseJunk (Binary64.WithOrder d)) (nz nl nv : Int)
    (s s' : FBstabDense (Binary64.WithOrder d))
    (hs : FBstabDense.new junk nz nl nv = .ok s) (hs' : FBstabDense.new junk' nz nl nv = .ok s')
    (h h' : List (DenseCall (Binary64.WithOrder d))) (o : Params (Binary64.WithOrder d))
    (hh : DenseCall.lastOptions h = some o) (hh' : DenseCall.lastOptions h' = some o)
    (hc : o.checkFeasibility = false)
    (qp : DenseProblem (Binary64.WithOrder d)) (x : CallerVar (Binary64.WithOrder d)) :
    ((s.after h).solve qp x).SameAs ((s'.after h').solve qp x) :=
  C09_history_unchecked_dense (C01_binary64 d).2 junk junk' nz nl nv s s' hs hs' h h' o hh hh' hc qp x

/-- C10 in `double`, FBstabMpc: after any call, also one that threw, the next call does what it would have done on the
object before. -/
theorem C10_binary64_mpc (d : DotOrder) (s : FBstabMpc (Binary64.WithOrder d))
    (p p' : MpcProblem (Binary64.WithOrder d)) (x x' : CallerVar (Binary64.WithOrder d)) :
    (s.solve p' x').SameAs ((s.solve p x).solver.solve p' x') :=
  C10_next_mpc (Binary64.rounding_of_order d).beqOk.zero s p p' x x'

/-- C15 in `double`: the detailed log is that of a backtracking line search. -/
theorem C15_binary64_dense (d : DotOrder) (s : FBstabDense (Binary64.WithOrder d)) (hs : s.Reachable)
    (qp : DenseProblem (Binary64.WithOrder d)) (x : CallerVar (Binary64.WithOrder d)) (hy : x.YWritable s.nv)
    (ho : s.options.displayLevel = .iterDetailed) : LineSearchLog s.options [] (s.solve qp x).log :=
  C15_dense (C01_binary64 d).2 s hs qp x hy ho

/-- C15 in `double`, `FBstabMpc`. -/
theorem C15_binary64_mpc (d : DotOrder) (s : FBstabMpc (Binary64.WithOrder d)) (hs : s.Reachable)
    (p : MpcProblem (Binary64.WithOrder d)) (x : CallerVar (Binary64.WithOrder d))
    (ho : s.options.displayLevel = .iterDetailed) : LineSearchLog s.options [] (s.solve p x).log :=
  C15_mpc (Binary64.rounding_of_order d).beqOk.zero (C01_binary64 d).2 s hs p x ho

/-- Two histories that end with the same options, of objects in any memory, one with a call before. -/
example (d : DotOrder) (junk junk' : DenseJunk (Binary64.WithOrder d)) (p p' : DenseProblem (Binary64.WithOrder d))
    (x x' : CallerVar (Binary64.WithOrder d)) :
    ∃ s s' : FBstabDense (Binary64.WithOrder d),
      FBstabDense.new junk 1 0 1 = .ok s ∧ FBstabDense.new junk' 1 0 1 = .ok s' ∧
      ((s.after [.updateOptions { Params.defaults with checkFeasibility := false }]).solve p x).SameAs
        ((s'.after [.solve p' x', .updateOptions { Params.defaults with checkFeasibility := false }]).solve p x) := by
  have h1 := FBstabDense.new_ok (K := Binary64.WithOrder d) junk
    (nz := 1) (nl := 0) (nv := 1) (by norm_num) (by norm_num) (by norm_num [intLimit])
  have h2 := FBstabDense.new_ok (K := Binary64.WithOrder d) junk'
    (nz := 1) (nl := 0) (nv := 1) (by norm_num) (by norm_num) (by norm_num [intLimit])
  exact ⟨_, _, h1, h2, C09_binary64_unchecked_dense d _ _ 1 0 1 _ _ h1 h2 _ _ _ rfl rfl rfl p x⟩

end Fbstab

import Verif.Proofs.OneDim
import Verif.Model.Solver1d

/-!
# C54: the n-dimensional solver specialises to the scalar Newton method
-/

namespace Nrf
open Spec
open scoped Exact

section
variable {K : Type} [Field K] [LinearOrder K] [IsStrictOrderedRing K]

section
variable (func : K → K) (slope : K → K → K) (tol : K)

omit [IsStrictOrderedRing K] in
private theorem loop1d_succ : ∀ (k : Nat) (g : K), (loop1d func slope tol k g (func g)).2 = k →
    Scalar.lt tol (Scalar.abs (func (loop1d func slope tol k g (func g)).1)) = true →
    loop1d func slope tol (k + 1) g (func g) =
      ((loop1d func slope tol k g (func g)).1 -
        func (loop1d func slope tol k g (func g)).1 /
          slope (loop1d func slope tol k g (func g)).1 (func (loop1d func slope tol k g (func g)).1), k + 1) := by
  intro k
  induction k with
  | zero =>
    intro g _ h
    have h' : Scalar.lt tol (Scalar.abs (func g)) = true := h
    rw [loop1d.eq_2, if_pos h']
    rfl
  | succ k ih =>
    intro g h h'
    by_cases hb : Scalar.lt tol (Scalar.abs (func g)) = true
    · rw [loop1d, if_pos hb] at h h'
      have e1 : ∀ j, loop1d func slope tol (j + 1) g (func g) =
        ((loop1d func slope tol j (g -ᶠ (func g /ᶠ slope g (func g))) (func (g -ᶠ (func g /ᶠ slope g (func g))))).1,
         (loop1d func slope tol j (g -ᶠ (func g /ᶠ slope g (func g))) (func (g -ᶠ (func g /ᶠ slope g (func g))))).2 + 1) := by
        intro j; rw [loop1d, if_pos hb]
      rw [e1, ih _ (by simpa using h) h', e1]
    · rw [loop1d, if_neg hb] at h
      exact absurd h (by simp)

omit [IsStrictOrderedRing K] in
private theorem loop1d_stop : ∀ (k : Nat) (g : K), (loop1d func slope tol k g (func g)).2 = k →
    Scalar.lt tol (Scalar.abs (func (loop1d func slope tol k g (func g)).1)) ≠ true →
    ∀ j, loop1d func slope tol (k + j) g (func g) = loop1d func slope tol k g (func g) := by
  intro k
  induction k with
  | zero =>
    intro g _ h j
    cases j with
    | zero => rfl
    | succ j =>
      have h' : Scalar.lt tol (Scalar.abs (func g)) ≠ true := h
      rw [Nat.zero_add, loop1d.eq_2, if_neg h']
      rfl
  | succ k ih =>
    intro g h h' j
    by_cases hb : Scalar.lt tol (Scalar.abs (func g)) = true
    · have e1 : ∀ j, loop1d func slope tol (j + 1) g (func g) =
        ((loop1d func slope tol j (g -ᶠ (func g /ᶠ slope g (func g))) (func (g -ᶠ (func g /ᶠ slope g (func g))))).1,
         (loop1d func slope tol j (g -ᶠ (func g /ᶠ slope g (func g))) (func (g -ᶠ (func g /ᶠ slope g (func g))))).2 + 1) := by
        intro j; rw [loop1d, if_pos hb]
      rw [e1] at h h'
      rw [show k + 1 + j = k + j + 1 by omega, e1, ih _ (by simpa using h) h', e1]
    · rw [loop1d, if_neg hb] at h
      exact absurd h (by simp)

omit [IsStrictOrderedRing K] in
private theorem loop1d_count : ∀ (k : Nat) (g r : K) (j : Nat),
    (loop1d func slope tol k g r).2 ≤ (loop1d func slope tol (k + j) g r).2 := by
  intro k
  induction k with
  | zero => intro g r j; exact Nat.zero_le _
  | succ k ih =>
    intro g r j
    rw [show k + 1 + j = k + j + 1 by omega, loop1d, loop1d]
    by_cases hb : Scalar.lt tol (Scalar.abs r) = true
    · rw [if_pos hb, if_pos hb]; exact Nat.succ_le_succ (ih _ _ j)
    · rw [if_neg hb, if_neg hb]

end

/-- Both solvers march together: through the points of the scalar loop, up to the first zero slope. -/
private theorem march {EI EU S : Type} {m : UserModel K 1 EI EU S} {inv : S → Prop}
    (func sl : K → K) (slope : K → K → K)
    (hf : Computes m inv (fun _ => True) (fun x => ⟨fun _ => func (x 0), 0⟩))
    (c : Config K 1) (hc : Spec.Default c) (hm : c.params.method = .NewtonRaphson)
    (hsl : ∀ x, slope x (func x) = sl x)
    (hsrc : ∀ x, ∃ p, Source c m inv (fun _ => True) (fun x => ⟨fun _ => func (x 0), 0⟩) (vec1 x) (vec1 p)
      (mat1 (sl x)))
    (s : S) (hs : inv s) (pt : Nat → K × Nat)
    (hpt : pt = fun k => loop1d func slope c.params.tolerance k (c.guess 0) (func (c.guess 0))) :
    ((∀ k < (pt c.params.maxIter).2, sl (pt k).1 ≠ 0) ∧ ∃ st' s',
      solve c m .new s = .ok (st', s',
        if c.params.tolerance < |func (pt c.params.maxIter).1| then .error .nonConvergence else .ok ()) ∧
      m.getIteratives s' 0 = (pt c.params.maxIter).1 ∧ st'.iter = (pt c.params.maxIter).2) ∨
    (∃ k < (pt c.params.maxIter).2, sl (pt k).1 = 0) ∧ ∃ st' s',
      solve c m .new s = .ok (st', s', .error (.jacobian .invalidJacobianInverse)) := by
  set f : Vec K 1 → ResidualsValues K 1 := fun x => ⟨fun _ => func (x 0), 0⟩ with hfdef
  have hupd : ∀ x, updateAt c f (vec1 x) 0 = func x := fun x => by
    rw [hfdef, updateAt_zero hc]; rfl
  have hamax : ∀ x, amax (errorsAt c f (vec1 x)) = |func x| := fun x => by
    rw [amax_single, hfdef, errorsAt_zero hc (fun x _ => func (x 0)), abs_abs]
    rfl
  have hcont : ∀ st x s, At m inv f s (vec1 x) → (continues c st (amax (evaluateErrors c m s)) = true ↔
      c.params.tolerance < |func x| ∧ st.iter < c.params.maxIter) := by
    intro st x s hat
    rw [hat.errors, hamax, continues, Bool.and_eq_true, ex_lt, decide_eq_true_iff]
  rcases solve_follow_or (c := c) hf
    (fun k st s => At m inv f s (vec1 (pt k).1) ∧ (pt k).2 = k ∧ st.iter = k ∧ st.debug = false ∧
      st.valid = true ∧ k ≤ c.params.maxIter ∧ ∀ j < k, sl (pt j).1 ≠ 0)
    (fun k _ _ e => e = .jacobian .invalidJacobianInverse ∧ k < (pt c.params.maxIter).2 ∧ sl (pt k).1 = 0)
    (by
      rintro k st s ⟨hat, hcount, hit, hd, hv, hkm, hne⟩ hgo
      obtain ⟨hgt, hlt⟩ := (hcont st _ s hat).1 hgo
      have hnext : pt (k + 1) = ((pt k).1 - func (pt k).1 / sl (pt k).1, k + 1) := by
        have := loop1d_succ func slope c.params.tolerance k (c.guess 0) (by rw [hpt] at hcount; exact hcount)
          (by rw [hpt] at hgt; exact (ex_lt _ _).2 hgt)
        rw [hsl] at this
        rw [hpt]; exact this
      obtain ⟨p, hp⟩ := hsrc (pt k).1
      by_cases hz : sl (pt k).1 = 0
      · rw [hz] at hp
        obtain ⟨st', s', hi⟩ := newton_pass_flat hc hm hf hp hd hat
        refine .inr ⟨st', s', _, hi, rfl, ?_, hz⟩
        obtain ⟨j, hj⟩ := Nat.exists_eq_add_of_le (show k + 1 ≤ c.params.maxIter by omega)
        have := loop1d_count func slope c.params.tolerance (k + 1) (c.guess 0) (func (c.guess 0)) j
        rw [← hj] at this
        have h2 : (pt (k + 1)).2 = k + 1 := by rw [hnext]
        rw [hpt] at h2 ⊢
        exact lt_of_lt_of_le (Nat.lt_succ_self k) (h2.symm.le.trans this)
      · obtain ⟨st', s', hi, hat', hd', hv'⟩ := newton_pass hc hm hf hp hz
          (show (pt k).1 - func (pt k).1 / sl (pt k).1 = _ by rw [hupd]) trivial hd hat
        refine .inl ⟨st', s', hi, ?_, by rw [hnext], by rw [iterate_iter hi, hit], hd', hv', by omega, ?_⟩
        · rw [hnext]; exact hat'
        · intro j hj
          rcases Nat.lt_succ_iff_lt_or_eq.1 hj with h | rfl
          · exact hne j h
          · exact hz)
    hs trivial
    (fun s0 h0 => ⟨by rw [hpt]; rw [vec_one c.guess] at h0; exact h0, by rw [hpt]; rfl, rfl, rfl, rfl,
      Nat.zero_le _, fun j hj => absurd hj (Nat.not_lt_zero j)⟩) with
    ⟨k, st', s', h1, ⟨hat, hcount, hit, hd, hv, hkm, hne⟩, h3, -⟩ | ⟨k, st', s', e, h1, rfl, hk, hz⟩
  · have hfin : pt c.params.maxIter = pt k := by
      by_cases hgt : c.params.tolerance < |func (pt k).1|
      · have hle : ¬ k < c.params.maxIter := fun h => by
          rw [(hcont st' _ s' hat).2 ⟨hgt, by omega⟩] at h3; cases h3
        rw [show k = c.params.maxIter by omega]
      · obtain ⟨j, hj⟩ := Nat.exists_eq_add_of_le hkm
        have := loop1d_stop func slope c.params.tolerance k (c.guess 0) (by rw [hpt] at hcount; exact hcount)
          (by rw [hpt] at hgt; rw [Ne, ex_lt]; exact hgt) j
        rw [← hj] at this
        rw [hpt]; exact this
    rw [hfin]
    refine .inl ⟨by rw [hcount]; exact hne, st', s', ?_, ?_, by rw [hit, hcount]⟩
    · rw [h1, hat.errors, hamax, finalResult]
      congr 1
      simp only [ex_lt, hv, if_true]
    · rw [hat.iteratives]; rfl
  · exact .inr ⟨⟨k, hk, hz⟩, st', s', h1⟩

/-- In exact arithmetic, without limits or damping, Newton-Raphson on one equation with its derivative
is `solver1d`: same final point, same number of iterations, and `Ok` exactly when that point is within
the tolerance.  As `max_iter` is arbitrary, every visited point is covered.  The slopes at the points
where an iteration is done must not be zero. -/
theorem C54_analytic (func deriv : K → K) (c : Config K 1) (hc : Spec.Default c)
    (hm : c.params.method = .NewtonRaphson)
    (hslope : ∀ k < (solver1dRun (c.guess 0) func deriv c.params.maxIter c.params.tolerance).2,
      deriv (solver1d (c.guess 0) func deriv k c.params.tolerance) ≠ 0)
    (s : AdapterState K 1) (hs : s.right = 0) :
    ∃ st' s', solve c (fromFunctionAndJacobian (fun x _ => func (x 0)) (fun x _ _ => deriv (x 0))) .new s =
        .ok (st', s', if c.params.tolerance <
            |func (solver1d (c.guess 0) func deriv c.params.maxIter c.params.tolerance)|
          then .error .nonConvergence else .ok ()) ∧
      s'.inputs 0 = solver1d (c.guess 0) func deriv c.params.maxIter c.params.tolerance ∧
      st'.iter = (solver1dRun (c.guess 0) func deriv c.params.maxIter c.params.tolerance).2 := by
  rcases march func deriv (fun g _ => deriv g) (fromFunctionAndJacobian_computes _ _ 0) c hc hm
    (fun _ => rfl)
    (fun x => ⟨0, analytic_source hc func deriv x⟩)
    s hs _ rfl with ⟨-, h⟩ | ⟨⟨k, hk, hz⟩, -⟩
  · exact h
  · exact absurd hz (hslope k hk)

/-- With a zero slope at such a point (where `solver1d` divides by zero) the n-dimensional solver
returns the Jacobian error. -/
theorem C54_flat (func deriv : K → K) (c : Config K 1) (hc : Spec.Default c)
    (hm : c.params.method = .NewtonRaphson) {k : Nat}
    (hk : k < (solver1dRun (c.guess 0) func deriv c.params.maxIter c.params.tolerance).2)
    (hslope : deriv (solver1d (c.guess 0) func deriv k c.params.tolerance) = 0)
    (s : AdapterState K 1) (hs : s.right = 0) :
    ∃ st' s', solve c (fromFunctionAndJacobian (fun x _ => func (x 0)) (fun x _ _ => deriv (x 0))) .new s =
        .ok (st', s', .error (.jacobian .invalidJacobianInverse)) := by
  rcases march func deriv (fun g _ => deriv g) (fromFunctionAndJacobian_computes _ _ 0) c hc hm
    (fun _ => rfl)
    (fun x => ⟨0, analytic_source hc func deriv x⟩)
    s hs _ rfl with ⟨h, -⟩ | ⟨-, h⟩
  · exact absurd hslope (h k hk)
  · exact h

/-- Without derivative, when the perturbation of the unknown is the constant `dx`, the solver is
`solver1d_fd`: although the finite differences leave the model displaced by `dx`, the visited points
are the same. -/
theorem C54_finite_differences (func : K → K) (dx : K) (hdx : dx ≠ 0) (c : Config K 1) (hc : Spec.Default c)
    (hm : c.params.method = .NewtonRaphson)
    (hp : (c.iters 0).computePerturbation = some fun _ => dx)
    (hslope : ∀ k < (solver1dFdRun (c.guess 0) func c.params.maxIter c.params.tolerance dx).2,
      func (solver1dFd (c.guess 0) func k c.params.tolerance dx + dx) ≠
        func (solver1dFd (c.guess 0) func k c.params.tolerance dx))
    (s : AdapterState K 1) (hs : s.right = 0) :
    ∃ st' s', solve c (fromFunction (fun x _ => func (x 0))) .new s =
        .ok (st', s', if c.params.tolerance <
            |func (solver1dFd (c.guess 0) func c.params.maxIter c.params.tolerance dx)|
          then .error .nonConvergence else .ok ()) ∧
      s'.inputs 0 = solver1dFd (c.guess 0) func c.params.maxIter c.params.tolerance dx ∧
      st'.iter = (solver1dFdRun (c.guess 0) func c.params.maxIter c.params.tolerance dx).2 := by
  rcases march func (fun x => (func (x + dx) - func x) / dx) (fun g r => finiteDiff g r func dx)
    (fromFunction_computes _ 0) c hc hm (fun _ => rfl)
    (fun x => ⟨dx, fd_source hc func hp x hdx⟩)
    s hs _ rfl with ⟨-, h⟩ | ⟨⟨k, hk, hz⟩, -⟩
  · exact h
  · refine absurd ?_ (hslope k hk)
    rcases div_eq_zero_iff.1 hz with h | h
    · exact sub_eq_zero.1 h
    · exact absurd h hdx

end

/-! ### The hypotheses can be met -/

example : ∃ st' s', solve (Demo.plain .NewtonRaphson 2 (1 / 1000) 3)
    (fromFunctionAndJacobian (fun x _ => x 0 * x 0 - 2) (fun x _ _ => 2 * x 0)) .new ⟨0, 0, 0⟩ =
      .ok (st', s', .ok ()) ∧ s'.inputs 0 = 577 / 408 ∧ st'.iter = 3 := by
  obtain ⟨st', s', h1, h2, h3⟩ := C54_analytic (fun x => x * x - 2) (fun x : ℚ => 2 * x)
    (Demo.plain .NewtonRaphson 2 (1 / 1000) 3) (Demo.plain_default _ _ _ _) rfl (by decide +kernel) ⟨0, 0, 0⟩ rfl
  exact ⟨st', s', by rw [h1, if_neg (by decide +kernel)], h2.trans (by decide +kernel), h3.trans (by decide +kernel)⟩

example : ∃ st' s', solve (Demo.plain .NewtonRaphson 0 (1 / 1000) 3)
    (fromFunctionAndJacobian (fun x _ => x 0 * x 0 - 2) (fun x _ _ => 2 * x 0)) .new ⟨0, 0, 0⟩ =
      .ok (st', s', .error (.jacobian .invalidJacobianInverse)) :=
  C54_flat (fun x => x * x - 2) (fun x : ℚ => 2 * x) (Demo.plain .NewtonRaphson 0 (1 / 1000) 3)
    (Demo.plain_default _ _ _ _) rfl (k := 0) (by decide +kernel) (by decide +kernel) ⟨0, 0, 0⟩ rfl

example : ∃ st' s', solve (Demo.plain .NewtonRaphson 2 (1 / 1000) 5)
    (fromFunction (fun x _ => x 0 * x 0 - 2)) .new ⟨0, 0, 0⟩ = .ok (st', s', .ok ()) ∧
      s'.inputs 0 = solver1dFd 2 (fun x : ℚ => x * x - 2) 5 (1 / 1000) (1 / 100) := by
  obtain ⟨st', s', h1, h2, h3⟩ := C54_finite_differences (fun x => x * x - 2) (1 / 100 : ℚ) (by norm_num)
    (Demo.plain .NewtonRaphson 2 (1 / 1000) 5) (Demo.plain_default _ _ _ _) rfl rfl (by decide +kernel) ⟨0, 0, 0⟩ rfl
  exact ⟨st', s', by rw [h1, if_neg (by decide +kernel)], h2⟩

end Nrf

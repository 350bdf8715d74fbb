import Verif.Proofs.Damping
import Verif.Proofs.Economy
import Verif.Spec.Demo

/-!
# C42: a refused quasi-Newton step forces a Jacobian computation

An iteration with one of the eight updating methods that asks the model for no
Jacobian uses an approximated one.  Both iterations are observed through the calls
they make on the model.
-/

namespace Nrf

/-- Analytic Jacobians: after an iteration without `get_jacobian` in which the error
grew, that iteration evaluated the model only once (no damping), and the next one asks
for the Jacobian. -/
theorem C42_analytic {F : Type} [Scalar F] {n : Nat} {EI EU S : Type}
    (c : Config F n) (m : UserModel F n EI EU S) (hp : ∀ s, m.jacobianProvided s = true)
    (hd : c.params.damping = true)
    (hm : c.params.method ≠ .NewtonRaphson ∧ c.params.method ≠ .QuasiNewton .StationaryNewton)
    (st st1 : Solver F n) (s s1 : S) (t1 : List (Call F n EI EU)) (e1 : F)
    (h1 : iterate c (recorded m) st (s, []) = .ok (st1, (s1, t1), .ok e1))
    (hj : countGetJacobian t1 = 0)
    (hlt : Scalar.lt (amax (evaluateErrors c m s)) (amax (evaluateErrors c m s1)) = true) :
    (∃ x r, t1 = [.setIteratives x, .evaluate r]) ∧
    ∀ s2 st3 s3 t3 r3, iterate c (recorded m) st1 (s2, []) = .ok (st3, (s3, t3), r3) →
      countGetJacobian t3 = 1 := by
  have hcn : st.jac.computeNext = false := by
    obtain ⟨seg, hseg, hic⟩ := iterate_calls h1
    rw [List.nil_append] at hseg
    subst hseg
    have := hic.exact.1 (hp s)
    rw [hj] at this
    unfold computes at this
    split at this
    · cases this
    · rename_i hn
      simpa using (not_or.1 hn).2
  have key := iterate_refused hd hm hcn h1 hlt
  refine ⟨key.1, ?_⟩
  intro s2 st3 s3 t3 r3 h
  obtain ⟨seg, hseg, hic⟩ := iterate_calls h
  rw [List.nil_append] at hseg
  subst hseg
  rw [hic.exact.1 (hp s2)]
  exact if_pos (.inr key.2)

/-- Finite differences: after an iteration with a single evaluation (no perturbed
points) in which the error grew, that iteration was not damped, and the next one (when
it ends) has evaluated the `N` perturbed points and the new one. -/
theorem C42_finite_differences {F : Type} [Scalar F] {n : Nat} {EI EU S : Type}
    (c : Config F n) (m : UserModel F n EI EU S) (hp : ∀ s, m.jacobianProvided s = false)
    (N : Nat) (hN : ∀ s, m.lenProblem s = N) (h0 : 0 < N)
    (hd : c.params.damping = true)
    (hm : c.params.method ≠ .NewtonRaphson ∧ c.params.method ≠ .QuasiNewton .StationaryNewton)
    (st st1 : Solver F n) (s s1 : S) (t1 : List (Call F n EI EU)) (e1 : F)
    (h1 : iterate c (recorded m) st (s, []) = .ok (st1, (s1, t1), .ok e1))
    (hj : countEvaluate t1 = 1)
    (hlt : Scalar.lt (amax (evaluateErrors c m s)) (amax (evaluateErrors c m s1)) = true) :
    (∃ x r, t1 = [.setIteratives x, .evaluate r]) ∧
    ∀ s2 st3 s3 t3 e3, iterate c (recorded m) st1 (s2, []) = .ok (st3, (s3, t3), .ok e3) →
      N + 1 ≤ countEvaluate t3 := by
  have count : ∀ {sta stb : Solver F n} {sa sb tb ea},
      iterate c (recorded m) sta (sa, []) = .ok (stb, (sb, tb), .ok ea) →
      computes c { sta with iter := sta.iter + 1 } * N + 1 ≤ countEvaluate tb := by
    intro sta stb sa sb tb ea h
    obtain ⟨seg, hseg, hic⟩ := iterate_calls h
    rw [List.nil_append] at hseg
    subst hseg
    generalize hv : (Except.ok ea : Except (SolverError EI EU) F) = r at hic
    cases hic with
    | step jc uc s1 x s' v e g1 g2 =>
      rw [countEvaluate_append, g1.exact.2 x (hp _) rfl, hN]
      cases g2 with
      | plain r he hu e => simp [countEvaluate]
      | damped s1 r he hu hd' he2 e => simp [countEvaluate]
    | evalFailed => cases hv
    | jacFailed => cases hv
  have hcn : st.jac.computeNext = false := by
    have := count h1
    rw [hj] at this
    unfold computes at this
    split at this
    · omega
    · rename_i hn
      simpa using (not_or.1 hn).2
  have key := iterate_refused hd hm hcn h1 hlt
  refine ⟨key.1, ?_⟩
  intro s2 st3 s3 t3 r3 h
  have := count h
  rw [show computes c { st1 with iter := st1.iter + 1 } = 1 from if_pos (.inr key.2)] at this
  omega

open scoped Exact in
/-- Broyden's method with damping on `x² = 2` from 1/4: the second iteration asks for no
Jacobian and the error grows (from 713/256 to 12121/784). -/
example : (match solve (Demo.cfg (.QuasiNewton (.JacobianUpdate .BroydenFirst)) true 1 (1 / 1000)
      (1 / 4)) Demo.sqrt2 .new Demo.start with
    | .ok (st, s, _) =>
      match iterate (Demo.cfg (.QuasiNewton (.JacobianUpdate .BroydenFirst)) true 9 (1 / 1000)
        (1 / 4)) (recorded Demo.sqrt2) st (s, []) with
      | .ok (_, (s1, t1), .ok _) =>
        countGetJacobian t1 == 0 && countEvaluate t1 == 1 &&
          Scalar.lt
            (amax (evaluateErrors (Demo.cfg .NewtonRaphson true 9 (1 / 1000) 0) Demo.sqrt2 s))
            (amax (evaluateErrors (Demo.cfg .NewtonRaphson true 9 (1 / 1000) 0) Demo.sqrt2 s1))
      | _ => false
    | _ => false) = true := by
  decide +kernel

end Nrf

import Verif.Proofs.OneDimRun
import Verif.Props.C117
import Verif.Props.C86

/-!
# C121: the one-dimensional solver converges from every guess on convex and on nearly linear equations
-/

namespace Nrf
open Spec
open scoped Exact

section
variable {f f' : ℝ → ℝ} {r : ℝ}

/-- `solver1d` in exact arithmetic on an equation whose graph lies above its tangents, which all rise: for each guess there
are `C` and `q < 1` such that `N` iterations suffice for every tolerance above `C q ^ N`. -/
theorem C121_convex (htan : ∀ x y, f x + f' x * (y - x) ≤ f y) (hpos : ∀ x, 0 < f' x) (hr : f r = 0) (x0 : ℝ) :
    ∃ C q : ℝ, 0 ≤ C ∧ 0 < q ∧ q < 1 ∧ ∀ (maxIter N : ℕ) (tol : ℝ), N ≤ maxIter → C * q ^ N ≤ tol →
      |f (solver1d x0 f f' maxIter tol)| ≤ tol ∧ (solver1dRun x0 f f' maxIter tol).2 ≤ N := by
  obtain ⟨a, B, m, M, q, D, E, hb, hq1, -, hD, hDE, hqE, h0⟩ := Tangents.bounds htan hpos hr x0 (le_refl 0)
  refine ⟨M * E, q, mul_nonneg (hb.pos.le.trans hb.le) (hD.trans hDE), by linarith [hb.half], hq1,
    fun maxIter N tol hN htol => ?_⟩
  obtain ⟨h1, h2, -⟩ := loop1d_run (f := f) (slope := fun x _ => f' x) (tol := tol) (guess := x0) hN
    (fun k x => Tangents.Reached r a B D E q k x) h0 (fun k x hI => hb.step hD hqE hI (.inl rfl))
    (fun x hI => (hb.residual hDE hI).trans htol)
  exact ⟨h2, h1⟩

/-- `solver1d_fd` on the same equations, with constants that hold for all positive `dx` up to `P`. -/
theorem C121_convex_fd (htan : ∀ x y, f x + f' x * (y - x) ≤ f y) (hpos : ∀ x, 0 < f' x) (hr : f r = 0) (x0 P : ℝ)
    (hP : 0 ≤ P) :
    ∃ C q : ℝ, 0 ≤ C ∧ 0 < q ∧ q < 1 ∧ ∀ (maxIter N : ℕ) (tol dx : ℝ), 0 < dx → dx ≤ P → N ≤ maxIter →
      C * q ^ N ≤ tol →
      |f (solver1dFd x0 f maxIter tol dx)| ≤ tol ∧ (solver1dFdRun x0 f maxIter tol dx).2 ≤ N := by
  obtain ⟨a, B, m, M, q, D, E, hb, hq1, hMP, hD, hDE, hqE, h0⟩ := Tangents.bounds htan hpos hr x0 hP
  refine ⟨M * E, q, mul_nonneg (hb.pos.le.trans hb.le) (hD.trans hDE), by linarith [hb.half], hq1,
    fun maxIter N tol dx hdx hdP hN htol => ?_⟩
  obtain ⟨h1, h2, -⟩ := loop1d_run (f := f) (slope := fun x res => finiteDiff x res f dx) (tol := tol) (guess := x0) hN
    (fun k x => Tangents.Reached r a B D E q k x) h0
    (fun k x hI => by
      have hxB : x ≤ B := by
        rcases hI with ⟨-, h, -⟩ | ⟨-, h, -⟩
        · exact h.trans hb.right
        · exact h
      obtain ⟨k1, k2⟩ := hb.forward hdx hdP hMP hxB
      exact hb.steeper hD hqE hI k1 k2)
    (fun x hI => (hb.residual hDE hI).trans htol)
  exact ⟨h2, h1⟩

variable {μ M : ℝ}

/-- `solver1d` on an equation whose slopes vary by less than the factor two: each iteration gains the factor of C117. -/
theorem C121_slopes (h : Slopes f f' μ M) (hM : M < 2 * μ) (x0 : ℝ) {maxIter N : ℕ} {tol : ℝ} (hN : N ≤ maxIter)
    (htol : max (1 - μ / M) (M / μ - 1) ^ N * |f x0| ≤ tol) :
    |f (solver1d x0 f f' maxIter tol)| ≤ tol ∧ (solver1dRun x0 f f' maxIter tol).2 ≤ N := by
  obtain ⟨hq0, -⟩ := h.chords.factor hM
  obtain ⟨h1, h2, -⟩ := loop1d_run (f := f) (slope := fun x _ => f' x) (tol := tol) (guess := x0) hN
    (fun k x => |f x| ≤ max (1 - μ / M) (M / μ - 1) ^ k * |f x0|) (by simp)
    (fun k x hI => by
      refine (h.chords.cut (h.low x) (h.high x) x).trans ((mul_le_mul_of_nonneg_left hI hq0).trans_eq ?_)
      rw [pow_succ]; ring)
    (fun x hI => hI.trans htol)
  exact ⟨h2, h1⟩

/-- `solver1d_fd` on an equation whose chords vary by less than the factor two, for every `dx` other than 0. -/
theorem C121_chords_fd (h : Chords f μ M) (hM : M < 2 * μ) (x0 : ℝ) {maxIter N : ℕ} {tol dx : ℝ} (hdx : dx ≠ 0)
    (hN : N ≤ maxIter) (htol : max (1 - μ / M) (M / μ - 1) ^ N * |f x0| ≤ tol) :
    |f (solver1dFd x0 f maxIter tol dx)| ≤ tol ∧ (solver1dFdRun x0 f maxIter tol dx).2 ≤ N := by
  obtain ⟨hq0, -⟩ := h.factor hM
  obtain ⟨h1, h2, -⟩ := loop1d_run (f := f) (slope := fun x res => finiteDiff x res f dx) (tol := tol) (guess := x0) hN
    (fun k x => |f x| ≤ max (1 - μ / M) (M / μ - 1) ^ k * |f x0|) (by simp)
    (fun k x hI => by
      obtain ⟨k1, k2⟩ := h.quotient x hdx
      refine (h.cut k1 k2 x).trans ((mul_le_mul_of_nonneg_left hI hq0).trans_eq ?_)
      rw [pow_succ]; ring)
    (fun x hI => hI.trans htol)
  exact ⟨h2, h1⟩

end

/-- The result carries no sign of a failure: on `x² + 1`, which has no root, both functions return a number for every guess,
budget, tolerance and `dx`, and for tolerances below 1 it is never within the tolerance. -/
theorem C121_silent (guess tol dx : ℝ) (htol : tol < 1) (maxIter : ℕ) :
    tol < |(fun x : ℝ => x * x + 1) (solver1d guess (fun x => x * x + 1) (fun x => 2 * x) maxIter tol)| ∧
      tol < |(fun x : ℝ => x * x + 1) (solver1dFd guess (fun x => x * x + 1) maxIter tol dx)| ∧
      (solver1dRun guess (fun x => x * x + 1) (fun x => 2 * x) maxIter tol).2 = maxIter ∧
      (solver1dFdRun guess (fun x => x * x + 1) maxIter tol dx).2 = maxIter := by
  have hlt : ∀ x : ℝ, tol < |x * x + 1| := fun x => by
    rw [abs_of_pos (by nlinarith [mul_self_nonneg x])]
    nlinarith [mul_self_nonneg x]
  have hstop : ∀ slope : ℝ → ℝ → ℝ,
      (loop1d (fun x : ℝ => x * x + 1) slope tol maxIter guess (guess * guess + 1)).2 = maxIter := fun slope =>
    (loop1d_spec (fun x : ℝ => x * x + 1) slope tol maxIter guess).stop (decide_eq_true (hlt _))
  exact ⟨hlt _, hlt _, hstop _, hstop _⟩

namespace Demo

/-- `C121_convex` and `C121_convex_fd` apply to `eˣ - 1`, from every guess. -/
example (guess : ℝ) : (∃ C q : ℝ, 0 ≤ C ∧ 0 < q ∧ q < 1 ∧ ∀ (maxIter N : ℕ) (tol : ℝ), N ≤ maxIter → C * q ^ N ≤ tol →
      |Real.exp (solver1d guess (fun x => Real.exp x - 1) Real.exp maxIter tol) - 1| ≤ tol ∧
        (solver1dRun guess (fun x => Real.exp x - 1) Real.exp maxIter tol).2 ≤ N) ∧
    ∃ C q : ℝ, 0 ≤ C ∧ 0 < q ∧ q < 1 ∧ ∀ (maxIter N : ℕ) (tol dx : ℝ), 0 < dx → dx ≤ 1 → N ≤ maxIter → C * q ^ N ≤ tol →
      |Real.exp (solver1dFd guess (fun x => Real.exp x - 1) maxIter tol dx) - 1| ≤ tol ∧
        (solver1dFdRun guess (fun x => Real.exp x - 1) maxIter tol dx).2 ≤ N :=
  ⟨C121_convex (f := fun x => Real.exp x - 1) (r := 0) (fun x y => by have := DemoReal.exp_tangent x y; linarith)
      Real.exp_pos (by simp) guess,
    C121_convex_fd (f := fun x => Real.exp x - 1) (f' := Real.exp) (r := 0)
      (fun x y => by have := DemoReal.exp_tangent x y; linarith) Real.exp_pos (by simp) guess 1 zero_le_one⟩

/-- `C121_chords_fd` applies to `5 x + |x|` from 1 with `dx = -1000`. -/
example : |(fun x : ℝ => 5 * x + |x|) (solver1dFd 1 (fun x : ℝ => 5 * x + |x|) 50 (1 / 10 ^ 6) (-1000))| ≤ 1 / 10 ^ 6 ∧
    (solver1dFdRun 1 (fun x : ℝ => 5 * x + |x|) 50 (1 / 10 ^ 6) (-1000)).2 ≤ 23 :=
  C121_chords_fd corner_chords (by norm_num) 1 (N := 23) (by norm_num) (by norm_num) (by
    rw [show max (1 - 4 / 6) (6 / 4 - 1) = (1 / 2 : ℝ) by norm_num]
    norm_num)

/-- `C121_slopes` applies to `3 x + 2 x / (1 + x²)` from 1. -/
example : |2 * solver1d 1 (fun x => 2 * x + Wave.f x) (fun x => 2 + Wave.f' x) 50 (1 / 2) +
      Wave.f (solver1d 1 (fun x => 2 * x + Wave.f x) (fun x => 2 + Wave.f' x) 50 (1 / 2))| ≤ 1 / 2 ∧
    (solver1dRun 1 (fun x => 2 * x + Wave.f x) (fun x => 2 + Wave.f' x) 50 (1 / 2)).2 ≤ 11 :=
  C121_slopes Wave.tilted (by norm_num) 1 (N := 11) (by norm_num) (by
    norm_num [Wave.f])

end Demo
end Nrf

import Verif.Proofs.Rescale
import Verif.Spec.Demo

/-!
# C40: Newton-Raphson is blind to the orientation and scaling of equations
-/

namespace Nrf
open Spec
open scoped Exact
open Matrix

section
variable {K : Type} [Field K] [LinearOrder K] [IsStrictOrderedRing K] {n : Nat} {EI EU S : Type}

private theorem norm_swap (x y : K) (meth : NormalizationMethod) :
    normalization y x meth = -normalization x y meth := by
  cases meth
  · change y - x = -(x - y); ring
  · change (y - x) / (|y + x| / 2) = -((x - y) / (|x + y| / 2))
    rw [add_comm y x, ← neg_div, neg_sub]
  · change (y - x) / (1 + |y + x| / 2) = -((x - y) / (1 + |x + y| / 2))
    rw [add_comm y x, ← neg_div, neg_sub]

private theorem deriv_swap (x y dx dy : K) (meth : NormalizationMethod) :
    derivNormalization y x dy dx meth = -derivNormalization x y dx dy meth := by
  cases meth
  · change dy - dx = -(dx - dy); ring
  · change 2 * ((dy - dx) * |y + x| - (dy + dx) * (y - x) * Scalar.signum (y + x)) / ((y + x) * (y + x)) =
      -(2 * ((dx - dy) * |x + y| - (dx + dy) * (x - y) * Scalar.signum (x + y)) / ((x + y) * (x + y)))
    rw [add_comm y x, add_comm dy dx, ← neg_div]
    congr 1
    ring
  · change ((dy - dx) * (1 + |(y + x) / 2|) - (dy + dx) / 2 * Scalar.signum ((y + x) / 2) * (y - x)) /
        ((1 + |(y + x) / 2|) * (1 + |(y + x) / 2|)) =
      -(((dx - dy) * (1 + |(x + y) / 2|) - (dx + dy) / 2 * Scalar.signum ((x + y) / 2) * (x - y)) /
        ((1 + |(x + y) / 2|) * (1 + |(x + y) / 2|)))
    rw [add_comm y x, add_comm dy dx, ← neg_div]
    congr 1
    ring

/-- Exchanging the sides of any equations: same visited points, same verdict (including errors and
panics), same iteration count; with analytic or finite-difference Jacobians, any residual
normalizations, any limits, with or without damping, from any solver state without debugging.  Only the
stored matrices differ. -/
theorem C40_exchange (c : Config K n) (hL : c.la.IsExact) (hm : c.params.method = .NewtonRaphson)
    (m : UserModel K n EI EU S) (swap : Fin n → Bool) (st : Solver K n) (hd : st.debug = false) (s : S) :
    SameUpToJacobian (solve c m st s) (solve c (Spec.exchanged swap m) st s) := by
  refine solve_rescaled hL (d := fun i => if swap i then -1 else 1) ⟨?_, ?_, ?_⟩ hm ?_ st hd s
  · intro i
    split
    · exact neg_ne_zero.2 one_ne_zero
    · exact one_ne_zero
  · intro v
    funext i
    rw [Matrix.mulVec_diagonal]
    change normalization (if swap i then v.right i else v.left i) (if swap i then v.left i else v.right i) _ =
      _ * normalization (v.left i) (v.right i) _
    split
    · rw [norm_swap, neg_one_mul]
    · rw [one_mul]
  · intro J v
    funext i k
    rw [Matrix.diagonal_mul]
    change derivNormalization (if swap i then v.right i else v.left i) (if swap i then v.left i else v.right i)
      ((if swap i then J.right i else J.left i) k) ((if swap i then J.left i else J.right i) k) _ =
      _ * derivNormalization (v.left i) (v.right i) (J.left i k) (J.right i k) _
    split
    · rw [deriv_swap, neg_one_mul]
    · rw [one_mul]
  · intro v
    funext i
    change |normalization (if swap i then v.right i else v.left i) (if swap i then v.left i else v.right i) _| =
      |normalization (v.left i) (v.right i) _|
    split
    · rw [norm_swap, abs_neg]
    · rfl

omit [IsStrictOrderedRing K] in
private theorem signum_mul_pos {d a : K} [IsStrictOrderedRing K] (hd : 0 < d) :
    Scalar.signum (d * a) = Scalar.signum a := by
  rw [ex_signum, ex_signum]
  simp only [mul_nonneg_iff_of_pos_left hd]

private theorem signum_mul_neg {d a : K} (hd : d < 0) (ha : a ≠ 0) :
    (Scalar.signum (d * a) : K) = -Scalar.signum a := by
  rw [ex_signum, ex_signum]
  rcases lt_or_gt_of_ne ha with h | h
  · rw [if_pos (mul_nonneg_of_nonpos_of_nonpos hd.le h.le), if_neg (not_le.2 h), neg_neg]
  · rw [if_neg (not_le.2 (mul_neg_of_neg_of_pos hd h)), if_pos h.le]

private theorem norm_scale {d : K} (hd : d ≠ 0) (x y : K) {meth : NormalizationMethod} (hm : meth = .Adapt → d = 1) :
    normalization (d * x) (d * y) meth =
      (if meth = .Abs then d else d / |d|) * normalization x y meth := by
  cases meth
  · change d * x - d * y = d * (x - y); ring
  · change (d * x - d * y) / (|d * x + d * y| / 2) = d / |d| * ((x - y) / (|x + y| / 2))
    rw [← mul_add, ← mul_sub, abs_mul, mul_div_assoc |d|, mul_div_mul_comm]
  · rw [hm rfl, one_mul, one_mul, abs_one, if_neg (by decide), div_one, one_mul]

private theorem deriv_scale {d : K} (hd : d ≠ 0) (x y dx dy : K) {meth : NormalizationMethod}
    (hm : meth = .Adapt → d = 1) :
    derivNormalization (d * x) (d * y) (d * dx) (d * dy) meth =
      (if meth = .Abs then d else d / |d|) * derivNormalization x y dx dy meth := by
  cases meth
  · change d * dx - d * dy = d * (dx - dy); ring
  · change 2 * ((d * dx - d * dy) * |d * x + d * y| -
        (d * dx + d * dy) * (d * x - d * y) * Scalar.signum (d * x + d * y)) /
        ((d * x + d * y) * (d * x + d * y)) =
      d / |d| * (2 * ((dx - dy) * |x + y| - (dx + dy) * (x - y) * Scalar.signum (x + y)) / ((x + y) * (x + y)))
    rw [← mul_add, ← mul_add, ← mul_sub, ← mul_sub, abs_mul]
    by_cases hs : x + y = 0
    · rw [hs]; simp
    · rcases lt_or_gt_of_ne hd with h | h
      · rw [signum_mul_neg h hs, abs_of_neg h]
        field_simp
        ring
      · rw [signum_mul_pos h, abs_of_pos h]
        field_simp
  · rw [hm rfl, one_mul, one_mul, one_mul, one_mul, abs_one, if_neg (by decide), div_one, one_mul]

private theorem scales (c : Config K n) {d : Vec K n} (hd : ∀ i, d i ≠ 0) (hu : ∀ i, c.res.upd i = .Adapt → d i = 1) :
    Rescales c (fun v => ⟨fun i => d i * v.left i, fun i => d i * v.right i⟩)
      (fun J => ⟨fun i k => d i * J.left i k, fun i k => d i * J.right i k⟩)
      (fun i => if c.res.upd i = .Abs then d i else d i / |d i|) := by
  refine ⟨?_, ?_, ?_⟩
  · intro i
    split
    · exact hd i
    · exact div_ne_zero (hd i) (abs_ne_zero.2 (hd i))
  · intro v
    funext i
    rw [Matrix.mulVec_diagonal]
    exact norm_scale (hd i) _ _ (hu i)
  · intro J v
    funext i k
    rw [Matrix.diagonal_mul]
    exact deriv_scale (hd i) _ _ _ _ (hu i)

/-- Multiplying the equations by non-zero constants does not change the iterates: the solves of both
systems, each with its own tolerance and iteration bound, that stop after the same number of iterations
leave the model in the same state.  The update residuals are absolute or relative (equations with
`Adapt` must keep their scale).  Without damping, which compares absolute sizes of different equations. -/
theorem C40_scaling (c : Config K n) (hL : c.la.IsExact) (hm : c.params.method = .NewtonRaphson)
    (hdamp : c.params.damping = false) (m : UserModel K n EI EU S) (d : Vec K n) (hd : ∀ i, d i ≠ 0)
    (hu : ∀ i, c.res.upd i = .Adapt → d i = 1) (tol : K) (k : Nat) (st : Solver K n)
    (hdebug : st.debug = false) (s : S) {a b : Solver K n} {s1 s2 : S} {r1 r2}
    (h1 : solve c m st s = .ok (a, s1, r1))
    (h2 : solve { c with params := { c.params with tolerance := tol, maxIter := k } } (Spec.scaled d m) st s =
      .ok (b, s2, r2)) (hit : a.iter = b.iter) :
    s1 = s2 ∧ b = { a with jac := b.jac } := by
  obtain ⟨h3, h4⟩ := solve_rescaled_count hL (scales c hd hu) hm hdamp tol k hdebug h1 h2 hit.symm
  exact ⟨h3, h4.eq⟩

/-- With relative stopping residuals (or for equations only multiplied by ±1) the verdict is unchanged
too, with or without damping. -/
theorem C40_scaling_relative (c : Config K n) (hL : c.la.IsExact) (hm : c.params.method = .NewtonRaphson)
    (m : UserModel K n EI EU S) (d : Vec K n) (hd : ∀ i, d i ≠ 0)
    (hu : ∀ i, c.res.upd i = .Adapt → d i = 1) (hstop : ∀ i, c.res.stop i = .Rel ∨ |d i| = 1)
    (st : Solver K n) (hdebug : st.debug = false) (s : S) :
    SameUpToJacobian (solve c m st s) (solve c (Spec.scaled d m) st s) := by
  refine solve_rescaled hL (scales c hd hu) hm ?_ st hdebug s
  intro v
  funext i
  change |normalization (d i * v.left i) (d i * v.right i) _| = |normalization (v.left i) (v.right i) _|
  rcases hstop i with h | h
  · rw [h, norm_scale (hd i) _ _ (fun h => by cases h), abs_mul, if_neg (by decide), abs_div, abs_abs,
      div_self (abs_ne_zero.2 (hd i)), one_mul]
  · rcases (abs_eq zero_le_one).1 h with h | h
    · rw [h, one_mul, one_mul]
    · rw [h, normalization_exact, normalization_exact]
      generalize c.res.stop i = meth
      have e1 : -1 * v.left i - -1 * v.right i = -(v.left i - v.right i) := by ring
      have e2 : -1 * v.left i + -1 * v.right i = -(v.left i + v.right i) := by ring
      cases meth
      · change |-1 * v.left i - -1 * v.right i| = |v.left i - v.right i|
        rw [e1, abs_neg]
      · change |(-1 * v.left i - -1 * v.right i) / (|-1 * v.left i + -1 * v.right i| / 2)| =
          |(v.left i - v.right i) / (|v.left i + v.right i| / 2)|
        rw [e1, e2, abs_neg (v.left i + v.right i), neg_div, abs_neg]
      · change |(-1 * v.left i - -1 * v.right i) / (1 + |-1 * v.left i + -1 * v.right i| / 2)| =
          |(v.left i - v.right i) / (1 + |v.left i + v.right i| / 2)|
        rw [e1, e2, abs_neg (v.left i + v.right i), neg_div, abs_neg]

end

/-! ### The hypotheses can be met -/

/-- `x² = 2` turned around. -/
example : SameUpToJacobian
    (solve (Demo.cfg .NewtonRaphson true 5 (1 / 1000) 2) Demo.sqrt2 .new Demo.start)
    (solve (Demo.cfg .NewtonRaphson true 5 (1 / 1000) 2) (Spec.exchanged (fun _ => true) Demo.sqrt2) .new Demo.start) :=
  C40_exchange _ Demo.la1_isExact rfl _ _ _ rfl _

/-- Both kinds of the exchanged solve really occur: it returns `Ok`. -/
example : Demo.kind (solve (Demo.cfg .NewtonRaphson true 5 (1 / 1000) 2)
    (Spec.exchanged (fun _ => true) Demo.sqrt2) .new Demo.start) = .ok := by decide +kernel

/-- `-7 x² = -14`, with the tolerance multiplied as well: both stop after three iterations. -/
example : ∃ a b s1 s2, solve (Demo.cfg .NewtonRaphson false 5 (1 / 1000) 2) Demo.sqrt2 .new Demo.start =
      .ok (a, s1, .ok ()) ∧
    solve (Demo.cfg .NewtonRaphson false 5 (7 / 1000) 2) (Spec.scaled (fun _ => -7) Demo.sqrt2) .new Demo.start =
      .ok (b, s2, .ok ()) ∧ s1 = s2 := by
  obtain ⟨a, s1, h1⟩ := Demo.kind_ok Demo.sqrt2_ok
  obtain ⟨b, s2, h2⟩ := Demo.kind_ok (x := solve (Demo.cfg .NewtonRaphson false 5 (7 / 1000) 2)
    (Spec.scaled (fun _ => -7) Demo.sqrt2) .new Demo.start) (by decide +kernel)
  have hcount : ∀ {x : Except Panic (Solver ℚ 1 × AdapterState ℚ 1 × Except (SolverError Empty Empty) Unit)} {a s r},
      x = .ok (a, s, r) → a.iter = (match x with | .ok (a, _) => a.iter | .error _ => 0) := by
    rintro _ a s r rfl; rfl
  refine ⟨a, b, s1, s2, h1, h2, (C40_scaling (Demo.cfg .NewtonRaphson false 5 (1 / 1000) 2) Demo.la1_isExact rfl rfl
    Demo.sqrt2 (fun _ => -7) (fun _ => by norm_num) (fun _ h => by cases h) (7 / 1000) 5 .new rfl Demo.start
    h1 h2 ?_).1⟩
  rw [hcount h1, hcount h2]
  decide +kernel

/-- `x² = 2` with both sides given and relative stopping residuals, multiplied by `-7`. -/
example : SameUpToJacobian
    (solve { Demo.cfg .NewtonRaphson true 5 (1 / 1000) 2 with res := { stop := fun _ => .Rel, upd := fun _ => .Abs } }
      (fromFunctionAndJacobian (fun x i => x i * x i) (fun x i _ => 2 * x i)) .new ⟨0, 0, fun _ => 2⟩)
    (solve { Demo.cfg .NewtonRaphson true 5 (1 / 1000) 2 with res := { stop := fun _ => .Rel, upd := fun _ => .Abs } }
      (Spec.scaled (fun _ => -7) (fromFunctionAndJacobian (fun x i => x i * x i) (fun x i _ => 2 * x i))) .new
      ⟨0, 0, fun _ => 2⟩) :=
  C40_scaling_relative _ Demo.la1_isExact rfl _ _ (fun _ => by norm_num) (fun _ h => by cases h)
    (fun _ => .inl rfl) _ rfl _

end Nrf

import Verif.Proofs.Keeps
import Verif.Proofs.FollowExact
import Verif.Props.C02
import Verif.Props.C53
import Mathlib.Tactic.Linarith
import Mathlib.Tactic.FieldSimp
import Mathlib.Tactic.Positivity
import Mathlib.LinearAlgebra.Matrix.Determinant.Basic

/-!
# C78: relative criteria and functions

The adapters for functions compare `f x` with zero.
-/

namespace Nrf
open Spec

theorem adapter_keeps {F : Type} {n : Nat} {f : Vec F n → Vec F n} {m : UserModel F n Empty Empty (AdapterState F n)}
    (hm : Adapter f m) (r : Vec F n) : Keeps m fun s => (m.getResiduals s).right = r where
  setIteratives s x h := by rw [hm.rightSet]; exact h
  evaluate s h := by rw [hm.right]; exact h
  getJacobian s h := by
    obtain ⟨v, hv⟩ := hm.jacobian s
    rw [hv]; exact h
  setMemory s l h := by rw [hm.rightMemory]; exact h

theorem adapter_sides {F : Type} [Scalar F] {n : Nat} {f : Vec F n → Vec F n}
    {m : UserModel F n Empty Empty (AdapterState F n)} (hm : Adapter f m) {r : Vec F n} {c : Config F n}
    {st st' : Solver F n} {s s' : AdapterState F n} (hv : st.valid = true) (hs : (m.getResiduals s).right = r)
    (h : solve c m st s = .ok (st', s', .ok ())) :
    (m.getResiduals s').left = f (m.getIteratives s') ∧ (m.getResiduals s').right = r := by
  refine ⟨?_, solve_keeps (adapter_keeps hm r) hs h⟩
  rcases C53_outcomes f m hm c st st' s s' _ hv h with h | h
  · exact h.2
  · cases h

section Exact
open scoped Exact
open Matrix
variable {K : Type} [Field K] [LinearOrder K] [IsStrictOrderedRing K] {n : Nat}

theorem rel_zero (x : K) : |Spec.residual .Rel x 0| = if x = 0 then 0 else 2 := by
  unfold Spec.residual
  split_ifs with h
  · subst h; simp
  · have : |x| ≠ 0 := abs_ne_zero.2 h
    simp only [sub_zero, add_zero]
    rw [abs_div, abs_div, abs_abs, abs_of_pos (two_pos : (0 : K) < 2)]
    field_simp

/-- Exact arithmetic: with a relative stopping criterion on equation `i`, and a tolerance below 2, a solve of a
function (any method, limits, history of the solver) succeeds only at points where equation `i` holds exactly; being
close to a root is never enough. -/
theorem C78_stop_refuted (f : Vec K n → Vec K n) (m : UserModel K n Empty Empty (AdapterState K n)) (hm : Adapter f m)
    (c : Config K n) (st st' : Solver K n) (s s' : AdapterState K n) (hv : st.valid = true)
    (hs : (m.getResiduals s).right = 0) (i : Fin n) (hi : c.res.stop i = .Rel) (ht : c.params.tolerance < 2)
    (h : solve c m st s = .ok (st', s', .ok ())) : f (m.getIteratives s') i = 0 := by
  obtain ⟨h1, h2⟩ := adapter_sides hm hv hs h
  have h3 := C01_ok_means_solved c m st st' s s' h i
  rw [hi, h1, h2, Pi.zero_apply, rel_zero] at h3
  by_contra hne
  rw [if_neg hne] at h3
  linarith

theorem deriv_rel_zero (x dx : K) : derivNormalization x 0 dx 0 .Rel = 0 := by
  change 2 * ((dx - 0) * |x + 0| - (dx + 0) * (x - 0) * (if 0 ≤ x + 0 then 1 else -1)) / ((x + 0) * (x + 0)) = 0
  simp only [sub_zero, add_zero]
  have : (dx * |x| - dx * x * if 0 ≤ x then 1 else -1) = 0 := by
    split_ifs with h
    · rw [abs_of_nonneg h]; ring
    · rw [abs_of_neg (not_le.1 h)]; ring
  rw [this]; simp

/-- Exact arithmetic: with a relative update method on equation `i`, a fresh solve of a function with its Jacobian ends
at the guess: `Ok` when the guess is within tolerance, else with a Jacobian that is not invertible (or no iteration is
allowed), for every function, Jacobian and method. -/
theorem C78_update_refuted (f : Vec K n → Vec K n) (jac : Vec K n → Mat K n) (c : Config K n) (hL : c.la.IsExact)
    (s : AdapterState K n) (hs : s.right = 0) (i : Fin n) (hi : c.res.upd i = .Rel) :
    ∃ st' s' r, solve c (fromFunctionAndJacobian f jac) .new s = .ok (st', s', r) ∧ s'.inputs = c.guess ∧
      ((r = .ok () ∧ ∀ j, |Spec.residual (c.res.stop j) (f c.guess j) 0| ≤ c.params.tolerance) ∨
        (r = .error .nonConvergence ∧ c.params.maxIter = 0) ∨ r = .error (.jacobian .invalidJacobianInverse)) := by
  have hcomp := fromFunctionAndJacobian_computes f jac 0
  have hdiff := fromFunctionAndJacobian_differentiates f jac 0
  have hdet : (analyticAt c (fun x => ⟨f x, 0⟩) (fun x => ⟨jac x, mzero⟩) c.guess).det = 0 := by
    apply Matrix.det_eq_zero_of_row_eq_zero i
    intro j
    change derivNormalization (f c.guess i) 0 (jac c.guess i j) 0 (c.res.upd i) = 0
    rw [hi]
    exact deriv_rel_zero _ _
  rcases solve_follow_or (c := c) hcomp
    (fun k st s => k = 0 ∧ st = .new ∧ At _ (fun s => s.right = 0) (fun x => ⟨f x, 0⟩) s c.guess)
    (fun k st s e => e = .jacobian .invalidJacobianInverse ∧ s.inputs = c.guess)
    (by
      rintro k st s ⟨rfl, rfl, hat⟩ -
      right
      obtain ⟨j', s', h1, h2⟩ := computeJac_analytic_singular hdiff hat
        ({ (Solver.new : Solver K n) with iter := 1 }).jac (hL.inv_none _ hdet)
      have := computeStep_singular (c := c) (m := fromFunctionAndJacobian f jac)
        (st := { (Solver.new : Solver K n) with iter := 1 }) rfl (.inr rfl) h2
      exact ⟨_, s', _, iterate_singular this, rfl, h1.iteratives⟩)
    hs trivial (fun s0 h => ⟨rfl, rfl, h⟩) with ⟨k, st', s', h1, ⟨rfl, rfl, hat⟩, h3, -⟩ | ⟨k, st', s', e, h1, rfl, h2⟩
  · refine ⟨_, s', _, h1, hat.iteratives, ?_⟩
    by_cases hle : Scalar.lt c.params.tolerance (amax (evaluateErrors c (fromFunctionAndJacobian f jac) s')) = true
    · right; left
      refine ⟨by simp only [finalResult, hle, if_true], ?_⟩
      rw [continues, hle, Bool.true_and, decide_eq_false_iff_not] at h3
      have : ¬ (0 < c.params.maxIter) := h3
      omega
    · left
      rw [Bool.not_eq_true] at hle
      refine ⟨by simp [finalResult, hle, Solver.new], fun j => ?_⟩
      have := stopping_le _ _ hle j
      rw [hat.residuals] at this
      exact this
  · exact ⟨_, s', _, h1, h2, .inr (.inr rfl)⟩

/-- What holds instead: with the other criteria success means that the function is small: within the tolerance `t` for
`Abs`, within `2 t / (2 - t)` for `Adapt` (which accepts everything from `t = 2` on).  The property asks for a bound for
`Rel` as well. -/
theorem C78_small_partial (f : Vec K n → Vec K n) (m : UserModel K n Empty Empty (AdapterState K n)) (hm : Adapter f m)
    (c : Config K n) (st st' : Solver K n) (s s' : AdapterState K n) (hv : st.valid = true)
    (hs : (m.getResiduals s).right = 0) (h : solve c m st s = .ok (st', s', .ok ())) (i : Fin n) :
    (c.res.stop i = .Abs → |f (m.getIteratives s') i| ≤ c.params.tolerance) ∧
    (c.res.stop i = .Adapt → c.params.tolerance < 2 →
      |f (m.getIteratives s') i| ≤ 2 * c.params.tolerance / (2 - c.params.tolerance)) := by
  obtain ⟨h1, h2⟩ := adapter_sides hm hv hs h
  have h3 := C01_ok_means_solved c m st st' s s' h i
  rw [h1, h2, Pi.zero_apply] at h3
  constructor
  · intro hi
    rw [hi] at h3
    simpa [Spec.residual] using h3
  · intro hi ht
    rw [hi] at h3
    simp only [Spec.residual, sub_zero, add_zero] at h3
    set y := |f (m.getIteratives s') i| with hy
    have hy0 : 0 ≤ y := abs_nonneg _
    have hpos : 0 < 1 + y / 2 := by positivity
    rw [abs_div, abs_of_pos hpos, div_le_iff₀ hpos] at h3
    rw [le_div_iff₀ (by linarith)]
    linarith

end Exact

section Float
variable {K : Type} [Field K] [LinearOrder K] [Rounding K] [IsStrictOrderedRing K] {n : Nat}

/-- The relative residual of a float against zero is NaN (for zeros, infinities and NaN) or at least one. -/
theorem fl_rel_zero (x : Fl K) (z : Bool) :
    normalization x (.zero z) .Rel = .nan ∧ (∀ y h, x ≠ .num y h) ∨
      Fl.leb Fl.one (Fl.abs (normalization x (.zero z) .Rel)) = true := by
  change Fl.div (Fl.sub x (.zero z)) (Fl.div (Fl.abs (Fl.add x (.zero z))) Fl.two) = .nan ∧ _ ∨
    Fl.leb Fl.one (Fl.abs (Fl.div (Fl.sub x (.zero z)) (Fl.div (Fl.abs (Fl.add x (.zero z))) Fl.two))) = true
  rcases x with _ | s | s | ⟨x, hx⟩
  · exact .inl ⟨rfl, fun _ _ h => nomatch h⟩
  · left
    refine ⟨?_, fun _ _ h => nomatch h⟩
    cases s <;> rfl
  · left
    refine ⟨?_, fun _ _ h => nomatch h⟩
    cases s <;> cases z <;> rfl
  · right
    have hpos : 0 < |x| := _root_.abs_pos.2 hx.1
    have hxr : Rounding.rnd |x| = |x| := by
      rcases abs_choice x with h | h
      · rw [h]; exact hx.2.1
      · rw [h, Rounding.odd, hx.2.1]
    have habs : IsFloat |x| := ⟨hpos.ne', hxr, by rw [_root_.abs_abs]; exact hx.2.2⟩
    have e1 : Fl.sub (.num x hx) (.zero z) = .num x hx := rfl
    have e2 : Fl.abs (Fl.add (.num x hx) (.zero z)) = .num |x| habs := by
      change (if x < 0 then Fl.num (-x) _ else .num x hx) = _
      split_ifs with h
      · simp only [abs_of_neg h]
      · simp only [abs_of_nonneg (not_lt.1 h)]
    rw [e1, e2, ← Fl.abs_div_abs, show Fl.abs (.num x hx) = .num |x| habs from e2]
    have e3 : Fl.div (.num |x| habs) Fl.two = Fl.ofExact false (|x| / 2) := rfl
    rw [e3]
    have hr0 : 0 ≤ Rounding.rnd (|x| / 2) := Fl.rnd_nonneg (by positivity)
    have hr1 : Rounding.rnd (|x| / 2) ≤ |x| := by
      rw [← hxr]
      refine Rounding.mono _ _ ?_
      rw [hxr]; linarith
    unfold Fl.ofExact
    rw [dif_neg (by positivity)]
    split_ifs with h1 h2
    · rfl
    · have hr : 0 < Rounding.rnd (|x| / 2) := lt_of_le_of_ne hr0 (Ne.symm h1)
      change Fl.leb Fl.one (Fl.abs (Fl.ofExact false (|x| / Rounding.rnd (|x| / 2)))) = true
      have hge : (1 : K) ≤ |x| / Rounding.rnd (|x| / 2) := by rwa [le_div_iff₀ hr, one_mul]
      have hmono := Fl.ofExact_mono false false hge
      rw [Fl.ofExact_self false (show IsFloat (1 : K) from ⟨one_ne_zero, Rounding.one, by
        rw [abs_one]; exact lt_trans one_lt_two Rounding.two_lt_big⟩)] at hmono
      rcases hv : Fl.ofExact false (|x| / Rounding.rnd (|x| / 2)) with _ | s | s | ⟨y, hy⟩
      · rw [hv] at hmono; cases hmono
      · rfl
      · rw [hv] at hmono
        simp [Fl.leb] at hmono
        linarith
      · rw [hv] at hmono
        simp only [Fl.leb, decide_eq_true_eq] at hmono
        change Fl.leb Fl.one (if y < 0 then _ else _) = true
        rw [if_neg (by linarith)]
        simpa [Fl.leb, Fl.one] using hmono
    · rw [abs_of_nonneg hr0] at h2
      exact absurd (hr1.trans_lt hx.2.2) h2

/-- Floating point: with a relative stopping criterion on some equation, the solve of a function succeeds with a
tolerance below one only when some stopping residual is NaN. -/
theorem C78_float_refuted (f : Vec (Fl K) n → Vec (Fl K) n) (m : UserModel (Fl K) n Empty Empty (AdapterState (Fl K) n))
    (hm : Adapter f m) (c : Config (Fl K) n) (st st' : Solver (Fl K) n) (s s' : AdapterState (Fl K) n)
    (hv : st.valid = true) (hs : (m.getResiduals s).right = fun _ => Scalar.zero) (i : Fin n)
    (hi : c.res.stop i = .Rel) (ht : Scalar.lt c.params.tolerance Scalar.one = true)
    (h : solve c m st s = .ok (st', s', .ok ())) :
    ∃ j, normalization (f (m.getIteratives s') j) Scalar.zero (c.res.stop j) = .nan := by
  obtain ⟨h1, h2⟩ := adapter_sides hm hv hs h
  have htn : c.params.tolerance ≠ .nan := by
    intro he; rw [he] at ht; cases ht
  rcases C02_nan_or_solved_partial c m htn st st' s s' h with ⟨j, hj⟩ | hall
  · exact ⟨j, by rw [← h1, ← hj, h2]⟩
  · have h3 := hall i
    rw [h1, h2, hi] at h3
    rcases fl_rel_zero (f (m.getIteratives s') i) false with ⟨hn, -⟩ | hge
    · exact ⟨i, by rw [hi]; exact hn⟩
    · exfalso
      have := Fl.leb_trans hge h3
      rw [fl_lt, Fl.ltb_iff htn (by intro h; cases h)] at ht
      exact ht this

/-- With one unknown: the solve never succeeds at a point where the function is a non-zero finite number. -/
theorem C78_scalar_refuted (f : Vec (Fl K) 1 → Vec (Fl K) 1) (m : UserModel (Fl K) 1 Empty Empty (AdapterState (Fl K) 1))
    (hm : Adapter f m) (c : Config (Fl K) 1) (st st' : Solver (Fl K) 1) (s s' : AdapterState (Fl K) 1)
    (hv : st.valid = true) (hs : (m.getResiduals s).right = fun _ => Scalar.zero)
    (hi : c.res.stop 0 = .Rel) (ht : Scalar.lt c.params.tolerance Scalar.one = true)
    (h : solve c m st s = .ok (st', s', .ok ())) (y : K) (hy : IsFloat y) :
    f (m.getIteratives s') 0 ≠ .num y hy := by
  intro he
  obtain ⟨j, hj⟩ := C78_float_refuted f m hm c st st' s s' hv hs 0 hi ht h
  rw [Subsingleton.elim j 0, hi] at hj
  rcases fl_rel_zero (f (m.getIteratives s') 0) false with ⟨-, hn⟩ | hge
  · exact hn y hy he
  · change Fl.leb _ (Fl.abs (normalization _ Scalar.zero _)) = true at hge
    rw [hj] at hge
    cases hge

end Float

open scoped Exact in
/-- Exact arithmetic: with a relative criterion of 10 % Newton's method finds the root of `2 x = 4` and stops there;
five iterations on `x² = 2` (which is never solved exactly) are not enough, though the last iterate is
correct to three digits. -/
example :
    (let c := { Demo.cfg .NewtonRaphson false 5 (1 / 10) 10 with res := ⟨fun _ => .Rel, fun _ => .Abs⟩ }
    Demo.kind (solve c (fromFunctionAndJacobian (fun x _ => 2 * x 0 - 4) fun _ _ _ => 2) .new Demo.start) = .ok ∧
    Demo.kind (solve c Demo.sqrt2 .new Demo.start) = .nonConvergence) := by decide +kernel

open scoped Exact in
/-- A relative update method on `2 x = 4`: the Jacobian is not invertible. -/
example : Demo.kind (solve { Demo.cfg .NewtonRaphson false 5 (1 / 10) 10 with res := ⟨fun _ => .Abs, fun _ => .Rel⟩ }
    (fromFunctionAndJacobian (fun x _ => 2 * x 0 - 4) fun _ _ _ => 2) .new Demo.start) = .jacobian := by decide +kernel

/-- Binary64: `x + x = 2` with a relative criterion succeeds after one iteration, at a NaN residual. -/
example : Demo.kind (solve { Demo64.cfg 3 with res := ⟨fun _ => .Rel, fun _ => .Abs⟩ }
    (fromFunctionAndJacobian (fun x _ => Scalar.sub (Scalar.add (x 0) (x 0)) Scalar.two) fun _ _ _ => Scalar.two)
    .new .new) = .ok ∧ Scalar.lt (Demo64.cfg 3).params.tolerance Scalar.one = true := by decide +kernel

end Nrf

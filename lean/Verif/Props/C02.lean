import Verif.Props.C01
import Verif.Props.C18
import Verif.Proofs.AmaxFloat

/-!
# C02: NaN residuals
-/

namespace Nrf

/-- The property is false of the code.  In every dimension but 0 and for every model, if the
evaluation at the initial guess succeeds with NaN in every stopping residual, a fresh solver (or any
solver whose last evaluation was usable) reports success at once, because `max_error > tolerance` is
false for NaN. -/
theorem C02_refuted {K : Type} [Field K] [LinearOrder K] [Rounding K] [IsStrictOrderedRing K]
    {n : Nat} {EI EU S : Type} (hn : n ≠ 0) (c : Config (Fl K) n) (m : UserModel (Fl K) n EI EU S)
    (st : Solver (Fl K) n) (hd : st.debug = false) (hv : st.valid = true) (s s1 : S)
    (he : m.evaluate (m.setIteratives s c.guess) = (s1, .ok ()))
    (hnan : ∀ i, normalization ((m.getResiduals s1).left i) ((m.getResiduals s1).right i)
      (c.res.stop i) = .nan) :
    solve c m st s = .ok (st, s1, .ok ()) := by
  have ha : amax (evaluateErrors c m s1) = .nan := by
    refine fl_amax_nan _ hn fun i => ?_
    change Fl.abs (normalization _ _ _) = .nan
    rw [hnan i]; rfl
  have hlt : Scalar.lt c.params.tolerance (.nan : Fl K) = false := by
    change Fl.ltb _ _ = false
    cases c.params.tolerance <;> rfl
  rw [solve_usable he .ok, solveFrom_noDebug hd, loop_eq, ha]
  simp [continues, finalResult, hlt, hv]

/-- What remains: with a tolerance that is a number, `Ok` means that every stopping residual is
within the tolerance, provided that none is NaN.  The property asks for this without the proviso. -/
theorem C02_partial {K : Type} [Field K] [LinearOrder K] [Rounding K] [IsStrictOrderedRing K]
    {n : Nat} {EI EU S : Type} (c : Config (Fl K) n) (m : UserModel (Fl K) n EI EU S)
    (ht : c.params.tolerance ≠ .nan)
    (st st' : Solver (Fl K) n) (s s' : S) (h : solve c m st s = .ok (st', s', .ok ()))
    (hnan : ∀ i, normalization ((m.getResiduals s').left i) ((m.getResiduals s').right i)
      (c.res.stop i) ≠ .nan) (i : Fin n) :
    Scalar.le (Scalar.abs (normalization ((m.getResiduals s').left i) ((m.getResiduals s').right i)
      (c.res.stop i))) c.params.tolerance = true := by
  have h1 := C01_any_arithmetic c m st st' s s' h
  have hv : ∀ j, c.res.evaluateStopping (m.getResiduals s') j ≠ .nan := fun j =>
    Fl.abs_not_nan (hnan j)
  have h2 := fl_abs_le_amax _ hv i
  have han := Fl.not_nan_of_leb_right h2
  have h3 : Fl.leb (amax (c.res.evaluateStopping (m.getResiduals s'))) c.params.tolerance = true := by
    by_contra h
    have := (Fl.ltb_iff ht han).2 h
    rw [← fl_lt, h1] at this
    exact absurd this (by simp)
  have h4 : Fl.leb (Fl.abs (Fl.abs (normalization ((m.getResiduals s').left i)
      ((m.getResiduals s').right i) (c.res.stop i)))) c.params.tolerance = true := Fl.leb_trans h2 h3
  rwa [Fl.abs_abs] at h4

/-- The same on the solver's own test in one statement: a successful solve either left a NaN
residual or is a solution. -/
theorem C02_nan_or_solved_partial {K : Type} [Field K] [LinearOrder K] [Rounding K]
    [IsStrictOrderedRing K] {n : Nat} {EI EU S : Type} (c : Config (Fl K) n)
    (m : UserModel (Fl K) n EI EU S) (ht : c.params.tolerance ≠ .nan)
    (st st' : Solver (Fl K) n) (s s' : S) (h : solve c m st s = .ok (st', s', .ok ())) :
    (∃ i, normalization ((m.getResiduals s').left i) ((m.getResiduals s').right i)
      (c.res.stop i) = .nan) ∨
    ∀ i, Scalar.le (Scalar.abs (normalization ((m.getResiduals s').left i)
      ((m.getResiduals s').right i) (c.res.stop i))) c.params.tolerance = true := by
  by_cases hn : ∃ i, normalization ((m.getResiduals s').left i) ((m.getResiduals s').right i)
      (c.res.stop i) = .nan
  · exact .inl hn
  · exact .inr (C02_partial c m ht st st' s s' h (fun i hi => hn ⟨i, hi⟩))

namespace Demo64

/-- `0 / 0` in binary64: every residual is NaN. -/
def nanModel : UserModel F64 1 Empty Empty (AdapterState F64 1) :=
  fromFunctionAndJacobian (fun x _ => Scalar.div (Scalar.sub (x 0) (x 0)) Scalar.zero)
    (fun _ _ _ => Scalar.one)

end Demo64

/-- Hypotheses of `C02_refuted`. -/
example : ∃ s1, Demo64.nanModel.evaluate (Demo64.nanModel.setIteratives .new (Demo64.cfg 3).guess) =
      (s1, .ok ()) ∧
    ∀ i, normalization ((Demo64.nanModel.getResiduals s1).left i)
      ((Demo64.nanModel.getResiduals s1).right i) ((Demo64.cfg 3).res.stop i) = .nan :=
  ⟨_, rfl, by decide +kernel⟩

/-- Hypotheses of `C02_partial`: a binary64 solve that returns `Ok` after three iterations. -/
example : Demo.kind (solve (Demo64.cfg 3) Demo64.sqrt2 .new .new) = .ok ∧
    (Demo64.cfg 3).params.tolerance ≠ .nan := by constructor <;> decide +kernel

end Nrf

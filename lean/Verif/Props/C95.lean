import Verif.Proofs.AccurateRoot
import Verif.Props.C93

/-!
# C95: one equation in binary64, evaluated with limited accuracy
-/

set_option linter.unusedSectionVars false

namespace Nrf
open Spec Fl

/-- The floor of the distance to the root: the error of the residual divided by the slope, and the roundings of the unknown. -/
noncomputable def Spec.floorOf (σ μ ε : ℝ) : ℝ := 2 * (ε / μ) + 4 * 2 ^ (-53 : ℤ) * σ

section
variable {c : Config F64 1} {EI EU S : Type} {m : UserModel F64 1 EI EU S} {inv : S → Prop}
variable {func deriv : F64 → F64} {φ φ' : ℝ → ℝ} {ρ R σ μ M v ε : ℝ}

/-- The solution found. -/
structure Spec.Solved (c : Config F64 1) (m : UserModel F64 1 EI EU S) (inv : S → Prop) (func : F64 → F64) (φ : ℝ → ℝ)
    (ρ μ ε : ℝ) (N : Nat) (s : S) : Prop where
  solved : ∃ st' s' x, solve c m .new s = .ok (st', s', .ok ()) ∧ st'.iter ≤ N ∧
    At m inv (oneResidual func) s' (fun _ => x) ∧ x.IsFinite ∧
    |φ x.val| ≤ c.params.tolerance.val + ε ∧ μ * |(x.val : ℝ) - ρ| ≤ c.params.tolerance.val + ε

private theorem eps_nonneg (he : Evaluates func φ ρ R ε) {g : F64} (hg : g.IsFinite) (hgR : |(g.val : ℝ) - ρ| ≤ R) :
    0 ≤ ε := (_root_.abs_nonneg _).trans (he g hg hgR).2

/-- Conclusion common to all methods. -/
private theorem conclude (hc : ScalarDefault c) {r δ : ℝ} (hr : r ≤ R) (h : NearRoot φ φ' ρ R σ μ M v)
    (he : Evaluates func φ ρ R ε) (hf : Computes m inv (Within ρ R) (oneResidual func)) (hδ0 : 0 ≤ δ) (hδ : 2 * δ ≤ r)
    (P : Solver F64 1 → Prop) (h0 : P .new)
    (hpass : ∀ (x : F64) st s, x.IsFinite → |(x.val : ℝ) - ρ| ≤ r → st.debug = false → P st →
      At m inv (oneResidual func) s (fun _ => x) →
      ∃ st' s' y, iterate c m st s = .ok (st', s', .ok (amax (evaluateErrors c m s'))) ∧
        At m inv (oneResidual func) s' (fun _ => y) ∧ st'.debug = false ∧ st'.valid = true ∧ P st' ∧ y.IsFinite ∧
        |(y.val : ℝ) - ρ| ≤ 1 / 2 * |(x.val : ℝ) - ρ| + δ)
    {g : F64} (hguess : c.guess = fun _ => g) (hg : g.IsFinite) (hgR : |(g.val : ℝ) - ρ| ≤ r)
    (ht : c.params.tolerance.IsFinite) {N : Nat} (hNm : N ≤ c.params.maxIter)
    (htol : M * (r / 2 ^ N + 2 * δ) + ε ≤ c.params.tolerance.val) {s : S} (hs : inv s) :
    Solved c m inv func φ ρ μ ε N s := by
  have hM : 0 ≤ M := h.mu_pos.le.trans ((h.steep _ (hgR.trans hr)).trans (h.bounded _ (hgR.trans hr)))
  obtain ⟨st', s', x, h1, h2, h3, h4, h5, h6⟩ := scalar_converges hc hf hδ P h0 hpass hguess
    (by rw [hguess]; exact ⟨hg, hgR.trans hr⟩) hg hgR ht hNm (fun x hx hxR => (he x hx (hxR.trans hr)).1)
    (by
      intro x hx hxk
      have hxR : |(x.val : ℝ) - ρ| ≤ R := hxk.trans ((halved_le hδ N).trans hr)
      have h1 := near_upper h hxR
      have h2 := (he x hx hxR).2
      have h3 := abs_sub_abs_le_abs_sub ((func x).val : ℝ) (φ x.val)
      have h4 := mul_le_mul_of_nonneg_left (hxk.trans (halved_le' hδ0 N)) hM
      linarith) hs
  have hxR := h5.trans hr
  have h7 : |φ x.val| ≤ c.params.tolerance.val + ε := by
    have h8 := (he x h4 hxR).2
    have h9 := abs_sub_abs_le_abs_sub (φ x.val) ((func x).val : ℝ)
    rw [abs_sub_comm] at h9
    linarith
  exact ⟨st', s', x, h1, h2, h3, h4, h7, (near_lower h hxR).trans h7⟩

private theorem floor_nonneg (h : NearRoot φ φ' ρ R σ μ M v) (he0 : 0 ≤ ε) : 0 ≤ floorOf σ μ ε := by
  have := h.mu_pos
  have : 0 ≤ σ := (_root_.abs_nonneg _).trans h.rootSize
  unfold floorOf
  positivity

private theorem floor_eps (h : NearRoot φ φ' ρ R σ μ M v) {r : ℝ} (hr : r ≤ R) (hδ : 2 * floorOf σ μ ε ≤ r) :
    4 * (ε / μ) ≤ R := by
  unfold floorOf at hδ
  have h0 : 0 ≤ σ := (_root_.abs_nonneg _).trans h.rootSize
  have : 0 ≤ 4 * (2 : ℝ) ^ (-53 : ℤ) * σ := by positivity
  generalize 4 * (2 : ℝ) ^ (-53 : ℤ) * σ = w at *
  linarith

/-- Newton-Raphson with a derivative.  `φ` is any differentiable function with a root `ρ` around which its slope varies by
at most a quarter; the model computes it in binary64 with an error of at most `ε`, and its derivative with a relative
error of at most one eighth.  From every double within `R` of the root, the solve succeeds after at most `N` iterations as
soon as the tolerance is above `M (R / 2ᴺ + 2 δ) + ε`, where `δ = 2 ε / μ + 2⁻⁵¹ σ`; the real value of the function at
the solution is within the tolerance plus `ε`, and its distance to the root within that divided by `μ`. -/
theorem C95_newton (hc : ScalarDefault c) (hmeth : c.params.method = .NewtonRaphson)
    (h : NearRoot φ φ' ρ R σ μ M (1 / 4)) (he : Evaluates func φ ρ R ε) (hd : EvaluatesSlope deriv φ' ρ R (1 / 8))
    (hf : Computes m inv (Within ρ R) (oneResidual func))
    (hg : Differentiates m inv (oneResidual func) fun x => ⟨fun _ _ => deriv (x 0), mzero⟩)
    (hδ : 2 * floorOf σ μ ε ≤ R) (g : F64) (hguess : c.guess = fun _ => g) (hgf : g.IsFinite)
    (hgR : |(g.val : ℝ) - ρ| ≤ R) (ht : c.params.tolerance.IsFinite) (N : Nat) (hN : N ≤ c.params.maxIter)
    (htol : M * (R / 2 ^ N + 2 * floorOf σ μ ε) + ε ≤ c.params.tolerance.val) (s : S) (hs : inv s) :
    Solved c m inv func φ ρ μ ε N s := by
  refine conclude hc le_rfl h he hf (floor_nonneg h (eps_nonneg he hgf hgR)) hδ (fun _ => True) trivial ?_ hguess hgf hgR ht
    hN htol hs
  intro x st s hx hxR hdb _ hat
  obtain ⟨fd, hdx⟩ := hd x hx hxR
  obtain ⟨hd0, hnn, fy, hy⟩ := near_step h (by norm_num) le_rfl he (floor_eps h le_rfl hδ) hx hxR fd hdx
  have hy' : |((Fl.newtonNext (func x) (deriv x) x).val : ℝ) - ρ| ≤ 1 / 2 * |(x.val : ℝ) - ρ| + floorOf σ μ ε := by
    refine hy.trans ?_
    have h1 : (5 / 4 * (1 / 4 + 1 / 8) + 4 * (2 : ℝ) ^ (-53 : ℤ)) ≤ 1 / 2 := by norm_num
    have h2 := mul_le_mul_of_nonneg_right h1 (_root_.abs_nonneg ((x.val : ℝ) - ρ))
    unfold floorOf
    linarith
  obtain ⟨s1, J, hs1, hj⟩ := scalar_analytic hc hg fd hd0 hat st.jac
  obtain ⟨st', s', hi, hat', hdb', hv', -⟩ := scalar_pass hc hf hx hnn
    ⟨fy, hy'.trans (by linarith)⟩ (st1 := { st with iter := st.iter + 1, jac := _ }) hdb hs1
    (computeStep_computed (st := { st with iter := st.iter + 1 }) hdb (.inl hmeth) hs1 hj)
  exact ⟨st', s', _, hi, hat', hdb', hv', trivial, fy, hy'⟩

/-- What stationary Newton keeps: no Jacobian yet, or the inverse of a slope close to all slopes near the root. -/
private def Keeps (φ' : ℝ → ℝ) (ρ R : ℝ) (st : Solver F64 1) : Prop :=
  st.jac.computeNext = true ∨ st.jac.computeNext = false ∧
    ∃ d, st.jac.inverse = some (fun _ _ => Fl.div Fl.one d) ∧ CloseSlope φ' ρ R d

private theorem kept_pass (hc : ScalarDefault c) (hmeth : c.params.method = .QuasiNewton .StationaryNewton)
    (h : NearRoot φ φ' ρ R σ μ M (1 / 16)) (he : Evaluates func φ ρ R ε) (hf : Computes m inv (Within ρ R) (oneResidual func))
    {r : ℝ} (hr : r ≤ R) (hδ : 2 * floorOf σ μ ε ≤ r) {x : F64} (hx : x.IsFinite) (hxr : |(x.val : ℝ) - ρ| ≤ r)
    {st : Solver F64 1} (hdb : st.debug = false) {s : S} (hat : At m inv (oneResidual func) s (fun _ => x))
    (hcn : st.jac.computeNext = false) {d : F64} (hinv : st.jac.inverse = some (fun _ _ => Fl.div Fl.one d))
    (hd : CloseSlope φ' ρ R d) :
    ∃ st' s' y, iterate c m st s = .ok (st', s', .ok (amax (evaluateErrors c m s'))) ∧
        At m inv (oneResidual func) s' (fun _ => y) ∧ st'.debug = false ∧ st'.valid = true ∧ Keeps φ' ρ R st' ∧
        y.IsFinite ∧ |(y.val : ℝ) - ρ| ≤ 1 / 2 * |(x.val : ℝ) - ρ| + floorOf σ μ ε := by
  have hxR := hxr.trans hr
  obtain ⟨hd0, hnn, fy, hy⟩ := near_step h (by norm_num) (by norm_num) he (floor_eps h hr hδ) hx hxR hd.1 (hd.2 _ hxR)
  have hy' : |((Fl.newtonNext (func x) d x).val : ℝ) - ρ| ≤ 1 / 2 * |(x.val : ℝ) - ρ| + floorOf σ μ ε := by
    refine hy.trans ?_
    have h1 : (5 / 4 * (1 / 16 + 1 / 8) + 4 * (2 : ℝ) ^ (-53 : ℤ)) ≤ 1 / 2 := by norm_num
    have h2 := mul_le_mul_of_nonneg_right h1 (_root_.abs_nonneg ((x.val : ℝ) - ρ))
    unfold floorOf
    linarith
  obtain ⟨st', s', hi, hat', hdb', hv', hj'⟩ := scalar_pass hc hf hx hnn
    ⟨fy, hy'.trans (by linarith)⟩ (st1 := { st with iter := st.iter + 1 }) hdb hat
    (computeStep_kept (st := { st with iter := st.iter + 1 }) hdb hmeth hcn hat hinv)
  refine ⟨st', s', _, hi, hat', hdb', hv', .inr ?_, fy, hy'⟩
  rw [hj']
  exact ⟨hcn, d, hinv, hd⟩

/-- Stationary Newton with a derivative: the Jacobian of the guess is used throughout.  As `C95_newton`, when the slope
varies by at most a sixteenth and the derivative is computed with a relative error of at most `1 / 32`. -/
theorem C95_stationary (hc : ScalarDefault c) (hmeth : c.params.method = .QuasiNewton .StationaryNewton)
    (h : NearRoot φ φ' ρ R σ μ M (1 / 16)) (he : Evaluates func φ ρ R ε) (hd : EvaluatesSlope deriv φ' ρ R (1 / 32))
    (hf : Computes m inv (Within ρ R) (oneResidual func))
    (hg : Differentiates m inv (oneResidual func) fun x => ⟨fun _ _ => deriv (x 0), mzero⟩)
    (hδ : 2 * floorOf σ μ ε ≤ R) (g : F64) (hguess : c.guess = fun _ => g) (hgf : g.IsFinite)
    (hgR : |(g.val : ℝ) - ρ| ≤ R) (ht : c.params.tolerance.IsFinite) (N : Nat) (hN : N ≤ c.params.maxIter)
    (htol : M * (R / 2 ^ N + 2 * floorOf σ μ ε) + ε ≤ c.params.tolerance.val) (s : S) (hs : inv s) :
    Solved c m inv func φ ρ μ ε N s := by
  refine conclude hc le_rfl h he hf (floor_nonneg h (eps_nonneg he hgf hgR)) hδ (Keeps φ' ρ R) (.inl rfl) ?_ hguess hgf hgR
    ht hN htol hs
  intro x st s hx hxR hdb hP hat
  rcases hP with hcn | ⟨hcn, d, hinv, hcl⟩
  · have hcl := close_of_slope h hd hx hxR
    obtain ⟨hd0, hnn, fy, hy⟩ := near_step h (by norm_num) (by norm_num) he (floor_eps h le_rfl hδ) hx hxR hcl.1 (hcl.2 _ hxR)
    have hy' : |((Fl.newtonNext (func x) (deriv x) x).val : ℝ) - ρ| ≤ 1 / 2 * |(x.val : ℝ) - ρ| + floorOf σ μ ε := by
      refine hy.trans ?_
      have h1 : (5 / 4 * (1 / 16 + 1 / 8) + 4 * (2 : ℝ) ^ (-53 : ℤ)) ≤ 1 / 2 := by norm_num
      have h2 := mul_le_mul_of_nonneg_right h1 (_root_.abs_nonneg ((x.val : ℝ) - ρ))
      unfold floorOf
      linarith
    obtain ⟨s1, J, hs1, hj⟩ := scalar_analytic hc hg hcl.1 hd0 hat st.jac
    obtain ⟨st', s', hi, hat', hdb', hv', hj'⟩ := scalar_pass hc hf hx hnn
      ⟨fy, hy'.trans (by linarith)⟩ (st1 := { st with iter := st.iter + 1, jac := _ }) hdb hs1
      (computeStep_computed (st := { st with iter := st.iter + 1 }) hdb (.inr hcn) hs1 hj)
    refine ⟨st', s', _, hi, hat', hdb', hv', .inr ?_, fy, hy'⟩
    rw [hj']
    exact ⟨rfl, _, rfl, hcl⟩
  · exact kept_pass hc hmeth h he hf le_rfl hδ hx hxR hdb hat hcn hinv hcl

/-- Newton-Raphson and stationary Newton without derivative, with the finite differences of the code, which leave the model
at the perturbed point.  The perturbations are between `lo` and `hi`: at least 256 roundings of the unknown, and large enough
for the error of the residuals to change the slope by little (`64 ε ≤ μ lo`).  The floor is raised by `hi / 2`. -/
theorem C95_differences (hc : ScalarDefault c)
    (hmeth : c.params.method = .NewtonRaphson ∨ c.params.method = .QuasiNewton .StationaryNewton)
    (h : NearRoot φ φ' ρ R σ μ M (1 / 16)) (he : Evaluates func φ ρ R ε)
    (hf : Computes m inv (Within ρ R) (oneResidual func)) (hu : Underived m inv (oneResidual func))
    {pert : F64 → F64} (hp : (c.iters 0).computePerturbation = some pert) {lo hi r : ℝ}
    (hpert : ∀ x : F64, x.IsFinite → |(x.val : ℝ) - ρ| ≤ r →
      (pert x).IsFinite ∧ lo ≤ ((pert x).val : ℝ) ∧ ((pert x).val : ℝ) ≤ hi)
    (hlo : 256 * 2 ^ (-53 : ℤ) * σ ≤ lo) (hnoise : 64 * ε ≤ μ * lo) (hr : r + 2 * hi ≤ R)
    (hδ : 2 * (floorOf σ μ ε + hi / 2) ≤ r) (g : F64) (hguess : c.guess = fun _ => g) (hgf : g.IsFinite)
    (hgR : |(g.val : ℝ) - ρ| ≤ r) (ht : c.params.tolerance.IsFinite) (N : Nat) (hN : N ≤ c.params.maxIter)
    (htol : M * (r / 2 ^ N + 2 * (floorOf σ μ ε + hi / 2)) + ε ≤ c.params.tolerance.val) (s : S) (hs : inv s) :
    Solved c m inv func φ ρ μ ε N s := by
  have hhi : 0 ≤ hi := by
    have h1 := hpert g hgf hgR
    have h0 : 0 ≤ σ := (_root_.abs_nonneg _).trans h.rootSize
    have h2 : 0 ≤ 256 * 2 ^ (-53 : ℤ) * σ := by positivity
    linarith
  have hrR : r ≤ R := by linarith
  have hfl := floor_nonneg h (eps_nonneg he hgf (hgR.trans hrR))
  refine conclude hc hrR h he hf (by linarith) hδ
    (fun st => c.params.method = .NewtonRaphson ∨ Keeps φ' ρ R st) (.inr (.inl rfl)) ?_ hguess hgf hgR ht hN htol hs
  intro x st s hx hxr hdb hP hat
  have hcases : (c.params.method = .NewtonRaphson ∨ st.jac.computeNext = true) ∨
      c.params.method = .QuasiNewton .StationaryNewton ∧ st.jac.computeNext = false ∧
        ∃ d, st.jac.inverse = some (fun _ _ => Fl.div Fl.one d) ∧ CloseSlope φ' ρ R d := by
    rcases hP with h1 | h1 | h1
    · exact .inl (.inl h1)
    · exact .inl (.inr h1)
    · rcases hmeth with h2 | h2
      · exact .inl (.inl h2)
      · exact .inr ⟨h2, h1⟩
  rcases hcases with hcn | ⟨hst, hcn, d, hinv, hcl⟩
  · obtain ⟨fp, hp1, hp2⟩ := hpert x hx hxr
    obtain ⟨fz, hz, hcl⟩ := close_of_chord h he hlo hnoise hr hx hxr fp hp1 hp2
    have hzR : |((Fl.add x (pert x)).val : ℝ) - ρ| ≤ R := by linarith
    obtain ⟨hd0, hnn, fy, hy⟩ := near_step h (by norm_num) (by norm_num) he (floor_eps h hrR (by linarith)) fz hzR hcl.1
      (hcl.2 _ hzR)
    have hy' : |((Fl.newtonNext (func (Fl.add x (pert x))) (Fl.chord func x (pert x)) (Fl.add x (pert x))).val : ℝ) - ρ| ≤
        1 / 2 * |(x.val : ℝ) - ρ| + (floorOf σ μ ε + hi / 2) := by
      refine hy.trans ?_
      have h1 : (5 / 4 * (1 / 16 + 1 / 8) + 4 * (2 : ℝ) ^ (-53 : ℤ)) ≤ 1 / 4 := by norm_num
      have h2 := mul_le_mul_of_nonneg_right h1 (_root_.abs_nonneg (((Fl.add x (pert x)).val : ℝ) - ρ))
      have h3 := _root_.abs_nonneg ((x.val : ℝ) - ρ)
      unfold floorOf
      linarith
    obtain ⟨s1, J, hs1, hj⟩ := scalar_fd hc hp hf hu (x := x) ⟨fz, hzR⟩ hcl.1 hd0 hat st.jac
    obtain ⟨st', s', hi, hat', hdb', hv', hj'⟩ := scalar_pass hc hf fz hnn
      ⟨fy, hy'.trans (by linarith)⟩ (st1 := { st with iter := st.iter + 1, jac := _ }) hdb hs1
      (computeStep_computed (st := { st with iter := st.iter + 1 }) hdb hcn hs1 hj)
    refine ⟨st', s', _, hi, hat', hdb', hv', .inr (.inr ?_), fy, hy'⟩
    rw [hj']
    exact ⟨rfl, _, rfl, hcl⟩
  · obtain ⟨st', s', y, h1, h2, h3, h4, h5, h6, h7⟩ := kept_pass hc hst h he hf hrR (by linarith) hx hxr hdb hat hcn hinv hcl
    exact ⟨st', s', y, h1, h2, h3, h4, .inr h5, h6, by linarith⟩

/-- The default `dx_abs` and `dx_rel` in binary64. -/
theorem default_perturbations : (Scalar.dec 5 8 : F64).IsFinite ∧ 4999999 / 10 ^ 14 ≤ (Scalar.dec 5 8 : F64).val ∧
    (Scalar.dec 5 8 : F64).val ≤ 5000001 / 10 ^ 14 := by decide +kernel

theorem fl_max_finite {a b : F64} (ha : a.IsFinite) (hb : b.IsFinite) :
    (Fl.max a b).IsFinite ∧ (Fl.max a b).val = max a.val b.val := by
  have key := fl_ltb_val ha hb
  rcases a with _ | s | s | ⟨x, hx⟩ <;> rcases b with _ | t | t | ⟨y, hy⟩ <;>
    first
      | exact ha.elim
      | exact hb.elim
      | skip
  all_goals
    unfold Fl.max
    simp only [Fl.val] at key ⊢
    split_ifs with h
    all_goals
      first
        | exact ⟨trivial, (max_eq_right (key.1 h).le).symm⟩
        | exact ⟨trivial, (max_eq_left (not_lt.1 fun hn => by rw [key.2 hn] at h; exact absurd h (by decide))).symm⟩

/-- The default perturbations are `5e-8` times the largest of one and the unknown. -/
theorem default_pert {x : F64} (hx : x.IsFinite) (hx1 : |x.val| ≤ 2 ^ 300) :
    (IterativeParamsFD.default.computePerturbation x : F64).IsFinite ∧
      499 / 10 ^ 10 * max 1 |x.val| ≤ (IterativeParamsFD.default.computePerturbation x : F64).val ∧
      (IterativeParamsFD.default.computePerturbation x : F64).val ≤ 501 / 10 ^ 10 * max 1 |x.val| := by
  obtain ⟨fd, hd0, hd1⟩ := default_perturbations
  change (Fl.max (Scalar.dec 5 8 : F64) (Fl.mul (Fl.abs x) (Scalar.dec 5 8))).IsFinite ∧
    499 / 10 ^ 10 * max 1 |x.val| ≤ (Fl.max (Scalar.dec 5 8 : F64) (Fl.mul (Fl.abs x) (Scalar.dec 5 8))).val ∧
    (Fl.max (Scalar.dec 5 8 : F64) (Fl.mul (Fl.abs x) (Scalar.dec 5 8))).val ≤ 501 / 10 ^ 10 * max 1 |x.val|
  generalize (Scalar.dec 5 8 : F64) = d at *
  have hd1' : d.val ≤ 1 := hd1.trans (by norm_num)
  have hdp : 0 < d.val := lt_of_lt_of_le (by norm_num) hd0
  have hX := _root_.abs_nonneg x.val
  obtain ⟨fm, vm⟩ := f64_mul (abs_finite hx) fd (by
    rw [val_abs, abs_mul, _root_.abs_abs, abs_of_pos hdp]
    have h1 := mul_le_mul hx1 hd1' hdp.le (by positivity)
    rw [_root_.mul_one] at h1
    exact h1.trans (pow_le_pow_right₀ (by norm_num) (by norm_num)))
  rw [val_abs] at vm
  obtain ⟨fM, vM⟩ := fl_max_finite fd fm
  refine ⟨fM, ?_⟩
  rw [vM, vm]
  set y := |x.val| * d.val with hy
  have hy0 : 0 ≤ y := _root_.mul_nonneg hX hdp.le
  have hyl : 4999999 / 10 ^ 14 * |x.val| ≤ y := by
    rw [hy, _root_.mul_comm]
    exact mul_le_mul_of_nonneg_left hd0 hX
  have hyh : y ≤ 5000001 / 10 ^ 14 * |x.val| := by
    rw [hy, _root_.mul_comm]
    exact mul_le_mul_of_nonneg_right hd1 hX
  rcases Binary64.rnd_error y with h | ⟨h, h'⟩
  · rw [abs_of_nonneg hy0] at h
    obtain ⟨h1, h2⟩ := abs_le.1 h
    have h3 : y * 2 ^ (-53 : ℤ) ≤ y * (1 / 10 ^ 10) := mul_le_mul_of_nonneg_left (by norm_num) hy0
    generalize y * 2 ^ (-53 : ℤ) = w at *
    generalize Binary64.rnd y = z at *
    clear_value y
    rcases le_total 1 |x.val| with hx' | hx'
    · rw [max_eq_right hx']
      constructor
      · refine le_trans ?_ (le_max_right _ _)
        linarith
      · refine max_le ?_ ?_ <;> linarith
    · rw [max_eq_left hx']
      constructor
      · refine le_trans ?_ (le_max_left _ _)
        linarith
      · refine max_le ?_ ?_ <;> linarith
  · rw [abs_of_nonneg hy0] at h
    have ht : (2 : ℚ) ^ (-1075 : ℤ) ≤ 1 / 10 ^ 20 :=
      (zpow_le_zpow_right₀ (by norm_num) (by norm_num : (-1075 : ℤ) ≤ -100)).trans (by norm_num)
    have ht' : (2 : ℚ) ^ (-1021 : ℤ) ≤ 1 / 10 ^ 20 :=
      (zpow_le_zpow_right₀ (by norm_num) (by norm_num : (-1021 : ℤ) ≤ -100)).trans (by norm_num)
    obtain ⟨h1, h2⟩ := abs_le.1 (h'.trans ht)
    have h3 := h.trans_le ht'
    clear h h' ht ht'
    have hx' : |x.val| ≤ 1 := by
      by_contra hn
      push Not at hn
      clear_value y
      linarith
    rw [max_eq_left hx']
    generalize Binary64.rnd y = z at *
    clear_value y
    constructor
    · refine le_trans ?_ (le_max_left _ _)
      linarith
    · refine max_le ?_ ?_ <;> linarith

/-- With the solver of `default_with_guess` (tolerance `1e-6`, 50 iterations, Newton-Raphson), the default iteratives with
finite differences and default residuals: what has to be known about the equation, with `W = max 1 |ρ|`.  The guess is within
`r ≤ W / 16` of the root; the slope varies by at most a sixteenth within `r + 1.1e-7 W`; the residual is computed with an
error that is small against `μ W 5e-8`. -/
theorem C95_default (h : NearRoot φ φ' ρ R σ μ M (1 / 16)) (he : Evaluates func φ ρ R ε)
    (hf : Computes m inv (Within ρ R) (oneResidual func)) (hu : Underived m inv (oneResidual func)) {r : ℝ}
    (hσ : σ ≤ 10 ^ 6 * max 1 |ρ|) (hr : r ≤ 1 / 16 * max 1 |ρ|) (hrR : r + 11 / 10 ^ 8 * max 1 |ρ| ≤ R) (hnoise : 10 ^ 10 * ε ≤ 7 * (μ * max 1 |ρ|))
    (hδ : 2 * floorOf σ μ ε + 54 / 10 ^ 9 * max 1 |ρ| ≤ r) (g : F64) (hgf : g.IsFinite) (hgR : |(g.val : ℝ) - ρ| ≤ r)
    (htol : M * (r / 2 ^ 50 + 2 * floorOf σ μ ε + 54 / 10 ^ 9 * max 1 |ρ|) + ε ≤ 999999 / 10 ^ 12)
    (rc : ResidualsConfig) (hrc : ResidualsConfig.new (convertIntoVecs (defaultVecResiduals 1)).1
      (convertIntoVecs (defaultVecResiduals 1)).2 = some rc) (hlen)
    (hc : defaultWithGuess [g] ((defaultVecIterativesFd 1).map IterativeParamsFD.toIterative) rc hlen .NewtonRaphson false
      (nalgebraLinAlg F64) = .ok c) (s : S) (hs : inv s) :
    Solved c m inv func φ ρ μ ε 50 s := by
  have hd : ScalarDefault c ∧ c.params.method = .NewtonRaphson ∧ c.guess = (fun _ => g) ∧
      c.params.tolerance = Scalar.dec 1 6 ∧ c.params.maxIter = 50 ∧
      (c.iters 0).computePerturbation = some IterativeParamsFD.default.computePerturbation := by
    cases hrc
    cases hc
    exact ⟨⟨rfl, rfl, rfl, rfl, rfl⟩, rfl, funext fun i => by rw [Subsingleton.elim i 0]; rfl, rfl, rfl, rfl⟩
  obtain ⟨hd, hmeth, hgs, htl, hmax, hp⟩ := hd
  obtain ⟨ht, ht0, -⟩ := default_tolerance
  have hW1 : 1 ≤ max 1 |ρ| := le_max_left _ _
  have hWρ : |ρ| ≤ max 1 |ρ| := le_max_right _ _
  have hμ := h.mu_pos
  set W := max 1 |ρ| with hW
  refine C95_differences hd (.inl hmeth) h he hf hu hp (lo := 46 / 10 ^ 9 * W) (hi := 54 / 10 ^ 9 * W) (r := r) ?_ ?_ ?_ ?_ ?_ g
    hgs hgf hgR (by rw [htl]; exact ht) 50 hmax.ge ?_ s hs
  · intro x hx hxr
    have hxa := abs_sub_abs_le_abs_sub (x.val : ℝ) ρ
    have hxb := abs_sub_abs_le_abs_sub ρ (x.val : ℝ)
    rw [abs_sub_comm] at hxb
    have hx1 : |x.val| ≤ 2 ^ 300 := by
      have h1 : ((|x.val| : ℚ) : ℝ) ≤ ((2 ^ 300 : ℚ) : ℝ) := by
        push_cast
        have h2 : (2 : ℝ) ^ 201 = 2 * 2 ^ 200 := by rw [pow_succ]; ring
        have h3 : (2 : ℝ) ^ 201 ≤ 2 ^ 300 := pow_le_pow_right₀ (by norm_num) (by norm_num)
        have h4 := h.scaleHigh
        have h5 := h.rootSize
        have h6 := h.radius
        have h7 : r ≤ R := by linarith
        clear_value W
        rw [h2] at h3
        generalize (2 : ℝ) ^ 200 = p at *
        generalize (2 : ℝ) ^ 300 = p at *
        linarith
      exact (Rat.cast_le (K := ℝ)).1 h1
    obtain ⟨h1, h2, h3⟩ := default_pert hx hx1
    have h2' := (Rat.cast_le (K := ℝ)).2 h2
    have h3' := (Rat.cast_le (K := ℝ)).2 h3
    push_cast at h2' h3'
    refine ⟨h1, le_trans ?_ h2', h3'.trans ?_⟩
    · have : 15 / 16 * W ≤ max 1 |(x.val : ℝ)| := by
        rw [hW]
        rcases max_cases 1 |ρ| with ⟨e, -⟩ | ⟨e, -⟩
        · rw [e]
          exact le_trans (by norm_num) (le_max_left _ _)
        · rw [e]
          rw [hW, e] at hr
          exact le_trans (by linarith) (le_max_right _ _)
      clear_value W
      linarith
    · have : max 1 |(x.val : ℝ)| ≤ 17 / 16 * W := max_le (by linarith) (by linarith)
      clear_value W
      linarith
  · have h1 : 256 * (2 : ℝ) ^ (-53 : ℤ) * 10 ^ 6 ≤ 46 / 10 ^ 9 := by norm_num
    have h2 : 256 * (2 : ℝ) ^ (-53 : ℤ) * σ ≤ 256 * (2 : ℝ) ^ (-53 : ℤ) * (10 ^ 6 * W) :=
      mul_le_mul_of_nonneg_left hσ (by positivity)
    refine h2.trans ?_
    rw [← _root_.mul_assoc]
    exact mul_le_mul_of_nonneg_right h1 (by linarith)
  · have : 0 < μ * W := by positivity
    clear_value W
    linarith
  · clear_value W
    linarith
  · clear_value W
    linarith
  · rw [htl]
    have h1 := (Rat.cast_le (K := ℝ)).2 ht0
    push_cast at h1
    refine le_trans (le_trans (le_of_eq ?_) htol) h1
    ring

end

section
/-- `√2`: the residual `x² - 2` in binary64 is computed with an error below `2⁻⁵⁰` between 1.3 and 1.5. -/
private theorem two_evaluates {R : ℝ} (hR : R ≤ 1 / 16) :
    Evaluates (fun x : F64 => Fl.sub (Fl.mul x x) Fl.two) (fun x => x * x - 2) (Real.sqrt 2) R (2 ^ (-50 : ℤ)) ∧
    EvaluatesSlope (fun x : F64 => Fl.mul Fl.two x) (fun x => 2 * x) (Real.sqrt 2) R (2 ^ (-53 : ℤ)) := by
  have h2 : Real.sqrt 2 * Real.sqrt 2 = 2 := Real.mul_self_sqrt (by norm_num)
  have h0 : 0 ≤ Real.sqrt 2 := Real.sqrt_nonneg 2
  have hlo : 14 / 10 ≤ Real.sqrt 2 := Real.le_sqrt_of_sq_le (by norm_num)
  have hhi : Real.sqrt 2 ≤ 142 / 100 := by
    rw [Real.sqrt_le_left (by norm_num)]
    norm_num
  have key : ∀ x : F64, |(x.val : ℝ) - Real.sqrt 2| ≤ R → 13 / 10 ≤ x.val ∧ x.val ≤ 15 / 10 := by
    intro x hxR
    obtain ⟨h3, h4⟩ := abs_le.1 hxR
    have h5 : (13 / 10 : ℝ) ≤ x.val := by linarith
    have h6 : (x.val : ℝ) ≤ 15 / 10 := by linarith
    constructor
    · exact (Rat.cast_le (K := ℝ)).1 (by push_cast; exact h5)
    · exact (Rat.cast_le (K := ℝ)).1 (by push_cast; exact h6)
  constructor
  · intro x hx hxR
    obtain ⟨h3, h4⟩ := key x hxR
    have hmul : x.val * x.val ≤ 225 / 100 := by
      have := mul_le_mul h4 h4 (by linarith) (by norm_num)
      linarith
    have hmul0 : 1 ≤ x.val * x.val := by
      have := mul_le_mul h3 h3 (by norm_num) (by linarith)
      linarith
    obtain ⟨fm, vm⟩ := f64_mul hx hx (by
      rw [abs_of_pos (by linarith)]
      exact (hmul.trans (by norm_num)).trans (pow_le_pow_right₀ (by norm_num : (1 : ℚ) ≤ 2) (by norm_num : 2 ≤ 1023)))
    have em := Binary64.rnd_error_normal (x := x.val * x.val) (by
      rw [abs_of_pos (by linarith)]
      exact (zpow_le_zpow_right₀ (by norm_num) (by norm_num : (-1022 : ℤ) ≤ 0)).trans (by simpa using hmul0))
    rw [← vm, abs_of_pos (by linarith : 0 < x.val * x.val)] at em
    set S := (Fl.mul x x).val with hS
    have hSb : |S - 2| ≤ 3 := by
      have h5 : x.val * x.val * 2 ^ (-53 : ℤ) ≤ 225 / 100 * (1 / 10) :=
        mul_le_mul hmul (by norm_num) (by positivity) (by norm_num)
      obtain ⟨h6, h7⟩ := abs_le.1 em
      rw [abs_le]
      generalize x.val * x.val * 2 ^ (-53 : ℤ) = w at *
      generalize x.val * x.val = y at *
      constructor <;> linarith
    obtain ⟨fs, vs⟩ := f64_sub (b := Fl.two) fm trivial (by
      change |S - 2| ≤ _
      exact (hSb.trans (by norm_num)).trans (pow_le_pow_right₀ (by norm_num : (1 : ℚ) ≤ 2) (by norm_num : 2 ≤ 1023)))
    have es := f64_sub_error (Fl.mul x x) Fl.two
    rw [← vs] at es
    change |(Fl.sub (Fl.mul x x) Fl.two).val - (S - 2)| ≤ |S - 2| * 2 ^ (-53 : ℤ) at es
    refine ⟨fs, ?_⟩
    have h5 : |(Fl.sub (Fl.mul x x) Fl.two).val - (x.val * x.val - 2)| ≤ 2 ^ (-50 : ℤ) := by
      have e : (Fl.sub (Fl.mul x x) Fl.two).val - (x.val * x.val - 2) =
        ((Fl.sub (Fl.mul x x) Fl.two).val - (S - 2)) + (S - x.val * x.val) := by ring
      rw [e]
      refine (abs_add_le _ _).trans ?_
      have h6 : |S - 2| * 2 ^ (-53 : ℤ) ≤ 3 * 2 ^ (-53 : ℤ) := mul_le_mul_of_nonneg_right hSb (by positivity)
      have h7 : x.val * x.val * 2 ^ (-53 : ℤ) ≤ 225 / 100 * 2 ^ (-53 : ℤ) := mul_le_mul_of_nonneg_right hmul (by positivity)
      have h8 : (3 : ℚ) * 2 ^ (-53 : ℤ) + 225 / 100 * 2 ^ (-53 : ℤ) ≤ 2 ^ (-50 : ℤ) := by norm_num
      exact (add_le_add (es.trans h6) (em.trans h7)).trans h8
    have h6 := (Rat.cast_le (K := ℝ)).2 h5
    push_cast at h6
    exact h6
  · intro x hx hxR
    obtain ⟨h3, h4⟩ := key x hxR
    obtain ⟨fm, vm⟩ := f64_mul (a := Fl.two) trivial hx (by
      change |2 * x.val| ≤ _
      rw [abs_of_pos (by linarith)]
      exact ((by linarith : 2 * x.val ≤ 2 ^ 2).trans
        (pow_le_pow_right₀ (by norm_num : (1 : ℚ) ≤ 2) (by norm_num : 2 ≤ 1023))))
    have em := Binary64.rnd_error_normal (x := 2 * x.val) (by
      rw [abs_of_pos (by linarith)]
      refine (zpow_le_zpow_right₀ (by norm_num) (by norm_num : (-1022 : ℤ) ≤ 0)).trans ?_
      rw [zpow_zero]
      linarith)
    change (Fl.mul Fl.two x).val = Binary64.rnd (2 * x.val) at vm
    rw [← vm, _root_.mul_comm |2 * x.val|] at em
    refine ⟨fm, ?_⟩
    have h6 := (Rat.cast_le (K := ℝ)).2 em
    push_cast at h6
    exact h6

private theorem two_near {R : ℝ} (hR : R ≤ 4 / 100) :
    NearRoot (fun x => x * x - 2) (fun x => 2 * x) (Real.sqrt 2) R (Real.sqrt 2) (272 / 100) 3 (1 / 16) := by
  have h2 : Real.sqrt 2 * Real.sqrt 2 = 2 := Real.mul_self_sqrt (by norm_num)
  have h0 : 0 ≤ Real.sqrt 2 := Real.sqrt_nonneg 2
  have hlo : 14 / 10 ≤ Real.sqrt 2 := Real.le_sqrt_of_sq_le (by norm_num)
  have hhi : Real.sqrt 2 ≤ 142 / 100 := by
    rw [Real.sqrt_le_left (by norm_num)]
    norm_num
  constructor
  · linarith
  · intro x _
    have := ((hasDerivAt_id x).mul (hasDerivAt_id x)).sub_const 2
    refine this.congr_deriv ?_
    simp
    ring
  · intro x hx
    obtain ⟨h3, h4⟩ := abs_le.1 hx
    rw [le_abs]
    left
    linarith
  · intro x hx
    obtain ⟨h3, h4⟩ := abs_le.1 hx
    rw [abs_le]
    constructor <;> linarith
  · intro x y hx hy
    obtain ⟨h3, h4⟩ := abs_le.1 hx
    obtain ⟨h5, h6⟩ := abs_le.1 hy
    rw [abs_le]
    constructor <;> linarith
  · exact (zpow_le_zpow_right₀ (by norm_num) (by norm_num : (-200 : ℤ) ≤ 0)).trans (by norm_num)
  · exact (by norm_num : (3 : ℝ) ≤ 2 ^ 2).trans (pow_le_pow_right₀ (by norm_num) (by norm_num))
  · refine (zpow_le_zpow_right₀ (by norm_num) (by norm_num : (-1022 : ℤ) ≤ 0)).trans ?_
    rw [zpow_zero]
    linarith
  · exact (hhi.trans (by norm_num : (142 / 100 : ℝ) ≤ 2 ^ 1)).trans (pow_le_pow_right₀ (by norm_num) (by norm_num))
  · rw [abs_of_nonneg h0]
  · linarith

private theorem within {R : ℝ} {EI EU S : Type} {m : UserModel F64 1 EI EU S} {inv : S → Prop} {func : F64 → F64} {ρ : ℝ}
    (h : Computes m inv (fun _ => True) (oneResidual func)) : Computes m inv (Within ρ R) (oneResidual func) :=
  ⟨fun s x hs _ => h.keeps s x hs trivial, fun s x hs _ => h.ok s x hs trivial,
    fun s x hs _ => h.iteratives s x hs trivial, fun s x hs _ => h.residuals s x hs trivial⟩

private theorem guess_near : (Demo64.ofRat (14 / 10)).IsFinite ∧
    |((Demo64.ofRat (14 / 10)).val : ℝ) - Real.sqrt 2| ≤ 3 / 100 := by
  have hlo : 14 / 10 ≤ Real.sqrt 2 := Real.le_sqrt_of_sq_le (by norm_num)
  have hhi : Real.sqrt 2 ≤ 142 / 100 := by
    rw [Real.sqrt_le_left (by norm_num)]
    norm_num
  refine ⟨by decide +kernel, ?_⟩
  have h1 : |(Demo64.ofRat (14 / 10)).val - 14 / 10| ≤ 1 / 1000 := by decide +kernel
  have h2 := (Rat.cast_le (K := ℝ)).2 h1
  push_cast at h2
  obtain ⟨h3, h4⟩ := abs_le.1 h2
  rw [abs_le]
  constructor <;> linarith

private theorem two_floor : 2 * floorOf (Real.sqrt 2) (272 / 100) (2 ^ (-50 : ℤ)) ≤ 1 / 10 ^ 14 ∧
    0 ≤ floorOf (Real.sqrt 2) (272 / 100) (2 ^ (-50 : ℤ)) := by
  have hhi : Real.sqrt 2 ≤ 142 / 100 := by
    rw [Real.sqrt_le_left (by norm_num)]
    norm_num
  unfold floorOf
  constructor
  · have h1 : (2 : ℝ) ^ (-53 : ℤ) * Real.sqrt 2 ≤ 2 ^ (-53 : ℤ) * (142 / 100) :=
      mul_le_mul_of_nonneg_left hhi (by positivity)
    have h2 : 2 * (2 * ((2 : ℝ) ^ (-50 : ℤ) / (272 / 100)) + 4 * (2 ^ (-53 : ℤ) * (142 / 100))) ≤ 1 / 10 ^ 14 := by norm_num
    have e : 4 * (2 : ℝ) ^ (-53 : ℤ) * Real.sqrt 2 = 4 * (2 ^ (-53 : ℤ) * Real.sqrt 2) := by ring
    rw [e]
    generalize (2 : ℝ) ^ (-53 : ℤ) * Real.sqrt 2 = w at *
    generalize (2 : ℝ) ^ (-53 : ℤ) * (142 / 100) = w' at *
    linarith
  · have := Real.sqrt_nonneg 2
    positivity

/-- `C95_newton` applies to `√2` from 1.4, with the tolerance `1e-10`; the derivative is computed. -/
example : Solved (Demo64.newton (14 / 10) (1 / 10 ^ 10) 40) (squareModel Scalar.two)
    (fun s => s.right = fun _ => Scalar.zero) (fun x => Fl.sub (Fl.mul x x) Fl.two) (fun x => x * x - 2) (Real.sqrt 2)
    (272 / 100) (2 ^ (-50 : ℤ)) 40 .new := by
  obtain ⟨h1, h2⟩ := two_evaluates (R := 4 / 100) (by norm_num)
  obtain ⟨hg, hgn⟩ := guess_near
  obtain ⟨hfl, hfl0⟩ := two_floor
  have hn := two_near (R := 4 / 100) le_rfl
  have htol : (Demo64.ofRat (1 / 10 ^ 10)).IsFinite ∧ 999 / 10 ^ 13 ≤ (Demo64.ofRat (1 / 10 ^ 10)).val := by decide +kernel
  have hn' : NearRoot (fun x => x * x - 2) (fun x => 2 * x) (Real.sqrt 2) (4 / 100) (Real.sqrt 2) (272 / 100) 3 (1 / 4) :=
    ⟨hn.root, hn.deriv, hn.steep, hn.bounded, fun x y hx hy => (hn.varies x y hx hy).trans (by norm_num), hn.slopeLow,
      hn.slopeHigh, hn.scaleLow, hn.scaleHigh, hn.rootSize, hn.radius⟩
  refine C95_newton ⟨rfl, rfl, rfl, rfl, rfl⟩ rfl hn' h1
    (fun x hx hxR => ⟨(h2 x hx hxR).1, (h2 x hx hxR).2.trans (mul_le_mul_of_nonneg_right (by norm_num)
      (_root_.abs_nonneg _))⟩)
    (within (fromFunctionAndJacobian_computes _ _ _)) (fromFunctionAndJacobian_differentiates _ _ _) ?_ _ rfl hg ?_ htol.1 40
    le_rfl ?_ .new rfl
  · linarith
  · linarith
  · have h3 := (Rat.cast_le (K := ℝ)).2 htol.2
    push_cast at h3
    refine le_trans ?_ h3
    have h4 : (2 : ℝ) ^ (-50 : ℤ) ≤ 1 / 10 ^ 14 := by norm_num
    have h5 : (4 / 100 : ℝ) / 2 ^ 40 ≤ 1 / 10 ^ 13 := by norm_num
    generalize (2 : ℝ) ^ (-50 : ℤ) = w at *
    linarith

/-- `C95_stationary` applies to the same equation. -/
example : Solved { Demo64.newton (14 / 10) (1 / 10 ^ 10) 40 with
      params := { (Demo64.newton (14 / 10) (1 / 10 ^ 10) 40).params with method := .QuasiNewton .StationaryNewton } }
    (squareModel Scalar.two) (fun s => s.right = fun _ => Scalar.zero) (fun x => Fl.sub (Fl.mul x x) Fl.two)
    (fun x => x * x - 2) (Real.sqrt 2) (272 / 100) (2 ^ (-50 : ℤ)) 40 .new := by
  obtain ⟨h1, h2⟩ := two_evaluates (R := 4 / 100) (by norm_num)
  obtain ⟨hg, hgn⟩ := guess_near
  obtain ⟨hfl, hfl0⟩ := two_floor
  have htol : (Demo64.ofRat (1 / 10 ^ 10)).IsFinite ∧ 999 / 10 ^ 13 ≤ (Demo64.ofRat (1 / 10 ^ 10)).val := by decide +kernel
  refine C95_stationary ⟨rfl, rfl, rfl, rfl, rfl⟩ rfl (two_near (R := 4 / 100) le_rfl) h1
    (fun x hx hxR => ⟨(h2 x hx hxR).1, (h2 x hx hxR).2.trans (mul_le_mul_of_nonneg_right (by norm_num)
      (_root_.abs_nonneg _))⟩)
    (within (fromFunctionAndJacobian_computes _ _ _)) (fromFunctionAndJacobian_differentiates _ _ _) ?_ _ rfl hg ?_ htol.1 40
    le_rfl ?_ .new rfl
  · linarith
  · linarith
  · have h3 := (Rat.cast_le (K := ℝ)).2 htol.2
    push_cast at h3
    refine le_trans ?_ h3
    have h4 : (2 : ℝ) ^ (-50 : ℤ) ≤ 1 / 10 ^ 14 := by norm_num
    have h5 : (4 / 100 : ℝ) / 2 ^ 40 ≤ 1 / 10 ^ 13 := by norm_num
    generalize (2 : ℝ) ^ (-50 : ℤ) = w at *
    linarith

/-- `C95_default`, and so `C95_differences`, applies to `√2` from 1.4 with finite differences: the model is `square2`. -/
example : ∃ (r : ResidualsConfig) (h : r.length = r.stoppingCriterias.length ∧ r.length = r.updateMethods.length)
    (c : Config F64 1), defaultWithGuess [Demo64.ofRat (14 / 10)]
      ((defaultVecIterativesFd 1).map IterativeParamsFD.toIterative) r h .NewtonRaphson false (nalgebraLinAlg F64) = .ok c ∧
    Solved c (fromFunction TestCases.square2) (fun s => s.right = fun _ => Scalar.zero) (fun x => Fl.sub (Fl.mul x x) Fl.two)
      (fun x => x * x - 2) (Real.sqrt 2) (272 / 100) (2 ^ (-50 : ℤ)) 50 .new := by
  obtain ⟨h1, h2⟩ := two_evaluates (R := 4 / 100) (by norm_num)
  obtain ⟨hg, hgn⟩ := guess_near
  obtain ⟨hfl, hfl0⟩ := two_floor
  have hlo : 14 / 10 ≤ Real.sqrt 2 := Real.le_sqrt_of_sq_le (by norm_num)
  have hhi : Real.sqrt 2 ≤ 142 / 100 := by
    rw [Real.sqrt_le_left (by norm_num)]
    norm_num
  have hW : max 1 |Real.sqrt 2| = Real.sqrt 2 := by
    rw [abs_of_nonneg (Real.sqrt_nonneg 2), max_eq_right (by linarith)]
  have h4 : (2 : ℝ) ^ (-50 : ℤ) ≤ 1 / 10 ^ 14 := by norm_num
  refine ⟨⟨[.Abs], [.Abs], 1⟩, ⟨rfl, rfl⟩, _, rfl, ?_⟩
  refine C95_default (two_near (R := 4 / 100) le_rfl) h1 (within (fromFunction_computes _ _)) (fromFunction_underived _ _)
    (r := 3 / 100) ?_ ?_ ?_ ?_ ?_ (Demo64.ofRat (14 / 10)) hg hgn ?_ ⟨[.Abs], [.Abs], 1⟩ rfl ⟨rfl, rfl⟩ rfl .new rfl
  · rw [hW]
    linarith
  · rw [hW]
    linarith
  · rw [hW]
    linarith
  · rw [hW]
    generalize (2 : ℝ) ^ (-50 : ℤ) = w at *
    linarith
  · rw [hW]
    linarith
  · rw [hW]
    have h5 : (3 / 100 : ℝ) / 2 ^ 50 ≤ 1 / 10 ^ 13 := by norm_num
    generalize (2 : ℝ) ^ (-50 : ℤ) = w at *
    linarith

/-- The root may be zero: the equation `x = 0` from 0.5, with the scale 1. -/
example : Solved (Demo64.newton (1 / 2) (1 / 10 ^ 10) 40) (fromFunctionAndJacobian (fun x _ => x 0) fun _ _ _ => Fl.one)
    (fun s => s.right = fun _ => Scalar.zero) (fun x => x) (fun x => x) 0 1 0 40 .new := by
  have hn : NearRoot (fun x => x) (fun _ => 1) 0 1 1 1 1 (1 / 4) := by
    refine ⟨rfl, fun x _ => hasDerivAt_id x, fun x _ => by norm_num, fun x _ => by norm_num, fun x y _ _ => by norm_num, ?_,
      one_le_pow₀ (by norm_num), ?_, one_le_pow₀ (by norm_num), by norm_num, le_rfl⟩
    · exact (zpow_le_zpow_right₀ (by norm_num) (by norm_num : (-200 : ℤ) ≤ 0)).trans (by norm_num)
    · exact (zpow_le_zpow_right₀ (by norm_num) (by norm_num : (-1022 : ℤ) ≤ 0)).trans (by norm_num)
  have htol : (Demo64.ofRat (1 / 10 ^ 10)).IsFinite ∧ 999 / 10 ^ 13 ≤ (Demo64.ofRat (1 / 10 ^ 10)).val := by decide +kernel
  have hg : (Demo64.ofRat (1 / 2)).IsFinite ∧ (Demo64.ofRat (1 / 2)).val = 1 / 2 := by decide +kernel
  have he : Evaluates (fun x : F64 => x) (fun x => x) 0 1 0 := fun x hx _ => ⟨hx, by simp⟩
  have hd : EvaluatesSlope (fun _ => (Fl.one : F64)) (fun _ => 1) 0 1 (1 / 8) :=
    fun x _ _ => ⟨trivial, by norm_num [Fl.one, Fl.val]⟩
  refine C95_newton (c := Demo64.newton (1 / 2) (1 / 10 ^ 10) 40) ⟨rfl, rfl, rfl, rfl, rfl⟩ rfl hn he hd
    (within (fromFunctionAndJacobian_computes _ _ _)) (fromFunctionAndJacobian_differentiates _ _ _) ?_ _ rfl hg.1 ?_ htol.1 40
    le_rfl ?_ .new rfl
  · unfold floorOf
    norm_num
  · change |((Demo64.ofRat (1 / 2)).val : ℝ) - 0| ≤ 1
    rw [hg.2]
    norm_num
  · have h3 := (Rat.cast_le (K := ℝ)).2 htol.2
    push_cast at h3
    refine le_trans ?_ h3
    unfold floorOf
    norm_num

end
end Nrf

import Verif.Proofs.QuotientFloat
import Verif.Props.C95
import Verif.Props.C96
import Verif.Props.C52

/-!
# C97: systems of equations in binary64 with nalgebra's LU inverse
-/

set_option linter.unusedSectionVars false

namespace Nrf
open Spec Fl

section
variable {n : Nat} {Φ : (Fin n → ℝ) → Fin n → ℝ} {A B : Matrix (Fin n) (Fin n) ℝ} {ρ : Fin n → ℝ} {R σ L ω α β ε η : ℝ}
variable {c : Config F64 n} {EI EU S : Type} {m : UserModel F64 n EI EU S} {inv : S → Prop}
variable {f : Vec F64 n → ResidualsValues F64 n} {g : Vec F64 n → JacobianValues F64 n}

/-- The LU inverse with partial pivoting, in binary64.  The matrix `A` has entries of at most `α` and its inverse rows of at
most `β`; `J` is a finite matrix of doubles whose rows differ from those of `A` by at most `η`, with `β η ≤ 1 / 16`.  Then the
inverse is found, all its entries are finite, its rows are at most `5 β / 4`, and it inverts `A` up to one eighth. -/
theorem C97_inverse (hw : WellPosed A B α β) {J : Mat F64 n} (hJ : ∀ i j, (J i j).IsFinite)
    (hη : ∀ i, ∑ j, |A i j - ((J i j).val : ℝ)| ≤ η) (hβη : β * η ≤ 1 / 16) :
    ∃ C, luInverse J = some C ∧ ApproxInverse A (5 / 4 * β) C :=
  luInverse_approx hw hJ hη hβη

/-- Newton-Raphson with a Jacobian and the LU inverse: as `C96_newton`, where instead of the accuracy of the inverse it is
enough to know that the Jacobian the model computes near the root is within `η` of `A`. -/
theorem C97_newton (hn : n ≤ 2 ^ 40) (hc : SystemDefault c) (hdot : AccurateDot c.la) (hla : c.la.inv = luInverse)
    (hmeth : c.params.method = .NewtonRaphson) (h : NearSystem Φ A ρ R σ L ω) (hw : WellPosed A B α β)
    (hβ : Conditioned n (5 / 4 * β) L ω) (he : EvaluatesSystem f Φ ρ R ε) (hf : Computes m inv (Near ρ R) f)
    (hg : Differentiates m inv f g)
    (hJ : ∀ x, Near ρ R x → (∀ i j, (jacobianDifferences g x i j).IsFinite) ∧
      ∀ i, ∑ j, |A i j - ((jacobianDifferences g x i j).val : ℝ)| ≤ η) (hη : β * η ≤ 1 / 16)
    (hδ : 2 * systemFloor σ (5 / 4 * β) ε ≤ R) (hguess : Near ρ R c.guess) (ht : c.params.tolerance.IsFinite) (N : Nat)
    (hN : N ≤ c.params.maxIter)
    (htol : L * (R / 2 ^ N + 2 * systemFloor σ (5 / 4 * β) ε) + ε ≤ c.params.tolerance.val) (s : S) (hs : inv s) :
    SystemSolved c m inv f Φ ρ (5 / 4 * β) ε N s := by
  refine C96_newton hn hc hdot hmeth h hβ he hf hg ?_ hδ hguess ht N hN htol s hs
  intro x hx
  rw [hla]
  exact C97_inverse hw (hJ x hx).1 (hJ x hx).2 hη

/-- Stationary Newton with a Jacobian and the LU inverse. -/
theorem C97_stationary (hn : n ≤ 2 ^ 40) (hc : SystemDefault c) (hdot : AccurateDot c.la) (hla : c.la.inv = luInverse)
    (hmeth : c.params.method = .QuasiNewton .StationaryNewton) (h : NearSystem Φ A ρ R σ L ω) (hw : WellPosed A B α β)
    (hβ : Conditioned n (5 / 4 * β) L ω) (he : EvaluatesSystem f Φ ρ R ε) (hf : Computes m inv (Near ρ R) f)
    (hg : Differentiates m inv f g) (hJ : ∀ i j, (jacobianDifferences g c.guess i j).IsFinite)
    (hη : ∀ i, ∑ j, |A i j - ((jacobianDifferences g c.guess i j).val : ℝ)| ≤ η) (hβη : β * η ≤ 1 / 16)
    (hδ : 2 * systemFloor σ (5 / 4 * β) ε ≤ R) (hguess : Near ρ R c.guess) (ht : c.params.tolerance.IsFinite) (N : Nat)
    (hN : N ≤ c.params.maxIter)
    (htol : L * (R / 2 ^ N + 2 * systemFloor σ (5 / 4 * β) ε) + ε ≤ c.params.tolerance.val) (s : S) (hs : inv s) :
    SystemSolved c m inv f Φ ρ (5 / 4 * β) ε N s := by
  obtain ⟨C, h1, h2⟩ := C97_inverse hw hJ hη hβη
  exact C96_stationary hn hc hdot hmeth h hβ he hf hg (by rw [hla]; exact h1) h2 hδ hguess ht N hN htol s hs

/-- Newton-Raphson with finite differences and the LU inverse.  The perturbations are between `lo` and `hi`; their errors,
collected in `quotientError`, have to be small against the inverse.  The step is taken from the last shifted point, which adds
`9 hi / 16` to the floor. -/
theorem C97_differences {r lo hi K : ℝ} (hn : n ≤ 2 ^ 40) (hc : SystemDefault c) (hdot : AccurateDot c.la)
    (hla : c.la.inv = luInverse) (hmeth : c.params.method = .NewtonRaphson) (h : NearSystem Φ A ρ R σ L ω)
    (hl : NearLinear Φ A ρ R ω) (hw : WellPosed A B α β) (hβ : Conditioned n (5 / 4 * β) L ω)
    (he : EvaluatesSystem f Φ ρ R ε) (hf : Computes m inv (Near ρ R) f) (hu : Underived m inv f)
    (hp : Perturbs c ρ r lo hi K) (hlo : 0 < lo) (hhi : 0 ≤ hi) (hK : K ≤ 2 ^ 45) (hr : r + 9 / 8 * hi ≤ R)
    (hq : β * quotientError n α ω ε lo K ≤ 1 / 16)
    (hδ : 2 * (systemFloor σ (5 / 4 * β) ε + 9 / 8 * hi / 2) ≤ r) (hguess : Near ρ r c.guess)
    (ht : c.params.tolerance.IsFinite) (N : Nat) (hN : N ≤ c.params.maxIter)
    (htol : L * (r / 2 ^ N + 2 * (systemFloor σ (5 / 4 * β) ε + 9 / 8 * hi / 2)) + ε ≤ c.params.tolerance.val)
    (s : S) (hs : inv s) : SystemSolved c m inv f Φ ρ (5 / 4 * β) ε N s := by
  have hh0 : 0 ≤ 9 / 8 * hi := by positivity
  refine system_newton hn hc hdot hmeth h hβ he hf hh0 hr ?_ hδ hguess ht N hN htol s hs
  intro x hx
  obtain ⟨p, C, hgq⟩ := good_quotients hw h hl he hla hp hlo hK hr hq hx
  obtain ⟨z, h1, h2, h3⟩ := system_obtains_fd hc hf hu hh0 hr hx hgq
  exact ⟨C, z, h1, hgq.approx, h2, h3⟩

/-- Stationary Newton with finite differences and the LU inverse. -/
theorem C97_stationary_differences {r lo hi K : ℝ} (hn : n ≤ 2 ^ 40) (hc : SystemDefault c) (hdot : AccurateDot c.la)
    (hla : c.la.inv = luInverse) (hmeth : c.params.method = .QuasiNewton .StationaryNewton)
    (h : NearSystem Φ A ρ R σ L ω) (hl : NearLinear Φ A ρ R ω) (hw : WellPosed A B α β)
    (hβ : Conditioned n (5 / 4 * β) L ω) (he : EvaluatesSystem f Φ ρ R ε) (hf : Computes m inv (Near ρ R) f)
    (hu : Underived m inv f) (hp : Perturbs c ρ r lo hi K) (hlo : 0 < lo) (hhi : 0 ≤ hi) (hK : K ≤ 2 ^ 45)
    (hr : r + 9 / 8 * hi ≤ R) (hq : β * quotientError n α ω ε lo K ≤ 1 / 16)
    (hδ : 2 * systemFloor σ (5 / 4 * β) ε ≤ R) (hguess : Near ρ r c.guess)
    (ht : c.params.tolerance.IsFinite) (N : Nat) (hN : N ≤ c.params.maxIter)
    (htol : L * (R / 2 ^ N + 2 * systemFloor σ (5 / 4 * β) ε) + ε ≤ c.params.tolerance.val)
    (s : S) (hs : inv s) : SystemSolved c m inv f Φ ρ (5 / 4 * β) ε N s := by
  obtain ⟨p, C, hgq⟩ := good_quotients hw h hl he hla hp hlo hK hr hq hguess
  exact C96_stationary_differences hn hc hdot hmeth h hβ he hf hu (by positivity) hr hgq hδ hguess ht N hN htol s hs

theorem get_of_eq {T : Type} {o : Option T} {a : T} (h : o = some a) (hs) : o.get hs = a := by
  subst h
  rfl

/-- The default perturbations. -/
theorem C97_perturbations {r : ℝ} (hp : ∀ i, (c.iters i).computePerturbation = some IterativeParamsFD.default.computePerturbation)
    (hρ : ‖ρ‖ ≤ σ) (hr : r ≤ σ) (hσ : σ ≤ 2 ^ 200) :
    Perturbs c ρ r (499 / 10 ^ 10) (501 / 10 ^ 10 * max 1 (2 * σ)) (2 ^ 25) := by
  intro x hx
  have hall : ∀ i, (c.iters i).computePerturbation.isSome := fun i => by rw [hp i]; rfl
  refine ⟨fun i => IterativeParamsFD.default.computePerturbation (x i), ?_, fun j => ?_⟩
  · unfold computePerturbations
    rw [dif_pos hall]
    refine congrArg some (funext fun i => ?_)
    rw [get_of_eq (hp i)]
  · have hxj : |((x j).val : ℝ)| ≤ 2 * σ := by
      have h1 := norm_le_pi_norm (reals x) j
      have h2 := norm_sub_norm_le (reals x) ρ
      have h3 := hx.2
      rw [Real.norm_eq_abs] at h1
      change |((x j).val : ℝ)| ≤ _ at h1
      linarith
    have hx1 : |(x j).val| ≤ 2 ^ 300 := by
      have h1 : ((|(x j).val| : ℚ) : ℝ) ≤ ((2 ^ 300 : ℚ) : ℝ) := by
        push_cast
        have h2 : (2 : ℝ) ^ 201 = 2 * 2 ^ 200 := by rw [pow_succ]; ring
        have h3 : (2 : ℝ) ^ 201 ≤ 2 ^ 300 := pow_le_pow_right₀ (by norm_num) (by norm_num)
        rw [h2] at h3
        generalize (2 : ℝ) ^ 200 = p at *
        generalize (2 : ℝ) ^ 300 = p' at *
        linarith
      exact (Rat.cast_le (K := ℝ)).1 h1
    obtain ⟨h1, h2, h3⟩ := default_pert (hx.1 j) hx1
    have h2' := (Rat.cast_le (K := ℝ)).2 h2
    have h3' := (Rat.cast_le (K := ℝ)).2 h3
    push_cast at h2' h3'
    have h4 : (1 : ℝ) ≤ max 1 |((x j).val : ℝ)| := le_max_left _ _
    have h5 : |((x j).val : ℝ)| ≤ max 1 |((x j).val : ℝ)| := le_max_right _ _
    refine ⟨h1, ?_, h3'.trans (mul_le_mul_of_nonneg_left (max_le_max le_rfl hxj) (by norm_num)), ?_⟩
    · linarith
    · have : (2 : ℝ) ^ 25 = 33554432 := by norm_num
      rw [this]
      linarith

/-- With the solver of `default_with_guess` (tolerance `1e-6`, 50 iterations, Newton-Raphson), the default iteratives with
finite differences, default residuals and nalgebra's linear algebra (whose products are modelled up to dimension 5; beyond, use
`C97_differences`): what has to be known about the system. -/
theorem C97_default {gs : List F64} {Φ : (Fin gs.length → ℝ) → Fin gs.length → ℝ}
    {A B : Matrix (Fin gs.length) (Fin gs.length) ℝ} {ρ : Fin gs.length → ℝ} {c : Config F64 gs.length}
    {m : UserModel F64 gs.length EI EU S} {f : Vec F64 gs.length → ResidualsValues F64 gs.length} {r : ℝ}
    (hn : gs.length ≤ 2 ^ 40) (h : NearSystem Φ A ρ R σ L ω) (hl : NearLinear Φ A ρ R ω) (hw : WellPosed A B α β)
    (hβ : Conditioned gs.length (5 / 4 * β) L ω) (he : EvaluatesSystem f Φ ρ R ε) (hf : Computes m inv (Near ρ R) f)
    (hu : Underived m inv f) (hr : r + 6 / 10 ^ 8 * max 1 (2 * σ) ≤ R)
    (hq : β * quotientError gs.length α ω ε (499 / 10 ^ 10) (2 ^ 25) ≤ 1 / 16)
    (hδ : 2 * systemFloor σ (5 / 4 * β) ε + 6 / 10 ^ 8 * max 1 (2 * σ) ≤ r)
    (hguess : Near ρ r fun i => gs.get i)
    (htol : L * (r / 2 ^ 50 + 2 * systemFloor σ (5 / 4 * β) ε + 6 / 10 ^ 8 * max 1 (2 * σ)) + ε ≤ 999999 / 10 ^ 12)
    (rc : ResidualsConfig) (hrc : ResidualsConfig.new (convertIntoVecs (defaultVecResiduals gs.length)).1
      (convertIntoVecs (defaultVecResiduals gs.length)).2 = some rc) (hlen)
    (hc : defaultWithGuess gs ((defaultVecIterativesFd gs.length).map IterativeParamsFD.toIterative) rc hlen .NewtonRaphson
      false (nalgebraLinAlg F64) = .ok c) (s : S) (hs : inv s) :
    SystemSolved c m inv f Φ ρ (5 / 4 * β) ε 50 s := by
  rw [C52_default_residuals] at hrc
  have hrc' : rc = ⟨List.replicate gs.length .Abs, List.replicate gs.length .Abs, (List.replicate gs.length NormalizationMethod.Abs).length⟩ := by
    unfold ResidualsConfig.new at hrc
    rw [if_neg (by simp)] at hrc
    exact (Option.some.inj hrc).symm
  have hd : SystemDefault c ∧ c.params.method = .NewtonRaphson ∧ c.guess = (fun i => gs.get i) ∧
      c.params.tolerance = Scalar.dec 1 6 ∧ c.params.maxIter = 50 ∧ c.la = nalgebraLinAlg F64 gs.length ∧
      ∀ i, (c.iters i).computePerturbation = some IterativeParamsFD.default.computePerturbation := by
    subst hrc'
    unfold defaultWithGuess Config.new at hc
    rw [dif_neg (by simp [defaultParameters]), dif_neg (by simp [defaultParameters]),
      dif_neg (by simp [defaultParameters, defaultVecIterativesFd])] at hc
    have hc' := Except.ok.inj hc
    subst hc'
    refine ⟨⟨rfl, fun i => ?_, fun i => ?_, fun i => ?_⟩, rfl, rfl, rfl, rfl, rfl, fun i => ?_⟩
    · exact List.getElem_replicate _
    · exact List.getElem_replicate _
    · simp only [List.getElem_map, defaultVecIterativesFd, List.getElem_replicate]
      rfl
    · simp only [List.getElem_map, defaultVecIterativesFd, List.getElem_replicate]
      rfl
  obtain ⟨hd, hmeth, hgs, htl, hmax, hla, hp⟩ := hd
  obtain ⟨ht, ht0, -⟩ := default_tolerance
  have ht0' := (Rat.cast_le (K := ℝ)).2 ht0
  push_cast at ht0'
  have hW1 : 1 ≤ max 1 (2 * σ) := le_max_left _ _
  have hL := h.slopeLow
  have hWp := C97_perturbations (r := r) hp h.rootSize (by
    have := h.radius
    linarith) h.scaleHigh
  generalize max 1 (2 * σ) = W at *
  refine C97_differences hn hd (by rw [hla]; exact C96_dot hn) (by rw [hla]; rfl) hmeth h hl hw hβ he hf hu hWp
    (by norm_num) (by positivity) (by norm_num) (by linarith) hq (by linarith) (by rw [hgs]; exact hguess)
    (by rw [htl]; exact ht) 50 hmax.ge ?_ s hs
  rw [htl]
  refine le_trans ?_ ht0'
  refine le_trans (add_le_add_left (mul_le_mul_of_nonneg_left ?_ hL) _) htol
  linarith

end

/-! ## The system `2 x + y = 3`, `x + y = 2` -/

private def lineInverse : Matrix (Fin 2) (Fin 2) ℝ := fun i j => if i ≠ j then -1 else if i = 0 then 1 else 2

private theorem line_wellPosed : WellPosed lineMatrix lineInverse 2 3 := by
  refine ⟨?_, ?_, ?_, ?_, ?_, ?_⟩
  · funext i j
    rw [Matrix.mul_apply, Fin.sum_univ_two]
    fin_cases i <;> fin_cases j <;> norm_num [lineMatrix, lineInverse, Matrix.one_apply]
  · intro i j
    fin_cases i <;> fin_cases j <;> norm_num [lineMatrix]
  · intro i
    rw [Fin.sum_univ_two]
    fin_cases i <;> norm_num [lineInverse]
  · exact (by norm_num : (2 : ℝ) ≤ 2 ^ 1).trans (pow_le_pow_right₀ (by norm_num) (by norm_num))
  · exact (by norm_num : (3 : ℝ) ≤ 2 ^ 2).trans (pow_le_pow_right₀ (by norm_num) (by norm_num))
  · norm_num

private theorem line_conditioned' : Conditioned 2 (5 / 4 * 3) 3 0 :=
  ⟨by norm_num, (by norm_num : (5 / 4 * 3 : ℝ) ≤ 2 ^ 2).trans (pow_le_pow_right₀ (by norm_num) (by norm_num)), by norm_num,
    by norm_num⟩

private def slopesb (J : Mat F64 2) : Bool :=
  decide (∀ i j, decide (J i j).IsFinite = true) && decide (∀ i j, (J i j).val = if i = 0 ∧ j = 0 then 2 else 1)

private theorem slopesb_spec {J : Mat F64 2} (h : slopesb J = true) :
    (∀ i j, (J i j).IsFinite) ∧ ∀ i j, (J i j).val = if i = 0 ∧ j = 0 then 2 else 1 := by
  unfold slopesb at h
  rw [Bool.and_eq_true, decide_eq_true_iff, decide_eq_true_iff] at h
  exact ⟨fun i j => of_decide_eq_true (h.1 i j), h.2⟩

private theorem slopes_close : (∀ i j, (jacobianDifferences (fun _ => ⟨Demo64.slopes, mzero⟩ : Vec F64 2 → _) (fun _ => Fl.one) i j).IsFinite) ∧
    ∀ i j, (jacobianDifferences (fun _ => ⟨Demo64.slopes, mzero⟩ : Vec F64 2 → _) (fun _ => Fl.one) i j).val =
      if i = 0 ∧ j = 0 then 2 else 1 := slopesb_spec (by decide +kernel)

private theorem slopes_row (x : Vec F64 2) : (∀ i j, (jacobianDifferences (fun _ => ⟨Demo64.slopes, mzero⟩ : Vec F64 2 → _) x i j).IsFinite) ∧
    ∀ i, ∑ j, |lineMatrix i j - ((jacobianDifferences (fun _ => ⟨Demo64.slopes, mzero⟩ : Vec F64 2 → _) x i j).val : ℝ)| ≤ 0 := by
  refine ⟨slopes_close.1, fun i => ?_⟩
  refine (Finset.sum_eq_zero fun j _ => ?_).le
  have e : (jacobianDifferences (fun _ => ⟨Demo64.slopes, mzero⟩ : Vec F64 2 → _) x i j).val = if i = 0 ∧ j = 0 then 2 else 1 :=
    slopes_close.2 i j
  rw [e]
  unfold lineMatrix
  split_ifs <;> norm_num

/-- `C97_inverse` applies to the matrix of this system. -/
example : ∃ C, luInverse Demo64.slopes = some C ∧ ApproxInverse lineMatrix (5 / 4 * 3) C := by
  have h : (∀ i j, (Demo64.slopes i j).IsFinite) ∧ ∀ i j, (Demo64.slopes i j).val = if i = 0 ∧ j = 0 then 2 else 1 :=
    slopesb_spec (by decide +kernel)
  refine C97_inverse (η := 0) line_wellPosed h.1 (fun i => (Finset.sum_eq_zero fun j _ => ?_).le) (by norm_num)
  rw [h.2 i j]
  unfold lineMatrix
  split_ifs <;> norm_num

/-- `C97_newton` applies to this system. -/
example : SystemSolved (Demo64.pair .NewtonRaphson) (fromFunctionAndJacobian Demo64.lines fun _ => Demo64.slopes)
    (fun s => s.right = Demo64.sides) (fun x => ⟨Demo64.lines x, Demo64.sides⟩) linePhi (fun _ => 1) (5 / 4 * 3) (2 ^ (-48 : ℤ)) 45
    { AdapterState.new with right := Demo64.sides } := by
  refine C97_newton (by norm_num) ⟨rfl, fun _ => rfl, fun _ => rfl, fun _ => rfl⟩ (C96_dot (by norm_num)) rfl rfl line_near
    line_wellPosed line_conditioned' line_evaluates (near_all (fromFunctionAndJacobian_computes _ _ _))
    (fromFunctionAndJacobian_differentiates _ _ _) (fun x _ => slopes_row x) (by norm_num) ?_
    ⟨(pair_guess _).1, (pair_guess _).2.trans (by norm_num)⟩ pair_tolerance.1 45 (by change 45 ≤ 50; norm_num) ?_ _ rfl
  · unfold systemFloor
    norm_num
  · have h3 := (Rat.cast_le (K := ℝ)).2 pair_tolerance.2
    push_cast at h3
    refine le_trans ?_ h3
    unfold systemFloor
    norm_num

/-- `C97_stationary` applies to this system. -/
example : SystemSolved (Demo64.pair (.QuasiNewton .StationaryNewton)) (fromFunctionAndJacobian Demo64.lines fun _ => Demo64.slopes)
    (fun s => s.right = Demo64.sides) (fun x => ⟨Demo64.lines x, Demo64.sides⟩) linePhi (fun _ => 1) (5 / 4 * 3) (2 ^ (-48 : ℤ)) 45
    { AdapterState.new with right := Demo64.sides } := by
  refine C97_stationary (by norm_num) ⟨rfl, fun _ => rfl, fun _ => rfl, fun _ => rfl⟩ (C96_dot (by norm_num)) rfl rfl line_near
    line_wellPosed line_conditioned' line_evaluates (near_all (fromFunctionAndJacobian_computes _ _ _))
    (fromFunctionAndJacobian_differentiates _ _ _) (slopes_row _).1 (slopes_row _).2 (by norm_num) ?_
    ⟨(pair_guess _).1, (pair_guess _).2.trans (by norm_num)⟩ pair_tolerance.1 45 (by change 45 ≤ 50; norm_num) ?_ _ rfl
  · unfold systemFloor
    norm_num
  · have h3 := (Rat.cast_le (K := ℝ)).2 pair_tolerance.2
    push_cast at h3
    refine le_trans ?_ h3
    unfold systemFloor
    norm_num

private theorem line_change : NearLinear linePhi lineMatrix (fun _ => 1) 1 0 := by
  refine ⟨fun x y _ _ => ?_, le_rfl⟩
  have e : linePhi x - linePhi y - lineMatrix.mulVec (x - y) = 0 := by
    funext i
    fin_cases i <;> simp [linePhi, lineMatrix, Matrix.mulVec, dotProduct, Fin.sum_univ_two] <;> ring_nf
  rw [e, norm_zero, zero_mul]

private theorem line_error : 3 * quotientError 2 2 0 (2 ^ (-48 : ℤ)) (499 / 10 ^ 10) (2 ^ 25) ≤ 1 / 16 := by
  unfold quotientError
  norm_num

private theorem pair_perturbs (method : ResolutionMethod) :
    Perturbs (Demo64.pair method) (fun _ => 1) (3 / 4) (499 / 10 ^ 10) (501 / 10 ^ 10 * max 1 (2 * 1)) (2 ^ 25) :=
  C97_perturbations (fun _ => rfl) line_near.rootSize (by norm_num) line_near.scaleHigh

/-- `C97_stationary_differences` applies to this system. -/
example : SystemSolved (Demo64.pair (.QuasiNewton .StationaryNewton)) (fromFunction Demo64.lines)
    (fun s => s.right = Demo64.sides) (fun x => ⟨Demo64.lines x, Demo64.sides⟩) linePhi (fun _ => 1) (5 / 4 * 3) (2 ^ (-48 : ℤ)) 45
    { AdapterState.new with right := Demo64.sides } := by
  refine C97_stationary_differences (by norm_num) ⟨rfl, fun _ => rfl, fun _ => rfl, fun _ => rfl⟩
    (C96_dot (by norm_num)) rfl rfl line_near line_change line_wellPosed line_conditioned' line_evaluates
    (near_all (fromFunction_computes _ _)) (fromFunction_underived _ _) (pair_perturbs _) (by norm_num) (by norm_num)
    (by norm_num) (by norm_num) line_error ?_ (pair_guess _) pair_tolerance.1 45
    (by change 45 ≤ 50; norm_num) ?_ _ rfl
  · unfold systemFloor
    norm_num
  · have h3 := (Rat.cast_le (K := ℝ)).2 pair_tolerance.2
    push_cast at h3
    refine le_trans ?_ h3
    unfold systemFloor
    norm_num

/-- `C97_differences` applies to this system with a tolerance of `1e-6`. -/
example : SystemSolved { Demo64.pair .NewtonRaphson with
      params := { problemSize := 2, tolerance := Scalar.dec 1 6, maxIter := 50, method := .NewtonRaphson, damping := false } }
    (fromFunction Demo64.lines) (fun s => s.right = Demo64.sides) (fun x => ⟨Demo64.lines x, Demo64.sides⟩) linePhi (fun _ => 1)
    (5 / 4 * 3) (2 ^ (-48 : ℤ)) 45 { AdapterState.new with right := Demo64.sides } := by
  refine C97_differences (c := { Demo64.pair .NewtonRaphson with
      params := { problemSize := 2, tolerance := Scalar.dec 1 6, maxIter := 50, method := .NewtonRaphson, damping := false } })
    (r := 3 / 4) (by norm_num) ⟨rfl, fun _ => rfl, fun _ => rfl, fun _ => rfl⟩
    (C96_dot (by norm_num)) rfl rfl line_near line_change line_wellPosed line_conditioned' line_evaluates
    (near_all (fromFunction_computes _ _)) (fromFunction_underived _ _)
    (C97_perturbations (fun _ => rfl) line_near.rootSize (by norm_num) line_near.scaleHigh) (by norm_num) (by norm_num)
    (by norm_num) (by norm_num) line_error ?_ (pair_guess .NewtonRaphson) default_tolerance.1 45
    (by change 45 ≤ 50; norm_num) ?_ _ rfl
  · unfold systemFloor
    norm_num
  · have h3 := (Rat.cast_le (K := ℝ)).2 default_tolerance.2.1
    push_cast at h3
    refine le_trans ?_ h3
    unfold systemFloor
    norm_num

/-- `C97_default` applies to this system. -/
example : ∃ c, defaultWithGuess [Demo64.ofRat (3 / 2), Demo64.ofRat (1 / 4)]
      ((defaultVecIterativesFd 2).map IterativeParamsFD.toIterative) ⟨[.Abs, .Abs], [.Abs, .Abs], 2⟩ ⟨rfl, rfl⟩ .NewtonRaphson
      false (nalgebraLinAlg F64) = .ok c ∧
    SystemSolved c (fromFunction Demo64.lines) (fun s => s.right = Demo64.sides) (fun x => ⟨Demo64.lines x, Demo64.sides⟩)
      linePhi (fun _ => 1) (5 / 4 * 3) (2 ^ (-48 : ℤ)) 50 { AdapterState.new with right := Demo64.sides } := by
  refine ⟨_, rfl, C97_default (gs := [Demo64.ofRat (3 / 2), Demo64.ofRat (1 / 4)]) (r := 3 / 4) (by norm_num) line_near line_change
    line_wellPosed line_conditioned' line_evaluates (near_all (fromFunction_computes _ _)) (fromFunction_underived _ _)
    (by norm_num) line_error ?_ ?_ ?_ ⟨[.Abs, .Abs], [.Abs, .Abs], 2⟩ (by decide) ⟨rfl, rfl⟩ rfl _ rfl⟩
  · unfold systemFloor
    norm_num
  · have e : (fun i => [Demo64.ofRat (3 / 2), Demo64.ofRat (1 / 4)].get i) = (Demo64.pair .NewtonRaphson).guess := by
      funext i
      fin_cases i <;> rfl
    rw [e]
    exact pair_guess .NewtonRaphson
  · unfold systemFloor
    norm_num

end Nrf

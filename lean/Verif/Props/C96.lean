import Verif.Proofs.SystemRun
import Verif.Props.C93

/-!
# C96: systems of equations in binary64, evaluated with limited accuracy
-/

set_option linter.unusedSectionVars false

namespace Nrf
open Spec Fl

section
variable {n : Nat} {Φ : (Fin n → ℝ) → Fin n → ℝ} {A : Matrix (Fin n) (Fin n) ℝ} {ρ : Fin n → ℝ} {R σ L ω β ε : ℝ}
variable {c : Config F64 n} {EI EU S : Type} {m : UserModel F64 n EI EU S} {inv : S → Prop}
variable {f : Vec F64 n → ResidualsValues F64 n} {g : Vec F64 n → JacobianValues F64 n}

/-- nalgebra's matrix-vector products sum accurately. -/
theorem C96_dot (hn : n ≤ 2 ^ 40) : AccurateDot (nalgebraLinAlg F64 n) :=
  fun a b ha hb h => gemvDot_error hn a b ha hb h

/-- Newton-Raphson with a Jacobian.  `Φ` is any system with a root `ρ` around which it is almost linear; the model computes
it in binary64 with an error of at most `ε`; at every finite vector within `R` of the root, the linear algebra finds an
approximate inverse.  From every finite guess within `R`, the solve succeeds after at most `N` iterations as soon as the
tolerance is above `L (R / 2ᴺ + 2 δ) + ε`, where `δ = 2 β ε + 2⁻⁵² σ`; the real value of the system at the solution is within
the tolerance plus `ε`, and its distance to the root within `4 β / 3` times that. -/
theorem C96_newton (hn : n ≤ 2 ^ 40) (hc : SystemDefault c) (hdot : AccurateDot c.la) (hmeth : c.params.method = .NewtonRaphson)
    (h : NearSystem Φ A ρ R σ L ω) (hw : Conditioned n β L ω) (he : EvaluatesSystem f Φ ρ R ε)
    (hf : Computes m inv (Near ρ R) f) (hg : Differentiates m inv f g)
    (hinv : ∀ x, Near ρ R x → ∃ C, c.la.inv (jacobianDifferences g x) = some C ∧ ApproxInverse A β C)
    (hδ : 2 * systemFloor σ β ε ≤ R) (hguess : Near ρ R c.guess) (ht : c.params.tolerance.IsFinite) (N : Nat)
    (hN : N ≤ c.params.maxIter) (htol : L * (R / 2 ^ N + 2 * systemFloor σ β ε) + ε ≤ c.params.tolerance.val) (s : S)
    (hs : inv s) : SystemSolved c m inv f Φ ρ β ε N s := by
  have e : systemFloor σ β ε + 0 / 2 = systemFloor σ β ε := by ring
  refine system_newton (h0 := 0) hn hc hdot hmeth h hw he hf le_rfl (by linarith) ?_ (by rw [e]; exact hδ) hguess ht N hN
    (by rw [e]; exact htol) s hs
  intro x hx
  obtain ⟨C, hCi, hC⟩ := hinv x hx
  exact ⟨C, x, system_obtains_analytic hc hg hCi, hC, hx.1, by rw [sub_self, norm_zero]⟩

/-- Stationary Newton with a Jacobian: as `C96_newton`, the approximate inverse being needed at the guess only. -/
theorem C96_stationary (hn : n ≤ 2 ^ 40) (hc : SystemDefault c) (hdot : AccurateDot c.la)
    (hmeth : c.params.method = .QuasiNewton .StationaryNewton)
    (h : NearSystem Φ A ρ R σ L ω) (hw : Conditioned n β L ω) (he : EvaluatesSystem f Φ ρ R ε)
    (hf : Computes m inv (Near ρ R) f) (hg : Differentiates m inv f g) {C : Mat F64 n}
    (hinv : c.la.inv (jacobianDifferences g c.guess) = some C) (hC : ApproxInverse A β C)
    (hδ : 2 * systemFloor σ β ε ≤ R) (hguess : Near ρ R c.guess) (ht : c.params.tolerance.IsFinite) (N : Nat)
    (hN : N ≤ c.params.maxIter) (htol : L * (R / 2 ^ N + 2 * systemFloor σ β ε) + ε ≤ c.params.tolerance.val) (s : S)
    (hs : inv s) : SystemSolved c m inv f Φ ρ β ε N s := by
  exact system_stationary (h0 := 0) hn hc hdot hmeth h hw he hf le_rfl (by linarith) (system_obtains_analytic hc hg hinv) hC
    hguess.1 (by rw [sub_self, norm_zero]) hδ hguess ht N hN htol s hs

/-- Stationary Newton with finite differences: the differences are taken at the guess only, which they leave by at most `h0`. -/
theorem C96_stationary_differences {r h0 : ℝ} (hn : n ≤ 2 ^ 40) (hc : SystemDefault c) (hdot : AccurateDot c.la)
    (hmeth : c.params.method = .QuasiNewton .StationaryNewton) (h : NearSystem Φ A ρ R σ L ω) (hw : Conditioned n β L ω)
    (he : EvaluatesSystem f Φ ρ R ε) (hf : Computes m inv (Near ρ R) f) (hu : Underived m inv f) (hh0 : 0 ≤ h0)
    (hr : r + h0 ≤ R) {p : Vec F64 n} {C : Mat F64 n} (hq : GoodQuotients c f A β h0 c.guess p C)
    (hδ : 2 * systemFloor σ β ε ≤ R) (hguess : Near ρ r c.guess) (ht : c.params.tolerance.IsFinite) (N : Nat)
    (hN : N ≤ c.params.maxIter) (htol : L * (R / 2 ^ N + 2 * systemFloor σ β ε) + ε ≤ c.params.tolerance.val)
    (s : S) (hs : inv s) : SystemSolved c m inv f Φ ρ β ε N s := by
  obtain ⟨z, h1, h2, h3⟩ := system_obtains_fd hc hf hu hh0 hr hguess hq
  exact system_stationary hn hc hdot hmeth h hw he hf hh0 hr h1 hq.approx h2 h3 hδ hguess ht N hN htol s hs

end

/-! ## The system `2 x + y = 3`, `x + y = 2` -/

/-- Its left side, in the order the operations are written. -/
def Demo64.lines (x : Vec F64 2) : Vec F64 2 := fun i =>
  if i = 0 then Fl.add (Fl.mul Fl.two (x 0)) (x 1) else Fl.add (x 0) (x 1)

def Demo64.sides : Vec F64 2 := fun i => if i = 0 then ofRat 3 else ofRat 2

def Demo64.slopes : Mat F64 2 := fun i j => if i = 0 ∧ j = 0 then Fl.two else Fl.one

/-- The solver of the library for two unknowns from the guess (1.5, 0.25). -/
def Demo64.pair (method : ResolutionMethod) : Config F64 2 where
  params := { problemSize := 2, tolerance := ofRat (1 / 10 ^ 10), maxIter := 50, method, damping := false }
  guess := fun i => if i = 0 then ofRat (3 / 2) else ofRat (1 / 4)
  iters := fun _ => IterativeParamsFD.default.toIterative
  res := { stop := fun _ => .Abs, upd := fun _ => .Abs }
  la := nalgebraLinAlg F64 2

def lineMatrix : Matrix (Fin 2) (Fin 2) ℝ := fun i j => if i = 0 ∧ j = 0 then 2 else 1

noncomputable def linePhi (x : Fin 2 → ℝ) : Fin 2 → ℝ := fun i => if i = 0 then 2 * x 0 + x 1 - 3 else x 0 + x 1 - 2

theorem line_near : NearSystem linePhi lineMatrix (fun _ => 1) 1 1 3 0 := by
  have e : ∀ x, linePhi x = lineMatrix.mulVec (x - fun _ => 1) := by
    intro x
    funext i
    fin_cases i <;> simp [linePhi, lineMatrix, Matrix.mulVec, dotProduct, Fin.sum_univ_two] <;> ring
  refine ⟨fun x _ => by rw [e, sub_self, norm_zero, zero_mul], ?_, by norm_num, ?_, ?_, ?_, ?_, le_rfl⟩
  · intro x _
    have h0 := norm_nonneg (x - fun _ => (1 : ℝ))
    refine (pi_norm_le_iff_of_nonneg (by positivity)).2 fun i => ?_
    have h1 := norm_le_pi_norm (x - fun _ => (1 : ℝ)) 0
    have h2 := norm_le_pi_norm (x - fun _ => (1 : ℝ)) 1
    rw [Real.norm_eq_abs, abs_le, Pi.sub_apply] at h1 h2
    rw [Real.norm_eq_abs, abs_le]
    fin_cases i <;> simp [linePhi] <;> constructor <;> linarith
  · exact (by norm_num : (3 : ℝ) ≤ 2 ^ 2).trans (pow_le_pow_right₀ (by norm_num) (by norm_num))
  · exact (zpow_le_zpow_right₀ (by norm_num) (by norm_num : (-900 : ℤ) ≤ 0)).trans (by norm_num)
  · exact one_le_pow₀ (by norm_num)
  · exact (pi_norm_le_iff_of_nonneg (by norm_num)).2 fun i => by norm_num


private theorem eight {q : ℚ} (h : |(q : ℝ)| ≤ 8) : |q| ≤ 8 := by exact_mod_cast h

private theorem add_near {w : ℝ} (hw : w = 2 ^ (-50 : ℤ)) {a b : F64} (ha : a.IsFinite) (hb : b.IsFinite) (h : |(a.val : ℝ) + b.val| ≤ 8) :
    (Fl.add a b).IsFinite ∧ |((Fl.add a b).val : ℝ) - (a.val + b.val)| ≤ w := by
  subst hw
  have h' : |a.val + b.val| ≤ 8 := eight (by push_cast; exact h)
  obtain ⟨f1, v1⟩ := f64_add ha hb (h'.trans ((by norm_num : (8 : ℚ) ≤ 2 ^ 3).trans (pow_le_pow_right₀ (by norm_num) (by norm_num))))
  have e := Binary64.rnd_add_error (Fl.val_fixed a) (Fl.val_fixed b)
  rw [← v1] at e
  refine ⟨f1, ?_⟩
  have e1 : |(Fl.add a b).val - (a.val + b.val)| ≤ 2 ^ (-50 : ℤ) :=
    e.trans ((mul_le_mul_of_nonneg_right h' (Binary64.two_zpow_pos _).le).trans (by norm_num))
  have := (Rat.cast_le (K := ℝ)).2 e1
  push_cast at this
  exact this

private theorem sub_near {w : ℝ} (hw : w = 2 ^ (-50 : ℤ)) {a b : F64} (ha : a.IsFinite) (hb : b.IsFinite) (h : |(a.val : ℝ) - b.val| ≤ 8) :
    (Fl.sub a b).IsFinite ∧ |((Fl.sub a b).val : ℝ) - (a.val - b.val)| ≤ w := by
  subst hw
  have h' : |a.val - b.val| ≤ 8 := eight (by push_cast; exact h)
  obtain ⟨f1, v1⟩ := f64_sub ha hb (h'.trans ((by norm_num : (8 : ℚ) ≤ 2 ^ 3).trans (pow_le_pow_right₀ (by norm_num) (by norm_num))))
  have e := f64_sub_error a b
  rw [← v1] at e
  refine ⟨f1, ?_⟩
  have e1 : |(Fl.sub a b).val - (a.val - b.val)| ≤ 2 ^ (-50 : ℤ) :=
    e.trans ((mul_le_mul_of_nonneg_right h' (Binary64.two_zpow_pos _).le).trans (by norm_num))
  have := (Rat.cast_le (K := ℝ)).2 e1
  push_cast at this
  exact this

private theorem mul_near {w : ℝ} (hw : w = 2 ^ (-50 : ℤ)) {a b : F64} (ha : a.IsFinite) (hb : b.IsFinite) (h : |(a.val : ℝ) * b.val| ≤ 4) :
    (Fl.mul a b).IsFinite ∧ |((Fl.mul a b).val : ℝ) - a.val * b.val| ≤ w := by
  subst hw
  have h' : |a.val * b.val| ≤ 4 := by exact_mod_cast h
  obtain ⟨f1, e⟩ := product_error ha hb (h'.trans ((by norm_num : (4 : ℚ) ≤ 2 ^ 2).trans (pow_le_pow_right₀ (by norm_num) (by norm_num))))
  refine ⟨f1, ?_⟩
  have e1 : |(Fl.mul a b).val - a.val * b.val| ≤ 2 ^ (-50 : ℤ) := by
    refine e.trans ?_
    have h1 : |a.val * b.val| * 2 ^ (-53 : ℤ) ≤ 4 * 2 ^ (-53 : ℤ) := mul_le_mul_of_nonneg_right h' (Binary64.two_zpow_pos _).le
    have h2 : (2 : ℚ) ^ (-1075 : ℤ) ≤ 2 ^ (-53 : ℤ) := zpow_le_zpow_right₀ (by norm_num) (by norm_num)
    have h3 : 5 * (2 : ℚ) ^ (-53 : ℤ) ≤ 2 ^ (-50 : ℤ) := by norm_num
    generalize (2 : ℚ) ^ (-1075 : ℤ) = w1 at *
    generalize (2 : ℚ) ^ (-53 : ℤ) = w2 at *
    linarith
  have := (Rat.cast_le (K := ℝ)).2 e1
  push_cast at this
  exact this

private theorem sides_val : ((Demo64.sides 0).IsFinite ∧ (Demo64.sides 0).val = 3) ∧ (Demo64.sides 1).IsFinite ∧
    (Demo64.sides 1).val = 2 := by decide +kernel

theorem line_evaluates : EvaluatesSystem (fun x => ⟨Demo64.lines x, Demo64.sides⟩) linePhi (fun _ => 1) 1 (2 ^ (-48 : ℤ)) := by
  intro x ⟨hx, hxR⟩
  obtain ⟨⟨f3, v3⟩, f2, v2⟩ := sides_val
  obtain ⟨w, hw⟩ : ∃ w : ℝ, w = 2 ^ (-50 : ℤ) := ⟨_, rfl⟩
  have hu : w ≤ 1 / 100 := by rw [hw]; norm_num
  have hu4 : (2 : ℝ) ^ (-48 : ℤ) = 4 * w := by rw [hw]; norm_num
  have hu0 : 0 < w := by rw [hw]; positivity
  have hb : ∀ i, 0 ≤ ((x i).val : ℝ) ∧ ((x i).val : ℝ) ≤ 2 := by
    intro i
    have h1 := (norm_le_pi_norm (reals x - fun _ => (1 : ℝ)) i).trans hxR
    rw [Real.norm_eq_abs, abs_le, Pi.sub_apply] at h1
    unfold reals at h1
    constructor <;> linarith
  obtain ⟨a1, a2⟩ := hb 0
  obtain ⟨b1, b2⟩ := hb 1
  have htwo : ((Fl.two : F64).val : ℝ) = 2 := by norm_num [Fl.two, Fl.val]
  have f2' : (Fl.two : F64).IsFinite := trivial
  obtain ⟨m1, m2⟩ := mul_near hw f2' (hx 0) (by rw [htwo, abs_le]; constructor <;> linarith)
  rw [htwo, abs_le] at m2
  obtain ⟨m3, m4⟩ := m2
  obtain ⟨n1, n2⟩ := add_near hw m1 (hx 1) (by rw [abs_le]; constructor <;> linarith)
  rw [abs_le] at n2
  obtain ⟨n3, n4⟩ := n2
  have v3' : ((Demo64.sides 0).val : ℝ) = 3 := by rw [v3]; norm_num
  have v2' : ((Demo64.sides 1).val : ℝ) = 2 := by rw [v2]; norm_num
  obtain ⟨p1, p2⟩ := sub_near hw n1 f3 (by rw [v3', abs_le]; constructor <;> linarith)
  rw [v3', abs_le] at p2
  obtain ⟨p3, p4⟩ := p2
  obtain ⟨q1, q2⟩ := add_near hw (hx 0) (hx 1) (by rw [abs_le]; constructor <;> linarith)
  rw [abs_le] at q2
  obtain ⟨q3, q4⟩ := q2
  obtain ⟨r1, r2⟩ := sub_near hw q1 f2 (by rw [v2', abs_le]; constructor <;> linarith)
  rw [v2', abs_le] at r2
  obtain ⟨r3, r4⟩ := r2
  have hf : ∀ i, (differences (fun x => ⟨Demo64.lines x, Demo64.sides⟩) x i).IsFinite := Fin.forall_fin_two.2 ⟨p1, r1⟩
  refine ⟨hf, ?_⟩
  have h0 : |((Fl.sub (Fl.add (Fl.mul Fl.two (x 0)) (x 1)) (Demo64.sides 0)).val : ℝ) -
      (2 * ((x 0).val : ℝ) + (x 1).val - 3)| ≤ 2 ^ (-48 : ℤ) := by
    rw [hu4, abs_le]
    constructor <;> linarith
  have h1 : |((Fl.sub (Fl.add (x 0) (x 1)) (Demo64.sides 1)).val : ℝ) - (((x 0).val : ℝ) + (x 1).val - 2)| ≤
      2 ^ (-48 : ℤ) := by
    rw [hu4, abs_le]
    constructor <;> linarith
  exact (pi_norm_le_iff_of_nonneg (by positivity)).2 (Fin.forall_fin_two.2 ⟨h0, h1⟩)

private def pairInverse : Fin 2 → Fin 2 → ℚ := fun i j => if i ≠ j then -1 else if i = 0 then 1 else 2

private def finiteb (a : F64) : Bool := decide a.IsFinite

private def closeb (C : Mat F64 2) : Bool :=
  decide (∀ i j, |(C i j).val - pairInverse i j| ≤ 1 / 10 ^ 6) && decide (∀ i j, finiteb (C i j) = true)

private theorem close_approx {C : Mat F64 2} (h : closeb C = true) : ApproxInverse lineMatrix 4 C := by
  unfold closeb at h
  rw [Bool.and_eq_true, decide_eq_true_iff, decide_eq_true_iff] at h
  obtain ⟨h1, h2⟩ := h
  have h3 : ∀ i j, |((C i j).val : ℝ) - pairInverse i j| ≤ 1 / 10 ^ 6 := by
    intro i j
    have := (Rat.cast_le (K := ℝ)).2 (h1 i j)
    push_cast at this
    exact this
  have a := abs_le.1 (h3 0 0)
  have b := abs_le.1 (h3 0 1)
  have c := abs_le.1 (h3 1 0)
  have d := abs_le.1 (h3 1 1)
  have e0 : ((pairInverse 0 0 : ℚ) : ℝ) = 1 := by norm_num [pairInverse]
  have e1 : ((pairInverse 0 1 : ℚ) : ℝ) = -1 := by norm_num [pairInverse]
  have e2 : ((pairInverse 1 0 : ℚ) : ℝ) = -1 := by norm_num [pairInverse]
  have e3 : ((pairInverse 1 1 : ℚ) : ℝ) = 2 := by norm_num [pairInverse]
  rw [e0] at a
  rw [e1] at b
  rw [e2] at c
  rw [e3] at d
  refine ⟨fun i j => of_decide_eq_true (h2 i j), Fin.forall_fin_two.2 ⟨?_, ?_⟩, Fin.forall_fin_two.2 ⟨?_, ?_⟩⟩
  · rw [Fin.sum_univ_two, abs_of_nonneg (by linarith : 0 ≤ ((C 0 0).val : ℝ)), abs_of_nonpos (by linarith : ((C 0 1).val : ℝ) ≤ 0)]
    linarith
  · rw [Fin.sum_univ_two, abs_of_nonpos (by linarith : ((C 1 0).val : ℝ) ≤ 0), abs_of_nonneg (by linarith : 0 ≤ ((C 1 1).val : ℝ))]
    linarith
  · rw [Fin.sum_univ_two]
    have k0 : |(1 : Matrix (Fin 2) (Fin 2) ℝ) 0 0 - ∑ k, ((C 0 k).val : ℝ) * lineMatrix k 0| ≤ 1 / 16 := by
      rw [Fin.sum_univ_two, abs_le]
      norm_num [lineMatrix, Matrix.one_apply]
      constructor <;> linarith
    have k1 : |(1 : Matrix (Fin 2) (Fin 2) ℝ) 0 1 - ∑ k, ((C 0 k).val : ℝ) * lineMatrix k 1| ≤ 1 / 16 := by
      rw [Fin.sum_univ_two, abs_le]
      norm_num [lineMatrix, Matrix.one_apply]
      constructor <;> linarith
    linarith
  · rw [Fin.sum_univ_two]
    have k0 : |(1 : Matrix (Fin 2) (Fin 2) ℝ) 1 0 - ∑ k, ((C 1 k).val : ℝ) * lineMatrix k 0| ≤ 1 / 16 := by
      rw [Fin.sum_univ_two, abs_le]
      norm_num [lineMatrix, Matrix.one_apply]
      constructor <;> linarith
    have k1 : |(1 : Matrix (Fin 2) (Fin 2) ℝ) 1 1 - ∑ k, ((C 1 k).val : ℝ) * lineMatrix k 1| ≤ 1 / 16 := by
      rw [Fin.sum_univ_two, abs_le]
      norm_num [lineMatrix, Matrix.one_apply]
      constructor <;> linarith
    linarith

private theorem elim_some {α : Type} {o : Option α} {p : α → Bool} (h : o.elim false p = true) : ∃ a, o = some a ∧ p a = true := by
  cases o with
  | none => cases h
  | some a => exact ⟨a, rfl, h⟩

private theorem line_conditioned : Conditioned 2 4 3 0 :=
  ⟨by norm_num, (by norm_num : (4 : ℝ) ≤ 2 ^ 2).trans (pow_le_pow_right₀ (by norm_num) (by norm_num)), by norm_num, by norm_num⟩

theorem pair_tolerance : (Demo64.ofRat (1 / 10 ^ 10)).IsFinite ∧ 999 / 10 ^ 13 ≤ (Demo64.ofRat (1 / 10 ^ 10)).val := by
  decide +kernel

theorem pair_guess (method : ResolutionMethod) : Near (fun _ => 1) (3 / 4) (Demo64.pair method).guess := by
  have h : ((Demo64.ofRat (3 / 2)).IsFinite ∧ (Demo64.ofRat (3 / 2)).val = 3 / 2) ∧ (Demo64.ofRat (1 / 4)).IsFinite ∧
    (Demo64.ofRat (1 / 4)).val = 1 / 4 := by decide +kernel
  obtain ⟨⟨f1, v1⟩, f2, v2⟩ := h
  refine ⟨Fin.forall_fin_two.2 ⟨f1, f2⟩, (pi_norm_le_iff_of_nonneg (by norm_num)).2 (Fin.forall_fin_two.2 ⟨?_, ?_⟩)⟩
  · change |((Demo64.ofRat (3 / 2)).val : ℝ) - 1| ≤ _
    rw [v1]
    norm_num
  · change |((Demo64.ofRat (1 / 4)).val : ℝ) - 1| ≤ _
    rw [v2]
    norm_num

theorem near_all {EI EU S : Type} {m : UserModel F64 2 EI EU S} {inv : S → Prop} {f : Vec F64 2 → ResidualsValues F64 2}
    (h : Computes m inv (fun _ => True) f) : Computes m inv (Near (fun _ => 1) 1) f :=
  ⟨fun s x hs _ => h.keeps s x hs trivial, fun s x hs _ => h.ok s x hs trivial, fun s x hs _ => h.iteratives s x hs trivial,
    fun s x hs _ => h.residuals s x hs trivial⟩

private theorem slopes_inverse (x : Vec F64 2) : ∃ C, (nalgebraLinAlg F64 2).inv
    (jacobianDifferences (fun _ => ⟨Demo64.slopes, mzero⟩) x) = some C ∧ ApproxInverse lineMatrix 4 C := by
  obtain ⟨C, h1, h2⟩ := elim_some (by decide +kernel : (luInverse (jacobianDifferences (fun _ => ⟨Demo64.slopes, mzero⟩)
    (fun _ => Fl.one))).elim false closeb = true)
  exact ⟨C, h1, close_approx h2⟩

/-- `C96_newton` applies to this system. -/
example : SystemSolved (Demo64.pair .NewtonRaphson) (fromFunctionAndJacobian Demo64.lines fun _ => Demo64.slopes)
    (fun s => s.right = Demo64.sides) (fun x => ⟨Demo64.lines x, Demo64.sides⟩) linePhi (fun _ => 1) 4 (2 ^ (-48 : ℤ)) 45
    { AdapterState.new with right := Demo64.sides } := by
  refine C96_newton (by norm_num) ⟨rfl, fun _ => rfl, fun _ => rfl, fun _ => rfl⟩ (C96_dot (by norm_num)) rfl line_near
    line_conditioned line_evaluates (near_all (fromFunctionAndJacobian_computes _ _ _))
    (fromFunctionAndJacobian_differentiates _ _ _) (fun x _ => slopes_inverse x) ?_
    ⟨(pair_guess _).1, (pair_guess _).2.trans (by norm_num)⟩ pair_tolerance.1 45 (by change 45 ≤ 50; norm_num) ?_ _ rfl
  · unfold systemFloor
    norm_num
  · have h3 := (Rat.cast_le (K := ℝ)).2 pair_tolerance.2
    push_cast at h3
    refine le_trans ?_ h3
    unfold systemFloor
    norm_num

/-- `C96_stationary` applies to this system. -/
example : SystemSolved (Demo64.pair (.QuasiNewton .StationaryNewton)) (fromFunctionAndJacobian Demo64.lines fun _ => Demo64.slopes)
    (fun s => s.right = Demo64.sides) (fun x => ⟨Demo64.lines x, Demo64.sides⟩) linePhi (fun _ => 1) 4 (2 ^ (-48 : ℤ)) 45
    { AdapterState.new with right := Demo64.sides } := by
  obtain ⟨C, h1, h2⟩ := slopes_inverse (Demo64.pair (.QuasiNewton .StationaryNewton)).guess
  refine C96_stationary (by norm_num) ⟨rfl, fun _ => rfl, fun _ => rfl, fun _ => rfl⟩ (C96_dot (by norm_num)) rfl line_near
    line_conditioned line_evaluates (near_all (fromFunctionAndJacobian_computes _ _ _))
    (fromFunctionAndJacobian_differentiates _ _ _) h1 h2 ?_
    ⟨(pair_guess _).1, (pair_guess _).2.trans (by norm_num)⟩ pair_tolerance.1 45 (by change 45 ≤ 50; norm_num) ?_ _ rfl
  · unfold systemFloor
    norm_num
  · have h3 := (Rat.cast_le (K := ℝ)).2 pair_tolerance.2
    push_cast at h3
    refine le_trans ?_ h3
    unfold systemFloor
    norm_num

private theorem stationary_quotients : ∃ p C, GoodQuotients (Demo64.pair (.QuasiNewton .StationaryNewton))
    (fun x => ⟨Demo64.lines x, Demo64.sides⟩) lineMatrix 4 (1 / 10 ^ 6) (Demo64.pair (.QuasiNewton .StationaryNewton)).guess p C := by
  obtain ⟨p, h1, h2⟩ := elim_some (by decide +kernel : (computePerturbations (Demo64.pair (.QuasiNewton .StationaryNewton)).iters
    (Demo64.pair (.QuasiNewton .StationaryNewton)).guess).elim false (fun p =>
      (luInverse (quotients (fun x => ⟨Demo64.lines x, Demo64.sides⟩) p
        (Demo64.pair (.QuasiNewton .StationaryNewton)).guess)).elim false closeb &&
      decide (∀ j i, finiteb (shifted (Demo64.pair (.QuasiNewton .StationaryNewton)).guess j (p j) i) = true) &&
      decide (∀ j i, |(shifted (Demo64.pair (.QuasiNewton .StationaryNewton)).guess j (p j) i).val -
        ((Demo64.pair (.QuasiNewton .StationaryNewton)).guess i).val| ≤ 1 / 10 ^ 6)) = true)
  rw [Bool.and_eq_true, Bool.and_eq_true, decide_eq_true_iff, decide_eq_true_iff] at h2
  obtain ⟨⟨h3, h4⟩, h5⟩ := h2
  obtain ⟨C, h6, h7⟩ := elim_some h3
  refine ⟨p, C, h1, fun j i => of_decide_eq_true (h4 j i), fun j => ?_, h6, close_approx h7⟩
  refine (pi_norm_le_iff_of_nonneg (by norm_num)).2 fun i => ?_
  have := (Rat.cast_le (K := ℝ)).2 (h5 j i)
  push_cast at this
  exact this

/-- `C96_stationary_differences` applies to this system. -/
example : SystemSolved (Demo64.pair (.QuasiNewton .StationaryNewton)) (fromFunction Demo64.lines)
    (fun s => s.right = Demo64.sides) (fun x => ⟨Demo64.lines x, Demo64.sides⟩) linePhi (fun _ => 1) 4 (2 ^ (-48 : ℤ)) 45
    { AdapterState.new with right := Demo64.sides } := by
  obtain ⟨p, C, hq⟩ := stationary_quotients
  refine C96_stationary_differences (r := 3 / 4) (by norm_num) ⟨rfl, fun _ => rfl, fun _ => rfl, fun _ => rfl⟩
    (C96_dot (by norm_num)) rfl line_near line_conditioned line_evaluates (near_all (fromFunction_computes _ _))
    (fromFunction_underived _ _) (by norm_num) (by norm_num) hq ?_ (pair_guess _) pair_tolerance.1 45
    (by change 45 ≤ 50; norm_num) ?_ _ rfl
  · unfold systemFloor
    norm_num
  · have h3 := (Rat.cast_le (K := ℝ)).2 pair_tolerance.2
    push_cast at h3
    refine le_trans ?_ h3
    unfold systemFloor
    norm_num

end Nrf

import Verif.Proofs.AccurateSystem

/-!
# Solves of systems in binary64 with approximate inverses
-/

set_option linter.unusedSectionVars false

namespace Nrf
open Spec Fl

section
variable {n : Nat} {Φ : (Fin n → ℝ) → Fin n → ℝ} {A : Matrix (Fin n) (Fin n) ℝ} {ρ : Fin n → ℝ} {R σ L ω β ε : ℝ}
variable {c : Config F64 n} {EI EU S : Type} {m : UserModel F64 n EI EU S} {inv : S → Prop}
variable {f : Vec F64 n → ResidualsValues F64 n} {g : Vec F64 n → JacobianValues F64 n}

theorem system_conclude (hc : SystemDefault c) {r δ : ℝ} (hr : r ≤ R) (h : NearSystem Φ A ρ R σ L ω)
    (hw : Conditioned n β L ω) (he : EvaluatesSystem f Φ ρ R ε) (hf : Computes m inv (Near ρ R) f) (hδ0 : 0 ≤ δ)
    (hδ : 2 * δ ≤ r) {C : Mat F64 n} (hC : ApproxInverse A β C) (P : Nat → Solver F64 n → Vec F64 n → Prop) (h0 : P 0 .new c.guess)
    (hpass : ∀ k (x : Vec F64 n) st s, Near ρ r x → ‖reals x - ρ‖ ≤ halved r δ k → st.debug = false → P k st x →
      At m inv f s x →
      ∃ st' s' y, iterate c m st s = .ok (st', s', .ok (amax (evaluateErrors c m s'))) ∧ At m inv f s' y ∧
        st'.debug = false ∧ st'.valid = true ∧ P (k + 1) st' y ∧ (∀ i, (y i).IsFinite) ∧
        ‖reals y - ρ‖ ≤ 1 / 2 * halved r δ k + δ)
    (hg : Near ρ r c.guess) (ht : c.params.tolerance.IsFinite) {N : Nat} (hNm : N ≤ c.params.maxIter)
    (htol : L * (r / 2 ^ N + 2 * δ) + ε ≤ c.params.tolerance.val) {s : S} (hs : inv s) :
    SystemSolved c m inv f Φ ρ β ε N s := by
  have near : ∀ {x}, Near ρ r x → Near ρ R x := fun hx => ⟨hx.1, hx.2.trans hr⟩
  have hε : 0 ≤ ε := (norm_nonneg _).trans (he _ (near hg)).2
  have hr0 : 0 ≤ r := (norm_nonneg _).trans hg.2
  have hL := h.slopeLow
  have ht0 : (0 : ℝ) ≤ c.params.tolerance.val := le_trans (by positivity) htol
  obtain ⟨st', s', x, h1, h2, h3, h4, h5⟩ := system_converges hc hf hr hδ P h0 hpass hg ht ht0 hNm
    (fun x hx => (he x (near hx)).1)
    (by
      intro x hx hxk
      have h1 := h.slope _ (near hx).2
      have h2 := (he x (near hx)).2
      have h3 := norm_le_norm_add_norm_sub' (reals (differences f x)) (Φ (reals x))
      have h4 := mul_le_mul_of_nonneg_left (hxk.trans (halved_le' hδ0 N)) hL
      linarith) hs
  have h6 : ‖Φ (reals x)‖ ≤ c.params.tolerance.val + ε := by
    have h8 := (he x (near h4)).2
    have h9 := norm_le_norm_add_norm_sub' (Φ (reals x)) (reals (differences f x))
    rw [norm_sub_rev] at h9
    linarith
  refine ⟨st', s', x, h1, h2, h3, h4.1, h6, ?_⟩
  refine (approx_distance h hC hw.positive hw.almostLinear (near h4).2).trans ?_
  exact mul_le_mul_of_nonneg_left (mul_le_mul_of_nonneg_left h6 hw.positive) (by norm_num)

theorem system_floor_nonneg (h : NearSystem Φ A ρ R σ L ω) (hw : Conditioned n β L ω) (he0 : 0 ≤ ε) :
    0 ≤ systemFloor σ β ε := by
  have := hw.positive
  have : 0 ≤ σ := (norm_nonneg _).trans h.rootSize
  unfold systemFloor
  positivity

/-- At `x` the solver finds the approximate inverse `C` and is then at `z`. -/
def SystemObtains (c : Config F64 n) (m : UserModel F64 n EI EU S) (inv : S → Prop) (f : Vec F64 n → ResidualsValues F64 n)
    (x z : Vec F64 n) (C : Mat F64 n) : Prop :=
  ∀ s j, At m inv f s x → ∃ s' J, At m inv f s' z ∧ computeJac c m j s = .ok (⟨some J, some C, false, false⟩, s', .ok ())

theorem system_newton {r h0 : ℝ} (hn : n ≤ 2 ^ 40) (hc : SystemDefault c) (hdot : AccurateDot c.la)
    (hmeth : c.params.method = .NewtonRaphson)
    (h : NearSystem Φ A ρ R σ L ω) (hw : Conditioned n β L ω) (he : EvaluatesSystem f Φ ρ R ε)
    (hf : Computes m inv (Near ρ R) f) (hh0 : 0 ≤ h0) (hr : r + h0 ≤ R)
    (hinv : ∀ x, Near ρ r x → ∃ C z, SystemObtains c m inv f x z C ∧ ApproxInverse A β C ∧ (∀ i, (z i).IsFinite) ∧
      ‖reals z - reals x‖ ≤ h0)
    (hδ : 2 * (systemFloor σ β ε + h0 / 2) ≤ r) (hguess : Near ρ r c.guess) (ht : c.params.tolerance.IsFinite) (N : Nat)
    (hN : N ≤ c.params.maxIter) (htol : L * (r / 2 ^ N + 2 * (systemFloor σ β ε + h0 / 2)) + ε ≤ c.params.tolerance.val)
    (s : S) (hs : inv s) : SystemSolved c m inv f Φ ρ β ε N s := by
  obtain ⟨C0, -, -, hC0, -⟩ := hinv _ hguess
  have hfl := system_floor_nonneg h hw ((norm_nonneg _).trans (he _ ⟨hguess.1, hguess.2.trans (by linarith)⟩).2)
  refine system_conclude hc (by linarith) h hw he hf (by linarith) hδ hC0 (fun _ _ _ => True)
    trivial ?_ hguess ht hN htol hs
  intro k x st s hx hxk hdb _ hat
  obtain ⟨C, z, hj, hC, hzf, hzx⟩ := hinv x hx
  obtain ⟨s1, J, hs1, hj⟩ := hj s st.jac hat
  have hzρ : ‖reals z - ρ‖ ≤ ‖reals x - ρ‖ + h0 := by
    have := norm_sub_le_norm_sub_add_norm_sub (reals z) (reals x) ρ
    linarith
  have hx2 := hx.2
  obtain ⟨st', s', y, hi, hat', hdb', hv', -, hy, hyρ⟩ := system_pass hc hn hdot h hw he (by linarith) hf hC
    ⟨hzf, by linarith⟩ (st1 := { st with iter := st.iter + 1, jac := _ }) hdb hs1
    (computeStep_computed (st := { st with iter := st.iter + 1 }) hdb (.inl hmeth) hs1 hj)
  exact ⟨st', s', y, hi, hat', hdb', hv', trivial, hy, by linarith⟩

/-- What stationary Newton keeps: at the guess no Jacobian, then an approximate inverse. -/
def SystemKeeps (A : Matrix (Fin n) (Fin n) ℝ) (β : ℝ) (g : Vec F64 n) (k : Nat) (st : Solver F64 n) (x : Vec F64 n) : Prop :=
  k = 0 ∧ st.jac.computeNext = true ∧ x = g ∨
    st.jac.computeNext = false ∧ ∃ C, st.jac.inverse = some C ∧ ApproxInverse A β C

theorem system_stationary {r h0 : ℝ} (hn : n ≤ 2 ^ 40) (hc : SystemDefault c) (hdot : AccurateDot c.la)
    (hmeth : c.params.method = .QuasiNewton .StationaryNewton)
    (h : NearSystem Φ A ρ R σ L ω) (hw : Conditioned n β L ω) (he : EvaluatesSystem f Φ ρ R ε)
    (hf : Computes m inv (Near ρ R) f) (hh0 : 0 ≤ h0) (hr : r + h0 ≤ R) {C : Mat F64 n} {z : Vec F64 n}
    (hinv : SystemObtains c m inv f c.guess z C) (hC : ApproxInverse A β C) (hzf : ∀ i, (z i).IsFinite)
    (hzx : ‖reals z - reals c.guess‖ ≤ h0)
    (hδ : 2 * systemFloor σ β ε ≤ R) (hguess : Near ρ r c.guess) (ht : c.params.tolerance.IsFinite) (N : Nat)
    (hN : N ≤ c.params.maxIter) (htol : L * (R / 2 ^ N + 2 * systemFloor σ β ε) + ε ≤ c.params.tolerance.val)
    (s : S) (hs : inv s) : SystemSolved c m inv f Φ ρ β ε N s := by
  have hguess' : Near ρ R c.guess := ⟨hguess.1, hguess.2.trans (by linarith)⟩
  have hfl := system_floor_nonneg h hw ((norm_nonneg _).trans (he _ hguess').2)
  refine system_conclude hc le_rfl h hw he hf hfl hδ hC (SystemKeeps A β c.guess) (.inl ⟨rfl, rfl, rfl⟩) ?_ hguess' ht
    hN htol hs
  intro k x st s hx hxk hdb hk hat
  rcases hk with ⟨rfl, hcn, rfl⟩ | ⟨hcn, C', hinv', hC'⟩
  · obtain ⟨s1, J, hs1, hj⟩ := hinv s st.jac hat
    have hg := hguess.2
    have hzρ : ‖reals z - ρ‖ ≤ R := by
      have := norm_sub_le_norm_sub_add_norm_sub (reals z) (reals c.guess) ρ
      linarith
    obtain ⟨st', s', y, hi, hat', hdb', hv', hj', hy, hyρ⟩ := system_pass hc hn hdot h hw he hδ hf hC
      ⟨hzf, hzρ⟩ (st1 := { st with iter := st.iter + 1, jac := _ }) hdb hs1
      (computeStep_computed (st := { st with iter := st.iter + 1 }) hdb (.inr hcn) hs1 hj)
    exact ⟨st', s', y, hi, hat', hdb', hv', .inr ⟨by rw [hj'], C, by rw [hj'], hC⟩, hy, by rw [halved_zero]; linarith⟩
  · obtain ⟨st', s', y, hi, hat', hdb', hv', hj', hy, hyρ⟩ := system_pass hc hn hdot h hw he hδ hf hC'
      hx (st1 := { st with iter := st.iter + 1 }) hdb hat
      (computeStep_kept (st := { st with iter := st.iter + 1 }) hdb hmeth hcn hat hinv')
    exact ⟨st', s', y, hi, hat', hdb', hv', .inr ⟨by rw [hj']; exact hcn, C', by rw [hj']; exact hinv', hC'⟩, hy,
      by linarith⟩

theorem system_analytic (hc : SystemDefault c) (x : Vec F64 n) : analyticAt c f g x = jacobianDifferences g x := by
  funext i j
  change derivNormalization _ _ _ _ (c.res.upd i) = _
  rw [hc.update]
  rfl

theorem system_obtains_analytic (hc : SystemDefault c) (hg : Differentiates m inv f g) {x : Vec F64 n} {C : Mat F64 n}
    (hinv : c.la.inv (jacobianDifferences g x) = some C) : SystemObtains c m inv f x x C := by
  intro s j hat
  rw [← system_analytic (f := f) hc] at hinv
  obtain ⟨s1, hs1, hj⟩ := computeJac_analytic (c := c) hg hat j hinv
  exact ⟨s1, _, hs1, hj⟩

theorem system_obtains_fd (hc : SystemDefault c) (hf : Computes m inv (Near ρ R) f) (hu : Underived m inv f) {r h0 : ℝ}
    (hh0 : 0 ≤ h0) (hr : r + h0 ≤ R) {x p : Vec F64 n} (hx : Near ρ r x) {C : Mat F64 n} (hq : GoodQuotients c f A β h0 x p C) :
    ∃ z, SystemObtains c m inv f x z C ∧ (∀ i, (z i).IsFinite) ∧ ‖reals z - reals x‖ ≤ h0 := by
  have hmv : ∀ j, moved x j (p j) = shifted x j (p j) := by
    intro j
    funext l
    unfold moved shifted
    split_ifs with h
    · rw [h]
    · rfl
  have hA : differencesAt c f p x = quotients f p x := by
    funext i j
    change Fl.div (Fl.sub (updateAt c f (moved x j (p j)) i) (updateAt c f x i)) (p j) = _
    rw [hmv, system_update hc, system_update hc]
    rfl
  have hinv := hq.inverse
  rw [← hA] at hinv
  have hD : ∀ i, Near ρ R (moved x i (p i)) := by
    intro i
    refine ⟨by rw [hmv]; exact hq.finite i, ?_⟩
    have h1 := norm_sub_le_norm_sub_add_norm_sub (reals (moved x i (p i))) (reals x) ρ
    have h2 := hq.small i
    have h3 := hx.2
    rw [hmv] at h1 ⊢
    linarith
  by_cases hn : n = 0
  · refine ⟨x, fun s j hat => ?_, hx.1, by rw [sub_self, norm_zero]; exact hh0⟩
    obtain ⟨s1, z, hs1, hz, hj⟩ := computeJac_fd (c := c) hf hu hat hq.perturbations hD j hinv
    rcases hz with ⟨rfl, -⟩ | ⟨last, -⟩
    · exact ⟨s1, _, hs1, hj⟩
    · exact absurd last.2 (by omega)
  · have hlt : n - 1 < n := by omega
    refine ⟨shifted x ⟨n - 1, hlt⟩ (p ⟨n - 1, hlt⟩), fun s j hat => ?_, hq.finite ⟨n - 1, hlt⟩, hq.small ⟨n - 1, hlt⟩⟩
    obtain ⟨s1, z, hs1, hz, hj⟩ := computeJac_fd (c := c) hf hu hat hq.perturbations hD j hinv
    rcases hz with ⟨-, h⟩ | ⟨last, hl, rfl⟩
    · exact absurd h hn
    · have : last = ⟨n - 1, hlt⟩ := Fin.ext (by simp; omega)
      subst this
      rw [hmv] at hs1
      exact ⟨s1, _, hs1, hj⟩

end
end Nrf

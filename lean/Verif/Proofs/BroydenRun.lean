import Verif.Proofs.TestCases
import Verif.Proofs.NewtonRun
import Mathlib.Tactic.Linarith
import Mathlib.Tactic.Positivity

/-!
# Newton-Raphson on the cases 5 to 8
-/

set_option linter.unusedSectionVars false

namespace Nrf
open Spec TestCases
open scoped Exact
open Matrix

section
variable {K : Type} [Field K] [LinearOrder K] [IsStrictOrderedRing K] {k : Nat}

/-- A bidiagonal system with diagonal at least 3 and superdiagonal -2 keeps sign and size. -/
theorem maximum_principle {n : Nat} {p v g : Nat → K} {M : K} (hM : 0 ≤ M) (hp : ∀ i < n, 3 ≤ p i) (hv : v n = 0)
    (h : ∀ i < n, p i * v i = 2 * v (i + 1) + g i) (hg : ∀ i < n, 0 ≤ g i ∧ g i ≤ M) :
    ∀ i ≤ n, 0 ≤ v i ∧ v i ≤ M := by
  have key : ∀ j ≤ n, 0 ≤ v (n - j) ∧ v (n - j) ≤ M := by
    intro j
    induction j with
    | zero => intro _; rw [Nat.sub_zero, hv]; exact ⟨le_refl _, hM⟩
    | succ j ih =>
      intro hj
      obtain ⟨h1, h2⟩ := ih (by omega)
      have hi : n - (j + 1) < n := by omega
      have h3 := h _ hi
      rw [show n - (j + 1) + 1 = n - j by omega] at h3
      have h4 := hp _ hi
      obtain ⟨h5, h6⟩ := hg _ hi
      have hp0 : 0 < p (n - (j + 1)) := by linarith
      constructor
      · by_contra hneg
        have := mul_neg_of_pos_of_neg hp0 (not_le.1 hneg)
        linarith
      · by_contra hbig
        have := mul_lt_mul_of_pos_left (not_le.1 hbig) hp0
        have h7 := mul_le_mul_of_nonneg_right h4 hM
        linarith
  intro i hi
  have := key (n - i) (by omega)
  rwa [show n - (n - i) = i by omega] at this

theorem broyden_eq_sums (alpha beta : K) (x : Vec K (k + 2)) :
    broyden alpha beta x = sums (k + 2) *ᵥ fun i : Fin (k + 2) => link alpha beta x i := by
  have key : ∀ i (hi : i < k + 2), broydenAt alpha beta x i hi =
      ∑ l : Fin (k + 2), (if l.val ≤ i then 1 else 0) * link alpha beta x l := by
    intro i
    induction i with
    | zero =>
      intro hi
      rw [broydenAt_zero, Finset.sum_eq_single (0 : Fin (k + 2))]
      · simp
      · intro l _ hl
        rw [if_neg (by have : l.val ≠ 0 := fun e => hl (Fin.ext e); omega), zero_mul]
      · simp
    | succ i ih =>
      intro hi
      rw [broydenAt_succ, ih]
      have h1 : ∀ l : Fin (k + 2), (if l.val ≤ i + 1 then (1 : K) else 0) * link alpha beta x l =
          (if l.val ≤ i then 1 else 0) * link alpha beta x l + (if l = ⟨i + 1, hi⟩ then link alpha beta x l else 0) := by
        intro l
        by_cases h : l = ⟨i + 1, hi⟩
        · simp [h]
        · have h' : l.val ≠ i + 1 := fun e => h (Fin.ext e)
          rw [if_neg h, add_zero]
          congr 1
          by_cases h2 : l.val ≤ i
          · rw [if_pos h2, if_pos (by omega)]
          · rw [if_neg h2, if_neg (by omega)]
      rw [Finset.sum_congr rfl fun l _ => h1 l, Finset.sum_add_distrib, Finset.sum_ite_eq', if_pos (Finset.mem_univ _)]
  funext i
  exact key i i.2

/-- The Newton equation, before summation. -/
theorem newton_links (alpha beta : K) (x d : Vec K (k + 2)) (h : broydenJac alpha x *ᵥ d = - broyden alpha beta x)
    (i : Nat) (hi : i < k + 2) :
    (3 + 2 * alpha * entry x i) * entry d i = 2 * entry d (i + 1) + link alpha beta x i := by
  have h1 : sums (k + 2) *ᵥ ((Matrix.of fun i : Fin (k + 2) => linkJac alpha x i) *ᵥ d +
      fun i : Fin (k + 2) => link alpha beta x i) = 0 := by
    rw [Matrix.mulVec_add, Matrix.mulVec_mulVec, ← broydenJac_eq, ← broyden_eq_sums, h, neg_add_cancel]
  have h2 := Matrix.eq_zero_of_mulVec_eq_zero (by rw [sums_det]; exact one_ne_zero) h1
  have h3 := congrFun h2 ⟨i, hi⟩
  have h4 : ((Matrix.of fun i : Fin (k + 2) => linkJac alpha x i) *ᵥ d) ⟨i, hi⟩ = ∑ j, linkJac alpha x i j * d j := rfl
  rw [Pi.add_apply, h4, linkJac_dot alpha x d i hi, Pi.zero_apply] at h3
  linarith

theorem entry_add {n : Nat} (x y : Vec K n) (i : Nat) : entry (x + y) i = entry x i + entry y i := by
  unfold entry
  split
  · rfl
  · rw [add_zero]

theorem entry_sub {n : Nat} (x y : Vec K n) (i : Nat) : entry (x - y) i = entry x i - entry y i := by
  unfold entry
  split
  · rfl
  · rw [sub_zero]

theorem link_add (alpha beta : K) (x d : Vec K (k + 2)) (i : Nat) :
    link alpha beta (x + d) i = link alpha beta x i - (3 + 2 * alpha * entry x i) * entry d i + 2 * entry d (i + 1) -
      alpha * entry d i ^ 2 := by
  unfold link
  rw [entry_add, entry_add]
  ring

theorem entry_nonpos {n : Nat} {x : Vec K n} (h : ∀ i, x i ≤ 0) (i : Nat) : entry x i ≤ 0 := by
  unfold entry
  split
  · exact h _
  · exact le_refl _

theorem forall_entry {n : Nat} {x : Vec K n} {P : K → Prop} (h : ∀ i < n, P (entry x i)) (i : Fin n) : P (x i) := by
  have := h i i.2
  rwa [entry_of_lt x i.2] at this

/-- A root without positive entry lies above `-1`. -/
theorem root_gt {alpha : K} (hα : alpha < 0) {r : Vec K (k + 2)} (hr : broyden alpha 1 r = 0) (hneg : ∀ i, r i ≤ 0)
    (i : Nat) : -1 < entry r i := by
  have hl := (broyden_eq_zero _ _ _).1 hr
  have key : ∀ j ≤ k + 2, -1 < entry r (k + 2 - j) := by
    intro j
    induction j with
    | zero => intro _; rw [entry_of_ge _ (by omega)]; linarith
    | succ j ih =>
      intro hj
      have h1 := hl (k + 2 - (j + 1)) (by omega)
      unfold link at h1
      rw [show k + 2 - (j + 1) + 1 = k + 2 - j by omega] at h1
      have h2 := ih (by omega)
      by_contra hlt
      nlinarith [mul_nonneg (neg_nonneg.2 hα.le) (sq_nonneg (entry r (k + 2 - (j + 1))))]
  by_cases hi : i ≤ k + 2
  · have := key (k + 2 - i) (by omega)
    rwa [show k + 2 - (k + 2 - i) = i by omega] at this
  · rw [entry_of_ge _ (by omega)]; linarith

/-- The points of the run: between `-1` and the root, all links non-negative, the distance to the root at most `E`. -/
structure Below (alpha : K) (r : Vec K (k + 2)) (E : K) (x : Vec K (k + 2)) : Prop where
  lower : ∀ i < k + 2, -1 ≤ entry x i
  upper : ∀ i < k + 2, entry x i ≤ entry r i
  links : ∀ i < k + 2, 0 ≤ link alpha 1 x i
  near : ∀ i < k + 2, entry r i - entry x i ≤ E

variable {alpha : K} {r : Vec K (k + 2)}

theorem below_start (hα : alpha < 0) (hneg : ∀ i, r i ≤ 0) (hr : broyden alpha 1 r = 0) :
    Below alpha r 1 (broydenInit (k + 2)) := by
  have e : ∀ i < k + 2, entry (broydenInit (k + 2) : Vec K (k + 2)) i = -1 := fun i hi => by
    rw [entry_of_lt _ hi]; rfl
  refine ⟨fun i hi => (e i hi).ge, fun i hi => ?_, fun i hi => ?_, fun i hi => ?_⟩
  · rw [e i hi]; exact (root_gt hα hr hneg i).le
  · unfold link
    rw [e i hi]
    by_cases h : i + 1 < k + 2
    · rw [e _ h]; linarith
    · rw [entry_of_ge _ (by omega)]; linarith
  · rw [e i hi]; have := entry_nonpos hneg i; linarith

theorem below_nonpos (hneg : ∀ i, r i ≤ 0) {E : K} {x : Vec K (k + 2)} (h : Below alpha r E x) (i : Nat) :
    entry x i ≤ 0 := by
  by_cases hi : i < k + 2
  · exact (h.upper i hi).trans (entry_nonpos hneg i)
  · rw [entry_of_ge _ (by omega)]

theorem below_det (hα : alpha < 0) (hneg : ∀ i, r i ≤ 0) {E : K} {x : Vec K (k + 2)} (h : Below alpha r E x) :
    (broydenJac alpha x).det ≠ 0 := by
  rw [broydenJac_det]
  refine Finset.prod_ne_zero_iff.2 fun i _ => ?_
  have h1 := below_nonpos hneg h i
  rw [entry_of_lt _ i.2] at h1
  have := mul_nonneg (neg_nonneg.2 hα.le) (neg_nonneg.2 h1)
  have h2 : alpha * x i ≥ 0 := by
    have e : -alpha * -x i = alpha * x i := by ring
    exact e ▸ this
  intro h0
  have e : 2 * alpha * x i = 2 * (alpha * x i) := by ring
  rw [e] at h0
  linarith

/-- A Newton step stays between the point and the root, and squares the distance. -/
theorem below_step (hα : alpha < 0) (hr : broyden alpha 1 r = 0) (hneg : ∀ i, r i ≤ 0) {E : K} (hE : 0 ≤ E)
    {x d : Vec K (k + 2)} (h : Below alpha r E x) (hd : broydenJac alpha x *ᵥ d = - broyden alpha 1 x) :
    Below alpha r (-alpha * E ^ 2) (x + d) ∧ ∀ i < k + 2, 0 ≤ entry d i := by
  have hl := newton_links alpha 1 x d hd
  have hp : ∀ i < k + 2, 3 ≤ 3 + 2 * alpha * entry x i := by
    intro i hi
    have := mul_nonneg (neg_nonneg.2 hα.le) (neg_nonneg.2 (below_nonpos hneg h i))
    have e : -alpha * -entry x i = alpha * entry x i := by ring
    rw [e] at this
    have e2 : 2 * alpha * entry x i = 2 * (alpha * entry x i) := by ring
    rw [e2]; linarith
  -- the step
  obtain ⟨M, hM0, hM⟩ : ∃ M, 0 ≤ M ∧ ∀ i < k + 2, link alpha 1 x i ≤ M := by
    refine ⟨∑ i ∈ Finset.range (k + 2), link alpha 1 x i, Finset.sum_nonneg fun i hi => h.links i (Finset.mem_range.1 hi),
      fun i hi => ?_⟩
    exact Finset.single_le_sum (f := fun i => link alpha 1 x i) (fun j hj => h.links j (Finset.mem_range.1 hj))
      (Finset.mem_range.2 hi)
  have hdpos := maximum_principle (n := k + 2) (v := fun i => entry d i) hM0 hp (entry_of_ge d (le_refl _)) hl
    fun i hi => ⟨h.links i hi, hM i hi⟩
  -- the new distance
  have hlr := (broyden_eq_zero _ _ _).1 hr
  have hdist : ∀ i < k + 2, (3 + 2 * alpha * entry x i) * entry (r - (x + d)) i =
      2 * entry (r - (x + d)) (i + 1) + -alpha * entry (r - x) i ^ 2 := by
    intro i hi
    have h1 := link_add alpha 1 x (r - x) i
    rw [add_sub_cancel, hlr i hi] at h1
    have h2 := hl i hi
    have e1 : entry (r - (x + d)) i = entry (r - x) i - entry d i := by
      rw [entry_sub, entry_sub, entry_add]; ring
    have e2 : entry (r - (x + d)) (i + 1) = entry (r - x) (i + 1) - entry d (i + 1) := by
      rw [entry_sub, entry_sub, entry_add]; ring
    rw [e1, e2, mul_sub]
    linarith
  have hnew := maximum_principle (n := k + 2) (v := fun i => entry (r - (x + d)) i)
    (mul_nonneg (neg_nonneg.2 hα.le) (sq_nonneg E)) hp (entry_of_ge _ (le_refl _)) hdist
    fun i hi => by
      have h0 : 0 ≤ entry (r - x) i := by rw [entry_sub]; linarith [h.upper i hi]
      have h1 : entry (r - x) i ≤ E := by rw [entry_sub]; exact h.near i hi
      exact ⟨mul_nonneg (neg_nonneg.2 hα.le) (sq_nonneg _),
        mul_le_mul_of_nonneg_left (pow_le_pow_left₀ h0 h1 2) (neg_nonneg.2 hα.le)⟩
  refine ⟨⟨fun i hi => ?_, fun i hi => ?_, fun i hi => ?_, fun i hi => ?_⟩, fun i hi => (hdpos i hi.le).1⟩
  · rw [entry_add]; linarith [h.lower i hi, (hdpos i hi.le).1]
  · have := (hnew i hi.le).1
    change 0 ≤ entry (r - (x + d)) i at this
    rw [entry_sub] at this
    linarith
  · rw [link_add, hl i hi]
    have := mul_nonneg (neg_nonneg.2 hα.le) (sq_nonneg (entry d i))
    linarith
  · have := (hnew i hi.le).2
    change entry (r - (x + d)) i ≤ _ at this
    rwa [entry_sub] at this

/-- The residuals, from the distance. -/
theorem below_residual (hα : alpha < 0) (hr : broyden alpha 1 r = 0) (hneg : ∀ i, r i ≤ 0) {E : K}
    {x : Vec K (k + 2)} (h : Below alpha r E x) (i : Fin (k + 2)) :
    0 ≤ broyden alpha 1 x i ∧ broyden alpha 1 x i ≤ (k + 2 : ℕ) * ((3 - 2 * alpha) * E) := by
  have hlr := (broyden_eq_zero _ _ _).1 hr
  have hle : ∀ i < k + 2, link alpha 1 x i ≤ (3 - 2 * alpha) * E := by
    intro i hi
    have h1 := link_add alpha 1 x (r - x) i
    rw [add_sub_cancel, hlr i hi, entry_sub, entry_sub] at h1
    have h2 : 0 ≤ entry r (i + 1) - entry x (i + 1) := by
      by_cases hi' : i + 1 < k + 2
      · linarith [h.upper _ hi']
      · rw [entry_of_ge _ (by omega), entry_of_ge _ (by omega)]; linarith
    have h3 := h.upper i hi
    have h4 := h.near i hi
    have h5 := h.lower i hi
    have h6 := below_nonpos hneg h i
    have h7 : link alpha 1 x i ≤ (3 + 2 * alpha * entry x i) * (entry r i - entry x i) := by
      have := mul_nonneg (neg_nonneg.2 hα.le) (sq_nonneg (entry r i - entry x i))
      linarith
    refine h7.trans ?_
    have h8 : 2 * alpha * entry x i ≤ -(2 * alpha) := by
      have := mul_nonneg (neg_nonneg.2 hα.le) (by linarith : 0 ≤ entry x i + 1)
      linarith
    have h9 : 0 ≤ entry r i - entry x i := by linarith
    calc (3 + 2 * alpha * entry x i) * (entry r i - entry x i) ≤ (3 - 2 * alpha) * (entry r i - entry x i) :=
          mul_le_mul_of_nonneg_right (by linarith) h9
      _ ≤ (3 - 2 * alpha) * E := mul_le_mul_of_nonneg_left h4 (by linarith)
  rw [broyden_eq_sums]
  have e : (sums (k + 2) *ᵥ fun i : Fin (k + 2) => link alpha 1 x i) i =
      ∑ l : Fin (k + 2), (if l ≤ i then 1 else 0) * link alpha 1 x l := rfl
  rw [e]
  constructor
  · refine Finset.sum_nonneg fun l _ => mul_nonneg ?_ (h.links l l.2)
    split <;> simp
  · calc ∑ l : Fin (k + 2), (if l ≤ i then 1 else 0) * link alpha 1 x l ≤
        ∑ _l : Fin (k + 2), (3 - 2 * alpha) * E := Finset.sum_le_sum fun l _ => by
            have h1 := h.links l l.2
            have h2 := hle l l.2
            split
            · rw [one_mul]; exact h2
            · rw [zero_mul]; exact h1.trans h2
      _ = (k + 2 : ℕ) * ((3 - 2 * alpha) * E) := by simp

/-- The distance, from the residuals. -/
theorem below_distance (hα : alpha < 0) (hr : broyden alpha 1 r = 0) (hneg : ∀ i, r i ≤ 0) {E : K}
    {x : Vec K (k + 2)} (h : Below alpha r E x) {tol : K} (htol : 0 ≤ tol) (hx : ∀ i, |broyden alpha 1 x i| ≤ tol) :
    ∀ i < k + 2, entry r i - entry x i ≤ tol := by
  have hlr := (broyden_eq_zero _ _ _).1 hr
  have hlink : ∀ i < k + 2, link alpha 1 x i ≤ tol := by
    intro i hi
    have h1 := (abs_le.1 (hx ⟨i, hi⟩)).2
    refine le_trans ?_ h1
    cases i with
    | zero => change _ ≤ broydenAt alpha 1 x 0 hi; rw [broydenAt_zero]
    | succ i =>
      change _ ≤ broydenAt alpha 1 x (i + 1) hi
      rw [broydenAt_succ]
      have : 0 ≤ broyden alpha 1 x ⟨i, by omega⟩ := (below_residual hα hr hneg h _).1
      change 0 ≤ broydenAt alpha 1 x i _ at this
      linarith
  have hmp := maximum_principle (n := k + 2) (p := fun i => 3 + alpha * (entry x i + entry r i))
    (v := fun i => entry (r - x) i) (g := fun i => link alpha 1 x i) htol
    (fun i hi => by
      have h1 := mul_nonneg (neg_nonneg.2 hα.le) (neg_nonneg.2 (below_nonpos hneg h i))
      have h2 := mul_nonneg (neg_nonneg.2 hα.le) (neg_nonneg.2 (entry_nonpos hneg i))
      linarith)
    (entry_of_ge _ (le_refl _))
    (fun i hi => by
      have h1 := link_add alpha 1 x (r - x) i
      rw [add_sub_cancel, hlr i hi] at h1
      have e : entry r i = entry x i + entry (r - x) i := by rw [entry_sub]; ring
      change (3 + alpha * (entry x i + entry r i)) * entry (r - x) i = 2 * entry (r - x) (i + 1) + link alpha 1 x i
      rw [e]
      linarith)
    fun i hi => ⟨h.links i hi, hlink i hi⟩
  intro i hi
  have := (hmp i hi.le).2
  change entry (r - x) i ≤ tol at this
  rwa [entry_sub] at this

end
end Nrf

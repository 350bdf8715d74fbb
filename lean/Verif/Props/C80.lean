import Verif.Props.C02

set_option linter.unusedSectionVars false

/-!
# C80: overflow is not success

A side of an equation overflowed, or the sum of the sides formed by the relative and adaptive criteria does.
-/

namespace Nrf

open Spec

variable {K : Type} [Field K] [LinearOrder K] [Rounding K] [IsStrictOrderedRing K] {n : Nat} {EI EU S : Type}

/-- An infinite side makes relative and adaptive residuals NaN. -/
private theorem norm_infinite {x y : Fl K} (h : (∃ s, x = .inf s) ∨ ∃ s, y = .inf s) {meth : NormalizationMethod}
    (hm : meth ≠ .Abs) : normalization x y meth = .nan := by
  cases meth with
  | Abs => exact absurd rfl hm
  | Rel =>
    change Fl.div (Fl.sub x y) (Fl.div (Fl.abs (Fl.add x y)) Fl.two) = .nan
    rcases h with ⟨s, rfl⟩ | ⟨s, rfl⟩
    · rcases y with _ | t | t | ⟨y, hy⟩ <;> cases s <;> (try cases t) <;> rfl
    · rcases x with _ | t | t | ⟨x, hx⟩ <;> cases s <;> (try cases t) <;> rfl
  | Adapt =>
    change Fl.div (Fl.sub x y) (Fl.add Fl.one (Fl.div (Fl.abs (Fl.add x y)) Fl.two)) = .nan
    rcases h with ⟨s, rfl⟩ | ⟨s, rfl⟩
    · rcases y with _ | t | t | ⟨y, hy⟩ <;> cases s <;> (try cases t) <;> rfl
    · rcases x with _ | t | t | ⟨x, hx⟩ <;> cases s <;> (try cases t) <;> rfl

/-- The absolute residual is infinite when one side is, unless the sides are the same infinity or one is NaN. -/
private theorem abs_infinite {x y : Fl K} (h : (∃ s, x = .inf s) ∨ ∃ s, y = .inf s) :
    normalization x y .Abs = .nan ∨ ∃ s, normalization x y .Abs = .inf s := by
  change Fl.sub x y = .nan ∨ ∃ s, Fl.sub x y = .inf s
  rcases h with ⟨s, rfl⟩ | ⟨s, rfl⟩
  · rcases y with _ | t | t | ⟨y, hy⟩
    · exact .inl rfl
    · cases s <;> cases t
      · exact .inl rfl
      · exact .inr ⟨_, rfl⟩
      · exact .inr ⟨_, rfl⟩
      · exact .inl rfl
    · exact .inr ⟨_, rfl⟩
    · exact .inr ⟨_, rfl⟩
  · rcases x with _ | t | t | ⟨x, hx⟩
    · exact .inl rfl
    · cases s <;> cases t
      · exact .inl rfl
      · exact .inr ⟨_, rfl⟩
      · exact .inr ⟨_, rfl⟩
      · exact .inl rfl
    · exact .inr ⟨_, rfl⟩
    · exact .inr ⟨_, rfl⟩

/-- Finite sides whose sum overflows, while their difference does not, have relative and adaptive residual zero. -/
private theorem norm_overflow {x y : Fl K} (hsum : ∃ s, Fl.add x y = .inf s) (hdiff : (Fl.sub x y).IsFinite)
    {meth : NormalizationMethod} (hm : meth ≠ .Abs) : ∃ z, normalization x y meth = .zero z := by
  obtain ⟨s, hs⟩ := hsum
  cases meth with
  | Abs => exact absurd rfl hm
  | Rel =>
    change ∃ z, Fl.div (Fl.sub x y) (Fl.div (Fl.abs (Fl.add x y)) Fl.two) = .zero z
    rw [hs, show Fl.div (Fl.abs (.inf s : Fl K)) Fl.two = .inf (false ^^ Fl.sign (Fl.two : Fl K)) from rfl]
    rcases h : Fl.sub x y with _ | t | t | ⟨d, hd⟩
    · rw [h] at hdiff; cases hdiff
    · rw [h] at hdiff; cases hdiff
    · exact ⟨_, rfl⟩
    · exact ⟨_, rfl⟩
  | Adapt =>
    change ∃ z, Fl.div (Fl.sub x y) (Fl.add Fl.one (Fl.div (Fl.abs (Fl.add x y)) Fl.two)) = .zero z
    rw [hs, show Fl.add Fl.one (Fl.div (Fl.abs (.inf s : Fl K)) Fl.two) =
      .inf (false ^^ Fl.sign (Fl.two : Fl K)) from rfl]
    rcases h : Fl.sub x y with _ | t | t | ⟨d, hd⟩
    · rw [h] at hdiff; cases hdiff
    · rw [h] at hdiff; cases hdiff
    · exact ⟨_, rfl⟩
    · exact ⟨_, rfl⟩

/-- A maximum of absolute values, each NaN or zero, is NaN or zero. -/
private theorem amax_null (v : Vec (Fl K) n) (h : ∀ i, v i = .nan ∨ ∃ z, v i = .zero z) :
    amax v = .nan ∨ ∃ z, amax v = .zero z := by
  have hfold : ∀ (l : List (Fl K)) (a : Fl K), (a = .nan ∨ ∃ z, a = .zero z) →
      (∀ b ∈ l, b = .nan ∨ ∃ z, b = .zero z) →
      (l.foldl (fun a b => simdMax a (Scalar.abs b)) a = .nan ∨
        ∃ z, l.foldl (fun a b => simdMax a (Scalar.abs b)) a = .zero z) := by
    intro l
    induction l with
    | nil => intro a ha _; exact ha
    | cons x l ih =>
      intro a ha hl
      refine ih _ ?_ fun b hb => hl b (by simp [hb])
      change (if Scalar.le (Scalar.abs x) a = true then a else Scalar.abs x) = .nan ∨
        ∃ z, (if Scalar.le (Scalar.abs x) a = true then a else Scalar.abs x) = .zero z
      split
      · exact ha
      · rcases hl x (by simp) with rfl | ⟨z, rfl⟩
        · exact .inl rfl
        · exact .inr ⟨_, rfl⟩
  unfold amax
  have hmem : ∀ b, b ∈ List.ofFn v ↔ ∃ i, v i = b := fun b => by simp [List.mem_ofFn]
  rcases hl : List.ofFn v with _ | ⟨x, l⟩
  · exact .inr ⟨false, rfl⟩
  · have hall : ∀ b ∈ x :: l, b = .nan ∨ ∃ z, b = .zero z := by
      intro b hb
      rw [← hl] at hb
      obtain ⟨j, rfl⟩ := (hmem b).1 hb
      exact h j
    refine hfold l _ ?_ fun b hb => hall b (by simp [hb])
    rcases hall x (by simp) with rfl | ⟨z, rfl⟩
    · exact .inl rfl
    · exact .inr ⟨_, rfl⟩

/-- The sides of an equation overflow: one is infinite, or both are finite, their sum is not and their difference is. -/
def Spec.Overflows (x y : Fl K) : Prop :=
  (∃ s, x = .inf s) ∨ (∃ s, y = .inf s) ∨ (∃ s, Fl.add x y = .inf s) ∧ (Fl.sub x y).IsFinite

/-- The property is false of the code.  When every equation has a relative or adaptive criterion and its sides
overflow at the guess, a solver reports success at once, whatever its (non-negative) tolerance. -/
theorem C80_refuted (c : Config (Fl K) n) (m : UserModel (Fl K) n EI EU S)
    (ht : Scalar.lt c.params.tolerance Scalar.zero = false)
    (st : Solver (Fl K) n) (hd : st.debug = false) (hv : st.valid = true) (s s1 : S)
    (he : m.evaluate (m.setIteratives s c.guess) = (s1, .ok ())) (hstop : ∀ i, c.res.stop i ≠ .Abs)
    (hinf : ∀ i, Overflows ((m.getResiduals s1).left i) ((m.getResiduals s1).right i)) :
    solve c m st s = .ok (st, s1, .ok ()) := by
  have ha : amax (evaluateErrors c m s1) = .nan ∨ ∃ z, amax (evaluateErrors c m s1) = .zero z := by
    refine amax_null _ fun i => ?_
    change Fl.abs (normalization _ _ _) = .nan ∨ ∃ z, Fl.abs (normalization _ _ _) = .zero z
    rcases hinf i with h | h | ⟨h1, h2⟩
    · left; rw [norm_infinite (.inl h) (hstop i)]; rfl
    · left; rw [norm_infinite (.inr h) (hstop i)]; rfl
    · obtain ⟨z, hz⟩ := norm_overflow h1 h2 (hstop i)
      right; rw [hz]; exact ⟨_, rfl⟩
  have hlt : Scalar.lt c.params.tolerance (amax (evaluateErrors c m s1)) = false := by
    rcases ha with h | ⟨z, h⟩
    · rw [h]
      change Fl.ltb _ _ = false
      cases c.params.tolerance <;> rfl
    · rw [h]
      change Fl.ltb _ _ = false
      have : Fl.ltb c.params.tolerance (.zero false) = false := ht
      rw [← this]
      cases c.params.tolerance <;> rfl
  rw [solve_usable he .ok, solveFrom_noDebug hd, loop_eq]
  simp [continues, finalResult, hlt, hv]

/-- What remains: with a finite tolerance, a solve that succeeds without NaN among its stopping residuals ends where
every side of every equation is finite.  (Missing: the sum of finite sides may have overflowed.) -/
theorem C80_finite_partial (c : Config (Fl K) n) (m : UserModel (Fl K) n EI EU S)
    (ht : c.params.tolerance.IsFinite) (st st' : Solver (Fl K) n) (s s' : S)
    (h : solve c m st s = .ok (st', s', .ok ()))
    (hnan : ∀ i, normalization ((m.getResiduals s').left i) ((m.getResiduals s').right i) (c.res.stop i) ≠ .nan)
    (i : Fin n) : ((m.getResiduals s').left i).IsFinite ∧ ((m.getResiduals s').right i).IsFinite := by
  have hle := C02_partial c m ht.not_nan st st' s s' h hnan i
  have key : ¬((∃ b, (m.getResiduals s').left i = .inf b) ∨ ∃ b, (m.getResiduals s').right i = .inf b) := by
    intro hi
    by_cases hs : c.res.stop i = .Abs
    · have hn := hnan i
      rw [hs] at hle hn
      rcases abs_infinite hi with h1 | ⟨b, h1⟩
      · exact hn h1
      · rw [h1] at hle
        change Fl.leb (.inf false) c.params.tolerance = true at hle
        cases htol : c.params.tolerance with
        | nan => rw [htol] at hle; cases hle
        | inf b => rw [htol] at ht; exact ht
        | zero b => rw [htol] at hle; cases hle
        | num x hx => rw [htol] at hle; cases hle
    · exact hnan i (norm_infinite hi hs)
  have hn1 : (m.getResiduals s').left i ≠ .nan := by
    intro h1
    refine hnan i ?_
    rw [h1]
    cases c.res.stop i <;> rfl
  have hn2 : (m.getResiduals s').right i ≠ .nan := by
    intro h1
    refine hnan i ?_
    rw [h1]
    cases hl : (m.getResiduals s').left i <;> cases c.res.stop i <;> rfl
  constructor
  · rcases Fl.finite_or hn1 with h1 | h1
    · exact h1
    · exact absurd (.inl h1) key
  · rcases Fl.finite_or hn2 with h1 | h1
    · exact h1
    · exact absurd (.inr h1) key

/-- With the absolute criterion, an equation with one infinite and one finite side is never accepted beside
residuals that are not NaN. -/
theorem C80_absolute (c : Config (Fl K) n) (m : UserModel (Fl K) n EI EU S)
    (ht : c.params.tolerance.IsFinite) (st st' : Solver (Fl K) n) (s s' : S)
    (h : solve c m st s = .ok (st', s', .ok ())) (i : Fin n) (hi : c.res.stop i = .Abs)
    (hnan : ∀ j, j ≠ i →
      normalization ((m.getResiduals s').left j) ((m.getResiduals s').right j) (c.res.stop j) ≠ .nan)
    (hright : ((m.getResiduals s').right i).IsFinite) (b : Bool) : (m.getResiduals s').left i ≠ .inf b := by
  intro hl
  refine absurd (C80_finite_partial c m ht st st' s s' h (fun j => ?_) i).1 (by rw [hl]; exact id)
  by_cases hj : j = i
  · subst hj
    rw [hi, hl]
    change Fl.sub _ _ ≠ .nan
    cases hr : (m.getResiduals s').right j with
    | nan => rw [hr] at hright; exact hright.elim
    | inf b => rw [hr] at hright; exact hright.elim
    | zero b => exact fun h => nomatch h
    | num x hx => exact fun h => nomatch h
  · exact hnan j hj

instance (a : Fl K) : Decidable a.IsFinite := by
  cases a <;> unfold Fl.IsFinite <;> infer_instance

namespace Demo64

/-- The left side `1.6e308 (x + 1)`, for a right side `4e307`: the root is `x = -3/4`. -/
def huge : UserModel F64 1 Empty Empty (AdapterState F64 1) :=
  fromFunctionAndJacobian (fun x _ => Scalar.mul (ofRat (16 * 10 ^ 307)) (Scalar.add (x 0) Scalar.one)) fun _ _ _ => ofRat (16 * 10 ^ 307)

def hugeStart : AdapterState F64 1 := { AdapterState.new with right := fun _ => ofRat (4 * 10 ^ 307) }

end Demo64

/-- Hypotheses of `C80_refuted`: at `x = 0.1` the sides `1.76e308` and `4e307` count as equal in
binary64. -/
example : ∃ s1, Demo64.huge.evaluate (Demo64.huge.setIteratives Demo64.hugeStart (Demo64.cfg 3).guess) = (s1, .ok ()) ∧
    (∀ i, Overflows ((Demo64.huge.getResiduals s1).left i) ((Demo64.huge.getResiduals s1).right i)) ∧
    Scalar.lt (Demo64.cfg 3).params.tolerance Scalar.zero = false ∧
    Demo.kind (solve { Demo64.cfg 3 with res := ⟨fun _ => .Adapt, fun _ => .Abs⟩ } Demo64.huge .new Demo64.hugeStart) =
      .ok := by
  refine ⟨_, rfl, fun i => .inr (.inr ⟨⟨false, ?_⟩, ?_⟩), ?_, ?_⟩
  · revert i; decide +kernel
  · revert i; decide +kernel
  · decide +kernel
  · decide +kernel

/-- Hypotheses of the other two theorems: a binary64 solve with finite tolerance that succeeds after three iterations
with a number as residual. -/
example : Demo.kind (solve (Demo64.cfg 3) Demo64.sqrt2 .new .new) = .ok ∧
    (Demo64.cfg 3).params.tolerance.IsFinite := by constructor <;> decide +kernel

end Nrf

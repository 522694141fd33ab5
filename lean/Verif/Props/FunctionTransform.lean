import Verif.Model.FunctionTransform
import Mathlib.Tactic.Linarith
import Mathlib.Tactic.NormNum
import Mathlib.Tactic.Positivity
import Mathlib.Data.Fintype.BigOperators
import Mathlib.Analysis.Normed.Ring.Lemmas
/-
C51: transformations of objective functions.
-/
namespace Verif.FunctionTransform

variable {n : ℕ}

/-- `x` is a best point of `f` in the direction given by `minimise`. -/
def Optimal (minimise : Bool) (f : Vec n → ℝ) (x : Vec n) : Prop :=
  ∀ y, (minimise = true → f x ≤ f y) ∧ (minimise = false → f y ≤ f x)

/-- The base function does not read any array (true for all functions that do not use `self.xopt`). -/
def Closed (b : FEnv n) : Prop := ∀ h h', b.f h = b.f h'

theorem penalize_eq (x : Vec n) (d : ℝ) (hd : 0 ≤ d) : penalize x d = ∑ i, (max (|x i| - d) 0) ^ 2 := by
  unfold penalize penalizeWith
  apply Finset.sum_congr rfl
  intro i _
  have h1 : ‖x i‖₊ ≤ Finset.univ.sup (fun i => ‖x i‖₊) := Finset.le_sup (f := fun i => ‖x i‖₊) (Finset.mem_univ i)
  have h2 : |x i| ≤ ((Finset.univ.sup (fun i => ‖x i‖₊) : NNReal) : ℝ) := by
    have : ((‖x i‖₊ : NNReal) : ℝ) ≤ ((Finset.univ.sup (fun i => ‖x i‖₊) : NNReal) : ℝ) := by exact_mod_cast h1
    simpa using this
  have h3 : max (|x i| - d) 0 ≤ ((Finset.univ.sup (fun i => ‖x i‖₊) : NNReal) : ℝ) := by
    apply max_le
    · linarith
    · exact NNReal.coe_nonneg _
  rw [min_eq_left h3]; ring

end Verif.FunctionTransform

namespace Verif.Props

open Verif.FunctionTransform

variable {n : ℕ}

/-- C51: `oppositeFunction` negates the values and the target value and swaps minimisation and
maximisation, so that the best points stay the best points. -/
theorem C51_opposite (b : FEnv n) (e : Evaluator n) (h : Heap n) :
    (∀ x, (oppositeEnv b).f h x = -b.f h x) ∧ (∀ x, (oppositeEvaluator e).f x = -e.f x) ∧
    (oppositeEnv b).toBeMinimized = !b.toBeMinimized ∧ (oppositeEvaluator e).toBeMinimized = !e.toBeMinimized ∧
    (oppositeEnv b).xopt = b.xopt ∧
    (∀ x, Optimal (oppositeEnv b).toBeMinimized ((oppositeEnv b).f h) x ↔ Optimal b.toBeMinimized (b.f h) x) ∧
    (∀ x, Optimal (oppositeEvaluator e).toBeMinimized (oppositeEvaluator e).f x ↔ Optimal e.toBeMinimized e.f x) := by
  refine ⟨fun _ => rfl, fun _ => rfl, rfl, rfl, rfl, ?_, ?_⟩
  · intro x
    unfold Optimal
    simp only [oppositeEnv]
    constructor <;> intro g y <;> obtain ⟨g1, g2⟩ := g y <;> cases hb : b.toBeMinimized <;> simp_all
  · intro x
    unfold Optimal
    simp only [oppositeEvaluator]
    constructor <;> intro g y <;> obtain ⟨g1, g2⟩ := g y <;> cases hb : e.toBeMinimized <;> simp_all

/-- C51: `oppositeFunction` is an involution on functions and on evaluators, and on function
environments with a desired value. -/
theorem C51_involution (f : Vec n → ℝ) (e : Evaluator n) (b : FEnv n) (v : ℝ) (hv : b.desiredValue = some v) :
    oppositeFun (oppositeFun f) = f ∧ oppositeEvaluator (oppositeEvaluator e) = e ∧
    (oppositeEnv (oppositeEnv b)).f = b.f ∧ (oppositeEnv (oppositeEnv b)).desiredValue = b.desiredValue ∧
    (oppositeEnv (oppositeEnv b)).toBeMinimized = b.toBeMinimized ∧ (oppositeEnv (oppositeEnv b)).xopt = b.xopt := by
  refine ⟨by funext x; simp [oppositeFun], ?_, ?_, ?_, ?_, rfl⟩
  · obtain ⟨g, d, m⟩ := e
    simp only [oppositeEvaluator, neg_neg, Bool.not_not]
    cases d <;> simp
  · funext h x; simp [oppositeEnv]
  · simp [oppositeEnv, hv]
  · simp [oppositeEnv]

/-- C51: without a desired value the environment version is not an involution: a target of `-1e-10`
appears. -/
theorem C51_negation_desired (b : FEnv n) (hv : b.desiredValue = none) :
    (oppositeEnv (oppositeEnv b)).desiredValue = some (-(1 / 10 ^ 10)) := by
  simp [oppositeEnv, hv, defaultDesired]

/-- C51: a translated function takes the base's value at the point it reports as optimum, and is the
shifted base function everywhere, for bases that do not read `xopt` in their function. -/
theorem C51_translate_partial (h : Heap n) (b : FEnv n) (hb : Closed b) (offset : Vec n) :
    let (h', t) := translate h b offset
    t.f h' (h' t.xopt) = b.f h (h b.xopt) ∧ (∀ x, t.f h' (x + offset) = b.f h x) ∧
    h' t.xopt = h b.xopt + offset ∧
    (Optimal b.toBeMinimized (b.f h) (h b.xopt) → Optimal t.toBeMinimized (t.f h') (h' t.xopt)) := by
  simp only [translate, if_true]
  refine ⟨?_, ?_, trivial, ?_⟩
  · rw [add_sub_cancel_right]; exact congrFun (hb _ _) _
  · intro x; rw [add_sub_cancel_right]; exact congrFun (hb _ _) _
  · intro ho y
    have := ho (y - offset)
    beta_reduce
    rw [add_sub_cancel_right, hb _ h]
    exact this

/-- C51: translating changes the base's `xopt` as well (it is the same array). -/
theorem C51_negation_translate_base (h : Heap n) (b : FEnv n) (offset : Vec n) (ho : offset ≠ 0) :
    (translate h b offset).1 b.xopt ≠ h b.xopt := by
  simp only [translate, if_true]
  intro e
  exact ho (by simpa using e)

/-- C51: after a second translation of the same base both translated functions report the same wrong
point: each function takes there the base's value at a point shifted by the other's offset. -/
theorem C51_negation_translate_twice (h : Heap n) (b : FEnv n) (hb : Closed b) (o1 o2 : Vec n) :
    let (h1, t1) := translate h b o1
    let (h2, t2) := translate h1 b o2
    t1.f h2 (h2 t1.xopt) = b.f h (h b.xopt + o2) ∧ t2.f h2 (h2 t2.xopt) = b.f h (h b.xopt + o1) := by
  simp only [translate, if_true]
  constructor
  · rw [show h b.xopt + o1 + o2 - o1 = h b.xopt + o2 by abel]; exact congrFun (hb _ _) _
  · rw [add_sub_cancel_right]; exact congrFun (hb _ _) _

/-- C51: a rotated function leaves the base's data alone; at the point it reports it takes the base's
value at `Mᵀ M⁻¹ xopt`.  That is the optimum when `xopt = 0` (the default) or `M` is symmetric. -/
theorem C51_rotate_partial (h : Heap n) (fresh : ℕ) (b : FEnv n) (hb : Closed b) (hf : fresh ≠ b.xopt) (M : Matrix (Fin n) (Fin n) ℝ) :
    let (h', r) := rotate h fresh b M
    h' b.xopt = h b.xopt ∧ (∀ x, r.f h' x = b.f h (Matrix.vecMul x M)) ∧
    r.f h' (h' r.xopt) = b.f h (Matrix.mulVec M.transpose (Matrix.mulVec M⁻¹ (h b.xopt))) ∧
    (h b.xopt = 0 ∨ (M.transpose = M ∧ IsUnit M.det) → r.f h' (h' r.xopt) = b.f h (h b.xopt)) := by
  simp only [rotate, if_true]
  have key : ∀ h' : Heap n, b.f h' (Matrix.vecMul (Matrix.mulVec M⁻¹ (h b.xopt)) M) = b.f h (Matrix.mulVec M.transpose (Matrix.mulVec M⁻¹ (h b.xopt))) := by
    intro h'
    rw [Matrix.mulVec_transpose]
    exact congrFun (hb _ _) _
  refine ⟨by rw [if_neg (Ne.symm hf)], fun x => congrFun (hb _ _) _, key _, ?_⟩
  intro hc
  rw [key]
  rcases hc with hc | ⟨hc, hd⟩
  · rw [hc, Matrix.mulVec_zero, Matrix.mulVec_zero]
  · rw [hc, Matrix.mulVec_mulVec, Matrix.mul_nonsing_inv M hd, Matrix.one_mulVec]

/-- The squared distance from `c`, an environment whose optimum is `c` (stored at address 0). -/
noncomputable def FunctionTransform.bowl (c : Vec 2) : FEnv 2 :=
  { f := fun _ x => ∑ i, (x i - c i) ^ 2, xopt := 0, desiredValue := some 0, toBeMinimized := true, penalized := false }

/-- C51: rotating the bowl around `(1, 0)` by a quarter turn reports `(0, -1)`, where the rotated function has value 4 instead of 0. -/
theorem C51_negation_rotate :
    let b := FunctionTransform.bowl ![1, 0]
    let h : Heap 2 := fun _ => ![1, 0]
    let M : Matrix (Fin 2) (Fin 2) ℝ := !![0, -1; 1, 0]
    let (h', r) := rotate h 1 b M
    b.f h (h b.xopt) = 0 ∧ r.f h' (h' r.xopt) = 4 := by
  have hinv : (!![0, -1; 1, 0] : Matrix (Fin 2) (Fin 2) ℝ)⁻¹ = !![0, 1; -1, 0] := by
    apply Matrix.inv_eq_right_inv
    ext i j
    fin_cases i <;> fin_cases j <;> simp [Matrix.mul_apply, Fin.sum_univ_two]
  simp only [rotate, FunctionTransform.bowl, if_true]
  rw [hinv]
  constructor
  · simp [Fin.sum_univ_two]
  · simp [Fin.sum_univ_two, Matrix.vecMul, Matrix.mulVec, dotProduct]
    norm_num

/-- C51: the penalty of a soft constraint is the sum of the squared excesses over the box, so that the
function is unchanged inside the box, and outside it is worse (in the direction of optimisation); an
optimum inside the box stays an optimum. -/
theorem C51_soft (b : FEnv n) (hp : b.penalized = false) (h : Heap n) (d factor : ℝ) (hd : 0 ≤ d) (hf : 0 ≤ factor) :
    (∀ x, (∀ i, |x i| ≤ d) → (softConstrain b d factor).f h x = b.f h x) ∧
    (∀ x, (softConstrain b d factor).f h x = b.f h x + (∑ i, (max (|x i| - d) 0) ^ 2) * (if b.toBeMinimized then factor else -factor)) ∧
    (∀ x, (∀ i, |x i| ≤ d) → Optimal b.toBeMinimized (b.f h) x → Optimal b.toBeMinimized ((softConstrain b d factor).f h) x) := by
  have key : ∀ x, (softConstrain b d factor).f h x = b.f h x + (∑ i, (max (|x i| - d) 0) ^ 2) * (if b.toBeMinimized then factor else -factor) := by
    intro x
    simp only [softConstrain, hp, Bool.false_eq_true, if_false]
    rw [penalize_eq x d hd]
  have hin : ∀ x : Vec n, (∀ i, |x i| ≤ d) → ∑ i, (max (|x i| - d) 0) ^ 2 = 0 := by
    intro x hx
    apply Finset.sum_eq_zero
    intro i _
    rw [max_eq_right (by linarith [hx i])]; simp
  refine ⟨?_, key, ?_⟩
  · intro x hx; rw [key, hin x hx]; simp
  · intro x hx ho y
    have hy := ho y
    rw [key x, key y, hin x hx]
    have hnn : 0 ≤ ∑ i, (max (|y i| - d) 0) ^ 2 := Finset.sum_nonneg (fun i _ => sq_nonneg _)
    have := mul_nonneg hnn hf
    cases hb : b.toBeMinimized <;> rw [hb] at hy <;> simp only [Bool.false_eq_true, false_implies, true_and, and_true, forall_const, reduceCtorEq, if_true, if_false] at hy ⊢ <;> linarith

example : Closed (FunctionTransform.bowl ![1, 0]) := fun _ _ => rfl
example : Optimal true ((FunctionTransform.bowl ![1, 0]).f (fun _ => ![1, 0])) ![1, 0] := by
  intro y
  simp [FunctionTransform.bowl, Fin.sum_univ_two]
  positivity
example : (FunctionTransform.bowl ![1, 0]).penalized = false ∧ ∀ i, |(![1, 0] : Vec 2) i| ≤ 5 := by
  refine ⟨rfl, ?_⟩
  intro i
  fin_cases i <;> simp

end Verif.Props

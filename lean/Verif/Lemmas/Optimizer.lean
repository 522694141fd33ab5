import Verif.Model.Optimizer
import Verif.Spec.Optimizer
import Mathlib.Algebra.Order.Group.Basic
/-
Lemmas about the optimizer model.
-/
namespace Verif.Opt
open Spec

variable {X K : Type} [AddCommGroup K] [LinearOrder K] [IsOrderedAddMonoid K]

theorem better_iff (m : Bool) (a b : K) : better (some m) a b = true ↔ AsGood m a b := by
  cases m <;> simp [better, AsGood]

theorem not_better_iff (m : Bool) (a b : K) : better (some m) a b = false ↔ Better m b a := by
  cases m <;> simp [better, Better]

theorem asGood_trans {m : Bool} {a b c : K} (h1 : AsGood m a b) (h2 : AsGood m b c) : AsGood m a c := by
  cases m
  · simp only [AsGood, Bool.false_eq_true, if_false] at *; exact le_trans h2 h1
  · simp only [AsGood, if_true] at *; exact le_trans h1 h2

theorem better_asGood {m : Bool} {a b : K} (h : Better m a b) : AsGood m a b := by
  cases m <;> simp only [AsGood, Better, Bool.false_eq_true, if_false, if_true] at * <;> exact h.le

/-- The state's best is the best of the log, which holds all evaluations since evaluation number `n0`. -/
structure Tracks (f : Objective X K) (m : Bool) (n0 : Nat) (s : Opt X K) (log : List (X × K)) : Prop where
  min : s.minimize = some m
  eval : s.evaluator = some f
  num : s.numEvaluations = n0 + log.length
  isLog : LogOf f n0 log
  best : (log = [] ∧ s.bestEvaluation = none) ∨ (∃ x b, s.bestEvaluation = some b ∧ s.bestEvaluable = some x ∧ BestOf m log x b)

theorem LogOf.snoc {f : Nat → X → Option K} {n : Nat} {log : List (X × K)} (h : LogOf f n log) {x : X} {r : K}
    (hx : f (n + log.length) x = some r) : LogOf f n (log ++ [(x, r)]) := by
  intro i y v hi
  rcases Nat.lt_trichotomy i log.length with hlt | heq | hgt
  · rw [List.getElem?_append_left hlt] at hi; exact h i y v hi
  · subst heq
    rw [List.getElem?_concat_length] at hi
    cases hi; exact hx
  · rw [List.getElem?_eq_none (by rw [List.length_append]; simp; omega)] at hi; simp at hi

theorem BestOf.snoc_better {m : Bool} {log : List (X × K)} {x : X} {b : K} (h : BestOf m log x b) {y : X} {r : K}
    (hr : AsGood m r b) : BestOf m (log ++ [(y, r)]) y r := by
  obtain ⟨pre, post, rfl, h1, h2⟩ := h
  refine ⟨pre ++ (x, b) :: post, [], rfl, ?_, by simp⟩
  intro p hp
  rcases List.mem_append.1 hp with hp | hp
  · exact asGood_trans hr (h1 p hp)
  · rcases List.mem_cons.1 hp with rfl | hp
    · exact hr
    · exact asGood_trans hr (better_asGood (h2 p hp))

theorem BestOf.snoc_worse {m : Bool} {log : List (X × K)} {x : X} {b : K} (h : BestOf m log x b) {y : X} {r : K}
    (hr : Better m b r) : BestOf m (log ++ [(y, r)]) x b := by
  obtain ⟨pre, post, rfl, h1, h2⟩ := h
  refine ⟨pre, post ++ [(y, r)], by simp, h1, ?_⟩
  intro p hp
  rcases List.mem_append.1 hp with hp | hp
  · exact h2 p hp
  · rw [List.mem_singleton] at hp; subst hp; exact hr

theorem oneEvaluation_none (s : Opt X K) (x : X) (h : (oneEvaluation s x).2 = none) : (oneEvaluation s x).1 = s := by
  unfold oneEvaluation at *
  split
  · rfl
  · rename_i r hr
    rw [hr] at h; simp at h

theorem oneEvaluation_some (s : Opt X K) (x : X) (r : K) (h : (oneEvaluation s x).2 = some r) :
    (s.evaluator.bind (fun f => f s.numEvaluations x)) = some r ∧
    (oneEvaluation s x).1.minimize = s.minimize ∧ (oneEvaluation s x).1.evaluator = s.evaluator ∧
    (oneEvaluation s x).1.numEvaluations = s.numEvaluations + 1 ∧
    (isNewBest s r = true → (oneEvaluation s x).1.bestEvaluation = some r ∧ (oneEvaluation s x).1.bestEvaluable = some x) ∧
    (isNewBest s r = false → (oneEvaluation s x).1.bestEvaluation = s.bestEvaluation ∧ (oneEvaluation s x).1.bestEvaluable = s.bestEvaluable) ∧
    (oneEvaluation s x).1.initEvaluable = s.initEvaluable ∧ (oneEvaluation s x).1.numLearningSteps = s.numLearningSteps ∧
    (oneEvaluation s x).1.allEvaluated = s.allEvaluated ++ [x] ∧
    (oneEvaluation s x).1.allEvaluations = s.allEvaluations ++ [if s.wasOpposed then -r else r] := by
  unfold oneEvaluation at *
  cases hb : (s.evaluator.bind (fun f => f s.numEvaluations x)) with
  | none => rw [hb] at h; simp at h
  | some v =>
    rw [hb] at h
    simp only [Option.some.injEq] at h
    subst h
    simp only
    refine ⟨trivial, ?_, ?_, ?_, ?_, ?_, ?_, ?_, ?_, ?_⟩ <;> first | (split <;> rfl) | (intro h; rw [h]; simp)

theorem oneEvaluation_tracks {f : Objective X K} {m : Bool} {n0 : Nat} {s : Opt X K} {log : List (X × K)} (h : Tracks f m n0 s log)
    (x : X) (r : K) (hr : (oneEvaluation s x).2 = some r) : Tracks f m n0 (oneEvaluation s x).1 (log ++ [(x, r)]) := by
  obtain ⟨e1, e2, e3, e4, e5, e6, _, _⟩ := oneEvaluation_some s x r hr
  have hf : f (n0 + log.length) x = some r := by
    rw [h.eval, Option.bind_some, h.num] at e1; exact e1
  have hl := LogOf.snoc h.isLog hf
  refine ⟨e2.trans h.min, e3.trans h.eval, by rw [e4, h.num]; simp [Nat.add_assoc], hl, Or.inr ?_⟩
  rcases h.best with ⟨h1, h2⟩ | ⟨y, b, h1, h2, h3⟩
  · subst h1
    have hn : isNewBest s r = true := by rw [isNewBest, h2]
    exact ⟨x, r, (e5 hn).1, (e5 hn).2, [], [], rfl, by simp, by simp⟩
  · have hlog : 0 < log.length := by
      obtain ⟨pre, post, rfl, _⟩ := h3
      rw [List.length_append, List.length_cons]; omega
    have hn : isNewBest s r = better (some m) r b := by
      have hz : (s.numEvaluations == 0) = false := by
        rw [h.num]; simp only [beq_eq_false_iff_ne]; omega
      rw [isNewBest, h1, h.min]
      simp only [hz, Bool.false_or]
    cases hb : better (some m) r b with
    | true =>
      rw [hb] at hn
      exact ⟨x, r, (e5 hn).1, (e5 hn).2, BestOf.snoc_better h3 ((better_iff m r b).1 hb)⟩
    | false =>
      rw [hb] at hn
      exact ⟨y, b, (e6 hn).1.trans h1, (e6 hn).2.trans h2, BestOf.snoc_worse h3 ((not_better_iff m r b).1 hb)⟩

/-- a step that only evaluates: it extends the log -/
def Extends (step : Opt X K → Opt X K × Bool) : Prop :=
  ∀ f m n0 s log, Tracks f m n0 s log → ∃ more, Tracks f m n0 (step s).1 (log ++ more)

theorem tracks_steps {f : Objective X K} {m : Bool} {n0 : Nat} {s : Opt X K} {log : List (X × K)} (h : Tracks f m n0 s log) (n : Nat) :
    Tracks f m n0 { s with numLearningSteps := n } log := ⟨h.min, h.eval, h.num, h.isLog, h.best⟩

theorem learnLoop_tracks {step : Opt X K → Opt X K × Bool} (hs : Extends step) {f : Objective X K} {m : Bool} {n0 : Nat} :
    ∀ (fuel : Nat) (s : Opt X K) (log : List (X × K)), Tracks f m n0 s log → ∀ s', learnLoop step fuel s = some s' →
      ∃ more, Tracks f m n0 s' (log ++ more) := by
  intro fuel
  induction fuel with
  | zero =>
    intro s log h s' he
    rw [learnLoop] at he
    split at he
    · cases he; exact ⟨[], by simpa using h⟩
    · simp at he
  | succ fuel ih =>
    intro s log h s' he
    rw [learnLoop] at he
    split at he
    · cases he; exact ⟨[], by simpa using h⟩
    · obtain ⟨more, hm⟩ := hs f m n0 s log h
      simp only at he
      split at he
      · obtain ⟨more2, hm2⟩ := ih _ _ (tracks_steps hm _) s' he
        exact ⟨more ++ more2, by rw [← List.append_assoc]; exact hm2⟩
      · cases he; exact ⟨more, hm⟩

theorem oneEvaluation_extends {f : Objective X K} {m : Bool} {n0 : Nat} {s : Opt X K} {log : List (X × K)} (h : Tracks f m n0 s log) (x : X) :
    ∃ more, Tracks f m n0 (oneEvaluation s x).1 (log ++ more) := by
  cases hr : (oneEvaluation s x).2 with
  | none => exact ⟨[], by rw [oneEvaluation_none s x hr]; simpa using h⟩
  | some r => exact ⟨[(x, r)], oneEvaluation_tracks h x r hr⟩

theorem hillStep_extends (mutate : Nat → X → X) : Extends (K := K) (hillStep false mutate) := by
  intro f m n0 s log h
  unfold hillStep
  split
  · exact ⟨[], by simpa using h⟩
  · rename_i x hx
    simp only [reevaluate, Bool.false_eq_true, if_false, if_true, hx]
    exact oneEvaluation_extends h _

theorem randomStep_extends (randomize : Nat → X → X) : Extends (K := K) (randomStep randomize) := by
  intro f m n0 s log h
  unfold randomStep
  split
  · exact ⟨[], by simpa using h⟩
  · exact oneEvaluation_extends h _

theorem evalAll_tracks {f : Objective X K} {m : Bool} {n0 : Nat} : ∀ (xs : List X) (s : Opt X K) (log : List (X × K)),
    Tracks f m n0 s log → (evalAll s xs).2 = true → ∃ more, more.map Prod.fst = xs ∧ Tracks f m n0 (evalAll s xs).1 (log ++ more) := by
  intro xs
  induction xs with
  | nil => intro s log h _; exact ⟨[], rfl, by simpa [evalAll] using h⟩
  | cons x xs ih =>
    intro s log h hok
    rw [evalAll] at hok ⊢
    cases hr : (oneEvaluation s x).2 with
    | none => rw [hr] at hok; simp at hok
    | some r =>
      rw [hr] at hok
      simp only [Option.isSome_some, if_true] at hok ⊢
      obtain ⟨more, h1, h2⟩ := ih _ _ (oneEvaluation_tracks h x r hr) hok
      exact ⟨(x, r) :: more, by rw [List.map_cons, h1], by simpa using h2⟩

end Verif.Opt

import Verif.Lemmas.Optimizer
import Mathlib.Algebra.Order.Group.Int
/-
Property theorems C25-C28 (pybrain/optimization/optimizer.py, hillclimber.py, randomsearch.py).
-/
namespace Verif.Props
open Verif.Opt Verif.Opt.Spec

variable {X K : Type} [AddCommGroup K] [LinearOrder K] [IsOrderedAddMonoid K]

/-- a newly constructed optimizer (before an evaluator is set) -/
def fresh (mustMin mustMax : Bool) (minimize : Option Bool) (desired : Option K) (maxEvals : Option Nat) (maxSteps : Option Int) (batch : Nat) :
    Opt X K :=
  { mustMinimize := mustMin, mustMaximize := mustMax, minimize := minimize, evaluator := none, wasOpposed := false, desired := desired,
    maxEvaluations := maxEvals, maxLearningSteps := maxSteps, batchSize := batch, numEvaluations := 0, numLearningSteps := 0,
    bestEvaluation := none, bestEvaluable := none, initEvaluable := none, allEvaluated := [], allEvaluations := [] }

/-! ### C25  Best so far -/

/-- **C25.** After any series of evaluations since the evaluator was set, the best evaluation and evaluable are the best of the
log of these evaluations, and all of them have been stored. -/
theorem C25_best_so_far (f : Objective X K) (m : Bool) (s : Opt X K) (hm : s.minimize = some m) (hf : s.evaluator = some f)
    (hb : s.bestEvaluation = none) (xs : List X) (hx : xs ≠ []) (hok : (evalAll s xs).2 = true) :
    ∃ log x b, log.map Prod.fst = xs ∧ LogOf f s.numEvaluations log ∧
      (evalAll s xs).1.bestEvaluation = some b ∧ (evalAll s xs).1.bestEvaluable = some x ∧ BestOf m log x b := by
  obtain ⟨log, h1, h2⟩ := evalAll_tracks (f := f) (m := m) (n0 := s.numEvaluations) xs s []
    ⟨hm, hf, by simp, by intro i x r h; simp at h, Or.inl ⟨rfl, hb⟩⟩ hok
  rw [List.nil_append] at h2
  rcases h2.best with ⟨h, _⟩ | ⟨x, b, e1, e2, e3⟩
  · subst h; simp at h1; exact absurd h1 hx
  · exact ⟨log, x, b, h1, h2.isLog, e1, e2, e3⟩

/-- **C25, stored evaluations.** With storeAllEvaluated and storeAllEvaluations every evaluated point is stored in order, with
its value in the user's direction. -/
theorem C25_stored (f : Objective X K) (s : Opt X K) (x : X) (r : K)
    (hf : s.evaluator = some (if s.wasOpposed then opposite f else f)) (h : (oneEvaluation s x).2 = some r) :
    (oneEvaluation s x).1.allEvaluated = s.allEvaluated ++ [x] ∧
    ∃ v, f s.numEvaluations x = some v ∧ (oneEvaluation s x).1.allEvaluations = s.allEvaluations ++ [v] := by
  obtain ⟨e1, _, _, _, _, _, _, _, e9, e10⟩ := oneEvaluation_some s x r h
  refine ⟨e9, ?_⟩
  rw [hf, Option.bind_some] at e1
  cases ho : s.wasOpposed with
  | false =>
    rw [ho] at e1 e10
    exact ⟨r, by simpa using e1, by simpa using e10⟩
  | true =>
    rw [ho] at e1 e10
    simp only [if_true, opposite, Option.map_eq_some_iff] at e1
    obtain ⟨v, hv, hvr⟩ := e1
    refine ⟨v, hv, ?_⟩
    rw [e10, ← hvr, if_pos rfl, neg_neg]

theorem setEvaluator_tracks (f : Objective X K) (m : Bool) (s : Opt X K) (info : Option (EvaluatorInfo K)) (init : X) (r : K)
    (hm : (setEvaluatorDir s f info).minimize = some m) (f' : Objective X K) (hf : (setEvaluatorDir s f info).evaluator = some f')
    (hr : f' (setEvaluatorDir s f info).numEvaluations init = some r) :
    Tracks f' m (setEvaluatorDir s f info).numEvaluations (setEvaluator initEval s f info init) [(init, r)] := by
  unfold setEvaluator
  simp only
  generalize setEvaluatorDir s f info = s1 at *
  let s2 : Opt X K := { s1 with initEvaluable := some init, bestEvaluation := none }
  have ht : Tracks f' m s1.numEvaluations s2 [] := ⟨hm, hf, by simp [s2], by intro i x r h; simp at h, Or.inl ⟨rfl, rfl⟩⟩
  have hres : (oneEvaluation s2 init).2 = some r := by
    unfold oneEvaluation
    have : s2.evaluator.bind (fun f => f s2.numEvaluations init) = some r := by
      show s1.evaluator.bind (fun f => f s1.numEvaluations init) = some r
      rw [hf, Option.bind_some, hr]
    rw [this]
  have h3 := oneEvaluation_tracks ht init r hres
  have h4 : initEval s2 = (oneEvaluation s2 init).1 := rfl
  show Tracks f' m s1.numEvaluations { initEval s2 with bestEvaluable := some init } [(init, r)]
  rw [h4]
  refine ⟨h3.min, h3.eval, h3.num, h3.isLog, Or.inr ?_⟩
  rcases h3.best with ⟨h, _⟩ | ⟨x, b, e1, e2, e3⟩
  · simp at h
  · obtain ⟨pre, post, hl, h1, h2⟩ := e3
    have hx : x = init ∧ b = r := by
      have : (x, b) ∈ ([] ++ [(init, r)] : List (X × K)) := by rw [hl]; simp
      simpa using this
    refine ⟨init, b, e1, rfl, pre, post, ?_, h1, h2⟩
    rw [← hx.1, ← hx.2] at hl ⊢; exact hl

/-- **C25, whole runs.** When a HillClimber (or RandomSearch, next theorem) with any mutation outcomes returns from `learn`,
its best is the best of everything evaluated since the evaluator was set. -/
theorem C25_hillClimber (f : Objective X K) (s : Opt X K) (info : Option (EvaluatorInfo K)) (init : X) (m : Bool) (f' : Objective X K) (r : K)
    (hm : (setEvaluatorDir s f info).minimize = some m) (hf : (setEvaluatorDir s f info).evaluator = some f')
    (hr : f' (setEvaluatorDir s f info).numEvaluations init = some r) (mutate : Nat → X → X) (fuel : Nat) (k : Option Nat) (s' : Opt X K)
    (h : learn (hillStep false mutate) fuel (setEvaluator initEval s f info init) k = some s') :
    ∃ log x b, LogOf f' (setEvaluatorDir s f info).numEvaluations log ∧ log.head? = some (init, r) ∧
      (setEvaluatorDir s f info).numEvaluations + log.length = s'.numEvaluations ∧
      s'.bestEvaluation = some b ∧ s'.bestEvaluable = some x ∧ BestOf m log x b := by
  have ht := setEvaluator_tracks f m s info init r hm f' hf hr
  have ht2 : Tracks f' m (setEvaluatorDir s f info).numEvaluations (setSteps (setEvaluator initEval s f info init) k) [(init, r)] := by
    cases k with
    | none => exact ht
    | some k => exact ⟨ht.min, ht.eval, ht.num, ht.isLog, ht.best⟩
  obtain ⟨more, hm'⟩ := learnLoop_tracks (hillStep_extends mutate) fuel _ _ ht2 s' h
  rcases hm'.best with ⟨h, _⟩ | ⟨x, b, e1, e2, e3⟩
  · simp at h
  · exact ⟨_, x, b, hm'.isLog, by simp, hm'.num.symm, e1, e2, e3⟩

/-- **C25, whole runs of RandomSearch.** -/
theorem C25_randomSearch (f : Objective X K) (s : Opt X K) (info : Option (EvaluatorInfo K)) (init : X) (m : Bool) (f' : Objective X K) (r : K)
    (hm : (setEvaluatorDir s f info).minimize = some m) (hf : (setEvaluatorDir s f info).evaluator = some f')
    (hr : f' (setEvaluatorDir s f info).numEvaluations init = some r) (randomize : Nat → X → X) (fuel : Nat) (k : Option Nat) (s' : Opt X K)
    (h : learn (randomStep randomize) fuel (setEvaluator initEval s f info init) k = some s') :
    ∃ log x b, LogOf f' (setEvaluatorDir s f info).numEvaluations log ∧ log.head? = some (init, r) ∧
      (setEvaluatorDir s f info).numEvaluations + log.length = s'.numEvaluations ∧
      s'.bestEvaluation = some b ∧ s'.bestEvaluable = some x ∧ BestOf m log x b := by
  have ht := setEvaluator_tracks f m s info init r hm f' hf hr
  have ht2 : Tracks f' m (setEvaluatorDir s f info).numEvaluations (setSteps (setEvaluator initEval s f info init) k) [(init, r)] := by
    cases k with
    | none => exact ht
    | some k => exact ⟨ht.min, ht.eval, ht.num, ht.isLog, ht.best⟩
  obtain ⟨more, hm'⟩ := learnLoop_tracks (randomStep_extends randomize) fuel _ _ ht2 s' h
  rcases hm'.best with ⟨h, _⟩ | ⟨x, b, e1, e2, e3⟩
  · simp at h
  · exact ⟨_, x, b, hm'.isLog, by simp, hm'.num.symm, e1, e2, e3⟩

/-- the objective of the examples: -(x-3)², not noisy -/
def exObj : Objective Int Int := fun _ x => some (-(x - 3) * (x - 3))

example : (learn (hillStep false (fun _ x => x + 1)) 6 (setEvaluator initEval (fresh false false (some false) none none none 1) exObj none 0) (some 5)).map
    (fun s => (s.bestEvaluable, s.bestEvaluation, s.numEvaluations)) = some (some 3, some 0, 6) := by decide

/-- **C25, violated by ES.** An optimizer whose `_additionalInit` evaluates more than the initial point (ES evaluates its whole
initial population) ends up with the initial point as best evaluable but with the best evaluation of the population:
`setEvaluator` overwrites the former. Here the initial point 0 is reported with fitness 5, the fitness of the mutant 5. -/
theorem C25_negation_es : bestFound (setEvaluator (fun s => (evalAll s [0, 5]).1) (fresh false true none none none none 1)
    (fun _ (x : Int) => some x) none 0) = (some 0, some 5) := by decide

/-- **C25, violated by StochasticHillClimber.** It reports its current point, which may be worse than one it has seen: from 3
(value 0) it moves to 4 (value -1) and reports that. -/
theorem C25_negation_stochastic : (learn (stochStep false (fun _ x => x + 1) (fun _ _ => true)) 2
    (setEvaluator initEval (fresh false false (some false) none none none 1) exObj none 3) (some 1)).map bestFound = some (some 4, some (-1)) := by
  decide

/-! ### C26  Direction -/

theorem opposite_opposite (f : Objective X K) : opposite (opposite f) = f := by
  funext t x
  simp only [opposite, Option.map_map]
  cases f t x <;> simp

/-- whether the algorithm has to work on the negated objective -/
def mustFlip (s : Opt X K) (m : Bool) : Bool := (m && s.mustMaximize) || (!m && s.mustMinimize)

/-- The state represents the user's task "minimise (`m`) or maximise `f`, stop at `d`". -/
structure Represents (s : Opt X K) (m : Bool) (f : Objective X K) (d : Option K) : Prop where
  opposed : s.wasOpposed = mustFlip s m
  min : s.minimize = some (if mustFlip s m then !m else m)
  eval : s.evaluator = some (if mustFlip s m then opposite f else f)
  goal : s.desired = if mustFlip s m then d.map (fun x => -x) else d

theorem map_neg_neg (d : Option K) : (d.map (fun x => -x)).map (fun x => -x) = d := by
  cases d <;> simp

theorem setMinimize_represents (s : Opt X K) (m : Bool) (f : Objective X K) (d : Option K) (h : Represents s m f d) (flag : Bool) :
    Represents (setMinimize s flag) flag f d := by
  obtain ⟨h1, h2, h3, h4⟩ := h
  obtain ⟨mm, mx, mn, ev, op, de, _, _, _, _, _, _, _, _, _, _⟩ := s
  simp only at h1 h2 h3 h4
  cases m <;> cases flag <;> cases mm <;> cases mx <;> simp [mustFlip] at h1 h2 h3 h4 <;> subst h1 h2 h3 h4 <;>
    constructor <;> simp [setMinimize, mustFlip, flipDirection, opposite_opposite, map_neg_neg]

theorem setMinimize_fresh (s : Opt X K) (he : s.evaluator = none) (flag : Bool) :
    (setMinimize s flag).evaluator = none ∧ (setMinimize s flag).desired = s.desired ∧ (setMinimize s flag).wasOpposed = mustFlip s flag ∧
    (setMinimize s flag).minimize = some (if mustFlip s flag then !flag else flag) ∧
    (setMinimize s flag).mustMinimize = s.mustMinimize ∧ (setMinimize s flag).mustMaximize = s.mustMaximize := by
  simp [setMinimize, he, mustFlip]

/-- the user's choice before the evaluator is set: `none` (nothing chosen) or the last assignment -/
structure Chosen (s : Opt X K) (m : Option Bool) (d : Option K) : Prop where
  eval : s.evaluator = none
  goal : s.desired = d
  opposed : s.wasOpposed = (match m with | none => false | some m => mustFlip s m)
  min : s.minimize = m.map (fun m => if mustFlip s m then !m else m)

theorem chosen_setMinimize (s : Opt X K) (m : Option Bool) (d : Option K) (h : Chosen s m d) (flag : Bool) :
    Chosen (setMinimize s flag) (some flag) d := by
  obtain ⟨e1, e2, e3, e4, e5, e6⟩ := setMinimize_fresh s h.eval flag
  have hf : mustFlip (setMinimize s flag) flag = mustFlip s flag := by simp only [mustFlip, e5, e6]
  exact ⟨e1, e2.trans h.goal, by simp only [e3, hf], by simp only [e4, Option.map_some, hf]⟩

theorem chosen_isNone {s : Opt X K} {m : Option Bool} {d : Option K} (h : Chosen s m d) : s.minimize.isNone = m.isNone := by
  rw [h.min]; cases m <;> rfl

theorem finish_represents (s : Opt X K) (m : Bool) (d : Option K) (h : Chosen s (some m) d) (f : Objective X K) :
    Represents (if s.wasOpposed then flipDirection { s with evaluator := some f } else { s with evaluator := some f }) m f d := by
  obtain ⟨_, h2, h3, h4⟩ := h
  simp only [Option.map_some] at h3 h4
  cases hf : mustFlip s m with
  | false =>
    rw [hf] at h3 h4
    rw [if_neg (by rw [h3]; simp)]
    simp only [Bool.false_eq_true, if_false] at h4
    have hq : mustFlip { s with evaluator := some f } m = false := hf
    exact ⟨by rw [hq]; exact h3, by rw [hq]; exact h4, by rw [hq]; rfl, by rw [hq]; exact h2⟩
  | true =>
    rw [hf] at h3 h4
    rw [if_pos h3]
    simp only [if_true] at h4
    have hq : mustFlip (flipDirection { s with evaluator := some f }) m = true := hf
    exact ⟨by rw [hq]; exact h3, by rw [hq]; exact h4, by rw [hq]; rfl, by rw [hq]; show s.desired.map _ = _; rw [h2]; rfl⟩

theorem setEvaluatorDir_represents (s : Opt X K) (m : Option Bool) (d : Option K) (h : Chosen s m d) (f : Objective X K)
    (info : Option (EvaluatorInfo K)) :
    Represents (setEvaluatorDir s f info) ((m <|> info.bind EvaluatorInfo.toBeMinimized).getD false) f
      (d <|> info.bind EvaluatorInfo.desiredValue) := by
  have last : ∀ (s1 : Opt X K) (m1 : Option Bool) (d1 : Option K), Chosen s1 m1 d1 →
      Represents (let s2 := if s1.minimize.isNone then setMinimize s1 false else s1
        let s3 := { s2 with evaluator := some f }
        if s3.wasOpposed then flipDirection s3 else s3) (m1.getD false) f d1 := by
    intro s1 m1 d1 h1
    simp only [chosen_isNone h1]
    cases m1 with
    | none => exact finish_represents _ false d1 (chosen_setMinimize s1 none d1 h1 false) f
    | some m => exact finish_represents _ m d1 h1 f
  cases info with
  | none =>
    have h1 := last s m d h
    unfold setEvaluatorDir
    cases m <;> cases d <;> exact h1
  | some i =>
    have h1 : Chosen (if s.desired.isNone then { s with desired := i.desiredValue } else s) m (d <|> i.desiredValue) := by
      obtain ⟨e1, e2, e3, e4⟩ := h
      rw [e2]
      cases d with
      | none => exact ⟨e1, rfl, e3, e4⟩
      | some d => exact ⟨e1, e2, e3, e4⟩
    unfold setEvaluatorDir
    simp only [Option.bind_some]
    generalize (if s.desired.isNone then { s with desired := i.desiredValue } else s) = s1 at h1 ⊢
    refine last _ (m <|> i.toBeMinimized) _ ?_
    rw [chosen_isNone h1]
    cases m with
    | some m => exact h1
    | none =>
      simp only [Option.isNone_none, if_true]
      cases i.toBeMinimized with
      | none => exact h1
      | some b => exact chosen_setMinimize s1 none _ h1 b

/-- **C26, direction.** Whatever sequence of `minimize = ...` assignments is made before and after a (first) evaluator is given,
and whatever the algorithm requires, the optimizer works on the user's task: the last assignment counts (then the evaluator's own
preference, then maximisation), and whenever the algorithm needs the other direction it works on the negated objective with
negated stopping value. -/
theorem C26_direction (mm mx : Bool) (d : Option K) (me : Option Nat) (ms : Option Int) (b : Nat) (before after : List Bool)
    (f : Objective X K) (info : Option (EvaluatorInfo K)) :
    Represents (after.foldl setMinimize (setEvaluatorDir (before.foldl setMinimize (fresh mm mx none d me ms b)) f info))
      (((after.getLast? <|> before.getLast?) <|> info.bind EvaluatorInfo.toBeMinimized).getD false) f
      (d <|> info.bind EvaluatorInfo.desiredValue) := by
  have hb : ∀ (l : List Bool) (s : Opt X K) (m : Option Bool), Chosen s m d → Chosen (l.foldl setMinimize s) (l.getLast? <|> m) d := by
    intro l
    induction l with
    | nil => intro s m h; simpa using h
    | cons a l ih =>
      intro s m h
      have := ih _ _ (chosen_setMinimize s m d h a)
      rw [List.foldl_cons, List.getLast?_cons]
      cases hl : l.getLast? with
      | none => rw [hl] at this; simpa using this
      | some z => rw [hl] at this; simpa using this
  have ha : ∀ (l : List Bool) (s : Opt X K) (m : Bool) (d : Option K), Represents s m f d →
      Represents (l.foldl setMinimize s) (l.getLast?.getD m) f d := by
    intro l
    induction l with
    | nil => intro s m d h; simpa using h
    | cons a l ih =>
      intro s m d h
      have := ih _ _ _ (setMinimize_represents s m f d h a)
      rw [List.foldl_cons, List.getLast?_cons]
      cases hl : l.getLast? with
      | none => rw [hl] at this; simpa using this
      | some z => rw [hl] at this; simpa using this
  have h0 : Chosen (fresh mm mx none d me ms b : Opt X K) none d := ⟨rfl, rfl, rfl, rfl⟩
  have h1 := hb before _ none h0
  have h2 := ha after _ _ _ (setEvaluatorDir_represents _ _ d h1 f info)
  cases hl : after.getLast? with
  | none => rw [hl] at h2; simpa using h2
  | some z => rw [hl] at h2; simpa using h2

/-- a minimisation task given to an algorithm that can only maximise -/
example : Represents (setEvaluatorDir (setMinimize (fresh false true none (some 7) none none 1) true) exObj none) true exObj (some 7) := by
  have := C26_direction (K := Int) false true (some 7) none none 1 [true] [] exObj none
  simpa using this

/-- the mirror image of a state: the other direction, everything negated -/
def dual (s : Opt X K) : Opt X K :=
  { s with
    minimize := s.minimize.map (fun m => !m)
    evaluator := s.evaluator.map opposite
    desired := s.desired.map (fun d => -d)
    bestEvaluation := s.bestEvaluation.map (fun b => -b)
    allEvaluations := s.allEvaluations.map (fun v => -v) }

theorem better_neg (m : Bool) (a b : K) : better (some (!m)) (-a) (-b) = better (some m) a b := by
  cases m <;> simp [better]

theorem oneEvaluation_dual (s : Opt X K) (m : Bool) (hm : s.minimize = some m) (x : X) :
    oneEvaluation (dual s) x = (dual (oneEvaluation s x).1, (oneEvaluation s x).2.map (fun r => -r)) := by
  obtain ⟨mm, mx, mn, ev, op, de, me, ms, bs, ne, nl, be, bx, ie, al, av⟩ := s
  simp only at hm
  subst hm
  cases ev with
  | none => simp [oneEvaluation, dual]
  | some f =>
    cases hf : f ne x with
    | none => simp [oneEvaluation, dual, opposite, hf]
    | some r =>
      have hnew : ∀ be : Option K, (isNewBest (dual ⟨mm, mx, some m, some f, op, de, me, ms, bs, ne, nl, be, bx, ie, al, av⟩) (-r)) =
          isNewBest ⟨mm, mx, some m, some f, op, de, me, ms, bs, ne, nl, be, bx, ie, al, av⟩ r := by
        intro be
        cases be with
        | none => rfl
        | some b => simp only [isNewBest, dual, Option.map_some, better_neg]
      simp only [oneEvaluation]
      simp only [dual, Option.map_some, Option.bind_some, opposite, hf]
      have h2 := hnew be
      simp only [dual, Option.map_some] at h2
      cases hq : isNewBest ⟨mm, mx, some m, some f, op, de, me, ms, bs, ne, nl, be, bx, ie, al, av⟩ r <;>
        rw [hq] at h2 <;> cases op <;> simp [h2]

theorem oneEvaluation_min (s : Opt X K) (x : X) : (oneEvaluation s x).1.minimize = s.minimize := by
  cases h : (oneEvaluation s x).2 with
  | none => rw [oneEvaluation_none s x h]
  | some r => exact (oneEvaluation_some s x r h).2.1

/-- a step that treats both directions alike -/
def Symmetric (step : Opt X K → Opt X K × Bool) : Prop :=
  ∀ s m, s.minimize = some m → step (dual s) = (dual (step s).1, (step s).2) ∧ (step s).1.minimize = some m

theorem stop_dual (s : Opt X K) (m : Bool) (hm : s.minimize = some m) : stoppingCriterion (dual s) = stoppingCriterion s := by
  unfold stoppingCriterion
  congr 2
  have h1 : (dual s).desired = s.desired.map (fun d => -d) := rfl
  have h2 : (dual s).bestEvaluation = s.bestEvaluation.map (fun d => -d) := rfl
  have h3 : (dual s).minimize = some (!m) := by show s.minimize.map _ = _; rw [hm]; rfl
  rw [h1, h2, h3, hm]
  cases s.desired <;> cases s.bestEvaluation <;> simp [better_neg]

theorem learnLoop_dual {step : Opt X K → Opt X K × Bool} (hs : Symmetric step) : ∀ (fuel : Nat) (s : Opt X K) (m : Bool), s.minimize = some m →
    learnLoop step fuel (dual s) = (learnLoop step fuel s).map dual := by
  intro fuel
  induction fuel with
  | zero =>
    intro s m hm
    rw [learnLoop, learnLoop, stop_dual s m hm]
    split <;> rfl
  | succ fuel ih =>
    intro s m hm
    rw [learnLoop, learnLoop, stop_dual s m hm]
    split
    · rfl
    · obtain ⟨e1, e2⟩ := hs s m hm
      rw [e1]
      simp only
      split
      · exact ih { (step s).1 with numLearningSteps := (step s).1.numLearningSteps + 1 } m e2
      · rfl

theorem reevaluate_dual (noisy : Bool) (s : Opt X K) (m : Bool) (hm : s.minimize = some m) (x : X) :
    reevaluate noisy (dual s) x = (dual (reevaluate noisy s x).1, (reevaluate noisy s x).2) ∧ (reevaluate noisy s x).1.minimize = some m := by
  unfold reevaluate
  cases noisy with
  | false => exact ⟨rfl, hm⟩
  | true =>
    simp only [if_true]
    rw [oneEvaluation_dual s m hm x]
    have hmin := (oneEvaluation_min s x).trans hm
    cases h : (oneEvaluation s x).2 with
    | none => exact ⟨by simp, by simpa using hmin⟩
    | some v => exact ⟨by simp [dual], by simpa using hmin⟩

theorem hillStep_symmetric (noisy : Bool) (mutate : Nat → X → X) : Symmetric (K := K) (hillStep noisy mutate) := by
  intro s m hm
  unfold hillStep
  have hbx : (dual s).bestEvaluable = s.bestEvaluable := rfl
  rw [hbx]
  cases s.bestEvaluable with
  | none => exact ⟨rfl, hm⟩
  | some x =>
    obtain ⟨e1, e2⟩ := reevaluate_dual noisy s m hm x
    simp only [e1]
    generalize reevaluate noisy s x = r1 at e2 ⊢
    cases hr : r1.2 with
    | false => simp only [Bool.false_eq_true, if_false]; exact ⟨trivial, e2⟩
    | true =>
      simp only [if_true]
      have hbx1 : (dual r1.1).bestEvaluable = r1.1.bestEvaluable := rfl
      rw [hbx1]
      cases r1.1.bestEvaluable with
      | none => exact ⟨rfl, e2⟩
      | some cur =>
        have hn : (dual s).numLearningSteps = s.numLearningSteps := rfl
        simp only [hn, oneEvaluation_dual r1.1 m e2, Option.isSome_map]
        exact ⟨trivial, (oneEvaluation_min r1.1 _).trans e2⟩

theorem randomStep_symmetric (randomize : Nat → X → X) : Symmetric (K := K) (randomStep randomize) := by
  intro s m hm
  unfold randomStep
  have hbx : (dual s).initEvaluable = s.initEvaluable := rfl
  rw [hbx]
  cases s.initEvaluable with
  | none => exact ⟨rfl, hm⟩
  | some x =>
    have hn : (dual s).numLearningSteps = s.numLearningSteps := rfl
    simp only [hn, oneEvaluation_dual s m hm, Option.isSome_map]
    exact ⟨trivial, (oneEvaluation_min s _).trans hm⟩

theorem stochStep_symmetric (noisy : Bool) (mutate : Nat → X → X) (accept : Nat → K → Bool) : Symmetric (stochStep noisy mutate accept) := by
  intro s m hm
  unfold stochStep
  have hbx : (dual s).bestEvaluable = s.bestEvaluable := rfl
  have hmin : (dual s).minimize = some (!m) := by show s.minimize.map _ = _; rw [hm]; rfl
  have hn : (dual s).numLearningSteps = s.numLearningSteps := rfl
  rw [hbx, hmin, hm, hn]
  cases s.bestEvaluable with
  | none => exact ⟨rfl, hm⟩
  | some x =>
    obtain ⟨e1, e2⟩ := reevaluate_dual noisy s m hm x
    simp only [e1]
    generalize reevaluate noisy s x = r1 at e2 ⊢
    cases hr : r1.2 with
    | false => simp only [Bool.false_eq_true, if_false]; exact ⟨trivial, e2⟩
    | true =>
      simp only [if_true]
      have hbx1 : (dual r1.1).bestEvaluable = r1.1.bestEvaluable := rfl
      rw [hbx1]
      cases r1.1.bestEvaluable with
      | none => exact ⟨rfl, e2⟩
      | some cur =>
        simp only [oneEvaluation_dual r1.1 m e2]
        have h2 := (oneEvaluation_min r1.1 (mutate s.numLearningSteps cur)).trans e2
        generalize oneEvaluation r1.1 (mutate s.numLearningSteps cur) = r2 at h2 ⊢
        have hbe : (dual r2.1).bestEvaluation = r2.1.bestEvaluation.map (fun b => -b) := rfl
        rw [hbe]
        cases hr2 : r2.2 with
        | none => exact ⟨by simp, by simpa using h2⟩
        | some new =>
          cases hb : r2.1.bestEvaluation with
          | none => exact ⟨by simp, by simpa using h2⟩
          | some b =>
            simp only [Option.map_some]
            have habs : |(-new) - (-b)| = |new - b| := by
              rw [neg_sub_neg, abs_sub_comm]
            have hw : (if some (!m) = some true then decide (-b < -new) else decide (-new < -b)) =
                (if some m = some true then decide (b < new) else decide (new < b)) := by
              cases m <;> simp
            rw [habs, hw]
            cases (if some m = some true then decide (b < new) else decide (new < b)) && accept s.numLearningSteps |new - b|
            · exact ⟨rfl, h2⟩
            · exact ⟨by simp [dual], h2⟩

theorem setEvaluator_dual (m : Bool) (f : Objective X K) (d : Option K) (me : Option Nat) (ms : Option Int) (b : Nat) (init : X) :
    setEvaluator initEval (fresh false false (some (!m)) (d.map (fun x => -x)) me ms b) (opposite f) none init =
      dual (setEvaluator initEval (fresh false false (some m) d me ms b) f none init) ∧
    (setEvaluator initEval (fresh false false (some m) d me ms b) f none init).minimize = some m := by
  have h1 : ∀ (m : Bool) (f : Objective X K) (d : Option K), setEvaluator initEval (fresh false false (some m) d me ms b) f none init =
      { (oneEvaluation ({ (fresh false false (some m) d me ms b : Opt X K) with evaluator := some f, initEvaluable := some init }) init).1 with
        bestEvaluable := some init } := by
    intro m f d; rfl
  rw [h1, h1]
  refine ⟨?_, ?_⟩
  · have := oneEvaluation_dual ({ (fresh false false (some m) d me ms b : Opt X K) with evaluator := some f, initEvaluable := some init }) m rfl init
    have hd : dual ({ (fresh false false (some m) d me ms b : Opt X K) with evaluator := some f, initEvaluable := some init }) =
      ({ (fresh false false (some (!m)) (d.map (fun x => -x)) me ms b : Opt X K) with evaluator := some (opposite f), initEvaluable := some init }) := rfl
    rw [hd] at this
    rw [this]
    rfl
  · exact (oneEvaluation_min _ _).trans rfl

theorem setSteps_dual (s : Opt X K) (k : Option Nat) : setSteps (dual s) k = dual (setSteps s k) := by cases k <;> rfl

theorem setSteps_min (s : Opt X K) (k : Option Nat) : (setSteps s k).minimize = s.minimize := by cases k <;> rfl

/-- **C26, duality.** For every optimizer step that treats both directions alike — HillClimber, StochasticHillClimber and
RandomSearch do (`C26_library_steps`) — optimising `f` in one direction with goal `d` and optimising `-f` in the other with goal
`-d` make the same steps on the same points, evaluate equally often, end with the same best point and with negated best values. -/
theorem C26_duality (step : Opt X K → Opt X K × Bool) (hs : Symmetric step) (m : Bool) (f : Objective X K) (d : Option K)
    (me : Option Nat) (ms : Option Int) (b : Nat) (init : X) (fuel : Nat) (k : Option Nat) :
    let run := fun m f d => learn step fuel (setEvaluator initEval (fresh false false (some m) d me ms b) f none init) k
    (run (!m) (opposite f) (d.map (fun x => -x))).map (fun s => (s.bestEvaluable, s.numEvaluations, s.numLearningSteps, s.allEvaluated)) =
      (run m f d).map (fun s => (s.bestEvaluable, s.numEvaluations, s.numLearningSteps, s.allEvaluated)) ∧
    (run (!m) (opposite f) (d.map (fun x => -x))).map (fun s => s.bestEvaluation) =
      (run m f d).map (fun s => s.bestEvaluation.map (fun v => -v)) := by
  intro run
  have h : run (!m) (opposite f) (d.map (fun x => -x)) = (run m f d).map dual := by
    obtain ⟨e1, e2⟩ := setEvaluator_dual m f d me ms b init
    simp only [run, learn]
    rw [e1, setSteps_dual]
    exact learnLoop_dual hs fuel _ m ((setSteps_min _ k).trans e2)
  rw [h]
  constructor
  · rw [Option.map_map]; rfl
  · rw [Option.map_map]; rfl

theorem C26_library_steps (noisy : Bool) (mutate : Nat → X → X) (accept : Nat → K → Bool) :
    Symmetric (K := K) (hillStep noisy mutate) ∧ Symmetric (stochStep noisy mutate accept) ∧ Symmetric (K := K) (randomStep mutate) :=
  ⟨hillStep_symmetric noisy mutate, stochStep_symmetric noisy mutate accept, randomStep_symmetric mutate⟩

/-- **C26, reported value.** For an opposed optimizer the reported best value is the user's objective, not the negated one. -/
theorem C26_reported (f : Objective X K) (s : Opt X K) (h : s.evaluator = some (if s.wasOpposed then opposite f else f)) (t : Nat) (x : X) (b : K)
    (hb : s.bestEvaluation = some b) (hx : ∃ g, s.evaluator = some g ∧ g t x = some b) : ∃ v, (bestFound s).2 = some v ∧ f t x = some v := by
  obtain ⟨g, hg, hgx⟩ := hx
  rw [h] at hg
  cases ho : s.wasOpposed with
  | false =>
    rw [ho] at hg
    simp only [Bool.false_eq_true, if_false, Option.some.injEq] at hg
    exact ⟨b, by simp [bestFound, ho, hb], by rw [hg]; exact hgx⟩
  | true =>
    rw [ho] at hg
    simp only [if_true, Option.some.injEq] at hg
    rw [← hg, opposite, Option.map_eq_some_iff] at hgx
    obtain ⟨v, hv, hvb⟩ := hgx
    exact ⟨v, by simp [bestFound, ho, hb, ← hvb], hv⟩

/-- **C26, violated: changing the direction after evaluations.** `minimize` can be assigned at any time; the objective is then negated
but the best evaluation kept is not. A maximiser that has evaluated f(2) = 2 as a minimisation task reports -2 after `minimize`
is set to False. -/
theorem C26_negation_late_change :
    bestFound (setMinimize (evalAll (setEvaluatorDir (fresh false true (none : Option Bool) none none none 1)
      (fun _ (x : Int) => some x) (some ⟨none, some true⟩)) [2]).1 false) = (some 2, some (-2)) := by decide

/-- **C26, violated: second evaluator.** When the evaluator of an opposed optimizer is set again, the stopping value is negated a
second time: the task "minimise down to 1" becomes "stop at -1 or more of the negated function's value 1", i.e. the stored goal for
the negated objective is 1 instead of -1. -/
theorem C26_negation_second_evaluator :
    (setEvaluatorDir (setEvaluatorDir (fresh false true (none : Option Bool) none none none 1)
      (fun _ (x : Int) => some x) (some ⟨some 1, some true⟩)) (fun _ (x : Int) => some x) (some ⟨some 1, some true⟩)).desired = some 1 ∧
    (setEvaluatorDir (fresh false true (none : Option Bool) none none none 1)
      (fun _ (x : Int) => some x) (some ⟨some 1, some true⟩)).desired = some (-1) := by decide

/-! ### C27  Budgets -/

/-- a step that leaves the step counter and the budgets alone and uses at most `b` evaluations -/
structure Budgeted (b : Nat) (step : Opt X K → Opt X K × Bool) : Prop where
  steps : ∀ s, (step s).1.numLearningSteps = s.numLearningSteps
  maxSteps : ∀ s, (step s).1.maxLearningSteps = s.maxLearningSteps
  maxEvals : ∀ s, (step s).1.maxEvaluations = s.maxEvaluations
  batch : ∀ s, (step s).1.batchSize = s.batchSize
  evals : ∀ s, (step s).1.numEvaluations ≤ s.numEvaluations + b

/-- why `learn(k)` may end before its `k` steps: the goal is reached, there is no room for another batch, or a step raised -/
def EndedEarly (step : Opt X K → Opt X K × Bool) (s' : Opt X K) : Prop :=
  (∃ d b, s'.desired = some d ∧ s'.bestEvaluation = some b ∧ better s'.minimize b d = true) ∨
  (∃ M, s'.maxEvaluations = some M ∧ M < s'.numEvaluations + s'.batchSize) ∨
  (∃ s0, (step s0).2 = false ∧ s' = (step s0).1)

theorem learnLoop_budget {b : Nat} {step : Opt X K → Opt X K × Bool} (hs : Budgeted b step) : ∀ (fuel : Nat) (s : Opt X K) (k : Nat), k ≤ fuel →
    s.maxLearningSteps = some ((s.numLearningSteps : Int) + k - 1) → b ≤ s.batchSize →
    ∃ s', learnLoop step fuel s = some s' ∧ s'.numLearningSteps ≤ s.numLearningSteps + k ∧
      (∀ M, s.maxEvaluations = some M → s'.numEvaluations ≤ max s.numEvaluations M) ∧
      (s'.numLearningSteps = s.numLearningSteps + k ∨ EndedEarly step s') := by
  have early : ∀ (s : Opt X K) (k : Nat), s.maxLearningSteps = some ((s.numLearningSteps : Int) + k - 1) → stoppingCriterion s = true →
      s.numLearningSteps = s.numLearningSteps + k ∨ EndedEarly step s := by
    intro s k hm hst
    unfold stoppingCriterion at hst
    rw [hm] at hst
    simp only [Bool.or_eq_true, decide_eq_true_eq] at hst
    rcases hst with (h | h) | h
    · right; right; left
      cases hM : s.maxEvaluations with
      | none => rw [hM] at h; simp at h
      | some M => rw [hM] at h; exact ⟨M, rfl, by simpa using h⟩
    · right; left
      cases hd : s.desired with
      | none => rw [hd] at h; simp at h
      | some d =>
        cases hb : s.bestEvaluation with
        | none => rw [hd, hb] at h; simp at h
        | some b => rw [hd, hb] at h; exact ⟨d, b, rfl, rfl, h⟩
    · left; omega
  intro fuel
  induction fuel with
  | zero =>
    intro s k hk hm hbs
    have hk0 : k = 0 := by omega
    subst hk0
    have : stoppingCriterion s = true := by
      unfold stoppingCriterion
      rw [hm]
      simp only [Bool.or_eq_true, decide_eq_true_eq]
      right; omega
    exact ⟨s, by rw [learnLoop, if_pos this], by omega, fun M _ => Nat.le_max_left _ _, Or.inl rfl⟩
  | succ fuel ih =>
    intro s k hk hm hbs
    rw [learnLoop]
    by_cases hst : stoppingCriterion s = true
    · exact ⟨s, by rw [if_pos hst], by omega, fun M _ => Nat.le_max_left _ _, early s k hm hst⟩
    · rw [if_neg hst]
      have hev : ∀ M, s.maxEvaluations = some M → (step s).1.numEvaluations ≤ M := by
        intro M hM
        unfold stoppingCriterion at hst
        rw [hM] at hst
        simp only [Bool.or_eq_true, decide_eq_true_eq, not_or] at hst
        have := hs.evals s
        omega
      have hk1 : 0 < k := by
        unfold stoppingCriterion at hst
        rw [hm] at hst
        simp only [Bool.or_eq_true, decide_eq_true_eq, not_or] at hst
        omega
      simp only
      split
      · obtain ⟨s', h1, h2, h3, h3'⟩ := ih { (step s).1 with numLearningSteps := (step s).1.numLearningSteps + 1 } (k - 1) (by omega) (by
          show (step s).1.maxLearningSteps = some (((step s).1.numLearningSteps + 1 : Nat) + ((k - 1 : Nat) : Int) - 1)
          rw [hs.maxSteps, hm, hs.steps]
          congr 1; omega) (by show b ≤ (step s).1.batchSize; rw [hs.batch]; exact hbs)
        refine ⟨s', h1, ?_, ?_, ?_⟩
        · have : s'.numLearningSteps ≤ ((step s).1.numLearningSteps + 1) + (k - 1) := h2
          rw [hs.steps] at this; omega
        · intro M hM
          have h4 := h3 M ((hs.maxEvals s).trans hM)
          have h5 := hev M hM
          have : s'.numEvaluations ≤ max (step s).1.numEvaluations M := h4
          omega
        · rcases h3' with h | h
          · left
            have : s'.numLearningSteps = ((step s).1.numLearningSteps + 1) + (k - 1) := h
            rw [hs.steps] at this; omega
          · exact Or.inr h
      · rename_i hf
        refine ⟨(step s).1, rfl, by rw [hs.steps]; omega, ?_, Or.inr (Or.inr (Or.inr ⟨s, by simpa using hf, rfl⟩))⟩
        intro M hM
        have := hev M hM
        omega

/-- **C27.** `learn(k)` ends, after at most `k` learning steps — exactly `k`, unless the goal was reached, no batch fits in the
remaining evaluations, or a step raised; and with `maxEvaluations = M` the number of evaluations afterwards is at
most `M` (or what it was before, if that was more already). This holds for every algorithm whose step uses at most the announced batch size. -/
theorem C27_budgets (b : Nat) (step : Opt X K → Opt X K × Bool) (hs : Budgeted b step) (s : Opt X K) (hb : b ≤ s.batchSize) (k : Nat) :
    ∃ s', learn step k s (some k) = some s' ∧ s'.numLearningSteps ≤ s.numLearningSteps + k ∧
      (∀ M, s.maxEvaluations = some M → s'.numEvaluations ≤ max s.numEvaluations M) ∧
      (s'.numLearningSteps = s.numLearningSteps + k ∨ EndedEarly step s') :=
  learnLoop_budget hs k (setSteps s (some k)) k (Nat.le_refl k) rfl hb

/-- the counters and limits are untouched and at most `b` evaluations were made -/
structure Frame (b : Nat) (s s' : Opt X K) : Prop where
  steps : s'.numLearningSteps = s.numLearningSteps
  maxSteps : s'.maxLearningSteps = s.maxLearningSteps
  maxEvals : s'.maxEvaluations = s.maxEvaluations
  batch : s'.batchSize = s.batchSize
  evals : s'.numEvaluations ≤ s.numEvaluations + b
  mono : s.numEvaluations ≤ s'.numEvaluations

theorem Frame.refl (b : Nat) (s : Opt X K) : Frame b s s := ⟨rfl, rfl, rfl, rfl, by omega, Nat.le_refl _⟩

theorem Frame.trans {b c : Nat} {s t u : Opt X K} (h1 : Frame b s t) (h2 : Frame c t u) : Frame (b + c) s u :=
  ⟨h2.steps.trans h1.steps, h2.maxSteps.trans h1.maxSteps, h2.maxEvals.trans h1.maxEvals, h2.batch.trans h1.batch,
    by have := h1.evals; have := h2.evals; omega, Nat.le_trans h1.mono h2.mono⟩

theorem oneEvaluation_frame (s : Opt X K) (x : X) : Frame 1 s (oneEvaluation s x).1 := by
  unfold oneEvaluation
  split
  · exact Frame.refl 1 s
  · simp only
    cases isNewBest s _ <;> exact ⟨rfl, rfl, rfl, rfl, by simp, by simp⟩

theorem reevaluate_frame (noisy : Bool) (s : Opt X K) (x : X) : Frame (if noisy then 1 else 0) s (reevaluate noisy s x).1 := by
  unfold reevaluate
  cases noisy with
  | false => exact Frame.refl _ _
  | true =>
    simp only [if_true]
    have := oneEvaluation_frame s x
    split <;> exact ⟨this.steps, this.maxSteps, this.maxEvals, this.batch, this.evals, this.mono⟩

theorem Frame.mono_b {b c : Nat} {s t : Opt X K} (h : Frame b s t) (hbc : b ≤ c) : Frame c s t :=
  ⟨h.steps, h.maxSteps, h.maxEvals, h.batch, by have := h.evals; omega, h.mono⟩

theorem budgeted_of_frame {b : Nat} {step : Opt X K → Opt X K × Bool} (h : ∀ s, Frame b s (step s).1) : Budgeted b step :=
  ⟨fun s => (h s).steps, fun s => (h s).maxSteps, fun s => (h s).maxEvals, fun s => (h s).batch, fun s => (h s).evals⟩

/-- `HillClimber.batchSize`, hillclimber.py:27-32, inherited by StochasticHillClimber -/
def hillBatchSize (noisy : Bool) : Nat := if noisy then 2 else 1

theorem hillBatch_eq (noisy : Bool) : (if noisy then 1 else 0) + 1 = hillBatchSize noisy := by cases noisy <;> rfl

/-- **C27, library.** The steps of HillClimber and StochasticHillClimber use at most their announced batch size (2 with a noisy
evaluator, else 1), and so does RandomSearch (1): `C27_budgets` applies to all three. -/
theorem C27_library_steps (noisy : Bool) (mutate : Nat → X → X) (accept : Nat → K → Bool) :
    Budgeted (K := K) (hillBatchSize noisy) (hillStep noisy mutate) ∧ Budgeted (hillBatchSize noisy) (stochStep noisy mutate accept) ∧
    Budgeted (K := K) 1 (randomStep mutate) := by
  refine ⟨budgeted_of_frame ?_, budgeted_of_frame ?_, budgeted_of_frame ?_⟩
  · intro s
    unfold hillStep
    cases s.bestEvaluable with
    | none => exact Frame.refl _ _
    | some x =>
      have h1 := reevaluate_frame noisy s x
      simp only
      generalize reevaluate noisy s x = r1 at h1
      rw [← hillBatch_eq]
      generalize (if noisy = true then 1 else 0) = c at h1 ⊢
      split
      · split
        · exact h1.mono_b (by omega)
        · exact h1.trans (oneEvaluation_frame _ _)
      · exact h1.mono_b (by omega)
  · intro s
    unfold stochStep
    cases s.bestEvaluable with
    | none => exact Frame.refl _ _
    | some x =>
      have h1 := reevaluate_frame noisy s x
      simp only
      generalize reevaluate noisy s x = r1 at h1
      rw [← hillBatch_eq]
      generalize (if noisy = true then 1 else 0) = c at h1 ⊢
      split
      · split
        · exact h1.mono_b (by omega)
        · rename_i cur _
          have h2 := h1.trans (oneEvaluation_frame r1.1 (mutate s.numLearningSteps cur))
          split
          · cases (if s.minimize = some true then _ else _) && _
            · exact h2
            · exact ⟨h2.steps, h2.maxSteps, h2.maxEvals, h2.batch, h2.evals, h2.mono⟩
          · exact h2
      · exact h1.mono_b (by omega)
  · intro s
    unfold randomStep
    cases s.initEvaluable with
    | none => exact Frame.refl _ _
    | some x => exact oneEvaluation_frame _ _

/-- six evaluations are allowed, one was used by the initialisation: `learn(9)` stops after five steps -/
example : (learn (randomStep (fun t _ => (t : Int))) 9
    (setEvaluator initEval (fresh false false (some false) none (some 6) none 1) exObj none 0) (some 9)).map
      (fun s => (s.numLearningSteps, s.numEvaluations)) = some (5, 6) := by decide

/-- **C27, violated for maxLearningSteps.** With `maxLearningSteps = 2` set by the user `learn()` performs three steps. -/
theorem C27_negation_maxLearningSteps : (learn (randomStep (fun _ x => x)) 9
    (setEvaluator initEval (fresh false false (some false) none none (some 2) 1) exObj none 0) none).map (·.numLearningSteps) = some 3 := by
  decide

/-- evaluations in one step of ES (populationbased/es.py:43-60): re-evaluation of the `mu` best when the evaluator is noisy, then
one per mutated individual (lines 55-58) -/
def esStepEvaluations (mu lambada : Nat) (elitism noisy : Bool) : Nat :=
  (if noisy then mu else 0) + (if elitism then (mu + lambada) - mu else lambada)

/-- `ES.batchSize`, populationbased/es.py:70-75 with `_popsize` of lines 31-36 -/
def esBatchSize (mu lambada : Nat) (elitism noisy : Bool) : Nat :=
  if noisy then (if elitism then mu + lambada else lambada) else lambada

/-- **C27, ES.** The batch size announced by ES covers its step except for a noisy evaluator without elitism, where it
announces `lambda` but performs `mu + lambda` evaluations. -/
theorem C27_es (mu lambada : Nat) (elitism noisy : Bool) :
    (¬ (noisy = true ∧ elitism = false) → esStepEvaluations mu lambada elitism noisy = esBatchSize mu lambada elitism noisy) ∧
    (0 < mu → esBatchSize mu lambada false true < esStepEvaluations mu lambada false true) := by
  constructor
  · cases elitism <;> cases noisy <;> simp [esStepEvaluations, esBatchSize]
  · intro h; simp [esStepEvaluations, esBatchSize]; omega

/-! ### C28  Hill climbing -/

/-- **C28.** A step of the HillClimber (evaluator not declared noisy) never makes the best evaluation worse: it either keeps
the current point or moves to the challenger, whose value is then at least as good. -/
theorem C28_step (mutate : Nat → X → X) (s : Opt X K) (m : Bool) (hm : s.minimize = some m) (hn : 0 < s.numEvaluations) (x : X) (b : K)
    (hx : s.bestEvaluable = some x) (hb : s.bestEvaluation = some b) :
    let s' := (hillStep false mutate s).1
    (s'.bestEvaluable = some x ∧ s'.bestEvaluation = some b) ∨
    ∃ r, s'.bestEvaluable = some (mutate s.numLearningSteps x) ∧ s'.bestEvaluation = some r ∧ AsGood m r b ∧
      s.evaluator.bind (fun f => f s.numEvaluations (mutate s.numLearningSteps x)) = some r := by
  intro s'
  have hs' : s' = (oneEvaluation s (mutate s.numLearningSteps x)).1 := by
    simp only [s', hillStep, reevaluate, hx, Bool.false_eq_true, if_false, if_true]
  rw [hs']
  cases hr : (oneEvaluation s (mutate s.numLearningSteps x)).2 with
  | none => rw [oneEvaluation_none s _ hr]; exact Or.inl ⟨hx, hb⟩
  | some r =>
    obtain ⟨e1, _, _, _, e5, e6, _⟩ := oneEvaluation_some s _ r hr
    have hnb : isNewBest s r = better (some m) r b := by
      have hz : (s.numEvaluations == 0) = false := by simp only [beq_eq_false_iff_ne]; omega
      rw [isNewBest, hb, hm]
      simp only [hz, Bool.false_or]
    cases hbt : better (some m) r b with
    | true =>
      rw [hbt] at hnb
      exact Or.inr ⟨r, (e5 hnb).2, (e5 hnb).1, (better_iff m r b).1 hbt, e1⟩
    | false =>
      rw [hbt] at hnb
      exact Or.inl ⟨(e6 hnb).2.trans hx, (e6 hnb).1.trans hb⟩

/-- **C28, whole runs.** Over any run of `learn` the best evaluation never gets worse. -/
theorem C28_run (mutate : Nat → X → X) (m : Bool) : ∀ (fuel : Nat) (s : Opt X K), s.minimize = some m → 0 < s.numEvaluations → ∀ x b,
    s.bestEvaluable = some x → s.bestEvaluation = some b → ∀ s', learnLoop (hillStep false mutate) fuel s = some s' →
    ∃ x' b', s'.bestEvaluable = some x' ∧ s'.bestEvaluation = some b' ∧ AsGood m b' b := by
  have refl : ∀ b : K, AsGood m b b := by intro b; cases m <;> simp [AsGood]
  intro fuel
  induction fuel with
  | zero =>
    intro s _ _ x b hx hb s' h
    rw [learnLoop] at h
    split at h
    · cases h; exact ⟨x, b, hx, hb, refl b⟩
    · simp at h
  | succ fuel ih =>
    intro s hm hn x b hx hb s' h
    rw [learnLoop] at h
    split at h
    · cases h; exact ⟨x, b, hx, hb, refl b⟩
    · have hstep := C28_step mutate s m hm hn x b hx hb
      simp only at hstep h
      have hmin : (hillStep false mutate s).1.minimize = some m := (hillStep_symmetric false mutate s m hm).2
      have hnum : 0 < (hillStep false mutate s).1.numEvaluations := by
        simp only [hillStep, reevaluate, hx, Bool.false_eq_true, if_false, if_true]
        have := (oneEvaluation_frame s (mutate s.numLearningSteps x)).mono
        omega
      have hcur : ∃ x1 b1, (hillStep false mutate s).1.bestEvaluable = some x1 ∧ (hillStep false mutate s).1.bestEvaluation = some b1 ∧ AsGood m b1 b := by
        rcases hstep with ⟨h1, h2⟩ | ⟨r, h1, h2, h3, _⟩
        · exact ⟨x, b, h1, h2, refl b⟩
        · exact ⟨_, r, h1, h2, h3⟩
      obtain ⟨x1, b1, e1, e2, e3⟩ := hcur
      split at h
      · obtain ⟨x', b', g1, g2, g3⟩ := ih { (hillStep false mutate s).1 with numLearningSteps := (hillStep false mutate s).1.numLearningSteps + 1 }
          hmin hnum x1 b1 e1 e2 s' h
        exact ⟨x', b', g1, g2, asGood_trans g3 e3⟩
      · cases h; exact ⟨x1, b1, e1, e2, e3⟩

example : let s := setEvaluator initEval (fresh false false (some false) none none none 1) exObj none 0
    s.minimize = some false ∧ 0 < s.numEvaluations ∧ s.bestEvaluable = some 0 ∧ s.bestEvaluation = some (-9) := by decide

end Verif.Props

import Verif.Model.NelderMead
import Verif.Spec.NelderMead
import Verif.Props.Optimizer
/-
Property theorem C178 (pybrain/optimization/neldermead.py).
-/
namespace Verif.Opt
open Spec
open Verif.DataSet (Err)

variable {X K : Type} [AddCommGroup K] [LinearOrder K] [IsOrderedAddMonoid K]

/-- what `fmin` leaves alone -/
structure Same (s t : Opt X K) : Prop where
  desired : t.desired = s.desired
  maxE : t.maxEvaluations = s.maxEvaluations
  maxL : t.maxLearningSteps = s.maxLearningSteps
  batch : t.batchSize = s.batchSize
  steps : t.numLearningSteps = s.numLearningSteps
  opposed : t.wasOpposed = s.wasOpposed

theorem Same.rfl' (s : Opt X K) : Same s s := ⟨rfl, rfl, rfl, rfl, rfl, rfl⟩

theorem Same.trans {s t u : Opt X K} (h : Same s t) (k : Same t u) : Same s u :=
  ⟨k.desired.trans h.desired, k.maxE.trans h.maxE, k.maxL.trans h.maxL, k.batch.trans h.batch, k.steps.trans h.steps, k.opposed.trans h.opposed⟩

theorem oneEvaluation_same (s : Opt X K) (x : X) : Same s (oneEvaluation s x).1 := by
  unfold oneEvaluation
  split
  · exact Same.rfl' s
  · dsimp only
    constructor <;> (dsimp only; split <;> rfl)

/-- the way a call of `fmin` may end -/
def EndsWell (f : Objective X K) (t : Opt X K) (rest : Prog X K) (e : Ending) : Prop :=
  match e with
  | .finished => rest = .done
  | .found => (∃ k, rest = .callback k) ∧ stoppingCriterion t = true
  | .diverged => ∃ x k, rest = .eval x k ∧ f t.numEvaluations x = none

/-- once the desired value is in the log, the criterion tells to stop -/
theorem stop_of_good {f : Objective X K} {m : Bool} {n0 : Nat} {s : Opt X K} {log : List (X × K)} (h : Tracks f m n0 s log) {d : K}
    (hd : s.desired = some d) {x : X} {r : K} (hx : (x, r) ∈ log) (hr : AsGood m r d) : stoppingCriterion s = true := by
  rcases h.best with ⟨e, _⟩ | ⟨y, b, e1, e2, pre, post, e3, e4, e5⟩
  · rw [e] at hx; simp at hx
  · have hb : AsGood m b r := by
      rw [e3] at hx
      rcases List.mem_append.1 hx with hx | hx
      · exact e4 _ hx
      · rcases List.mem_cons.1 hx with hx | hx
        · cases hx; cases m <;> simp [AsGood]
        · exact better_asGood (e5 _ hx)
    have hbd := (better_iff m b d).2 (asGood_trans hb hr)
    unfold stoppingCriterion
    rw [hd, e1, h.min]
    simp [hbd]

/-- evaluations made after the desired value has been reached -/
def Late (m : Bool) (d : K) (b n : Nat) (log more : List (X × K)) : Prop :=
  ((∃ x r, (x, r) ∈ log ∧ AsGood m r d) → more.length ≤ n) ∧ ∀ pre x r post, more = pre ++ (x, r) :: post → AsGood m r d → post.length < b

theorem late_nil (m : Bool) (d : K) (b n : Nat) (log : List (X × K)) : Late m d b n log [] :=
  ⟨fun _ => by simp, by intro pre x r post he; simp at he⟩

theorem runProg_spec {f : Objective X K} {m : Bool} {n0 : Nat} (p : Prog X K) : ∀ (s : Opt X K) (log : List (X × K)), Tracks f m n0 s log →
    ∃ more rest, Tracks f m n0 (runProg p s).1 (log ++ more) ∧ Same s (runProg p s).1 ∧ Did p more rest ∧ EndsWell f (runProg p s).1 rest (runProg p s).2 ∧
      ∀ b n d, s.desired = some d → Prompt b p n → n ≤ b → Late m d b n log more := by
  induction p with
  | done =>
    intro s log h
    exact ⟨[], .done, by simpa [runProg] using h, Same.rfl' s, .start _, rfl, fun b n d _ _ _ => late_nil m d b n log⟩
  | eval x k ih =>
    intro s log h
    cases hr : (oneEvaluation s x).2 with
    | none =>
      have e : oneEvaluation s x = (s, none) := Prod.ext (oneEvaluation_none s x hr) hr
      have e2 : runProg (.eval x k) s = (s, .diverged) := by rw [runProg, e]
      rw [e2]
      refine ⟨[], .eval x k, by simpa using h, Same.rfl' s, .start _, ⟨x, k, rfl, ?_⟩, fun b n d _ _ _ => late_nil m d b n log⟩
      cases hf : f s.numEvaluations x with
      | none => rfl
      | some r =>
        have h0 := h.eval
        unfold oneEvaluation at hr
        rw [h0, Option.bind_some, hf] at hr
        simp at hr
    | some r =>
      have e : oneEvaluation s x = ((oneEvaluation s x).1, some r) := by rw [← hr]
      have e2 : runProg (.eval x k) s = runProg (k r) (oneEvaluation s x).1 := by rw [runProg, e]
      have h1 := oneEvaluation_tracks h x r hr
      obtain ⟨more, rest, a, b, c, d, l⟩ := ih r _ _ h1
      rw [e2]
      refine ⟨(x, r) :: more, rest, by simpa using a, (oneEvaluation_same s x).trans b, .eval x k r more rest c, d, ?_⟩
      intro b n g hd hp hn
      cases n with
      | zero => exact absurd hp (by simp [Prompt])
      | succ n =>
        obtain ⟨l1, l2⟩ := l b n g ((oneEvaluation_same s x).desired.trans hd) (hp r) (by omega)
        constructor
        · rintro ⟨y, v, hy, hv⟩
          have := l1 ⟨y, v, List.mem_append_left _ hy, hv⟩
          simp only [List.length_cons]; omega
        · intro pre y v post he hv
          cases pre with
          | nil =>
            rw [List.nil_append, List.cons.injEq, Prod.mk.injEq] at he
            obtain ⟨⟨rfl, rfl⟩, rfl⟩ := he
            have := l1 ⟨x, r, by simp, hv⟩
            omega
          | cons q pre =>
            rw [List.cons_append, List.cons.injEq] at he
            exact l2 pre y v post he.2 hv
  | callback k ih =>
    intro s log h
    rw [runProg]
    by_cases hs : stoppingCriterion s = true
    · rw [if_pos hs]
      exact ⟨[], .callback k, by simpa using h, Same.rfl' s, .start _, ⟨⟨k, rfl⟩, hs⟩, fun b n d _ _ _ => late_nil m d b n log⟩
    · rw [if_neg hs]
      obtain ⟨more, rest, a, b, c, d, l⟩ := ih s log h
      refine ⟨more, rest, a, b, .callback k more rest c, d, ?_⟩
      intro b n g hd hp hn
      obtain ⟨l1, l2⟩ := l b b g hd hp (le_refl b)
      refine ⟨?_, l2⟩
      rintro ⟨y, v, hy, hv⟩
      exact absurd (stop_of_good h hd hy hv) hs

theorem nmLoop_stop (fmin : X → Int → Prog X K) (fuel : Nat) (s : Opt X K) (h : stoppingCriterion s = true) : nmLoop fmin fuel s = some (.ok s) := by
  cases fuel <;> rw [nmLoop, if_pos h]

theorem stop_steps (s : Opt X K) (n : Int) (h : s.maxLearningSteps = some n) (hn : n < s.numLearningSteps) : stoppingCriterion s = true := by
  unfold stoppingCriterion
  rw [h]
  simp [hn]

theorem tracks_maxSteps {f : Objective X K} {m : Bool} {n0 : Nat} {s : Opt X K} {log : List (X × K)} (h : Tracks f m n0 s log) (n : Option Int) :
    Tracks f m n0 { s with maxLearningSteps := n } log := ⟨h.min, h.eval, h.num, h.isLog, h.best⟩

theorem tracks_setSteps {f : Objective X K} {m : Bool} {n0 : Nat} {s : Opt X K} {log : List (X × K)} (h : Tracks f m n0 s log) (k : Option Nat) :
    Tracks f m n0 (setSteps s k) log := by
  cases k with
  | none => exact h
  | some k => exact tracks_maxSteps h _

theorem setSteps_fields (s : Opt X K) (k : Option Nat) : (setSteps s k).bestEvaluable = s.bestEvaluable ∧ (setSteps s k).maxEvaluations = s.maxEvaluations ∧
    (setSteps s k).numEvaluations = s.numEvaluations ∧ (setSteps s k).numLearningSteps = s.numLearningSteps ∧ (setSteps s k).desired = s.desired ∧
    (setSteps s k).batchSize = s.batchSize ∧ (setSteps s k).wasOpposed = s.wasOpposed := by
  cases k <;> exact ⟨rfl, rfl, rfl, rfl, rfl, rfl, rfl⟩

end Verif.Opt

namespace Verif.Props
open Verif.Opt Verif.Opt.Spec
open Verif.DataSet (Err)

variable {X K : Type} [AddCommGroup K] [LinearOrder K] [IsOrderedAddMonoid K]

/-- **C178, learning.** Whatever `fmin` does: if there is something left to do, `learn` makes one call of `fmin`, from the best point so far and with the remaining number
of evaluations but one. It ends when `fmin` returns, when `fmin` reports and the goal is reached or the evaluations are used up, or at the first value that is not a
number. If `fmin` reports after at most `b` evaluations, fewer than `b` evaluations are made after the desired value has been reached. All values are recorded, the best evaluation is the best of the record, and unless the run was broken off a further call of `learn()` does nothing. -/
theorem C178_learn (f : Objective X K) (m : Bool) (n0 : Nat) (s : Opt X K) (log : List (X × K)) (h : Tracks f m n0 s log) (M : Nat) (hM : s.maxEvaluations = some M)
    (x0 : X) (hx : s.bestEvaluable = some x0) (fmin : X → Int → Prog X K) (more : Option Nat) (hs : stoppingCriterion (setSteps s more) = false) (fuel : Nat) (hf : 0 < fuel) :
    ∃ s' new rest, nmLearn fmin fuel s more = some (.ok s') ∧ Tracks f m n0 s' (log ++ new) ∧ Did (fmin x0 ((M : Int) - s.numEvaluations - 1)) new rest ∧
      s'.wasOpposed = s.wasOpposed ∧
      (∀ b d, s.desired = some d → Prompt b (fmin x0 ((M : Int) - s.numEvaluations - 1)) b →
        ∀ pre x r post, new = pre ++ (x, r) :: post → AsGood m r d → post.length < b) ∧
      ((s'.numLearningSteps = s.numLearningSteps + 1 ∧ (∀ fuel', nmLearn fmin fuel' s' none = some (.ok s')) ∧
        (rest = .done ∨ (∃ k, rest = .callback k) ∧
          ((∃ d b, s.desired = some d ∧ s'.bestEvaluation = some b ∧ AsGood m b d) ∨ M < s'.numEvaluations + s.batchSize))) ∨
       (s'.numLearningSteps = s.numLearningSteps ∧ ∃ x k, rest = .eval x k ∧ f s'.numEvaluations x = none)) := by
  obtain ⟨g1, g2, g3, g4, g5, g6, g7⟩ := setSteps_fields s more
  obtain ⟨t, ht⟩ : ∃ t, t = setSteps s more := ⟨_, rfl⟩
  rw [← ht] at g1 g2 g3 g4 g5 g6 g7 hs
  have hT := tracks_setSteps h more
  rw [← ht] at hT
  obtain ⟨new, rest, a, b, c, d, l⟩ := runProg_spec (fmin x0 ((M : Int) - s.numEvaluations - 1)) t log hT
  have l' := fun b d (hd : s.desired = some d) hp => (l b b d (g5.trans hd) hp (le_refl b)).2
  obtain ⟨R, hR⟩ : ∃ R, R = runProg (fmin x0 ((M : Int) - s.numEvaluations - 1)) t := ⟨_, rfl⟩
  rw [← hR] at a b d
  obtain ⟨fuel, rfl⟩ : ∃ k, fuel = k + 1 := ⟨fuel - 1, by omega⟩
  have hstep : nmStep fmin t = if R.2 = .diverged then .ok (R.1, false) else .ok ({ R.1 with maxLearningSteps := some (R.1.numLearningSteps : Int) }, true) := by
    unfold nmStep
    rw [g1, g2, hx, hM, g3]
    dsimp only
    rw [← hR]
  have hns : ¬ stoppingCriterion t = true := by rw [hs]; simp
  by_cases hd : R.2 = .diverged
  · refine ⟨R.1, new, rest, ?_, a, c, b.opposed.trans g7, l', Or.inr ⟨b.steps.trans g4, ?_⟩⟩
    · unfold nmLearn
      rw [← ht, nmLoop, if_neg hns, hstep, if_pos hd]
    · rw [hd] at d; exact d
  · obtain ⟨u, hu⟩ : ∃ u : Opt X K, u = { R.1 with maxLearningSteps := some (R.1.numLearningSteps : Int), numLearningSteps := R.1.numLearningSteps + 1 } := ⟨_, rfl⟩
    have hu1 : stoppingCriterion u = true := by
      refine stop_steps u R.1.numLearningSteps (by rw [hu]) ?_
      rw [hu]; dsimp only; push_cast; omega
    refine ⟨u, new, rest, ?_, ?_, c, ?_, l', Or.inl ⟨?_, ?_, ?_⟩⟩
    · unfold nmLearn
      rw [← ht, nmLoop, if_neg hns, hstep, if_neg hd]
      dsimp only
      rw [nmLoop_stop _ _ _ (by rw [← hu]; exact hu1), ← hu]
    · rw [hu]; exact ⟨a.min, a.eval, a.num, a.isLog, a.best⟩
    · rw [hu]; exact b.opposed.trans g7
    · rw [hu]; dsimp only; rw [b.steps, g4]
    · intro fuel'
      exact nmLoop_stop fmin fuel' u hu1
    · cases hE : R.2 with
      | diverged => exact absurd hE hd
      | finished => rw [hE] at d; exact Or.inl d
      | found =>
        rw [hE] at d
        obtain ⟨⟨k, hk⟩, hst⟩ := d
        refine Or.inr ⟨⟨k, hk⟩, ?_⟩
        unfold stoppingCriterion at hst hns
        simp only [Bool.or_eq_true, not_or] at hst hns
        rcases hst with (h1 | h1) | h1
        · right
          rw [b.maxE, g2, hM] at h1
          simp only [decide_eq_true_eq] at h1
          rw [hu]; dsimp only
          rw [b.batch, g6] at h1
          omega
        · left
          rw [b.desired, g5] at h1
          cases hdes : s.desired with
          | none => rw [hdes] at h1; simp at h1
          | some d =>
            cases hbst : R.1.bestEvaluation with
            | none => rw [hdes, hbst] at h1; simp at h1
            | some v =>
              rw [hdes, hbst, a.min] at h1
              exact ⟨d, v, rfl, by rw [hu]; exact hbst, (better_iff m v d).1 h1⟩
        · exfalso
          apply hns.2
          rw [b.maxL, b.steps] at h1
          exact h1

/-- **C178, budget.** If `fmin` keeps to the number of evaluations it is given, the optimizer stays within `maxEvaluations`; one evaluation always remains unused. -/
theorem C178_budget (f : Objective X K) (m : Bool) (n0 : Nat) (s : Opt X K) (log : List (X × K)) (h : Tracks f m n0 s log) (M : Nat) (hM : s.maxEvaluations = some M)
    (x0 : X) (hx : s.bestEvaluable = some x0) (hb : 0 < s.batchSize) (fmin : X → Int → Prog X K) (hfmin : ∀ x k, AtMost (fmin x k) k.toNat)
    (more : Option Nat) (hs : stoppingCriterion (setSteps s more) = false) (fuel : Nat) (s' : Opt X K) (hl : nmLearn fmin (fuel + 1) s more = some (.ok s')) :
    s'.numEvaluations < M := by
  obtain ⟨s1, new, rest, e, t, dd, -, -, -⟩ := C178_learn f m n0 s log h M hM x0 hx fmin more hs (fuel + 1) (by omega)
  rw [hl] at e
  cases e
  have h1 := hfmin _ _ _ _ dd
  have h2 := t.num
  have h3 := h.num
  rw [List.length_append] at h2
  have h4 : s.numEvaluations + s.batchSize ≤ M := by
    obtain ⟨g1, g2, g3, g4, g5, g6, g7⟩ := setSteps_fields s more
    unfold stoppingCriterion at hs
    rw [g2, g3, g6, hM] at hs
    simp only [Bool.or_eq_false_iff, decide_eq_false_iff_not] at hs
    have := hs.1.1
    omega
  omega

/-- a `fmin` that tries `n` times the double of the point, reporting each time -/
def doubling : Nat → Int → Prog Int Int
  | 0, _ => .done
  | n + 1, x => .eval x (fun _ => .callback (doubling n (2 * x)))

theorem doubling_atMost (n : Nat) (x : Int) : AtMost (doubling n x) n := by
  induction n generalizing x with
  | zero => intro l rest h; cases h; simp
  | succ n ih =>
    intro l rest h
    cases h with
    | start => simp
    | eval _ _ _ l rest h =>
      cases h with
      | start => simp
      | callback _ _ _ h => have := ih (2 * x) l rest h; simp only [List.length_cons]; omega

theorem doubling_prompt (n : Nat) (x : Int) : Prompt 1 (doubling n x) 1 := by
  induction n generalizing x with
  | zero => exact trivial
  | succ n ih => intro r; exact ih (2 * x)

/-- an optimizer of `fun x => x` from -1, with at most `M` evaluations, looking for `d` -/
def nmDemo (d : Option Int) (M : Option Nat) : Opt Int Int :=
  setEvaluator id (setMinimize (fresh true false none d M none 1) true) (fun _ x => some x) none (-1)

/-- The run uses up all but one of the evaluations. -/
example : ((nmLearn (fun x k => doubling k.toNat x) 1 (nmDemo none (some 5)) none).map fun r => r.toOption.map fun s => (bestFound s, s.numEvaluations, s.numLearningSteps)) =
    some (some ((some (-8), some (-8)), 4, 1)) := by decide +kernel

/-- the goal -3 is reached by the third evaluation -/
example : ((nmLearn (fun x k => doubling k.toNat x) 1 (nmDemo (some (-3)) (some 50)) none).map fun r => r.toOption.map fun s => (bestFound s, s.numEvaluations)) =
    some (some ((some (-4), some (-4)), 3)) := by decide +kernel

/-- the hypotheses of the theorems are met -/
example : (∃ f, Tracks f true 0 (nmDemo (some (-3)) (some 5)) []) ∧ (nmDemo (some (-3)) (some 5)).maxEvaluations = some 5 ∧ (nmDemo (some (-3)) (some 5)).bestEvaluable = some (-1) ∧
    stoppingCriterion (setSteps (nmDemo (some (-3)) (some 5)) none) = false ∧ (∀ x k, AtMost ((fun x k => doubling (Int.toNat k) x) x k) k.toNat) ∧ ∀ n x, Prompt 1 (doubling n x) 1 :=
  ⟨⟨_, rfl, rfl, rfl, by intro i x r h; simp at h, Or.inl ⟨rfl, rfl⟩⟩, rfl, rfl, by decide, fun x k => doubling_atMost _ x, doubling_prompt⟩

/-- **C178, result.** A whole use: an optimizer is told to minimise or maximise `f` and learns. What it reports is a best of all the evaluations of `f` it made, in the
direction the user asked for; its point and the value of `f` there. -/
theorem C178_result (m : Bool) (f : Objective X K) (d : Option K) (M : Nat) (init : X) (fmin : X → Int → Prog X K) (fuel : Nat) (hf : 0 < fuel) (more : Option Nat)
    (s s' : Opt X K) (hs : s = setEvaluator id (setMinimize (fresh true false none d (some M) none 1) m) f none init)
    (hl : nmLearn fmin fuel s more = some (.ok s')) :
    ∃ log, LogOf f 0 log ∧ log.length = s'.numEvaluations ∧
      (log ≠ [] → ∃ x b, bestFound s' = (some x, some b) ∧ BestOf m log x b) ∧
      (∃ rest, Did (fmin init ((M : Int) - 1)) (log.map fun p => (p.1, if m then p.2 else -p.2)) rest ∨ log = []) := by
  have hev : s.evaluator = some (if m then f else opposite f) ∧ s.minimize = some true ∧ s.wasOpposed = !m ∧ s.bestEvaluation = none ∧ s.numEvaluations = 0 ∧
      s.maxEvaluations = some M ∧ s.bestEvaluable = some init := by
    rw [hs]; cases m <;> exact ⟨rfl, rfl, rfl, rfl, rfl, rfl, rfl⟩
  obtain ⟨h1, h2, h3, h4, h5, h6, h7⟩ := hev
  have hT : Tracks (if m then f else opposite f) true 0 s [] := ⟨h2, h1, by simp [h5], by intro i x r h; simp at h, Or.inl ⟨rfl, h4⟩⟩
  cases hst : stoppingCriterion (setSteps s more) with
  | true =>
    have : nmLearn fmin fuel s more = some (.ok (setSteps s more)) := nmLoop_stop fmin fuel _ hst
    rw [hl] at this
    cases this
    refine ⟨[], by intro i x r h; simp at h, ?_, by simp, .done, Or.inr rfl⟩
    rw [(setSteps_fields s more).2.2.1, h5]; rfl
  | false =>
    obtain ⟨s1, new, rest, e, t, dd, op, -, -⟩ := C178_learn _ true 0 s [] hT M h6 init h7 fmin more hst fuel hf
    rw [hl] at e
    cases e
    rw [List.nil_append] at t
    rw [h5] at dd
    have hmap : (new.map fun p => (p.1, if m then p.2 else -p.2)).map (fun p => (p.1, if m then p.2 else -p.2)) = new := by
      rw [List.map_map]
      conv_rhs => rw [← List.map_id new]
      apply List.map_congr_left
      intro p _
      cases m <;> simp
    refine ⟨new.map fun p => (p.1, if m then p.2 else -p.2), ?_, ?_, ?_, rest, Or.inl ?_⟩
    · intro i x r hi
      rw [List.getElem?_map] at hi
      cases hn : new[i]? with
      | none => rw [hn] at hi; simp at hi
      | some p =>
        rw [hn] at hi
        simp only [Option.map_some, Option.some.injEq, Prod.mk.injEq] at hi
        have h9 := t.isLog i p.1 p.2 hn
        obtain ⟨rfl, h8⟩ := hi
        cases m with
        | true => simpa [← h8] using h9
        | false =>
          simp only [Bool.false_eq_true, if_false, opposite] at h8 h9
          rw [Option.map_eq_some_iff] at h9
          obtain ⟨v, v1, v2⟩ := h9
          rw [v1, ← h8, ← v2, neg_neg]
    · rw [List.length_map]
      have := t.num
      omega
    · intro hne
      rcases t.best with ⟨e1, _⟩ | ⟨x, b, e1, e2, pre, post, e3, e4, e5⟩
      · rw [e1] at hne; simp at hne
      · refine ⟨x, if m then b else -b, ?_, pre.map (fun p => (p.1, if m then p.2 else -p.2)), post.map (fun p => (p.1, if m then p.2 else -p.2)), ?_, ?_, ?_⟩
        · unfold bestFound
          rw [op, h3, e1, e2]
          cases m <;> rfl
        · rw [e3]; simp
        · intro p hp
          obtain ⟨q, hq, rfl⟩ := List.mem_map.1 hp
          have := e4 q hq
          cases m <;> simpa [AsGood] using this
        · intro p hp
          obtain ⟨q, hq, rfl⟩ := List.mem_map.1 hp
          have := e5 q hq
          cases m <;> simpa [Better] using this
    · rw [hmap]
      simpa using dd

/-- a maximisation: the reported value is the one of the function, not its negation -/
example : ((nmLearn (fun x k => doubling k.toNat x) 1 (setEvaluator id (setMinimize (fresh true false none none (some 5) none 1) false) (fun _ x => some (10 - x)) none 1) none).map
    fun r => r.toOption.map fun s => (bestFound s, s.numEvaluations)) = some (some ((some 1, some 9), 4)) := by decide +kernel

/-- **C178 negated: unlimited evaluations.** An optimizer without a limit on evaluations (`maxEvaluations = None`, which every other optimizer accepts) raises TypeError. -/
theorem C178_negation_unlimited (s : Opt X K) (hM : s.maxEvaluations = none) (x0 : X) (hx : s.bestEvaluable = some x0) (fmin : X → Int → Prog X K) (more : Option Nat)
    (hs : stoppingCriterion (setSteps s more) = false) (fuel : Nat) : nmLearn fmin (fuel + 1) s more = some (.error .typeError) := by
  obtain ⟨g1, g2, -⟩ := setSteps_fields s more
  unfold nmLearn
  rw [nmLoop, if_neg (by rw [hs]; simp)]
  unfold nmStep
  rw [g1, g2, hx, hM]

example : nmLearn (fun x k => doubling k.toNat x) 1 (nmDemo none none) none = some (.error .typeError) :=
  C178_negation_unlimited _ rfl (-1) rfl _ _ (by decide) 0

/-- **C178 negated: steps.** `learn(k)` never makes more than one learning step, whatever number of steps is asked for. -/
theorem C178_negation_steps (f : Objective X K) (m : Bool) (n0 : Nat) (s : Opt X K) (log : List (X × K)) (h : Tracks f m n0 s log) (M : Nat) (hM : s.maxEvaluations = some M)
    (x0 : X) (hx : s.bestEvaluable = some x0) (fmin : X → Int → Prog X K) (k : Nat) (fuel : Nat) (hf : 0 < fuel) :
    ∃ s', nmLearn fmin fuel s (some k) = some (.ok s') ∧ s'.numLearningSteps ≤ s.numLearningSteps + 1 := by
  cases hs : stoppingCriterion (setSteps s (some k)) with
  | true => exact ⟨_, nmLoop_stop fmin fuel _ hs, by rw [(setSteps_fields s (some k)).2.2.2.1]; omega⟩
  | false =>
    obtain ⟨s', new, rest, e, -, -, -, -, h1 | h1⟩ := C178_learn f m n0 s log h M hM x0 hx fmin (some k) hs fuel hf
    · exact ⟨s', e, by rw [h1.1]⟩
    · exact ⟨s', e, by rw [h1.1]; omega⟩

/-- **C178 negated: a single evaluation.** With `maxEvaluations = 1` and a `fmin` that keeps to its bound nothing is evaluated, and the reported value is None. -/
theorem C178_negation_single (m : Bool) (f : Objective X K) (d : Option K) (init : X) (fmin : X → Int → Prog X K) (hfmin : ∀ x k, AtMost (fmin x k) k.toNat)
    (fuel : Nat) (hf : 0 < fuel) (more : Option Nat) (s' : Opt X K)
    (hl : nmLearn fmin fuel (setEvaluator id (setMinimize (fresh true false none d (some 1) none 1) m) f none init) more = some (.ok s')) :
    s'.numEvaluations = 0 := by
  obtain ⟨log, h1, h2, -, rest, h3 | h3⟩ := C178_result m f d 1 init fmin fuel hf more _ s' rfl hl
  · have := hfmin _ _ _ _ h3
    simp at this
    rw [← h2, this]; rfl
  · rw [← h2, h3]; rfl

/-- **C178 negated: reaching the goal.** The desired value does not stop the search before `fmin` reports: here the first of the three points of the simplex is good enough. -/
theorem C178_negation_goal :
    ((nmLearn (fun x _ => .eval x fun _ => .eval (x + 1) fun _ => .eval (x + 2) fun _ => .callback .done) 1 (nmDemo (some 0) (some 50)) none).map
      fun r => r.toOption.map fun s => (bestFound s, s.numEvaluations)) = some (some ((some (-1), some (-1)), 3)) := by decide +kernel

end Verif.Props

import Verif.Model.Memetic
import Mathlib.Data.List.Basic
/-
C133: memetic searches.
-/
namespace Verif.Memetic

/-- the mutations of a step in which the challengers are made by `outer` mutations and improved by `inner` ones -/
def mutations (outer inner : Kind) (cs : List (Bool × Local)) : List Kind :=
  cs.flatMap fun c => (if c.1 then [outer] else []) ++ List.replicate c.2.steps inner

/-- the number of evaluations of a step -/
def evaluations (cs : List (Bool × Local)) : Nat := (cs.map fun c => 1 + c.2.steps).sum

theorem challenges_ok (masked : Bool) (cs : List (Bool × Local)) : ∀ s : St, 0 < s.evals → (∀ c ∈ cs, c.2.fails = false) →
    challenges masked s cs = ({ s with evals := s.evals + evaluations cs, log := s.log ++ mutations s.kind (if masked then Kind.params else s.switch.kind) cs }, true) := by
  induction cs with
  | nil => intro s _ _; simp [challenges, evaluations, mutations]
  | cons c cs ih =>
    intro s he hf
    obtain ⟨b, o⟩ := c
    have ho : o.fails = false := hf _ List.mem_cons_self
    have e : challenge masked s (b, o) = ({ s with
        evals := s.evals + 1 + o.steps
        log := (s.log ++ if b then [s.kind] else []) ++ List.replicate o.steps (if masked then Kind.params else s.switch.kind) }, true) := by
      have hne : s.evals ≠ 0 := by omega
      cases b <;> simp [challenge, oneEvaluation, hne, ho, St.switch, St.kind]
    rw [challenges, e]
    simp only [if_true]
    rw [ih _ (by simp; omega) (fun c hc => hf c (List.mem_cons_of_mem _ hc))]
    simp only [evaluations, mutations, List.map_cons, List.sum_cons, List.flatMap_cons, St.kind, St.switch, List.append_assoc]
    congr 2
    omega

theorem challenges_fail (masked : Bool) (cs : List (Bool × Local)) : ∀ s : St, 0 < s.evals → (∃ c ∈ cs, c.2.fails = true) →
    (challenges masked s cs).2 = false ∧ (challenges masked s cs).1.swapped = !s.swapped := by
  induction cs with
  | nil => intro s _ h; simp at h
  | cons c cs ih =>
    intro s he hf
    obtain ⟨b, o⟩ := c
    have hne : s.evals ≠ 0 := by omega
    rw [challenges]
    cases ho : o.fails with
    | true => cases b <;> simp [challenge, oneEvaluation, hne, ho, St.switch]
    | false =>
      obtain ⟨x, hx, hxf⟩ := hf
      have hx' : ∃ c ∈ cs, c.2.fails = true := by
        rcases List.mem_cons.1 hx with rfl | hx
        · rw [ho] at hxf; simp at hxf
        · exact ⟨x, hx, hxf⟩
      have e : (challenge masked s (b, o)).2 = true ∧ (challenge masked s (b, o)).1.swapped = s.swapped ∧ 0 < (challenge masked s (b, o)).1.evals := by
        cases b <;> simp [challenge, oneEvaluation, hne, ho, St.switch] <;> omega
      simp only [e.1, if_true]
      rw [← e.2.1]
      exact ih _ e.2.2 hx'

end Verif.Memetic

namespace Verif.Props
open Verif.Memetic

/-- **C133, memetic search.** A step without exceptions makes its challengers by topology mutations and improves each of them by parameter mutations; afterwards `mutate` and `topologyMutate` are as they were. -/
theorem C133_memetic (masked : Bool) (s : St) (h : s.swapped = false) (he : 0 < s.evals) (cs : List (Bool × Local)) (hf : ∀ c ∈ cs, c.2.fails = false) :
    memeticStep masked cs s = ({ s with evals := s.evals + evaluations cs, log := s.log ++ mutations .topology .params cs }, true) := by
  unfold memeticStep between
  beta_reduce
  rw [challenges_ok masked cs s.switch he hf]
  cases masked <;> simp [St.switch, St.kind, h]

/-- **C133, inverse memetic search.** For evaluables other than MaskedParameters it is the other way round: challengers by parameter mutations, local search by topology mutations. -/
theorem C133_inverse_partial (s : St) (h : s.swapped = false) (he : 0 < s.evals) (cs : List (Bool × Local)) (hf : ∀ c ∈ cs, c.2.fails = false) :
    inverseStep false cs s = ({ s with evals := s.evals + evaluations cs, log := s.log ++ mutations .params .topology cs }, true) := by
  unfold inverseStep memeticStep between
  beta_reduce
  rw [challenges_ok false cs s.switch.switch he hf]
  simp [St.switch, St.kind, h]

/-- **C133 violated: inverse searches on MaskedParameters** never change a mask: all mutations of all steps are parameter mutations. -/
theorem C133_negation_masks (s : St) (h : s.swapped = false) (he : 0 < s.evals) (cs : List (Bool × Local)) (hf : ∀ c ∈ cs, c.2.fails = false) :
    inverseStep true cs s = ({ s with evals := s.evals + evaluations cs, log := s.log ++ mutations .params .params cs }, true) ∧
    Kind.topology ∉ mutations .params .params cs := by
  constructor
  · unfold inverseStep memeticStep between
    beta_reduce
    rw [challenges_ok true cs s.switch.switch he hf]
    simp [St.switch, St.kind, h]
  · unfold mutations
    intro hm
    obtain ⟨c, _, hc⟩ := List.mem_flatMap.1 hm
    rcases List.mem_append.1 hc with h1 | h1
    · split_ifs at h1 <;> simp at h1
    · exact absurd (List.eq_of_mem_replicate h1) (by decide)

/-- **C133, exceptions in memetic searches.** Also if an exception (such as divergence) ends a step, the operators are as they were, because it leaves two exchanges. -/
theorem C133_exception_partial (masked : Bool) (s : St) (he : 0 < s.evals) (cs : List (Bool × Local)) (hf : ∃ c ∈ cs, c.2.fails = true) :
    (memeticStep masked cs s).2 = false ∧ (memeticStep masked cs s).1.swapped = s.swapped := by
  obtain ⟨h1, h2⟩ := challenges_fail masked cs s.switch he hf
  unfold memeticStep between
  simp only [h1, Bool.false_eq_true, if_false, h2]
  simp [St.switch]

/-- **C133 violated: exceptions in inverse searches** leave `mutate` and `topologyMutate` exchanged, for all objects of the class in the program. -/
theorem C133_negation_exception (masked : Bool) (s : St) (he : 0 < s.evals) (cs : List (Bool × Local)) (hf : ∃ c ∈ cs, c.2.fails = true) :
    (inverseStep masked cs s).2 = false ∧ (inverseStep masked cs s).1.swapped = !s.swapped := by
  obtain ⟨h1, h2⟩ := C133_exception_partial masked s.switch he cs hf
  unfold inverseStep between
  simp only [h1, Bool.false_eq_true, if_false, h2]
  simp [St.switch]

/-- **C133, budget.** If no local search makes more than `localSteps` evaluations, a memetic search with one challenger in each step never exceeds the maximal number of evaluations (once it has made one). -/
theorem C133_budget (masked : Bool) (localSteps maxEvaluations : Nat) (outcomes : List Local) (ho : ∀ o ∈ outcomes, o.fails = false ∧ 1 + o.steps ≤ localSteps) (s : St)
    (h : s.swapped = false) (he : 0 < s.evals) (hm : s.evals ≤ maxEvaluations) :
    (learn (memeticStep masked) maxEvaluations localSteps (outcomes.map fun o => [(true, o)]) s).evals ≤ maxEvaluations := by
  induction outcomes generalizing s with
  | nil => exact hm
  | cons o os ih =>
    rw [List.map_cons, learn]
    obtain ⟨h1, h2⟩ := ho o List.mem_cons_self
    split_ifs with hc
    · exact hm
    · rw [C133_memetic masked s h he [(true, o)] (by simpa using h1)]
      simp only [if_true]
      refine ih (fun x hx => ho x (List.mem_cons_of_mem _ hx)) _ h (by simp; omega) ?_
      simp [evaluations]
      omega

/-- **C133 violated: the budget with a noisy evaluator.** A step then re-evaluates the best one, with a local search of its own, but the search reckons with one: the limit can be exceeded by `localSteps`. -/
theorem C133_negation_budget (masked : Bool) (localSteps maxEvaluations : Nat) (h2 : 2 ≤ localSteps) (s : St) (h : s.swapped = false) (he : 0 < s.evals)
    (hm : s.evals + localSteps = maxEvaluations) :
    (learn (memeticStep masked) maxEvaluations localSteps [[(false, ⟨localSteps - 1, false⟩), (true, ⟨localSteps - 1, false⟩)]] s).evals = maxEvaluations + localSteps := by
  rw [learn, if_neg (by omega), C133_memetic masked s h he _ (by simp)]
  simp [learn, evaluations]
  omega

example : memeticStep false [(true, ⟨2, false⟩)] ⟨false, 1, []⟩ = (⟨false, 4, [.topology, .params, .params]⟩, true) := by decide

end Verif.Props

import Verif.Spec.MazeTask
import Verif.Props.Maze
import Mathlib.Tactic.NormNum
import Mathlib.Tactic.IntervalCases
import Mathlib.Tactic.FinCases
/-
C97 Maze tasks: what is observed, what is rewarded, when an episode ends.
-/
namespace Verif.MazeTask
open Verif.DataSet (Err)
open Verif.Maze Verif.Maze.Spec Spec MeasureTheory

theorem free_freePos {t : Table} {p : Pos} (h : Free t p) : p ∈ freePos t := by
  obtain ⟨⟨h1, h2, h3, h4⟩, hw⟩ := h
  simp only [freePos, List.mem_flatMap, List.mem_map, List.mem_filter, List.mem_range, beq_iff_eq]
  exact ⟨p.1.toNat, by omega, p.2.toNat, ⟨by omega, hw⟩, by ext <;> simp <;> omega⟩

instance (t : Table) (p : Pos) : Decidable (Free t p) := by unfold Free Cell; infer_instance

instance (t : Table) (p q : Pos) : Decidable (SameWalls t p q) :=
  decidable_of_iff (∀ h ∈ [Heading.north, .east, .south, .west], Free t (step h p) ↔ Free t (step h q))
    ⟨fun H h => H h (by cases h <;> simp), fun H h _ => H h⟩

instance (n : Nat) (l : List Nat) : Decidable (OneHot n l) := by unfold OneHot; infer_instance

/-! ### CheeseMaze -/

/-- the maze of CheeseMaze with perseus at `p` -/
def cheeseAt (p : Pos) : Maze := { table := cheeseTable, goal := cheeseGoal, initPos := [], perseus := p, bang := false, dir := 0 }

theorem cheese_at (m : Maze) (ht : m.table = cheeseTable) (hg : m.goal = cheeseGoal) (fl : List Bool) :
    cheeseObservation m fl = cheeseObservation (cheeseAt m.perseus) fl := by
  obtain ⟨t, g, i, p, b, d⟩ := m
  simp only at ht hg
  subst ht hg
  rfl

theorem cheese_onehot : ∀ p ∈ freePos cheeseTable, ∀ a b c d : Bool,
    ∃ i < 7, (cheeseObservation (cheeseAt p) [a, b, c, d]).toOption = some (oneAt 7 (some i)) := by decide +kernel

theorem oneAt_onehot : ∀ i < 7, OneHot 7 (oneAt 7 (some i)) := by decide +kernel

theorem cheese_pairs : ∀ p ∈ freePos cheeseTable, ∀ q ∈ freePos cheeseTable,
    ((cheeseObservation (cheeseAt p) [false, false, false, false]).toOption = (cheeseObservation (cheeseAt q) [false, false, false, false]).toOption ↔
      ((p = cheeseGoal ↔ q = cheeseGoal) ∧ SameWalls cheeseTable p q)) := by decide +kernel

theorem toOption_ok {α : Type} {x : Except Err α} {a : α} (h : x.toOption = some a) : x = .ok a := by
  cases x with
  | error e => simp [Except.toOption] at h
  | ok b => simp [Except.toOption] at h; rw [h]

end Verif.MazeTask

namespace Verif.Props
open Verif.DataSet (Err)
open Verif.Maze Verif.Maze.Spec Verif.MazeTask Verif.MazeTask.Spec MeasureTheory

/-! ### CheeseMaze -/

/-- **C97, CheeseMaze.** On every free cell, whichever sensors are flipped by noise, the observation is a 1-in-7 code: exactly one entry is 1. -/
theorem C97_cheese (m : Maze) (ht : m.table = cheeseTable) (hg : m.goal = cheeseGoal) (hf : Free cheeseTable m.perseus)
    (flips : List Bool) (h4 : flips.length = 4) : ∃ obs, cheeseObservation m flips = .ok obs ∧ OneHot 7 obs := by
  rw [cheese_at m ht hg]
  match flips, h4 with
  | [a, b, c, d], _ =>
    obtain ⟨i, hi, h⟩ := cheese_onehot m.perseus (free_freePos hf) a b c d
    exact ⟨_, toOption_ok h, oneAt_onehot i hi⟩

/-- **C97, CheeseMaze.** Without noise, two free cells give the same observation exactly if they have the same walls around them and both or
neither is the goal: the code numbers the wall combinations, with a number of its own for the goal. -/
theorem C97_cheese_walls (m m' : Maze) (ht : m.table = cheeseTable) (hg : m.goal = cheeseGoal) (ht' : m'.table = cheeseTable) (hg' : m'.goal = cheeseGoal)
    (hf : Free cheeseTable m.perseus) (hf' : Free cheeseTable m'.perseus) :
    cheeseObservation m [false, false, false, false] = cheeseObservation m' [false, false, false, false] ↔
      ((m.perseus = cheeseGoal ↔ m'.perseus = cheeseGoal) ∧ SameWalls cheeseTable m.perseus m'.perseus) := by
  rw [← cheese_pairs m.perseus (free_freePos hf) m'.perseus (free_freePos hf')]
  rw [cheese_at m ht hg, cheese_at m' ht' hg']
  constructor
  · intro h; rw [h]
  · intro h
    obtain ⟨i, -, hi⟩ := cheese_onehot m.perseus (free_freePos hf) false false false false
    rw [toOption_ok hi]
    rw [hi] at h
    rw [toOption_ok h.symm]

example : Free cheeseTable (2, 1) ∧ Free cheeseTable (2, 3) ∧ SameWalls cheeseTable (2, 1) (2, 5) ∧ ¬ SameWalls cheeseTable (2, 1) (3, 2) := by decide +kernel

end Verif.Props

namespace Verif.MazeTask
open Verif.DataSet (Err)
open Verif.Maze Verif.Maze.Spec Spec MeasureTheory

/-! ### FourByThreeMaze -/

/-- calls on a FourByThreeMaze -/
inductive FourOp
  | act (override : Option Int) (action : Int) (r : ℝ) (k : Nat)
  | reset (k d : Nat)

noncomputable def fourStep (s : Four) : FourOp → Except Err Four
  | .act o a r k => fourPerform s o a r k
  | .reset k d => fourReset s k d

noncomputable def fourRun (s : Four) : List FourOp → Except Err Four
  | [] => .ok s
  | op :: ops => match fourStep s op with
    | .error e => .error e
    | .ok s' => fourRun s' ops

theorem four_bad (ops : List FourOp) : ∀ (s s' : Four), s.bad = false → fourRun s ops = .ok s' → s'.bad = false := by
  induction ops with
  | nil => intro s s' h e; simp only [fourRun, Except.ok.injEq] at e; rw [← e]; exact h
  | cons op ops ih =>
    intro s s' h e
    simp only [fourRun] at e
    split at e
    · simp at e
    · rename_i s1 e1
      refine ih s1 s' ?_ e
      cases op with
      | act o a r k =>
        simp only [fourStep, fourPerform] at e1
        split at e1
        · simp at e1
        · simp only [Except.ok.injEq] at e1; rw [← e1]; exact h
      | reset k d =>
        simp only [fourStep, fourReset] at e1
        split at e1
        · simp at e1
        · simp only [Except.ok.injEq] at e1; rw [← e1]

theorem choice_volume (a b c : Int) (p : ℝ) (h0 : 0 ≤ p) (h1 : p ≤ 1) :
    (volume {r : ℝ | 0 ≤ r ∧ r < 1 ∧ (if r < p then c else a) = b}).toReal = (if c = b then p else 0) + (if a = b then 1 - p else 0) := by
  by_cases hc : c = b <;> by_cases ha : a = b
  · have : {r : ℝ | 0 ≤ r ∧ r < 1 ∧ (if r < p then c else a) = b} = Set.Ico 0 1 := by
      ext r; simp only [Set.mem_setOf_eq, Set.mem_Ico, hc, ha, ite_self, and_true]
    rw [this, Real.volume_Ico]; simp [hc, ha]
  · have : {r : ℝ | 0 ≤ r ∧ r < 1 ∧ (if r < p then c else a) = b} = Set.Ico 0 p := by
      ext r; simp only [Set.mem_setOf_eq, Set.mem_Ico]
      constructor
      · rintro ⟨h, _, h'⟩
        by_cases hr : r < p
        · exact ⟨h, hr⟩
        · rw [if_neg hr] at h'; exact absurd h' ha
      · rintro ⟨h, h'⟩; exact ⟨h, by linarith, by rw [if_pos h', hc]⟩
    rw [this, Real.volume_Ico]; simp [hc, ha, h0]
  · have : {r : ℝ | 0 ≤ r ∧ r < 1 ∧ (if r < p then c else a) = b} = Set.Ico p 1 := by
      ext r; simp only [Set.mem_setOf_eq, Set.mem_Ico]
      constructor
      · rintro ⟨_, h, h'⟩
        by_cases hr : r < p
        · rw [if_pos hr] at h'; exact absurd h' hc
        · exact ⟨not_lt.1 hr, h⟩
      · rintro ⟨h, h'⟩; exact ⟨by linarith, h', by rw [if_neg (not_lt.2 h), ha]⟩
    rw [this, Real.volume_Ico]; simp [hc, ha, h1]
  · have : {r : ℝ | 0 ≤ r ∧ r < 1 ∧ (if r < p then c else a) = b} = ∅ := by
      ext r; simp only [Set.mem_setOf_eq, Set.mem_empty_iff_false, iff_false]
      rintro ⟨_, _, h'⟩
      split at h' <;> contradiction
    rw [this]; simp [hc, ha]

/-- the probability that `fourChoice` hands on `b` -/
theorem four_law (a b : Int) (n : Nat) (hn : (fourPoss a).length = n) (h1 : n ≤ 10) :
    prob n (fun r k => fourChoice a r k = b) =
      (∑ k ∈ Finset.range n, ((if (((fourPoss a).getD k 0 : Nat) : Int) = b then (1 / 10 * n : ℝ) else 0) + (if a = b then (1 - 1 / 10 * n : ℝ) else 0))) / n := by
  have hle : (n : ℝ) ≤ 10 := by exact_mod_cast h1
  unfold prob fourChoice
  rw [hn]
  congr 1
  refine Finset.sum_congr rfl fun k _ => ?_
  exact choice_volume a b _ _ (by positivity) (by linarith)

end Verif.MazeTask

namespace Verif.Props
open Verif.DataSet (Err)
open Verif.Maze Verif.Maze.Spec Verif.MazeTask Verif.MazeTask.Spec MeasureTheory

/-- **C97, FourByThreeMaze, part.** An action south or west is executed with probability 8/10; with probability 1/10 each the agent slips to
one of the two sides and never backwards (before the maze's own noise). Missing: the same for north and east, where it fails, see
`C97_negation_slip`. -/
theorem C97_slip_partial (hd : Heading) (h : hd = .south ∨ hd = .west) :
    prob (fourPoss (code hd)).length (fun r k => fourChoice (code hd) r k = code hd) = 8 / 10 ∧
    prob (fourPoss (code hd)).length (fun r k => fourChoice (code hd) r k = code (leftOf hd)) = 1 / 10 ∧
    prob (fourPoss (code hd)).length (fun r k => fourChoice (code hd) r k = code (rightOf hd)) = 1 / 10 ∧
    prob (fourPoss (code hd)).length (fun r k => fourChoice (code hd) r k = code (behind hd)) = 0 := by
  rcases h with rfl | rfl
  · have e : fourPoss (code .south) = [1, 2, 3] := by decide
    have el : (fourPoss (code .south)).length = 3 := by rw [e]; rfl
    rw [el]
    refine ⟨?_, ?_, ?_, ?_⟩ <;> rw [four_law _ _ 3 el (by omega), e] <;> simp [Finset.sum_range_succ, code, leftOf, rightOf, behind] <;> norm_num
  · have e : fourPoss (code .west) = [0, 2, 3] := by decide
    have el : (fourPoss (code .west)).length = 3 := by rw [e]; rfl
    rw [el]
    refine ⟨?_, ?_, ?_, ?_⟩ <;> rw [four_law _ _ 3 el (by omega), e] <;> simp [Finset.sum_range_succ, code, leftOf, rightOf, behind] <;> norm_num

/-- **C97, negation (FourByThreeMaze slips).** An action north or east is executed only with probability 7/10, and with probability 1/10 the
agent goes in the opposite direction: `action - a % 4 != 2` is meant to exclude the opposite direction, but `%` binds more tightly than `-`,
so that for actions 0 and 1 nothing is excluded. -/
theorem C97_negation_slip (hd : Heading) (h : hd = .north ∨ hd = .east) :
    prob (fourPoss (code hd)).length (fun r k => fourChoice (code hd) r k = code hd) = 7 / 10 ∧
    prob (fourPoss (code hd)).length (fun r k => fourChoice (code hd) r k = code (behind hd)) = 1 / 10 := by
  rcases h with rfl | rfl
  · have e : fourPoss (code .north) = [0, 1, 2, 3] := by decide
    have el : (fourPoss (code .north)).length = 4 := by rw [e]; rfl
    rw [el]
    refine ⟨?_, ?_⟩ <;> rw [four_law _ _ 4 el (by omega), e] <;> simp [Finset.sum_range_succ, code, behind] <;> norm_num
  · have e : fourPoss (code .east) = [0, 1, 2, 3] := by decide
    have el : (fourPoss (code .east)).length = 4 := by rw [e]; rfl
    rw [el]
    refine ⟨?_, ?_⟩ <;> rw [four_law _ _ 4 el (by omega), e] <;> simp [Finset.sum_range_succ, code, behind] <;> norm_num

/-- **C97, negation (the bad spot of FourByThreeMaze).** The documented absorbing spot with negative reward does not exist: whatever happens
to the task, its reward is 1 on the goal and -0.04 everywhere else, never -1; and on the spot (2, 4) the episode is not finished and the agent
can walk away. (`bad` is only ever set to False.) -/
theorem C97_negation_bad_spot :
    (∀ (k d : Nat) (s0 : Four) (ops : List FourOp) (s : Four), fourInitial k d = .ok s0 → fourRun s0 ops = .ok s →
      fourReward s.bad s.minReward s.base.env = if s.base.env.perseus = s.base.env.goal then 1 else -1 / 25) ∧
    ∀ s : Four, s.base.env.table = fourTable → s.base.env.goal = fourGoal → s.base.env.perseus = (2, 4) → isFinished fourCfg s.base = false ∧
      ∃ s', fourPerform s none 3 1 0 = .ok s' ∧ s'.base.env.perseus = (2, 3) := by
  constructor
  · intro k d s0 ops s h0 h
    have hb : s0.bad = false := by
      simp only [fourInitial] at h0
      split at h0
      · simp at h0
      · simp only [Except.ok.injEq] at h0; rw [← h0]
    simp only [fourReward, four_bad ops s0 s hb h, getReward, fourCfg]
    simp
  · rintro ⟨⟨⟨t, g, i, p, b, d⟩, st, sa, cu⟩, bad, mr⟩ rfl rfl rfl
    refine ⟨rfl, ?_⟩
    have e : fourChoice 3 1 0 = 3 := by
      have : fourPoss 3 = [0, 2, 3] := by decide
      unfold fourChoice; rw [this]; norm_num
    unfold fourPerform
    rw [e]
    unfold perform
    rw [show performAction (⟨fourTable, fourGoal, i, (2, 4), b, d⟩ : Maze) none 3 = .ok ⟨fourTable, fourGoal, i, (2, 3), false, d⟩ from rfl]
    refine ⟨_, rfl, ?_⟩
    simp only [addReward]
    split <;> rfl

end Verif.Props

namespace Verif.MazeTask
open Verif.DataSet (Err)
open Verif.Maze Verif.Maze.Spec Spec MeasureTheory

/-! ### TMaze -/

theorem tcol (L c : Nat) : (tColumns L).getD c [] =
    if c = 0 then [1, 1, 1, 1, 1] else if c ≤ L then [1, 1, 0, 1, 1] else if c = L + 1 then [1, 0, 0, 0, 1] else if c = L + 2 then [1, 1, 1, 1, 1] else [] := by
  rw [List.getD_eq_getElem?_getD]
  unfold tColumns
  simp only [List.append_assoc, List.cons_append, List.nil_append]
  rcases c with _ | c
  · simp
  · rw [List.getElem?_cons_succ]
    simp only [Nat.succ_ne_zero, if_false]
    by_cases h : c + 1 ≤ L
    · rw [if_pos h, List.getElem?_append_left (by simp; omega), List.getElem?_replicate, if_pos (by omega)]; rfl
    · rw [if_neg h, List.getElem?_append_right (by simp; omega)]
      simp only [List.length_replicate]
      by_cases h1 : c = L
      · subst h1; simp
      · by_cases h2 : c = L + 1
        · subst h2; simp
        · rw [if_neg (by omega), if_neg (by omega), List.getElem?_eq_none (by simp; omega)]; rfl

theorem tcols (L : Nat) : (tTable L).cols = L + 3 := by
  show (tColumns L).length = _
  unfold tColumns; simp

/-- the free cells are the corridor with the junction, and the two arms -/
theorem t_free (L : Nat) (p : Pos) : Free (tTable L) p ↔ Corridor L p ∨ p = arm L true ∨ p = arm L false := by
  have hw : ∀ r c : Nat, r < 5 → c < L + 3 → ((tTable L).wall r c = false ↔ (r = 2 ∧ 1 ≤ c ∧ c ≤ L + 1) ∨ ((r = 1 ∨ r = 3) ∧ c = L + 1)) := by
    intro r c hr hc
    show (((tColumns L).getD c []).getD r 0 == 1) = false ↔ _
    rw [tcol]
    by_cases h0 : c = 0
    · rw [if_pos h0]; interval_cases r <;> simp <;> omega
    rw [if_neg h0]
    by_cases h1 : c ≤ L
    · rw [if_pos h1]; interval_cases r <;> simp <;> omega
    rw [if_neg h1]
    by_cases h2 : c = L + 1
    · rw [if_pos h2]; interval_cases r <;> simp <;> omega
    rw [if_neg h2, if_pos (by omega)]; interval_cases r <;> simp <;> omega
  obtain ⟨r, c⟩ := p
  simp only [Free, Cell, Corridor, arm, tcols, Prod.mk.injEq, if_true, Bool.false_eq_true, if_false, show (tTable L).rows = 5 from rfl]
  constructor
  · rintro ⟨⟨h1, h2, h3, h4⟩, h⟩
    have := (hw r.toNat c.toNat (by omega) (by omega)).1 h
    omega
  · intro h
    refine ⟨by omega, (hw r.toNat c.toNat (by omega) (by omega)).2 (by omega)⟩

theorem t_bordered (L : Nat) : Bordered (tTable L) := by
  intro r c hr hc h
  rw [tcols] at hc h
  rw [show (tTable L).rows = 5 from rfl] at hr h
  by_contra hn
  have : Free (tTable L) ((r : Int), (c : Int)) := ⟨⟨by simp, by simpa [show (tTable L).rows = 5 from rfl] using hr, by simp, by simp [tcols]; omega⟩, by simpa using hn⟩
  have := (t_free L _).1 this
  simp only [Corridor, arm, Prod.mk.injEq, if_true, Bool.false_eq_true, if_false] at this
  omega

/-- the states of a TMaze between two calls: the maze has the corridor `L`, the goal is the arm `up`, the agent is in the corridor or on the goal -/
structure TState (L : Nat) (up : Bool) (t : TMaze) : Prop where
  len : t.length = L
  table : t.base.env.table = tTable L
  goal : t.base.env.goal = arm L up
  init : t.base.env.initPos = [(2, 1)]
  special : t.specialObs = up
  place : Corridor L t.base.env.perseus ∨ t.base.env.perseus = arm L up

/-- calls of `performAction`, one after the other -/
def tRun (t : TMaze) : List Heading → Except Err TMaze
  | [] => .ok t
  | h :: hs => match tPerform t (code h) with
    | .error e => .error e
    | .ok t' => tRun t' hs

theorem tInitial_ok (L : Nat) (up : Bool) : ∃ t, tInitial L up = .ok t ∧ TState L up t ∧ t.base.cum = 0 ∧ t.base.samples = 0 ∧ t.base.env.perseus = (2, 1) := by
  refine ⟨_, rfl, ⟨rfl, rfl, ?_, rfl, rfl, Or.inl ⟨rfl, ?_, ?_⟩⟩, rfl, rfl, rfl⟩
  · cases up <;> rfl
  · show (1 : Int) ≤ 1; omega
  · show (1 : Int) ≤ (L : Int) + 1; omega

theorem arm_ne (L : Nat) (up : Bool) : arm L up ≠ arm L (!up) := by cases up <;> simp [arm]

/-- the effect of the reward's side effect on an arm -/
theorem tReward_other (L : Nat) (up : Bool) (m : Maze) (hg : m.goal = arm L up) (hp : m.perseus = arm L (!up)) :
    tReward L m = (-1 / 10, { m with perseus := arm L up }) := by
  unfold tReward
  rw [if_pos, hg]
  · rfl
  · rw [hp, hg]; cases up <;> simp [arm]

theorem tReward_goal (L : Nat) (up : Bool) (m : Maze) (hg : m.goal = arm L up) (hp : m.perseus = arm L up) : tReward L m = (4, m) := by
  unfold tReward
  rw [if_neg]
  · simp [getReward, hg, hp, tCfg]
  · rw [hp, hg]; simp

theorem tReward_corridor (L : Nat) (up : Bool) (m : Maze) (hg : m.goal = arm L up) (hp : Corridor L m.perseus) :
    tReward L m = (if m.bang then -1 / 10 else 0, m) := by
  unfold tReward
  obtain ⟨h1, h2, h3⟩ := hp
  rw [if_neg]
  · unfold getReward
    rw [if_neg]
    · rfl
    · rw [hg]; intro h; rw [h] at h1; cases up <;> simp [arm] at h1
  · rw [h1, hg]; cases up <;> simp [arm]

theorem addReward_t (s : St) (r : ℚ) : addReward tCfg s r = { s with cum := s.cum + (49 / 50) ^ s.samples * r } := by
  unfold addReward
  rw [if_pos (by simp [tCfg])]
  rfl

end Verif.MazeTask

namespace Verif.Props
open Verif.DataSet (Err)
open Verif.Maze Verif.Maze.Spec Verif.MazeTask Verif.MazeTask.Spec MeasureTheory

/-- **C97, TMaze.** For every length of the corridor: as long as the episode is not finished, an action into the goal arm ends the episode with
reward 4, an action into the other arm ends it with reward -0.1, an action against a wall is penalised by -0.1 and changes nothing else, every
other action moves the agent without reward. Rewards are added to the total with the discount 0.98 per step. -/
theorem C97_tmaze (L : Nat) (up : Bool) (t : TMaze) (h : TState L up t) (hu : tFinished t = false) (hd : Heading) :
    ∃ t', tPerform t (code hd) = .ok t' ∧ TState L up t' ∧ t'.base.samples = t.base.samples + 1 ∧
      (step hd t.base.env.perseus = arm L up →
        tFinished t' = true ∧ t'.base.cum = t.base.cum + (49 / 50) ^ (t.base.samples + 1) * 4) ∧
      (step hd t.base.env.perseus = arm L (!up) →
        tFinished t' = true ∧ t'.base.cum = t.base.cum + (49 / 50) ^ (t.base.samples + 1) * (-1 / 10)) ∧
      (¬ Free (tTable L) (step hd t.base.env.perseus) →
        tFinished t' = false ∧ t'.base.env.perseus = t.base.env.perseus ∧ t'.base.cum = t.base.cum + (49 / 50) ^ (t.base.samples + 1) * (-1 / 10)) ∧
      (Corridor L (step hd t.base.env.perseus) →
        tFinished t' = false ∧ t'.base.env.perseus = step hd t.base.env.perseus ∧ t'.base.cum = t.base.cum) := by
  have nocor : ∀ b, ¬ Corridor L (arm L b) := by intro b hb; cases b <;> simp [arm, Corridor] at hb
  obtain ⟨Lt, ⟨⟨tb, g, ip, p, b, d⟩, st, sa, cu⟩, sp⟩ := t
  obtain ⟨h1, h2, h3, h4, h5, hplace⟩ := h
  dsimp only at h1 h2 h3 h4 h5 hplace
  subst h1 h2 h3 h4 h5
  dsimp only
  have hcor : Corridor Lt p := by
    rcases hplace with hp | hp
    · exact hp
    · rw [hp] at hu; simp [tFinished, isFinished] at hu
  have hact := C36_action ⟨tTable Lt, arm Lt sp, [(2, 1)], p, b, d⟩ (t_bordered Lt) ((t_free Lt _).2 (Or.inl hcor)) none (code hd) hd rfl
  have armfree : ∀ b, Free (tTable Lt) (arm Lt b) := by intro b; rw [t_free]; cases b <;> simp
  unfold tPerform
  by_cases hfr : Free (tTable Lt) (step hd p)
  · rw [hact.1 hfr]
    dsimp only
    by_cases hc : Corridor Lt (step hd p)
    · rw [tReward_corridor Lt sp _ rfl hc]
      dsimp only
      rw [addReward_t]
      refine ⟨_, rfl, ⟨rfl, rfl, rfl, rfl, rfl, Or.inl hc⟩, rfl, ?_, ?_, ?_, ?_⟩
      · intro e; rw [e] at hc; exact absurd hc (nocor _)
      · intro e; rw [e] at hc; exact absurd hc (nocor _)
      · intro e; exact absurd hfr e
      · intro _
        refine ⟨?_, rfl, by simp⟩
        simp only [tFinished, isFinished, tCfg, Bool.or_false, decide_eq_false_iff_not]
        intro e; rw [e] at hc; exact nocor _ hc
    · have hcase : step hd p = arm Lt sp ∨ step hd p = arm Lt (!sp) := by
        rcases (t_free Lt _).1 hfr with e | e | e
        · exact absurd e hc
        · cases sp
          · exact Or.inr e
          · exact Or.inl e
        · cases sp
          · exact Or.inl e
          · exact Or.inr e
      rcases hcase with he | he
      · rw [tReward_goal Lt sp _ rfl he]
        dsimp only
        rw [addReward_t]
        refine ⟨_, rfl, ⟨rfl, rfl, rfl, rfl, rfl, Or.inr he⟩, rfl, ?_, ?_, ?_, ?_⟩
        · intro _; exact ⟨by simp [tFinished, isFinished, he], rfl⟩
        · intro e; rw [he] at e; exact absurd e (arm_ne Lt sp)
        · intro e; exact absurd hfr e
        · intro e; exact absurd e hc
      · rw [tReward_other Lt sp _ rfl he]
        dsimp only
        rw [addReward_t]
        refine ⟨_, rfl, ⟨rfl, rfl, rfl, rfl, rfl, Or.inr rfl⟩, rfl, ?_, ?_, ?_, ?_⟩
        · intro e; rw [he] at e; exact absurd e.symm (arm_ne Lt sp)
        · intro _; exact ⟨by simp [tFinished, isFinished], rfl⟩
        · intro e; exact absurd hfr e
        · intro e; exact absurd e hc
  · rw [hact.2 hfr]
    dsimp only
    rw [tReward_corridor Lt sp _ rfl hcor]
    dsimp only
    rw [addReward_t]
    refine ⟨_, rfl, ⟨rfl, rfl, rfl, rfl, rfl, Or.inl hcor⟩, rfl, ?_, ?_, ?_, ?_⟩
    · intro e; rw [e] at hfr; exact absurd (armfree _) hfr
    · intro e; rw [e] at hfr; exact absurd (armfree _) hfr
    · intro _
      refine ⟨?_, rfl, rfl⟩
      simp only [tFinished, isFinished, tCfg, Bool.or_false, decide_eq_false_iff_not]
      intro e; rw [e] at hcor; exact nocor _ hcor
    · intro e; exact absurd ((t_free Lt _).2 (Or.inl e)) hfr

/-- **C97, TMaze.** A new task is in such a state, with total reward 0, and its first observation tells the arm; so the agent that remembers it,
walks to the end of the corridor and turns accordingly, ends the episode after L + 1 actions with total reward 4 · 0.98^(L+1). -/
theorem C97_tmaze_memory (L : Nat) (up : Bool) : ∃ t, tInitial L up = .ok t ∧ TState L up t ∧ t.base.cum = 0 ∧
    tObservation t = (if up then [1, 0, 0, 0] else [0, 1, 0, 0]) ∧
    ∃ t', tRun t (List.replicate L .east ++ [if tObservation t = [1, 0, 0, 0] then .north else .south]) = .ok t' ∧
      tFinished t' = true ∧ t'.base.samples = L + 1 ∧ t'.base.cum = 4 * (49 / 50) ^ (L + 1) := by
  obtain ⟨t, ht, hs, hc, hn, hp⟩ := tInitial_ok L up
  have hobs : tObservation t = (if up then [1, 0, 0, 0] else [0, 1, 0, 0]) := by
    simp only [tObservation, tIndex, hp, hs.init, hs.special]
    cases up <;> rfl
  refine ⟨t, ht, hs, hc, hobs, ?_⟩
  have hdir : (if tObservation t = [1, 0, 0, 0] then Heading.north else .south) = if up then .north else .south := by
    rw [hobs]; cases up <;> rfl
  rw [hdir]
  have fin_cor : ∀ t : TMaze, TState L up t → Corridor L t.base.env.perseus → tFinished t = false := by
    intro t hs hc
    simp only [tFinished, isFinished, tCfg, hs.goal, Bool.or_false, decide_eq_false_iff_not]
    intro e; rw [e] at hc; cases up <;> simp [arm, Corridor] at hc
  have key : ∀ (n : Nat) (t : TMaze), TState L up t → t.base.env.perseus = (2, (L : Int) + 1 - n) → n ≤ L → t.base.cum = 0 →
      ∃ t', tRun t (List.replicate n .east ++ [if up then .north else .south]) = .ok t' ∧
        tFinished t' = true ∧ t'.base.samples = t.base.samples + n + 1 ∧ t'.base.cum = 4 * (49 / 50) ^ (t.base.samples + n + 1) := by
    intro n
    induction n with
    | zero =>
      intro t hs hp _ hc
      have hcor : Corridor L t.base.env.perseus := by rw [hp]; exact ⟨rfl, by simp, by simp⟩
      obtain ⟨t', e, _, hsm, hgoal, _⟩ := C97_tmaze L up t hs (fin_cor t hs hcor) (if up then .north else .south)
      refine ⟨t', ?_, ?_⟩
      · simp [tRun, e]
      · have := hgoal (by rw [hp]; cases up <;> simp [step, arm])
        refine ⟨this.1, hsm, ?_⟩
        rw [this.2, hc]; ring
    | succ n ih =>
      intro t hs hp hn hc
      have hcor : Corridor L t.base.env.perseus := by rw [hp]; exact ⟨rfl, by push_cast; omega, by push_cast; omega⟩
      obtain ⟨t', e, hs', hsm, _, _, _, hmove⟩ := C97_tmaze L up t hs (fin_cor t hs hcor) .east
      have hm := hmove (by rw [hp]; exact ⟨rfl, by simp only [step]; push_cast; omega, by simp only [step]; push_cast; omega⟩)
      obtain ⟨t'', e2, h1, h2, h3⟩ := ih t' hs' (by rw [hm.2.1, hp]; simp only [step]; push_cast; ext <;> dsimp only; ring) (by omega) (by rw [hm.2.2, hc])
      refine ⟨t'', ?_, h1, ?_, ?_⟩
      · simp only [List.replicate_succ, List.cons_append, tRun, e]; exact e2
      · rw [h2, hsm]; omega
      · rw [h3, hsm]; congr 2; omega
  obtain ⟨t', e, h1, h2, h3⟩ := key L t hs (by rw [hp]; simp) le_rfl hc
  rw [hn] at h2 h3
  exact ⟨t', e, h1, by omega, by rw [h3]; congr 2; omega⟩

/-- **C97, TMaze observations.** The observation is a 1-in-4 code: at the start of the corridor it tells the arm, at the junction column it is
the third, elsewhere the fourth. -/
theorem C97_tmaze_observation (L : Nat) (up : Bool) (t : TMaze) (h : TState L up t) :
    tObservation t = (if t.base.env.perseus = (2, 1) then (if up then [1, 0, 0, 0] else [0, 1, 0, 0])
      else if t.base.env.perseus.2 = (L : Int) + 1 then [0, 0, 1, 0] else [0, 0, 0, 1]) := by
  simp only [tObservation, tIndex, h.init, h.special, h.len]
  simp only [List.getD_cons_zero]
  split_ifs <;> rfl

/-- **C97, negation (TMaze rewards).** After the wrong choice at the junction, the total is penalised by -0.1, but the reward an agent is given
afterwards is 4, as for the right choice: the first call of `getReward`, within `performAction`, puts perseus on the goal, and the call made by
the experiment then finds him there. -/
theorem C97_negation_tmaze (L : Nat) (up : Bool) (t : TMaze) (h : TState L up t) (hu : tFinished t = false) (hd : Heading)
    (hw : step hd t.base.env.perseus = arm L (!up)) :
    ∃ t', tPerform t (code hd) = .ok t' ∧ t'.base.cum = t.base.cum + (49 / 50) ^ (t.base.samples + 1) * (-1 / 10) ∧
      (tReward t'.length t'.base.env).1 = 4 := by
  obtain ⟨t', e, hs, _, _, hbad, _⟩ := C97_tmaze L up t h hu hd
  refine ⟨t', e, (hbad hw).2, ?_⟩
  have : t'.base.env.perseus = arm L up := by
    have := (hbad hw).1
    simpa [tFinished, isFinished, tCfg, hs.goal] using this
  rw [hs.len, tReward_goal L up _ hs.goal this]

/-- at the junction of a maze of length 3 -/
example : ∃ t, TState 3 true t ∧ tFinished t = false ∧ step .south t.base.env.perseus = arm 3 false :=
  ⟨{ length := 3, specialObs := true, base := { env := { table := tTable 3, goal := (3, 4), initPos := [(2, 1)], perseus := (2, 4), bang := false, dir := 0 },
                                                steps := 3, samples := 3, cum := 0 } },
    ⟨rfl, rfl, rfl, rfl, rfl, Or.inl ⟨rfl, by decide, by decide⟩⟩, rfl, by decide⟩

end Verif.Props

namespace Verif.MazeTask
open Verif.DataSet (Err)
open Verif.Maze Verif.Maze.Spec Spec MeasureTheory

/-! ### totals of an episode -/

/-- performing actions, each with the maze's own override -/
def performAll (c : Cfg) (reward : Maze → ℚ) (s : St) : List (Option Int × Int) → Except Err St
  | [] => .ok s
  | a :: as => match perform c reward s a.1 a.2 with
    | .error e => .error e
    | .ok s' => performAll c reward s' as

/-- the mazes after each of the actions -/
def trace (m : Maze) : List (Option Int × Int) → Except Err (List Maze)
  | [] => .ok []
  | a :: as => match Maze.performAction m a.1 a.2 with
    | .error e => .error e
    | .ok m' => match trace m' as with
      | .error e => .error e
      | .ok ms => .ok (m' :: ms)

theorem performAll_total (c : Cfg) (hc : c.discount ≠ 0) (reward : Maze → ℚ) (acts : List (Option Int × Int)) : ∀ s s' : St,
    performAll c reward s acts = .ok s' →
    ∃ ms : List Maze, trace s.env acts = .ok ms ∧ ms.length = acts.length ∧ s'.samples = s.samples + acts.length ∧ s'.steps = s.steps + acts.length ∧
      s'.cum = s.cum + ∑ i ∈ Finset.range acts.length, c.discount ^ (s.samples + (i + 1)) * reward (ms.getD i s.env) := by
  induction acts with
  | nil => intro s s' h; simp only [performAll, Except.ok.injEq] at h; subst h; exact ⟨[], rfl, rfl, rfl, rfl, by simp⟩
  | cons a as ih =>
    intro s s' h
    simp only [performAll, perform] at h
    cases e : Maze.performAction s.env a.1 a.2 with
    | error x => rw [e] at h; simp at h
    | ok m =>
      rw [e] at h
      obtain ⟨ms, e1, hl, h1, h2, h3⟩ := ih _ _ h
      simp only [addReward, if_pos hc] at e1 h1 h2 h3
      refine ⟨m :: ms, by simp only [trace, e, e1], by simp [hl], by rw [h1]; simp; omega, by rw [h2]; simp; omega, ?_⟩
      rw [h3, List.length_cons, Finset.sum_range_succ']
      have : ∀ i ∈ Finset.range as.length, c.discount ^ (s.samples + 1 + (i + 1)) * reward (ms.getD i m) =
          c.discount ^ (s.samples + (i + 1 + 1)) * reward ((m :: ms).getD (i + 1) s.env) := by
        intro i hi
        have hi : i < ms.length := by rw [hl]; exact Finset.mem_range.1 hi
        rw [List.getD_cons_succ, List.getD_eq_getElem?_getD, List.getD_eq_getElem?_getD, List.getElem?_eq_getElem hi]
        simp only [Option.getD_some]
        congr 2; omega
      rw [Finset.sum_congr rfl this, List.getD_cons_zero, zero_add]
      ring

/-! ### ShuttleDocking -/

/-- the shuttle in column `c`, facing east (1) or west (3) -/
def shuttleAt (c : Int) (d : Nat) (b : Bool) : Maze :=
  { table := shuttleTable, goal := (1, 5), initPos := [(1, 1)], perseus := (1, c), bang := b, dir := d }

/-- the states of the task: the shuttle is in one of the columns 1 to 5, facing east or west; nothing is ever counted or added -/
def ShState (s : St) : Prop :=
  (∃ c d b, 1 ≤ c ∧ c ≤ 5 ∧ (d = 1 ∨ d = 3) ∧ s.env = shuttleAt c d b) ∧ s.samples = 0 ∧ s.cum = 0

/-- the opposite direction -/
def flipDir (d : Nat) : Nat := (d + 2) % 4

/-- where backing up leads: one column away from where the shuttle faces, unless there is the wall -/
def backCol (c : Int) (d : Nat) : Int := if d = 1 then (if c = 1 then 1 else c - 1) else (if c = 5 then 5 else c + 1)

theorem shuttle_turn (c : Int) (d : Nat) (b : Bool) (hd : d = 1 ∨ d = 3) : shuttleTurn (shuttleAt c d b) = .ok (shuttleAt c (flipDir d) false) := by
  rcases hd with rfl | rfl <;> rfl

theorem shuttle_forward (c : Int) (d : Nat) (b : Bool) (hd : d = 1 ∨ d = 3) :
    shuttleForward (shuttleAt c d b) = .ok (shuttleAt c (flipDir d) (decide (c = 1 ∨ c = 5))) := by
  have e : polarAction (shuttleAt c d b) none 2 = .ok (shuttleAt c (flipDir d) false) := shuttle_turn c d b hd
  unfold shuttleForward
  simp only [e, bind, Except.bind]
  by_cases h : c = 1 ∨ c = 5
  · rw [if_pos (by rcases h with rfl | rfl <;> simp [shuttleAt])]
    simp [shuttleAt, h]
  · rw [if_neg (by simp only [shuttleAt, List.getD_cons_zero, Prod.mk.injEq, true_and]; omega)]
    simp [shuttleAt, h]

theorem shuttle_backup (c : Int) (d : Nat) (b : Bool) (h1 : 1 ≤ c) (h5 : c ≤ 5) (hd : d = 1 ∨ d = 3) :
    shuttleBackup (shuttleAt c d b) = .ok (shuttleAt (backCol c d) d false) := by
  have e1 : polarAction (shuttleAt c d b) none 2 = .ok (shuttleAt c (flipDir d) false) := shuttle_turn c d b hd
  have e2 : ∃ b', polarAction (shuttleAt c (flipDir d) false) none 1 = .ok (shuttleAt (backCol c d) (flipDir d) b') := by
    rcases hd with rfl | rfl <;> interval_cases c
    exacts [⟨true, rfl⟩, ⟨false, rfl⟩, ⟨false, rfl⟩, ⟨false, rfl⟩, ⟨false, rfl⟩, ⟨false, rfl⟩, ⟨false, rfl⟩, ⟨false, rfl⟩, ⟨false, rfl⟩, ⟨true, rfl⟩]
  obtain ⟨b', e2⟩ := e2
  have e3 : polarAction (shuttleAt (backCol c d) (flipDir d) b') none 2 = .ok (shuttleAt (backCol c d) (flipDir (flipDir d)) false) :=
    shuttle_turn _ _ _ (by rcases hd with rfl | rfl <;> simp [flipDir])
  unfold shuttleBackup
  simp only [e1, e2, e3, bind, Except.bind]
  rcases hd with rfl | rfl <;> rfl

/-- the whole effect of an action on the environment -/
theorem shuttle_move (c : Int) (d : Nat) (b : Bool) (h1 : 1 ≤ c) (h5 : c ≤ 5) (hd : d = 1 ∨ d = 3) (a : Int) (r : ℝ) :
    ∃ c' d' b', shuttleMove (shuttleAt c d b) a r = .ok (shuttleAt c' d' b') ∧ 1 ≤ c' ∧ c' ≤ 5 ∧ (d' = 1 ∨ d' = 3) ∧
      (c' ≠ c → a ≠ 1 ∧ a ≠ 2 ∧ c' = backCol c d ∧ d' = d) ∧ (a ≠ 1 → b' = true → b = true) := by
  have hfl : flipDir d = 1 ∨ flipDir d = 3 := by rcases hd with rfl | rfl <;> simp [flipDir]
  have hbk : 1 ≤ backCol c d ∧ backCol c d ≤ 5 := by unfold backCol; split_ifs <;> omega
  have turn : ∃ c' d' b', shuttleTurn (shuttleAt c d b) = .ok (shuttleAt c' d' b') ∧ 1 ≤ c' ∧ c' ≤ 5 ∧ (d' = 1 ∨ d' = 3) ∧
      (c' ≠ c → a ≠ 1 ∧ a ≠ 2 ∧ c' = backCol c d ∧ d' = d) ∧ (a ≠ 1 → b' = true → b = true) :=
    ⟨c, flipDir d, false, shuttle_turn c d b hd, h1, h5, hfl, fun h => absurd rfl h, fun _ h => by simp at h⟩
  have stay : ∃ c' d' b', (Except.ok (shuttleAt c d b) : Except Err Maze) = .ok (shuttleAt c' d' b') ∧ 1 ≤ c' ∧ c' ≤ 5 ∧ (d' = 1 ∨ d' = 3) ∧
      (c' ≠ c → a ≠ 1 ∧ a ≠ 2 ∧ c' = backCol c d ∧ d' = d) ∧ (a ≠ 1 → b' = true → b = true) :=
    ⟨c, d, b, rfl, h1, h5, hd, fun h => absurd rfl h, fun _ h => h⟩
  unfold shuttleMove
  by_cases a2 : a = 2
  · rw [if_pos a2]; exact turn
  rw [if_neg a2]
  by_cases a1 : a = 1
  · rw [if_pos a1, shuttle_forward c d b hd]
    exact ⟨c, flipDir d, _, rfl, h1, h5, hfl, fun h => absurd rfl h, fun h => absurd a1 h⟩
  rw [if_neg a1]
  have back : ∃ c' d' b', shuttleBackup (shuttleAt c d b) = .ok (shuttleAt c' d' b') ∧ 1 ≤ c' ∧ c' ≤ 5 ∧ (d' = 1 ∨ d' = 3) ∧
      (c' ≠ c → a ≠ 1 ∧ a ≠ 2 ∧ c' = backCol c d ∧ d' = d) ∧ (a ≠ 1 → b' = true → b = true) :=
    ⟨backCol c d, d, false, shuttle_backup c d b h1 h5 hd, hbk.1, hbk.2, hd, fun _ => ⟨a1, a2, rfl, rfl⟩, fun _ h => by simp at h⟩
  split_ifs <;> first | exact turn | exact back | exact stay

/-- the law of the backup action -/
theorem shuttle_law (c : Int) (h : Heading) (hh : h = .east ∨ h = .west) (b : Bool) (h1 : 1 ≤ c) (h5 : c ≤ 5) (a : Int) (a1 : a ≠ 1) (a2 : a ≠ 2) (r : ℝ)
    (hr : 0 ≤ r) :
    shuttleMove (shuttleAt c (code h) b) a r =
      if r < turnChance c h then .ok (shuttleAt c (flipDir (code h)) false)
      else if r < turnChance c h + backChance c h then .ok (shuttleAt (backCol c (code h)) (code h) false)
      else .ok (shuttleAt c (code h) b) := by
  have hd : code h = 1 ∨ code h = 3 := by rcases hh with rfl | rfl <;> simp [code]
  rw [← shuttle_backup c (code h) b h1 h5 hd, ← shuttle_turn c (code h) b hd]
  unfold shuttleMove
  rw [if_neg a2, if_neg a1]
  have e3 : (shuttleAt c (code h) b).perseus.2 = c := rfl
  have e4 : (shuttleAt c (code h) b).dir = code h := rfl
  rw [e3, e4]
  unfold turnChance backChance
  by_cases c3 : c = 3
  · simp only [if_pos c3]
    norm_num
  · simp only [if_neg c3]
    have hf : ((c = 2 ∧ code h = 3) ∨ (c = 4 ∧ code h = 1)) ↔ Facing c h := by
      rcases hh with rfl | rfl <;> simp [Facing, code]
    by_cases f : Facing c h
    · rw [if_pos (hf.2 f), if_pos f, if_pos f]
      norm_num
    · rw [if_neg (fun x => f (hf.1 x)), if_neg f, if_neg f, if_neg (not_lt.2 hr), zero_add]

/-- calls on a ShuttleDocking task -/
inductive ShOp
  | act (action : Int) (r : ℝ)
  | reset (d : Nat)

noncomputable def shStep (s : St) : ShOp → Except Err St
  | .act a r => shuttlePerform s a r
  | .reset d => shuttleReset s 0 d

noncomputable def shRun (s : St) : List ShOp → Except Err St
  | [] => .ok s
  | op :: ops => match shStep s op with
    | .error e => .error e
    | .ok s' => shRun s' ops

theorem sh_step (s : St) (h : ShState s) (op : ShOp) : ∃ s', shStep s op = .ok s' ∧ ShState s' := by
  obtain ⟨⟨c, d, b, h1, h5, hd, he⟩, hs, hc⟩ := h
  obtain ⟨env, st, sa, cu⟩ := s
  dsimp only at he hs hc
  subst he hs hc
  cases op with
  | act a r =>
    obtain ⟨c', d', b', e, h1', h5', hd', -⟩ := shuttle_move c d b h1 h5 hd a r
    simp only [shStep, shuttlePerform, e]
    exact ⟨_, rfl, ⟨c', d', b', h1', h5', hd', rfl⟩, rfl, rfl⟩
  | reset d => exact ⟨_, rfl, ⟨1, 1, false, by omega, by omega, Or.inl rfl, rfl⟩, rfl, rfl⟩

theorem sh_run (ops : List ShOp) : ∀ s, ShState s → ∃ s', shRun s ops = .ok s' ∧ ShState s' := by
  induction ops with
  | nil => intro s h; exact ⟨s, rfl, h⟩
  | cons op ops ih =>
    intro s h
    obtain ⟨s1, e, h1⟩ := sh_step s h op
    obtain ⟨s2, e2, h2⟩ := ih s1 h1
    exact ⟨s2, by simp only [shRun, e]; exact e2, h2⟩

theorem sh_initial : ∃ s, shuttleInitial = .ok s ∧ ShState s :=
  ⟨_, rfl, ⟨1, 1, false, by omega, by omega, Or.inl rfl, rfl⟩, rfl, rfl⟩

/-! ### TigerTask -/

inductive TigerOp
  | act (action : Int)
  | reset (left : Bool)

def tigerStep (t : Tiger) : TigerOp → Tiger
  | .act a => tigerPerform t a
  | .reset left => tigerReset left

theorem tiger_listen (n : Nat) (t : Tiger) : (List.replicate n (0 : Int)).foldl tigerPerform t = { t with steps := t.steps + n } := by
  induction n generalizing t with
  | zero => rfl
  | succ n ih =>
    rw [List.replicate_succ, List.foldl_cons, ih]
    obtain ⟨l, d, nr, st, cu⟩ := t
    simp [tigerPerform]; omega

theorem obs_volume (p : ℝ) (h1 : p ≤ 1) (x y : List Nat) (hxy : x ≠ y) :
    volume {r : ℝ | 0 ≤ r ∧ r < 1 ∧ (if r < p then x else y) = x} = ENNReal.ofReal p := by
  have : {r : ℝ | 0 ≤ r ∧ r < 1 ∧ (if r < p then x else y) = x} = Set.Ico 0 p := by
    ext r; simp only [Set.mem_setOf_eq, Set.mem_Ico]
    constructor
    · rintro ⟨h, _, h'⟩
      by_cases hr : r < p
      · exact ⟨h, hr⟩
      · rw [if_neg hr] at h'; exact absurd h'.symm hxy
    · rintro ⟨h, h'⟩; exact ⟨h, by linarith, by rw [if_pos h']⟩
  rw [this, Real.volume_Ico]; simp

end Verif.MazeTask

namespace Verif.Props
open Verif.DataSet (Err)
open Verif.Maze Verif.Maze.Spec Verif.MazeTask Verif.MazeTask.Spec MeasureTheory

/-- **C97, totals.** Whatever happened before, after a reset the total reward is that of the new episode alone: the rewards of its steps, each
multiplied by the discount to the power of its number. -/
theorem C97_total (c : Cfg) (hc : c.discount ≠ 0) (reward : Maze → ℚ) (s s0 s' : St) (k d : Nat) (h : resetTask s k d = .ok s0)
    (acts : List (Option Int × Int)) (hs : performAll c reward s0 acts = .ok s') :
    ∃ ms : List Maze, trace s0.env acts = .ok ms ∧ ms.length = acts.length ∧ s'.samples = acts.length ∧ s'.steps = acts.length ∧
      s'.cum = ∑ i ∈ Finset.range acts.length, c.discount ^ (i + 1) * reward (ms.getD i s0.env) := by
  simp only [resetTask] at h
  split at h
  · simp at h
  · simp only [Except.ok.injEq] at h
    subst h
    obtain ⟨ms, e, hl, h1, h2, h3⟩ := performAll_total c hc reward acts _ s' hs
    refine ⟨ms, e, hl, by simpa using h1, by simpa using h2, ?_⟩
    rw [h3, zero_add]
    refine Finset.sum_congr rfl fun i hi => ?_
    show c.discount ^ (0 + (i + 1)) * _ = _
    rw [zero_add]

example : fourCfg.discount ≠ 0 ∧
    ((resetTask { env := { table := fourTable, goal := fourGoal, initPos := fourInit, perseus := (1, 1), bang := false, dir := 0 },
                  steps := 7, samples := 7, cum := 5 } 0 0).toOption.bind fun s0 =>
      (performAll fourCfg (getReward fourCfg) s0 [(none, 1), (none, 0)]).toOption.map (·.cum)) = some (19 / 20 * (-1 / 25) + (19 / 20) ^ 2 * (-1 / 25)) := by
  decide +kernel

/-- **C97, ShuttleDocking.** Whatever is done with the task, nothing is raised, and the shuttle stays in the five free columns, facing east or
west. An action takes it to the goal station, from outside, exactly if it is the backup action (neither 1 nor 2), the shuttle is in the column
next to the goal with its back to it, and the random number is below 0.7: it only docks backwards. -/
theorem C97_shuttle (ops : List ShOp) (s0 : St) (h0 : shuttleInitial = .ok s0) : ∃ s, shRun s0 ops = .ok s ∧
    Free shuttleTable s.env.perseus ∧ (s.env.dir = code .east ∨ s.env.dir = code .west) ∧
    (s.env.perseus ≠ s.env.goal → ∀ (a : Int) (r : ℝ), ∃ s', shuttlePerform s a r = .ok s' ∧
      (s'.env.perseus = s'.env.goal ↔ a ≠ 1 ∧ a ≠ 2 ∧ s.env.perseus = (1, 4) ∧ s.env.dir = code .west ∧ r < 7 / 10)) := by
  obtain ⟨s1, e1, hs1⟩ := sh_initial
  rw [h0] at e1
  cases e1
  obtain ⟨s, e, hs⟩ := sh_run ops s0 hs1
  refine ⟨s, e, ?_⟩
  obtain ⟨⟨c, d, b, h1, h5, hd, he⟩, -, -⟩ := hs
  rw [he]
  refine ⟨?_, ?_, ?_⟩
  · have : ∀ c : Int, 1 ≤ c → c ≤ 5 → Free shuttleTable (1, c) := by intro c h1 h5; interval_cases c <;> decide
    exact this c h1 h5
  · exact hd
  · intro hne a r
    obtain ⟨c', d', b', em, h1', h5', hd', hmv, -⟩ := shuttle_move c d b h1 h5 hd a r
    refine ⟨{ s with env := shuttleAt c' d' b', steps := s.steps + 1 }, by simp only [shuttlePerform, he, em], ?_⟩
    have hc5 : c ≠ 5 := fun h => hne (by simp [shuttleAt, h])
    show ((1 : Int), c') = (1, 5) ↔ a ≠ 1 ∧ a ≠ 2 ∧ ((1 : Int), c) = (1, 4) ∧ d = 3 ∧ r < 7 / 10
    simp only [Prod.mk.injEq, true_and]
    constructor
    · intro h
      obtain ⟨ha1, ha2, hb, hdd⟩ := hmv (by omega)
      have hcd : c = 4 ∧ d = 3 := by
        rcases hd with rfl | rfl <;> simp [backCol] at hb <;> omega
      refine ⟨ha1, ha2, hcd.1, hcd.2, ?_⟩
      by_contra hr
      rw [shuttleMove, if_neg ha2, if_neg ha1, if_neg (by simp [shuttleAt, hcd.1]), if_neg (by simp [shuttleAt, hcd.1, hcd.2]), if_neg hr] at em
      simp [shuttleAt] at em
      omega
    · rintro ⟨ha1, ha2, rfl, rfl, hr⟩
      rw [shuttleMove, if_neg ha2, if_neg ha1, if_neg (by simp [shuttleAt]), if_neg (by simp [shuttleAt]), if_pos hr,
        shuttle_backup 4 3 b h1 h5 hd] at em
      simp [shuttleAt, backCol] at em
      omega

/-- **C97, ShuttleDocking.** What the backup action does, in every reachable state: with the probability `turnChance` the shuttle turns around
instead, with the probability `backChance` it moves one column away from where it faces (unless there is the wall), otherwise nothing happens. -/
theorem C97_shuttle_backup (ops : List ShOp) (s0 s : St) (h0 : shuttleInitial = .ok s0) (hs : shRun s0 ops = .ok s) (a : Int) (h1 : a ≠ 1) (h2 : a ≠ 2)
    (r : ℝ) (hr : 0 ≤ r) :
    ∃ hd : Heading, s.env.dir = code hd ∧ ∃ s', shuttlePerform s a r = .ok s' ∧
      s'.env.dir = (if r < turnChance s.env.perseus.2 hd then code (behind hd) else code hd) ∧
      s'.env.perseus = (if turnChance s.env.perseus.2 hd ≤ r ∧ r < turnChance s.env.perseus.2 hd + backChance s.env.perseus.2 hd ∧
        Free shuttleTable (step (behind hd) s.env.perseus) then step (behind hd) s.env.perseus else s.env.perseus) := by
  obtain ⟨s1, e1, hs1⟩ := sh_initial
  rw [h0] at e1
  cases e1
  obtain ⟨s', e, hs'⟩ := sh_run ops s0 hs1
  rw [hs] at e
  cases e
  obtain ⟨⟨c, d, b, l1, l5, hd, he⟩, -, -⟩ := hs'
  obtain ⟨env, st, sa, cu⟩ := s
  dsimp only at he
  subst he
  have hfree : ∀ c : Int, 1 ≤ c → c ≤ 5 → (Free shuttleTable (step .west (1, c)) ↔ c ≠ 1) ∧ (Free shuttleTable (step .east (1, c)) ↔ c ≠ 5) := by
    intro c h1 h5; interval_cases c <;> decide
  have hf := hfree c l1 l5
  obtain ⟨hh, rfl, hhd⟩ : ∃ hh : Heading, d = code hh ∧ (hh = .east ∨ hh = .west) := by
    rcases hd with rfl | rfl
    · exact ⟨.east, rfl, Or.inl rfl⟩
    · exact ⟨.west, rfl, Or.inr rfl⟩
  have law := shuttle_law c hh hhd b l1 l5 a h1 h2 r hr
  refine ⟨hh, rfl, ?_⟩
  simp only [shuttlePerform, law]
  have hp : (shuttleAt c (code hh) b).perseus = (1, c) := rfl
  simp only [hp]
  by_cases r1 : r < turnChance c hh
  · rw [if_pos r1]
    refine ⟨_, rfl, ?_, ?_⟩
    · rw [if_pos r1]; rcases hhd with rfl | rfl <;> rfl
    · rw [if_neg (by intro h; linarith [h.1])]; rfl
  rw [if_neg r1]
  by_cases r2 : r < turnChance c hh + backChance c hh
  · rw [if_pos r2]
    refine ⟨_, rfl, by rw [if_neg r1]; rfl, ?_⟩
    have e : (turnChance c hh ≤ r ∧ r < turnChance c hh + backChance c hh ∧ Free shuttleTable (step (behind hh) (1, c))) ↔
        Free shuttleTable (step (behind hh) (1, c)) := ⟨fun h => h.2.2, fun h => ⟨not_lt.1 r1, r2, h⟩⟩
    rw [if_congr e rfl rfl]
    rcases hhd with rfl | rfl
    · by_cases c1 : c = 1
      · subst c1; exact (if_neg (fun h => (hf.1.1 h) rfl)).symm
      · refine Eq.trans ?_ (if_pos (hf.1.2 c1)).symm
        show ((1, backCol c 1) : Pos) = (1, c - 1)
        simp only [backCol, if_true, if_neg c1]
    · by_cases c1 : c = 5
      · subst c1; exact (if_neg (fun h => (hf.2.1 h) rfl)).symm
      · refine Eq.trans ?_ (if_pos (hf.2.2 c1)).symm
        show ((1, backCol c 3) : Pos) = (1, c + 1)
        simp only [backCol, if_neg c1]
        rfl
  · rw [if_neg r2]
    refine ⟨_, rfl, by rw [if_neg r1]; rfl, ?_⟩
    rw [if_neg (by intro h; exact r2 h.2.1)]; rfl

/-- **C97, ShuttleDocking observations.** The observation is a 1-in-5 code: the last one docked at the goal station, the first one docked at the
other; next to a station it tells whether the shuttle sees it (1: it faces west, so that its index is `3 + 2 mod 4`; 3: it faces east), and in the
middle it is the heading's own number for random numbers above 0.7 and the opposite one's otherwise. -/
theorem C97_shuttle_observation (ops : List ShOp) (s0 s : St) (h0 : shuttleInitial = .ok s0) (hs : shRun s0 ops = .ok s) (r : ℝ) :
    (s.env.perseus = (1, 5) → shuttleIndex s.env r = 4) ∧ (s.env.perseus = (1, 1) → shuttleIndex s.env r = 0) ∧
    ∃ hd : Heading, s.env.dir = code hd ∧
      ((s.env.perseus.2 = 2 ∨ s.env.perseus.2 = 4) → shuttleIndex s.env r = code (behind hd)) ∧
      (s.env.perseus.2 = 3 → shuttleIndex s.env r = if 7 / 10 < r then code hd else code (behind hd)) := by
  obtain ⟨s1, e1, hs1⟩ := sh_initial
  rw [h0] at e1
  cases e1
  obtain ⟨s', e, hs'⟩ := sh_run ops s0 hs1
  rw [hs] at e
  cases e
  obtain ⟨⟨c, d, b, h1, h5, hd, he⟩, -, -⟩ := hs'
  rw [he]
  unfold shuttleIndex
  refine ⟨fun h => if_pos h, fun h => ?_, ?_⟩
  · rw [if_neg (by rw [h]; simp [shuttleAt])]
    exact if_pos h
  · obtain ⟨hh, rfl, hb⟩ : ∃ hh : Heading, d = code hh ∧ (code hh + 2) % 4 = code (behind hh) := by
      rcases hd with rfl | rfl
      · exact ⟨.east, rfl, rfl⟩
      · exact ⟨.west, rfl, rfl⟩
    refine ⟨hh, rfl, fun h => ?_, fun h => ?_⟩
    · have h' : c = 2 ∨ c = 4 := h
      rw [if_neg (by simp only [shuttleAt, Prod.mk.injEq]; omega), if_neg (by simp only [shuttleAt, List.getD_cons_zero, Prod.mk.injEq]; omega),
        if_neg (by simp only [shuttleAt]; omega)]
      exact hb
    · have h' : c = 3 := h
      rw [if_neg (by simp only [shuttleAt, Prod.mk.injEq]; omega), if_neg (by simp only [shuttleAt, List.getD_cons_zero, Prod.mk.injEq]; omega),
        if_pos h]
      exact if_congr Iff.rfl rfl hb

/-- **C97, negation (ShuttleDocking forward).** The action Forward never moves the shuttle: it turns it around, in every reachable state.
(`_forward` asks the maze to TurnAround.) -/
theorem C97_negation_shuttle_forward (ops : List ShOp) (s0 s : St) (h0 : shuttleInitial = .ok s0) (hs : shRun s0 ops = .ok s) (r : ℝ) :
    ∃ s', shuttlePerform s 1 r = .ok s' ∧ s'.env.perseus = s.env.perseus ∧ s'.env.dir ≠ s.env.dir := by
  obtain ⟨s1, e1, hs1⟩ := sh_initial
  rw [h0] at e1
  cases e1
  obtain ⟨s', e, hs'⟩ := sh_run ops s0 hs1
  rw [hs] at e
  cases e
  obtain ⟨⟨c, d, b, h1, h5, hd, he⟩, -, -⟩ := hs'
  have em : shuttleMove s.env 1 r = .ok (shuttleAt c (flipDir d) (decide (c = 1 ∨ c = 5))) := by
    rw [he, shuttleMove, if_neg (by omega), if_pos rfl, shuttle_forward c d b hd]
  refine ⟨{ s with env := shuttleAt c (flipDir d) (decide (c = 1 ∨ c = 5)), steps := s.steps + 1 }, by simp only [shuttlePerform, em], ?_, ?_⟩
  · rw [he]; rfl
  · rw [he]; rcases hd with rfl | rfl <;> simp [shuttleAt, flipDir]

/-- **C97, negation (ShuttleDocking penalties and totals).** Backing into a wall is not penalised: right after a backup that was carried out,
`bang` is False, even if the shuttle hit the wall; and the total reward is 0 after every history, although the shuttle may have docked
(reward 10) or banged (reward -3): `performAction` does not add the reward. -/
theorem C97_negation_shuttle_total :
    (∀ (c : Int) (d : Nat) (b : Bool), 1 ≤ c → c ≤ 5 → (d = 1 ∨ d = 3) → ∃ m, shuttleBackup (shuttleAt c d b) = .ok m ∧ m.bang = false) ∧
    (∀ (ops : List ShOp) (s0 s : St), shuttleInitial = .ok s0 → shRun s0 ops = .ok s → s.cum = 0) ∧
    (∃ (ops : List ShOp) (s0 s : St), shuttleInitial = .ok s0 ∧ shRun s0 ops = .ok s ∧ getReward shuttleCfg s.env = 10) ∧
    (∃ (ops : List ShOp) (s0 s : St), shuttleInitial = .ok s0 ∧ shRun s0 ops = .ok s ∧ getReward shuttleCfg s.env = -3) := by
  refine ⟨fun c d b h1 h5 hd => ⟨_, shuttle_backup c d b h1 h5 hd, rfl⟩, ?_, ?_, ?_⟩
  · intro ops s0 s h0 hs
    obtain ⟨s1, e1, hs1⟩ := sh_initial
    rw [h0] at e1
    cases e1
    obtain ⟨s', e, hs'⟩ := sh_run ops s0 hs1
    rw [hs] at e
    cases e
    exact hs'.2.2
  · have m1 : shuttleMove (shuttleAt 1 1 false) 2 0 = .ok (shuttleAt 1 3 false) := by
      rw [shuttleMove, if_pos rfl, shuttle_turn _ _ _ (by simp)]; rfl
    have m2 : shuttleMove (shuttleAt 1 3 false) 0 (1 / 2) = .ok (shuttleAt 2 3 false) := by
      rw [shuttleMove, if_neg (by omega), if_neg (by omega), if_neg (by simp [shuttleAt]), if_neg (by simp [shuttleAt]), if_pos (by norm_num),
        shuttle_backup _ _ _ (by omega) (by omega) (by simp)]; rfl
    have m3 : shuttleMove (shuttleAt 2 3 false) 0 (1 / 2) = .ok (shuttleAt 3 3 false) := by
      rw [shuttleMove, if_neg (by omega), if_neg (by omega), if_neg (by simp [shuttleAt]), if_pos (by simp [shuttleAt]), if_neg (by norm_num),
        if_pos (by norm_num), shuttle_backup _ _ _ (by omega) (by omega) (by simp)]; rfl
    have m4 : shuttleMove (shuttleAt 3 3 false) 0 (1 / 2) = .ok (shuttleAt 4 3 false) := by
      rw [shuttleMove, if_neg (by omega), if_neg (by omega), if_pos (by simp [shuttleAt]), if_neg (by norm_num), if_pos (by norm_num),
        shuttle_backup _ _ _ (by omega) (by omega) (by simp)]; rfl
    have m5 : shuttleMove (shuttleAt 4 3 false) 0 (1 / 2) = .ok (shuttleAt 5 3 false) := by
      rw [shuttleMove, if_neg (by omega), if_neg (by omega), if_neg (by simp [shuttleAt]), if_neg (by simp [shuttleAt]), if_pos (by norm_num),
        shuttle_backup _ _ _ (by omega) (by omega) (by simp)]; rfl
    refine ⟨[.act 2 0, .act 0 (1 / 2), .act 0 (1 / 2), .act 0 (1 / 2), .act 0 (1 / 2)], ⟨shuttleAt 1 1 false, 0, 0, 0⟩, ⟨shuttleAt 5 3 false, 5, 0, 0⟩, rfl, ?_, rfl⟩
    simp only [shRun, shStep, shuttlePerform]
    simp only [m1, m2, m3, m4, m5]
  · have m1 : shuttleMove (shuttleAt 1 1 false) 1 0 = .ok (shuttleAt 1 3 true) := by
      rw [shuttleMove, if_neg (by omega), if_pos rfl, shuttle_forward _ _ _ (by simp)]; rfl
    refine ⟨[.act 1 0], ⟨shuttleAt 1 1 false, 0, 0, 0⟩, ⟨shuttleAt 1 3 true, 1, 0, 0⟩, rfl, ?_, rfl⟩
    simp only [shRun, shStep, shuttlePerform, m1]

/-- **C97, negation (ShuttleDocking observations).** The third of the five observations ("black": in space, seeing nothing) never occurs. -/
theorem C97_negation_shuttle_black (ops : List ShOp) (s0 s : St) (h0 : shuttleInitial = .ok s0) (hs : shRun s0 ops = .ok s) (r : ℝ) :
    shuttleIndex s.env r ≠ 2 := by
  obtain ⟨s1, e1, hs1⟩ := sh_initial
  rw [h0] at e1
  cases e1
  obtain ⟨s', e, hs'⟩ := sh_run ops s0 hs1
  rw [hs] at e
  cases e
  obtain ⟨⟨c, d, b, h1, h5, hd, he⟩, -, -⟩ := hs'
  rw [he]
  unfold shuttleIndex
  rcases hd with rfl | rfl <;> split_ifs <;> simp [shuttleAt]

/-- **C97, TigerTask.** After any number of listening actions the task is not finished and the reward is -1; opening a door then finishes it,
with reward -100 if the tiger is behind that door and 10 otherwise. -/
theorem C97_tiger (left : Bool) (n : Nat) (openLeft : Bool) :
    let t := (List.replicate n (0 : Int)).foldl tigerPerform (tigerReset left)
    let t' := tigerPerform t (if openLeft then 1 else 2)
    tigerFinished none t = false ∧ tigerReward t = -1 ∧ t.steps = n ∧
      tigerFinished none t' = true ∧ tigerReward t' = if openLeft = left then -100 else 10 := by
  intro t t'
  have ht : t = { tigerReset left with steps := 0 + n } := tiger_listen n (tigerReset left)
  have ht' : t' = tigerPerform t (if openLeft then 1 else 2) := rfl
  rw [ht', ht]
  cases left <;> cases openLeft <;> simp [tigerReset, tigerPerform, tigerFinished, tigerReward]

/-- **C97, TigerTask.** The observation points to the tiger's side with probability 0.85 and to the other side with probability 0.15. -/
theorem C97_tiger_observation (t : Tiger) :
    volume {r : ℝ | 0 ≤ r ∧ r < 1 ∧ tigerObservation t r = (if t.tigerLeft then [0, 1] else [1, 0])} = ENNReal.ofReal 0.15 ∧
    ∀ r, tigerObservation t r ≠ (if t.tigerLeft then [0, 1] else [1, 0]) → tigerObservation t r = (if t.tigerLeft then [1, 0] else [0, 1]) := by
  have key : ∀ r, tigerObservation t r = if r < 15 / 100 then (if t.tigerLeft then [0, 1] else [1, 0]) else (if t.tigerLeft then [1, 0] else [0, 1]) := by
    intro r; unfold tigerObservation; cases t.tigerLeft <;> simp
  constructor
  · simp only [key]
    rw [show (0.15 : ℝ) = 15 / 100 by norm_num]
    exact obs_volume _ (by norm_num) _ _ (by cases t.tigerLeft <;> simp)
  · intro r h
    rw [key] at h ⊢
    split_ifs at h ⊢ <;> simp_all

/-- **C97, negation (TigerTask totals).** The total reward is 0 after every history: `performAction` does not add the reward. -/
theorem C97_negation_tiger (left : Bool) (ops : List TigerOp) : (ops.foldl tigerStep (tigerReset left)).cum = 0 := by
  have : ∀ (ops : List TigerOp) (t : Tiger), t.cum = 0 → (ops.foldl tigerStep t).cum = 0 := by
    intro ops
    induction ops with
    | nil => intro t h; exact h
    | cons op ops ih =>
      intro t h
      refine ih _ ?_
      cases op with
      | act a => simp only [tigerStep, tigerPerform]; split_ifs <;> exact h
      | reset l => rfl
  exact this ops _ rfl

end Verif.Props

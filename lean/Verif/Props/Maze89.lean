import Verif.Model.Maze89
import Verif.Props.Maze
import Mathlib.Tactic.IntervalCases
import Mathlib.Tactic.NormNum
/-
C188 The maze of 89 states: its states, shortest ways to the goal, rewards.
-/
namespace Verif.Maze89
open Verif.DataSet (Err)
open Verif.Maze Verif.Maze.Spec Verif.MazeTask

/-- the states of the task: free cells with a direction, the goal's four directions counting once (the episode is over) -/
def states : List (Pos × Nat) := ((freePos table).erase goal).flatMap (fun p => (List.range 4).map (fun d => (p, d))) ++ [(goal, 0)]

/-- `n` actions chosen by a rule from position and direction -/
def follow (π : Pos → Nat → Int) : Nat → Maze → Except Err Maze
  | 0, m => .ok m
  | n + 1, m => match polarAction m none (π m.perseus m.dir) with
    | .error e => .error e
    | .ok m' => follow π n m'

/-- the visits of the goal in a history -/
def visits : Maze → List (Option Int × Int) → Nat
  | _, [] => 0
  | m, x :: xs => match polarAction m x.1 x.2 with
    | .error _ => 0
    | .ok m' => (if m'.perseus = m'.goal then 1 else 0) + visits m' xs

/-! ### Proof: distances and a rule -/

/-- for every free cell and direction: the distance to the goal and the next action -/
private def tab : List (Pos × List (Nat × Int)) :=
  [((1, 2), [(9, 3), (8, 1), (9, 4), (9, 2)]),
   ((1, 3), [(8, 3), (7, 1), (8, 4), (8, 2)]),
   ((1, 4), [(7, 3), (6, 1), (7, 4), (7, 2)]),
   ((1, 5), [(6, 3), (5, 1), (6, 4), (6, 2)]),
   ((1, 6), [(3, 1), (4, 4), (4, 2), (4, 3)]),
   ((2, 1), [(13, 3), (12, 1), (13, 4), (13, 2)]),
   ((2, 2), [(11, 2), (11, 3), (10, 1), (11, 4)]),
   ((2, 4), [(9, 2), (9, 3), (8, 1), (9, 4)]),
   ((2, 6), [(2, 3), (1, 1), (2, 4), (2, 2)]),
   ((2, 7), [(0, 0), (0, 0), (0, 0), (0, 0)]),
   ((3, 2), [(12, 2), (12, 3), (11, 1), (12, 4)]),
   ((3, 4), [(10, 2), (10, 3), (9, 1), (10, 4)]),
   ((3, 6), [(4, 2), (4, 3), (3, 1), (4, 4)]),
   ((4, 1), [(15, 3), (14, 1), (15, 4), (15, 2)]),
   ((4, 2), [(12, 1), (13, 3), (12, 1), (13, 3)]),
   ((4, 4), [(10, 1), (11, 3), (10, 1), (11, 3)]),
   ((4, 6), [(5, 2), (5, 3), (4, 1), (5, 4)]),
   ((4, 7), [(7, 4), (7, 2), (7, 3), (6, 1)]),
   ((5, 2), [(11, 3), (10, 1), (11, 4), (11, 2)]),
   ((5, 3), [(10, 3), (9, 1), (10, 4), (10, 2)]),
   ((5, 4), [(9, 3), (8, 1), (9, 4), (9, 2)]),
   ((5, 5), [(8, 3), (7, 1), (8, 4), (8, 2)]),
   ((5, 6), [(6, 2), (6, 3), (5, 1), (6, 4)])]

private def dist (p : Pos) (d : Nat) : Nat := (((tab.lookup p).getD []).getD d (0, 0)).1
private def rule (p : Pos) (d : Nat) : Int := (((tab.lookup p).getD []).getD d (0, 0)).2

/-- the maze with the agent at `p` facing `d` -/
def at89 (p : Pos) (d : Nat) : Maze := { table := table, goal := goal, initPos := [], perseus := p, bang := false, dir := d }

/-- where an action leads -/
private def nextS (p : Pos) (d : Nat) (a : Int) : Option (Pos × Nat) := ((polarAction (at89 p d) none a).toOption).map (fun m => (m.perseus, m.dir))

theorem bordered89 : Bordered table := by
  intro r c hr hc h
  have hr' : r < 7 := hr
  have hc' : c < 9 := hc
  interval_cases r <;> interval_cases c <;> first | rfl | (exfalso; revert h; decide)

theorem free_mem {p : Pos} (h : Free table p) : p ∈ freePos table := by
  obtain ⟨⟨h1, h2, h3, h4⟩, hw⟩ := h
  simp only [freePos, List.mem_flatMap, List.mem_map, List.mem_filter, List.mem_range, beq_iff_eq]
  exact ⟨p.1.toNat, by omega, p.2.toNat, ⟨by omega, hw⟩, by ext <;> simp <;> omega⟩

theorem mem_free {p : Pos} (h : p ∈ freePos table) : Free table p := by
  simp only [freePos, List.mem_flatMap, List.mem_map, List.mem_filter, List.mem_range, beq_iff_eq] at h
  obtain ⟨i, hi, j, ⟨hj, hw⟩, rfl⟩ := h
  exact ⟨⟨by simp, by simpa using hi, by simp, by simpa using hj⟩, by simpa using hw⟩

private theorem dist_le : ∀ p ∈ freePos table, ∀ d < 4, dist p d ≤ 15 := by decide +kernel
private theorem dist_zero : ∀ p ∈ freePos table, ∀ d < 4, dist p d = 0 ↔ p = goal := by decide +kernel
private theorem dist_step : ∀ p ∈ freePos table, ∀ d < 4, ∀ a < 5, ((nextS p d ((a : Nat) : Int)).map (fun q => decide (dist p d ≤ dist q.1 q.2 + 1))) = some true := by
  decide +kernel
private theorem dist_rule : ∀ p ∈ freePos table, ∀ d < 4, p ≠ goal → ((nextS p d (rule p d)).map (fun q => decide (dist p d = dist q.1 q.2 + 1))) = some true := by
  decide +kernel
private theorem rule_legal : ∀ p ∈ freePos table, ∀ d < 4, 0 ≤ rule p d ∧ rule p d < 5 := by decide +kernel

/-- position and direction after an action do not depend on the other attributes -/
private theorem next_of (m : Maze) (ht : m.table = table) (o : Option Int) (a : Int) :
    ((polarAction m o a).toOption).map (fun m => (m.perseus, m.dir)) = nextS m.perseus m.dir (o.getD a) := by
  obtain ⟨t, g, i, p, b, d⟩ := m
  simp only at ht
  subst ht
  unfold nextS polarAction at89
  simp only [Option.getD_none]
  cases npIndex 5 (o.getD a) with
  | error e => rfl
  | ok k =>
    simp only
    by_cases h1 : k = 1
    · simp only [h1, if_true]
      cases table.get (moveInDir p (allActions.getD d (0, 0))) with
      | error e => rfl
      | ok w => cases w <;> rfl
    · simp only [h1, if_false]
      split <;> try rfl
      split <;> try rfl
      split <;> rfl

/-- an action that is not rejected is one of the five -/
private theorem legal_of (m m' : Maze) (o : Option Int) (a : Int) (h : polarAction m o a = .ok m') : ∃ k : Nat, k < 5 ∧ polarAction m o a = polarAction m none (k : Int) := by
  unfold polarAction at h ⊢
  simp only [Option.getD_none]
  unfold npIndex at h ⊢
  by_cases h1 : 0 ≤ o.getD a ∧ o.getD a < ((5 : Nat) : Int)
  · refine ⟨(o.getD a).toNat, by omega, ?_⟩
    rw [if_pos h1, if_pos (by omega)]; rfl
  · rw [if_neg h1] at h
    by_cases h2 : -((5 : Nat) : Int) ≤ o.getD a ∧ o.getD a < 0
    · refine ⟨(o.getD a + (5 : Nat)).toNat, by omega, ?_⟩
      rw [if_neg h1, if_pos h2, if_pos (by omega)]; rfl
    · rw [if_neg h2] at h; simp at h

private theorem keeps {m m' : Maze} (ht : m.table = table) (hf : Free table m.perseus) (hd : m.dir < 4) {o : Option Int} {a : Int}
    (h : polarAction m o a = .ok m') : m'.table = table ∧ Free table m'.perseus ∧ m'.dir < 4 := by
  obtain ⟨k, hk, e⟩ := legal_of m m' o a h
  obtain ⟨m2, h1, h2, h3, h4⟩ := Props.C36_polar_never_in_wall [(none, (k : Int))] (by intro x hx; simp only [List.mem_singleton] at hx; subst hx; simp; omega) m (ht ▸ bordered89) (ht ▸ hf) hd
  have : polarAction m none (k : Int) = .ok m' := e ▸ h
  simp only [acts, this, Except.ok.injEq] at h1
  subst h1
  exact ⟨h2.trans ht, ht ▸ h3, h4⟩

private theorem lower (xs : List (Option Int × Int)) : ∀ m m' : Maze, m.table = table → Free table m.perseus → m.dir < 4 → acts polarAction xs m = .ok m' →
    dist m.perseus m.dir ≤ dist m'.perseus m'.dir + xs.length := by
  induction xs with
  | nil => intro m m' _ _ _ h; simp only [acts, Except.ok.injEq] at h; subst h; simp
  | cons x xs ih =>
    intro m m' ht hf hd h
    obtain ⟨o, a⟩ := x
    simp only [acts] at h
    cases e : polarAction m o a with
    | error er => rw [e] at h; simp at h
    | ok m1 =>
      rw [e] at h
      obtain ⟨k1, k2, k3⟩ := keeps ht hf hd e
      obtain ⟨k, hk, ek⟩ := legal_of m m1 o a e
      have s := dist_step m.perseus (free_mem hf) m.dir hd k hk
      have n := next_of m ht none (k : Int)
      rw [← ek, e] at n
      rw [show (none : Option Int).getD (k : Int) = (k : Int) from rfl] at n
      rw [← n] at s
      simp only [Except.toOption, Option.map_some, Option.some.injEq, decide_eq_true_eq] at s
      have := ih m1 m' k1 k2 k3 h
      simp only [List.length_cons]; omega

private theorem upper (n : Nat) : ∀ m : Maze, m.table = table → Free table m.perseus → m.dir < 4 → dist m.perseus m.dir = n →
    ∃ m', follow rule n m = .ok m' ∧ m'.perseus = goal := by
  induction n with
  | zero => intro m _ hf hd h; exact ⟨m, rfl, (dist_zero _ (free_mem hf) _ hd).1 h⟩
  | succ n ih =>
    intro m ht hf hd h
    have hg : m.perseus ≠ goal := fun e => by have := (dist_zero _ (free_mem hf) _ hd).2 e; omega
    have s := dist_rule _ (free_mem hf) _ hd hg
    have nx := next_of m ht none (rule m.perseus m.dir)
    rw [show (none : Option Int).getD (rule m.perseus m.dir) = rule m.perseus m.dir from rfl] at nx
    rw [← nx] at s
    simp only [follow]
    cases e : polarAction m none (rule m.perseus m.dir) with
    | error er => rw [e] at s; simp [Except.toOption] at s
    | ok m1 =>
      rw [e] at s
      simp only [Except.toOption, Option.map_some, Option.some.injEq, decide_eq_true_eq] at s
      obtain ⟨k1, k2, k3⟩ := keeps ht hf hd e
      exact ih m1 k1 k2 k3 (by omega)

end Verif.Maze89

namespace Verif.Props
open Verif.DataSet (Err)
open Verif.Maze Verif.Maze.Spec Verif.MazeTask Verif.Maze89

/-! ### C188 -/

/-- **C188, the name.** The task has 89 different states, the goal being one of them: its free cells (and no others) with the four directions. -/
theorem C188_states : states.length = 89 ∧ states.Nodup ∧ (goal, 0) ∈ states ∧
    ∀ p d, p ≠ goal → ((p, d) ∈ states ↔ Free table p ∧ d < 4) := by
  refine ⟨by decide +kernel, by decide +kernel, by simp [states], fun p d hp => ?_⟩
  simp only [states, List.mem_append, List.mem_flatMap, List.mem_map, List.mem_range, Prod.mk.injEq, List.mem_singleton, hp, false_and, or_false]
  constructor
  · rintro ⟨q, hq, e, he, rfl, rfl⟩
    exact ⟨mem_free (List.mem_of_mem_erase hq), he⟩
  · rintro ⟨hf, hd⟩
    exact ⟨p, (List.mem_erase_of_ne hp).2 (free_mem hf), d, hd, rfl, rfl⟩

/-- **C188, the beginning.** A new task starts in a free cell other than the goal; each of the 22 cells and four directions is a possible start,
and nothing else; nothing has been collected. -/
theorem C188_start (p : Pos) (d : Nat) :
    (∃ k e s, k < 22 ∧ initial k e = .ok s ∧ s.env.perseus = p ∧ s.env.dir = d ∧ s.cum = 0 ∧ s.env.goal = goal ∧ s.env.table = table ∧ isFinished cfg s = false) ↔
    (Free table p ∧ p ≠ goal ∧ d < 4) := by
  have hd : defaultInit table goal = .ok ((freePos table).erase goal) := by
    unfold defaultInit; rw [if_pos (by decide +kernel)]
  have hl : ((freePos table).erase goal).length = 22 := by decide +kernel
  have hn : ((freePos table).erase goal).Nodup := by decide +kernel
  have hnd : (freePos table).Nodup := by decide +kernel
  constructor
  · rintro ⟨k, e, s, hk, h, rfl, rfl, -, -, -, -⟩
    simp only [initial, hd, resetTask, Maze.reset] at h
    rw [List.getElem?_eq_getElem (hl ▸ hk)] at h
    simp only [Except.ok.injEq] at h
    subst h
    have hm := List.getElem_mem (hl ▸ hk : k < ((freePos table).erase goal).length)
    exact ⟨mem_free (List.mem_of_mem_erase hm), (hnd.mem_erase_iff.1 hm).1, Nat.mod_lt _ (by norm_num)⟩
  · rintro ⟨hf, hp, h4⟩
    obtain ⟨k, hk, e⟩ := List.getElem_of_mem ((List.mem_erase_of_ne hp).2 (free_mem hf))
    refine ⟨k, d, { env := { table := table, goal := goal, initPos := (freePos table).erase goal, perseus := p, bang := false, dir := d }, steps := 0, samples := 0, cum := 0 }, hl ▸ hk, ?_, rfl, rfl, rfl, rfl, rfl, ?_⟩
    · simp only [initial, hd, resetTask, Maze.reset]
      rw [List.getElem?_eq_getElem hk, e, Nat.mod_eq_of_lt h4]
    · simp [isFinished, cfg, hp]

/-- **C188, shortest ways.** One rule, choosing the action from position and direction, leads from every free cell and direction to the goal, in the
least number of actions any sequence of actions (chosen or random) needs, and that number is at most 15. -/
theorem C188_shortest : ∃ π : Pos → Nat → Int, (∀ p d, Free table p → d < 4 → 0 ≤ π p d ∧ π p d < 5) ∧
    ∀ m : Maze, m.table = table → Free table m.perseus → m.dir < 4 →
      ∃ n ≤ 15, (∃ m', follow π n m = .ok m' ∧ m'.perseus = goal) ∧
        ∀ xs m', acts polarAction xs m = .ok m' → m'.perseus = goal → n ≤ xs.length := by
  refine ⟨rule, fun p d hf hd => rule_legal p (free_mem hf) d hd, fun m ht hf hd => ⟨dist m.perseus m.dir, dist_le _ (free_mem hf) _ hd, upper _ m ht hf hd rfl, fun xs m' h hg => ?_⟩⟩
  have := lower xs m m' ht hf hd h
  have hk : ∀ (xs : List (Option Int × Int)) (m : Maze), m.table = table → Free table m.perseus → m.dir < 4 → acts polarAction xs m = .ok m' → Free table m'.perseus ∧ m'.dir < 4 := by
    intro xs
    induction xs with
    | nil => intro m _ hf hd h; simp only [acts, Except.ok.injEq] at h; subst h; exact ⟨hf, hd⟩
    | cons x xs ih =>
      intro m ht hf hd h
      obtain ⟨o, a⟩ := x
      simp only [acts] at h
      cases e : polarAction m o a with
      | error er => rw [e] at h; simp at h
      | ok m1 =>
        rw [e] at h
        obtain ⟨k1, k2, k3⟩ := keeps ht hf hd e
        exact ih m1 k1 k2 k3 h
  obtain ⟨q1, q2⟩ := hk xs m ht hf hd h
  have := (dist_zero _ (free_mem q1) _ q2).2 hg
  omega

/-- **C188, the farthest start.** From the dead end diagonally opposite no sequence of fewer than 14 actions reaches the goal, whatever the direction,
and facing the wall none of fewer than 15. -/
theorem C188_farthest (m m' : Maze) (ht : m.table = table) (hp : m.perseus = (4, 1)) (hd : m.dir < 4) (xs : List (Option Int × Int))
    (h : acts polarAction xs m = .ok m') (hg : m'.perseus = goal) : 14 ≤ xs.length ∧ (m.dir ≠ 1 → 15 ≤ xs.length) := by
  have hf : Free table m.perseus := by rw [hp]; exact mem_free (by decide +kernel)
  have l := lower xs m m' ht hf hd h
  rw [hp] at l
  have hz : dist m'.perseus m'.dir = 0 := by
    rw [hg]
    have : ∀ e < 4, dist goal e = 0 := by decide +kernel
    by_cases he : m'.dir < 4
    · exact this _ he
    · have : (((tab.lookup goal).getD []).getD m'.dir (0, 0)).1 = 0 := by
        rw [show (tab.lookup goal).getD [] = [(0, 0), (0, 0), (0, 0), (0, 0)] from by decide +kernel]
        rw [List.getD_eq_getElem?_getD, List.getElem?_eq_none (by simpa using he)]; rfl
      exact this
  have h1 : ∀ e < 4, 14 ≤ dist (4, 1) e ∧ (e ≠ 1 → 15 ≤ dist (4, 1) e) := by decide +kernel
  have := h1 _ hd
  refine ⟨by omega, fun hne => ?_⟩
  have := this.2 hne
  omega

/-- **C188, rewards.** In any history of actions, random or not, the cumulative reward grows by one for every arrival at the goal and by nothing else:
it does not depend on how long the way was, and bumping into walls costs nothing. The task is finished exactly while the agent is at the goal. -/
theorem C188_reward (xs : List (Option Int × Int)) : ∀ s s' : St, run s xs = .ok s' →
    s'.cum = s.cum + visits s.env xs ∧ s'.steps = s.steps + xs.length ∧ (isFinished cfg s' = true ↔ s'.env.perseus = s'.env.goal) := by
  induction xs with
  | nil => intro s s' h; simp only [run, Except.ok.injEq] at h; subst h; simp [visits, isFinished, cfg]
  | cons x xs ih =>
    intro s s' h
    simp only [run, Maze89.perform] at h
    cases e : polarAction s.env x.1 x.2 with
    | error er => rw [e] at h; simp at h
    | ok m =>
      rw [e] at h
      obtain ⟨h1, h2, h3⟩ := ih _ _ h
      refine ⟨?_, ?_, h3⟩
      · rw [h1]
        simp only [visits, e, addReward, cfg, getReward]
        by_cases hg : m.perseus = m.goal <;> simp [hg] <;> ring
      · rw [h2]; simp only [addReward, cfg, List.length_cons]; simp; omega

example : Free table (4, 1) ∧ (run { env := at89 (2, 6) 2, steps := 0, samples := 0, cum := 0 } [(none, 4), (some 0, 1), (none, 1)]).toOption.map (fun s => (s.cum, s.steps, s.env.perseus)) =
    some (1, 3, goal) := ⟨mem_free (by decide +kernel), by decide +kernel⟩

end Verif.Props

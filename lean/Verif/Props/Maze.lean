import Verif.Spec.Maze
import Mathlib.Data.List.Nodup
import Mathlib.Tactic.Linarith
import Mathlib.Tactic.Ring
import Mathlib.Algebra.Order.Ring.Int
/-
C36 The maze agent never enters a wall.
C37 MDP maze observations identify the position.
-/
namespace Verif.Maze
open Verif.DataSet (Err)
open Spec

theorem npIndex_ok {n : Nat} {i : Int} (h0 : 0 ≤ i) (h1 : i < n) : npIndex n i = .ok i.toNat := by
  simp [npIndex, h0, h1]

theorem get_cell {t : Table} {p : Pos} (h : Cell t p) : t.get p = .ok (t.wall p.1.toNat p.2.toNat) := by
  simp only [Table.get, npIndex_ok h.1 h.2.1, npIndex_ok h.2.2.1 h.2.2.2]

theorem free_get {t : Table} {p : Pos} (h : Cell t p) : Free t p ↔ t.get p = .ok false := by
  rw [get_cell h]; simp [Free, h]

theorem getD_code (h : Heading) (p : Pos) : moveInDir p (allActions.getD (code h) (0, 0)) = step h p := by
  cases h <;> simp [allActions, code, step, moveInDir] <;> omega

/-- from a free cell of a bordered maze every neighbour is a cell -/
theorem step_cell {t : Table} (hb : Bordered t) {p : Pos} (hf : Free t p) (h : Heading) : Cell t (step h p) := by
  obtain ⟨⟨h1, h2, h3, h4⟩, hw⟩ := hf
  have hr : p.1.toNat < t.rows := by omega
  have hc : p.2.toNat < t.cols := by omega
  have := hb p.1.toNat p.2.toNat hr hc
  rw [hw] at this
  have hn : ¬ (p.1.toNat = 0 ∨ p.1.toNat + 1 = t.rows ∨ p.2.toNat = 0 ∨ p.2.toNat + 1 = t.cols) := fun h => by simpa using this h
  cases h <;> refine ⟨?_, ?_, ?_, ?_⟩ <;> simp only [step] <;> omega

theorem code_surj (d : Nat) (h : d < 4) : ∃ hd : Heading, code hd = d := by
  have : d = 0 ∨ d = 1 ∨ d = 2 ∨ d = 3 := by omega
  rcases this with rfl | rfl | rfl | rfl
  exacts [⟨.north, rfl⟩, ⟨.east, rfl⟩, ⟨.south, rfl⟩, ⟨.west, rfl⟩]

theorem code_lt (h : Heading) : code h < 4 := by cases h <;> decide

/-- any number of actions, each with its random replacement -/
def acts (act : Maze → Option Int → Int → Except Err Maze) : List (Option Int × Int) → Maze → Except Err Maze
  | [], m => .ok m
  | (o, a) :: as, m => match act m o a with
    | .error e => .error e
    | .ok m' => acts act as m'

theorem perform_eq (m : Maze) (o : Option Int) (a : Int) (hd : Heading) (ha : o.getD a = code hd) :
    performAction m o a = match m.table.get (step hd m.perseus) with
      | .error e => .error e
      | .ok w => if w == false then .ok { m with perseus := step hd m.perseus, bang := false } else .ok { m with bang := true } := by
  unfold performAction
  rw [ha, npIndex_ok (by omega) (by have := code_lt hd; omega)]
  simp only [Int.toNat_natCast]
  rw [getD_code]
  cases m.table.get (step hd m.perseus) <;> rfl

theorem forward_eq (m : Maze) (o : Option Int) (a : Int) (hd : Heading) (ha : o.getD a = 1) (hm : m.dir = code hd) :
    polarAction m o a = match m.table.get (step hd m.perseus) with
      | .error e => .error e
      | .ok w => if w == false then .ok { m with perseus := step hd m.perseus, bang := false } else .ok { m with bang := true } := by
  unfold polarAction
  rw [ha, show npIndex 5 1 = .ok 1 from rfl]
  simp only [if_true]
  rw [hm, getD_code]
  cases m.table.get (step hd m.perseus) <;> rfl

theorem legal_heading {o : Option Int} {a : Int} (h0 : 0 ≤ o.getD a) (h1 : o.getD a < 4) : ∃ hd : Heading, o.getD a = code hd := by
  obtain ⟨hd, h⟩ := code_surj (o.getD a).toNat (by omega)
  exact ⟨hd, by omega⟩

/-- turning in a polar maze -/
theorem turn_eq (m : Maze) (o : Option Int) (a : Int) (k : Nat) (ha : o.getD a = k) (hk : k < 5) (h1 : k ≠ 1) (hd : Heading) (hm : m.dir = code hd) :
    polarAction m o a = .ok { m with
      bang := false
      dir := code (if k = 3 then rightOf hd else if k = 4 then leftOf hd else if k = 2 then behind hd else hd) } := by
  unfold polarAction
  rw [ha, npIndex_ok (by omega) (by omega)]
  simp only [Int.toNat_natCast]
  have : k = 0 ∨ k = 2 ∨ k = 3 ∨ k = 4 := by omega
  obtain ⟨t, g, i, p, b, d⟩ := m
  simp only at hm
  subst hm
  rcases this with rfl | rfl | rfl | rfl <;> cases hd <;> simp [code, rightOf, leftOf, behind]

end Verif.Maze

namespace Verif.Props
open Verif.DataSet (Err)
open Verif.Maze Verif.Maze.Spec

/-! ### C36 -/

/-- **C36.** In a maze surrounded by walls, from a free cell: the action numbered as direction `hd` (drawn at random or not) moves one
step in that direction if the cell there is free, and stays otherwise, setting `bang`; nothing else changes and nothing is raised. -/
theorem C36_action (m : Maze) (hb : Bordered m.table) (hf : Free m.table m.perseus) (o : Option Int) (a : Int) (hd : Heading) (ha : o.getD a = code hd) :
    (Free m.table (step hd m.perseus) → performAction m o a = .ok { m with perseus := step hd m.perseus, bang := false }) ∧
    (¬ Free m.table (step hd m.perseus) → performAction m o a = .ok { m with bang := true }) := by
  have hc := step_cell hb hf hd
  rw [perform_eq m o a hd ha, get_cell hc]
  constructor
  · intro h; simp [h.2]
  · intro h
    have : m.table.wall (step hd m.perseus).1.toNat (step hd m.perseus).2.toNat = true := by
      rw [← Bool.not_eq_false]; exact fun e => h ⟨hc, e⟩
    simp [this]

/-- **C36, polar mazes.** Forward moves one step in the current direction if that cell is free and stays otherwise, the other actions
leave the position as it is. -/
theorem C36_polar_action (m : Maze) (hb : Bordered m.table) (hf : Free m.table m.perseus) (hd : Heading) (hm : m.dir = code hd) (o : Option Int) (a : Int) :
    (o.getD a = 1 → Free m.table (step hd m.perseus) → polarAction m o a = .ok { m with perseus := step hd m.perseus, bang := false }) ∧
    (o.getD a = 1 → ¬ Free m.table (step hd m.perseus) → polarAction m o a = .ok { m with bang := true }) ∧
    (o.getD a = 0 → polarAction m o a = .ok { m with bang := false }) ∧
    (o.getD a = 2 → polarAction m o a = .ok { m with bang := false, dir := code (behind hd) }) := by
  have hc := step_cell hb hf hd
  refine ⟨fun ha h => ?_, fun ha h => ?_, fun ha => ?_, fun ha => ?_⟩
  · rw [forward_eq m o a hd ha hm, get_cell hc]; simp [h.2]
  · rw [forward_eq m o a hd ha hm, get_cell hc]
    have : m.table.wall (step hd m.perseus).1.toNat (step hd m.perseus).2.toNat = true := by
      rw [← Bool.not_eq_false]; exact fun e => h ⟨hc, e⟩
    simp [this]
  · rw [turn_eq m o a 0 ha (by omega) (by omega) hd hm]; simp [hm]
  · rw [turn_eq m o a 2 ha (by omega) (by omega) hd hm]; simp

/-- **C36, histories.** In a maze surrounded by walls, after any number of actions, random or not, the agent stands on a free cell of
the same maze, and nothing was raised. -/
theorem C36_never_in_wall (as : List (Option Int × Int)) (has : ∀ x ∈ as, 0 ≤ x.1.getD x.2 ∧ x.1.getD x.2 < 4) (m : Maze)
    (hb : Bordered m.table) (hf : Free m.table m.perseus) :
    ∃ m', acts performAction as m = .ok m' ∧ m'.table = m.table ∧ Free m.table m'.perseus := by
  induction as generalizing m with
  | nil => exact ⟨m, rfl, rfl, hf⟩
  | cons x as ih =>
    obtain ⟨o, a⟩ := x
    have h1 := has (o, a) List.mem_cons_self
    obtain ⟨hd, ha⟩ := legal_heading h1.1 h1.2
    have h2 := C36_action m hb hf o a hd ha
    have has' := fun x hx => has x (List.mem_cons_of_mem _ hx)
    simp only [acts]
    by_cases h : Free m.table (step hd m.perseus)
    · rw [h2.1 h]; exact ih has' _ hb h
    · rw [h2.2 h]; exact ih has' _ hb hf

/-- **C36, histories in polar mazes.** -/
theorem C36_polar_never_in_wall (as : List (Option Int × Int)) (has : ∀ x ∈ as, 0 ≤ x.1.getD x.2 ∧ x.1.getD x.2 < 5) (m : Maze)
    (hb : Bordered m.table) (hf : Free m.table m.perseus) (hdir : m.dir < 4) :
    ∃ m', acts polarAction as m = .ok m' ∧ m'.table = m.table ∧ Free m.table m'.perseus ∧ m'.dir < 4 := by
  induction as generalizing m with
  | nil => exact ⟨m, rfl, rfl, hf, hdir⟩
  | cons x as ih =>
    obtain ⟨o, a⟩ := x
    have h1 := has (o, a) List.mem_cons_self
    simp only at h1
    obtain ⟨hd, hm⟩ := code_surj m.dir hdir
    have h2 := C36_polar_action m hb hf hd hm.symm o a
    have has' := fun x hx => has x (List.mem_cons_of_mem _ hx)
    simp only [acts]
    by_cases ha : o.getD a = 1
    · by_cases h : Free m.table (step hd m.perseus)
      · rw [h2.1 ha h]; exact ih has' _ hb h hdir
      · rw [h2.2.1 ha h]; exact ih has' _ hb hf hdir
    · rw [turn_eq m o a (o.getD a).toNat (by omega) (by omega) (by omega) hd hm.symm]
      exact ih has' _ hb hf (code_lt _)

/-- **C36, any maze.** Even without surrounding walls the entry of the table at the agent's indices is free, as long as nothing is raised
(but see `C36_negation_open_border`: the indices need not be those of a cell). -/
theorem C36_index_free (as : List (Option Int × Int)) (m m' : Maze) (hf : m.table.get m.perseus = .ok false)
    (h : acts performAction as m = .ok m') : m'.table = m.table ∧ m'.table.get m'.perseus = .ok false := by
  induction as generalizing m with
  | nil => simp only [acts, Except.ok.injEq] at h; subst h; exact ⟨rfl, hf⟩
  | cons x as ih =>
    obtain ⟨o, a⟩ := x
    simp only [acts] at h
    split at h
    · simp at h
    · rename_i m1 h1
      have : m1.table = m.table ∧ m.table.get m1.perseus = .ok false := by
        unfold performAction at h1
        split at h1
        · simp at h1
        · simp only at h1
          split at h1
          · simp at h1
          · rename_i w hw
            split at h1
            · rename_i hwf
              simp only [beq_iff_eq] at hwf
              simp only [Except.ok.injEq] at h1
              subst h1
              exact ⟨rfl, by rw [hw, hwf]⟩
            · simp only [Except.ok.injEq] at h1
              subst h1
              exact ⟨rfl, hf⟩
      have h3 := ih m1 (by rw [this.1]; exact this.2) h
      exact ⟨h3.1.trans this.1, h3.2⟩

/-- **C36, any maze.** Without surrounding walls an agent that left the table is on its other side: counted around the table, its position is always
a free cell, as long as nothing is raised. -/
theorem C36_wraps (as : List (Option Int × Int)) (m m' : Maze) (hf : Free m.table m.perseus) (h : acts performAction as m = .ok m') :
    Free m.table (m'.perseus.1 % m.table.rows, m'.perseus.2 % m.table.cols) := by
  obtain ⟨⟨a1, a2, a3, a4⟩, a5⟩ := hf
  have key : ∀ (n : Nat) (i : Int) (k : Nat), npIndex n i = .ok k → (k : Int) = i % n ∧ k < n := by
    intro n i k hk
    unfold npIndex at hk
    split_ifs at hk with h1 h2
    · injection hk with hk
      rw [Int.emod_eq_of_lt h1.1 h1.2]; omega
    · injection hk with hk
      rw [← Int.add_emod_right, Int.emod_eq_of_lt (by omega) (by omega)]; omega
  have hget : m.table.get m.perseus = .ok false := by
    unfold Table.get npIndex
    rw [if_pos ⟨a1, a2⟩, if_pos ⟨a3, a4⟩]
    simp only [a5]
  obtain ⟨h1, h2⟩ := C36_index_free as m m' hget h
  rw [h1] at h2
  unfold Table.get at h2
  split at h2
  · cases h2
  · rename_i r hr
    split at h2
    · cases h2
    · rename_i c hc
      injection h2 with h2
      obtain ⟨b1, b2⟩ := key _ _ _ hr
      obtain ⟨b3, b4⟩ := key _ _ _ hc
      rw [← b1, ← b3]
      exact ⟨⟨by simp, by simpa using b2, by simp, by simpa using b4⟩, by simpa using h2⟩

/-- **C36, start.** By default an episode starts on a free cell other than the goal. -/
theorem C36_reset (t : Table) (m m' : Maze) (ht : m.table = t) (k d : Nat) (hi : defaultInit t m.goal = .ok m.initPos) (h : reset m k d = .ok m') :
    m'.table = t ∧ Free t m'.perseus ∧ m'.perseus ≠ m.goal ∧ m'.bang = false ∧ m'.dir < 4 := by
  unfold defaultInit at hi
  split at hi
  · simp only [Except.ok.injEq] at hi
    unfold reset at h
    split at h
    · simp at h
    · rename_i p hp
      simp only [Except.ok.injEq] at h
      subst h
      have hmem : p ∈ (freePos t).erase m.goal := by rw [hi]; exact List.mem_of_getElem? hp
      have hnd : (freePos t).Nodup := by
        unfold freePos
        rw [List.nodup_flatMap]
        refine ⟨fun i _ => ((List.nodup_range (n := t.cols)).filter _).map (fun a b h => by have := congrArg Prod.snd h; simp only at this; omega), ?_⟩
        refine (List.nodup_range (n := t.rows)).imp ?_
        intro a b hab x hx hy
        simp only [List.mem_map] at hx hy
        obtain ⟨y, _, rfl⟩ := hx
        obtain ⟨z, _, h⟩ := hy
        have := congrArg Prod.fst h
        simp only at this
        omega
      rw [hnd.mem_erase_iff] at hmem
      refine ⟨ht, ?_, hmem.1, rfl, Nat.mod_lt _ (by omega)⟩
      have := hmem.2
      simp only [freePos, List.mem_flatMap, List.mem_map, List.mem_filter, List.mem_range, beq_iff_eq] at this
      obtain ⟨i, hi', j, ⟨hj, hw⟩, rfl⟩ := this
      refine ⟨⟨?_, ?_, ?_, ?_⟩, ?_⟩
      · simp only; omega
      · simp only; omega
      · simp only; omega
      · simp only; omega
      · simpa using hw
  · simp at hi

/-- **C36, turning.** In a polar maze, around twice, left then right, and four times left are the identity (apart from clearing `bang`). -/
theorem C36_turns (m : Maze) (hdir : m.dir < 4) :
    acts polarAction [(none, 2), (none, 2)] m = .ok { m with bang := false } ∧
    acts polarAction [(none, 3), (none, 4)] m = .ok { m with bang := false } ∧
    acts polarAction [(none, 3), (none, 3), (none, 3), (none, 3)] m = .ok { m with bang := false } := by
  obtain ⟨t, g, i, p, b, d⟩ := m
  have : d = 0 ∨ d = 1 ∨ d = 2 ∨ d = 3 := by simp only at hdir; omega
  rcases this with rfl | rfl | rfl | rfl <;> simp [acts, polarAction, npIndex]

/-- **C36, sensors.** Without observation noise, in a maze surrounded by walls, the sensor of a direction is on exactly if moving there
would bang into a wall; the first sensor of a polar maze tells whether Forward would. -/
theorem C36_sensors (m : Maze) (hb : Bordered m.table) (hf : Free m.table m.perseus) :
    ∃ obs, getSensors m (List.replicate 4 false) = .ok obs ∧ obs.length = 4 ∧
      (∀ hd : Heading, obs[code hd]? = some true ↔ performAction m none (code hd) = .ok { m with bang := true }) ∧
      (∀ hd : Heading, m.dir = code hd → ∃ pobs, polarSensors m (List.replicate 4 false) = .ok pobs ∧
        (∀ k : Nat, k < 4 → pobs[k]? = obs[(m.dir + k) % 4]?) ∧
        (pobs[0]? = some true ↔ polarAction m none 1 = .ok { m with bang := true })) := by
  have hcell := fun hd => step_cell hb hf hd
  let w : Heading → Bool := fun hd => m.table.wall (step hd m.perseus).1.toNat (step hd m.perseus).2.toNat
  have hs : ∀ hd : Heading, sense m (allActions.getD (code hd) (0, 0)) = .ok (w hd) := by
    intro hd; rw [sense, getD_code, get_cell (hcell hd)]
  have hN := hs .north
  have hE := hs .east
  have hS := hs .south
  have hW := hs .west
  simp only [allActions, code, List.getD_cons_zero, List.getD_cons_succ] at hN hE hS hW
  have hobs : getSensors m (List.replicate 4 false) = .ok [w .north, w .east, w .south, w .west] := by
    simp only [getSensors, allActions, List.mapM_cons, List.mapM_nil, hN, hE, hS, hW]
    rfl
  have hget : ∀ hd : Heading, [w .north, w .east, w .south, w .west][code hd]? = some (w hd) := by intro hd; cases hd <;> rfl
  have hne : ∀ hd : Heading, step hd m.perseus ≠ m.perseus := by
    intro hd e
    have h1 := congrArg Prod.fst e
    have h2 := congrArg Prod.snd e
    cases hd <;> simp [step] at h1 h2
  have hfree : ∀ hd, Free m.table (step hd m.perseus) ↔ w hd = false := by
    intro hd; simp [Free, hcell hd, w]
  refine ⟨_, hobs, rfl, fun hd => ?_, fun hd hm => ?_⟩
  · rw [hget hd]
    have h2 := C36_action m hb hf none (code hd) hd rfl
    cases hw : w hd
    · rw [h2.1 ((hfree hd).2 hw)]
      simp only [Option.some.injEq, Bool.false_eq_true, false_iff]
      intro e
      injection e with e
      exact hne hd (congrArg Maze.perseus e)
    · rw [h2.2 (by rw [hfree hd, hw]; simp)]; simp
  · refine ⟨_, by simp only [polarSensors, hobs]; rfl, fun k hk => ?_, ?_⟩
    · have : k = 0 ∨ k = 1 ∨ k = 2 ∨ k = 3 := by omega
      rw [hm]
      rcases this with rfl | rfl | rfl | rfl <;> cases hd <;> rfl
    · have h0 : ([w .north, w .east, w .south, w .west].drop m.dir ++ [w .north, w .east, w .south, w .west].take m.dir)[0]? = some (w hd) := by
        rw [hm]; cases hd <;> rfl
      rw [h0]
      have h2 := C36_polar_action m hb hf hd hm none 1
      cases hw : w hd
      · rw [h2.1 rfl ((hfree hd).2 hw)]
        simp only [Option.some.injEq, Bool.false_eq_true, false_iff]
        intro e
        injection e with e
        exact hne hd (congrArg Maze.perseus e)
      · rw [h2.2.1 rfl (by rw [hfree hd, hw]; simp)]; simp

/-- the corridor of `TrivialMaze`, and the same maze without border -/
def corridor : Table := { rows := 3, cols := 5, wall := fun r c => !(r == 1 && (c == 1 || c == 2 || c == 3)) }
def openCorridor : Table := { rows := 1, cols := 3, wall := fun _ _ => false }
def corridorMaze : Maze := { table := corridor, goal := (1, 3), initPos := [(1, 1)], perseus := (1, 1), bang := false, dir := 1 }
def openMaze : Maze := { table := openCorridor, goal := (0, 2), initPos := [(0, 0)], perseus := (0, 0), bang := false, dir := 1 }

example : Bordered corridor ∧ Free corridor corridorMaze.perseus ∧ corridorMaze.dir = code .east ∧
    Free corridor (step .east corridorMaze.perseus) ∧ ¬ Free corridor (step .north corridorMaze.perseus) ∧
    defaultInit corridor (1, 3) = .ok [(1, 1), (1, 2)] := by
  refine ⟨?_, ?_, rfl, ?_, ?_, ?_⟩
  · intro r c hr hc h
    simp only [corridor] at hr hc h ⊢
    simp
    omega
  · exact ⟨⟨by decide, by decide, by decide, by decide⟩, rfl⟩
  · exact ⟨⟨by decide, by decide, by decide, by decide⟩, rfl⟩
  · intro h; exact absurd h.2 (by decide)
  · decide

/-- **C36 without surrounding walls: violated.** The agent walks west out of the maze: its column becomes -1, which is no cell; after
some more steps an IndexError is raised. -/
theorem C36_negation_open_border :
    Free openCorridor openMaze.perseus ∧
    (∃ m, performAction openMaze none 3 = .ok m ∧ m.perseus = (0, -1) ∧ ¬ Cell openCorridor m.perseus) ∧
    acts performAction [(none, 3), (none, 3), (none, 3), (none, 3)] openMaze = .error .indexError := by
  refine ⟨⟨⟨by decide, by decide, by decide, by decide⟩, rfl⟩, ⟨_, rfl, rfl, fun h => ?_⟩, rfl⟩
  exact absurd h.2.2.1 (by decide)

/-- **C36: TurnLeft turns right**, and TurnRight left, whatever the direction. -/
theorem C36_negation_turn_left (m : Maze) (hd : Heading) (hm : m.dir = code hd) :
    polarAction m none 3 = .ok { m with bang := false, dir := code (rightOf hd) } ∧
    polarAction m none 4 = .ok { m with bang := false, dir := code (leftOf hd) } ∧ code (rightOf hd) ≠ code (leftOf hd) := by
  refine ⟨?_, ?_, by cases hd <;> decide⟩
  · rw [turn_eq m none 3 3 rfl (by omega) (by omega) hd hm]; simp
  · rw [turn_eq m none 4 4 rfl (by omega) (by omega) hd hm]; simp

/-! ### C37 -/

/-- **C37.** The observations tell the cells of the maze apart exactly if there are at least as many rows as columns (or a single row). -/
theorem C37_injective_iff (t : Table) :
    (∀ p q : Pos, Cell t p → Cell t q → mdpObservation t p = mdpObservation t q → p = q) ↔ t.cols ≤ t.rows ∨ t.rows ≤ 1 := by
  constructor
  · intro h
    by_contra hc
    have h1 : 1 < t.rows ∧ t.rows < t.cols := by omega
    have := h (0, (t.rows : Int)) (1, 0) ⟨by simp, by simp only; omega, by simp, by simp only; omega⟩ ⟨by simp, by simp only; omega, by simp, by simp only; omega⟩
      (by simp [mdpObservation])
    simp at this
  · intro h p q hp hq he
    obtain ⟨a, b⟩ := p
    obtain ⟨c, d⟩ := q
    simp only [Cell] at hp hq
    simp only [mdpObservation] at he
    rcases h with h | h
    · have hac : a = c := by
        by_contra hne
        rcases Int.lt_or_gt_of_ne hne with hlt | hlt
        · have : (a + 1) * (t.rows : Int) ≤ c * t.rows := Int.mul_le_mul_of_nonneg_right (by omega) (by omega)
          rw [add_mul] at this
          omega
        · have : (c + 1) * (t.rows : Int) ≤ a * t.rows := Int.mul_le_mul_of_nonneg_right (by omega) (by omega)
          rw [add_mul] at this
          omega
      subst hac
      rw [show b = d by omega]
    · have ha : a = 0 := by omega
      have hc : c = 0 := by omega
      subst ha hc
      rw [show b = d by omega]

/-- **C37, the table of action values.** All observations are below the number of cells (so that a table with one row per cell can be
indexed by them) exactly if there are at most as many rows as columns (or a single row). -/
theorem C37_range_iff (t : Table) (hr : 0 < t.rows) (hc : 0 < t.cols) :
    (∀ p : Pos, Cell t p → 0 ≤ mdpObservation t p ∧ mdpObservation t p < t.rows * t.cols) ↔ t.rows ≤ t.cols ∨ t.rows ≤ 1 := by
  constructor
  · intro h
    by_contra hn
    have h1 : 1 < t.rows ∧ t.cols < t.rows := by omega
    have := (h ((t.rows : Int) - 1, (t.cols : Int) - 1) ⟨by simp only; omega, by simp only; omega, by simp only; omega, by simp only; omega⟩).2
    simp only [mdpObservation] at this
    have h2 : (t.cols : Int) + 1 ≤ t.rows := by omega
    have h3 : (0 : Int) ≤ (t.rows : Int) - 1 := by omega
    nlinarith
  · intro h p hp
    obtain ⟨a, b⟩ := p
    simp only [Cell] at hp
    simp only [mdpObservation]
    constructor
    · have : 0 ≤ a * (t.rows : Int) := Int.mul_nonneg hp.1 (by omega)
      omega
    · rcases h with h | h
      · have h4 : a * (t.rows : Int) ≤ ((t.rows : Int) - 1) * t.cols := by
          calc a * (t.rows : Int) ≤ ((t.rows : Int) - 1) * t.rows := Int.mul_le_mul_of_nonneg_right (by omega) (by omega)
            _ ≤ ((t.rows : Int) - 1) * t.cols := Int.mul_le_mul_of_nonneg_left (by omega) (by omega)
        have h5 : ((t.rows : Int) - 1) * t.cols = t.rows * t.cols - t.cols := by ring
        omega
      · have h1 : t.rows = 1 := by omega
        have ha : a = 0 := by omega
        subst ha
        rw [h1]
        simp
        omega

/-- a square maze meets both conditions -/
example : (⟨9, 9, fun _ _ => false⟩ : Table).cols ≤ (⟨9, 9, fun _ _ => false⟩ : Table).rows ∧
    Cell ⟨9, 9, fun _ _ => false⟩ (8, 8) ∧ mdpObservation ⟨9, 9, fun _ _ => false⟩ (8, 8) = 80 := ⟨by decide, ⟨by decide, by decide, by decide, by decide⟩, by decide⟩

/-- **C37: violated** for mazes wider than high: in the maze of `TrivialMaze` cells (0, 3) and (1, 0) get the same observation, and in a
4 × 7 maze the free cells (1, 5) and (2, 1) do. -/
theorem C37_negation : Cell corridor (0, 3) ∧ Cell corridor (1, 0) ∧ mdpObservation corridor (0, 3) = mdpObservation corridor (1, 0) ∧
    ∃ t : Table, ∃ p q : Pos, Free t p ∧ Free t q ∧ p ≠ q ∧ mdpObservation t p = mdpObservation t q := by
  refine ⟨⟨by decide, by decide, by decide, by decide⟩, ⟨by decide, by decide, by decide, by decide⟩, by decide, ?_⟩
  exact ⟨⟨4, 7, fun r c => !(r == 1 && c == 5 || r == 2 && c == 1)⟩, (1, 5), (2, 1),
    ⟨⟨by decide, by decide, by decide, by decide⟩, rfl⟩, ⟨⟨by decide, by decide, by decide, by decide⟩, rfl⟩, by decide, by decide⟩

/-- **C37, reward.** Reaching the goal gives reward 1 and starts again from a start position, every other step gives 0 and changes nothing. -/
theorem C37_reward (m : Maze) (k d : Nat) (hk : k < m.initPos.length) :
    (m.perseus = m.goal → ∃ m', mdpReward m k d = .ok (1, m') ∧ m'.perseus = m.initPos[k] ∧ m'.table = m.table) ∧
    (m.perseus ≠ m.goal → mdpReward m k d = .ok (0, m)) := by
  constructor
  · intro h
    simp only [mdpReward, h.symm, if_true, reset, List.getElem?_eq_getElem hk]
    exact ⟨_, rfl, rfl, rfl⟩
  · intro h
    simp [mdpReward, Ne.symm h]

end Verif.Props

import Verif.Lemmas.Gomoku
/-
C34 Go-Moku: winning, draws, positions without five in a row.
C35 Pente: captures, winning, draws, bookkeeping.
-/
namespace Verif.Gomoku
open Verif.DataSet (Err)
open Verif.Capture (Cell Color Color.cell Color.opp upd)
open Spec

/-- a game of Go-Moku played with accepted moves, in any order of colours, until it is decided -/
inductive Reached (size : Nat × Nat) : Game → Prop
  | start {g} : newGomoku size = .ok g → Reached size g
  | move {g g' c pos} : Reached size g → g.winner = none → doMove g c pos = .ok (g', true) → Reached size g'

/-- the same for Pente -/
inductive ReachedPente (size : Nat × Nat) : Game → Prop
  | start {g} : newPente size = .ok g → ReachedPente size g
  | move {g g' c pos} : ReachedPente size g → g.winner = none → penteMove g c pos = .ok (g', true) → ReachedPente size g'

theorem doMove_legal {g g' : Game} {c : Color} {pos : Pos} (h : doMove g c pos = .ok (g', true)) :
    Point g.size pos ∧ g.b pos = .empty ∧ g'.size = g.size ∧ g'.movesDone = g.movesDone + 1 ∧
    ((Completes g.size g.b c pos ∧ g'.winner = some (.won c) ∧ g'.b = upd g.b pos .mark) ∨
     (¬ Completes g.size g.b c pos ∧ g'.b = upd g.b pos c.cell ∧
      g'.winner = if g.movesDone + 1 = g.size.1 * g.size.2 then some .draw else g.winner)) := by
  unfold doMove at h
  simp only at h
  split at h
  · simp at h
  · rename_i hin
    simp only [Bool.not_eq_true', Bool.not_eq_false] at hin
    have hpt := (inside_iff _ _).1 hin
    split at h
    · simp at h
    · rename_i he
      rw [not_not] at he
      refine ⟨hpt, he, ?_⟩
      split at h
      · rename_i hf
        simp only [Except.ok.injEq, Prod.mk.injEq, and_true] at h
        subst h
        exact ⟨rfl, rfl, Or.inl ⟨(fiveRow_iff _ _ _ _ hpt).1 hf, rfl, rfl⟩⟩
      · rename_i hf
        have hnc : ¬ Completes g.size g.b c pos := fun hc => hf ((fiveRow_iff _ _ _ _ hpt).2 hc)
        split at h
        · rename_i hd
          simp only [Except.ok.injEq, Prod.mk.injEq, and_true] at h
          subst h
          exact ⟨rfl, rfl, Or.inr ⟨hnc, rfl, by rw [if_pos hd]⟩⟩
        · rename_i hd
          simp only [Except.ok.injEq, Prod.mk.injEq, and_true] at h
          subst h
          exact ⟨rfl, rfl, Or.inr ⟨hnc, rfl, by rw [if_neg hd]⟩⟩

theorem doMove_accepts (g : Game) (c : Color) (pos : Pos) (hp : Point g.size pos) (he : g.b pos = .empty) : ∃ g', doMove g c pos = .ok (g', true) := by
  unfold doMove
  simp only [(inside_iff _ _).2 hp, he]
  simp only [Bool.not_true, Bool.false_eq_true, if_false, ne_eq, not_true_eq_false]
  split
  · exact ⟨_, rfl⟩
  · split <;> exact ⟨_, rfl⟩

theorem place_eq (b : Pos → Cell) (c : Color) (pos : Pos) : upd b pos c.cell = place b c pos := rfl

theorem reached_inv {size : Nat × Nat} {g : Game} (h : Reached size g) :
    g.size = size ∧ 0 < size.1 * size.2 ∧ stones size g.b = g.movesDone ∧
    (g.winner = none → g.movesDone ≠ size.1 * size.2 ∧ ∀ c start dir, ¬ FiveLine size g.b c start dir) ∧
    (g.winner = some .draw → g.movesDone = size.1 * size.2 ∧ ∀ c start dir, ¬ FiveLine size g.b c start dir) := by
  induction h with
  | start h =>
    unfold newGomoku at h
    split at h
    · rename_i hs
      simp only [Except.ok.injEq] at h
      subst h
      have hpos : 0 < size.1 * size.2 := Nat.mul_pos (by omega) (by omega)
      refine ⟨rfl, hpos, by simp [stones], fun _ => ⟨by simpa using fun e => by omega, fun c start dir hf => ?_⟩, by simp⟩
      have := (hf.2 0 (by omega) (by omega)).2
      exact color_ne_empty c this.symm
    · simp at h
  | move hr hw hm ih =>
    rename_i g g' c pos
    obtain ⟨hs, hpos, hst, hn, hdr⟩ := ih
    obtain ⟨hp, he, hs', hmd, hcase⟩ := doMove_legal hm
    rw [hs] at hp hcase
    refine ⟨hs'.trans hs, hpos, ?_, ?_⟩
    · rcases hcase with ⟨_, _, hb⟩ | ⟨_, hb, _⟩
      · rw [hb, stones_put size g.b pos _ hp he (by simp), hst, hmd]
      · rw [hb, stones_put size g.b pos _ hp he (color_ne_empty c), hst, hmd]
    · rcases hcase with ⟨_, hwn, _⟩ | ⟨hnc, hb, hwn⟩
      · rw [hwn]; simp
      · have hno : ∀ c start dir, ¬ FiveLine size g'.b c start dir := by
          intro c' start dir hf
          rw [hb, place_eq] at hf
          exact (hn hw).2 c' start dir (fiveLine_old size g.b c c' pos start dir hnc hf)
        rw [hwn, hmd]
        by_cases hd : g.movesDone + 1 = size.1 * size.2
        · rw [if_pos hd]; exact ⟨by simp, fun _ => ⟨hd, hno⟩⟩
        · rw [if_neg hd, hw]; exact ⟨fun _ => ⟨hd, hno⟩, by simp⟩

/-! ### Pente -/

theorem penteMove_legal {g g' : Game} {c : Color} {pos : Pos} (h : penteMove g c pos = .ok (g', true)) :
    Point g.size pos ∧ g.b pos = .empty ∧ g'.size = g.size ∧ g'.movesDone = g.movesDone + 1 ∧
    (((Completes g.size g.b c pos ∨ 5 ≤ g.pairsTaken c + pairs g.size g.b c pos) ∧ g'.winner = some (.won c) ∧ g'.b = upd g.b pos .mark ∧
       g'.pairsTaken = g.pairsTaken) ∨
     (¬ Completes g.size g.b c pos ∧ g.pairsTaken c + pairs g.size g.b c pos < 5 ∧
      g'.b = (killsWhich g.size g.b c pos).foldl (fun b p => upd b p .empty) (upd g.b pos c.cell) ∧
      g'.pairsTaken = upd g.pairsTaken c (g.pairsTaken c + pairs g.size g.b c pos) ∧
      g'.winner = if g.movesDone + 1 = g.size.1 * g.size.2 + 2 * (g'.pairsTaken .black + g'.pairsTaken .white) then some .draw else g.winner)) := by
  have hlen := kills_length g.size g.b c pos
  unfold penteMove at h
  simp only at h
  split at h
  · simp at h
  · rename_i hin
    simp only [Bool.not_eq_true', Bool.not_eq_false] at hin
    have hpt := (inside_iff _ _).1 hin
    split at h
    · simp at h
    · rename_i he
      rw [not_not] at he
      refine ⟨hpt, he, ?_⟩
      split at h
      · rename_i hf
        simp only [Except.ok.injEq, Prod.mk.injEq, and_true] at h
        subst h
        exact ⟨rfl, rfl, Or.inl ⟨Or.inl ((fiveRow_iff _ _ _ _ hpt).1 hf), rfl, rfl, rfl⟩⟩
      · rename_i hf
        have hnc : ¬ Completes g.size g.b c pos := fun hc => hf ((fiveRow_iff _ _ _ _ hpt).2 hc)
        split at h
        · rename_i h5
          simp only [Except.ok.injEq, Prod.mk.injEq, and_true] at h
          subst h
          exact ⟨rfl, rfl, Or.inl ⟨Or.inr (by omega), rfl, rfl, rfl⟩⟩
        · rename_i h5
          have hp2 : (killsWhich g.size g.b c pos).length / 2 = pairs g.size g.b c pos := by omega
          split at h
          · rename_i hd
            simp only [Except.ok.injEq, Prod.mk.injEq, and_true] at h
            subst h
            refine ⟨rfl, rfl, Or.inr ⟨hnc, by omega, rfl, by simp only [setStone, hp2], ?_⟩⟩
            exact (if_pos hd).symm
          · rename_i hd
            simp only [Except.ok.injEq, Prod.mk.injEq, and_true] at h
            subst h
            refine ⟨rfl, rfl, Or.inr ⟨hnc, by omega, rfl, by simp only [setStone, hp2], ?_⟩⟩
            exact (if_neg hd).symm

theorem penteMove_accepts (g : Game) (c : Color) (pos : Pos) (hp : Point g.size pos) (he : g.b pos = .empty) : ∃ g', penteMove g c pos = .ok (g', true) := by
  unfold penteMove
  simp only [(inside_iff _ _).2 hp, he]
  simp only [Bool.not_true, Bool.false_eq_true, if_false, ne_eq, not_true_eq_false]
  split
  · exact ⟨_, rfl⟩
  · split
    · exact ⟨_, rfl⟩
    · split <;> exact ⟨_, rfl⟩

/-- the board after a capturing move -/
theorem after_kill (size : Nat × Nat) (b : Pos → Cell) (c : Color) (pos : Pos) (he : b pos = .empty) (p : Pos) :
    ((killsWhich size b c pos).foldl (fun b p => upd b p .empty) (upd b pos c.cell)) p =
      if p = pos then c.cell else if p ∈ killsWhich size b c pos then .empty else b p := by
  rw [foldl_empty]
  by_cases hp : p = pos
  · have : p ∉ killsWhich size b c pos := by
      rw [mem_kills, hp]
      intro hc
      have := (kills_enemy size b c pos pos hc).2
      rw [he] at this
      exact color_ne_empty _ this.symm
    rw [if_neg this, if_pos hp, hp]
    simp [upd]
  · simp [hp, upd]

theorem stones_after (size : Nat × Nat) (b : Pos → Cell) (c : Color) (pos : Pos) (hp : Point size pos) (he : b pos = .empty) :
    stones size ((killsWhich size b c pos).foldl (fun b p => upd b p .empty) (upd b pos c.cell)) + 2 * pairs size b c pos = stones size b + 1 := by
  rw [← stones_put size b pos c.cell hp he (color_ne_empty c), ← kills_length]
  apply stones_kill _ _ _ (kills_nodup size b c pos)
  intro p hk
  rw [mem_kills] at hk
  have h1 := kills_enemy size b c pos p hk
  refine ⟨h1.1, ?_⟩
  have : p ≠ pos := by
    rintro rfl
    rw [he] at h1
    exact color_ne_empty _ h1.2.symm
  simp only [upd, this, if_false]
  rw [h1.2]
  exact color_ne_empty _

theorem upd_sum (f : Color → Nat) (c : Color) (k : Nat) : upd f c (f c + k) .black + upd f c (f c + k) .white = f .black + f .white + k := by
  cases c <;> simp [upd] <;> omega

theorem kills_empty (size : Nat × Nat) (c : Color) (pos : Pos) : killsWhich size (fun _ => .empty) c pos = [] := by
  rw [List.eq_nil_iff_forall_not_mem]
  intro p hp
  rw [mem_kills] at hp
  exact color_ne_empty _ (kills_enemy _ _ _ _ _ hp).2.symm

theorem newPente_inv {size : Nat × Nat} {g : Game} (h : newPente size = .ok g) :
    5 ≤ size.1 ∧ 5 ≤ size.2 ∧ g.size = size ∧ g.movesDone = 1 ∧ g.winner = none ∧ g.pairsTaken = (fun _ => 0) ∧
    g.b = upd (fun _ => .empty) (((size.1 / 2 : Nat) : Int), ((size.2 / 2 : Nat) : Int)) .white := by
  unfold newPente newGomoku at h
  split at h
  · simp at h
  · rename_i g0 h0
    split at h0
    · rename_i hs
      simp only [Except.ok.injEq] at h0
      subst h0
      simp only [Except.ok.injEq] at h
      subst h
      refine ⟨hs.1, hs.2, rfl, rfl, rfl, ?_, ?_⟩
      · simp only [setStone, kills_empty]
        funext c
        simp [upd]
      · simp only [setStone, kills_empty]
        rfl
    · simp at h0

theorem reachedPente_inv {size : Nat × Nat} {g : Game} (h : ReachedPente size g) :
    g.size = size ∧ stones size g.b + 2 * (g.pairsTaken .black + g.pairsTaken .white) = g.movesDone ∧ (∀ c, g.pairsTaken c < 5) ∧
    (g.winner = none → stones size g.b ≠ size.1 * size.2) ∧ (g.winner = some .draw → stones size g.b = size.1 * size.2) := by
  induction h with
  | start h =>
    obtain ⟨h1, h2, hs, hm, hw, hp, hb⟩ := newPente_inv h
    have hc : Point size (((size.1 / 2 : Nat) : Int), ((size.2 / 2 : Nat) : Int)) := by
      refine ⟨?_, ?_, ?_, ?_⟩ <;> simp only <;> omega
    have hst := stones_put size (fun _ => .empty) _ .white hc rfl (by simp)
    have h0 : stones size (fun _ => Cell.empty) = 0 := by simp [stones]
    have hlarge : 5 * 5 ≤ size.1 * size.2 := Nat.mul_le_mul h1 h2
    rw [h0] at hst
    refine ⟨hs, by rw [hb, hst, hp, hm]; rfl, by rw [hp]; simp, fun _ => by rw [hb, hst]; omega, by rw [hw]; simp⟩
  | move hr hw hm ih =>
    rename_i g g' c pos
    obtain ⟨hs, hst, h5, hn, hdr⟩ := ih
    obtain ⟨hp, he, hs', hmd, hcase⟩ := penteMove_legal hm
    rw [hs] at hp hcase
    refine ⟨hs'.trans hs, ?_⟩
    rcases hcase with ⟨_, hwn, hb, hpr⟩ | ⟨_, hlt, hb, hpr, hwn⟩
    · rw [hb, stones_put size g.b pos _ hp he (by simp), hpr, hwn, hmd]
      exact ⟨by omega, h5, by simp, by simp⟩
    · have hsa := stones_after size g.b c pos hp he
      rw [← hb] at hsa
      have hsum : g'.pairsTaken .black + g'.pairsTaken .white = g.pairsTaken .black + g.pairsTaken .white + pairs size g.b c pos := by
        rw [hpr, upd_sum]
      refine ⟨by omega, fun c' => ?_, ?_⟩
      · rw [hpr]
        by_cases hcc : c' = c
        · simp [upd, hcc]; omega
        · simp [upd, hcc]; exact h5 c'
      · rw [hwn]
        split
        · rename_i hd
          exact ⟨by simp, fun _ => by omega⟩
        · rename_i hd
          rw [hw]
          exact ⟨fun _ => by omega, by simp⟩

end Verif.Gomoku

namespace Verif.Props
open Verif.DataSet (Err)
open Verif.Capture (Cell Color Color.cell Color.opp upd)
open Verif.Gomoku Verif.Gomoku.Spec

/-! ### C34 Go-Moku -/

/-- C34. On any undecided position, a stone put on an empty point is accepted, changes exactly that point, and wins exactly if it makes
a line of five own stones in one of the four directions; otherwise the stone stays on the board in its colour. -/
theorem C34_win (g : Game) (hu : g.winner = none) (c : Color) (pos : Pos) (hp : Point g.size pos) (he : g.b pos = .empty) :
    ∃ g', doMove g c pos = .ok (g', true) ∧ (g'.winner = some (.won c) ↔ Completes g.size g.b c pos) ∧
      (∀ c', c' ≠ c → g'.winner ≠ some (.won c')) ∧ (∀ p, p ≠ pos → g'.b p = g.b p) ∧
      g'.b pos = (if g'.winner = some (.won c) then .mark else c.cell) := by
  obtain ⟨g', h⟩ := doMove_accepts g c pos hp he
  refine ⟨g', h, ?_⟩
  obtain ⟨_, _, _, _, hcase⟩ := doMove_legal h
  rcases hcase with ⟨hc, hw, hb⟩ | ⟨hc, hb, hw⟩
  · refine ⟨by simp [hw, hc], fun c' hne e => ?_, fun p hne => by rw [hb]; simp [upd, hne], ?_⟩
    · rw [hw] at e; simp at e; exact hne e.symm
    · rw [if_pos hw, hb]; simp [upd]
  · have hnw : ∀ c', g'.winner ≠ some (.won c') := by
      intro c'; rw [hw, hu]; split <;> simp
    refine ⟨⟨fun e => absurd e (hnw c), fun e => absurd e hc⟩, fun c' _ => hnw c', fun p hne => by rw [hb]; simp [upd, hne], ?_⟩
    rw [if_neg (hnw c), hb]; simp [upd]

/-- C34. A stone on an occupied point is refused and leaves board and result as they are; off the board the game raises KeyError. -/
theorem C34_refused (g : Game) (c : Color) (pos : Pos) :
    (Point g.size pos → g.b pos ≠ .empty → ∃ g', doMove g c pos = .ok (g', false) ∧ g'.b = g.b ∧ g'.winner = g.winner) ∧
    (¬ Point g.size pos → doMove g c pos = .error .keyError) := by
  constructor
  · intro hp hb
    refine ⟨{ g with movesDone := g.movesDone + 1 }, ?_, rfl, rfl⟩
    unfold doMove
    simp only [(inside_iff _ _).2 hp]
    simp [hb]
  · intro hp
    unfold doMove
    have : inside g.size pos = false := by
      rw [Bool.eq_false_iff]; exact fun h => hp ((inside_iff _ _).1 h)
    simp [this]

/-- C34. In every game of accepted moves (any alternation of colours), as long as there is no winner there is no line of five on the board. -/
theorem C34_no_five (size : Nat × Nat) (g : Game) (h : Reached size g) (hw : ∀ c, g.winner ≠ some (.won c)) (c : Color) (start dir : Pos) :
    ¬ FiveLine size g.b c start dir := by
  obtain ⟨_, _, _, hn, hd⟩ := reached_inv h
  rcases hg : g.winner with _ | r
  · exact (hn hg).2 c start dir
  · cases r with
    | won c' => exact absurd hg (hw c')
    | draw => exact (hd hg).2 c start dir

/-- C34. In every game of accepted moves the counter is the number of stones, and the game is a draw exactly if the board is full and
nobody has won. -/
theorem C34_draw (size : Nat × Nat) (g : Game) (h : Reached size g) :
    g.movesDone = stones size g.b ∧
    (g.winner = some .draw ↔ (∀ p, Point size p → g.b p ≠ .empty) ∧ ∀ c, g.winner ≠ some (.won c)) := by
  obtain ⟨_, _, hst, hn, hd⟩ := reached_inv h
  refine ⟨hst.symm, ?_⟩
  rw [← full_iff, hst]
  constructor
  · intro e; exact ⟨(hd e).1, fun c => by rw [e]; simp⟩
  · rintro ⟨h1, h2⟩
    rcases hg : g.winner with _ | r
    · exact absurd h1 (hn hg).1
    · cases r with
      | won c' => exact absurd hg (h2 c')
      | draw => rfl

/-- C34. `getLegals` lists the empty points, `getKilling` exactly those where a stone of the colour wins at once. -/
theorem C34_killing (g : Game) (hu : g.winner = none) (c : Color) (pos : Pos) :
    (pos ∈ getLegals g ↔ ∃ g', doMove g c pos = .ok (g', true)) ∧
    (pos ∈ getKilling g c ↔ ∃ g', doMove g c pos = .ok (g', true) ∧ g'.winner = some (.won c)) := by
  have hl : pos ∈ getLegals g ↔ Point g.size pos ∧ g.b pos = .empty := by
    rw [getLegals, List.mem_filter, iterPos_eq, mem_points, decide_eq_true_eq]
  refine ⟨?_, ?_⟩
  · rw [hl]
    exact ⟨fun h => doMove_accepts g c pos h.1 h.2, fun ⟨g', h⟩ => ⟨(doMove_legal h).1, (doMove_legal h).2.1⟩⟩
  · rw [getKilling, List.mem_filter, hl]
    constructor
    · rintro ⟨⟨h1, h2⟩, h3⟩
      obtain ⟨g', h4, h5, _⟩ := C34_win g hu c pos h1 h2
      exact ⟨g', h4, h5.2 ((fiveRow_iff _ _ _ _ h1).1 h3)⟩
    · rintro ⟨g', h4, h5⟩
      have h1 := (doMove_legal h4).1
      have h2 := (doMove_legal h4).2.1
      obtain ⟨g'', h6, h7, _⟩ := C34_win g hu c pos h1 h2
      rw [h4] at h6
      simp only [Except.ok.injEq, Prod.mk.injEq, and_true] at h6
      subst h6
      exact ⟨⟨h1, h2⟩, (fiveRow_iff _ _ _ _ h1).2 (h7.1 h5)⟩

/-- several attempted moves (refused ones included) -/
def attempts : List (Color × Pos) → Game → Except Err Game
  | [], g => .ok g
  | (c, p) :: ms, g => match doMove g c p with
    | .error e => .error e
    | .ok (g', _) => attempts ms g'

def emptyFive : Game := { size := (5, 5), movesDone := 0, winner := none, b := fun _ => .empty, pairsTaken := fun _ => 0 }

/-- C34, violated once moves are refused: refused attempts are counted as well, so a 5 × 5 game with two stones on the board is
declared a draw. -/
theorem C34_negation_refused_moves : newGomoku (5, 5) = .ok emptyFive ∧
    ∃ g, attempts ((.black, (0, 0)) :: List.replicate 23 (.white, (0, 0)) ++ [(.white, (0, 1))]) emptyFive = .ok g ∧
      g.winner = some .draw ∧ g.b (1, 1) = .empty ∧ stones (5, 5) g.b = 2 := by
  refine ⟨rfl, ?_⟩
  refine ⟨_, rfl, ?_, ?_, ?_⟩ <;> decide +kernel

/-- a game meeting the hypotheses: black has four in a row and completes the fifth -/
def fourRow : Game := { emptyFive with b := fun p => if p ∈ [((0 : Int), (0 : Int)), (0, 1), (0, 3), (0, 4)] then .black else .empty }

example : fourRow.winner = none ∧ Point fourRow.size (0, 2) ∧ fourRow.b (0, 2) = .empty ∧ Completes fourRow.size fourRow.b .black (0, 2) ∧
    (0, 2) ∈ getKilling fourRow .black := by
  refine ⟨rfl, by decide, by decide, (fiveRow_iff _ _ _ _ (by decide)).1 (by decide), by decide⟩

example : ∃ g, Reached (5, 5) g ∧ g.movesDone = 1 ∧ g.winner = none := by
  obtain ⟨g', h, hc, _⟩ := C34_win emptyFive rfl .black (2, 2) (by decide) rfl
  have hr : Reached (5, 5) emptyFive := .start rfl
  refine ⟨g', .move hr rfl h, (doMove_legal h).2.2.2.1, ?_⟩
  obtain ⟨_, _, _, _, hcase⟩ := doMove_legal h
  rcases hcase with ⟨hcc, _⟩ | ⟨_, _, hw⟩
  · exact absurd ((fiveRow_iff _ _ _ _ (by decide)).2 hcc) (by decide)
  · rw [hw]; decide

/-! ### C35 Pente -/

/-- C35. On any undecided position, a stone put on an empty point wins exactly if it makes a line of five or brings the captured
pairs to five; otherwise it stays, exactly the flanked enemy pairs in the eight directions are removed, everything else stays, and the
colour's count grows by the number of flanked pairs. -/
theorem C35_move (g : Game) (hu : g.winner = none) (c : Color) (pos : Pos) (hp : Point g.size pos) (he : g.b pos = .empty) :
    ∃ g', penteMove g c pos = .ok (g', true) ∧
      (g'.winner = some (.won c) ↔ Completes g.size g.b c pos ∨ 5 ≤ g.pairsTaken c + pairs g.size g.b c pos) ∧
      (∀ c', c' ≠ c → g'.winner ≠ some (.won c')) ∧
      (g'.winner ≠ some (.won c) →
        g'.b pos = c.cell ∧ (∀ p, Captured g.size g.b c pos p → g'.b p = .empty) ∧
        (∀ p, p ≠ pos → ¬ Captured g.size g.b c pos p → g'.b p = g.b p) ∧
        g'.pairsTaken c = g.pairsTaken c + pairs g.size g.b c pos ∧ ∀ c', c' ≠ c → g'.pairsTaken c' = g.pairsTaken c') := by
  obtain ⟨g', h⟩ := penteMove_accepts g c pos hp he
  refine ⟨g', h, ?_⟩
  obtain ⟨_, _, _, _, hcase⟩ := penteMove_legal h
  rcases hcase with ⟨hc, hw, _, _⟩ | ⟨hc, hlt, hb, hpr, hw⟩
  · refine ⟨by simp [hw, hc], fun c' hne e => ?_, fun hne => absurd hw hne⟩
    rw [hw] at e; simp at e; exact hne e.symm
  · have hnw : ∀ c', g'.winner ≠ some (.won c') := by
      intro c'; rw [hw, hu]; split <;> simp
    refine ⟨⟨fun e => absurd e (hnw c), fun e => ?_⟩, fun c' _ => hnw c', fun _ => ⟨?_, ?_, ?_, ?_, ?_⟩⟩
    · rcases e with e | e
      · exact absurd e hc
      · omega
    · rw [hb, after_kill _ _ _ _ he]; simp
    · intro p hcap
      have hne : p ≠ pos := by
        rintro rfl
        have := (kills_enemy _ _ _ _ _ hcap).2
        rw [he] at this
        exact color_ne_empty _ this.symm
      rw [hb, after_kill _ _ _ _ he, if_neg hne, if_pos ((mem_kills _ _ _ _ _).2 hcap)]
    · intro p hne hcap
      rw [hb, after_kill _ _ _ _ he, if_neg hne, if_neg (fun hk => hcap ((mem_kills _ _ _ _ _).1 hk))]
    · rw [hpr]; simp [upd]
    · intro c' hne; rw [hpr]; simp [upd, hne]

/-- C35. The game starts with one white stone in the centre and one move counted. -/
theorem C35_start (size : Nat × Nat) (g : Game) (h : newPente size = .ok g) :
    g.movesDone = 1 ∧ g.winner = none ∧ (∀ c, g.pairsTaken c = 0) ∧
    ∀ p : Pos, g.b p = if p = (((size.1 / 2 : Nat) : Int), ((size.2 / 2 : Nat) : Int)) then .white else .empty := by
  obtain ⟨_, _, _, hm, hw, hp, hb⟩ := newPente_inv h
  refine ⟨hm, hw, fun c => by rw [hp], fun p => by rw [hb]; rfl⟩

/-- C35. In every game of accepted moves: stones on the board plus captured stones is the number of moves, no count reaches five, and
the game is a draw exactly if the board is full and nobody has won. -/
theorem C35_bookkeeping (size : Nat × Nat) (g : Game) (h : ReachedPente size g) :
    stones size g.b + 2 * (g.pairsTaken .black + g.pairsTaken .white) = g.movesDone ∧ (∀ c, g.pairsTaken c < 5) ∧
    (g.winner = some .draw ↔ (∀ p, Point size p → g.b p ≠ .empty) ∧ ∀ c, g.winner ≠ some (.won c)) := by
  obtain ⟨_, hst, h5, hn, hd⟩ := reachedPente_inv h
  refine ⟨hst, h5, ?_⟩
  rw [← full_iff]
  constructor
  · intro e; exact ⟨hd e, fun c => by rw [e]; simp⟩
  · rintro ⟨h1, h2⟩
    rcases hg : g.winner with _ | r
    · exact absurd h1 (hn hg)
    · cases r with
      | won c' => exact absurd hg (h2 c')
      | draw => rfl

/-- C35. `getKilling` lists exactly the points where a stone of the colour wins at once. -/
theorem C35_killing (g : Game) (hu : g.winner = none) (c : Color) (pos : Pos) :
    pos ∈ penteKilling g c ↔ ∃ g', penteMove g c pos = .ok (g', true) ∧ g'.winner = some (.won c) := by
  have hl : pos ∈ getLegals g ↔ Point g.size pos ∧ g.b pos = .empty := by
    rw [getLegals, List.mem_filter, iterPos_eq, mem_points, decide_eq_true_eq]
  have hlen := kills_length g.size g.b c pos
  have key : pos ∈ penteKilling g c ↔ (Point g.size pos ∧ g.b pos = .empty) ∧ (Completes g.size g.b c pos ∨ 5 ≤ g.pairsTaken c + pairs g.size g.b c pos) := by
    rw [penteKilling, List.mem_append, getKilling, List.mem_filter, List.mem_filter, hl, ← and_or_left, decide_eq_true_eq]
    refine and_congr_right (fun hp => or_congr (fiveRow_iff _ _ _ _ hp.1) ?_)
    omega
  rw [key]
  constructor
  · rintro ⟨⟨h1, h2⟩, h3⟩
    obtain ⟨g', h4, h5, _⟩ := C35_move g hu c pos h1 h2
    exact ⟨g', h4, h5.2 h3⟩
  · rintro ⟨g', h4, h5⟩
    have h1 := (penteMove_legal h4).1
    have h2 := (penteMove_legal h4).2.1
    obtain ⟨g'', h6, h7, _⟩ := C35_move g hu c pos h1 h2
    rw [h4] at h6
    simp only [Except.ok.injEq, Prod.mk.injEq, and_true] at h6
    subst h6
    exact ⟨⟨h1, h2⟩, h7.1 h5⟩

/-- a position meeting the hypotheses: black captures a pair in two directions -/
def twoPairs : Game := { emptyFive with b := fun p =>
  if p ∈ [((0 : Int), (1 : Int)), (0, 2), (1, 0), (2, 0)] then .white else if p ∈ [((0 : Int), (3 : Int)), (3, 0)] then .black else .empty }

example : twoPairs.winner = none ∧ Point twoPairs.size (0, 0) ∧ twoPairs.b (0, 0) = .empty ∧ pairs twoPairs.size twoPairs.b .black (0, 0) = 2 ∧
    Captured twoPairs.size twoPairs.b .black (0, 0) (2, 0) := by
  refine ⟨rfl, by decide, by decide, by decide, (mem_kills _ _ _ _ _).1 (by decide)⟩

example : ∃ g, newPente (7, 6) = .ok g ∧ ReachedPente (7, 6) g := ⟨_, rfl, .start rfl⟩

end Verif.Props

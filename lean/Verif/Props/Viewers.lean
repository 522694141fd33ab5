import Verif.Model.Viewers
import Mathlib.Tactic.Linarith
import Mathlib.Tactic.NormNum
import Mathlib.Tactic.Ring
import Mathlib.Analysis.SpecialFunctions.Trigonometric.Bounds
/-
Properties of the viewers of the flexible cube and of the ship.
-/
namespace Verif.Spec
open Verif.Viewers

/-- The last state of the cube that was sent and arrived. -/
def lastUpdate {A : Type} : A × A → List (CubeMsg A) → A × A
  | p, [] => p
  | _, .update pos center :: ms => lastUpdate (pos, center) ms
  | p, .reset :: ms => lastUpdate p ms
  | p, .lost :: ms => lastUpdate p ms

end Verif.Spec

namespace Verif.Props
open Verif.Spec Verif.Viewers

/-- For every sequence of messages, of which any may be lost, the viewer of the cube shows the points and the centre of the last state that arrived, at first those of the start. (Resets should count here, but do not: `C206_negation_reset`.) -/
theorem C206_cube_partial {A : Type} (ones c₀ : A) (ms : List (CubeMsg A)) :
    ms.foldl (Cube.idle ones c₀) (Cube.start ones c₀) = ⟨.arr (lastUpdate (ones, c₀) ms).1, .arr (lastUpdate (ones, c₀) ms).2⟩ := by
  have key : ∀ (ms : List (CubeMsg A)) (p : A × A), ms.foldl (Cube.idle ones c₀) ⟨.arr p.1, .arr p.2⟩ = ⟨.arr (lastUpdate p ms).1, .arr (lastUpdate p ms).2⟩ := by
    intro ms
    induction ms with
    | nil => exact fun p => rfl
    | cons m ms ih =>
      intro p
      cases m with
      | update pos center =>
        have e : Cube.idle ones c₀ ⟨.arr p.1, .arr p.2⟩ (.update pos center) = ⟨.arr pos, .arr center⟩ := by simp [Cube.idle, Cube.receive, CubeMsg.sent, listen, eval, Val.hasArray]
        rw [List.foldl_cons, e]
        exact ih (pos, center)
      | reset =>
        have e : Cube.idle ones c₀ ⟨.arr p.1, .arr p.2⟩ .reset = ⟨.arr p.1, .arr p.2⟩ := by simp [Cube.idle, Cube.receive, CubeMsg.sent, listen, eval, Val.hasArray]
        rw [List.foldl_cons, e]
        exact ih p
      | lost =>
        have e : Cube.idle ones c₀ ⟨.arr p.1, .arr p.2⟩ .lost = ⟨.arr p.1, .arr p.2⟩ := by simp [Cube.idle, Cube.receive, CubeMsg.sent, listen, eval]
        rw [List.foldl_cons, e]
        exact ih p
  exact key ms (ones, c₀)

/-- **C206 fails for resets of the cube**: after any messages, the signal of a reset changes nothing, because the viewer evaluates it twice; so the old points are shown, whatever they are. -/
theorem C206_negation_reset {A : Type} (ones c₀ : A) (ms : List (CubeMsg A)) (pos center : A) (hp : pos ≠ ones) :
    (ms ++ [CubeMsg.reset]).foldl (Cube.idle ones c₀) (Cube.start ones c₀) = ms.foldl (Cube.idle ones c₀) (Cube.start ones c₀) ∧
    (ms ++ [CubeMsg.update pos center, .reset]).foldl (Cube.idle ones c₀) (Cube.start ones c₀) ≠ Cube.start ones c₀ := by
  have h : ∀ ms : List (CubeMsg A), ∀ p : A × A, lastUpdate p (ms ++ [.reset]) = lastUpdate p ms := by
    intro ms
    induction ms with
    | nil => exact fun p => rfl
    | cons m ms ih => intro p; cases m <;> exact ih _
  have h' : ∀ ms : List (CubeMsg A), ∀ p : A × A, lastUpdate p (ms ++ [.update pos center, .reset]) = (pos, center) := by
    intro ms
    induction ms with
    | nil => exact fun p => rfl
    | cons m ms ih => intro p; cases m <;> exact ih _
  refine ⟨?_, fun hc => ?_⟩
  · rw [C206_cube_partial, C206_cube_partial, h]
  · rw [C206_cube_partial, h'] at hc
    simp only [Cube.start, Cube.mk.injEq, Val.arr.injEq] at hc
    exact hp hc.1

/-- For every sequence of states that arrive after a reset, the ship's viewer shows the ship at the sum of its movements since this reset, one for each state: in the direction that the viewer takes for its heading, and by a fiftieth of its speed. -/
theorem C206_ship_partial (s : Ship) (l : List (ℝ × ℝ × ℝ)) :
    (ShipMsg.reset :: l.map fun u => .update u.1 u.2.1 u.2.2).foldlM Ship.idle s =
      some ⟨(l.map fun u => u.2.2 * Real.cos (u.1 / 360 * 3.1428) * 0.02).sum, (l.map fun u => u.2.2 * -Real.sin (u.1 / 360 * 3.1428) * 0.02).sum, s.step + l.length⟩ := by
  have key : ∀ (l : List (ℝ × ℝ × ℝ)) (s : Ship), (l.map fun u => ShipMsg.update u.1 u.2.1 u.2.2).foldlM Ship.idle s =
      some ⟨s.x + (l.map fun u => u.2.2 * Real.cos (u.1 / 360 * 3.1428) * 0.02).sum, s.z + (l.map fun u => u.2.2 * -Real.sin (u.1 / 360 * 3.1428) * 0.02).sum, s.step + l.length⟩ := by
    intro l
    induction l with
    | nil => intro s; simp
    | cons u l ih =>
      intro s
      have e : Ship.idle s (.update u.1 u.2.1 u.2.2) = some ⟨s.x + u.2.2 * Real.cos (u.1 / 360 * 3.1428) * 0.02, s.z + u.2.2 * -Real.sin (u.1 / 360 * 3.1428) * 0.02, s.step + 1⟩ := by
        simp [Ship.idle, ShipMsg.sent, listen, Val.hasArray]
      rw [List.map_cons, List.foldlM_cons, e]
      change List.foldlM Ship.idle _ _ = _
      rw [ih]
      simp only [List.map_cons, List.sum_cons, List.length_cons, Option.some.injEq, Ship.mk.injEq]
      exact ⟨by ring, by ring, by omega⟩
  have e : Ship.idle s .reset = some { s with x := 0, z := 0 } := by simp [Ship.idle, ShipMsg.sent, listen, Val.hasArray]
  rw [List.foldlM_cons, e]
  change List.foldlM Ship.idle _ _ = _
  rw [key]
  simp

/-- **C206 fails for the ship when a message is lost**: the viewer then raises an exception, after any messages and whatever follows. -/
theorem C206_negation_lost (s : Ship) (ms ms' : List ShipMsg) : (ms ++ .lost :: ms').foldlM Ship.idle s = none := by
  induction ms generalizing s with
  | nil =>
    have e : Ship.idle s .lost = none := by simp [Ship.idle, ShipMsg.sent, listen]
    rw [List.nil_append, List.foldlM_cons, e]
    rfl
  | cons m ms ih =>
    rw [List.cons_append, List.foldlM_cons]
    cases Ship.idle s m with
    | none => rfl
    | some t => exact ih t

/-- **C206 fails for the directions of the ship**: the viewer takes half of the angle. A ship that goes south (heading 180 degrees) with any speed forward should move back by a fiftieth of its speed; it is drawn less than a quarter of that. -/
theorem C206_negation_heading (s : Ship) (hdot v : ℝ) (hv : 0 < v) : ∃ t, Ship.idle s (.update 180 hdot v) = some t ∧ s.x + v * Real.cos Real.pi * 0.02 < s.x - v * 0.02 / 4 ∧ s.x - v * 0.02 / 4 < t.x := by
  refine ⟨⟨s.x + v * Real.cos (180 / 360 * 3.1428) * 0.02, s.z + v * -Real.sin (180 / 360 * 3.1428) * 0.02, s.step + 1⟩, by simp [Ship.idle, ShipMsg.sent, listen, Val.hasArray], ?_, ?_⟩
  · rw [Real.cos_pi]
    linarith
  · have h := Real.one_sub_sq_div_two_le_cos (x := 180 / 360 * 3.1428)
    have h1 : (-1 / 4 : ℝ) < Real.cos (180 / 360 * 3.1428) := lt_of_lt_of_le (by norm_num) h
    have h2 : v * (-1 / 4) < v * Real.cos (180 / 360 * 3.1428) := mul_lt_mul_of_pos_left h1 hv
    simp only
    linarith

/-- The hypotheses are met. -/
example : lastUpdate (0, 0) [.update 1 2, .lost, .reset, .update 3 4, .reset, .lost] = ((3, 4) : ℕ × ℕ) := rfl

end Verif.Props
